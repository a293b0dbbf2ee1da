import Verif.Model.Hit
import Mathlib.Algebra.BigOperators.Group.List.Basic
/-
Model of xboa/algorithms/peak_finder: UphillDownhillPeakFinder.find_peaks and
WindowPeakFinder.find_peaks.
-/
namespace Xboa
namespace PeakFinder
variable {K : Type} [Field K] [LinearOrder K]

/-- models _uphill_downhill_peak_finder.py:34-35 (_get_derivative). -/
def derivative (data : List K) : List K :=
  (List.range (data.length - 1)).map fun i => data.getD (i + 1) 0 - data.getD i 0

/-- models _uphill_downhill_peak_finder.py:85-94 (find_peaks). -/
def uphill (data : List K) : List Nat :=
  let d := derivative data
  ((List.range (d.length - 1)).filter fun i => decide (d.getD i 0 > 0) && decide (d.getD (i + 1) 0 < 0)).map
    (· + 1)

/-- Python `max(test)` and `test.index(max(test))` of a list with first element `a`: the greatest
value and the first position at which it stands.  Used at _window_peak_finder.py:62-63. -/
def maxIndex (a : K) : List K → K × Nat
  | [] => (a, 0)
  | b :: r =>
    let m := maxIndex b r
    if a < m.1 then (m.1, m.2 + 1) else (a, 0)

/-- models the loop body of _window_peak_finder.py:58-78; `w` is window_size, max of an empty window
raises ValueError. -/
def windowStep (E : Ext K) (data : List K) (w : Nat) (threshold : K) (peaks : List Nat) (i : Nat) :
    Except Err (List Nat) :=
  match (data.drop i).take w with
  | [] => .error .ValueError
  | a :: r =>
    let test := a :: r
    let m := maxIndex a r
    if (i ≠ 0 ∧ m.2 = 0) ∨ (i ≠ data.length - w ∧ m.2 = w - 1) then .ok peaks
    else
      let idx := m.2 + i
      if idx ∈ peaks then .ok peaks
      else if threshold < 1 then .ok (peaks ++ [idx])
      else
        let mean := test.sum / (w : K)
        let sigma := E.sqrt ((test.map fun x => x ^ 2).sum - mean ^ 2) / (w : K)
        if m.1 - mean > sigma * threshold then .ok (peaks ++ [idx]) else .ok peaks

/-- the loop over the window starts -/
def windowLoop (E : Ext K) (data : List K) (w : Nat) (threshold : K) :
    List Nat → List Nat → Except Err (List Nat)
  | [], peaks => .ok peaks
  | i :: r, peaks =>
    match windowStep E data w threshold peaks i with
    | .error e => .error e
    | .ok p => windowLoop E data w threshold r p

/-- `range(0, n, step)` for step > 0 -/
def rangeStep (n step : Nat) : List Nat := (List.range n).filter fun i => i % step = 0

/-- models _window_peak_finder.py:36-79 (WindowPeakFinder.find_peaks) for window_size and window_step
>= 0; a step of 0 makes range() raise ValueError. -/
def window (E : Ext K) (windowSize : Nat) (threshold : K) (step : Nat) (data : List K) :
    Except Err (List Nat) :=
  let w := if data.length < windowSize then data.length else windowSize
  if step = 0 then .error .ValueError
  else windowLoop E data w threshold (rangeStep (data.length - w + 1) step) []

end PeakFinder
end Xboa
