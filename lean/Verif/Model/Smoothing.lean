import Mathlib.Algebra.BigOperators.Intervals
import Mathlib.Algebra.Field.Basic
import Mathlib.Order.Lattice
import Mathlib.Algebra.Order.Group.Unbundled.Abs
import Verif.Model.Py
/-
Model of xboa/algorithms/smoothing: GaussianSmoothing and CutSmoothing.
-/
namespace Xboa
namespace Smoothing
variable {K : Type} [Field K] [LinearOrder K]

/-- models _gaussian_smoothing.py:54-56: the weight at index `w` of the list of 2 range_ + 1 weights;
`exp` is math.exp.  (sigma = 0 raises ZeroDivisionError, not modelled.) -/
def gaussWeight (exp : K → K) (sigma : K) (range_ w : Nat) : K :=
  exp (-((w : K) - range_) ^ 2 / (2 * sigma ^ 2))

/-- models _gaussian_smoothing.py:57-59: None when the normalisation is adjusted at the boundary. -/
def gaussNorm (wt : Nat → K) (range_ : Nat) (adjust : Bool) : Option K :=
  if adjust then none else some (∑ w ∈ Finset.range (2 * range_ + 1), wt w)

/-- models _gaussian_smoothing.py:66-83 (_smooth_one) with the weights `wt`; range_ >= 0. -/
def smoothOne (wt : Nat → K) (range_ : Nat) (norm : Option K) (signal : List K) (i : Nat) : K :=
  let s0 := i - range_
  let s1 := min signal.length (i + range_ + 1)
  let thisNorm := match norm with
    | none => ∑ s ∈ Finset.Ico s0 s1, wt (s + range_ - i)
    | some n => n
  ∑ s ∈ Finset.Ico s0 s1, wt (s + range_ - i) * signal.getD s 0 / thisNorm

/-- models _gaussian_smoothing.py:43-64 (__init__ and smooth). -/
def gaussian (exp : K → K) (sigma : K) (range_ : Nat) (adjust : Bool) (signal : List K) : List K :=
  let wt := gaussWeight exp sigma range_
  (List.range signal.length).map fun i => smoothOne wt range_ (gaussNorm wt range_ adjust) signal i

/-- models _cut_smoothing.py:54-91 (CutSmoothing.smooth_table) as far as it gets: the columns are
checked, then `range(n_signal/self.step)` raises TypeError, because `/` gives a float (Python 3), or
ZeroDivisionError for step 0. -/
def cutSmoothTable (step : Int) (table : List (List K)) (target : Nat) :
    Except Err (List (List K)) :=
  match table[target]? with
  | none => .error .IndexError
  | some signal =>
    if table.any (fun c => c.length != signal.length) then .error .IndexError
    else if step = 0 then .error .ZeroDivisionError
    else .error .TypeError

/-- models _cut_smoothing.py:45-52 (CutSmoothing.smooth). -/
def cutSmooth (step : Int) (signal : List K) : Except Err (List K) :=
  match cutSmoothTable step [signal] 0 with
  | .error e => .error e
  | .ok t => .ok (t.getD 0 [])

/-! ### CutSmoothing with the division of Python 2

The module was written for Python 2, where `/` of two integers rounds down. -/

/-- numpy.mean of a list with elements -/
def mean (l : List K) : K := l.sum / (l.length : K)

/-- models _cut_smoothing.py:77-78 and 81-82: the loop over the positions lo .. lo + len - 1 -/
def markWindow (signal : List K) (mean cut : K) (lo len : Nat) (marks : List Bool) : List Bool :=
  (List.range' lo len).foldl
    (fun marks j => marks.set j (decide (|signal.getD j 0 - mean| > cut))) marks

/-- models _cut_smoothing.py:80: signal[n_signal-step:n_signal]; a negative first index counts from the
end and is cut off at the first element. -/
def lastSlice (signal : List K) (step : Nat) : List K :=
  let n := signal.length
  if step ≤ n then signal.drop (n - step) else signal.drop (n + n - step)

/-- models _cut_smoothing.py:75-82: will_cut_data, for step > 0 -/
def willCut (cut : K) (step : Nat) (signal : List K) : List Bool :=
  let n := signal.length
  let marks := (List.range (n / step)).foldl
    (fun marks i => markWindow signal (mean ((signal.drop (i * step)).take ((i + 1) * step - i * step))) cut
      (i * step) ((i + 1) * step - i * step) marks) (List.replicate n false)
  markWindow signal (mean (lastSlice signal step)) cut (n / step * step) (n - n / step * step) marks

/-- models _cut_smoothing.py:86-90: the body of the loop over the columns; the pair is the column and
n_cuts. -/
def deleteMarked {α : Type} (marks : List Bool) (column : List α) : List α :=
  ((List.range marks.length).foldl
    (fun (p : List α × Nat) i => if marks.getD i false then (p.1.eraseIdx (i - p.2), p.2 + 1) else p)
    (column, 0)).1

/-- models _cut_smoothing.py:54-91 (CutSmoothing.smooth_table) in Python 2, step >= 0. -/
def cutSmoothTable2 (cut : K) (step : Nat) (table : List (List K)) (target : Nat) :
    Except Err (List (List K)) :=
  match table[target]? with
  | none => .error .IndexError
  | some signal =>
    if table.any (fun c => c.length != signal.length) then .error .IndexError
    else if step = 0 then .error .ZeroDivisionError
    else .ok (table.map (deleteMarked (willCut cut step signal)))

/-- models _cut_smoothing.py:45-52 (CutSmoothing.smooth) in Python 2. -/
def cutSmooth2 (cut : K) (step : Nat) (signal : List K) : Except Err (List K) :=
  match cutSmoothTable2 cut step [signal] 0 with
  | .error e => .error e
  | .ok t => .ok (t.getD 0 [])

end Smoothing
end Xboa
