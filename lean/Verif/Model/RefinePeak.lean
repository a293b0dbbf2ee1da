import Verif.Model.Tracking
import Verif.Model.FFTTune
import Mathlib.Algebra.Order.Floor.Ring
import Mathlib.Algebra.BigOperators.Fin
/-
Model of xboa/algorithms/peak_finder/_refine_peak_finder.py: RefinePeakFinder without the plots.  The fit
of ROOT is a parameter.  Peak positions, delta_seed and max_delta are not negative, the data are floats.
-/
namespace Xboa
namespace RefinePeak
variable {K : Type} [Field K] [LinearOrder K]

/-- TGraph.Fit of the function [0]+[1]*x+[2]*x*x: the parameters after the fit of the points from given
first parameters, and the covariance matrix of the parameters. -/
structure Fitter (K : Type) where
  fit : List (Int × K) → K × K × K → K × K × K
  cov : List (Int × K) → K × K × K → Fin 3 → Fin 3 → K

/-- TF1.Eval of [0]+[1]*x+[2]*x*x (_refine_peak_finder.py:99,108) -/
def eval (p : K × K × K) (x : K) : K := p.1 + p.2.1 * x + p.2.2 * x * x

/-- models _refine_peak_finder.py:56-67 (sigma). -/
def sigma (E : Ext K) (data : List K) : Except Err K :=
  if data = [] then .error .ZeroDivisionError
  else
    let meanSquareSum := (data.map fun y => y ^ 2).sum / (data.length : K)
    let meanSumSquare := data.sum / (data.length : K)
    .ok (E.sqrt (meanSquareSum - meanSumSquare ^ 2))

/-- Python's l[a:b] for b >= 0 -/
def slice (l : List K) (a : Int) (b : Nat) : List K :=
  (l.take b).drop (if a < 0 then a + l.length else a).toNat

/-- the points of the graph: _refine_peak_finder.py:93-96 -/
def points (data : List K) (peak delta : Nat) : List (Int × K) :=
  let xMin := peak - delta
  let xMax := min (peak + delta + 1) data.length
  (List.range (xMax - xMin)).map fun i : Nat => (((xMin + i : Nat) : Int) - peak, data.getD (xMin + i) 0)

/-- models _refine_peak_finder.py:69-114 (_peak_fit) in Python 2.  make_root_graph raises IndexError if
there is no point (_common.py:590).  The range of the function is not used by a fit without option R. -/
def peakFit (F : Fitter K) (E : Ext K) (data : List K) (peak delta bite : Nat) :
    Except Err (K × List (Int × K) × (K × K × K)) :=
  let pts := points data peak delta
  if pts = [] then .error .IndexError
  else
    let p := F.fit pts (0, 0, 0)
    match sigma E (pts.map fun q => q.2 - eval p (q.1 : K)) with
    | .error e => .error e
    | .ok sigmaDelta =>
      match sigma E (slice (pts.map (·.2)) ((delta : Int) - bite) (delta + bite)) with
      | .error e => .error e
      | .ok sigmaBite =>
        if sigmaBite = 0 then .error .ZeroDivisionError
        else .ok ((sigmaDelta / sigmaBite - 1) * E.sqrt (bite : K), pts, p)

/-- models the loop at _refine_peak_finder.py:130-135: fit_quality and delta_fit after it.  With
delta_fit = 0 the first fit raises, otherwise delta_fit grows; see `widen_fuel`. -/
def widen (F : Fitter K) (E : Ext K) (data : List K) (peak seed thisMax : Nat) : Nat → K → Nat → K × Nat
  | 0, q, delta => (q, delta)
  | n + 1, q, delta =>
    if q < 1 ∧ delta < thisMax then
      match peakFit F E data peak (delta * 2) seed with
      | .error _ => (q, delta * 2)
      | .ok r => widen F E data peak seed thisMax n r.1 (delta * 2)
    else (q, delta)

/-- an element of the list returned by find_peak_errors -/
structure Entry (K : Type) where
  x : K
  y : K
  xIn : Nat
  cov : List (List K)

/-- models _refine_peak_finder.py:164-170,184: J CovP J^T -/
def covPeak (C : Fin 3 → Fin 3 → K) (p1 p2 : K) : List (List K) :=
  let J : Fin 2 → Fin 3 → K := fun a => if a = 0 then ![0, -1 / 2 / p2, p1 / 2 / p2 / p2]
    else ![1, -p1 / 2 / p2, p1 * p1 / 4 / p2 / p2]
  let covP : Fin 3 → Fin 3 → K := fun j i => C i j
  let out : Fin 2 → Fin 2 → K := fun a b => ∑ i, ∑ j, J a i * covP i j * J b j
  [[out 0 0, out 1 0], [out 0 1, out 1 1]]

/-- models the body of the loop over the peaks, _refine_peak_finder.py:128-188, in Python 2: fit_quality
and what is appended. -/
def onePeak (F : Fitter K) (E : Ext K) (data : List K) (seed thisMax : Nat) (q : K) (peak : Nat) :
    Except Err (K × Option (Entry K)) :=
  let delta := (widen F E data peak seed thisMax (thisMax + 1) q seed).2 / 2
  match peakFit F E data peak delta seed with
  | .error e => .error e
  | .ok (q', pts, start) =>
    let p := F.fit pts start
    if p.2.2 = 0 then .error .ZeroDivisionError
    else
      let x := -p.2.1 / 2 / p.2.2 + peak
      let y := -p.2.1 * p.2.1 / 4 / p.2.2 + p.1
      if |x - peak| > (delta : K) ∨ x < 0 ∨ x > (data.length : K) then .ok (q', none)
      else .ok (q', some ⟨x, y, peak, covPeak (F.cov pts start) p.2.1 p.2.2⟩)

/-- the loop over the peaks -/
def peaksLoop (F : Fitter K) (E : Ext K) (data : List K) (seed thisMax : Nat) :
    K → List Nat → Except Err (List (Entry K))
  | _, [] => .ok []
  | q, peak :: rest =>
    match onePeak F E data seed thisMax q peak with
    | .error e => .error e
    | .ok (q', e) =>
      match peaksLoop F E data seed thisMax q' rest with
      | .error err => .error err
      | .ok l => .ok (e.toList ++ l)

/-- models _refine_peak_finder.py:116-189 (find_peak_errors).  In Python 3 the fits in the loop raise
because multisort (_common.py:296) assigns to an element of a range, and delta_fit is a float after
`/= 2`, so that range or, if the window covers the data, multisort raises TypeError; without data and
with peak < delta_fit, make_root_graph raises IndexError. -/
def findPeakErrors (v : Tracking.PyVer) (F : Fitter K) (E : Ext K) (peakList : List Nat) (seed maxDelta : Nat)
    (data : List K) : Except Err (List (Entry K)) :=
  match v, peakList with
  | .py3, [] => .ok []
  | .py3, peak :: _ => .error (if data = [] ∧ 2 * peak < seed then .IndexError else .TypeError)
  | .py2, l => peaksLoop F E data seed (min data.length maxDelta) 0 l

/-- models _refine_peak_finder.py:191-203 (find_peaks); int() of a number >= 0 -/
def findPeaks [FloorRing K] (v : Tracking.PyVer) (F : Fitter K) (E : Ext K) (peakList : List Nat)
    (seed maxDelta : Nat) (data : List K) : Except Err (List Int) :=
  match findPeakErrors v F E peakList seed maxDelta data with
  | .error e => .error e
  | .ok l => .ok (l.map fun e => ⌊e.x⌋)

end RefinePeak
end Xboa
