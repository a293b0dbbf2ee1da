import Verif.Model.PeakFinder
import Mathlib.Algebra.BigOperators.Group.List.Basic
/-
Model of UphillDownhillPeakFinder.find_peak_errors_derivative,
xboa/algorithms/peak_finder/_uphill_downhill_peak_finder.py.  The fit of ROOT is a parameter.  Peak
positions and delta_index are not negative.
-/
namespace Xboa
namespace PeakErrors
variable {K : Type} [Field K] [LinearOrder K]

/-- TGraph.Fit of [0]+[1]*x, the other parameters being fixed at 0: the parameters after the fit of the
points, started from 0, and the error of parameter 0. -/
structure LineFitter (K : Type) where
  fit : List (K × K) → K × K
  err : List (K × K) → K

/-- the points of the graph, _uphill_downhill_peak_finder.py:48-62: derivative against position. -/
def points (data : List K) (delta peak : Nat) : List (K × K) :=
  let d := PeakFinder.derivative data
  let xMin := peak - delta
  let xMax := min (peak + delta + 1) d.length
  (List.range (xMax - xMin)).map fun i => (d.getD (xMin + i) 0, ((xMin + i : Nat) : K))

/-- models the body of the loop over the peaks, _uphill_downhill_peak_finder.py:47-82: min of an empty list
raises ValueError.  With draw, make_root_graph is given a range as list of x values, to which multisort
(_common.py:296) cannot assign: TypeError. -/
def onePeak (F : LineFitter K) (draw : Bool) (data : List K) (delta peak : Nat) : Except Err (K × K) :=
  let pts := points data delta peak
  if pts = [] then .error .ValueError
  else if draw then .error .TypeError
  else .ok ((F.fit pts).1, F.err pts)

/-- models _uphill_downhill_peak_finder.py:37-82 (find_peak_errors_derivative). -/
def findPeakErrorsDerivative (F : LineFitter K) (draw : Bool) (data : List K) (delta : Nat) :
    List Nat → Except Err (List (K × K))
  | [] => .ok []
  | peak :: r =>
    match onePeak F draw data delta peak with
    | .error e => .error e
    | .ok x =>
      match findPeakErrorsDerivative F draw data delta r with
      | .error e => .error e
      | .ok l => .ok (x :: l)

end PeakErrors
end Xboa
