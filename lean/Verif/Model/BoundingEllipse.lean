import Verif.Model.Grid
/-
Model of xboa/bunch/weighting/_bounding_ellipse.py: class BoundingEllipse.  A point is a list of
numbers.
-/
namespace Xboa
variable {K : Type} [Field K] [LinearOrder K]

/-- The attributes of a BoundingEllipse (ellipse_det is not used by the class). -/
structure BoundingEllipse (K : Type) where
  dim : Nat
  boundingPoints : List (List K)
  inv : Mat K
  mean : List K

namespace BoundingEllipse

/-- models _bounding_ellipse.py:42-76 (__init__), for an integer limit_n_per_dim, a two dimensional
limit_ellipse and a one dimensional limit_mean. -/
def new (L : LinAlg K) (E : Ext K) (ellipse : Mat K) (mean : List K) (n : Int) :
    Except Err (BoundingEllipse K) :=
  let dim := ellipse.rows
  if n < 1 then .error .ValueError
  else if ellipse.cols ≠ dim then .error .ValueError
  else if mean.length ≠ dim then .error .ValueError
  else
    match Common.makeShell L E n.toNat ellipse none with
    | .error e => .error e
    | .ok pts =>
      let bp := pts.map fun row => (List.range dim).map fun j => row.getD j 0 + mean.getD j 0
      match L.inv ellipse with
      | none => .error .LinAlgError
      | some N => .ok ⟨dim, bp, N, mean⟩

/-- models the loop _bounding_ellipse.py:93-103; the fuel is the number of points not yet looked
at, see `cutOnBound`. -/
def cutLoop (b : BoundingEllipse K) : Nat → List (List K) → Nat → Nat → List Nat →
    List (List K) × List Nat
  | 0, points, _, _, notCut => (points, notCut)
  | fuel + 1, points, i, index, notCut =>
    if i < points.length then
      let delta := List.zipWith (· - ·) (points.getD i []) b.mean
      if Bunch.quad b.inv delta > 1 then cutLoop b fuel (points.eraseIdx i) i (index + 1) notCut
      else cutLoop b fuel points (i + 1) (index + 1) (notCut ++ [index])
    else (points, notCut)

/-- models _bounding_ellipse.py:78-104 (cut_on_bound).  Each round of the loop either removes a
point or advances, so it ends after as many rounds as there are points. -/
def cutOnBound (b : BoundingEllipse K) (points : List (List K)) : List (List K) × List Nat :=
  cutLoop b points.length points 0 0 []

end BoundingEllipse
end Xboa
