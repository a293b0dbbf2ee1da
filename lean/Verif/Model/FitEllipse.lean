import Verif.Model.Optics
/-
Model of xboa/common/_common.py: fit_ellipse and its helpers.  A point is a list of numbers; all
points have the same dimension and there is one weight for each point.
-/
namespace Xboa
namespace Common
variable {K : Type} [Field K] [LinearOrder K]

/-- models _common.py:954-956 (_sum_weight). -/
def sumWeight (weights : List K) (inCut : List Bool) : K :=
  ∑ i ∈ Finset.range inCut.length, if inCut.getD i false then weights.getD i 0 else 0

/-- models _common.py:958-974 (_get_fit_ellipse_covariance_matrix).  With no points points[0] raises
IndexError; a division by a total weight of 0 raises ZeroDivisionError (if any point is in the
cut and has a dimension). -/
def fitCov (points : List (List K)) (weights : List K) (inCut : List Bool) :
    Except Err (List K × Mat K) :=
  match points with
  | [] => .error .IndexError
  | p0 :: _ =>
    let sw := sumWeight weights inCut
    let d := p0.length
    let n := points.length
    if sw = 0 ∧ 0 < d ∧ (∃ i ∈ Finset.range n, inCut.getD i false = true) then
      .error .ZeroDivisionError
    else
      let co := fun i j => (points.getD i []).getD j 0
      let mean := fun j => ∑ i ∈ Finset.range n,
        if inCut.getD i false then co i j / sw * weights.getD i 0 else 0
      let cov := fun j k => (∑ i ∈ Finset.range n,
        if inCut.getD i false then co i j * co i k / sw * weights.getD i 0 else 0) - mean j * mean k
      .ok ((List.range d).map mean, ⟨d, d, cov⟩)

/-- models _common.py:976-986 (_update_fit_ellipse_cut).  The square root of a negative determinant
is nan, with which every comparison is False; a zero determinant does not occur for an inverse
matrix (not modelled: the cut is then left to `eps < eps_cut` with eps = x / 0 = 0). -/
def updateCut (E : Ext K) (points : List (List K)) (covInv : Mat K) (mean : List K) (epsCut : K) :
    List Bool :=
  points.map fun p =>
    decide (0 ≤ covInv.det) &&
      decide (Bunch.quad covInv (List.zipWith (· - ·) p mean) / E.sqrt covInv.det < epsCut)

/-- The local variables of fit_ellipse. -/
structure FitState (K : Type) where
  mean : List K
  cov : Mat K
  oldDet : K
  inCut : List Bool

/-- the loop condition, _common.py:1017-1018, without the counter -/
def fitGoesOn (s : FitState K) : Prop := |s.cov.det - s.oldDet| > 1 / 1000000000

/-- models the loop body, _common.py:1019-1027: the new state, and whether an exception was raised
(the assignments done before it stay). -/
def fitRound (L : LinAlg K) (E : Ext K) (points : List (List K)) (weights : List K) (epsCut : K)
    (s : FitState K) : FitState K × Bool :=
  let oldDet := s.cov.det
  match fitCov points weights s.inCut with
  | .error _ => ({ s with oldDet := oldDet }, true)
  | .ok (mean, cov) =>
    match L.inv cov with
    | none => ({ s with oldDet := oldDet, mean := mean, cov := cov }, true)
    | some N => (⟨mean, cov, oldDet, updateCut E points N mean epsCut⟩, false)

open Classical in
/-- models the while loop, _common.py:1016-1031 (without the messages); `n` is the number of rounds
still allowed.  An exception ends the loop.  Returns the state and the number of rounds begun. -/
noncomputable def fitLoop (L : LinAlg K) (E : Ext K) (points : List (List K)) (weights : List K)
    (epsCut : K) : Nat → FitState K → FitState K × Nat
  | 0, s => (s, 0)
  | n + 1, s =>
    if fitGoesOn s then
      match fitRound L E points weights epsCut s with
      | (t, true) => (t, 1)
      | (t, false) =>
        let r := fitLoop L E points weights epsCut n t
        (r.1, r.2 + 1)
    else (s, 0)

/-- the state before the loop, _common.py:1010-1015. -/
def fitInit (points : List (List K)) : FitState K :=
  ⟨[1, 1], ⟨2, 2, fun _ _ => 1⟩, 1, points.map fun _ => true⟩

/-- models _common.py:988-1037 (fit_ellipse). -/
noncomputable def fitEllipse (L : LinAlg K) (E : Ext K) (points : List (List K)) (epsCut : K)
    (weights : Option (List K)) (maxIter : Nat) : List K × Mat K :=
  let r := fitLoop L E points (weights.getD (points.map fun _ => 1)) epsCut maxIter (fitInit points)
  (r.1.mean, r.1.cov)

end Common
end Xboa
