import Verif.Model.FitEllipse
/-
Model of xboa/algorithms/tune/_dphi_tune.py: DPhiTuneFinder.get_tune and get_dphi_list.
-/
namespace Xboa
namespace Tune
variable {K : Type} [Field K] [LinearOrder K]

/-- The attributes of a DPhiTuneFinder that matter; `u`, `up` are the data. -/
structure State (K : Type) where
  u : Option (List K)
  up : Option (List K)
  centre : List K
  ellipse : Mat K
  circles : List (K × K)
  dphi : List K

/-- models _dphi_tune.py:78-87: the phase advances, as fractions of a turn, along a list of angles
(`pi` is math.pi). -/
def advances (pi : K) (old : K) : List K → List K
  | [] => []
  | phi :: r =>
    let delta := phi - old
    let delta := if delta < 0 then delta + pi * 2 else delta
    delta / pi / 2 :: advances pi phi r

/-- models _dphi_tune.py:67-87 (get_dphi_list).  `chol` is numpy.linalg.cholesky (none =
LinAlgError).  The advances are appended to those already there. -/
def getDphiList (L : LinAlg K) (E : Ext K) (pi : K) (chol : Mat K → Option (Mat K)) :
    PyM (State K) Unit := fun s =>
  match chol s.ellipse with
  | none => (.error .LinAlgError, s)
  | some C =>
    match L.inv C with
    | none => (.error .LinAlgError, s)
    | some N =>
      let pts := List.zip (s.u.getD []) (s.up.getD [])
      let circles := pts.map fun p =>
        let a := p.1 - s.centre.getD 0 0
        let b := p.2 - s.centre.getD 1 0
        (N.entry 0 0 * a + N.entry 0 1 * b, N.entry 1 0 * a + N.entry 1 1 * b)
      let s := { s with circles := circles }
      match circles.map fun c => -E.atan2 c.2 c.1 with
      | [] => (.error .IndexError, s)
      | phi0 :: phis => (.ok (), { s with dphi := s.dphi ++ advances pi phi0 phis })

/-- numpy.mean of a list; none stands for nan (empty list). -/
def mean (l : List K) : Option K := if l.isEmpty then none else some (l.sum / (l.length : K))

/-- models _dphi_tune.py:24-40 (get_tune); the attributes tune and tune_error are not modelled.
fit_ellipse raises nothing for points with two coordinates. -/
noncomputable def getTune (L : LinAlg K) (E : Ext K) (pi : K) (chol : Mat K → Option (Mat K)) :
    PyM (State K) (Option K) := fun s =>
  match s.u, s.up with
  | some u, some up =>
    let fit := Common.fitEllipse L E ((List.zip u up).map fun p => [p.1, p.2]) 1000000000 none 10
    match getDphiList L E pi chol { s with centre := fit.1, ellipse := fit.2 } with
    | (.error e, s') => (.error e, s')
    | (.ok (), s') => (.ok (mean s'.dphi), s')
  | _, _ => (.error .ValueError, s)

/-- models _dphi_tune.py:13-22 (__init__); the initial centre and ellipse (None) are never used. -/
def new (u up : Option (List K)) : State K := ⟨u, up, [], ⟨0, 0, fun _ _ => 0⟩, [], []⟩

end Tune
end Xboa
