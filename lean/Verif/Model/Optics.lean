import Verif.Model.BunchList
import Mathlib.LinearAlgebra.Matrix.Determinant.Basic
/-
Model of the optics functions of class Bunch, xboa/bunch/_bunch.py: get_emittance, get_beta,
get_gamma, get_alpha, get_amplitude, build_ellipse_2d, build_penn_ellipse.
-/
namespace Xboa
variable {K : Type} [Field K] [LinearOrder K]

/-- The external numpy functions: `inv` is numpy.linalg.inv (none = LinAlgError), `root n x` is
`x ** (1./n)` for x >= 0, `eigh` is numpy.linalg.eigh (eigenvalues, matrix of eigenvectors). -/
structure LinAlg (K : Type) where
  inv : Mat K → Option (Mat K)
  root : Nat → K → K
  eigh : Mat K → (Nat → K) × Mat K

/-- numpy.linalg.det of a square matrix. -/
def Mat.det (M : Mat K) : K := Matrix.det (Matrix.of fun i j : Fin M.rows => M.entry i j)

/-- The product of two numpy matrices of fitting shapes. -/
def Mat.mul (A B : Mat K) : Mat K :=
  ⟨A.rows, B.cols, fun i j => ∑ k ∈ Finset.range A.cols, A.entry i k * B.entry k j⟩

/-- What is assumed of the external functions. -/
structure LinAlg.Lawful (L : LinAlg K) : Prop where
  inv_ok : ∀ M : Mat K, M.rows = M.cols → M.det ≠ 0 → ∃ N, L.inv M = some N
  inv_mul : ∀ M N : Mat K, M.rows = M.cols → L.inv M = some N → N.rows = M.rows ∧ N.cols = M.rows ∧
    ∀ i j, i < M.rows → j < M.rows → (N.mul M).entry i j = (if i = j then 1 else 0)
  root_nonneg : ∀ n x, 0 ≤ x → 0 ≤ L.root n x
  root_pow : ∀ n x, n ≠ 0 → 0 ≤ x → L.root n x ^ n = x

namespace Bunch

/-- models Bunch.__axis_list, _bunch.py:1907. -/
def axisList : List String := ["x", "y", "z", "t", "ct"]

/-- models _bunch.py:1148-1165 (momentum_variable), for string arguments. -/
def momVar (geo : Bool) (axis : String) : Except Err String :=
  if axisList.contains axis then
    if geo then .ok (axis ++ "'")
    else if axis = "t" ∨ axis = "ct" then .ok "energy"
    else .ok ("p" ++ axis)
  else .error .IndexError

/-- models _bunch.py:1204-1217 (axis_list_to_covariance_list). -/
def covList (geo : Bool) : List String → Except Err (List String)
  | [] => .ok []
  | a :: r =>
    match momVar geo a with
    | .error e => .error e
    | .ok m =>
      match covList geo r with
      | .error e => .error e
      | .ok l => .ok (a :: m :: l)

/-- models _bunch.py:1881-1893 (__cov_mat_picker): `covs == None` of a numpy matrix is an array whose
truth value raises ValueError unless it has one element (not modelled further). -/
def covPicker (b : Bunch K) : Except Err (Option (Mat K)) :=
  match b.covs with
  | none => .ok none
  | some _ => .error .ValueError

/-- models _bunch.py:1107-1111: the matrix used for the emittance. -/
def emitCov (E : Ext K) (w : BWorld K) (b : Bunch K) (cov_list : List String)
    (cov : Option (Mat K)) : Except Err (Mat K) :=
  match cov with
  | some m => .ok m
  | none =>
    match covPicker b with
    | .error e => .error e
    | .ok (some m) => .ok m
    | .ok none => covarianceMatrix E w b cov_list []

/-- models _bunch.py:1079-1115 (get_emittance).  The argument `geometric` has no effect on the
result (the global flag is used in lines 1106 and 1113) and is left out.  A negative determinant
gives nan and a zero mass inf or nan (numpy numbers): not modelled further. -/
def getEmittance (L : LinAlg K) (E : Ext K) (w : BWorld K) (b : Bunch K) (axes : List String)
    (cov : Option (Mat K)) : Except Err K :=
  match covList w.geo axes with
  | .error e => .error e
  | .ok cl =>
    match emitCov E w b cl cov with
    | .error e => .error e
    | .ok M =>
      if M.rows ≠ M.cols then .error .LinAlgError
      else if cl.length = 0 then .error .ZeroDivisionError
      else if M.det < 0 then .error .Unmodelled
      else if w.geo then .ok (L.root cl.length M.det)
      else
        match b.hits with
        | [] => .error .IndexError
        | h :: _ =>
          if (w.hits h).d .mass = 0 then .error .Unmodelled
          else .ok (L.root cl.length M.det / (w.hits h).d .mass)

/-- `self.hits()[0].get('mass')` -/
def firstMass (w : BWorld K) (b : Bunch K) : Except Err K :=
  match b.hits with
  | [] => .error .IndexError
  | h :: _ => .ok ((w.hits h).d .mass)

/-- `self.mean([v])[v]` as a number -/
def meanOf (E : Ext K) (w : BWorld K) (b : Bunch K) (v : String) : Except Err K :=
  match mean E w b [v] with
  | .error e => .error e
  | .ok d =>
    match d.lookup v with
    | some (.flt a) => .ok a
    | some (.int n) => .ok (n : K)
    | some _ => .error .TypeError
    | none => .error .KeyError

/-- `self.moment([u,v], self.mean([u,v]))`  -/
def cov2 (E : Ext K) (w : BWorld K) (b : Bunch K) (u v : String) : Except Err K :=
  match mean E w b [u, v] with
  | .error e => .error e
  | .ok d => moment E w b [u, v] d

/-- sum of results over the axes, models the loops of _bunch.py:905-906, 933-935, 963-965 -/
def sumAxes (f : String → Except Err K) : List String → K → Except Err K
  | [], acc => .ok acc
  | a :: r, acc =>
    match f a with
    | .error e => .error e
    | .ok x => sumAxes f r (acc + x)

/-- Python float division -/
def pyDiv (a b : K) : Except Err K := if b = 0 then .error .ZeroDivisionError else .ok (a / b)

/-- `self.moment([mom, mom], self.mean([mom]))` with mom the momentum of the axis, _bunch.py:934-935 -/
def momVariance (E : Ext K) (w : BWorld K) (b : Bunch K) (geometric : Bool) (a : String) :
    Except Err K :=
  match momVar geometric a with
  | .error e => .error e
  | .ok m => cov2 E w b m m

/-- `self.moment([axis, mom], self.mean([axis, mom]))`, _bunch.py:964-965 -/
def axisCov (E : Ext K) (w : BWorld K) (b : Bunch K) (geometric : Bool) (a : String) :
    Except Err K :=
  match momVar geometric a with
  | .error e => .error e
  | .ok m => cov2 E w b a m

/-- models _bunch.py:885-911 (get_beta). -/
def getBeta (L : LinAlg K) (E : Ext K) (w : BWorld K) (b : Bunch K) (axes : List String)
    (geometric : Bool) : Except Err K := do
  let e ← getEmittance L E w b axes none
  let s ← sumAxes (fun a => cov2 E w b a a) axes 0
  if geometric then pyDiv s (e * (axes.length : K))
  else
    let p ← meanOf E w b "p"
    let m ← firstMass w b
    let f ← pyDiv p (e * m * (axes.length : K))
    return s * f

/-- models _bunch.py:913-939 (get_gamma). -/
def getGamma (L : LinAlg K) (E : Ext K) (w : BWorld K) (b : Bunch K) (axes : List String)
    (geometric : Bool) : Except Err K := do
  let e ← getEmittance L E w b axes none
  let s ← sumAxes (momVariance E w b geometric) axes 0
  let s ← if geometric then .ok s
    else do
      let p ← meanOf E w b "p"
      let m ← firstMass w b
      pyDiv s (p * m)
  pyDiv s (e * (axes.length : K))

/-- models _bunch.py:941-971 (get_alpha). -/
def getAlpha (L : LinAlg K) (E : Ext K) (w : BWorld K) (b : Bunch K) (axes : List String)
    (geometric : Bool) : Except Err K := do
  let e ← getEmittance L E w b axes none
  let s ← sumAxes (axisCov E w b geometric) axes 0
  let a ← if geometric then pyDiv s (e * (axes.length : K))
    else do
      let m ← firstMass w b
      pyDiv s (e * m * (axes.length : K))
  return -a

/-- `v M v^T` for a row vector given as a list -/
def quad (M : Mat K) (v : List K) : K :=
  ∑ j ∈ Finset.range v.length, ∑ k ∈ Finset.range v.length, v.getD j 0 * M.entry j k * v.getD k 0

/-- Means as plain numbers for get_vector. -/
def numDict : List (String × PyVal K) → Except Err (List (String × K))
  | [] => .ok []
  | (k, .flt v) :: r =>
    match numDict r with
    | .error e => .error e
    | .ok l => .ok ((k, v) :: l)
  | (k, .int n) :: r =>
    match numDict r with
    | .error e => .error e
    | .ok l => .ok ((k, (n : K)) :: l)
  | _ :: _ => .error .TypeError

/-- models _bunch.py:1167-1202 (get_amplitude) with covariance_matrix None and mean_dict {} for a
bunch without internal means; geometric is the global flag. -/
def getAmplitude (L : LinAlg K) (E : Ext K) (w : BWorld K) (b : Bunch K) (hit : Nat)
    (axes : List String) : Except Err K :=
  match covList w.geo axes with
  | .error e => .error e
  | .ok cl =>
    match mean E w b cl with
    | .error e => .error e
    | .ok d =>
      match numDict d with
      | .error e => .error e
      | .ok means =>
        match (Hit.get_vector E cl means (w.hview hit)).1 with
        | .error e => .error e
        | .ok v =>
          match emitCov E w b cl none with
          | .error e => .error e
          | .ok M =>
            match L.inv M with
            | none => .error .LinAlgError
            | some N =>
              match getEmittance L E w b axes (some M) with
              | .error e => .error e
              | .ok eps => .ok (quad N v * eps)

/-- models _bunch.py:1411-1444 (build_ellipse_2d). -/
def buildEllipse2d (beta alpha emittance p mass : K) (geometric : Bool) : Except Err (Mat K) :=
  if beta = 0 then .error .ZeroDivisionError
  else
    let gamma := (1 + alpha ^ 2) / beta
    if beta ≤ 0 then .error .ValueError
    else if emittance ≤ 0 then .error .ValueError
    else if geometric then
      .ok ⟨2, 2, fun i j => if i = 0 ∧ j = 0 then beta * emittance
        else if i = 1 ∧ j = 1 then gamma * emittance else -alpha * emittance⟩
    else if p = 0 then .error .ZeroDivisionError
    else
      .ok ⟨2, 2, fun i j => if i = 0 ∧ j = 0 then beta * emittance * mass / p
        else if i = 1 ∧ j = 1 then gamma * emittance * mass * p else -alpha * emittance * mass⟩

/-- models _bunch.py:1470-1505 (build_penn_ellipse); `c` is Common.constants['c_light']. -/
def buildPennEllipse (c emittance mass beta alpha p Ltwiddle bz q : K) : Except Err (Mat K) :=
  if beta ≤ 0 then .error .ValueError
  else if emittance ≤ 0 then .error .ValueError
  else if mass ≤ 0 then .error .ValueError
  else if p = 0 then .error .ZeroDivisionError
  else
    let k := c * bz / 2 / p
    let gamma := (1 + alpha * alpha + (beta * k - Ltwiddle) * (beta * k - Ltwiddle)) / beta
    let s_xx := emittance * mass * beta / p
    let s_xpx := -emittance * mass * alpha
    let s_pxpx := emittance * mass * p * gamma
    let s_xpy := -emittance * mass * (beta * k - Ltwiddle) * q
    let rows : List (List K) := [[s_xx, s_xpx, 0, s_xpy], [s_xpx, s_pxpx, -s_xpy, 0],
      [0, -s_xpy, s_xx, s_xpx], [s_xpy, 0, s_xpx, s_pxpx]]
    .ok ⟨4, 4, fun i j => (rows.getD i []).getD j 0⟩

end Bunch
end Xboa
