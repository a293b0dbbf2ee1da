import Verif.Model.Tracking
import Mathlib.Analysis.SpecialFunctions.Complex.Arg
import Mathlib.LinearAlgebra.Matrix.NonsingularInverse
/-
Model of xboa/algorithms/decoupled_transfer_matrix.py: DecoupledTransferMatrix without print_tests.
Numbers are real and complex numbers.  A matrix of the model has its dimension as type parameter; the
matrix that is passed to the constructor is given by its shape (at least 1 x 1) and its entries.
numpy.linalg.eig is a parameter; that it may not converge is left out.
-/
namespace Xboa
namespace Decoupled

/-- numpy.linalg.eig: eigenvalues, and a matrix with the eigenvectors as columns. -/
abbrev Eig := (N : Nat) → Matrix (Fin N) (Fin N) ℝ → (Fin N → ℂ) × Matrix (Fin N) (Fin N) ℂ

/-- the attributes of DecoupledTransferMatrix -/
structure Dtm (N : Nat) where
  m : Matrix (Fin N) (Fin N) ℝ
  dim : Nat
  evalue : Fin N → ℂ
  evector : Matrix (Fin N) (Fin N) ℂ
  tEvector : Matrix (Fin N) (Fin N) ℂ
  r : Matrix (Fin N) (Fin N) ℂ
  t : Matrix (Fin N) (Fin N) ℂ
  vT : Matrix (Fin N) (Fin N) ℝ
  phase : List ℝ

/-- the entry of a matrix at two natural numbers -/
def entry {N : Nat} (E : Matrix (Fin N) (Fin N) ℂ) (i j : Nat) : ℂ :=
  if h : i < N ∧ j < N then E ⟨i, h.1⟩ ⟨j, h.2⟩ else 0

/-- models cmath.sqrt of a real number. -/
noncomputable def csqrt (b : ℝ) : ℂ :=
  if 0 ≤ b then (Real.sqrt b : ℂ) else Complex.I * (Real.sqrt (-b) : ℂ)

/-- models decoupled_transfer_matrix.py:55, :59: evector[j+1]/evector[j], where evector is the i-th
eigenvector and j is 2i. -/
noncomputable def ratio {N : Nat} (E : Matrix (Fin N) (Fin N) ℂ) (i : Nat) : ℂ :=
  entry E (2 * i + 1) i / entry E (2 * i) i

/-- models decoupled_transfer_matrix.py:60. -/
noncomputable def beta {N : Nat} (E : Matrix (Fin N) (Fin N) ℂ) (i : Nat) : ℝ := 1 / (ratio E i).im

/-- models decoupled_transfer_matrix.py:61. -/
noncomputable def alpha {N : Nat} (E : Matrix (Fin N) (Fin N) ℂ) (i : Nat) : ℝ :=
  -beta E i * (ratio E i).re

/-- models decoupled_transfer_matrix.py:56-57. -/
noncomputable def expPhi {N : Nat} (E : Matrix (Fin N) (Fin N) ℂ) (i : Nat) : ℂ :=
  Complex.exp (Complex.I * (Complex.arg (entry E (2 * i) i) : ℂ))

/-- the divisions in decoupled_transfer_matrix.py:59-60 have finite results.  (Otherwise numpy warns and
goes on with nan and inf; FloatingPointError is raised only after numpy.seterr, which nothing calls.) -/
def Finite {N : Nat} (E : Matrix (Fin N) (Fin N) ℂ) (i : Nat) : Prop :=
  entry E (2 * i) i ≠ 0 ∧ (ratio E i).im ≠ 0

/-- models decoupled_transfer_matrix.py:66-67, the column j of t_evector. -/
noncomputable def tColumn {N : Nat} (E : Matrix (Fin N) (Fin N) ℂ) (i row : Nat) : ℂ :=
  if row = 0 then csqrt (beta E i) * expPhi E i
  else 1 / csqrt (beta E i) * (-(alpha E i : ℂ) + Complex.I) * expPhi E i

/-- models decoupled_transfer_matrix.py:50-51, :66-69. -/
noncomputable def tEvectorOf {N : Nat} (E : Matrix (Fin N) (Fin N) ℂ) : Matrix (Fin N) (Fin N) ℂ :=
  Matrix.of fun p q =>
    if p.val / 2 = q.val / 2 then
      if q.val % 2 = 0 then tColumn E (p.val / 2) (p.val % 2)
      else star (tColumn E (p.val / 2) (p.val % 2))
    else 0

/-- models decoupled_transfer_matrix.py:52, :71-77. -/
noncomputable def vTOf {N : Nat} (E : Matrix (Fin N) (Fin N) ℂ) : Matrix (Fin N) (Fin N) ℝ :=
  Matrix.of fun p q =>
    let i := p.val / 2
    let sign : ℝ := if beta E i < 0 then -1 else 1
    if i = q.val / 2 then
      if p.val % 2 = 0 ∧ q.val % 2 = 0 then sign * beta E i
      else if p.val % 2 = 1 ∧ q.val % 2 = 1 then sign * (1 + alpha E i * alpha E i) / beta E i
      else -sign * alpha E i
    else 0

/-- models decoupled_transfer_matrix.py:45-80 (_get_decoupling); `none` if the numbers are not
finite. -/
noncomputable def getDecoupling {N : Nat} (m : Matrix (Fin N) (Fin N) ℝ) (dim : Nat)
    (evalue : Fin N → ℂ) (E : Matrix (Fin N) (Fin N) ℂ) : Except Err (Option (Dtm N)) :=
  open Classical in
  if ∀ i < dim, Finite E i then
    let T := tEvectorOf E
    if T.det = 0 then .error .LinAlgError
    else
      let r := E * T⁻¹
      if r.det = 0 then .error .LinAlgError
      else
        .ok (some {
          m := m, dim := dim, evalue := evalue, evector := E, tEvector := T, r := r
          t := r⁻¹ * (m.map (fun x : ℝ => (x : ℂ)) * r)
          vT := vTOf E
          phase := (List.range dim).map fun i : Nat =>
            if h : 2 * i < N then Complex.arg (evalue ⟨2 * i, h⟩) else 0 })
  else .ok none

/-- models decoupled_transfer_matrix.py:18-43 (__init__).  In Python 3 the test for an odd size is never
true, self.dim is a float, and `[None]*self.dim` raises TypeError. -/
noncomputable def construct (v : Tracking.PyVer) (eig : Eig) (rows cols : Nat) (m : Nat → Nat → ℝ) :
    Except Err (Option (Dtm rows)) :=
  if rows ≠ cols then .error .ValueError
  else if v = .py2 ∧ rows / 2 * 2 ≠ rows then .error .ValueError
  else
    let M : Matrix (Fin rows) (Fin rows) ℝ := Matrix.of fun i j => m i j
    if |M.det - 1| > 1 / 1000000 then .error .ValueError
    else
      match v with
      | .py3 => .error .TypeError
      | .py2 => getDecoupling M (rows / 2) (eig rows M).1 (eig rows M).2

/-- models decoupled_transfer_matrix.py:82-101 (get_v_m). -/
noncomputable def getVM {N : Nat} (D : Dtm N) (e : List ℝ) : Except Err (Matrix (Fin N) (Fin N) ℝ) :=
  if e.length ≠ D.dim then .error .ValueError
  else
    let v : Matrix (Fin N) (Fin N) ℝ := Matrix.of fun p q =>
      if p.val / 2 = q.val / 2 then D.vT p q * e.getD (p.val / 2) 0 else D.vT p q
    .ok ((D.r * v.map (fun x : ℝ => (x : ℂ)) * D.r.transpose).map Complex.re)

/-- models decoupled_transfer_matrix.py:103-110 (get_phase_advance), for axis ≥ 0. -/
def getPhase {N : Nat} (D : Dtm N) (axis : Nat) : Except Err ℝ :=
  match D.phase[axis]? with
  | some x => .ok x
  | none => .error .IndexError

/-- an entry of v_t, as in decoupled_transfer_matrix.py:120, :130, :139. -/
def vEntry {N : Nat} (D : Dtm N) (i j : Nat) : Except Err ℝ :=
  if h : i < N ∧ j < N then .ok (D.vT ⟨i, h.1⟩ ⟨j, h.2⟩) else .error .IndexError

/-- models decoupled_transfer_matrix.py:113-120 (get_beta), for axis ≥ 0. -/
def getBeta {N : Nat} (D : Dtm N) (axis : Nat) : Except Err ℝ := vEntry D (2 * axis) (2 * axis)

/-- models decoupled_transfer_matrix.py:123-130 (get_alpha), for axis ≥ 0. -/
def getAlpha {N : Nat} (D : Dtm N) (axis : Nat) : Except Err ℝ :=
  match vEntry D (2 * axis + 1) (2 * axis) with
  | .ok x => .ok (-x)
  | .error e => .error e

/-- models decoupled_transfer_matrix.py:132-139 (get_gamma), for axis ≥ 0. -/
def getGamma {N : Nat} (D : Dtm N) (axis : Nat) : Except Err ℝ :=
  vEntry D (2 * axis + 1) (2 * axis + 1)

end Decoupled
end Xboa
