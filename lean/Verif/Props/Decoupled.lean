import Verif.Model.Decoupled
import Mathlib.LinearAlgebra.Matrix.PosDef
import Mathlib.Tactic.LinearCombination
import Mathlib.Tactic.FieldSimp
/-
C83: DecoupledTransferMatrix finds the periodic ellipse of a transfer matrix.
-/
set_option linter.unusedSectionVars false
namespace Xboa
namespace Decoupled
open Tracking (PyVer)

/-! ### Specification -/

/-- what is assumed of numpy.linalg.eig for a matrix: the columns are eigenvectors -/
def EigLaw {N : Nat} (m : Matrix (Fin N) (Fin N) ℝ) (lam : Fin N → ℂ)
    (E : Matrix (Fin N) (Fin N) ℂ) : Prop :=
  ∀ p k, ∑ q, (m p q : ℂ) * E q k = lam k * E p k

/-- eigenvalues 2i and 2i+1 are complex conjugate of modulus 1, and the eigenvectors complex conjugate:
the motion is stable and the eigenvalues come in pairs -/
structure Stable {N : Nat} (lam : Fin N → ℂ) (E : Matrix (Fin N) (Fin N) ℂ) : Prop where
  value : ∀ p q : Fin N, p.val % 2 = 0 → q.val = p.val + 1 → lam q = star (lam p)
  modulus : ∀ p : Fin N, lam p * star (lam p) = 1
  vector : ∀ p q k : Fin N, p.val % 2 = 0 → q.val = p.val + 1 → E k q = star (E k p)

/-! ### Lemmas -/

section blocks
variable {N : Nat}

/-- first index of the block of `p` -/
def lo (hN : N % 2 = 0) (p : Fin N) : Fin N := ⟨2 * (p.val / 2), by have := p.isLt; omega⟩
/-- second index of the block of `p` -/
def hi (hN : N % 2 = 0) (p : Fin N) : Fin N := ⟨2 * (p.val / 2) + 1, by have := p.isLt; omega⟩

theorem sum_block {R : Type} [AddCommMonoid R] (hN : N % 2 = 0) (p : Fin N) (f : Fin N → R)
    (h0 : ∀ k : Fin N, k.val / 2 ≠ p.val / 2 → f k = 0) :
    ∑ k, f k = f (lo hN p) + f (hi hN p) := by
  have hne : lo hN p ≠ hi hN p := by
    intro h
    have := congrArg Fin.val h
    simp only [lo, hi] at this
    omega
  rw [← Finset.sum_pair hne]
  symm
  apply Finset.sum_subset (Finset.subset_univ _)
  intro k _ hk
  apply h0
  intro hb
  apply hk
  simp only [Finset.mem_insert, Finset.mem_singleton, Fin.ext_iff, lo, hi]
  omega

/-- `D` of the specification of the ellipse: half the emittances off the diagonal of each block -/
noncomputable def swap (e : Nat → ℝ) : Matrix (Fin N) (Fin N) ℂ := Matrix.of fun p q =>
  if p.val / 2 = q.val / 2 ∧ p ≠ q then ((e (p.val / 2) / 2 : ℝ) : ℂ) else 0

theorem mul_swap_mul (hN : N % 2 = 0) {A B : Matrix (Fin N) (Fin N) ℂ} (e : Nat → ℝ)
    (hA : ∀ p q : Fin N, p.val / 2 ≠ q.val / 2 → A p q = 0)
    (hB : ∀ p q : Fin N, p.val / 2 ≠ q.val / 2 → B p q = 0) (p q : Fin N) :
    (A * (swap e : Matrix (Fin N) (Fin N) ℂ) * B.transpose) p q =
      if p.val / 2 = q.val / 2 then
        ((e (p.val / 2) / 2 : ℝ) : ℂ) * (A p (lo hN p) * B q (hi hN p) + A p (hi hN p) * B q (lo hN p))
      else 0 := by
  rw [Matrix.mul_apply, sum_block hN q _ (by
    intro k hk
    rw [Matrix.transpose_apply, hB q k (Ne.symm hk), mul_zero])]
  rw [Matrix.mul_apply, Matrix.mul_apply, sum_block hN p _ (by
    intro k hk
    rw [hA p k (Ne.symm hk), zero_mul]), sum_block hN p _ (by
    intro k hk
    rw [hA p k (Ne.symm hk), zero_mul])]
  simp only [Matrix.transpose_apply, swap, Matrix.of_apply]
  by_cases h : p.val / 2 = q.val / 2
  · have h1 : lo hN q = lo hN p := Fin.ext (by simp only [lo]; omega)
    have h2 : hi hN q = hi hN p := Fin.ext (by simp only [hi]; omega)
    have h3 : lo hN p ≠ hi hN p := by
      intro h
      have := congrArg Fin.val h
      simp only [lo, hi] at this
      omega
    have h4 : (lo hN p).val / 2 = p.val / 2 := by simp only [lo]; omega
    have h5 : (hi hN p).val / 2 = p.val / 2 := by simp only [hi]; omega
    rw [if_pos h, h1, h2, h4, h5]
    simp only [ne_eq, not_true, and_false, if_false, h3, h3.symm, not_false_eq_true, and_true, if_true]
    ring
  · rw [if_neg h]
    have h4 : (lo hN p).val / 2 = p.val / 2 := by simp only [lo]; omega
    have h5 : (hi hN p).val / 2 = p.val / 2 := by simp only [hi]; omega
    have h6 : (lo hN q).val / 2 = q.val / 2 := by simp only [lo]; omega
    have h7 : (hi hN q).val / 2 = q.val / 2 := by simp only [hi]; omega
    rw [h4, h5, h6, h7]
    simp [h]

end blocks

theorem csqrt_pos {b : ℝ} (h : 0 < b) : csqrt b = (Real.sqrt b : ℂ) := if_pos h.le
theorem csqrt_neg {b : ℝ} (h : b < 0) : csqrt b = Complex.I * (Real.sqrt (-b) : ℂ) := if_neg (by linarith)

theorem expPhi_star {N : Nat} (E : Matrix (Fin N) (Fin N) ℂ) (i : Nat) :
    expPhi E i * star (expPhi E i) = 1 := by
  rw [expPhi, mul_comm Complex.I, Complex.star_def, Complex.mul_conj, Complex.normSq_eq_norm_sq,
    Complex.norm_exp_ofReal_mul_I]
  norm_num

/-- the two columns of a block of t_evector give its v_t -/
theorem column_product {N : Nat} (E : Matrix (Fin N) (Fin N) ℂ) (i : Nat) (hb : beta E i ≠ 0)
    (x y : Nat) (hx : x < 2) (hy : y < 2) :
    tColumn E i x * star (tColumn E i y) + star (tColumn E i x) * tColumn E i y =
      2 * (((if x = 0 ∧ y = 0 then (if beta E i < 0 then -1 else 1) * beta E i
        else if x = 1 ∧ y = 1 then
          (if beta E i < 0 then -1 else 1) * (1 + alpha E i * alpha E i) / beta E i
        else -(if beta E i < 0 then -1 else 1) * alpha E i) : ℝ) : ℂ) := by
  have hu := expPhi_star E i
  obtain ⟨u, hu'⟩ : ∃ u, expPhi E i = u := ⟨_, rfl⟩
  obtain ⟨b, hb'⟩ : ∃ b, beta E i = b := ⟨_, rfl⟩
  obtain ⟨a, ha'⟩ : ∃ a, alpha E i = a := ⟨_, rfl⟩
  have key : ∀ k l : ℂ, (k * u) * star (l * u) + star (k * u) * (l * u) = k * star l + star k * l := by
    intro k l
    rw [hu'] at hu
    rw [star_mul', star_mul']
    linear_combination (k * star l + star k * l) * hu
  have hc : ∀ z, tColumn E i z = (if z = 0 then csqrt b else 1 / csqrt b * (-(a : ℂ) + Complex.I)) * u := by
    intro z
    rw [tColumn, hu', hb', ha']
    split <;> rfl
  rw [hc, hc, key, hb', ha']
  rw [hb'] at hb
  have ext : ∀ z w : ℂ, z.re = w.re → z.im = w.im → z = w := fun z w => Complex.ext
  rcases lt_or_gt_of_ne hb with h | h
  · rw [csqrt_neg h, if_pos h]
    obtain ⟨s, hs⟩ : ∃ s, Real.sqrt (-b) = s := ⟨_, rfl⟩
    have hs2 : s * s = -b := by rw [← hs]; exact Real.mul_self_sqrt (by linarith)
    have hs0 : s ≠ 0 := by
      intro h0
      rw [h0] at hs2
      linarith
    have hb2 : b = -(s * s) := by linarith
    have hinv : 1 / (Complex.I * (s : ℂ)) = ((s⁻¹ : ℝ) : ℂ) * -Complex.I := by
      have : (s : ℂ) ≠ 0 := by exact_mod_cast hs0
      push_cast
      field_simp
      linear_combination Complex.I_sq
    obtain ⟨r, hr⟩ : ∃ r, s⁻¹ = r := ⟨_, rfl⟩
    have hr1 : s * r = 1 := by rw [← hr]; exact mul_inv_cancel₀ hs0
    have hd : ∀ c : ℝ, c / -(s * s) = -(c * (r * r)) := by
      intro c
      rw [← hr]
      field_simp
    rw [hs, hb2, hinv, hd, hr]
    interval_cases x <;> interval_cases y <;> apply ext <;> simp <;> 
      first | ring1 | linear_combination (-2 * a) * hr1 | linear_combination (2 * a) * hr1
  · rw [csqrt_pos h, if_neg (show ¬ b < 0 by linarith)]
    obtain ⟨s, hs⟩ : ∃ s, Real.sqrt b = s := ⟨_, rfl⟩
    have hs2 : s * s = b := by rw [← hs]; exact Real.mul_self_sqrt (by linarith)
    have hs0 : s ≠ 0 := by
      intro h0
      rw [h0] at hs2
      linarith
    have hinv : 1 / (s : ℂ) = ((s⁻¹ : ℝ) : ℂ) := by
      push_cast
      rw [one_div]
    obtain ⟨r, hr⟩ : ∃ r, s⁻¹ = r := ⟨_, rfl⟩
    have hr1 : s * r = 1 := by rw [← hr]; exact mul_inv_cancel₀ hs0
    have hd : ∀ c : ℝ, c / (s * s) = c * (r * r) := by
      intro c
      rw [← hr]
      field_simp
    rw [hs, ← hs2, hinv, hd, hr]
    interval_cases x <;> interval_cases y <;> apply ext <;> simp <;> 
      first | ring1 | linear_combination (-2 * a) * hr1

theorem beta_ne {N : Nat} {E : Matrix (Fin N) (Fin N) ℂ} {i : Nat} (h : Finite E i) : beta E i ≠ 0 :=
  one_div_ne_zero h.2

/-- zero outside of the blocks -/
def Block {N : Nat} {R : Type} [Zero R] (A : Matrix (Fin N) (Fin N) R) : Prop :=
  ∀ p q : Fin N, p.val / 2 ≠ q.val / 2 → A p q = 0

theorem block_mul {N : Nat} (hN : N % 2 = 0) {A : Matrix (Fin N) (Fin N) ℂ} (hA : Block A)
    (B : Matrix (Fin N) (Fin N) ℂ) (p q : Fin N) :
    (A * B) p q = A p (lo hN p) * B (lo hN p) q + A p (hi hN p) * B (hi hN p) q := by
  rw [Matrix.mul_apply, sum_block hN p _ (by
    intro k hk
    rw [hA p k (Ne.symm hk), zero_mul])]

theorem lo_div {N : Nat} (hN : N % 2 = 0) (p : Fin N) : (lo hN p).val / 2 = p.val / 2 := by
  simp only [lo]; omega
theorem hi_div {N : Nat} (hN : N % 2 = 0) (p : Fin N) : (hi hN p).val / 2 = p.val / 2 := by
  simp only [hi]; omega
theorem lo_mod {N : Nat} (hN : N % 2 = 0) (p : Fin N) : (lo hN p).val % 2 = 0 := by
  simp only [lo]; omega
theorem hi_mod {N : Nat} (hN : N % 2 = 0) (p : Fin N) : (hi hN p).val % 2 = 1 := by
  simp only [hi]; omega

theorem Block.mul {N : Nat} (hN : N % 2 = 0) {A B : Matrix (Fin N) (Fin N) ℂ} (hA : Block A)
    (hB : Block B) : Block (A * B) := by
  intro p q h
  rw [block_mul hN hA, hB _ _ (by rw [lo_div]; exact h), hB _ _ (by rw [hi_div]; exact h)]
  ring

theorem Block.transpose {N : Nat} {A : Matrix (Fin N) (Fin N) ℂ} (hA : Block A) :
    Block A.transpose := fun p q h => hA q p (Ne.symm h)

theorem tEvectorOf_block {N : Nat} (E : Matrix (Fin N) (Fin N) ℂ) : Block (tEvectorOf E) := by
  intro p q h
  simp only [tEvectorOf, Matrix.of_apply, if_neg h]

theorem swap_block {N : Nat} (e : Nat → ℝ) : Block (swap e : Matrix (Fin N) (Fin N) ℂ) := by
  intro p q h
  simp only [swap, Matrix.of_apply, h, false_and, if_false]

theorem tEvectorOf_lo {N : Nat} (hN : N % 2 = 0) (E : Matrix (Fin N) (Fin N) ℂ) (p q : Fin N)
    (h : p.val / 2 = q.val / 2) : tEvectorOf E p (lo hN q) = tColumn E (p.val / 2) (p.val % 2) := by
  simp only [tEvectorOf, Matrix.of_apply, lo_div, h, lo_mod, if_true]

theorem tEvectorOf_hi {N : Nat} (hN : N % 2 = 0) (E : Matrix (Fin N) (Fin N) ℂ) (p q : Fin N)
    (h : p.val / 2 = q.val / 2) :
    tEvectorOf E p (hi hN q) = star (tColumn E (p.val / 2) (p.val % 2)) := by
  simp only [tEvectorOf, Matrix.of_apply, hi_div, h, hi_mod, if_true, one_ne_zero, if_false]

/-- v_t times the emittances, from the columns of t_evector -/
theorem vT_eq {N : Nat} (hN : N % 2 = 0) (E : Matrix (Fin N) (Fin N) ℂ)
    (hf : ∀ i < N / 2, Finite E i) (e : Nat → ℝ) :
    (Matrix.of fun p q : Fin N =>
      if p.val / 2 = q.val / 2 then vTOf E p q * e (p.val / 2) else vTOf E p q).map (fun x : ℝ => (x : ℂ)) =
      tEvectorOf E * (swap e : Matrix (Fin N) (Fin N) ℂ) * (tEvectorOf E).transpose := by
  ext p q
  rw [mul_swap_mul hN e (tEvectorOf_block E) (tEvectorOf_block E)]
  rw [Matrix.map_apply, Matrix.of_apply]
  by_cases h : p.val / 2 = q.val / 2
  · rw [if_pos h, if_pos h, tEvectorOf_lo hN E p p rfl, tEvectorOf_hi hN E p p rfl,
      tEvectorOf_lo hN E q p h.symm, tEvectorOf_hi hN E q p h.symm, ← h]
    rw [column_product E (p.val / 2) (beta_ne (hf _ (by have := p.isLt; omega))) _ _
      (Nat.mod_lt _ (by norm_num)) (Nat.mod_lt _ (by norm_num))]
    simp only [vTOf, Matrix.of_apply, if_pos h]
    push_cast
    ring
  · rw [if_neg h, if_neg h]
    simp only [vTOf, Matrix.of_apply, if_neg h]
    norm_num

/-- the inverse of v_t -/
noncomputable def wT {N : Nat} (E : Matrix (Fin N) (Fin N) ℂ) : Matrix (Fin N) (Fin N) ℂ :=
  Matrix.of fun p q =>
    let i := p.val / 2
    let sign : ℝ := if beta E i < 0 then -1 else 1
    (((if i = q.val / 2 then
      if p.val % 2 = 0 ∧ q.val % 2 = 0 then sign * (1 + alpha E i * alpha E i) / beta E i
      else if p.val % 2 = 1 ∧ q.val % 2 = 1 then sign * beta E i
      else sign * alpha E i
    else 0) : ℝ) : ℂ)

theorem tEvectorOf_inv {N : Nat} (hN : N % 2 = 0) (E : Matrix (Fin N) (Fin N) ℂ)
    (hf : ∀ i < N / 2, Finite E i) :
    tEvectorOf E * ((swap (fun _ => 1) : Matrix (Fin N) (Fin N) ℂ) * (tEvectorOf E).transpose * wT E) = 1 := by
  rw [← Matrix.mul_assoc, ← Matrix.mul_assoc, ← vT_eq hN E hf (fun _ => 1)]
  ext p q
  rw [block_mul hN (by
    intro p q h
    rw [Matrix.map_apply, Matrix.of_apply, if_neg h]
    simp only [vTOf, Matrix.of_apply, if_neg h]
    norm_num)]
  simp only [Matrix.map_apply, Matrix.of_apply, lo_div, hi_div, if_true, mul_one, vTOf, wT, lo_mod, hi_mod]
  have hb := beta_ne (hf (p.val / 2) (by have := p.isLt; omega))
  obtain ⟨b, hb'⟩ : ∃ b, beta E (p.val / 2) = b := ⟨_, rfl⟩
  obtain ⟨a, ha'⟩ : ∃ a, alpha E (p.val / 2) = a := ⟨_, rfl⟩
  rw [hb', ha']
  rw [hb'] at hb
  obtain ⟨s, hs, hs2⟩ : ∃ s : ℝ, (if b < 0 then (-1 : ℝ) else 1) = s ∧ s * s = 1 :=
    ⟨_, rfl, by split <;> norm_num⟩
  rw [hs]
  rw [← Complex.ofReal_mul, ← Complex.ofReal_mul, ← Complex.ofReal_add]
  have hs3 : s ^ 2 = 1 := by rw [pow_two]; exact hs2
  by_cases h : p.val / 2 = q.val / 2
  · have hpq : (p = q) ↔ p.val % 2 = q.val % 2 := by
      rw [Fin.ext_iff]
      omega
    rw [Matrix.one_apply, if_congr hpq rfl rfl]
    rcases Nat.mod_two_eq_zero_or_one p.val with h1 | h1 <;>
      rcases Nat.mod_two_eq_zero_or_one q.val with h2 | h2 <;>
      simp [h, h1, h2] <;> norm_cast <;> field_simp <;> rw [hs3] <;> ring
  · have hpq : p ≠ q := by
      rintro rfl
      exact h rfl
    rw [Matrix.one_apply, if_neg hpq]
    simp [h]

theorem det_tEvectorOf {N : Nat} (hN : N % 2 = 0) (E : Matrix (Fin N) (Fin N) ℂ)
    (hf : ∀ i < N / 2, Finite E i) : (tEvectorOf E).det ≠ 0 := by
  intro h
  have := congrArg Matrix.det (tEvectorOf_inv hN E hf)
  rw [Matrix.det_mul, h, zero_mul, Matrix.det_one] at this
  exact zero_ne_one this

/-- what a successful construction holds -/
theorem construct_ok {eig : Eig} {rows cols : Nat} {m : Nat → Nat → ℝ} {D : Dtm rows}
    (h : construct .py2 eig rows cols m = .ok (some D)) :
    rows % 2 = 0 ∧ D.m = Matrix.of (fun i j : Fin rows => m i j) ∧ D.dim = rows / 2 ∧
      D.evalue = (eig rows D.m).1 ∧ D.evector = (eig rows D.m).2 ∧
      (∀ i < rows / 2, Finite D.evector i) ∧ D.tEvector = tEvectorOf D.evector ∧
      D.r = D.evector * D.tEvector⁻¹ ∧ D.r.det ≠ 0 ∧
      D.t = D.r⁻¹ * (D.m.map (fun x : ℝ => (x : ℂ)) * D.r) ∧ D.vT = vTOf D.evector ∧
      D.phase = (List.range (rows / 2)).map (fun i : Nat =>
            if h : 2 * i < rows then Complex.arg (D.evalue ⟨2 * i, h⟩) else 0) := by
  unfold construct at h
  split at h
  · exact absurd h (by simp)
  split at h
  · exact absurd h (by simp)
  rename_i h2
  have hN : rows % 2 = 0 := by
    simp at h2
    omega
  simp only at h
  split at h
  · exact absurd h (by simp)
  unfold getDecoupling at h
  split at h
  · rename_i hf
    simp only at h
    split at h
    · exact absurd h (by simp)
    split at h
    · exact absurd h (by simp)
    rename_i hr
    simp only [Except.ok.injEq, Option.some.injEq] at h
    subst h
    exact ⟨hN, rfl, rfl, rfl, rfl, hf, rfl, rfl, hr, rfl, rfl, rfl⟩
  · simp at h

/-! ### The property -/

/-- C83: Python 3, which the package requires, cannot make a DecoupledTransferMatrix: every square matrix of
determinant 1 raises TypeError. -/
theorem C83_py3_false (eig : Eig) (rows cols : Nat) (m : Nat → Nat → ℝ) :
    (∃ e, construct .py3 eig rows cols m = .error e) ∧
    (rows = cols → Matrix.det (Matrix.of fun i j : Fin rows => m i j) = 1 →
      construct .py3 eig rows cols m = .error .TypeError) := by
  constructor
  · unfold construct
    simp only [reduceCtorEq, false_and, if_false]
    split
    · exact ⟨_, rfl⟩
    · split <;> exact ⟨_, rfl⟩
  · rintro rfl h
    unfold construct
    simp only [reduceCtorEq, false_and, if_false, ne_eq, not_true]
    rw [h, if_neg (by norm_num)]

/-- C83, Python 2: a matrix of even size and determinant 1 with independent eigenvectors is accepted if
the divisions are defined. -/
theorem C83_constructs (eig : Eig) (N : Nat) (m : Nat → Nat → ℝ) (hN : N % 2 = 0)
    (hdet : Matrix.det (Matrix.of fun i j : Fin N => m i j) = 1)
    (hE : (eig N (Matrix.of fun i j : Fin N => m i j)).2.det ≠ 0)
    (hf : ∀ i < N / 2, Finite (eig N (Matrix.of fun i j : Fin N => m i j)).2 i) :
    ∃ D, construct .py2 eig N N m = .ok (some D) := by
  unfold construct
  simp only [ne_eq, not_true, if_false, true_and]
  rw [if_neg (by omega), hdet, if_neg (by norm_num)]
  unfold getDecoupling
  rw [if_pos hf]
  simp only
  have hT := det_tEvectorOf hN _ hf
  rw [if_neg hT, if_neg]
  · exact ⟨_, rfl⟩
  · rw [Matrix.det_mul]
    refine mul_ne_zero hE ?_
    rw [Matrix.det_nonsing_inv, Ring.inverse_eq_inv']
    exact inv_ne_zero hT

theorem eig_mul {N : Nat} {m : Matrix (Fin N) (Fin N) ℝ} {lam : Fin N → ℂ}
    {E : Matrix (Fin N) (Fin N) ℂ} (h : EigLaw m lam E) :
    m.map (fun x : ℝ => (x : ℂ)) * E = E * Matrix.diagonal lam := by
  ext p k
  rw [Matrix.mul_diagonal, Matrix.mul_apply, mul_comm, ← h p k]
  rfl

theorem stable_pair {N : Nat} {lam : Fin N → ℂ} {E : Matrix (Fin N) (Fin N) ℂ} (h : Stable lam E)
    (p q : Fin N) (hb : p.val / 2 = q.val / 2) (hne : p ≠ q) :
    lam p * lam q = 1 ∧ ∀ k, E k q = star (E k p) := by
  rw [ne_eq, Fin.ext_iff] at hne
  rcases Nat.mod_two_eq_zero_or_one p.val with hp | hp
  · have hq : q.val = p.val + 1 := by omega
    rw [h.value p q hp hq]
    exact ⟨h.modulus p, fun k => h.vector p q k hp hq⟩
  · have hq : p.val = q.val + 1 := by omega
    have hq0 : q.val % 2 = 0 := by omega
    rw [h.value q p hq0 hq, mul_comm]
    refine ⟨h.modulus q, fun k => ?_⟩
    rw [h.vector q p k hq0 hq, star_star]

/-- the ellipse, before the real part is taken, from the eigenvectors -/
theorem ellipse_eq {eig : Eig} {N : Nat} {m : Nat → Nat → ℝ} {D : Dtm N}
    (h : construct .py2 eig N N m = .ok (some D)) (e : List ℝ) (he : e.length = N / 2) :
    getVM D e = .ok ((D.evector * (swap fun i => e.getD i 0) * D.evector.transpose).map Complex.re) := by
  obtain ⟨hN, hm, hd, hl, hE, hf, hT, hr, -, ht, hv, hp⟩ := construct_ok h
  unfold getVM
  rw [hd, if_neg (by simp [he])]
  simp only
  rw [hv, vT_eq hN D.evector hf (fun i => e.getD i 0), hr, hT]
  have hi : (tEvectorOf D.evector)⁻¹ * tEvectorOf D.evector = 1 :=
    Matrix.nonsing_inv_mul _ (isUnit_iff_ne_zero.mpr (det_tEvectorOf hN _ hf))
  have hi2 : (tEvectorOf D.evector).transpose * ((tEvectorOf D.evector)⁻¹).transpose = 1 := by
    rw [← Matrix.transpose_mul, hi, Matrix.transpose_one]
  congr 2
  rw [Matrix.transpose_mul]
  calc D.evector * (tEvectorOf D.evector)⁻¹ *
        (tEvectorOf D.evector * (swap fun i => e.getD i 0) * (tEvectorOf D.evector).transpose) *
        (((tEvectorOf D.evector)⁻¹).transpose * D.evector.transpose)
      = D.evector * ((tEvectorOf D.evector)⁻¹ * tEvectorOf D.evector) * (swap fun i => e.getD i 0) *
        ((tEvectorOf D.evector).transpose * ((tEvectorOf D.evector)⁻¹).transpose) *
        D.evector.transpose := by simp only [Matrix.mul_assoc]
    _ = D.evector * (swap fun i => e.getD i 0) * D.evector.transpose := by
        rw [hi, hi2, Matrix.mul_one, Matrix.mul_one]

theorem det_evector {eig : Eig} {N : Nat} {m : Nat → Nat → ℝ} {D : Dtm N}
    (h : construct .py2 eig N N m = .ok (some D)) : D.evector.det ≠ 0 := by
  obtain ⟨hN, hm, hd, hl, hE, hf, hT, hr, hr0, ht, hv, hp⟩ := construct_ok h
  intro h0
  rw [hr, Matrix.det_mul, h0, zero_mul] at hr0
  exact hr0 rfl

theorem swap_mulVec {N : Nat} (hN : N % 2 = 0) (e : Nat → ℝ) (z : Fin N → ℂ)
    (hz : ∀ p q : Fin N, p.val / 2 = q.val / 2 → p ≠ q → z q = star (z p)) (p : Fin N) :
    ∑ q, (swap e : Matrix (Fin N) (Fin N) ℂ) p q * z q = ((e (p.val / 2) / 2 : ℝ) : ℂ) * star (z p) := by
  rw [sum_block hN p _ (by
    intro k hk
    rw [swap_block e p k (Ne.symm hk), zero_mul])]
  rcases Nat.mod_two_eq_zero_or_one p.val with h | h
  · have h1 : lo hN p = p := Fin.ext (by simp only [lo]; omega)
    have h2 : p ≠ hi hN p := by
      intro h'
      have := congrArg Fin.val h'
      simp only [hi] at this
      omega
    rw [h1, hz p (hi hN p) (hi_div hN p).symm h2]
    simp only [swap, Matrix.of_apply, hi_div, ne_eq, not_true, and_false, if_false, true_and, h2,
      not_false_eq_true, if_true]
    ring
  · have h1 : hi hN p = p := Fin.ext (by simp only [hi]; omega)
    have h2 : p ≠ lo hN p := by
      intro h'
      have := congrArg Fin.val h'
      simp only [lo] at this
      omega
    rw [h1, hz p (lo hN p) (lo_div hN p).symm h2]
    simp only [swap, Matrix.of_apply, lo_div, ne_eq, not_true, and_false, if_false, true_and, h2,
      not_false_eq_true, if_true]
    ring

/-- C83, partial (Python 2).  For all transfer matrices of stable motion, of every dimension, and all
eigen-emittances: get_v_m returns a symmetric matrix V with M V M^T = V, and it is an ellipse - positive
definite - if the emittances are positive.  Missing: Python 3 (C83_py3_false); that the emittances are
those of V (C83_emittance_false); the M^T V M = V of the documentation (C83_transpose_false); matrices
without coupling (C83_uncoupled_false). -/
theorem C83_partial (eig : Eig) (N : Nat) (m : Nat → Nat → ℝ) (D : Dtm N)
    (h : construct .py2 eig N N m = .ok (some D)) (hl : EigLaw D.m D.evalue D.evector)
    (hs : Stable D.evalue D.evector) (e : List ℝ) :
    (e.length ≠ N / 2 → getVM D e = .error .ValueError) ∧
    (e.length = N / 2 → ∃ V, getVM D e = .ok V ∧ (∀ p q, V p q = V q p) ∧
      (∀ p q : Fin N, ∑ a : Fin N, ∑ b : Fin N, m p a * V a b * m q b = V p q) ∧
      ((∀ x ∈ e, 0 < x) → ∀ x : Fin N → ℝ, x ≠ 0 → 0 < ∑ p, ∑ q, x p * V p q * x q)) := by
  obtain ⟨hN, hm, hd, -, -, hf, -⟩ := construct_ok h
  constructor
  · intro he
    unfold getVM
    rw [hd, if_pos he]
  intro he
  refine ⟨_, ellipse_eq h e he, ?_, ?_, ?_⟩
  · intro p q
    have : (D.evector * (swap fun i => e.getD i 0) * D.evector.transpose).transpose =
        D.evector * (swap fun i => e.getD i 0) * D.evector.transpose := by
      rw [Matrix.transpose_mul, Matrix.transpose_mul, Matrix.transpose_transpose, Matrix.mul_assoc]
      congr 2
      ext p q
      simp only [Matrix.transpose_apply, swap, Matrix.of_apply]
      by_cases hb : p.val / 2 = q.val / 2
      · rw [hb]
        congr 1
        simp [eq_comm]
      · simp [hb, Ne.symm hb]
    rw [Matrix.map_apply, Matrix.map_apply]
    conv_lhs => rw [← this]
    rw [Matrix.transpose_apply]
  · intro p q
    have hc : (D.m.map (fun x : ℝ => (x : ℂ))) *
        (D.evector * (swap fun i => e.getD i 0) * D.evector.transpose) *
        (D.m.map (fun x : ℝ => (x : ℂ))).transpose =
        D.evector * (swap fun i => e.getD i 0) * D.evector.transpose := by
      have h1 := eig_mul hl
      have h2 : D.evector.transpose * (D.m.map (fun x : ℝ => (x : ℂ))).transpose =
          Matrix.diagonal D.evalue * D.evector.transpose := by
        rw [← Matrix.transpose_mul, h1, Matrix.transpose_mul, Matrix.diagonal_transpose]
      have h3 : Matrix.diagonal D.evalue * (swap fun i => e.getD i 0) * Matrix.diagonal D.evalue =
          (swap fun i => e.getD i 0 : Matrix (Fin N) (Fin N) ℂ) := by
        ext p q
        rw [Matrix.mul_diagonal, Matrix.diagonal_mul]
        by_cases hb : p.val / 2 = q.val / 2 ∧ p ≠ q
        · have := (stable_pair hs p q hb.1 hb.2).1
          linear_combination (swap (fun i => e.getD i 0) p q) * this
        · simp only [swap, Matrix.of_apply, if_neg hb]
          ring
      calc _ = (D.m.map (fun x : ℝ => (x : ℂ)) * D.evector) * (swap fun i => e.getD i 0) *
            (D.evector.transpose * (D.m.map (fun x : ℝ => (x : ℂ))).transpose) := by
              simp only [Matrix.mul_assoc]
        _ = D.evector * (Matrix.diagonal D.evalue * (swap fun i => e.getD i 0) *
            Matrix.diagonal D.evalue) * D.evector.transpose := by
              rw [h1, h2]
              simp only [Matrix.mul_assoc]
        _ = _ := by rw [h3]
    obtain ⟨W, hW⟩ : ∃ W, D.evector * (swap fun i => e.getD i 0) * D.evector.transpose = W := ⟨_, rfl⟩
    rw [hW] at hc ⊢
    have hpq := congrArg Complex.re (congrFun (congrFun hc p) q)
    rw [Matrix.map_apply, ← hpq, Matrix.mul_apply, Complex.re_sum, Finset.sum_comm]
    apply Finset.sum_congr rfl
    intro b _
    rw [Matrix.mul_apply, Finset.sum_mul, Complex.re_sum]
    apply Finset.sum_congr rfl
    intro a _
    rw [Matrix.transpose_apply, Matrix.map_apply, Matrix.map_apply, Matrix.map_apply,
      Complex.re_mul_ofReal, Complex.re_ofReal_mul, hm]
    rfl
  · intro hpos x hx
    obtain ⟨z, hz⟩ : ∃ z : Fin N → ℂ, ∀ k, z k = ∑ p, (x p : ℂ) * D.evector p k := ⟨_, fun _ => rfl⟩
    have hpair : ∀ p q : Fin N, p.val / 2 = q.val / 2 → p ≠ q → z q = star (z p) := by
      intro p q hb hne
      rw [hz, hz, star_sum]
      apply Finset.sum_congr rfl
      intro k _
      rw [star_mul', (stable_pair hs p q hb hne).2 k, Complex.star_def,
        Complex.conj_ofReal]
    have hz0 : ∃ k, z k ≠ 0 := by
      by_contra hall
      push Not at hall
      apply hx
      have h0 : Matrix.vecMul (fun p => (x p : ℂ)) D.evector = 0 := by
        funext k
        rw [Pi.zero_apply, ← hall k, hz]
        rfl
      have := Matrix.eq_zero_of_vecMul_eq_zero (det_evector h) h0
      funext p
      have := congrFun this p
      exact Complex.ofReal_eq_zero.mp this
    have hsum : ∑ p, ∑ q, x p *
        (((D.evector * (swap fun i => e.getD i 0) * D.evector.transpose).map Complex.re) p q) * x q =
        ∑ k : Fin N, e.getD (k.val / 2) 0 / 2 * Complex.normSq (z k) := by
      have hC : ∑ p, ∑ q, (x p : ℂ) *
          (D.evector * (swap fun i => e.getD i 0 : Matrix (Fin N) (Fin N) ℂ) *
            D.evector.transpose) p q * (x q : ℂ) =
          ∑ k : Fin N, z k * ∑ l, (swap fun i => e.getD i 0 : Matrix (Fin N) (Fin N) ℂ) k l * z l := by
        have : ∀ k : Fin N, z k * ∑ l, (swap fun i => e.getD i 0 : Matrix (Fin N) (Fin N) ℂ) k l * z l =
            ∑ p, ∑ q, ∑ l, (x p : ℂ) * (D.evector p k *
              (swap fun i => e.getD i 0 : Matrix (Fin N) (Fin N) ℂ) k l * D.evector q l) * (x q : ℂ) := by
          intro k
          rw [hz k, Finset.sum_mul]
          apply Finset.sum_congr rfl
          intro p _
          rw [Finset.mul_sum, Finset.sum_comm]
          apply Finset.sum_congr rfl
          intro l _
          rw [hz l, Finset.mul_sum, Finset.mul_sum]
          apply Finset.sum_congr rfl
          intro q _
          ring
        simp only [this]
        conv_rhs => rw [Finset.sum_comm]
        apply Finset.sum_congr rfl
        intro p _
        conv_rhs => rw [Finset.sum_comm]
        apply Finset.sum_congr rfl
        intro q _
        conv_rhs => rw [Finset.sum_comm]
        rw [Matrix.mul_apply, Finset.mul_sum, Finset.sum_mul]
        apply Finset.sum_congr rfl
        intro l _
        rw [Matrix.mul_apply, Matrix.transpose_apply, Finset.sum_mul, Finset.mul_sum, Finset.sum_mul]
      have hR := congrArg Complex.re hC
      rw [Complex.re_sum, Complex.re_sum] at hR
      convert hR using 1
      · apply Finset.sum_congr rfl
        intro p _
        rw [Complex.re_sum]
        apply Finset.sum_congr rfl
        intro q _
        rw [Complex.re_mul_ofReal, Complex.re_ofReal_mul]
        rfl
      · apply Finset.sum_congr rfl
        intro k _
        rw [swap_mulVec hN _ z hpair, ← mul_assoc, mul_comm (z k), mul_assoc, Complex.star_def,
          Complex.mul_conj, ← Complex.ofReal_mul, Complex.ofReal_re]
    rw [hsum]
    have hg : ∀ k : Fin N, 0 < e.getD (k.val / 2) 0 := by
      intro k
      have hk : k.val / 2 < e.length := by have := k.isLt; omega
      rw [List.getD_eq_getElem?_getD, List.getElem?_eq_getElem hk, Option.getD_some]
      exact hpos _ (List.getElem_mem hk)
    obtain ⟨k, hk⟩ := hz0
    apply Finset.sum_pos'
    · intro k _
      exact mul_nonneg (by linarith [hg k]) (Complex.normSq_nonneg _)
    · exact ⟨k, Finset.mem_univ _, mul_pos (by linarith [hg k]) (Complex.normSq_pos.mpr hk)⟩

/-- C83, partial (Python 2), for all transfer matrices of stable motion: R is invertible and takes M to a
matrix T, M R = R T, that is zero outside of the 2 x 2 blocks; the trace of every block is twice the
cosine of the phase advance of its axis. -/
theorem C83_decoupled_partial (eig : Eig) (N : Nat) (m : Nat → Nat → ℝ) (D : Dtm N)
    (h : construct .py2 eig N N m = .ok (some D)) (hl : EigLaw D.m D.evalue D.evector)
    (hs : Stable D.evalue D.evector) :
    D.r.det ≠ 0 ∧ (∀ p q : Fin N, ∑ k : Fin N, (m p k : ℂ) * D.r k q = ∑ k, D.r p k * D.t k q) ∧
    (∀ p q : Fin N, p.val / 2 ≠ q.val / 2 → D.t p q = 0) ∧
    ∀ p q : Fin N, p.val % 2 = 0 → q.val = p.val + 1 →
      ∃ phi, getPhase D (p.val / 2) = .ok phi ∧ D.t p p + D.t q q = 2 * (Real.cos phi : ℂ) := by
  obtain ⟨hN, hm, hd, -, -, hf, hT, hr, hr0, ht, hv, hp⟩ := construct_ok h
  have hi' : (tEvectorOf D.evector)⁻¹ * tEvectorOf D.evector = 1 :=
    Matrix.nonsing_inv_mul _ (isUnit_iff_ne_zero.mpr (det_tEvectorOf hN _ hf))
  have hX : (tEvectorOf D.evector)⁻¹ = _ := Matrix.inv_eq_right_inv (tEvectorOf_inv hN _ hf)
  have hXb : Block (tEvectorOf D.evector)⁻¹ := by
    rw [hX]
    refine Block.mul hN (Block.mul hN (swap_block _) (tEvectorOf_block _).transpose) ?_
    intro p q hb
    simp only [wT, Matrix.of_apply, if_neg hb]
    norm_num
  have htE : D.t = tEvectorOf D.evector * (Matrix.diagonal D.evalue * (tEvectorOf D.evector)⁻¹) := by
    have h1 : D.m.map (fun x : ℝ => (x : ℂ)) * D.r =
        D.r * (tEvectorOf D.evector * (Matrix.diagonal D.evalue * (tEvectorOf D.evector)⁻¹)) := by
      rw [hr, hT, ← Matrix.mul_assoc, eig_mul hl]
      calc _ = D.evector * 1 * (Matrix.diagonal D.evalue * (tEvectorOf D.evector)⁻¹) := by
            rw [Matrix.mul_one, Matrix.mul_assoc]
        _ = _ := by
            rw [← hi']
            simp only [Matrix.mul_assoc]
    rw [ht, h1, ← Matrix.mul_assoc, Matrix.nonsing_inv_mul _ (isUnit_iff_ne_zero.mpr hr0),
      Matrix.one_mul]
  have hLb : Block (Matrix.diagonal D.evalue * (tEvectorOf D.evector)⁻¹) := by
    intro p q hb
    rw [Matrix.diagonal_mul, hXb p q hb, mul_zero]
  refine ⟨hr0, ?_, ?_, ?_⟩
  · intro p q
    have : D.m.map (fun x : ℝ => (x : ℂ)) * D.r = D.r * D.t := by
      rw [ht, ← Matrix.mul_assoc, Matrix.mul_nonsing_inv _ (isUnit_iff_ne_zero.mpr hr0), Matrix.one_mul]
    have := congrFun (congrFun this p) q
    rw [Matrix.mul_apply, Matrix.mul_apply, hm] at this
    exact this
  · intro p q hb
    rw [htE]
    exact Block.mul hN (tEvectorOf_block _) hLb p q hb
  · intro p q hp0 hq
    have hpN := p.isLt
    refine ⟨Complex.arg (D.evalue p), ?_, ?_⟩
    · unfold getPhase
      rw [hp, List.getElem?_map, List.getElem?_range (by omega), Option.map_some]
      simp only
      have h2 : 2 * (p.val / 2) = p.val := by omega
      rw [dif_pos (by omega)]
      congr 3
      exact Fin.ext h2
    · have hlp : lo hN p = p := Fin.ext (by simp only [lo]; omega)
      have hhp : hi hN p = q := Fin.ext (by simp only [hi]; omega)
      have hlq : lo hN q = p := Fin.ext (by simp only [lo]; omega)
      have hhq : hi hN q = q := Fin.ext (by simp only [hi]; omega)
      rw [htE, block_mul hN (tEvectorOf_block _), block_mul hN (tEvectorOf_block _), hlp, hhp, hlq, hhq]
      simp only [Matrix.diagonal_mul]
      have e1 := congrFun (congrFun hi' p) p
      have e2 := congrFun (congrFun hi' q) q
      rw [block_mul hN hXb, hlp, hhp, Matrix.one_apply_eq] at e1
      rw [block_mul hN hXb, hlq, hhq, Matrix.one_apply_eq] at e2
      have hlam := hs.value p q hp0 hq
      have hmod := hs.modulus p
      have hre : D.evalue p + D.evalue q = 2 * (Real.cos (Complex.arg (D.evalue p)) : ℂ) := by
        have hn : ‖D.evalue p‖ = 1 := by
          rw [Complex.star_def, Complex.mul_conj, Complex.normSq_eq_norm_sq] at hmod
          have : ‖D.evalue p‖ ^ 2 = 1 := by exact_mod_cast hmod
          nlinarith [norm_nonneg (D.evalue p)]
        have h0 : D.evalue p ≠ 0 := by
          intro h0
          rw [h0, norm_zero] at hn
          exact zero_ne_one hn
        rw [Complex.cos_arg h0, hn, div_one, hlam, Complex.star_def, Complex.add_conj]
        push_cast
        ring
      rw [← hre]
      linear_combination D.evalue p * e1 + D.evalue q * e2

/-- the matrix with cos + sin * ((alpha, beta), (-gamma, -alpha)) in the blocks -/
noncomputable def twissT {N : Nat} (lam : Fin N → ℂ) (E : Matrix (Fin N) (Fin N) ℂ) (hN : N % 2 = 0) :
    Matrix (Fin N) (Fin N) ℂ :=
  Matrix.of fun p q =>
    let i := p.val / 2
    let c := (lam (lo hN p)).re
    let s := (lam (lo hN p)).im
    (((if i = q.val / 2 then
      if p.val % 2 = 0 then if q.val % 2 = 0 then c + alpha E i * s else beta E i * s
      else if q.val % 2 = 0 then -((1 + alpha E i * alpha E i) / beta E i) * s else c - alpha E i * s
    else 0) : ℝ) : ℂ)

theorem csqrt_mul_self (b : ℝ) : csqrt b * csqrt b = (b : ℂ) := by
  unfold csqrt
  split
  · rename_i h
    rw [← Complex.ofReal_mul, Real.mul_self_sqrt h]
  · rename_i h
    have : Complex.I * (Real.sqrt (-b) : ℂ) * (Complex.I * (Real.sqrt (-b) : ℂ)) =
        (Complex.I * Complex.I) * ((Real.sqrt (-b) * Real.sqrt (-b) : ℝ) : ℂ) := by
      push_cast
      ring
    rw [this, Complex.I_mul_I, Real.mul_self_sqrt (by linarith)]
    push_cast
    ring

/-- a column of t_evector is an eigenvector of the block -/
theorem twiss_column {N : Nat} (E : Matrix (Fin N) (Fin N) ℂ) (i : Nat) (hb : beta E i ≠ 0) (z : ℂ) :
    ((z.re + alpha E i * z.im : ℝ) : ℂ) * tColumn E i 0 + ((beta E i * z.im : ℝ) : ℂ) * tColumn E i 1 =
      tColumn E i 0 * z ∧
    ((-((1 + alpha E i * alpha E i) / beta E i) * z.im : ℝ) : ℂ) * tColumn E i 0 +
      ((z.re - alpha E i * z.im : ℝ) : ℂ) * tColumn E i 1 = tColumn E i 1 * z := by
  have hq := csqrt_mul_self (beta E i)
  have hbc : (beta E i : ℂ) ≠ 0 := Complex.ofReal_ne_zero.mpr hb
  have hq0 : csqrt (beta E i) ≠ 0 := by
    intro h0
    rw [h0, zero_mul] at hq
    exact hbc hq.symm
  have hz : z = (z.re : ℂ) + z.im * Complex.I := (Complex.re_add_im z).symm
  have hI := Complex.I_mul_I
  obtain ⟨x, hx⟩ : ∃ x, z.re = x := ⟨_, rfl⟩
  obtain ⟨y, hy⟩ : ∃ y, z.im = y := ⟨_, rfl⟩
  rw [hx, hy] at hz ⊢
  rw [hz]
  unfold tColumn
  rw [if_pos rfl, if_neg one_ne_zero]
  obtain ⟨c, hc⟩ : ∃ c, csqrt (beta E i) = c := ⟨_, rfl⟩
  obtain ⟨b, hb'⟩ : ∃ b : ℂ, (beta E i : ℂ) = b := ⟨_, rfl⟩
  obtain ⟨a, ha⟩ : ∃ a : ℂ, (alpha E i : ℂ) = a := ⟨_, rfl⟩
  obtain ⟨ph, hph⟩ : ∃ ph, expPhi E i = ph := ⟨_, rfl⟩
  push_cast
  rw [hc, hb'] at hq
  rw [hc] at hq0
  rw [hb'] at hbc
  rw [hc, hb', ha, hph, ← hq]
  constructor
  · field_simp
    ring
  · field_simp
    linear_combination (-(ph * y : ℂ)) * hI

/-- C83, partial (Python 2), for all transfer matrices of stable motion: the blocks of T have the form of
Courant and Snyder, cos phi + s sin phi ((alpha, beta), (-gamma, -alpha)), with phi, alpha, beta, gamma
what the methods return for the axis, beta > 0, beta gamma - alpha^2 = 1 and s the sense of rotation. -/
theorem C83_twiss_partial (eig : Eig) (N : Nat) (m : Nat → Nat → ℝ) (D : Dtm N)
    (h : construct .py2 eig N N m = .ok (some D)) (hl : EigLaw D.m D.evalue D.evector)
    (hs : Stable D.evalue D.evector) (p q : Fin N) (hp0 : p.val % 2 = 0) (hq : q.val = p.val + 1) :
    ∃ phi a b g s : ℝ, getPhase D (p.val / 2) = .ok phi ∧ getAlpha D (p.val / 2) = .ok a ∧
      getBeta D (p.val / 2) = .ok b ∧ getGamma D (p.val / 2) = .ok g ∧ (s = 1 ∨ s = -1) ∧ 0 < b ∧
      b * g - a ^ 2 = 1 ∧
      D.t p p = ((Real.cos phi + s * a * Real.sin phi : ℝ) : ℂ) ∧
      D.t p q = ((s * b * Real.sin phi : ℝ) : ℂ) ∧
      D.t q p = ((-(s * g * Real.sin phi) : ℝ) : ℂ) ∧
      D.t q q = ((Real.cos phi - s * a * Real.sin phi : ℝ) : ℂ) := by
  obtain ⟨hN, hm, hd, -, -, hf, hT, hr, hr0, ht, hv, hp⟩ := construct_ok h
  have hi' : (tEvectorOf D.evector)⁻¹ * tEvectorOf D.evector = 1 :=
    Matrix.nonsing_inv_mul _ (isUnit_iff_ne_zero.mpr (det_tEvectorOf hN _ hf))
  have hi'' : tEvectorOf D.evector * (tEvectorOf D.evector)⁻¹ = 1 :=
    Matrix.mul_nonsing_inv _ (isUnit_iff_ne_zero.mpr (det_tEvectorOf hN _ hf))
  have h1 : D.t * tEvectorOf D.evector = tEvectorOf D.evector * Matrix.diagonal D.evalue := by
    have h2 : D.r * tEvectorOf D.evector = D.evector := by
      rw [hr, hT, Matrix.mul_assoc, hi', Matrix.mul_one]
    have h3 : tEvectorOf D.evector = D.r⁻¹ * D.evector := by
      conv_rhs => rw [← h2]
      rw [← Matrix.mul_assoc, Matrix.nonsing_inv_mul _ (isUnit_iff_ne_zero.mpr hr0), Matrix.one_mul]
    rw [ht, Matrix.mul_assoc, Matrix.mul_assoc, h2, eig_mul hl, ← Matrix.mul_assoc, ← h3]
  have h2 : twissT D.evalue D.evector hN * tEvectorOf D.evector =
      tEvectorOf D.evector * Matrix.diagonal D.evalue := by
    ext u w
    have hub : beta D.evector (u.val / 2) ≠ 0 := beta_ne (hf _ (by have := u.isLt; omega))
    have hBl : Block (twissT D.evalue D.evector hN) := by
      intro p q hb
      simp only [twissT, Matrix.of_apply, if_neg hb, Complex.ofReal_zero]
    rw [block_mul hN hBl, Matrix.mul_diagonal]
    by_cases hb : u.val / 2 = w.val / 2
    · have hlw : lo hN w = lo hN u := Fin.ext (by simp only [lo]; omega)
      have hhw : hi hN w = hi hN u := Fin.ext (by simp only [hi]; omega)
      have hcase : w = lo hN u ∨ w = hi hN u := by
        simp only [Fin.ext_iff, lo, hi]
        omega
      obtain ⟨e1, e2⟩ := twiss_column D.evector (u.val / 2) hub (D.evalue (lo hN u))
      have hst : D.evalue (hi hN u) = star (D.evalue (lo hN u)) :=
        hs.value _ _ (lo_mod hN u) rfl
      rcases Nat.mod_two_eq_zero_or_one u.val with hu | hu
      · simp only [twissT, Matrix.of_apply, lo_div, hi_div, if_true, hu, lo_mod, hi_mod, one_ne_zero, if_false]
        rcases hcase with rfl | rfl
        · rw [tEvectorOf_lo hN _ _ _ (lo_div hN u), tEvectorOf_lo hN _ _ _ (hi_div hN u),
            tEvectorOf_lo hN _ _ _ rfl, lo_div, hi_div, lo_mod, hi_mod, hu]
          exact e1
        · rw [tEvectorOf_hi hN _ _ _ (lo_div hN u), tEvectorOf_hi hN _ _ _ (hi_div hN u),
            tEvectorOf_hi hN _ _ _ rfl, lo_div, hi_div, lo_mod, hi_mod, hu, hst]
          have := congrArg star e1
          simpa [mul_comm] using this
      · simp only [twissT, Matrix.of_apply, lo_div, hi_div, if_true, hu, lo_mod, hi_mod, one_ne_zero, if_false]
        rcases hcase with rfl | rfl
        · rw [tEvectorOf_lo hN _ _ _ (lo_div hN u), tEvectorOf_lo hN _ _ _ (hi_div hN u),
            tEvectorOf_lo hN _ _ _ rfl, lo_div, hi_div, lo_mod, hi_mod, hu]
          exact e2
        · rw [tEvectorOf_hi hN _ _ _ (lo_div hN u), tEvectorOf_hi hN _ _ _ (hi_div hN u),
            tEvectorOf_hi hN _ _ _ rfl, lo_div, hi_div, lo_mod, hi_mod, hu, hst]
          have := congrArg star e2
          simpa [mul_comm] using this
    · rw [tEvectorOf_block _ u w hb, tEvectorOf_block _ (lo hN u) w (by rw [lo_div]; exact hb),
        tEvectorOf_block _ (hi hN u) w (by rw [hi_div]; exact hb)]
      ring
  have h3 : D.t = twissT D.evalue D.evector hN := by
    calc D.t = D.t * (tEvectorOf D.evector * (tEvectorOf D.evector)⁻¹) := by rw [hi'', Matrix.mul_one]
      _ = twissT D.evalue D.evector hN * (tEvectorOf D.evector * (tEvectorOf D.evector)⁻¹) := by
        rw [← Matrix.mul_assoc, h1, ← h2, Matrix.mul_assoc]
      _ = _ := by rw [hi'', Matrix.mul_one]
  have hpN := p.isLt
  have hqN := q.isLt
  have h2p : 2 * (p.val / 2) = p.val := by omega
  have hqd : q.val / 2 = p.val / 2 := by omega
  have hqm : q.val % 2 = 1 := by omega
  have hlp : lo hN p = p := Fin.ext (by simp only [lo]; omega)
  have hlq : lo hN q = p := Fin.ext (by simp only [lo]; omega)
  have hn : ‖D.evalue p‖ = 1 := by
    have hmod := hs.modulus p
    rw [Complex.star_def, Complex.mul_conj, Complex.normSq_eq_norm_sq] at hmod
    have : ‖D.evalue p‖ ^ 2 = 1 := by exact_mod_cast hmod
    nlinarith [norm_nonneg (D.evalue p)]
  have hne : D.evalue p ≠ 0 := by
    intro h0
    rw [h0, norm_zero] at hn
    exact zero_ne_one hn
  have hcos : Real.cos (Complex.arg (D.evalue p)) = (D.evalue p).re := by
    rw [Complex.cos_arg hne, hn, div_one]
  have hsin : Real.sin (Complex.arg (D.evalue p)) = (D.evalue p).im := by
    rw [Complex.sin_arg, hn, div_one]
  have hb := beta_ne (hf (p.val / 2) (by omega))
  obtain ⟨s, hs1, hs2, hs3⟩ : ∃ s : ℝ, (if beta D.evector (p.val / 2) < 0 then (-1 : ℝ) else 1) = s ∧
      (s = 1 ∨ s = -1) ∧ 0 < s * beta D.evector (p.val / 2) := by
    refine ⟨_, rfl, by split <;> simp, ?_⟩
    split
    · linarith
    · rename_i hnb
      have := lt_of_le_of_ne (not_lt.mp hnb) (Ne.symm hb)
      linarith
  have hss : s * s = 1 := by rcases hs2 with rfl | rfl <;> norm_num
  obtain ⟨b, hb'⟩ : ∃ b, beta D.evector (p.val / 2) = b := ⟨_, rfl⟩
  obtain ⟨a, ha'⟩ : ∃ a, alpha D.evector (p.val / 2) = a := ⟨_, rfl⟩
  rw [hb'] at hs3 hs1 hb
  have hpp : (⟨2 * (p.val / 2), by omega⟩ : Fin N) = p := Fin.ext h2p
  have hqq : (⟨2 * (p.val / 2) + 1, by omega⟩ : Fin N) = q := Fin.ext (by simp only; omega)
  refine ⟨Complex.arg (D.evalue p), s * a, s * b, s * (1 + a * a) / b, s, ?_, ?_, ?_, ?_, hs2, hs3, ?_,
    ?_, ?_, ?_, ?_⟩
  · unfold getPhase
    rw [hp, List.getElem?_map, List.getElem?_range (by omega), Option.map_some]
    simp only
    rw [dif_pos (by omega), hpp]
  · unfold getAlpha vEntry
    rw [dif_pos (by omega)]
    simp only [hpp, hqq]
    rw [hv]
    simp only [vTOf, Matrix.of_apply, hqd, hqm, hp0, hb', ha', hs1]
    norm_num
  · unfold getBeta vEntry
    rw [dif_pos (by omega)]
    simp only [hpp]
    rw [hv]
    simp only [vTOf, Matrix.of_apply, hp0, hb', hs1]
    norm_num
  · unfold getGamma vEntry
    rw [dif_pos (by omega)]
    simp only [hqq]
    rw [hv]
    simp only [vTOf, Matrix.of_apply, hqd, hqm, hb', ha', hs1]
    norm_num
  · field_simp
    linear_combination hss
  · rw [h3, hcos, hsin]
    simp only [twissT, Matrix.of_apply, hp0, hlp, hb', ha', if_true]
    congr 1
    linear_combination (-a * (D.evalue p).im) * hss
  · rw [h3, hsin]
    simp only [twissT, Matrix.of_apply, hp0, hlp, hb', ha', if_true, hqd, hqm, one_ne_zero, if_false]
    congr 1
    linear_combination (-b * (D.evalue p).im) * hss
  · rw [h3, hsin]
    simp only [twissT, Matrix.of_apply, hp0, hlq, hb', ha', if_true, hqd, hqm, one_ne_zero, if_false]
    congr 1
    linear_combination ((1 + a * a) / b * (D.evalue p).im) * hss
  · rw [h3, hcos, hsin]
    simp only [twissT, Matrix.of_apply, hlq, hb', ha', if_true, hqd, hqm, one_ne_zero, if_false]
    congr 1
    linear_combination (a * (D.evalue p).im) * hss

/-- C83, Python 2: matrices that are not square, of odd size or whose determinant is not 1 (to 1e-6) raise
ValueError. -/
theorem C83_rejects (eig : Eig) (rows cols : Nat) (m : Nat → Nat → ℝ)
    (h : rows ≠ cols ∨ rows % 2 = 1 ∨
      1 / 1000000 < |Matrix.det (Matrix.of fun i j : Fin rows => m i j) - 1|) :
    construct .py2 eig rows cols m = .error .ValueError := by
  unfold construct
  split
  · rfl
  rename_i h1
  split
  · rfl
  rename_i h2
  simp only
  rw [if_pos]
  rcases h with h | h | h
  · exact absurd h h1
  · exact absurd ⟨rfl, by omega⟩ h2
  · exact h

/-- the matrix 2 is rejected -/
example (eig : Eig) : construct .py2 eig 2 2 (fun i j => if i = j then 2 else 0) = .error .ValueError := by
  apply C83_rejects
  right; right
  rw [Matrix.det_fin_two]
  norm_num [Matrix.of_apply]

/-- the ellipse of two variables -/
theorem ellipse_two {eig : Eig} {m : Nat → Nat → ℝ} {D : Dtm 2}
    (h : construct .py2 eig 2 2 m = .ok (some D)) (hs : Stable D.evalue D.evector) (e : ℝ) :
    ∃ V, getVM D [e] = .ok V ∧ ∀ p q : Fin 2, V p q =
      e * ((D.evector p 0).re * (D.evector q 0).re + (D.evector p 0).im * (D.evector q 0).im) := by
  have hN : 2 % 2 = 0 := rfl
  have hB : Block D.evector := by
    intro p q hb
    exact absurd (show p.val / 2 = q.val / 2 by have := p.isLt; have := q.isLt; omega) hb
  refine ⟨_, ellipse_eq h [e] rfl, ?_⟩
  have hV : ∀ p q : Fin 2, ((D.evector * (swap (fun i => [e].getD i 0) : Matrix (Fin 2) (Fin 2) ℂ) *
      D.evector.transpose).map Complex.re) p q =
      e * ((D.evector p 0).re * (D.evector q 0).re + (D.evector p 0).im * (D.evector q 0).im) := by
    intro p q
    have hp1 : D.evector p 1 = star (D.evector p 0) := hs.vector 0 1 p rfl rfl
    have hq1 : D.evector q 1 = star (D.evector q 0) := hs.vector 0 1 q rfl rfl
    have hlp : lo hN p = 0 := Fin.ext (by have := p.isLt; simp only [lo]; show _ = 0; omega)
    have hhp : hi hN p = 1 := Fin.ext (by have := p.isLt; simp only [hi]; show _ = 1; omega)
    have hb : p.val / 2 = q.val / 2 := by have := p.isLt; have := q.isLt; omega
    have hp0 : p.val / 2 = 0 := by have := p.isLt; omega
    rw [Matrix.map_apply, mul_swap_mul hN _ hB hB, if_pos hb, hlp, hhp, hp1, hq1, hp0,
      Complex.re_ofReal_mul]
    simp
    ring
  exact hV

/-- C83 is false of the eigen-emittances.  For all 2 x 2 transfer matrices of stable motion, with the
eigenvectors of norm 1 that numpy returns: the determinant of the ellipse is not the square of the
emittance asked for but that of the emittance divided by beta + gamma, which is at most half of it. -/
theorem C83_emittance_false (eig : Eig) (m : Nat → Nat → ℝ) (D : Dtm 2)
    (h : construct .py2 eig 2 2 m = .ok (some D)) (hs : Stable D.evalue D.evector)
    (hn : Complex.normSq (D.evector 0 0) + Complex.normSq (D.evector 1 0) = 1) (e : ℝ) :
    ∃ V b g, getVM D [e] = .ok V ∧ getBeta D 0 = .ok b ∧ getGamma D 0 = .ok g ∧
      V.det = (e / (b + g)) ^ 2 ∧ V.det ≤ (e / 2) ^ 2 := by
  obtain ⟨hN, hm, hd, -, -, hf, hT, hr, hr0, ht, hv, hp⟩ := construct_ok h
  have hfin := hf 0 (by norm_num)
  have hx0 : entry D.evector 0 0 = D.evector 0 0 := rfl
  have hy0 : entry D.evector 1 0 = D.evector 1 0 := rfl
  have hc0 : D.evector 0 1 = star (D.evector 0 0) := hs.vector 0 1 0 rfl rfl
  have hc1 : D.evector 1 1 = star (D.evector 1 0) := hs.vector 0 1 1 rfl rfl
  obtain ⟨x, hx⟩ : ∃ x, D.evector 0 0 = x := ⟨_, rfl⟩
  obtain ⟨y, hy⟩ : ∃ y, D.evector 1 0 = y := ⟨_, rfl⟩
  obtain ⟨V, hgV, hV⟩ := ellipse_two h hs e
  have hn0 : 0 < Complex.normSq x := by
    rw [Complex.normSq_pos, ← hx, ← hx0]
    exact hfin.1
  have hratio : ratio D.evector 0 = y / x := by
    show entry D.evector 1 0 / entry D.evector 0 0 = _
    rw [hx0, hy0, hx, hy]
  obtain ⟨n, hn'⟩ : ∃ n, Complex.normSq x = n := ⟨_, rfl⟩
  obtain ⟨k, hk'⟩ : ∃ k, Complex.normSq y = k := ⟨_, rfl⟩
  obtain ⟨J, hJ⟩ : ∃ J, y.im * x.re - y.re * x.im = J := ⟨_, rfl⟩
  obtain ⟨R, hR⟩ : ∃ R, y.re * x.re + y.im * x.im = R := ⟨_, rfl⟩
  have hJR : J ^ 2 + R ^ 2 = n * k := by
    rw [← hJ, ← hR, ← hn', ← hk', Complex.normSq_apply, Complex.normSq_apply]
    ring
  have him : (ratio D.evector 0).im = J / n := by
    rw [hratio, Complex.div_im, hn', ← hJ]
    ring
  have hre : (ratio D.evector 0).re = R / n := by
    rw [hratio, Complex.div_re, hn', ← hR]
    ring
  rw [hx, hy, hn', hk'] at hn
  rw [hn'] at hn0
  have hJ0 : J ≠ 0 := by
    intro h0
    have := hfin.2
    rw [him, h0] at this
    simp at this
  have hbeta : beta D.evector 0 = n / J := by rw [beta, him, one_div_div]
  have halpha : alpha D.evector 0 = -(R / J) := by
    rw [alpha, hbeta, hre]
    field_simp
  have hdet : V.det = (e * J) ^ 2 := by
    rw [Matrix.det_fin_two, hV, hV, hV, hV, hx, hy, ← hJ]
    ring
  refine ⟨V, vTOf D.evector 0 0, vTOf D.evector 1 1, hgV, ?_, ?_, ?_, ?_⟩
  · rw [← hv]; rfl
  · rw [← hv]; rfl
  · rw [hdet]
    have hsum : (vTOf D.evector 0 0 + vTOf D.evector 1 1) ^ 2 = 1 / J ^ 2 := by
      have h00 : vTOf D.evector 0 0 = (if beta D.evector 0 < 0 then -1 else 1) * beta D.evector 0 := by
        simp [vTOf]
      have h11 : vTOf D.evector 1 1 = (if beta D.evector 0 < 0 then -1 else 1) *
          (1 + alpha D.evector 0 * alpha D.evector 0) / beta D.evector 0 := by
        simp [vTOf]
      have hsq : ∀ c : ℝ, ((if beta D.evector 0 < 0 then (-1 : ℝ) else 1) * c) ^ 2 = c ^ 2 := by
        intro c
        split <;> ring
      rw [h00, h11, mul_div_assoc, ← mul_add, hsq, hbeta, halpha]
      have : n / J + (1 + -(R / J) * -(R / J)) / (n / J) = 1 / J := by
        field_simp
        linear_combination hJR + n * hn
      rw [this]
      ring
    rw [div_pow, hsum]
    field_simp
  · rw [hdet]
    have h4 : J ^ 2 ≤ (1 / 2) ^ 2 := by
      have hk : k = 1 - n := by linarith
      rw [hk] at hJR
      nlinarith [sq_nonneg R, sq_nonneg (n - 1 / 2)]
    calc (e * J) ^ 2 = e ^ 2 * J ^ 2 := by ring
      _ ≤ e ^ 2 * (1 / 2) ^ 2 := mul_le_mul_of_nonneg_left h4 (sq_nonneg e)
      _ = (e / 2) ^ 2 := by ring

/-- C83 is false for every uncoupled 4 x 4 transfer matrix, whose eigenvectors 0 and 1 are those of the
first two variables: the second axis uses eigenvector 1 instead of 2, which is zero there, and its beta
function is not a number. -/
theorem C83_uncoupled_false (eig : Eig) (m : Nat → Nat → ℝ)
    (hdet : Matrix.det (Matrix.of fun i j : Fin 4 => m i j) = 1)
    (h0 : (eig 4 (Matrix.of fun i j : Fin 4 => m i j)).2 2 1 = 0) :
    construct .py2 eig 4 4 m = .ok none := by
  unfold construct
  simp only [ne_eq, not_true, if_false, true_and]
  rw [hdet, if_neg (by norm_num)]
  unfold getDecoupling
  rw [if_neg]
  intro hf
  exact (hf 1 (by norm_num)).1 h0

/-! ### A concrete transfer matrix: (x, p) goes to (2 p, -x/2) -/

/-- the transfer matrix -/
noncomputable def demoM (i j : Nat) : ℝ :=
  if i = 0 ∧ j = 1 then 2 else if i = 1 ∧ j = 0 then -1 / 2 else 0

/-- its eigenvalues i, -i and the eigenvectors (2, i) and (2, -i), normalised -/
noncomputable def demoEig : Eig := fun _ _ =>
  (fun k => if k.val = 0 then Complex.I else -Complex.I,
   Matrix.of fun p k => (((Real.sqrt 5)⁻¹ : ℝ) : ℂ) *
     (if p.val = 0 then 2 else if k.val = 0 then Complex.I else -Complex.I))

theorem demo_sqrt : (Real.sqrt 5)⁻¹ * (Real.sqrt 5)⁻¹ = 1 / 5 := by
  rw [← mul_inv, Real.mul_self_sqrt (by norm_num)]
  norm_num

theorem demo_sqrt_ne : (Real.sqrt 5)⁻¹ ≠ 0 := by
  intro h
  have := demo_sqrt
  rw [h] at this
  norm_num at this

theorem demo_ok : ∃ D, construct .py2 demoEig 2 2 demoM = .ok (some D) ∧
    EigLaw D.m D.evalue D.evector ∧ Stable D.evalue D.evector ∧
    Complex.normSq (D.evector 0 0) + Complex.normSq (D.evector 1 0) = 1 := by
  have hc : (((Real.sqrt 5)⁻¹ : ℝ) : ℂ) ≠ 0 := Complex.ofReal_ne_zero.mpr demo_sqrt_ne
  obtain ⟨D, hD⟩ := C83_constructs demoEig 2 demoM rfl
    (by rw [Matrix.det_fin_two]; norm_num [demoM])
    (by
      rw [Matrix.det_fin_two]
      simp only [demoEig, Matrix.of_apply]
      obtain ⟨c, hc'⟩ : ∃ c, (((Real.sqrt 5)⁻¹ : ℝ) : ℂ) = c := ⟨_, rfl⟩
      rw [hc'] at hc ⊢
      intro h
      have : c * c * (-4 * Complex.I) = 0 := by
        rw [← h]
        norm_num
        ring
      simp [hc] at this)
    (by
      intro i hi
      have : i = 0 := by omega
      subst this
      have h0 : entry (demoEig 2 (Matrix.of fun i j : Fin 2 => demoM i j)).2 0 0 =
          (((Real.sqrt 5)⁻¹ : ℝ) : ℂ) * 2 := rfl
      have h1 : entry (demoEig 2 (Matrix.of fun i j : Fin 2 => demoM i j)).2 1 0 =
          (((Real.sqrt 5)⁻¹ : ℝ) : ℂ) * Complex.I := rfl
      refine ⟨?_, ?_⟩
      · show entry _ 0 0 ≠ 0
        rw [h0]
        simp
      · show (entry _ 1 0 / entry _ 0 0).im ≠ 0
        rw [h0, h1, mul_div_mul_left _ _ hc]
        norm_num)
  obtain ⟨-, hm, -, hl, hE, -⟩ := construct_ok hD
  refine ⟨D, hD, ?_, ?_, ?_⟩
  · intro p k
    rw [hl, hE, hm]
    simp only [demoEig, Matrix.of_apply, Fin.sum_univ_two]
    have hI := Complex.I_sq
    fin_cases p <;> fin_cases k <;> norm_num [demoM] <;> ring_nf <;> rw [hI] <;> ring
  · rw [hl, hE]
    refine ⟨?_, ?_, ?_⟩
    · intro p q hp hq
      obtain rfl : p = 0 := Fin.ext (show p.val = 0 by omega)
      obtain rfl : q = 1 := Fin.ext (show q.val = 1 by omega)
      simp [demoEig]
    · intro p
      fin_cases p <;> simp [demoEig]
    · intro p q k hp hq
      obtain rfl : p = 0 := Fin.ext (show p.val = 0 by omega)
      obtain rfl : q = 1 := Fin.ext (show q.val = 1 by omega)
      fin_cases k <;> simp [demoEig]
  · rw [hE]
    have := demo_sqrt
    simp only [demoEig, Matrix.of_apply, Complex.normSq_mul, Complex.normSq_ofReal, this]
    norm_num

/-- C83 is false of the documentation of get_v_m, which promises M^T V M = V: for (x, p) to (2 p, -x/2)
the value at the first entry is 1/20 instead of 4/5. -/
theorem C83_transpose_false : ∃ D V, construct .py2 demoEig 2 2 demoM = .ok (some D) ∧
    EigLaw D.m D.evalue D.evector ∧ Stable D.evalue D.evector ∧ getVM D [1] = .ok V ∧
    V 0 0 = 4 / 5 ∧ ∑ a : Fin 2, ∑ b : Fin 2, demoM a 0 * V a b * demoM b 0 = 1 / 20 := by
  obtain ⟨D, hD, hl, hs, hn⟩ := demo_ok
  obtain ⟨V, hV, hpq⟩ := ellipse_two hD hs 1
  obtain ⟨-, -, -, -, hE, -⟩ := construct_ok hD
  have e00 : V 0 0 = 4 / 5 := by
    rw [hpq, hE]
    simp only [demoEig, Matrix.of_apply]
    norm_num
    nlinarith [Real.mul_self_sqrt (show (0 : ℝ) ≤ 5 by norm_num)]
  have e11 : V 1 1 = 1 / 5 := by
    rw [hpq, hE]
    simp only [demoEig, Matrix.of_apply]
    norm_num
    nlinarith [Real.mul_self_sqrt (show (0 : ℝ) ≤ 5 by norm_num)]
  refine ⟨D, V, hD, hl, hs, hV, e00, ?_⟩
  simp only [Fin.sum_univ_two]
  norm_num [demoM, e11]

/-- the hypotheses of C83_partial, C83_decoupled_partial and C83_emittance_false are met -/
example : ∃ D V, construct .py2 demoEig 2 2 demoM = .ok (some D) ∧ getVM D [1] = .ok V ∧
    (∀ x : Fin 2 → ℝ, x ≠ 0 → 0 < ∑ p, ∑ q, x p * V p q * x q) := by
  obtain ⟨D, hD, hl, hs, -⟩ := demo_ok
  obtain ⟨V, hV, -, -, h⟩ := (C83_partial demoEig 2 demoM D hD hl hs [1]).2 rfl
  exact ⟨D, V, hD, hV, h (by simp)⟩

/-- C83_uncoupled_false: two copies of the transfer matrix, with their eigenvectors -/
example : ∃ eig : Eig, ∃ m : Nat → Nat → ℝ,
    Matrix.det (Matrix.of fun i j : Fin 4 => m i j) = 1 ∧ construct .py2 eig 4 4 m = .ok none := by
  refine ⟨fun N M => ((demoEig N M).1, Matrix.of fun p k =>
      if p.val / 2 = k.val / 2 then
        if p.val % 2 = 0 then 2 else if k.val % 2 = 0 then Complex.I else -Complex.I
      else 0),
    fun i j => if i / 2 = j / 2 then demoM (i % 2) (j % 2) else 0, ?_, ?_⟩
  · simp [Matrix.det_succ_row_zero, Fin.sum_univ_succ, demoM, Fin.succAbove]
    norm_num
  · apply C83_uncoupled_false
    · simp [Matrix.det_succ_row_zero, Fin.sum_univ_succ, demoM, Fin.succAbove]
      norm_num
    · simp

end Decoupled
end Xboa
