import Verif.Props.Tune
import Mathlib.Algebra.Order.Floor.Ring
import Mathlib.Algebra.BigOperators.Field
import Mathlib.Analysis.SpecialFunctions.Trigonometric.Angle
import Mathlib.Tactic.LinearCombination
/-
C90: the tune that DPhiTuneFinder finds for the motion in a linear lattice.
-/
set_option linter.unusedSectionVars false
namespace Xboa
namespace TuneExact
open Real

/-! ### sums of cosines and sines over whole turns -/

theorem list_sum_range (f : ℕ → ℝ) (n : ℕ) :
    ((List.range n).map f).sum = ∑ j ∈ Finset.range n, f j := by
  induction n with
  | zero => simp
  | succ n ih => rw [List.range_succ, List.map_append, List.sum_append, ih, Finset.sum_range_succ]; simp

theorem sum_turn (N : ℕ) (hN : 0 < N) (m : ℤ) (hm : ¬ (N : ℤ) ∣ m) (θ : ℝ) :
    ∑ j ∈ Finset.range N, Real.cos (θ + j * (2 * π * m / N)) = 0 ∧
    ∑ j ∈ Finset.range N, Real.sin (θ + j * (2 * π * m / N)) = 0 := by
  have hN0 : (N : ℂ) ≠ 0 := by exact_mod_cast hN.ne'
  have hNr : (N : ℝ) ≠ 0 := by exact_mod_cast hN.ne'
  set z := Complex.exp ((2 * π * m / N : ℝ) * Complex.I) with hz
  have hzN : z ^ N = 1 := by
    rw [hz, ← Complex.exp_nat_mul, Complex.exp_eq_one_iff]
    refine ⟨m, ?_⟩
    push_cast
    field_simp
  have hz1 : z ≠ 1 := by
    rw [hz, Ne, Complex.exp_eq_one_iff]
    rintro ⟨n, h⟩
    apply hm
    refine ⟨n, ?_⟩
    have h2 : ((2 * π * m / N : ℝ) : ℂ) = ((n * (2 * π) : ℝ) : ℂ) := by
      exact mul_right_cancel₀ Complex.I_ne_zero (h.trans (by push_cast; ring))
    have h3 : 2 * π * m / N = n * (2 * π) := by exact_mod_cast h2
    field_simp at h3
    have : (m : ℝ) = (N : ℝ) * n := by
      have hp := Real.pi_pos.ne'
      nlinarith [h3]
    exact_mod_cast this
  have hs : ∑ j ∈ Finset.range N, z ^ j = 0 := by
    have := geom_sum_mul z N
    rw [hzN, sub_self] at this
    exact (mul_eq_zero.mp this).resolve_right (sub_ne_zero.mpr hz1)
  have hterm : ∀ j : ℕ, Complex.exp (θ * Complex.I) * z ^ j =
      ⟨Real.cos (θ + j * (2 * π * m / N)), Real.sin (θ + j * (2 * π * m / N))⟩ := by
    intro j
    rw [hz, ← Complex.exp_nat_mul, ← Complex.exp_add]
    have : (θ : ℂ) * Complex.I + (j : ℂ) * (((2 * π * m / N : ℝ) : ℂ) * Complex.I) =
        ((θ + j * (2 * π * m / N) : ℝ) : ℂ) * Complex.I := by push_cast; ring
    rw [this]
    apply Complex.ext
    · rw [Complex.exp_ofReal_mul_I_re]
    · rw [Complex.exp_ofReal_mul_I_im]
  have hsum : ∑ j ∈ Finset.range N, (⟨Real.cos (θ + j * (2 * π * m / N)),
      Real.sin (θ + j * (2 * π * m / N))⟩ : ℂ) = 0 := by
    rw [← Finset.sum_congr rfl fun j _ => hterm j, ← Finset.mul_sum, hs, mul_zero]
  constructor
  · simpa using congrArg Complex.re hsum
  · simpa using congrArg Complex.im hsum

/-- N unit vectors with the first and second moments of the uniform distribution -/
structure Balanced (N : ℕ) (C S : ℕ → ℝ) : Prop where
  pos : 0 < N
  unit : ∀ j, C j ^ 2 + S j ^ 2 = 1
  c : ∑ j ∈ Finset.range N, C j = 0
  s : ∑ j ∈ Finset.range N, S j = 0
  cc : ∑ j ∈ Finset.range N, C j * C j = N / 2
  cs : ∑ j ∈ Finset.range N, C j * S j = 0
  ss : ∑ j ∈ Finset.range N, S j * S j = N / 2

theorem balanced_turn (N : ℕ) (hN : 0 < N) (m : ℤ) (hm : ¬ (N : ℤ) ∣ 2 * m) (θ : ℝ) :
    Balanced N (fun j => Real.cos (θ + j * (2 * π * m / N)))
      (fun j => -Real.sin (θ + j * (2 * π * m / N))) := by
  have h1 := sum_turn N hN m (fun h => hm (h.mul_left 2)) θ
  have h2 := sum_turn N hN (2 * m) hm (2 * θ)
  have e : ∀ j : ℕ, 2 * θ + j * (2 * π * ((2 * m : ℤ) : ℝ) / N) =
      2 * (θ + j * (2 * π * m / N)) := by
    intro j; push_cast; ring
  simp only [e] at h2
  refine ⟨hN, fun j => ?_, h1.1, ?_, ?_, ?_, ?_⟩
  · rw [neg_sq]; exact Real.cos_sq_add_sin_sq _
  · rw [Finset.sum_neg_distrib, h1.2, neg_zero]
  · have : ∀ j : ℕ, Real.cos (θ + j * (2 * π * m / N)) * Real.cos (θ + j * (2 * π * m / N)) =
        1 / 2 + Real.cos (2 * (θ + j * (2 * π * m / N))) / 2 := by
      intro j; rw [Real.cos_two_mul]; ring
    rw [Finset.sum_congr rfl fun j _ => this j, Finset.sum_add_distrib, ← Finset.sum_div, ← Finset.sum_div,
      h2.1]
    simp
  · have : ∀ j : ℕ, Real.cos (θ + j * (2 * π * m / N)) * -Real.sin (θ + j * (2 * π * m / N)) =
        -(Real.sin (2 * (θ + j * (2 * π * m / N))) / 2) := by
      intro j; rw [Real.sin_two_mul]; ring
    rw [Finset.sum_congr rfl fun j _ => this j, Finset.sum_neg_distrib, ← Finset.sum_div, h2.2]
    simp
  · have : ∀ j : ℕ, -Real.sin (θ + j * (2 * π * m / N)) * -Real.sin (θ + j * (2 * π * m / N)) =
        1 / 2 - Real.cos (2 * (θ + j * (2 * π * m / N))) / 2 := by
      intro j; rw [Real.cos_two_mul']
      have := Real.cos_sq_add_sin_sq (θ + j * (2 * π * m / N))
      linarith [this, sq (Real.sin (θ + j * (2 * π * m / N))), sq (Real.cos (θ + j * (2 * π * m / N)))]
    rw [Finset.sum_congr rfl fun j _ => this j, Finset.sum_sub_distrib, ← Finset.sum_div, ← Finset.sum_div,
      h2.1]
    simp

/-! ### the ellipse fitted to an affine image of such points -/

/-- The points `(x0, y0) + A w_j` with `A = ((a, b), (c, d))`. -/
def ptX (x0 a b : ℝ) (C S : ℕ → ℝ) (j : ℕ) : ℝ := x0 + a * C j + b * S j

section fit
variable {N : ℕ} {C S : ℕ → ℝ} (hB : Balanced N C S) (x0 y0 a b c d : ℝ)

/-- the list of points with their weights -/
def wpts (N : ℕ) (C S : ℕ → ℝ) (x0 y0 a b c d : ℝ) : List (List ℝ × ℝ) :=
  (List.range N).map fun j => ([ptX x0 a b C S j, ptX y0 c d C S j], 1)

include hB

theorem totW_wpts : totW (wpts N C S x0 y0 a b c d) = N := by
  simp only [totW, wpts, List.map_map]
  rw [show (Prod.snd ∘ fun j => (([ptX x0 a b C S j, ptX y0 c d C S j] : List ℝ), (1 : ℝ))) =
    fun _ => (1 : ℝ) from rfl, list_sum_range]
  simp

theorem sum_ptX : ∑ j ∈ Finset.range N, ptX x0 a b C S j = N * x0 := by
  simp only [ptX, Finset.sum_add_distrib, ← Finset.mul_sum, hB.c, hB.s]
  simp

theorem mean_wpts : cMean (wpts N C S x0 y0 a b c d) 0 = x0 ∧
    cMean (wpts N C S x0 y0 a b c d) 1 = y0 := by
  have hN : (N : ℝ) ≠ 0 := by exact_mod_cast hB.pos.ne'
  constructor
  · rw [cMean, totW_wpts hB]
    simp only [wpts, List.map_map, Function.comp_def, list_sum_range]
    simp only [one_mul, List.getD_cons_zero, sum_ptX hB]
    field_simp
  · rw [cMean, totW_wpts hB]
    simp only [wpts, List.map_map, Function.comp_def, list_sum_range]
    simp only [one_mul, List.getD_cons_succ, List.getD_cons_zero, sum_ptX hB]
    field_simp

theorem sum_prod : ∑ j ∈ Finset.range N, (ptX x0 a b C S j - x0) * (ptX y0 c d C S j - y0) =
    N * ((a * c + b * d) / 2) := by
  have : ∀ j, (ptX x0 a b C S j - x0) * (ptX y0 c d C S j - y0) =
      (a * c) * (C j * C j) + (a * d + b * c) * (C j * S j) + (b * d) * (S j * S j) := by
    intro j; simp only [ptX]; ring
  rw [Finset.sum_congr rfl fun j _ => this j]
  simp only [Finset.sum_add_distrib, ← Finset.mul_sum, hB.cc, hB.cs, hB.ss]
  ring

theorem cov_wpts : cCov (wpts N C S x0 y0 a b c d) 0 0 = (a ^ 2 + b ^ 2) / 2 ∧
    cCov (wpts N C S x0 y0 a b c d) 0 1 = (a * c + b * d) / 2 ∧
    cCov (wpts N C S x0 y0 a b c d) 1 0 = (a * c + b * d) / 2 ∧
    cCov (wpts N C S x0 y0 a b c d) 1 1 = (c ^ 2 + d ^ 2) / 2 := by
  have hN : (N : ℝ) ≠ 0 := by exact_mod_cast hB.pos.ne'
  obtain ⟨m0, m1⟩ := mean_wpts hB x0 y0 a b c d
  refine ⟨?_, ?_, ?_, ?_⟩
  all_goals
    rw [cCov, totW_wpts hB]
    simp only [m0, m1]
    simp only [wpts, List.map_map, Function.comp_def, list_sum_range]
    simp only [one_mul, List.getD_cons_succ, List.getD_cons_zero]
    rw [sum_prod hB]
    field_simp

theorem mat_wpts : cMat 2 (wpts N C S x0 y0 a b c d) =
    !![(a ^ 2 + b ^ 2) / 2, (a * c + b * d) / 2; (a * c + b * d) / 2, (c ^ 2 + d ^ 2) / 2] := by
  obtain ⟨h1, h2, h3, h4⟩ := cov_wpts hB x0 y0 a b c d
  ext i j
  fin_cases i <;> fin_cases j <;> simp [cMat, h1, h2, h3, h4]

theorem det_wpts : (cMat 2 (wpts N C S x0 y0 a b c d)).det = ((a * d - b * c) / 2) ^ 2 := by
  rw [mat_wpts hB, Matrix.det_fin_two_of]; ring

/-- no point is cut while the determinant is below the cut -/
theorem accepted_wpts (hd : 0 < a * d - b * c) (eps : ℝ) (hc : a * d - b * c < eps) (k : ℕ) :
    accepted 2 (wpts N C S x0 y0 a b c d) eps k = wpts N C S x0 y0 a b c d := by
  induction k with
  | zero => rfl
  | succ k ih =>
    rw [Xboa.accepted, ih, List.filter_eq_self]
    intro q hq
    rw [decide_eq_true_iff]
    have hinv : (cMat 2 (wpts N C S x0 y0 a b c d))⁻¹ =
        !![2 * (c ^ 2 + d ^ 2) / (a * d - b * c) ^ 2, -2 * (a * c + b * d) / (a * d - b * c) ^ 2;
          -2 * (a * c + b * d) / (a * d - b * c) ^ 2, 2 * (a ^ 2 + b ^ 2) / (a * d - b * c) ^ 2] := by
      rw [mat_wpts hB]
      apply Matrix.inv_eq_left_inv
      have hne := hd.ne'
      obtain ⟨D, hD⟩ : ∃ D, a * d - b * c = D := ⟨_, rfl⟩
      rw [hD] at hne ⊢
      ext i j
      fin_cases i <;> fin_cases j <;>
        simp only [Matrix.mul_apply, Fin.sum_univ_two, Matrix.of_apply, Matrix.cons_val',
          Matrix.cons_val_zero, Matrix.cons_val_one, Matrix.cons_val_fin_one, Fin.zero_eta, Fin.mk_one,
          Fin.isValue, Matrix.one_apply_eq, Matrix.one_apply_ne, ne_eq, zero_ne_one, one_ne_zero,
          not_false_eq_true] <;> field_simp <;> rw [← hD] <;> ring
    refine ⟨(a * d - b * c) / 2, by positivity, by rw [det_wpts hB], ?_⟩
    obtain ⟨m0, m1⟩ := mean_wpts hB x0 y0 a b c d
    obtain ⟨j, _, rfl⟩ := List.mem_map.mp hq
    rw [hinv]
    simp only [Fin.sum_univ_two, Matrix.of_apply, Matrix.cons_val', Matrix.cons_val_zero,
      Matrix.cons_val_one, Fin.val_zero, Fin.val_one, m0, m1, Matrix.empty_val',
      Matrix.cons_val_fin_one, List.getD_cons_succ, List.getD_cons_zero, ptX]
    have hu := hB.unit j
    have hne := hd.ne'
    refine lt_of_eq_of_lt ?_ hc
    field_simp
    linear_combination ((a * d - b * c) ^ 2) * hu

/-- what fit_ellipse returns -/
theorem fit_wpts {L : LinAlg ℝ} (hL : L.Lawful) (hd : 0 < a * d - b * c) (eps : ℝ)
    (hc : a * d - b * c < eps) :
    Common.fitEllipse L realExt ((List.range N).map fun j => [ptX x0 a b C S j, ptX y0 c d C S j])
      eps none 10 = stats 2 (wpts N C S x0 y0 a b c d) := by
  set pts := (List.range N).map fun j => [ptX x0 a b C S j, ptX y0 c d C S j] with hpts
  have hz : pts.zip (List.replicate pts.length 1) = wpts N C S x0 y0 a b c d := by
    rw [hpts, List.length_map, List.length_range, wpts]
    apply List.ext_getElem
    · simp
    · intro i h1 h2
      simp
  rw [C50_unweighted]
  obtain ⟨_, r, h1, h2, h3⟩ := C50_fit_ellipse hL realExt_lawful 2 (by norm_num) pts
    (by
      have := hB.pos
      simp only [hpts, ne_eq, List.map_eq_nil_iff, List.range_eq_nil]; omega)
    (by
      intro p hp
      obtain ⟨q, _, rfl⟩ := List.mem_map.mp hp
      rfl) (List.replicate pts.length 1) (by simp) eps 10
  rw [hz] at h3 h2
  generalize Common.fitEllipse L realExt pts eps (some (List.replicate pts.length 1)) 10
    = res at h3 ⊢
  have hacc := accepted_wpts hB x0 y0 a b c d hd eps hc
  cases h3 with
  | limit hr => rw [hr]; simp only [afterRounds, hacc]
  | converged q hr _ => rw [hr]; simp only [afterRounds, hacc]
  | weightless _ _ h0 =>
    rw [hacc, totW_wpts hB] at h0
    exact absurd h0 (by exact_mod_cast hB.pos.ne')
  | singular _ h0 =>
    rw [hacc, det_wpts hB] at h0
    exact absurd h0 (by positivity)

end fit

/-! ### the angles -/

/-- numpy.linalg.cholesky on positive definite 2 by 2 matrices: the lower triangular factor with
positive diagonal. -/
def CholLaw (chol : Mat ℝ → Option (Mat ℝ)) : Prop :=
  ∀ M : Mat ℝ, M.rows = 2 → M.cols = 2 → M.entry 0 1 = M.entry 1 0 → 0 < M.entry 0 0 →
    0 < M.entry 0 0 * M.entry 1 1 - M.entry 1 0 ^ 2 →
    ∃ C : Mat ℝ, chol M = some C ∧ C.rows = 2 ∧ C.cols = 2 ∧ 0 < C.entry 0 0 ∧ 0 < C.entry 1 1 ∧
      C.entry 0 1 = 0 ∧ C.entry 0 0 ^ 2 = M.entry 0 0 ∧ C.entry 1 0 * C.entry 0 0 = M.entry 1 0 ∧
      C.entry 1 0 ^ 2 + C.entry 1 1 ^ 2 = M.entry 1 1

theorem realChol_law : CholLaw realChol := by
  intro M _ _ _ h1 h2
  have h3 : 0 < M.entry 1 1 - M.entry 1 0 * M.entry 1 0 / M.entry 0 0 := by
    rw [sub_pos, div_lt_iff₀ h1]; nlinarith
  refine ⟨_, by rw [realChol]; exact if_pos ⟨h1, h3⟩, rfl, rfl, ?_, ?_, ?_, ?_, ?_, ?_⟩
  · simpa using h1
  · simpa using h3
  · simp
  · simp [Real.sq_sqrt h1.le]
  · simp [div_mul_cancel₀ _ (Real.sqrt_pos.mpr h1).ne']
  · simp only [one_ne_zero, if_false, if_true, div_pow, Real.sq_sqrt h1.le, Real.sq_sqrt h3.le]
    ring

/-- the inverse of the factor -/
theorem inv_lower {L : LinAlg ℝ} (hL : L.Lawful) {C : Mat ℝ} (hr : C.rows = 2) (hc : C.cols = 2)
    (h00 : 0 < C.entry 0 0) (h11 : 0 < C.entry 1 1) (h01 : C.entry 0 1 = 0) :
    ∃ M, L.inv C = some M ∧ M.entry 0 0 = 1 / C.entry 0 0 ∧ M.entry 0 1 = 0 ∧
      M.entry 1 0 = -C.entry 1 0 / (C.entry 0 0 * C.entry 1 1) ∧ M.entry 1 1 = 1 / C.entry 1 1 := by
  have hdet : C.det ≠ 0 := by
    rw [Mat.det_eq C 2 hr, Matrix.det_fin_two]
    simp only [Matrix.of_apply, Fin.val_zero, Fin.val_one, h01, zero_mul, sub_zero]
    exact (mul_pos h00 h11).ne'
  obtain ⟨M, hM⟩ := hL.inv_ok C (by rw [hr, hc]) hdet
  obtain ⟨_, hcols, hm⟩ := hL.inv_mul C M (by rw [hr, hc]) hM
  have e : ∀ i j, i < 2 → j < 2 → M.entry i 0 * C.entry 0 j + M.entry i 1 * C.entry 1 j =
      if i = j then 1 else 0 := by
    intro i j hi hj
    have := hm i j (by omega) (by omega)
    simpa [Mat.mul, hcols, hr, Finset.sum_range_succ] using this
  have a := e 0 0 (by norm_num) (by norm_num)
  have b := e 0 1 (by norm_num) (by norm_num)
  have c := e 1 0 (by norm_num) (by norm_num)
  have d := e 1 1 (by norm_num) (by norm_num)
  rw [h01] at b d
  simp at a b c d
  have b' : M.entry 0 1 = 0 := by rcases b with b | b; exact b; exact absurd b h11.ne'
  have d' : M.entry 1 1 = 1 / C.entry 1 1 := by field_simp; exact d
  refine ⟨M, hM, ?_, b', ?_, d'⟩
  · rw [b'] at a; field_simp; linarith
  · rw [d'] at c
    have hs := h00.ne'
    have hr' := h11.ne'
    field_simp at c ⊢
    linarith

/-- in the space in which the ellipse is a circle the points go round with the angles -/
theorem circle_points {a b c d s t r : ℝ} (hd : 0 < a * d - b * c) (hs : 0 < s) (hr : 0 < r)
    (h1 : s ^ 2 = (a ^ 2 + b ^ 2) / 2) (h2 : t * s = (a * c + b * d) / 2)
    (h3 : t ^ 2 + r ^ 2 = (c ^ 2 + d ^ 2) / 2) (C S : ℝ) :
    -t / (s * r) * (a * C + b * S) + 1 / r * (c * C + d * S) = (a * S - b * C) / s := by
  have hsr : s * r = (a * d - b * c) / 2 := by
    have : (s * r) ^ 2 = ((a * d - b * c) / 2) ^ 2 := by
      have e : r ^ 2 = (c ^ 2 + d ^ 2) / 2 - t ^ 2 := by linarith
      have e2 : (t * s) ^ 2 = ((a * c + b * d) / 2) ^ 2 := by rw [h2]
      calc (s * r) ^ 2 = s ^ 2 * ((c ^ 2 + d ^ 2) / 2) - (t * s) ^ 2 := by rw [mul_pow, e]; ring
        _ = _ := by rw [e2, h1]; ring
    exact (pow_left_inj₀ (mul_pos hs hr).le (by positivity) two_ne_zero).mp this
  have hs' := hs.ne'
  have hr' := hr.ne'
  rw [div_mul_eq_mul_div, div_mul_eq_mul_div, one_mul, div_add_div _ _ (mul_pos hs hr).ne' hr',
    div_eq_div_iff (mul_pos (mul_pos hs hr) hr).ne' hs']
  linear_combination (-r * (a * C + b * S)) * h2 + r * (c * C + d * S) * h1
    - (a * S - b * C) * r * hsr

/-- angles that grow by the same angle, up to whole turns, give the same advances -/
theorem advances_const (φ : ℝ) (f : ℕ → ℝ) (hf : ∀ j, -π ≤ f j ∧ f j < π)
    (hstep : ∀ j, ∃ k : ℤ, f (j + 1) - f j = φ + 2 * π * k) : ∀ n i,
    Tune.advances π (f i) ((List.range' (i + 1) n).map f) =
      List.replicate n (Int.fract (φ / (2 * π)))
  | 0, i => rfl
  | n + 1, i => by
    have hp := Real.pi_pos
    obtain ⟨k, hk⟩ := hstep i
    have h0 := hf i
    have h1 := hf (i + 1)
    rw [List.range'_succ, List.map_cons, List.replicate_succ, Tune.advances,
      advances_const φ f hf hstep n (i + 1)]
    congr 1
    symm
    rw [Int.fract_eq_iff]
    by_cases h : f (i + 1) - f i < 0
    · rw [if_pos h]
      refine ⟨div_nonneg (div_nonneg (by linarith) hp.le) (by norm_num), ?_, -(k + 1), ?_⟩
      · rw [div_div, div_lt_one (by positivity)]; linarith
      · rw [hk]; push_cast; field_simp; ring
    · rw [if_neg h]
      refine ⟨div_nonneg (div_nonneg (by linarith) hp.le) (by norm_num), ?_, -k, ?_⟩
      · rw [div_div, div_lt_one (by positivity)]; linarith
      · rw [hk]; push_cast; field_simp; ring

/-- the angle of a point that has been turned clockwise -/
theorem arg_step (κ : ℂ) (hκ : κ ≠ 0) (t φ : ℝ) :
    ∃ k : ℤ, -Complex.arg (κ * (Complex.cos (-(t + φ) : ℝ) + Complex.sin (-(t + φ) : ℝ) * Complex.I))
      - -Complex.arg (κ * (Complex.cos (-t : ℝ) + Complex.sin (-t : ℝ) * Complex.I)) =
      φ + 2 * π * k := by
  have key : ∀ x : ℝ, ((Complex.arg (κ * (Complex.cos (x : ℝ) + Complex.sin (x : ℝ) * Complex.I)) : ℝ) :
      Real.Angle) = ((Complex.arg κ + x : ℝ) : Real.Angle) := by
    intro x
    have hne : Complex.cos (x : ℝ) + Complex.sin (x : ℝ) * Complex.I ≠ 0 := by
      rw [← Complex.exp_mul_I]; exact Complex.exp_ne_zero _
    rw [Complex.arg_mul_coe_angle hκ hne, Real.Angle.coe_add]
    congr 1
    have := Complex.arg_cos_add_sin_mul_I_coe_angle (x : Real.Angle)
    simpa using this
  obtain ⟨k1, e1⟩ := Real.Angle.angle_eq_iff_two_pi_dvd_sub.mp (key (-(t + φ)))
  obtain ⟨k2, e2⟩ := Real.Angle.angle_eq_iff_two_pi_dvd_sub.mp (key (-t))
  refine ⟨k2 - k1, ?_⟩
  rw [Int.cast_sub]
  linarith

theorem average_replicate (n : ℕ) (hn : 0 < n) (x : ℝ) : average (List.replicate n x) = some x := by
  obtain ⟨k, rfl⟩ : ∃ k, n = k + 1 := ⟨n - 1, by omega⟩
  rw [List.replicate_succ, average, ← List.replicate_succ]
  · rw [List.sum_replicate, List.length_replicate, nsmul_eq_mul]
    congr 1
    field_simp
  · simp

/-- the tune of points that go round an ellipse `m` times in `N` equal steps of angle -/
theorem tune_affine {L : LinAlg ℝ} (hL : L.Lawful) {chol : Mat ℝ → Option (Mat ℝ)}
    (hch : CholLaw chol) (N : ℕ) (hN : 0 < N) (m : ℤ) (hm : ¬ (N : ℤ) ∣ 2 * m)
    (θ x0 y0 a b c d : ℝ) (hd : 0 < a * d - b * c) (hbig : a * d - b * c < 1000000000)
    (s : Tune.State ℝ)
    (hu : s.u = some ((List.range N).map (ptX x0 a b
      (fun j => Real.cos (θ + j * (2 * π * m / N))) (fun j => -Real.sin (θ + j * (2 * π * m / N))))))
    (hup : s.up = some ((List.range N).map (ptX y0 c d
      (fun j => Real.cos (θ + j * (2 * π * m / N))) (fun j => -Real.sin (θ + j * (2 * π * m / N)))))) :
    ∃ s', Tune.getTune L realExt π chol s = (.ok (average s'.dphi), s') ∧
      s'.dphi = s.dphi ++ List.replicate (N - 1) (Int.fract (m / N : ℝ)) := by
  set C : ℕ → ℝ := fun j => Real.cos (θ + j * (2 * π * m / N)) with hC
  set S : ℕ → ℝ := fun j => -Real.sin (θ + j * (2 * π * m / N)) with hS
  have hB : Balanced N C S := balanced_turn N hN m hm θ
  have hfit := fit_wpts hB x0 y0 a b c d hL hd 1000000000 hbig
  obtain ⟨m0, m1⟩ := mean_wpts hB x0 y0 a b c d
  obtain ⟨c00, c01, c10, c11⟩ := cov_wpts hB x0 y0 a b c d
  have hab : 0 < a ^ 2 + b ^ 2 := by
    by_contra h
    have ha : a = 0 := by nlinarith [sq_nonneg a, sq_nonneg b]
    have hb : b = 0 := by nlinarith [sq_nonneg a, sq_nonneg b]
    rw [ha, hb] at hd; simp at hd
  obtain ⟨F, hF, hFr, hFc, hs, hr, hF01, h1, h2, h3⟩ := hch (stats 2 (wpts N C S x0 y0 a b c d)).2
    rfl rfl (by simp only [stats]; rw [c01, c10]) (by simp only [stats]; rw [c00]; positivity)
    (by
      simp only [stats]; rw [c00, c11, c10]
      have : 0 < (a * d - b * c) ^ 2 := by positivity
      nlinarith)
  simp only [stats] at h1 h2 h3
  rw [c00] at h1
  rw [c10] at h2
  rw [c11] at h3
  obtain ⟨M, hM, n00, n01, n10, n11⟩ := inv_lower hL hFr hFc hs hr hF01
  -- the angle of point j
  set κ : ℂ := ⟨a / F.entry 0 0, -b / F.entry 0 0⟩ with hκ
  have hκ0 : κ ≠ 0 := by
    intro h
    have e1 : a / F.entry 0 0 = 0 := congrArg Complex.re h
    have e2 : -b / F.entry 0 0 = 0 := congrArg Complex.im h
    have ha : a = 0 := by simpa [hs.ne'] using e1
    have hb : b = 0 := by simpa [hs.ne'] using e2
    rw [ha, hb] at hab; simp at hab
  let g : ℝ → ℝ := fun x =>
    -Complex.arg (κ * (Complex.cos (-x : ℝ) + Complex.sin (-x : ℝ) * Complex.I))
  let f : ℕ → ℝ := fun j => g (θ + j * (2 * π * m / N))
  have hf : ∀ j, -π ≤ f j ∧ f j < π := by
    intro j
    exact ⟨by simp only [f, g]; linarith [Complex.arg_le_pi (κ * (Complex.cos
      (-(θ + j * (2 * π * m / N)) : ℝ) + Complex.sin (-(θ + j * (2 * π * m / N)) : ℝ) * Complex.I))],
      by simp only [f, g]; linarith [Complex.neg_pi_lt_arg (κ * (Complex.cos
      (-(θ + j * (2 * π * m / N)) : ℝ) + Complex.sin (-(θ + j * (2 * π * m / N)) : ℝ) * Complex.I))]⟩
  have hstep : ∀ j, ∃ k : ℤ, f (j + 1) - f j = 2 * π * m / N + 2 * π * k := by
    intro j
    obtain ⟨k, hk⟩ := arg_step κ hκ0 (θ + j * (2 * π * m / N)) (2 * π * m / N)
    refine ⟨k, ?_⟩
    rw [← hk]
    simp only [f, g]
    rw [show θ + ((j + 1 : ℕ) : ℝ) * (2 * π * m / N) = θ + j * (2 * π * m / N) + 2 * π * m / N by
      push_cast; ring]
  have hang : ∀ j, -realExt.atan2
      (M.entry 1 0 * (ptX x0 a b C S j - x0) + M.entry 1 1 * (ptX y0 c d C S j - y0))
      (M.entry 0 0 * (ptX x0 a b C S j - x0) + M.entry 0 1 * (ptX y0 c d C S j - y0)) = f j := by
    intro j
    have e1 : M.entry 1 0 * (ptX x0 a b C S j - x0) + M.entry 1 1 * (ptX y0 c d C S j - y0) =
        (a * S j - b * C j) / F.entry 0 0 := by
      rw [n10, n11, ← circle_points hd hs hr h1 h2 h3 (C j) (S j)]
      simp only [ptX]; ring
    have e2 : M.entry 0 0 * (ptX x0 a b C S j - x0) + M.entry 0 1 * (ptX y0 c d C S j - y0) =
        (a * C j + b * S j) / F.entry 0 0 := by
      rw [n00, n01]
      simp only [ptX]; ring
    rw [e1, e2]
    change -Complex.arg _ = -Complex.arg _
    congr 2
    simp only [hC, hS]
    generalize θ + (j : ℝ) * (2 * π * m / N) = ω
    apply Complex.ext
    · simp [hκ, Complex.cos_ofReal_re, Complex.sin_ofReal_re]
      ring
    · simp [hκ, Complex.cos_ofReal_re, Complex.sin_ofReal_re]
      ring
  have hzip : List.zip ((List.range N).map (ptX x0 a b C S)) ((List.range N).map (ptX y0 c d C S)) =
      (List.range N).map fun j => (ptX x0 a b C S j, ptX y0 c d C S j) := by
    rw [List.zip_map']
  obtain ⟨n, rfl⟩ : ∃ n, N = n + 1 := ⟨N - 1, by omega⟩
  obtain ⟨s', g1, g2⟩ := getDphiList_eval L realExt π chol
    { s with centre := (stats 2 (wpts (n + 1) C S x0 y0 a b c d)).1,
             ellipse := (stats 2 (wpts (n + 1) C S x0 y0 a b c d)).2 } F M hF hM (f 0)
    ((List.range' 1 n).map f) (by
      simp only [hu, hup, Option.getD_some, hzip, List.map_map]
      rw [show f 0 :: (List.range' 1 n).map f = (List.range (n + 1)).map f by
        rw [List.range_eq_range', List.range'_succ]; rfl]
      apply List.map_congr_left
      intro j _
      simp only [Function.comp, stats]
      rw [show (List.range 2).map (cMean (wpts (n + 1) C S x0 y0 a b c d)) = [x0, y0] by
        simp [List.range_succ, m0, m1]]
      exact hang j)
  refine ⟨s', ?_, ?_⟩
  · unfold Tune.getTune
    simp only [hu, hup, hzip, List.map_map, Function.comp_def, hfit]
    simp only [hu, hup] at g1
    rw [g1, ← tuneMean_eq]
  · rw [g2]
    congr 1
    have := advances_const (2 * π * m / ((n + 1 : ℕ) : ℝ)) f hf hstep n 0
    rw [zero_add] at this
    rw [this]
    congr 2
    have hp := Real.pi_pos.ne'
    have hN' : ((n + 1 : ℕ) : ℝ) ≠ 0 := by positivity
    field_simp

/-! ### C90 -/

/-- The points follow a linear lattice: relative to the closed orbit (x0, y0), each point is the
image of the one before under the one-turn matrix with phase advance `μ` and Courant-Snyder
parameters `α`, `β`, `γ`, `cos μ + α sin μ, β sin μ; -γ sin μ, cos μ - α sin μ`. -/
def Lattice (μ α β γ x0 y0 : ℝ) (u v : ℕ → ℝ) : Prop := ∀ j,
  u (j + 1) - x0 = (cos μ + α * sin μ) * (u j - x0) + β * sin μ * (v j - y0) ∧
  v (j + 1) - y0 = -γ * sin μ * (u j - x0) + (cos μ - α * sin μ) * (v j - y0)

/-- the amplitude (Courant-Snyder invariant) of the displacement (x, y) from the closed orbit -/
def amplitude (α β γ x y : ℝ) : ℝ := γ * x ^ 2 + 2 * α * x * y + β * y ^ 2

theorem lattice_closed {μ α β γ x0 y0 : ℝ} (hCS : β * γ = 1 + α ^ 2) {u v : ℕ → ℝ}
    (h : Lattice μ α β γ x0 y0 u v) : ∀ j : ℕ,
    u j = x0 + (u 0 - x0) * cos (j * μ) + -(α * (u 0 - x0) + β * (v 0 - y0)) * -sin (j * μ) ∧
    v j = y0 + (v 0 - y0) * cos (j * μ) + (γ * (u 0 - x0) + α * (v 0 - y0)) * -sin (j * μ)
  | 0 => by simp
  | j + 1 => by
    obtain ⟨i1, i2⟩ := lattice_closed hCS h j
    obtain ⟨s1, s2⟩ := h j
    have e : ((j + 1 : ℕ) : ℝ) * μ = j * μ + μ := by push_cast; ring
    rw [e, cos_add, sin_add]
    have e1 : u j - x0 = _ := sub_eq_of_eq_add' (i1.trans (add_assoc _ _ _))
    have e2 : v j - y0 = _ := sub_eq_of_eq_add' (i2.trans (add_assoc _ _ _))
    rw [e1, e2] at s1 s2
    constructor
    · linear_combination s1 - sin μ * sin (j * μ) * (u 0 - x0) * hCS
    · linear_combination s2 - sin μ * sin (j * μ) * (v 0 - y0) * hCS

theorem amplitude_pos {α β γ x y : ℝ} (hCS : β * γ = 1 + α ^ 2) (hβ : 0 < β) (hne : x ≠ 0 ∨ y ≠ 0) :
    0 < amplitude α β γ x y := by
  have e : β * amplitude α β γ x y = x ^ 2 + (α * x + β * y) ^ 2 := by
    rw [amplitude]; linear_combination x ^ 2 * hCS
  have h0 : 0 < x ^ 2 + (α * x + β * y) ^ 2 := by
    by_cases hx0 : x = 0
    · have hy0 : y ≠ 0 := by
        rcases hne with hn | hn
        · exact absurd hx0 hn
        · exact hn
      rw [hx0]; simp only [mul_zero, zero_add]; positivity
    · positivity
  rw [← e] at h0
  exact (mul_pos_iff_of_pos_left hβ).mp h0

end TuneExact
open TuneExact

/-- C90_partial: if the points are those of a linear lattice whose phase advance is `m/N` of a turn
(not a whole or half turn), one for each of `N` turns, then get_tune returns the fractional part of
`m/N`, the tune of the lattice, whatever the Courant-Snyder parameters, the closed orbit and the
initial displacement (of amplitude below the cut of 1e9).  numpy.linalg.inv and cholesky are any
functions that invert and factorise.
Missing: phase advances and numbers of turns for which the points do not close (false, see
C90_false). -/
theorem C90_partial {L : LinAlg ℝ} (hL : L.Lawful) {chol : Mat ℝ → Option (Mat ℝ)}
    (hch : CholLaw chol) (N : ℕ) (hN : 0 < N) (m : ℤ) (hm : ¬ (N : ℤ) ∣ 2 * m)
    (α β γ x0 y0 : ℝ) (hCS : β * γ = 1 + α ^ 2) (hβ : 0 < β) (u v : ℕ → ℝ)
    (h : Lattice (2 * Real.pi * m / N) α β γ x0 y0 u v)
    (hne : u 0 ≠ x0 ∨ v 0 ≠ y0) (hcut : amplitude α β γ (u 0 - x0) (v 0 - y0) < 1000000000) :
    (Tune.getTune L realExt Real.pi chol
      (Tune.new (some ((List.range N).map u)) (some ((List.range N).map v)))).1 =
      .ok (some (Int.fract (m / N : ℝ))) := by
  have hcl := lattice_closed hCS h
  set x := u 0 - x0 with hx
  set y := v 0 - y0 with hy
  have hW : x * (γ * x + α * y) - -(α * x + β * y) * y = amplitude α β γ x y := by
    rw [amplitude]; ring
  have hpos : 0 < amplitude α β γ x y :=
    amplitude_pos hCS hβ (hne.imp sub_ne_zero.mpr sub_ne_zero.mpr)
  obtain ⟨s', h1, h2⟩ := tune_affine hL hch N hN m hm 0 x0 y0 x (-(α * x + β * y)) y
    (γ * x + α * y) (by rw [hW]; exact hpos) (by rw [hW]; exact hcut)
    (Tune.new (some ((List.range N).map u)) (some ((List.range N).map v)))
    (by
      simp only [Tune.new, Option.some.injEq]
      apply List.map_congr_left
      intro j _
      rw [(hcl j).1]; simp [ptX])
    (by
      simp only [Tune.new, Option.some.injEq]
      apply List.map_congr_left
      intro j _
      rw [(hcl j).2]; simp [ptX])
  rw [h1, h2]
  simp only [Tune.new, List.nil_append]
  rw [average_replicate]
  have : N ≠ 1 := by rintro rfl; exact hm (one_dvd _)
  omega

/-- a lattice of three tenths of a turn with alpha = 1, beta = 2, gamma = 1 about the closed orbit
(5, -3), in the closed form of its solution -/
noncomputable def exU (j : ℕ) : ℝ := 5 + Real.cos (j * (2 * Real.pi * 3 / 10)) +
  Real.sin (j * (2 * Real.pi * 3 / 10))
/-- its second coordinate -/
noncomputable def exV (j : ℕ) : ℝ := -3 - Real.sin (j * (2 * Real.pi * 3 / 10))

/-- the hypotheses of C90_partial hold for it: ten turns, tune 3/10 -/
example : (Tune.getTune realLin realExt Real.pi realChol
    (Tune.new (some ((List.range 10).map exU)) (some ((List.range 10).map exV)))).1 =
      .ok (some (3 / 10)) := by
  have hf : Int.fract (((3 : ℤ) : ℝ) / ((10 : ℕ) : ℝ)) = 3 / 10 := by
    rw [Int.fract_eq_self.mpr ⟨by norm_num, by norm_num⟩]; norm_num
  rw [← hf]
  refine C90_partial realLin_lawful realChol_law 10 (by norm_num) 3 (by decide) 1 2 1 5 (-3)
    (by norm_num) (by norm_num) exU exV ?_ (Or.inl (by simp [exU])) (by
      simp [exU, exV, amplitude])
  intro j
  have e : ((j + 1 : ℕ) : ℝ) * (2 * Real.pi * 3 / 10) =
      j * (2 * Real.pi * 3 / 10) + 2 * Real.pi * 3 / 10 := by push_cast; ring
  simp only [exU, exV, e, Real.cos_add, Real.sin_add, Int.cast_ofNat, Nat.cast_ofNat]
  constructor <;> ring

/-- C90, three points: whatever three points that are not on a line are given, the tune is 1/3 if
they go round clockwise and 2/3 if they go round anticlockwise (as long as twice the area of their
triangle is below 1e9). -/
theorem C90_three {L : LinAlg ℝ} (hL : L.Lawful) {chol : Mat ℝ → Option (Mat ℝ)}
    (hch : CholLaw chol) (x0 y0 x1 y1 x2 y2 T : ℝ)
    (hT : T = (x1 - x0) * (y2 - y0) - (x2 - x0) * (y1 - y0)) (h0 : T ≠ 0)
    (hcut : |T| < 1000000000) :
    (Tune.getTune L realExt Real.pi chol
      (Tune.new (some [x0, x1, x2]) (some [y0, y1, y2]))).1 =
      .ok (some (if T < 0 then 1 / 3 else 2 / 3)) := by
  have hc2 : Real.cos (2 * Real.pi / 3) = -(1 / 2) := by
    rw [show 2 * Real.pi / 3 = Real.pi - Real.pi / 3 by ring, Real.cos_pi_sub, Real.cos_pi_div_three]
  have hs2 : Real.sin (2 * Real.pi / 3) = Real.sqrt 3 / 2 := by
    rw [show 2 * Real.pi / 3 = Real.pi - Real.pi / 3 by ring, Real.sin_pi_sub, Real.sin_pi_div_three]
  have hc4 : Real.cos (2 * (2 * Real.pi / 3)) = -(1 / 2) := by
    rw [Real.cos_two_mul, hc2]; norm_num
  have hs4 : Real.sin (2 * (2 * Real.pi / 3)) = -(Real.sqrt 3 / 2) := by
    rw [Real.sin_two_mul, hc2, hs2]; ring
  have h3 : 0 < Real.sqrt 3 := Real.sqrt_pos.mpr (by norm_num)
  have h31 : 1 < Real.sqrt 3 := by
    rw [show (1 : ℝ) = Real.sqrt 1 by simp]; exact Real.sqrt_lt_sqrt (by norm_num) (by norm_num)
  -- the sign of the area chooses the sense of rotation
  have main : ∀ (e : ℤ) (t : ℝ), (e = 1 ∨ e = -1) → Int.fract ((e : ℝ) / ((3 : ℕ) : ℝ)) = t → e * T < 0 →
      (Tune.getTune L realExt Real.pi chol
        (Tune.new (some [x0, x1, x2]) (some [y0, y1, y2]))).1 = .ok (some t) := by
    intro e t he ht hneg
    have hee : (e : ℝ) * e = 1 := by rcases he with rfl | rfl <;> norm_num
    have hdet : (x0 - (x0 + x1 + x2) / 3) * (e * (y2 - y1) / Real.sqrt 3) -
        e * (x2 - x1) / Real.sqrt 3 * (y0 - (y0 + y1 + y2) / 3) = -(e * T) * (2 / (3 * Real.sqrt 3)) := by
      rw [hT]; field_simp; ring
    have hle : 2 / (3 * Real.sqrt 3) < 1 := by
      rw [div_lt_one (by positivity)]; linarith
    have habs : -(e * T) < 1000000000 := by
      rcases abs_lt.mp hcut with ⟨h5, h6⟩
      rcases he with rfl | rfl <;> push_cast <;> linarith
    have hk : 0 < 2 / (3 * Real.sqrt 3) := by positivity
    have hang : ∀ j : ℕ, (0 : ℝ) + j * (2 * Real.pi * e / ((3 : ℕ) : ℝ)) = e * (j * (2 * Real.pi / 3)) := by
      intro j; push_cast; ring
    have hcos : ∀ z : ℝ, Real.cos (e * z) = Real.cos z := by
      intro z; rcases he with rfl | rfl <;> simp
    have hsin : ∀ z : ℝ, Real.sin (e * z) = e * Real.sin z := by
      intro z; rcases he with rfl | rfl <;> simp
    have hpts : ∀ p0 p1 p2 : ℝ, [p0, p1, p2] = (List.range 3).map (ptX ((p0 + p1 + p2) / 3)
        (p0 - (p0 + p1 + p2) / 3) (e * (p2 - p1) / Real.sqrt 3)
        (fun j => Real.cos (0 + j * (2 * Real.pi * e / ((3 : ℕ) : ℝ))))
        (fun j => -Real.sin (0 + j * (2 * Real.pi * e / ((3 : ℕ) : ℝ))))) := by
      intro p0 p1 p2
      have h33 : Real.sqrt 3 ≠ 0 := h3.ne'
      have hb : e * (p2 - p1) / Real.sqrt 3 * -(e * (Real.sqrt 3 / 2)) = -(p2 - p1) / 2 := by
        field_simp
        linear_combination (-(p2 - p1)) * hee
      have hb' : e * (p2 - p1) / Real.sqrt 3 * -(e * -(Real.sqrt 3 / 2)) = (p2 - p1) / 2 := by
        field_simp
        linear_combination (p2 - p1) * hee
      simp only [hang, hcos, hsin]
      simp only [show List.range 3 = [0, 1, 2] from rfl, List.map_cons, List.map_nil,
        ptX, Nat.cast_zero, zero_mul, Real.cos_zero, Real.sin_zero, mul_zero, neg_zero,
        Nat.cast_one, one_mul, Nat.cast_ofNat, hc2, hs2, hc4, hs4, hb, hb']
      congr 1
      · ring
      · congr 1
        · ring
        · congr 1; ring
    obtain ⟨s', g1, g2⟩ := tune_affine hL hch 3 (by norm_num) e
      (by rcases he with rfl | rfl <;> decide) 0 ((x0 + x1 + x2) / 3) ((y0 + y1 + y2) / 3)
      (x0 - (x0 + x1 + x2) / 3) (e * (x2 - x1) / Real.sqrt 3) (y0 - (y0 + y1 + y2) / 3)
      (e * (y2 - y1) / Real.sqrt 3) (by rw [hdet]; exact mul_pos (by linarith) hk)
      (by rw [hdet]; nlinarith)
      (Tune.new (some [x0, x1, x2]) (some [y0, y1, y2]))
      (by simp only [Tune.new]; exact congrArg some (hpts x0 x1 x2))
      (by simp only [Tune.new]; exact congrArg some (hpts y0 y1 y2))
    rw [g1, g2, ht]
    simp only [Tune.new, List.nil_append]
    rw [average_replicate _ (by norm_num)]
  by_cases hn : T < 0
  · rw [if_pos hn]
    refine main 1 (1 / 3) (Or.inl rfl) ?_ (by push_cast; linarith)
    rw [Int.fract_eq_iff]
    exact ⟨by norm_num, by norm_num, 0, by norm_num⟩
  · rw [if_neg hn]
    have : 0 < T := lt_of_le_of_ne (not_lt.mp hn) h0.symm
    refine main (-1) (2 / 3) (Or.inr rfl) ?_ (by push_cast; linarith)
    rw [Int.fract_eq_iff]
    exact ⟨by norm_num, by norm_num, -1, by norm_num⟩

/-- the hypotheses of C90_three hold: a long thin triangle -/
example : (Tune.getTune realLin realExt Real.pi realChol
    (Tune.new (some [0, 1, 100]) (some [0, 7, 3]))).1 = .ok (some (1 / 3)) := by
  have := C90_three realLin_lawful realChol_law 0 0 1 7 100 3 (-697) (by norm_num) (by norm_num)
    (by norm_num)
  simpa using this

/-- C90 is false: for a lattice with a quarter turn of phase advance, three turns give a tune of 1/3
in place of 1/4. -/
theorem C90_false {L : LinAlg ℝ} (hL : L.Lawful) {chol : Mat ℝ → Option (Mat ℝ)}
    (hch : CholLaw chol) :
    ¬ ∀ (N : ℕ) (μ α β γ x0 y0 : ℝ) (u v : ℕ → ℝ), 3 ≤ N → Real.sin μ ≠ 0 → β * γ = 1 + α ^ 2 → 0 < β →
      Lattice μ α β γ x0 y0 u v → (u 0 ≠ x0 ∨ v 0 ≠ y0) →
      amplitude α β γ (u 0 - x0) (v 0 - y0) < 1000000000 →
      (Tune.getTune L realExt Real.pi chol
        (Tune.new (some ((List.range N).map u)) (some ((List.range N).map v)))).1 =
        .ok (some (Int.fract (μ / (2 * Real.pi)))) := by
  intro h
  have h1 := h 3 (Real.pi / 2) 0 1 1 0 0 (fun j => Real.cos (j * (Real.pi / 2)))
    (fun j => -Real.sin (j * (Real.pi / 2))) le_rfl (by simp) (by norm_num) (by norm_num) (by
      intro j
      have e : ((j + 1 : ℕ) : ℝ) * (Real.pi / 2) = j * (Real.pi / 2) + Real.pi / 2 := by
        push_cast; ring
      simp only [e, Real.cos_add, Real.sin_add]
      simp)
    (Or.inl (by simp)) (by simp [amplitude])
  have h2 := C90_three hL hch 1 0 0 (-1) (-1) 0 (-2) (by norm_num) (by norm_num) (by norm_num)
  have hc : Real.cos (2 * (Real.pi / 2)) = -1 := by rw [show 2 * (Real.pi / 2) = Real.pi by ring]; simp
  have hs : Real.sin (2 * (Real.pi / 2)) = 0 := by rw [show 2 * (Real.pi / 2) = Real.pi by ring]; simp
  simp only [show List.range 3 = [0, 1, 2] from rfl, List.map_cons, List.map_nil, Nat.cast_zero, zero_mul,
    Real.cos_zero, Real.sin_zero, neg_zero, Nat.cast_one, one_mul, Real.cos_pi_div_two,
    Real.sin_pi_div_two, Nat.cast_ofNat, hc, hs] at h1
  rw [h2] at h1
  have hq : Int.fract (Real.pi / 2 / (2 * Real.pi)) = 1 / 4 := by
    have hp := Real.pi_pos.ne'
    rw [show Real.pi / 2 / (2 * Real.pi) = 1 / 4 by field_simp; norm_num]
    exact Int.fract_eq_self.mpr ⟨by norm_num, by norm_num⟩
  rw [hq, if_pos (by norm_num)] at h1
  injection h1 with h1
  injection h1 with h1
  norm_num at h1

end Xboa
