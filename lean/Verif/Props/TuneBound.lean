import Verif.Props.TuneExact
import Mathlib.Analysis.SpecialFunctions.Complex.Arg
import Mathlib.Analysis.SpecialFunctions.Complex.Arctan
import Mathlib.Analysis.Real.Pi.Bounds
import Mathlib.Topology.Order.IntermediateValue
import Mathlib.Tactic.Positivity
import Mathlib.Tactic.FieldSimp
/-
C90, any number of turns: how far the tune that DPhiTuneFinder finds is from that of the lattice.
-/
set_option linter.unusedSectionVars false
namespace Xboa
namespace TuneBound
open Real TuneExact

/-! ### the angle of a point on an ellipse, seen from a point inside it -/

/-- the angle of 1 + ζ for ζ in the unit disc -/
theorem one_add_pos {ζ : ℂ} (h : ‖ζ‖ < 1) : 0 < (1 + ζ).re := by
  have h1 := Complex.abs_re_le_norm ζ
  have h2 := (abs_lt.mp (lt_of_le_of_lt h1 h)).1
  simp only [Complex.add_re, Complex.one_re]
  linarith

theorem one_add_arg {ζ : ℂ} (h : ‖ζ‖ < 1) : |Complex.arg (1 + ζ)| < π / 2 := by
  rw [Complex.abs_arg_lt_pi_div_two_iff]
  exact Or.inl (one_add_pos h)

theorem one_add_cont {f : ℝ → ℂ} (hf : Continuous f) (h : ∀ x, ‖f x‖ < 1) :
    Continuous fun x => Complex.arg (1 + f x) := by
  rw [continuous_iff_continuousAt]
  intro x
  exact ContinuousAt.comp (f := fun x => 1 + f x) (g := Complex.arg)
    (Complex.continuousAt_arg (Or.inl (one_add_pos (h x)))) (continuous_const.add hf).continuousAt

/-- the point at angle θ on the unit circle -/
noncomputable def onCircle (θ : ℝ) : ℂ := Complex.exp (θ * Complex.I)

theorem onCircle_norm (θ : ℝ) : ‖onCircle θ‖ = 1 := Complex.norm_exp_ofReal_mul_I θ

theorem onCircle_add (x y : ℝ) : onCircle (x + y) = onCircle x * onCircle y := by
  simp only [onCircle, ← Complex.exp_add]
  congr 1; push_cast; ring

theorem onCircle_conj (x : ℝ) : (starRingEnd ℂ) (onCircle x) = onCircle (-x) := by
  simp only [onCircle, ← Complex.exp_conj]
  congr 1; simp

theorem onCircle_zero : onCircle 0 = 1 := by simp [onCircle]

theorem onCircle_turn (x : ℝ) : onCircle (x + 2 * π) = onCircle x := by
  rw [onCircle_add]
  have : onCircle (2 * π) = 1 := by
    rw [onCircle]; push_cast; exact Complex.exp_two_pi_mul_I
  rw [this, mul_one]

theorem onCircle_cont : Continuous onCircle := by
  unfold onCircle; fun_prop

theorem onCircle_eq {x y : ℝ} (h : onCircle x = onCircle y) : ∃ n : ℤ, x = y + n * (2 * π) := by
  obtain ⟨n, hn⟩ := Complex.exp_eq_exp_iff_exists_int.mp h
  refine ⟨n, ?_⟩
  have h2 : ((x : ℝ) : ℂ) = ((y + n * (2 * π) : ℝ) : ℂ) :=
    mul_right_cancel₀ Complex.I_ne_zero (hn.trans (by push_cast; ring))
  exact_mod_cast h2

theorem polar (z : ℂ) : z = (‖z‖ : ℂ) * onCircle (Complex.arg z) :=
  (Complex.norm_mul_exp_arg_mul_I z).symm

section lift
variable (α β w : ℂ)

/-- the image of the circle under z ↦ α (z - w) + β (z - w)^*, an ellipse seen from the image of w -/
noncomputable def seen (θ : ℝ) : ℂ := α * (onCircle θ - w) + β * (starRingEnd ℂ) (onCircle θ - w)

/-- the angle of the circle seen from w, without jumps -/
noncomputable def shiftAngle (θ : ℝ) : ℝ := θ + Complex.arg (1 + -w * onCircle (-θ))
/-- the angle of an ellipse about its centre, without jumps -/
noncomputable def linAngle (ψ : ℝ) : ℝ :=
  Complex.arg α + ψ + Complex.arg (1 + β / α * onCircle (-(2 * ψ)))
/-- the angle of `seen`, without jumps -/
noncomputable def seenAngle (θ : ℝ) : ℝ := linAngle α β (shiftAngle w θ)

variable (hw : ‖w‖ < 1) (hab : ‖β‖ < ‖α‖)
include hw hab

theorem alpha_ne : α ≠ 0 := by
  rintro rfl
  rw [norm_zero] at hab
  exact absurd hab (not_lt.mpr (norm_nonneg _))

theorem small_shift (θ : ℝ) : ‖-w * onCircle (-θ)‖ < 1 := by
  rw [norm_mul, norm_neg, onCircle_norm, mul_one]; exact hw

theorem small_lin (ψ : ℝ) : ‖β / α * onCircle (-(2 * ψ))‖ < 1 := by
  rw [norm_mul, norm_div, onCircle_norm, mul_one, div_lt_one (lt_of_le_of_lt (norm_nonneg _) hab)]
  exact hab

theorem seenAngle_cont : Continuous (seenAngle α β w) := by
  have h1 : Continuous (shiftAngle w) := by
    refine continuous_id.add (one_add_cont ?_ (small_shift α β w hw hab))
    exact continuous_const.mul (onCircle_cont.comp continuous_neg)
  have h2 : Continuous (linAngle α β) := by
    refine (continuous_const.add continuous_id).add (one_add_cont ?_ (small_lin α β w hw hab))
    exact continuous_const.mul (onCircle_cont.comp (continuous_const.mul continuous_id).neg)
  exact h2.comp h1

omit hw hab in
theorem shiftAngle_turn (θ : ℝ) : shiftAngle w (θ + 2 * π) = shiftAngle w θ + 2 * π := by
  have : onCircle (-(θ + 2 * π)) = onCircle (-θ) := by
    rw [← onCircle_turn]; congr 1; ring
  rw [shiftAngle, this, shiftAngle]; ring

omit hw hab in
theorem seenAngle_turn (θ : ℝ) : seenAngle α β w (θ + 2 * π) = seenAngle α β w θ + 2 * π := by
  have : ∀ ψ, onCircle (-(2 * (ψ + 2 * π))) = onCircle (-(2 * ψ)) := by
    intro ψ
    rw [← onCircle_turn, ← onCircle_turn]; congr 1; ring
  rw [seenAngle, shiftAngle_turn, linAngle, this, seenAngle, linAngle]; ring

theorem seenAngle_near (θ : ℝ) : |seenAngle α β w θ - θ - Complex.arg α| < π := by
  have h1 := abs_lt.mp (one_add_arg (small_shift α β w hw hab θ))
  have h2 := abs_lt.mp (one_add_arg (small_lin α β w hw hab (shiftAngle w θ)))
  rw [seenAngle, linAngle, abs_lt]
  generalize Complex.arg (1 + β / α * onCircle (-(2 * shiftAngle w θ))) = p at *
  rw [shiftAngle]
  constructor <;> linarith [h1.1, h1.2, h2.1, h2.2]

theorem seen_polar (θ : ℝ) : ∃ r : ℝ, 0 < r ∧ seen α β w θ = r * onCircle (seenAngle α β w θ) := by
  have hα := alpha_ne α β w hw hab
  have e1 : onCircle θ - w = (‖1 + -w * onCircle (-θ)‖ : ℂ) * onCircle (shiftAngle w θ) := by
    rw [shiftAngle, onCircle_add, mul_left_comm, ← polar, mul_add, mul_one]
    have : onCircle θ * (-w * onCircle (-θ)) = -w * (onCircle θ * onCircle (-θ)) := by ring
    rw [this, ← onCircle_add, add_neg_cancel, onCircle_zero]; ring
  have e2 : ∀ ψ, α * onCircle ψ + β * onCircle (-ψ) =
      ((‖α‖ * ‖1 + β / α * onCircle (-(2 * ψ))‖ : ℝ) : ℂ) * onCircle (linAngle α β ψ) := by
    intro ψ
    rw [linAngle, onCircle_add, onCircle_add]
    have : ((‖α‖ * ‖1 + β / α * onCircle (-(2 * ψ))‖ : ℝ) : ℂ) * (onCircle (Complex.arg α) * onCircle ψ *
        onCircle (Complex.arg (1 + β / α * onCircle (-(2 * ψ))))) =
        ((‖α‖ : ℂ) * onCircle (Complex.arg α)) * onCircle ψ *
        ((‖1 + β / α * onCircle (-(2 * ψ))‖ : ℂ) *
          onCircle (Complex.arg (1 + β / α * onCircle (-(2 * ψ))))) := by push_cast; ring
    rw [this, ← polar, ← polar]
    have e3 : onCircle (-ψ) = onCircle ψ * onCircle (-(2 * ψ)) := by
      rw [← onCircle_add]; congr 1; ring
    rw [e3]
    field_simp
  have p1 : 0 < ‖1 + -w * onCircle (-θ)‖ := by
    rw [norm_pos_iff]; intro h
    have := one_add_pos (small_shift α β w hw hab θ)
    rw [h] at this; simp at this
  have p2 : 0 < ‖1 + β / α * onCircle (-(2 * shiftAngle w θ))‖ := by
    rw [norm_pos_iff]; intro h
    have := one_add_pos (small_lin α β w hw hab (shiftAngle w θ))
    rw [h] at this; simp at this
  have p3 : 0 < ‖α‖ := norm_pos_iff.mpr hα
  refine ⟨‖1 + -w * onCircle (-θ)‖ * (‖α‖ * ‖1 + β / α * onCircle (-(2 * shiftAngle w θ))‖),
    by positivity, ?_⟩
  rw [seen, e1, map_mul, onCircle_conj, Complex.conj_ofReal, seenAngle]
  rw [Complex.ofReal_mul, mul_assoc, ← e2]
  ring

/-- a ray from a point inside the circle meets the circle once -/
theorem ray_once {x y t : ℝ} (ht : 0 < t) (h : seen α β w x = t * seen α β w y) :
    onCircle x = onCircle y := by
  -- the linear map has no kernel
  have ker : ∀ z : ℂ, α * z + β * (starRingEnd ℂ) z = 0 → z = 0 := by
    intro z hz
    by_contra hne
    have h1 : α * z = -(β * (starRingEnd ℂ) z) := eq_neg_of_add_eq_zero_left hz
    have h2 := congrArg norm h1
    rw [norm_neg, norm_mul, norm_mul, RCLike.norm_conj] at h2
    have h3 := mul_right_cancel₀ (norm_ne_zero_iff.mpr hne) h2
    exact absurd h3 (ne_of_gt hab)
  have e : onCircle x - w - t * (onCircle y - w) = 0 := by
    apply ker
    simp only [map_sub, map_mul, Complex.conj_ofReal]
    rw [seen, seen] at h
    simp only [map_sub] at h
    linear_combination h
  have hx := onCircle_norm x
  have hy := onCircle_norm y
  rcases lt_trichotomy t 1 with h1 | h1 | h1
  · exfalso
    have e1 : onCircle x = t * onCircle y + ((1 - t : ℝ) : ℂ) * w := by
      push_cast; linear_combination e
    have := norm_add_le ((t : ℂ) * onCircle y) (((1 - t : ℝ) : ℂ) * w)
    rw [← e1, hx, norm_mul, norm_mul, hy, Complex.norm_real, Complex.norm_real, Real.norm_of_nonneg ht.le,
      Real.norm_of_nonneg (by linarith)] at this
    nlinarith
  · rw [h1] at e
    have : onCircle x - onCircle y = 0 := by
      rw [← e]; push_cast; ring
    exact sub_eq_zero.mp this
  · exfalso
    have e1 : (t : ℂ) * onCircle y = onCircle x + ((t - 1 : ℝ) : ℂ) * w := by
      push_cast; linear_combination -e
    have := norm_add_le (onCircle x) (((t - 1 : ℝ) : ℂ) * w)
    rw [← e1, hx, norm_mul, norm_mul, hy, Complex.norm_real, Complex.norm_real, Real.norm_of_nonneg ht.le,
      Real.norm_of_nonneg (by linarith)] at this
    nlinarith

/-- the angle seen from inside grows by a whole turn only with a whole turn -/
theorem no_turn (x δ : ℝ) (h0 : 0 < δ) (h1 : δ < 2 * π) (n : ℤ) :
    seenAngle α β w (x + δ) - seenAngle α β w x ≠ n * (2 * π) := by
  intro h
  obtain ⟨r, hr, e1⟩ := seen_polar α β w hw hab (x + δ)
  obtain ⟨s, hs, e2⟩ := seen_polar α β w hw hab x
  have e3 : onCircle (seenAngle α β w (x + δ)) = onCircle (seenAngle α β w x) := by
    rw [show seenAngle α β w (x + δ) = seenAngle α β w x + n * (2 * π) by linarith]
    rw [onCircle_add]
    have : onCircle ((n : ℝ) * (2 * π)) = 1 := by
      rw [onCircle, Complex.exp_eq_one_iff]
      exact ⟨n, by push_cast; ring⟩
    rw [this, mul_one]
  rw [e3] at e1
  have hs' : (s : ℂ) ≠ 0 := by exact_mod_cast hs.ne'
  have h4 := ray_once α β w hw hab (x := x + δ) (y := x) (t := r / s) (div_pos hr hs)
    (by rw [e1, e2]; push_cast; field_simp)
  obtain ⟨k, hk⟩ := onCircle_eq h4
  have hk' : δ = k * (2 * π) := by linarith
  have hp := Real.pi_pos
  have k0 : (0 : ℝ) < k := by
    by_contra hc; push Not at hc; nlinarith
  have k1 : (k : ℝ) < 1 := by
    by_contra hc; push Not at hc; nlinarith
  have k0' : 0 < k := by exact_mod_cast k0
  have k1' : k < 1 := by exact_mod_cast k1
  omega

/-- part of a turn on the circle is part of a turn seen from inside -/
theorem seenAngle_step (x δ : ℝ) (h0 : 0 < δ) (h1 : δ < 2 * π) :
    0 < seenAngle α β w (x + δ) - seenAngle α β w x ∧
    seenAngle α β w (x + δ) - seenAngle α β w x < 2 * π := by
  have hp := Real.pi_pos
  set g : ℝ → ℝ := fun t => seenAngle α β w (x + t) - seenAngle α β w x with hg
  have hc : Continuous g :=
    ((seenAngle_cont α β w hw hab).comp (continuous_const.add continuous_id)).sub continuous_const
  have g0 : g 0 = 0 := by simp [hg]
  have g1 : g (2 * π) = 2 * π := by simp [hg, seenAngle_turn]
  have hno := fun t h0 h1 n => no_turn α β w hw hab x t h0 h1 n
  constructor
  · by_contra hcon
    push Not at hcon
    obtain ⟨t, ht, e⟩ := intermediate_value_Icc h1.le hc.continuousOn
      (show (0 : ℝ) ∈ Set.Icc (g δ) (g (2 * π)) from ⟨hcon, by rw [g1]; positivity⟩)
    have : t ≠ 2 * π := by rintro rfl; rw [g1] at e; linarith
    exact hno t (by linarith [ht.1]) (lt_of_le_of_ne ht.2 this) 0 (by simpa [hg] using e)
  · by_contra hcon
    push Not at hcon
    obtain ⟨t, ht, e⟩ := intermediate_value_Icc h0.le hc.continuousOn
      (show 2 * π ∈ Set.Icc (g 0) (g δ) from ⟨by rw [g0]; positivity, hcon⟩)
    have : t ≠ 0 := by rintro rfl; rw [g0] at e; linarith
    exact hno t (lt_of_le_of_ne ht.1 this.symm) (by linarith [ht.2]) 1 (by simpa [hg] using e)

/-- the angle that atan2 gives differs from the angle without jumps by whole turns -/
theorem arg_seen (θ : ℝ) : ∃ n : ℤ, Complex.arg (seen α β w θ) = seenAngle α β w θ + 2 * π * n := by
  obtain ⟨r, hr, e⟩ := seen_polar α β w hw hab θ
  rw [e, Complex.arg_real_mul _ hr, onCircle, Complex.arg_exp_mul_I]
  refine ⟨-toIocDiv (mul_pos two_pos Real.pi_pos) (-π) (seenAngle α β w θ), ?_⟩
  rw [toIocMod, zsmul_eq_mul]
  push_cast; ring

end lift

/-! ### the ellipse fitted to points of which none is far outside -/

/-- the points with their weights -/
def wpoints (N : ℕ) (u v : ℕ → ℝ) : List (List ℝ × ℝ) := (List.range N).map fun j => ([u j, v j], 1)
/-- mean -/
noncomputable def avg (N : ℕ) (u : ℕ → ℝ) : ℝ := (∑ j ∈ Finset.range N, u j) / N
/-- covariance -/
noncomputable def cv (N : ℕ) (u v : ℕ → ℝ) : ℝ :=
  (∑ j ∈ Finset.range N, (u j - avg N u) * (v j - avg N v)) / N

theorem cv_comm (N : ℕ) (u v : ℕ → ℝ) : cv N u v = cv N v u := by
  simp only [cv]; congr 1; exact Finset.sum_congr rfl fun j _ => mul_comm _ _

section fit
variable {N : ℕ} (hN : 0 < N) (u v : ℕ → ℝ)

theorem tot_points : totW (wpoints N u v) = N := by
  simp only [totW, wpoints, List.map_map, Function.comp_def, list_sum_range]
  simp

theorem mean_points : cMean (wpoints N u v) 0 = avg N u ∧ cMean (wpoints N u v) 1 = avg N v := by
  constructor <;>
  · rw [cMean, tot_points]
    simp only [wpoints, List.map_map, Function.comp_def, list_sum_range]
    simp [avg]

theorem cov_points : cCov (wpoints N u v) 0 0 = cv N u u ∧ cCov (wpoints N u v) 0 1 = cv N u v ∧
    cCov (wpoints N u v) 1 0 = cv N v u ∧ cCov (wpoints N u v) 1 1 = cv N v v := by
  obtain ⟨m0, m1⟩ := mean_points (N := N) u v
  refine ⟨?_, ?_, ?_, ?_⟩ <;>
  · rw [cCov, tot_points]
    simp only [m0, m1]
    simp only [wpoints, List.map_map, Function.comp_def, list_sum_range]
    simp [cv]

theorem mat_points : cMat 2 (wpoints N u v) = !![cv N u u, cv N u v; cv N v u, cv N v v] := by
  obtain ⟨h1, h2, h3, h4⟩ := cov_points (N := N) u v
  ext i j
  fin_cases i <;> fin_cases j <;> simp [cMat, h1, h2, h3, h4]

theorem det_points : (cMat 2 (wpoints N u v)).det = cv N u u * cv N v v - cv N u v ^ 2 := by
  rw [mat_points, Matrix.det_fin_two_of, cv_comm N v u]; ring

include hN

/-- the variance along a direction -/
theorem cv_dir (p q : ℝ) : ∑ k ∈ Finset.range N, (p * (u k - avg N u) + q * (v k - avg N v)) ^ 2 =
    N * (p ^ 2 * cv N u u + 2 * p * q * cv N u v + q ^ 2 * cv N v v) := by
  have hN0 : (N : ℝ) ≠ 0 := by exact_mod_cast hN.ne'
  have : ∀ k, (p * (u k - avg N u) + q * (v k - avg N v)) ^ 2 =
      p ^ 2 * ((u k - avg N u) * (u k - avg N u)) + 2 * p * q * ((u k - avg N u) * (v k - avg N v)) +
      q ^ 2 * ((v k - avg N v) * (v k - avg N v)) := by intro k; ring
  rw [Finset.sum_congr rfl fun k _ => this k]
  simp only [Finset.sum_add_distrib, ← Finset.mul_sum, cv]
  field_simp

/-- no point has a distance from the mean of more than the number of points, in units of the
covariance matrix -/
theorem leverage (hd : 0 < cv N u u * cv N v v - cv N u v ^ 2) (j : ℕ) (hj : j < N) :
    cv N v v * (u j - avg N u) ^ 2 - 2 * cv N u v * (u j - avg N u) * (v j - avg N v) +
      cv N u u * (v j - avg N v) ^ 2 ≤ N * (cv N u u * cv N v v - cv N u v ^ 2) := by
  set X := u j - avg N u with hX
  set Y := v j - avg N v with hY
  set A := cv N u u with hA
  set B := cv N u v with hB
  set D := cv N v v with hD
  have h1 := cv_dir hN u v (D * X - B * Y) (A * Y - B * X)
  have h2 := Finset.single_le_sum (f := fun k => ((D * X - B * Y) * (u k - avg N u) +
    (A * Y - B * X) * (v k - avg N v)) ^ 2) (fun k _ => sq_nonneg _) (Finset.mem_range.mpr hj)
  rw [h1] at h2
  simp only [← hX, ← hY, ← hA, ← hB, ← hD] at h2
  set q := D * X ^ 2 - 2 * B * X * Y + A * Y ^ 2 with hq
  have h3 : q ^ 2 ≤ N * (A * D - B ^ 2) * q := by
    calc q ^ 2 = ((D * X - B * Y) * X + (A * Y - B * X) * Y) ^ 2 := by rw [hq]; ring
      _ ≤ _ := h2
      _ = _ := by rw [hq]; ring
  by_contra hc
  push Not at hc
  have h4 : 0 ≤ (N : ℝ) * (A * D - B ^ 2) := by positivity
  nlinarith

/-- no point is cut while the number of points times the root of the determinant is below the cut -/
theorem accepted_points (hd : 0 < cv N u u * cv N v v - cv N u v ^ 2) (eps : ℝ)
    (hc : N * √(cv N u u * cv N v v - cv N u v ^ 2) < eps) (k : ℕ) :
    accepted 2 (wpoints N u v) eps k = wpoints N u v := by
  induction k with
  | zero => rfl
  | succ k ih =>
    rw [Xboa.accepted, ih, List.filter_eq_self]
    intro q hq
    rw [decide_eq_true_iff]
    have hlev := leverage hN u v hd
    set T := cv N u u * cv N v v - cv N u v ^ 2 with hT
    have hne := hd.ne'
    have hinv : (cMat 2 (wpoints N u v))⁻¹ =
        !![cv N v v / T, -cv N u v / T; -cv N u v / T, cv N u u / T] := by
      rw [mat_points, cv_comm N v u]
      apply Matrix.inv_eq_left_inv
      ext i j
      fin_cases i <;> fin_cases j <;>
        simp only [Matrix.mul_apply, Fin.sum_univ_two, Matrix.of_apply, Matrix.cons_val',
          Matrix.cons_val_zero, Matrix.cons_val_one, Matrix.cons_val_fin_one, Fin.zero_eta, Fin.mk_one,
          Fin.isValue, Matrix.one_apply_eq, Matrix.one_apply_ne, ne_eq, zero_ne_one, one_ne_zero,
          not_false_eq_true] <;> field_simp <;> (try rw [hT]) <;> ring
    refine ⟨√T, Real.sqrt_nonneg _, by rw [det_points, Real.sq_sqrt hd.le], ?_⟩
    obtain ⟨m0, m1⟩ := mean_points (N := N) u v
    obtain ⟨j, hj, rfl⟩ := List.mem_map.mp hq
    rw [hinv]
    simp only [Fin.sum_univ_two, Matrix.of_apply, Matrix.cons_val', Matrix.cons_val_zero,
      Matrix.cons_val_one, Fin.val_zero, Fin.val_one, m0, m1, Matrix.empty_val',
      Matrix.cons_val_fin_one, List.getD_cons_succ, List.getD_cons_zero]
    refine lt_of_le_of_lt (mul_le_mul_of_nonneg_right ?_ (Real.sqrt_nonneg _)) hc
    have := (div_le_iff₀ hd).mpr (hlev j (List.mem_range.mp hj))
    refine le_of_eq_of_le ?_ this
    field_simp
    ring

/-- what fit_ellipse returns -/
theorem fit_points {L : LinAlg ℝ} (hL : L.Lawful) (hd : 0 < cv N u u * cv N v v - cv N u v ^ 2)
    (eps : ℝ) (hc : N * √(cv N u u * cv N v v - cv N u v ^ 2) < eps) :
    Common.fitEllipse L realExt ((List.range N).map fun j => [u j, v j]) eps none 10 =
      stats 2 (wpoints N u v) := by
  set pts := (List.range N).map fun j => [u j, v j] with hpts
  have hz : pts.zip (List.replicate pts.length 1) = wpoints N u v := by
    rw [hpts, List.length_map, List.length_range, wpoints]
    apply List.ext_getElem
    · simp
    · intro i h1 h2
      simp
  rw [C50_unweighted]
  obtain ⟨_, r, h1, h2, h3⟩ := C50_fit_ellipse hL realExt_lawful 2 (by norm_num) pts
    (by simp only [hpts, ne_eq, List.map_eq_nil_iff, List.range_eq_nil]; omega)
    (by
      intro p hp
      obtain ⟨q, _, rfl⟩ := List.mem_map.mp hp
      rfl) (List.replicate pts.length 1) (by simp) eps 10
  rw [hz] at h3 h2
  generalize Common.fitEllipse L realExt pts eps (some (List.replicate pts.length 1)) 10
    = res at h3 ⊢
  have hacc := accepted_points hN u v hd eps hc
  cases h3 with
  | limit hr => rw [hr]; simp only [afterRounds, hacc]
  | converged q hr _ => rw [hr]; simp only [afterRounds, hacc]
  | weightless _ _ h0 =>
    rw [hacc, tot_points] at h0
    exact absurd h0 (by exact_mod_cast hN.ne')
  | singular _ h0 =>
    rw [hacc, det_points] at h0
    exact absurd h0 hd.ne'

end fit

/-! ### points on a circle -/

section circle
variable {N : ℕ} (μ : ℝ)

/-- the directions of the points, cosine and sine -/
noncomputable def cw (μ : ℝ) (j : ℕ) : ℝ := cos (j * μ)
/-- clockwise -/
noncomputable def sw (μ : ℝ) (j : ℕ) : ℝ := -sin (j * μ)

theorem trace_circle (hN : 0 < N) : cv N (cw μ) (cw μ) + cv N (sw μ) (sw μ) =
    1 - (avg N (cw μ) ^ 2 + avg N (sw μ) ^ 2) := by
  have hN0 : (N : ℝ) ≠ 0 := by exact_mod_cast hN.ne'
  have hsum : ∀ f : ℕ → ℝ, ∑ j ∈ Finset.range N, (f j - avg N f) * (f j - avg N f) =
      ∑ j ∈ Finset.range N, f j ^ 2 - N * avg N f ^ 2 := by
    intro f
    have : ∀ j, (f j - avg N f) * (f j - avg N f) = f j ^ 2 - 2 * avg N f * f j + avg N f ^ 2 := by
      intro j; ring
    rw [Finset.sum_congr rfl fun j _ => this j]
    simp only [Finset.sum_add_distrib, Finset.sum_sub_distrib, ← Finset.mul_sum, Finset.sum_const,
      Finset.card_range, nsmul_eq_mul]
    have e : ∑ j ∈ Finset.range N, f j = N * avg N f := by rw [avg]; field_simp
    rw [e]; ring
  rw [cv, cv, hsum, hsum]
  have hone : ∑ j ∈ Finset.range N, cw μ j ^ 2 + ∑ j ∈ Finset.range N, sw μ j ^ 2 = N := by
    rw [← Finset.sum_add_distrib]
    have : ∀ j, cw μ j ^ 2 + sw μ j ^ 2 = 1 := by
      intro j; rw [cw, sw, neg_sq]; exact Real.cos_sq_add_sin_sq _
    rw [Finset.sum_congr rfl fun j _ => this j]; simp
  field_simp
  linear_combination hone

theorem cv_nonneg (f : ℕ → ℝ) : 0 ≤ cv N f f :=
  div_nonneg (Finset.sum_nonneg fun _ _ => mul_self_nonneg _) (Nat.cast_nonneg _)

/-- three or more points of which no two neighbours are opposite or the same are not on a line -/
theorem det_circle_pos (hN : 3 ≤ N) (hμ : sin μ ≠ 0) :
    0 < cv N (cw μ) (cw μ) * cv N (sw μ) (sw μ) - cv N (cw μ) (sw μ) ^ 2 := by
  have hN0 : 0 < N := by omega
  -- no direction has vanishing variance
  have hdir : ∀ p q : ℝ, p ^ 2 * cv N (cw μ) (cw μ) + 2 * p * q * cv N (cw μ) (sw μ) +
      q ^ 2 * cv N (sw μ) (sw μ) ≤ 0 → p = 0 ∧ q = 0 := by
    intro p q h
    have h1 := cv_dir hN0 (cw μ) (sw μ) p q
    have hNr : (0 : ℝ) < N := by exact_mod_cast hN0
    have h2 : ∑ k ∈ Finset.range N, (p * (cw μ k - avg N (cw μ)) + q * (sw μ k - avg N (sw μ))) ^ 2 ≤ 0 := by
      rw [h1]; exact mul_nonpos_of_nonneg_of_nonpos hNr.le h
    have h3 := (Finset.sum_eq_zero_iff_of_nonneg (fun k _ => sq_nonneg _)).mp
      (le_antisymm h2 (Finset.sum_nonneg fun k _ => sq_nonneg _))
    have e : ∀ k, k < 3 → p * (cw μ k - avg N (cw μ)) + q * (sw μ k - avg N (sw μ)) = 0 :=
      fun k hk => pow_eq_zero_iff two_ne_zero |>.mp (h3 k (Finset.mem_range.mpr (by omega)))
    have e0 := e 0 (by norm_num)
    have e1 := e 1 (by norm_num)
    have e2 := e 2 (by norm_num)
    simp only [cw, sw, Nat.cast_zero, zero_mul, Nat.cast_one, one_mul, Nat.cast_ofNat, cos_zero,
      sin_zero, neg_zero, cos_two_mul, sin_two_mul] at e0 e1 e2
    have hsc := Real.sin_sq_add_cos_sq μ
    have hc1 : 1 - cos μ ≠ 0 := by
      intro hc
      have : cos μ = 1 := by linarith
      rw [this] at hsc
      exact hμ (pow_eq_zero_iff two_ne_zero |>.mp (by linarith))
    have f1 : p * (cos μ - 1) - q * sin μ = 0 := by linear_combination e1 - e0
    have f2 : p * (2 * cos μ ^ 2 - 2) - q * (2 * sin μ * cos μ) = 0 := by linear_combination e2 - e0
    have f3 : p * (2 * cos μ - 2) = 0 := by linear_combination f2 - 2 * cos μ * f1
    have hp : p = 0 := by
      rcases mul_eq_zero.mp f3 with h | h
      · exact h
      · exact absurd (by linarith) hc1
    rw [hp] at f1
    have hq : q * sin μ = 0 := by linear_combination -f1
    exact ⟨hp, (mul_eq_zero.mp hq).resolve_right hμ⟩
  by_contra hcon
  push Not at hcon
  have hA : 0 < cv N (cw μ) (cw μ) := by
    by_contra h
    have := (hdir 1 0 (by simpa using not_lt.mp h)).1
    norm_num at this
  have := (hdir (cv N (cw μ) (sw μ)) (-cv N (cw μ) (cw μ)) (by nlinarith)).2
  linarith

end circle

/-! ### the advances -/

/-- the advances recorded are the parts of a turn by which the angle grows -/
theorem advances_eq (d f : ℕ → ℝ) (hf : ∀ j, -π ≤ f j ∧ f j < π) (hd : ∀ j, 0 ≤ d j ∧ d j < 2 * π)
    (hstep : ∀ j, ∃ k : ℤ, f (j + 1) - f j = d j + 2 * π * k) : ∀ n i,
    Tune.advances π (f i) ((List.range' (i + 1) n).map f) =
      (List.range' i n).map fun j => d j / (2 * π)
  | 0, i => rfl
  | n + 1, i => by
    have hp := Real.pi_pos
    obtain ⟨k, hk⟩ := hstep i
    have h0 := hf i
    have h1 := hf (i + 1)
    have h2 := hd i
    rw [List.range'_succ, List.map_cons, List.range'_succ, List.map_cons, Tune.advances,
      advances_eq d f hf hd hstep n (i + 1)]
    congr 1
    have hfr : Int.fract (d i / (2 * π)) = d i / (2 * π) :=
      Int.fract_eq_self.mpr ⟨div_nonneg h2.1 (by positivity), (div_lt_one (by positivity)).mpr h2.2⟩
    symm
    rw [← hfr, Int.fract_eq_iff]
    by_cases h : f (i + 1) - f i < 0
    · rw [if_pos h]
      refine ⟨div_nonneg (div_nonneg (by linarith) hp.le) (by norm_num), ?_, -(k + 1), ?_⟩
      · rw [div_div, div_lt_one (by positivity)]; linarith
      · rw [hk]; push_cast; field_simp; ring
    · rw [if_neg h]
      refine ⟨div_nonneg (div_nonneg (by linarith) hp.le) (by norm_num), ?_, -k, ?_⟩
      · rw [div_div, div_lt_one (by positivity)]; linarith
      · rw [hk]; push_cast; field_simp; ring

/-- the mean advance of points that go round a circle in equal steps, seen from inside -/
theorem mean_advance {α β w : ℂ} (hw : ‖w‖ < 1) (hab : ‖β‖ < ‖α‖) (μ : ℝ)
    (hμ : Int.fract (μ / (2 * π)) ≠ 0) (n : ℕ) (hn : 0 < n) (f : ℕ → ℝ)
    (hf : ∀ j, f j = -Complex.arg (seen α β w (-(j * μ)))) :
    ∃ t, average (Tune.advances π (f 0) ((List.range' 1 n).map f)) = some t ∧
      |t - Int.fract (μ / (2 * π))| < 1 / n := by
  have hp := Real.pi_pos
  set φ := Int.fract (μ / (2 * π)) with hφ
  set m := ⌊μ / (2 * π)⌋ with hm
  have hφ0 : 0 < φ := lt_of_le_of_ne (Int.fract_nonneg _) (Ne.symm hμ)
  have hφ1 : φ < 1 := Int.fract_lt_one _
  have hμe : μ = 2 * π * φ + m * (2 * π) := by
    have : μ / (2 * π) = m + φ := (Int.floor_add_fract _).symm
    field_simp at this
    linarith
  set F := seenAngle α β w with hF
  have hturn : ∀ (k : ℤ) (x : ℝ), F (x + k * (2 * π)) = F x + k * (2 * π) := by
    intro k
    induction k with
    | zero => intro x; simp
    | succ k ih =>
      intro x
      push_cast
      rw [show x + ((k : ℝ) + 1) * (2 * π) = (x + ((k : ℤ) : ℝ) * (2 * π)) + 2 * π by push_cast; ring, hF,
        seenAngle_turn, ← hF, ih]
      push_cast; ring
    | pred k ih =>
      intro x
      have h1 := ih x
      rw [show x + ((-(k : ℤ) : ℤ) : ℝ) * (2 * π) = (x + ((-(k : ℤ) - 1 : ℤ) : ℝ) * (2 * π)) + 2 * π by
        push_cast; ring, hF, seenAngle_turn, ← hF] at h1
      push_cast at h1 ⊢
      linarith
  -- the growth of the angle from each point to the next
  let d : ℕ → ℝ := fun j => -F (-((j + 1 : ℕ) * μ)) - -F (-(j * μ)) - m * (2 * π)
  have hd : ∀ j, 0 < d j ∧ d j < 2 * π := by
    intro j
    have h := seenAngle_step α β w hw hab (-((j + 1 : ℕ) * μ) + m * (2 * π)) (2 * π * φ)
      (by positivity) (by nlinarith)
    rw [← hF, hturn m, show -((j + 1 : ℕ) * μ) + m * (2 * π) + 2 * π * φ = -(j * μ) by
      push_cast; linear_combination -hμe] at h
    simp only [d]
    constructor <;> linarith [h.1, h.2]
  have hfr : ∀ j, -π ≤ f j ∧ f j < π := by
    intro j
    rw [hf]
    exact ⟨by linarith [Complex.arg_le_pi (seen α β w (-(j * μ)))],
      by linarith [Complex.neg_pi_lt_arg (seen α β w (-(j * μ)))]⟩
  have hstep : ∀ j, ∃ k : ℤ, f (j + 1) - f j = d j + 2 * π * k := by
    intro j
    obtain ⟨k1, e1⟩ := arg_seen α β w hw hab (-((j + 1 : ℕ) * μ))
    obtain ⟨k2, e2⟩ := arg_seen α β w hw hab (-(j * μ))
    refine ⟨k2 - k1 + m, ?_⟩
    rw [hf, hf, e1, e2]
    simp only [d, hF]
    push_cast; ring
  have hadv := advances_eq d f hfr (fun j => ⟨(hd j).1.le, (hd j).2⟩) hstep n 0
  rw [zero_add] at hadv
  have hsum : ((List.range' 0 n).map fun j => d j / (2 * π)).sum =
      (-F (-(n * μ)) - -F 0 - n * (m * (2 * π))) / (2 * π) := by
    rw [← List.range_eq_range', list_sum_range, ← Finset.sum_div]
    congr 1
    simp only [d]
    rw [Finset.sum_sub_distrib, Finset.sum_range_sub (fun j : ℕ => -F (-(j * μ)))]
    simp
  refine ⟨(-F (-(n * μ)) - -F 0 - n * (m * (2 * π))) / (2 * π) / n, ?_, ?_⟩
  · rw [hadv]
    have hne : ((List.range' 0 n).map fun j => d j / (2 * π)) ≠ [] := by
      simp only [ne_eq, List.map_eq_nil_iff, List.range'_eq_nil_iff]; omega
    rw [average.eq_def]
    split
    · rename_i h; exact absurd h hne
    · rw [hsum]; simp
  · have hn' : (0 : ℝ) < n := by exact_mod_cast hn
    have h1 := abs_lt.mp (seenAngle_near α β w hw hab (-(n * μ)))
    have h2 := abs_lt.mp (seenAngle_near α β w hw hab 0)
    rw [← hF] at h1 h2
    have e : (-F (-(n * μ)) - -F 0 - n * (m * (2 * π))) / (2 * π) / n - φ =
        (-F (-(n * μ)) - -F 0 - n * μ) / (2 * π * n) := by
      rw [div_div, sub_eq_iff_eq_add, div_add' _ _ _ (by positivity)]
      congr 1
      linear_combination n * hμe
    rw [e, abs_div, abs_of_pos (show 0 < 2 * π * n by positivity), div_lt_div_iff₀ (by positivity) hn']
    have : |-F (-(n * μ)) - -F 0 - n * μ| < 2 * π := by
      rw [abs_lt]; constructor <;> linarith [h1.1, h1.2, h2.1, h2.2]
    nlinarith

/-- a matrix ((p, q), (k, l)) as the map z ↦ A z + B z^* of the complex plane: A -/
noncomputable def turnPart (p q k l : ℝ) : ℂ := ⟨(p + l) / 2, (k - q) / 2⟩
/-- and B -/
noncomputable def flipPart (p q k l : ℝ) : ℂ := ⟨(p - l) / 2, (k + q) / 2⟩

theorem parts_norm {p q k l : ℝ} (h : 0 < p * l - q * k) : ‖flipPart p q k l‖ < ‖turnPart p q k l‖ := by
  rw [← sq_lt_sq₀ (norm_nonneg _) (norm_nonneg _), Complex.sq_norm, Complex.sq_norm,
    Complex.normSq_apply, Complex.normSq_apply, turnPart, flipPart]
  linarith

theorem seen_parts (p q k l cm sm μ : ℝ) (j : ℕ) :
    seen (turnPart p q k l) (flipPart p q k l) ⟨cm, sm⟩ (-(j * μ)) =
      ⟨p * (cw μ j - cm) + q * (sw μ j - sm), k * (cw μ j - cm) + l * (sw μ j - sm)⟩ := by
  have hz : onCircle (-(j * μ)) - ⟨cm, sm⟩ = ⟨cw μ j - cm, sw μ j - sm⟩ := by
    apply Complex.ext
    · rw [Complex.sub_re, onCircle, Complex.exp_ofReal_mul_I_re, Real.cos_neg]; rfl
    · rw [Complex.sub_im, onCircle, Complex.exp_ofReal_mul_I_im, Real.sin_neg]; rfl
  rw [seen, hz, turnPart, flipPart]
  apply Complex.ext
  · simp only [Complex.add_re, Complex.mul_re, Complex.conj_re, Complex.conj_im]
    ring
  · simp only [Complex.add_im, Complex.mul_im, Complex.conj_re, Complex.conj_im]
    ring

/-- the moments of an affine image of the points on the circle -/
theorem avg_image {N : ℕ} (hN : 0 < N) (μ z p q : ℝ) (f : ℕ → ℝ)
    (hf : ∀ j, f j = z + p * cw μ j + q * sw μ j) :
    avg N f = z + p * avg N (cw μ) + q * avg N (sw μ) := by
  have hNr : (0 : ℝ) < N := by exact_mod_cast hN
  simp only [avg, hf, Finset.sum_add_distrib, ← Finset.mul_sum, Finset.sum_const, Finset.card_range,
    nsmul_eq_mul]
  field_simp

theorem cv_image {N : ℕ} (hN : 0 < N) (μ z p q z' p' q' : ℝ) (f g : ℕ → ℝ)
    (hf : ∀ j, f j = z + p * cw μ j + q * sw μ j) (hg : ∀ j, g j = z' + p' * cw μ j + q' * sw μ j) :
    cv N f g = p * p' * cv N (cw μ) (cw μ) + (p * q' + q * p') * cv N (cw μ) (sw μ) +
      q * q' * cv N (sw μ) (sw μ) := by
  have hNr : (0 : ℝ) < N := by exact_mod_cast hN
  have e : ∀ j, (f j - avg N f) * (g j - avg N g) =
      p * p' * ((cw μ j - avg N (cw μ)) * (cw μ j - avg N (cw μ))) +
      (p * q' + q * p') * ((cw μ j - avg N (cw μ)) * (sw μ j - avg N (sw μ))) +
      q * q' * ((sw μ j - avg N (sw μ)) * (sw μ j - avg N (sw μ))) := by
    intro j
    rw [avg_image hN μ z p q f hf, avg_image hN μ z' p' q' g hg, hf, hg]; ring
  rw [cv, Finset.sum_congr rfl fun j _ => e j]
  simp only [Finset.sum_add_distrib, ← Finset.mul_sum, cv]
  field_simp

theorem fract_ne {μ : ℝ} (hμ : sin μ ≠ 0) : Int.fract (μ / (2 * π)) ≠ 0 := by
  intro h
  have hp := Real.pi_pos
  apply hμ
  have h4 : μ / (2 * π) = ⌊μ / (2 * π)⌋ := by
    have := Int.floor_add_fract (μ / (2 * π)); rw [h, add_zero] at this; exact this.symm
  have h5 : μ = ((2 * ⌊μ / (2 * π)⌋ : ℤ) : ℝ) * π := by
    push_cast; field_simp at h4; linarith
  rw [h5]; exact Real.sin_int_mul_pi _

/-- the tune of points that go round an ellipse in equal steps of angle -/
theorem tune_steps {L : LinAlg ℝ} (hL : L.Lawful) {chol : Mat ℝ → Option (Mat ℝ)}
    (hch : CholLaw chol) (N : ℕ) (hN : 3 ≤ N) (μ : ℝ) (hμ : sin μ ≠ 0)
    (x0 y0 a b c d : ℝ) (hd : 0 < a * d - b * c) (hbig : N * (a * d - b * c) < 2000000000)
    (u v : ℕ → ℝ) (hu : ∀ j, u j = x0 + a * cw μ j + b * sw μ j)
    (hv : ∀ j, v j = y0 + c * cw μ j + d * sw μ j) :
    ∃ t, (Tune.getTune L realExt π chol
      (Tune.new (some ((List.range N).map u)) (some ((List.range N).map v)))).1 = .ok (some t) ∧
      |t - Int.fract (μ / (2 * π))| < 1 / (N - 1) := by
  have hN0 : 0 < N := by omega
  have hNr : (0 : ℝ) < N := by exact_mod_cast hN0
  have hp := Real.pi_pos
  -- the moments of the points on the circle
  set P := cv N (cw μ) (cw μ) with hP
  set Q := cv N (cw μ) (sw μ) with hQ
  set R := cv N (sw μ) (sw μ) with hR
  have hdet := det_circle_pos (N := N) μ hN hμ
  rw [← hP, ← hQ, ← hR] at hdet
  have htr := trace_circle (N := N) μ hN0
  rw [← hP, ← hR] at htr
  have hP0 : 0 ≤ P := cv_nonneg _
  have hR0 : 0 ≤ R := cv_nonneg _
  have hPp : 0 < P := by
    rcases hP0.lt_or_eq with h | h
    · exact h
    · rw [← h] at hdet; nlinarith [sq_nonneg Q]
  set cm := avg N (cw μ) with hcm
  set sm := avg N (sw μ) with hsm
  have hle : P * R - Q ^ 2 ≤ 1 / 4 := by nlinarith [sq_nonneg (P - R), sq_nonneg Q, sq_nonneg cm, sq_nonneg sm]
  -- the moments of the points
  have c00 := cv_image hN0 μ _ _ _ _ _ _ u u hu hu
  have c01 := cv_image hN0 μ _ _ _ _ _ _ u v hu hv
  have c11 := cv_image hN0 μ _ _ _ _ _ _ v v hv hv
  rw [← hP, ← hQ, ← hR] at c00 c01 c11
  have hD : cv N u u * cv N v v - cv N u v ^ 2 = (a * d - b * c) ^ 2 * (P * R - Q ^ 2) := by
    rw [c00, c01, c11]; ring
  have hDp : 0 < cv N u u * cv N v v - cv N u v ^ 2 := by rw [hD]; positivity
  have hUp : 0 < cv N u u := by
    rcases (cv_nonneg (N := N) u).lt_or_eq with h | h
    · exact h
    · rw [← h] at hDp; nlinarith [sq_nonneg (cv N u v)]
  have hsq : √(cv N u u * cv N v v - cv N u v ^ 2) ≤ (a * d - b * c) / 2 := by
    rw [Real.sqrt_le_iff]
    refine ⟨by positivity, ?_⟩
    rw [hD]
    nlinarith [sq_nonneg (a * d - b * c)]
  have hfit := fit_points hN0 u v hL hDp 1000000000 (by nlinarith)
  obtain ⟨m0, m1⟩ := mean_points (N := N) u v
  obtain ⟨k00, k01, k10, k11⟩ := cov_points (N := N) u v
  obtain ⟨F, hF, hFr, hFc, hs, hr, hF01, h1, h2, h3⟩ := hch (stats 2 (wpoints N u v)).2 rfl rfl
    (by simp only [stats]; rw [k01, k10, cv_comm N v u]) (by simp only [stats]; rw [k00]; exact hUp)
    (by simp only [stats]; rw [k00, k11, k10, cv_comm N v u]; exact hDp)
  obtain ⟨M, hM, n00, n01, n10, n11⟩ := inv_lower hL hFr hFc hs hr hF01
  -- the points in the space in which the ellipse is a circle
  have hgdet : 0 < a / F.entry 0 0 * (-F.entry 1 0 / (F.entry 0 0 * F.entry 1 1) * b + 1 / F.entry 1 1 * d) -
      b / F.entry 0 0 * (-F.entry 1 0 / (F.entry 0 0 * F.entry 1 1) * a + 1 / F.entry 1 1 * c) := by
    have : a / F.entry 0 0 * (-F.entry 1 0 / (F.entry 0 0 * F.entry 1 1) * b + 1 / F.entry 1 1 * d) -
        b / F.entry 0 0 * (-F.entry 1 0 / (F.entry 0 0 * F.entry 1 1) * a + 1 / F.entry 1 1 * c) =
        (a * d - b * c) / (F.entry 0 0 * F.entry 1 1) := by
      field_simp; ring
    rw [this]; positivity
  have hAB := parts_norm hgdet
  have hw1 : ‖(⟨cm, sm⟩ : ℂ)‖ < 1 := by
    rw [← sq_lt_one_iff₀ (norm_nonneg _), Complex.sq_norm, Complex.normSq_apply]
    have : cm ^ 2 + sm ^ 2 < 1 := by linarith
    rw [sq, sq] at this
    exact this
  let f : ℕ → ℝ := fun j => -Complex.arg (seen (turnPart (a / F.entry 0 0) (b / F.entry 0 0)
    (-F.entry 1 0 / (F.entry 0 0 * F.entry 1 1) * a + 1 / F.entry 1 1 * c)
    (-F.entry 1 0 / (F.entry 0 0 * F.entry 1 1) * b + 1 / F.entry 1 1 * d))
    (flipPart (a / F.entry 0 0) (b / F.entry 0 0)
    (-F.entry 1 0 / (F.entry 0 0 * F.entry 1 1) * a + 1 / F.entry 1 1 * c)
    (-F.entry 1 0 / (F.entry 0 0 * F.entry 1 1) * b + 1 / F.entry 1 1 * d)) ⟨cm, sm⟩ (-(j * μ)))
  have hang : ∀ j, -realExt.atan2
      (M.entry 1 0 * (u j - avg N u) + M.entry 1 1 * (v j - avg N v))
      (M.entry 0 0 * (u j - avg N u) + M.entry 0 1 * (v j - avg N v)) = f j := by
    intro j
    have e1 : u j - avg N u = a * (cw μ j - cm) + b * (sw μ j - sm) := by
      rw [avg_image hN0 μ _ _ _ u hu, hu]; ring
    have e2 : v j - avg N v = c * (cw μ j - cm) + d * (sw μ j - sm) := by
      rw [avg_image hN0 μ _ _ _ v hv, hv]; ring
    change -Complex.arg ⟨_, _⟩ = -Complex.arg _
    rw [seen_parts, e1, e2, n00, n01, n10, n11]
    congr 3 <;> ring
  have hzip : List.zip ((List.range N).map u) ((List.range N).map v) =
      (List.range N).map fun j => (u j, v j) := by
    rw [List.zip_map']
  obtain ⟨n, rfl⟩ : ∃ n, N = n + 1 := ⟨N - 1, by omega⟩
  obtain ⟨t, ht1, ht2⟩ := mean_advance hw1 hAB μ (fract_ne hμ) n (by omega) f fun _ => rfl
  obtain ⟨s', q1, q2⟩ := getDphiList_eval L realExt π chol
    { Tune.new (some ((List.range (n + 1)).map u)) (some ((List.range (n + 1)).map v)) with
      centre := (stats 2 (wpoints (n + 1) u v)).1,
      ellipse := (stats 2 (wpoints (n + 1) u v)).2 } F M hF hM (f 0)
    ((List.range' 1 n).map f) (by
      simp only [Tune.new, Option.getD_some, hzip, List.map_map]
      rw [show f 0 :: (List.range' 1 n).map f = (List.range (n + 1)).map f by
        rw [List.range_eq_range', List.range'_succ]; rfl]
      apply List.map_congr_left
      intro j _
      simp only [Function.comp, stats]
      rw [show (List.range 2).map (cMean (wpoints (n + 1) u v)) = [avg (n + 1) u, avg (n + 1) v] by
        simp [List.range_succ, m0, m1]]
      exact hang j)
  refine ⟨t, ?_, ?_⟩
  · have hq : s'.dphi = Tune.advances π (f 0) ((List.range' 1 n).map f) := by
      rw [q2]; simp [Tune.new]
    rw [← ht1, ← hq, ← tuneMean_eq]
    unfold Tune.getTune
    simp only [Tune.new] at q1 ⊢
    simp only [hzip, List.map_map, Function.comp_def, hfit]
    rw [q1]
  · simpa using ht2

end TuneBound
open TuneBound TuneExact

/-- C118: if the points are those of a linear lattice with phase advance `μ`, not a whole number of half
turns, then get_tune on `N` of them, three or more, returns a number that differs from the tune of the
lattice (the fractional part of μ/2π) by less than 1/(N - 1), whatever the Courant-Snyder parameters,
the closed orbit and the initial displacement, as long as the number of points times the amplitude is
below 2e9.  numpy.linalg.inv and cholesky are any functions that invert and factorise. -/
theorem C118_bound {L : LinAlg ℝ} (hL : L.Lawful) {chol : Mat ℝ → Option (Mat ℝ)}
    (hch : CholLaw chol) (N : ℕ) (hN : 3 ≤ N) (μ : ℝ) (hμ : Real.sin μ ≠ 0)
    (α β γ x0 y0 : ℝ) (hCS : β * γ = 1 + α ^ 2) (hβ : 0 < β) (u v : ℕ → ℝ)
    (h : Lattice μ α β γ x0 y0 u v) (hne : u 0 ≠ x0 ∨ v 0 ≠ y0)
    (hcut : N * amplitude α β γ (u 0 - x0) (v 0 - y0) < 2000000000) :
    ∃ t, (Tune.getTune L realExt Real.pi chol
      (Tune.new (some ((List.range N).map u)) (some ((List.range N).map v)))).1 = .ok (some t) ∧
      |t - Int.fract (μ / (2 * Real.pi))| < 1 / (N - 1) := by
  have hcl := lattice_closed hCS h
  set x := u 0 - x0 with hx
  set y := v 0 - y0 with hy
  have hW : x * (γ * x + α * y) - -(α * x + β * y) * y = amplitude α β γ x y := by
    rw [amplitude]; ring
  have hpos : 0 < amplitude α β γ x y :=
    amplitude_pos hCS hβ (hne.imp sub_ne_zero.mpr sub_ne_zero.mpr)
  exact tune_steps hL hch N hN μ hμ x0 y0 x (-(α * x + β * y)) y (γ * x + α * y)
    (by rw [hW]; exact hpos) (by rw [hW]; exact hcut) u v (fun j => (hcl j).1) fun j => (hcl j).2

/-- C118, order: of two linear lattices whose tunes differ by 2/(N - 1) or more, get_tune on `N` points
of each gives the greater tune for the one that has the greater tune. -/
theorem C118_order {L : LinAlg ℝ} (hL : L.Lawful) {chol : Mat ℝ → Option (Mat ℝ)}
    (hch : CholLaw chol) (N : ℕ) (hN : 3 ≤ N) (μ μ' : ℝ) (hμ : Real.sin μ ≠ 0) (hμ' : Real.sin μ' ≠ 0)
    (α β γ x0 y0 α' β' γ' x0' y0' : ℝ) (hCS : β * γ = 1 + α ^ 2) (hβ : 0 < β)
    (hCS' : β' * γ' = 1 + α' ^ 2) (hβ' : 0 < β') (u v u' v' : ℕ → ℝ)
    (h : Lattice μ α β γ x0 y0 u v) (h' : Lattice μ' α' β' γ' x0' y0' u' v')
    (hne : u 0 ≠ x0 ∨ v 0 ≠ y0) (hne' : u' 0 ≠ x0' ∨ v' 0 ≠ y0')
    (hcut : N * amplitude α β γ (u 0 - x0) (v 0 - y0) < 2000000000)
    (hcut' : N * amplitude α' β' γ' (u' 0 - x0') (v' 0 - y0') < 2000000000)
    (hfar : Int.fract (μ / (2 * Real.pi)) + 2 / (N - 1) ≤ Int.fract (μ' / (2 * Real.pi))) :
    ∃ t t', (Tune.getTune L realExt Real.pi chol
        (Tune.new (some ((List.range N).map u)) (some ((List.range N).map v)))).1 = .ok (some t) ∧
      (Tune.getTune L realExt Real.pi chol
        (Tune.new (some ((List.range N).map u')) (some ((List.range N).map v')))).1 = .ok (some t') ∧
      t < t' := by
  obtain ⟨t, h1, h2⟩ := C118_bound hL hch N hN μ hμ α β γ x0 y0 hCS hβ u v h hne hcut
  obtain ⟨t', h3, h4⟩ := C118_bound hL hch N hN μ' hμ' α' β' γ' x0' y0' hCS' hβ' u' v' h' hne' hcut'
  refine ⟨t, t', h1, h3, ?_⟩
  have e : (2 : ℝ) / (N - 1) = 1 / (N - 1) + 1 / (N - 1) := by ring
  rw [e] at hfar
  linarith [(abs_lt.mp h2).2, (abs_lt.mp h4).1]

/-- a lattice with phase advance `μ` and alpha = 1, beta = 2, gamma = 1 about the closed orbit (5, -3), in
the closed form of its solution -/
noncomputable def turnU (μ : ℝ) (j : ℕ) : ℝ := 5 + Real.cos (j * μ) + Real.sin (j * μ)
/-- its second coordinate -/
noncomputable def turnV (μ : ℝ) (j : ℕ) : ℝ := -3 - Real.sin (j * μ)

theorem turn_lattice (μ : ℝ) : Lattice μ 1 2 1 5 (-3) (turnU μ) (turnV μ) := by
  intro j
  have e : ((j + 1 : ℕ) : ℝ) * μ = j * μ + μ := by push_cast; ring
  simp only [turnU, turnV, e, Real.cos_add, Real.sin_add]
  constructor <;> ring

theorem sin_one_ne : Real.sin 1 ≠ 0 :=
  (Real.sin_pos_of_pos_of_lt_pi one_pos (by linarith [Real.pi_gt_three])).ne'

theorem fract_radian (x : ℝ) (h0 : 0 ≤ x) (h1 : x ≤ 6) : Int.fract (x / (2 * Real.pi)) = x / (2 * Real.pi) := by
  have := Real.pi_gt_three
  exact Int.fract_eq_self.mpr ⟨by positivity, (div_lt_one (by positivity)).mpr (by linarith)⟩

/-- the hypotheses of C118_bound hold for a lattice of one radian per turn, whose points never close -/
example : ∃ t, (Tune.getTune realLin realExt Real.pi realChol
    (Tune.new (some ((List.range 101).map (turnU 1))) (some ((List.range 101).map (turnV 1))))).1 =
      .ok (some t) ∧ |t - 1 / (2 * Real.pi)| < 1 / 100 := by
  have := C118_bound realLin_lawful realChol_law 101 (by norm_num) 1 sin_one_ne 1 2 1 5 (-3)
    (by norm_num) (by norm_num) (turnU 1) (turnV 1) (turn_lattice 1) (Or.inl (by simp [turnU]))
    (by simp [turnU, turnV, amplitude]; norm_num)
  rw [fract_radian 1 (by norm_num) (by norm_num)] at this
  norm_num at this ⊢
  exact this

/-- the hypotheses of C118_order hold: one and two radians per turn, a hundred turns -/
example : ∃ t t', (Tune.getTune realLin realExt Real.pi realChol
      (Tune.new (some ((List.range 101).map (turnU 1))) (some ((List.range 101).map (turnV 1))))).1 =
      .ok (some t) ∧
    (Tune.getTune realLin realExt Real.pi realChol
      (Tune.new (some ((List.range 101).map (turnU 2))) (some ((List.range 101).map (turnV 2))))).1 =
      .ok (some t') ∧ t < t' := by
  have hs2 : Real.sin 2 ≠ 0 :=
    (Real.sin_pos_of_pos_of_lt_pi two_pos (by linarith [Real.pi_gt_three])).ne'
  refine C118_order realLin_lawful realChol_law 101 (by norm_num) 1 2 sin_one_ne hs2 1 2 1 5 (-3) 1 2 1 5
    (-3) (by norm_num) (by norm_num) (by norm_num) (by norm_num) _ _ _ _ (turn_lattice 1)
    (turn_lattice 2) (Or.inl (by simp [turnU])) (Or.inl (by simp [turnU]))
    (by simp [turnU, turnV, amplitude]; norm_num) (by simp [turnU, turnV, amplitude]; norm_num) ?_
  rw [fract_radian 1 (by norm_num) (by norm_num), fract_radian 2 (by norm_num) (by norm_num)]
  have := Real.pi_lt_d2
  have hp := Real.pi_pos
  rw [div_add' _ _ _ (by positivity), div_le_div_iff_of_pos_right (by positivity)]
  push_cast
  linarith

end Xboa
