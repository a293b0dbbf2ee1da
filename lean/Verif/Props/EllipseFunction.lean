import Verif.Model.EllipseFunction
import Verif.Props.BunchTransform
import Mathlib.LinearAlgebra.Matrix.NonsingularInverse
import Mathlib.Tactic.LinearCombination
import Mathlib.Tactic.FieldSimp
/-
C108: make_root_ellipse_function.
-/
set_option linter.unusedSectionVars false
namespace Xboa
namespace EllipseFunction
open Matrix
variable {K : Type} [Field K] [LinearOrder K] [IsStrictOrderedRing K]

/-! ### Specification -/

/-- a symmetric n x n matrix that can be inverted -/
structure Regular (n : Nat) (V : Mat K) : Prop where
  rows : V.rows = n
  cols : V.cols = n
  symm : ∀ i j, i < n → j < n → V.entry i j = V.entry j i
  det : V.det ≠ 0

/-- `value` is x^T V^-1 x at the vector `x`: with V s = x it is s^T V s. -/
def IsForm (n : Nat) (V : Mat K) (x : Fin n → K) (value : K) : Prop :=
  ∃ s : Fin n → K, (∀ i : Fin n, ∑ j : Fin n, V.entry i j * s j = x i) ∧
    value = ∑ i : Fin n, ∑ j : Fin n, s i * V.entry i j * s j

/-- there is one such value only -/
theorem isForm_unique {n : Nat} {V : Mat K} (hV : Regular n V) {x : Fin n → K} {a b : K} (ha : IsForm n V x a)
    (hb : IsForm n V x b) : a = b := by
  obtain ⟨s, hs, rfl⟩ := ha
  obtain ⟨t, ht, rfl⟩ := hb
  have hdet : (Bunch.toM n V).det ≠ 0 := by
    have := hV.det
    rwa [Bunch.det_toM hV.rows] at this
  have h0 : Bunch.toM n V *ᵥ (s - t) = 0 := by
    funext i
    have h1 := hs i
    have h2 := ht i
    simp only [Matrix.mulVec, dotProduct, Bunch.toM, Matrix.of_apply, Pi.sub_apply, mul_sub,
      Finset.sum_sub_distrib, h1, h2, sub_self, Pi.zero_apply]
  have := Matrix.eq_zero_of_mulVec_eq_zero hdet h0
  have : s = t := sub_eq_zero.1 this
  rw [this]

/-! ### C108 -/

/-- what is inverted -/
theorem inv_entries {L : LinAlg K} (hL : L.Lawful) {n : Nat} {V N : Mat K} (hV : Regular n V)
    (h : L.inv V = some N) : N.rows = n ∧ N.cols = n ∧ Bunch.toM n N * Bunch.toM n V = 1 ∧
      (Bunch.toM n N)ᵀ = Bunch.toM n N := by
  obtain ⟨h1, h2, h3⟩ := hL.inv_mul V N (by rw [hV.rows, hV.cols]) h
  rw [hV.rows] at h1 h2 h3
  have hm : Bunch.toM n N * Bunch.toM n V = 1 := by
    rw [← Bunch.toM_mul h2]
    ext i j
    simp only [Bunch.toM, Matrix.of_apply, Matrix.one_apply, Fin.ext_iff]
    exact h3 i j i.2 j.2
  refine ⟨h1, h2, hm, ?_⟩
  have hs : (Bunch.toM n V)ᵀ = Bunch.toM n V := by
    ext i j
    exact hV.symm j i j.2 i.2
  have h4 : Bunch.toM n V * (Bunch.toM n N)ᵀ = 1 := by
    have := congrArg Matrix.transpose hm
    rwa [Matrix.transpose_mul, hs, Matrix.transpose_one] at this
  exact (left_inv_eq_right_inv hm h4).symm

/-- the limits of the axes: those given, if there are four -/
def limits (mean : List K) (xmin xmax ymin ymax : Option K) : K × K × K × K :=
  match xmin, xmax, ymin, ymax with
  | some a, some b, some c, some d => (a, c, b, d)
  | _, _, _, _ => (mean.getD 0 0 - 1000, mean.getD 1 0 - 1000, mean.getD 0 0 + 1000, mean.getD 1 0 + 1000)

/-- C108_section: for all symmetric regular matrices of two or more variables and all means of that length,
the function drawn is x^T V^-1 x for the vectors x of which only the first two components differ from the
mean; contours and limits are handed on, but a limit that is missing replaces all of them. -/
theorem C108_section {L : LinAlg K} (hL : L.Lawful) {n : Nat} (hn : 2 ≤ n) {V : Mat K} (hV : Regular n V)
    {mean : List K} (hm : 2 ≤ mean.length) (contours : Option (List K)) (xmin xmax ymin ymax : Option K) :
    ∃ f, makeRootEllipseFunction L mean V contours xmin xmax ymin ymax = .ok f ∧
      f.contours = contours ∧ f.range = limits mean xmin xmax ymin ymax ∧
      ∀ x y, IsForm n V (fun i => if i.1 = 0 then x - mean.getD 0 0 else if i.1 = 1 then y - mean.getD 1 0 else 0)
        (f.eval x y) := by
  obtain ⟨N, hN⟩ := hL.inv_ok V (by rw [hV.rows, hV.cols]) hV.det
  obtain ⟨h1, h2, h3, h4⟩ := inv_entries hL hV hN
  match mean, hm with
  | m0 :: m1 :: rest, _ =>
    have hsz : ¬ (N.rows < 2 ∨ N.cols < 2) := by omega
    refine ⟨_, by simp only [makeRootEllipseFunction, hN, if_neg hsz]; rfl, rfl, ?_, ?_⟩
    · rcases xmin with _ | a <;> rcases xmax with _ | b <;> rcases ymin with _ | c <;>
        rcases ymax with _ | d <;> simp [limits, add_comm, sub_eq_add_neg]
    · intro x y
      set d : Fin n → K := fun i => if i.1 = 0 then x - (m0 :: m1 :: rest).getD 0 0 else
        if i.1 = 1 then y - (m0 :: m1 :: rest).getD 1 0 else 0 with hd
      have h3' : Bunch.toM n V * Bunch.toM n N = 1 := mul_eq_one_comm.1 h3
      have hs : Bunch.toM n V *ᵥ (Bunch.toM n N *ᵥ d) = d := by
        rw [Matrix.mulVec_mulVec, h3', Matrix.one_mulVec]
      refine ⟨Bunch.toM n N *ᵥ d, fun i => congrFun hs i, ?_⟩
      have hval : ∑ i : Fin n, ∑ j : Fin n, (Bunch.toM n N *ᵥ d) i * V.entry i j * (Bunch.toM n N *ᵥ d) j =
          (Bunch.toM n N *ᵥ d) ⬝ᵥ d := by
        rw [dotProduct]
        refine Finset.sum_congr rfl fun i _ => ?_
        have hi : d i = ∑ j : Fin n, V.entry i j * (Bunch.toM n N *ᵥ d) j := (congrFun hs i).symm
        rw [hi, Finset.mul_sum]
        exact Finset.sum_congr rfl fun j _ => mul_assoc _ _ _
      rw [hval]
      have e0 : (⟨0, by omega⟩ : Fin n) ≠ ⟨1, by omega⟩ := by simp
      have hsum : ∀ g : Fin n → K, ∑ i : Fin n, g i * d i =
          g ⟨0, by omega⟩ * (x - m0) + g ⟨1, by omega⟩ * (y - m1) := by
        intro g
        rw [← Finset.sum_subset (Finset.subset_univ {⟨0, by omega⟩, ⟨1, by omega⟩}), Finset.sum_pair e0]
        · simp [hd]
        · intro i _ hi
          simp only [Finset.mem_insert, Finset.mem_singleton, Fin.ext_iff, not_or] at hi
          simp [hd, hi.1, hi.2]
      have hv : ∀ i, (Bunch.toM n N *ᵥ d) i = N.entry i 0 * (x - m0) + N.entry i 1 * (y - m1) := by
        intro i
        exact hsum fun j => Bunch.toM n N i j
      rw [dotProduct, hsum (fun i => (Bunch.toM n N *ᵥ d) i), hv, hv]
      have hsym : N.entry 1 0 = N.entry 0 1 := congrFun (congrFun h4 ⟨0, by omega⟩) ⟨1, by omega⟩
      simp only [Fn.eval]
      linear_combination (-(x - m0) * (y - m1)) * hsym

/-- C108_partial: for two variables the function drawn is the square of the distance from the mean in units
of the ellipse: at mean + A t it is |t|^2, for every A with A A^T = V.  So the contour of level r^2 is the
image of the circle of radius r.  Missing: matrices of more variables, see `C108_projection_false`. -/
theorem C108_partial {L : LinAlg K} (hL : L.Lawful) {V : Mat K} (hV : Regular 2 V) {mean : List K}
    (hm : 2 ≤ mean.length) (contours : Option (List K)) (xmin xmax ymin ymax : Option K) :
    ∃ f, makeRootEllipseFunction L mean V contours xmin xmax ymin ymax = .ok f ∧
      f.contours = contours ∧ f.range = limits mean xmin xmax ymin ymax ∧
      ∀ (a b c d : K), V.entry 0 0 = a ^ 2 + b ^ 2 → V.entry 0 1 = a * c + b * d →
        V.entry 1 1 = c ^ 2 + d ^ 2 → ∀ t u : K,
          f.eval (mean.getD 0 0 + (a * t + b * u)) (mean.getD 1 0 + (c * t + d * u)) = t ^ 2 + u ^ 2 := by
  obtain ⟨f, h1, h2, h3, h4⟩ := C108_section hL le_rfl hV hm contours xmin xmax ymin ymax
  refine ⟨f, h1, h2, h3, fun a b c d e00 e01 e11 t u => ?_⟩
  refine isForm_unique hV (h4 _ _) ?_
  have e10 : V.entry 1 0 = a * c + b * d := (hV.symm 1 0 (by omega) (by omega)).trans e01
  have hdet : V.det = (a * d - b * c) ^ 2 := by
    rw [Bunch.det_toM hV.rows, Matrix.det_fin_two]
    simp only [Bunch.toM, Matrix.of_apply, Fin.val_zero, Fin.val_one, e00, e01, e10, e11]
    ring
  have hD : a * d - b * c ≠ 0 := by
    intro h0
    exact hV.det (by rw [hdet, h0]; ring)
  obtain ⟨r, hr⟩ : ∃ r, r * (a * d - b * c) = 1 := ⟨_, inv_mul_cancel₀ hD⟩
  refine ⟨![r * (d * t - c * u), r * (a * u - b * t)], ?_, ?_⟩
  · intro i
    fin_cases i
    · simp only [Fin.sum_univ_two, Fin.val_zero, Fin.val_one, e00, e01, Matrix.cons_val_zero,
        Matrix.cons_val_one, if_true]
      linear_combination (a * t + b * u) * hr
    · simp only [Fin.sum_univ_two, Fin.val_zero, Fin.val_one, e10, e11, Matrix.cons_val_zero,
        Matrix.cons_val_one, one_ne_zero, if_true, if_false]
      linear_combination (c * t + d * u) * hr
  · simp only [Fin.sum_univ_two, Fin.val_zero, Fin.val_one, e00, e01, e10, e11, Matrix.cons_val_zero,
        Matrix.cons_val_one]
    linear_combination (-(t ^ 2 + u ^ 2) * (r * (a * d - b * c) + 1)) * hr

/-! ### C108 is false -/

/-- a beam of three variables, the first and the third of which are correlated -/
def cov3 : Mat ℚ := ⟨3, 3, fun i j => if i = 0 ∧ j = 0 then 2 else if i = j then 1 else
  if i + j = 2 then 1 else 0⟩
/-- its first two variables -/
def cov2 : Mat ℚ := ⟨2, 2, cov3.entry⟩

theorem regular3 : Regular 3 cov3 :=
  ⟨rfl, rfl, fun i j hi hj => by interval_cases i <;> interval_cases j <;> decide +kernel, by
    rw [Bunch.det_toM (n := 3) rfl, Matrix.det_fin_three]; decide +kernel⟩

theorem regular2 : Regular 2 cov2 :=
  ⟨rfl, rfl, fun i j hi hj => by interval_cases i <;> interval_cases j <;> decide +kernel, by
    rw [Bunch.det_toM (n := 2) rfl, Matrix.det_fin_two]; decide +kernel⟩

/-- C108_projection_false: for a matrix of three variables the ellipse is not that of the first two: at one
and the same point the two functions are 1 and 1/2. -/
theorem C108_projection_false (L : LinAlg ℚ) (hL : L.Lawful) :
    ∃ f g, makeRootEllipseFunction L [0, 0, 0] cov3 none none none none none = .ok f ∧
      makeRootEllipseFunction L [0, 0] cov2 none none none none none = .ok g ∧
      f.eval 1 0 = 1 ∧ g.eval 1 0 = 1 / 2 := by
  obtain ⟨f, h1, _, _, h4⟩ := C108_section hL (by decide) regular3 (mean := [0, 0, 0]) (by decide) none none none
    none none
  obtain ⟨g, k1, _, _, k4⟩ := C108_section hL (by decide) regular2 (mean := [0, 0]) (by decide) none none none
    none none
  refine ⟨f, g, h1, k1, isForm_unique regular3 (h4 1 0) ⟨![1, 0, -1], ?_, ?_⟩,
    isForm_unique regular2 (k4 1 0) ⟨![1 / 2, 0], ?_, ?_⟩⟩ <;> decide +kernel

/-- C108_limits_false: three limits that are given are replaced if the fourth is not. -/
theorem C108_limits_false {L : LinAlg K} (hL : L.Lawful) {n : Nat} (hn : 2 ≤ n) {V : Mat K} (hV : Regular n V)
    (m0 m1 : K) (rest : List K) (a b c : K) :
    ∃ f, makeRootEllipseFunction L (m0 :: m1 :: rest) V none (some a) (some b) (some c) none = .ok f ∧
      f.range = (m0 - 1000, m1 - 1000, m0 + 1000, m1 + 1000) := by
  obtain ⟨f, h1, _, h3, _⟩ := C108_section hL hn hV (mean := m0 :: m1 :: rest) (by simp) none (some a) (some b)
    (some c) none
  exact ⟨f, h1, by simpa [limits] using h3⟩

/-- the hypotheses of C108_partial and C108_section can be met: a tilted ellipse -/
example : realLin.Lawful ∧ Regular 2 (⟨2, 2, fun i j => if i = j then 2 else 1⟩ : Mat ℝ) ∧
    (2 : ℝ) = (√2) ^ 2 + 0 ^ 2 ∧ (1 : ℝ) = √2 * (√2 / 2) + 0 * (√6 / 2) ∧ (2 : ℝ) = (√2 / 2) ^ 2 + (√6 / 2) ^ 2 := by
  have h2 : √2 ^ 2 = (2 : ℝ) := Real.sq_sqrt (by norm_num)
  have h6 : √6 ^ 2 = (6 : ℝ) := Real.sq_sqrt (by norm_num)
  refine ⟨realLin_lawful, ⟨rfl, rfl, fun i j _ _ => by simp [eq_comm], ?_⟩, by linarith, ?_, ?_⟩
  · rw [Bunch.det_toM (n := 2) rfl, Matrix.det_fin_two]
    norm_num [Bunch.toM]
  · linear_combination -h2 / 2
  · linear_combination -h2 / 4 - h6 / 4

end EllipseFunction
end Xboa
