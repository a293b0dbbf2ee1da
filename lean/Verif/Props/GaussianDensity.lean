import Mathlib.Probability.Distributions.Gaussian.Multivariate
import Mathlib.MeasureTheory.Measure.Lebesgue.EqHaar
import Mathlib.MeasureTheory.Measure.Haar.OfBasis
import Mathlib.MeasureTheory.Integral.Pi
/-
The density of the multivariate Gaussian measure of Mathlib (defined there as the image of a product of
normal distributions, without a density).
-/
namespace Xboa
open MeasureTheory ProbabilityTheory Matrix WithLp
open scoped ENNReal MatrixOrder

variable {n : Nat}

/-- exp(-(x - mu)^T S^-1 (x - mu) / 2) / sqrt((2 pi)^n det S) -/
noncomputable def gaussianDensity (mu : Fin n → ℝ) (S : Matrix (Fin n) (Fin n) ℝ) (x : Fin n → ℝ) : ℝ :=
  Real.exp (-(1 / 2) * ((x - mu) ⬝ᵥ (S⁻¹ *ᵥ (x - mu)))) / Real.sqrt ((2 * Real.pi) ^ n * S.det)

theorem pi_gaussian_density : Measure.pi (fun _ : Fin n => gaussianReal 0 1) =
    (volume : Measure (Fin n → ℝ)).withDensity
      (fun x => ENNReal.ofReal (∏ i, gaussianPDFReal 0 1 (x i))) := by
  refine Measure.pi_eq fun s hs => ?_
  rw [withDensity_apply _ (MeasurableSet.univ_pi hs)]
  have hint : ∀ i, Integrable (gaussianPDFReal 0 1) ((volume : Measure ℝ).restrict (s i)) := fun i =>
    (integrable_gaussianPDFReal 0 1).restrict
  rw [volume_pi, Measure.restrict_pi_pi, ← ofReal_integral_eq_lintegral_ofReal]
  · rw [integral_fintype_prod_eq_prod (fun _ : Fin n => gaussianPDFReal 0 1),
      ENNReal.ofReal_prod_of_nonneg]
    · refine Finset.prod_congr rfl fun i _ => ?_
      rw [gaussianReal_apply_eq_integral 0 one_ne_zero]
    · intro i _
      exact integral_nonneg fun x => gaussianPDFReal_nonneg 0 1 x
  · exact Integrable.fintype_prod (f := fun _ : Fin n => gaussianPDFReal 0 1) hint
  · exact Filter.Eventually.of_forall fun x => Finset.prod_nonneg fun i _ => gaussianPDFReal_nonneg 0 1 _

theorem gaussian_density_image {S : Matrix (Fin n) (Fin n) ℝ} (hS : S.PosDef) (mu y : Fin n → ℝ) :
    |(CFC.sqrt S).det| * gaussianDensity mu S (mu + CFC.sqrt S *ᵥ y) =
      ∏ i, gaussianPDFReal 0 1 (y i) := by
  have hC : CFC.sqrt S * CFC.sqrt S = S := CFC.sqrt_mul_sqrt_self _ hS.posSemidef.nonneg
  have hCs : (CFC.sqrt S)ᵀ = CFC.sqrt S := by
    have := (CFC.sqrt_nonneg S).posSemidef.isHermitian
    rwa [IsHermitian, conjTranspose_eq_transpose_of_trivial] at this
  have hdet : (CFC.sqrt S).det * (CFC.sqrt S).det = S.det := by rw [← det_mul, hC]
  have hSpos := hS.det_pos
  have hC0 : (CFC.sqrt S).det ≠ 0 := by
    intro h
    rw [h, mul_zero] at hdet
    exact hSpos.ne hdet
  have hq : (CFC.sqrt S *ᵥ y) ⬝ᵥ (S⁻¹ *ᵥ (CFC.sqrt S *ᵥ y)) = ∑ i, y i ^ 2 := by
    have h1 : S⁻¹ * CFC.sqrt S = (CFC.sqrt S)⁻¹ := by
      have h0 : S⁻¹ = (CFC.sqrt S)⁻¹ * (CFC.sqrt S)⁻¹ := by rw [← Matrix.mul_inv_rev, hC]
      rw [h0, Matrix.mul_assoc, nonsing_inv_mul _ (isUnit_iff_ne_zero.mpr hC0), Matrix.mul_one]
    rw [mulVec_mulVec, h1]
    have h2 : CFC.sqrt S *ᵥ y = y ᵥ* CFC.sqrt S := by
      conv_lhs => rw [← hCs]
      rw [mulVec_transpose]
    rw [h2, ← dotProduct_mulVec, mulVec_mulVec, mul_nonsing_inv _ (isUnit_iff_ne_zero.mpr hC0), one_mulVec]
    simp only [dotProduct, pow_two]
  unfold gaussianDensity
  rw [add_sub_cancel_left, hq]
  have hpi : (0 : ℝ) ≤ (2 * Real.pi) ^ n := by positivity
  rw [Real.sqrt_mul hpi, ← hdet, Real.sqrt_mul_self_eq_abs]
  simp only [gaussianPDFReal, NNReal.coe_one, mul_one, sub_zero]
  rw [Finset.prod_mul_distrib, Finset.prod_const, Finset.card_univ, Fintype.card_fin, ← Real.exp_sum]
  have hs : Real.sqrt ((2 * Real.pi) ^ n) = Real.sqrt (2 * Real.pi) ^ n := by
    rw [Real.sqrt_eq_iff_mul_self_eq hpi (by positivity), ← mul_pow,
      Real.mul_self_sqrt (by positivity)]
  rw [hs, inv_pow]
  have ha : |(CFC.sqrt S).det| ≠ 0 := abs_ne_zero.mpr hC0
  have hp : Real.sqrt (2 * Real.pi) ^ n ≠ 0 := by positivity
  have he : ∑ i, -(y i ^ 2) / 2 = -(1 / 2) * ∑ i, y i ^ 2 := by
    rw [Finset.mul_sum]
    refine Finset.sum_congr rfl fun i _ => ?_
    ring
  rw [he]
  field_simp

theorem measurable_gaussianDensity (mu : Fin n → ℝ) (S : Matrix (Fin n) (Fin n) ℝ) :
    Measurable (gaussianDensity mu S) := by
  unfold gaussianDensity
  apply Continuous.measurable
  apply Continuous.div_const
  apply Real.continuous_exp.comp
  apply Continuous.mul continuous_const
  apply Continuous.dotProduct
  · fun_prop
  · exact Continuous.matrix_mulVec continuous_const (by fun_prop)

theorem lintegral_affine {C : Matrix (Fin n) (Fin n) ℝ} (hC : C.det ≠ 0) (mu : Fin n → ℝ)
    (f : (Fin n → ℝ) → ℝ≥0∞) (hf : Measurable f) :
    ∫⁻ z, f z = ENNReal.ofReal |C.det| * ∫⁻ y, f (mu + C *ᵥ y) := by
  have h1 : ∫⁻ z, f z = ∫⁻ z, f (mu + z) := (lintegral_add_left_eq_self f mu).symm
  have hmap := Measure.map_linearMap_addHaar_eq_smul_addHaar (volume : Measure (Fin n → ℝ))
    (f := Matrix.toLin' C) (by rwa [LinearMap.det_toLin'])
  have h2 : ∫⁻ y, f (mu + C *ᵥ y) = ENNReal.ofReal |C.det⁻¹| * ∫⁻ z, f (mu + z) := by
    rw [← LinearMap.det_toLin', ← smul_eq_mul, ← lintegral_smul_measure, ← hmap, lintegral_map]
    · rfl
    · exact hf.comp (measurable_const_add mu)
    · exact (LinearMap.continuous_on_pi _).measurable
  rw [h1, h2, ← mul_assoc, ← ENNReal.ofReal_mul (abs_nonneg _), ← abs_mul, mul_inv_cancel₀ hC,
    abs_one, ENNReal.ofReal_one, one_mul]

/-- The Gaussian measure of mean mu and covariance S has the density gaussianDensity. -/
theorem multivariateGaussian_density {S : Matrix (Fin n) (Fin n) ℝ} (hS : S.PosDef) (mu : Fin n → ℝ) :
    multivariateGaussian (toLp 2 mu) S =
      (volume : Measure (EuclideanSpace ℝ (Fin n))).withDensity
        (fun x => ENNReal.ofReal (gaussianDensity mu S (ofLp x))) := by
  have hdet : (CFC.sqrt S).det ≠ 0 := by
    have hC : CFC.sqrt S * CFC.sqrt S = S := CFC.sqrt_mul_sqrt_self _ hS.posSemidef.nonneg
    intro h
    have := congrArg Matrix.det hC
    rw [det_mul, h, mul_zero] at this
    exact hS.det_pos.ne this
  have hrho : Measurable fun z => ENNReal.ofReal (gaussianDensity mu S z) :=
    (measurable_gaussianDensity mu S).ennreal_ofReal
  ext A hA
  rw [multivariateGaussian, ← map_pi_eq_stdGaussian, pi_gaussian_density, Measure.map_map (by fun_prop) (by fun_prop),
    Measure.map_apply (by fun_prop) hA, withDensity_apply _ hA]
  have hA' : MeasurableSet (toLp 2 ⁻¹' A : Set (Fin n → ℝ)) := (WithLp.measurable_toLp 2 _) hA
  have hpre : (((fun x => toLp 2 mu + toEuclideanCLM (𝕜 := ℝ) (CFC.sqrt S) x) ∘ toLp 2) ⁻¹' A :
      Set (Fin n → ℝ)) = (fun y => mu + CFC.sqrt S *ᵥ y) ⁻¹' (toLp 2 ⁻¹' A) := rfl
  have hm : Measurable fun y : Fin n → ℝ => mu + CFC.sqrt S *ᵥ y := by
    apply Continuous.measurable
    exact continuous_const.add (Continuous.matrix_mulVec continuous_const continuous_id)
  rw [hpre, withDensity_apply _ (hm hA')]
  have hvol := PiLp.volume_preserving_toLp (Fin n)
  rw [← hvol.setLIntegral_comp_preimage hA
    (show Measurable fun x : EuclideanSpace ℝ (Fin n) => ENNReal.ofReal (gaussianDensity mu S (ofLp x)) from
      hrho.comp (WithLp.measurable_ofLp 2 _))]
  rw [← lintegral_indicator (hm hA'), ← lintegral_indicator hA']
  simp only []
  rw [lintegral_affine hdet mu _ (Measurable.indicator hrho hA'), ← lintegral_const_mul]
  · refine lintegral_congr fun y => ?_
    by_cases hy : mu + CFC.sqrt S *ᵥ y ∈ (toLp 2 ⁻¹' A : Set (Fin n → ℝ))
    · rw [Set.indicator_of_mem (show y ∈ _ from hy), Set.indicator_of_mem hy,
        ← gaussian_density_image hS mu y, ENNReal.ofReal_mul (abs_nonneg _)]
    · rw [Set.indicator_of_notMem (show y ∉ _ from hy), Set.indicator_of_notMem hy, mul_zero]
  · exact (Measurable.indicator hrho hA').comp hm

end Xboa
