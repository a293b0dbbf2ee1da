import Verif.Props.Amplitude
import Verif.Props.BunchCov
import Mathlib.Data.List.GetD
import Mathlib.Analysis.InnerProductSpace.Positive
import Mathlib.Analysis.Matrix.Order
import Mathlib.Analysis.Matrix.PosDef
import Mathlib.LinearAlgebra.Matrix.SchurComplement
import Mathlib.Tactic.LinearCombination
import Mathlib.Tactic.FinCases
import Mathlib.Tactic.NormNum
/-
C123: the emittance of several axes and the emittances of parts of them.
-/
set_option linter.unusedSectionVars false
namespace Xboa.Planes
open Amp Matrix

/-! ### Determinants (Fischer's inequality) -/
section fischer
variable {m n : Type} [Fintype m] [DecidableEq m] [Fintype n] [DecidableEq n]

theorem det_add_one (P : Matrix n n ℝ) (hP : P.PosDef) (c : n → ℝ) :
    (P + vecMulVec c (star c)).PosDef ∧ P.det ≤ (P + vecMulVec c (star c)).det ∧
      (P.det = (P + vecMulVec c (star c)).det → c = 0) := by
  have h1 : (P + vecMulVec c (star c)).PosDef := hP.add_posSemidef (posSemidef_vecMulVec_self_star c)
  have hd := hP.det_pos
  have he : (P + vecMulVec c (star c)).det = P.det * (1 + star c ⬝ᵥ (P⁻¹ *ᵥ c)) := by
    rw [vecMulVec_eq Unit, det_add_replicateCol_mul_replicateRow hd.ne'.isUnit,
      det_unique (1 + replicateRow Unit (star c) * P⁻¹ * replicateCol Unit c)]
    congr 1
    simp [Matrix.mul_apply, dotProduct, mulVec, Finset.sum_mul, Finset.mul_sum, mul_assoc]
    exact Finset.sum_comm
  have hinv := posDef_iff_dotProduct_mulVec.1 hP.inv
  refine ⟨h1, ?_, fun h => ?_⟩
  · rw [he]
    have : 0 ≤ star c ⬝ᵥ (P⁻¹ *ᵥ c) := hP.inv.posSemidef.dotProduct_mulVec_nonneg c
    nlinarith
  · by_contra hc
    have := hinv.2 hc
    rw [he] at h
    nlinarith

theorem det_add_sum {k : Nat} (P : Matrix n n ℝ) (hP : P.PosDef) (v : Fin k → n → ℝ) (s : Finset (Fin k)) :
    (P + ∑ i ∈ s, vecMulVec (v i) (star (v i))).PosDef ∧
      P.det ≤ (P + ∑ i ∈ s, vecMulVec (v i) (star (v i))).det ∧
      (P.det = (P + ∑ i ∈ s, vecMulVec (v i) (star (v i))).det → ∀ i ∈ s, v i = 0) := by
  induction s using Finset.induction_on with
  | empty => exact ⟨by simpa using hP, by simp, by simp⟩
  | insert a s ha ih =>
    obtain ⟨i1, i2, i3⟩ := ih
    obtain ⟨j1, j2, j3⟩ := det_add_one _ i1 (v a)
    rw [Finset.sum_insert ha, show P + (vecMulVec (v a) (star (v a)) +
      ∑ i ∈ s, vecMulVec (v i) (star (v i))) = P + ∑ i ∈ s, vecMulVec (v i) (star (v i)) +
        vecMulVec (v a) (star (v a)) by abel]
    refine ⟨j1, i2.trans j2, fun h i hi => ?_⟩
    have e1 := le_antisymm i2 (by rw [h]; exact j2)
    rcases Finset.mem_insert.1 hi with rfl | hi
    · exact j3 (by rw [← e1]; exact h)
    · exact i3 e1 i hi

/-- A positive definite matrix in blocks. -/
theorem fischer (A : Matrix m m ℝ) (B : Matrix m n ℝ) (D : Matrix n n ℝ)
    (h : (fromBlocks A B Bᴴ D).PosDef) :
    0 < A.det ∧ 0 < D.det ∧ (fromBlocks A B Bᴴ D).det ≤ A.det * D.det ∧
      ((fromBlocks A B Bᴴ D).det = A.det * D.det ↔ B = 0) := by
  have hA : A.PosDef := by
    have := h.submatrix (e := (Sum.inl : m → m ⊕ n)) Sum.inl_injective
    exact this
  have hD : D.PosDef := by
    have := h.submatrix (e := (Sum.inr : n → m ⊕ n)) Sum.inr_injective
    exact this
  have hAd := hA.det_pos
  have : Invertible A := A.invertibleOfIsUnitDet hAd.ne'.isUnit
  have hdet : (fromBlocks A B Bᴴ D).det = A.det * (D - Bᴴ * A⁻¹ * B).det := by
    rw [det_fromBlocks₁₁, invOf_eq_nonsing_inv]
  have hP : (D - Bᴴ * A⁻¹ * B).PosDef := by
    refine ((PosDef.fromBlocks₁₁ B D hA).1 h.posSemidef).posDef_iff_det_ne_zero.2 fun h0 => ?_
    have := h.det_pos
    rw [hdet, h0, mul_zero] at this
    exact lt_irrefl _ this
  have hS : (Bᴴ * A⁻¹ * B).PosSemidef := hA.inv.posSemidef.conjTranspose_mul_mul_same B
  obtain ⟨k, v, hv⟩ := posSemidef_iff_eq_sum_vecMulVec.1 hS
  obtain ⟨-, g2, g3⟩ := det_add_sum _ hP v Finset.univ
  rw [← hv, sub_add_cancel] at g2 g3
  refine ⟨hAd, hD.det_pos, by rw [hdet]; exact mul_le_mul_of_nonneg_left g2 hAd.le, ?_⟩
  constructor
  · intro e
    rw [hdet] at e
    have hz := g3 (mul_left_cancel₀ hAd.ne' e)
    have hS0 : Bᴴ * A⁻¹ * B = 0 := by
      rw [hv]
      exact Finset.sum_eq_zero fun i hi => by rw [hz i hi]; simp
    have hcol : ∀ x : n → ℝ, B *ᵥ x = 0 := by
      intro x
      by_contra hne
      have h1 := (posDef_iff_dotProduct_mulVec.1 hA.inv).2 hne
      have h2 : star (B *ᵥ x) ⬝ᵥ (A⁻¹ *ᵥ (B *ᵥ x)) = star x ⬝ᵥ ((Bᴴ * A⁻¹ * B) *ᵥ x) := by
        rw [star_mulVec, ← dotProduct_mulVec, mulVec_mulVec, mulVec_mulVec]
      rw [h2, hS0] at h1
      simp at h1
    ext i j
    have := congrFun (hcol (Pi.single j 1)) i
    simpa using this
  · rintro rfl
    rw [hdet]
    simp

end fischer

/-! ### The covariances -/

/-- The covariance matrix of a bunch without negative weights is positive semidefinite. -/
theorem covOf_psd (w : BWorld ℝ) (b : Bunch ℝ) (vals : String → Nat → ℝ)
    (hw : ∀ i ∈ b.hits, 0 ≤ w.weight i) (cl : List String) : (covOf b w vals cl).PosSemidef := by
  refine posSemidef_iff_dotProduct_mulVec.2 ⟨?_, fun x => ?_⟩
  · ext i j
    simp only [conjTranspose_apply, covOf, of_apply, star_trivial]
    exact wcov_comm _ _ _ _ _
  · have hS : 0 ≤ (b.hits.map w.weight).sum := by
      apply List.sum_nonneg
      intro y hy
      obtain ⟨s, hs', rfl⟩ := List.mem_map.mp hy
      exact hw s hs'
    have := quad_form_nonneg b.hits (fun i => w.weight i / (b.hits.map w.weight).sum)
      (fun i h => div_nonneg (hw i h) hS) cl.length
      (fun j h => vals (cl.getD j "") h - wmean b.hits w.weight (vals (cl.getD j "")))
      (fun j => if h : j < cl.length then x ⟨j, h⟩ else 0)
    refine le_of_le_of_eq this ?_
    rw [Finset.sum_range]
    simp only [dotProduct, mulVec, star_trivial, Finset.mul_sum]
    refine Finset.sum_congr rfl fun j _ => ?_
    rw [Finset.sum_range]
    refine Finset.sum_congr rfl fun k _ => ?_
    simp only [Fin.is_lt, dif_pos, Fin.eta, covOf, of_apply, wcov, wmoment_pair, sum_div_mul]
    ring

/-- The covariance matrix of two lists of variables in blocks. -/
theorem covOf_append (w : BWorld ℝ) (b : Bunch ℝ) (vals : String → Nat → ℝ) (c d : List String) :
    ∃ e : Fin c.length ⊕ Fin d.length ≃ Fin (c ++ d).length,
      (covOf b w vals (c ++ d)).submatrix e e =
        fromBlocks (covOf b w vals c)
          (of fun (i : Fin c.length) (j : Fin d.length) => wcov b w vals (c.getD i "") (d.getD j ""))
          (of fun (i : Fin c.length) (j : Fin d.length) => wcov b w vals (c.getD i "") (d.getD j ""))ᴴ (covOf b w vals d) := by
  refine ⟨finSumFinEquiv.trans (finCongr (by simp)), ?_⟩
  have hl : ∀ i : Fin c.length, (c ++ d).getD (i : Nat) "" = c.getD i "" := fun i =>
    List.getD_append _ _ _ _ i.2
  have hr : ∀ j : Fin d.length, (c ++ d).getD (c.length + (j : Nat)) "" = d.getD j "" := fun j => by
    rw [List.getD_append_right _ _ _ _ (by omega)]
    simp
  ext i j
  rcases i with i | i <;> rcases j with j | j <;>
    simp only [submatrix_apply, covOf, of_apply, Equiv.trans_apply, finSumFinEquiv_apply_left,
      finSumFinEquiv_apply_right, finCongr_apply, Fin.val_cast, Fin.val_castAdd, Fin.val_natAdd, hl, hr,
      fromBlocks_apply₁₁, fromBlocks_apply₁₂, fromBlocks_apply₂₁, fromBlocks_apply₂₂, conjTranspose_apply,
      star_trivial]
  exact wcov_comm _ _ _ _ _

/-! ### C123 -/

/-- **C123.** For a bunch without negative weights and a positive emittance in the axes ax ++ ay (each with
its momentum), the emittances of ax, of ay and of both together exist, are positive and satisfy
eps(ax ++ ay)^(n + m) <= eps(ax)^n eps(ay)^m, n and m being the numbers of axes; the two sides are the same
exactly if no variable of ax is correlated with a variable of ay. -/
theorem C123_planes {L : LinAlg ℝ} (hL : L.Lawful) (E : Ext ℝ) (w : BWorld ℝ) (b : Bunch ℝ)
    (hb : b.Normal w) (hmeans : b.means = [])
    (hW : ¬ |(b.hits.map w.weight).sum| < 1 / 1000000000) (hw : ∀ i ∈ b.hits, 0 ≤ w.weight i)
    (vals : String → Nat → ℝ) (ax ay mx my cx cy : List String) (hax : ax ≠ []) (hay : ay ≠ [])
    (hmx : List.Forall₂ (Conjugate w.geo) ax mx) (hmy : List.Forall₂ (Conjugate w.geo) ay my)
    (hcx : cx = (ax.zip mx).flatMap fun p => [p.1, p.2])
    (hcy : cy = (ay.zip my).flatMap fun p => [p.1, p.2])
    (hv : ∀ i ∈ b.hits, ∀ v ∈ cx ++ cy, Bunch.hitNum E w i v = .ok (vals v i))
    (hD : (covOf b w vals (cx ++ cy)).det ≠ 0) (m : ℝ) (hm : MassFor w b m) (hm0 : 0 < m) :
    ∃ ex ey exy, Bunch.getEmittance L E w b ax none = .ok ex ∧ Bunch.getEmittance L E w b ay none = .ok ey ∧
      Bunch.getEmittance L E w b (ax ++ ay) none = .ok exy ∧ 0 < ex ∧ 0 < ey ∧ 0 < exy ∧
      exy ^ (ax.length + ay.length) ≤ ex ^ ax.length * ey ^ ay.length ∧
      (exy ^ (ax.length + ay.length) = ex ^ ax.length * ey ^ ay.length ↔
        ∀ u ∈ cx, ∀ v ∈ cy, wcov b w vals u v = 0) := by
  have hpsd := covOf_psd w b vals hw (cx ++ cy)
  have hpd := hpsd.posDef_iff_det_ne_zero.2 hD
  obtain ⟨e, he⟩ := covOf_append w b vals cx cy
  have hpd' := hpd.submatrix (e := e) e.injective
  have hdet : (covOf b w vals (cx ++ cy)).det = _ := (det_submatrix_equiv_self e _).symm.trans (by rw [he])
  rw [he] at hpd'
  obtain ⟨f1, f2, f3, f4⟩ := fischer _ _ _ hpd'
  rw [← hdet] at f3 f4
  have hlen : ∀ (a p : List String), List.Forall₂ (Conjugate w.geo) a p →
      ((a.zip p).flatMap fun q => [q.1, q.2]).length = 2 * a.length := by
    intro a p h
    induction h with
    | nil => rfl
    | cons _ _ ih =>
      simp only [List.zip_cons_cons, List.flatMap_cons, List.length_append, List.length_cons,
        List.length_nil, ih]
      omega
  have hlx : cx.length = 2 * ax.length := by rw [hcx]; exact hlen _ _ hmx
  have hly : cy.length = 2 * ay.length := by rw [hcy]; exact hlen _ _ hmy
  have hzip : cx ++ cy = ((ax ++ ay).zip (mx ++ my)).flatMap fun p => [p.1, p.2] := by
    rw [List.zip_append hmx.length_eq, List.flatMap_append, hcx, hcy]
  obtain ⟨_, ex, _, _, -, -, -, x4, ⟨x5, x6⟩, -⟩ := amp_ok hL E w b hb hmeans hW vals ax mx cx hax hmx hcx
    (fun i hi v hv' => hv i hi v (List.mem_append_left _ hv')) f1 m hm
  obtain ⟨_, ey, _, _, -, -, -, y4, ⟨y5, y6⟩, -⟩ := amp_ok hL E w b hb hmeans hW vals ay my cy hay hmy hcy
    (fun i hi v hv' => hv i hi v (List.mem_append_right _ hv')) f2 m hm
  obtain ⟨_, exy, _, _, -, -, -, z4, ⟨z5, z6⟩, -⟩ := amp_ok hL E w b hb hmeans hW vals (ax ++ ay) (mx ++ my)
    (cx ++ cy) (by simp [hax]) (List.rel_append hmx hmy) hzip hv hpd.det_pos m hm
  have pos : ∀ (eps : ℝ) (k : Nat) (d : ℝ), 0 ≤ eps * m → k ≠ 0 → (eps * m) ^ k = d → 0 < d → 0 < eps := by
    intro eps k d h1 h2 h3 h4
    rcases h1.lt_or_eq with h | h
    · exact pos_of_mul_pos_left h hm0.le
    · rw [← h, zero_pow h2] at h3
      linarith
  have hnx : ax.length ≠ 0 := by simpa using hax
  have hny : ay.length ≠ 0 := by simpa using hay
  have px := pos ex _ _ x5 (by omega) x6 f1
  have py := pos ey _ _ y5 (by omega) y6 f2
  have pz := pos exy _ _ z5 (by rw [List.length_append]; omega) z6 hpd.det_pos
  -- squares
  have hsq : (covOf b w vals (cx ++ cy)).det = (exy ^ (ax.length + ay.length)) ^ 2 *
      (m ^ (ax.length + ay.length)) ^ 2 := by
    rw [← z6, List.length_append, hlx, hly, mul_pow, ← pow_mul, ← pow_mul]
    congr 2 <;> ring
  have hsq' : (covOf b w vals cx).det * (covOf b w vals cy).det =
      (ex ^ ax.length * ey ^ ay.length) ^ 2 * (m ^ (ax.length + ay.length)) ^ 2 := by
    rw [← x6, ← y6, hlx, hly]
    simp only [mul_pow, ← pow_mul, pow_add, mul_comm 2]
    ring
  have hmp : 0 < (m ^ (ax.length + ay.length)) ^ 2 := by positivity
  have q1 : 0 ≤ exy ^ (ax.length + ay.length) := by positivity
  have q2 : 0 ≤ ex ^ ax.length * ey ^ ay.length := by positivity
  refine ⟨ex, ey, exy, x4, y4, z4, px, py, pz, ?_, ?_⟩
  · rw [hsq, hsq'] at f3
    exact (pow_le_pow_iff_left₀ q1 q2 two_ne_zero).1 (le_of_mul_le_mul_right f3 hmp)
  · rw [hsq, hsq'] at f4
    have : exy ^ (ax.length + ay.length) = ex ^ ax.length * ey ^ ay.length ↔
        (exy ^ (ax.length + ay.length)) ^ 2 * (m ^ (ax.length + ay.length)) ^ 2 =
          (ex ^ ax.length * ey ^ ay.length) ^ 2 * (m ^ (ax.length + ay.length)) ^ 2 := by
      rw [mul_left_inj' hmp.ne', pow_left_inj₀ q1 q2 two_ne_zero]
    rw [this, f4]
    constructor
    · intro h u hu v hv'
      obtain ⟨i, hi, rfl⟩ := List.getElem_of_mem hu
      obtain ⟨j, hj, rfl⟩ := List.getElem_of_mem hv'
      have := congrFun (congrFun h ⟨i, hi⟩) ⟨j, hj⟩
      simpa [List.getD_eq_getElem _ _ hi, List.getD_eq_getElem _ _ hj] using this
    · intro h
      ext i j
      simp only [of_apply, Matrix.zero_apply, List.getD_eq_getElem _ _ i.2, List.getD_eq_getElem _ _ j.2]
      exact h _ (List.getElem_mem _) _ (List.getElem_mem _)

/-- Part of a covariance matrix of nonzero determinant has a nonzero determinant. -/
theorem det_part (w : BWorld ℝ) (b : Bunch ℝ) (vals : String → Nat → ℝ) (hw : ∀ i ∈ b.hits, 0 ≤ w.weight i)
    (cx cy : List String) (hD : (covOf b w vals (cx ++ cy)).det ≠ 0) :
    0 < (covOf b w vals cx).det ∧ 0 < (covOf b w vals cy).det := by
  have hpd := (covOf_psd w b vals hw (cx ++ cy)).posDef_iff_det_ne_zero.2 hD
  obtain ⟨e, he⟩ := covOf_append w b vals cx cy
  have hpd' := hpd.submatrix (e := e) e.injective
  rw [he] at hpd'
  obtain ⟨f1, f2, -⟩ := fischer _ _ _ hpd'
  exact ⟨f1, f2⟩

/-- **C123.** For a bunch without negative weights and a positive emittance in the axes, the emittance of
each axis alone exists and is positive, the emittance of all n axes to the power n is at most their product,
and equal to it exactly if no variable of an axis is correlated with a variable of another. -/
theorem C123_each {L : LinAlg ℝ} (hL : L.Lawful) (E : Ext ℝ) (w : BWorld ℝ) (b : Bunch ℝ)
    (hb : b.Normal w) (hmeans : b.means = [])
    (hW : ¬ |(b.hits.map w.weight).sum| < 1 / 1000000000) (hw : ∀ i ∈ b.hits, 0 ≤ w.weight i)
    (vals : String → Nat → ℝ) (m : ℝ) (hm : MassFor w b m) (hm0 : 0 < m) (axes moms : List String)
    (hmoms : List.Forall₂ (Conjugate w.geo) axes moms) (hne : axes ≠ [])
    (hv : ∀ i ∈ b.hits, ∀ p ∈ axes.zip moms, Bunch.hitNum E w i p.1 = .ok (vals p.1 i) ∧
      Bunch.hitNum E w i p.2 = .ok (vals p.2 i))
    (hD : (covOf b w vals ((axes.zip moms).flatMap fun p => [p.1, p.2])).det ≠ 0) :
    ∃ e es, Bunch.getEmittance L E w b axes none = .ok e ∧ 0 < e ∧
      List.Forall₂ (fun a x => Bunch.getEmittance L E w b [a] none = .ok x ∧ 0 < x) axes es ∧
      e ^ axes.length ≤ es.prod ∧
      (e ^ axes.length = es.prod ↔ (axes.zip moms).Pairwise fun p q =>
        wcov b w vals p.1 q.1 = 0 ∧ wcov b w vals p.1 q.2 = 0 ∧
        wcov b w vals p.2 q.1 = 0 ∧ wcov b w vals p.2 q.2 = 0) := by
  induction hmoms with
  | nil => exact absurd rfl hne
  | @cons a ma r mr h1 hr ih =>
    have hflat : ((a :: r).zip (ma :: mr)).flatMap (fun p => [p.1, p.2]) =
        [a, ma] ++ (r.zip mr).flatMap (fun p => [p.1, p.2]) := by simp
    rw [hflat] at hD
    obtain ⟨d1, d2⟩ := det_part w b vals hw _ _ hD
    have hva : ∀ i ∈ b.hits, ∀ v ∈ [a, ma], Bunch.hitNum E w i v = .ok (vals v i) := by
      intro i hi v hv'
      have := hv i hi (a, ma) (by simp)
      simp only [List.mem_cons, List.not_mem_nil, or_false] at hv'
      rcases hv' with rfl | rfl
      · exact this.1
      · exact this.2
    by_cases hr0 : r = []
    · subst hr0
      cases hr
      obtain ⟨_, e, _, _, -, -, -, x4, ⟨x5, x6⟩, -⟩ := amp_ok hL E w b hb hmeans hW vals [a] [ma] [a, ma]
        (by simp) (.cons h1 .nil) rfl hva d1 m hm
      have he : 0 < e := by
        rcases x5.lt_or_eq with h | h
        · exact pos_of_mul_pos_left h hm0.le
        · rw [← h, zero_pow (by simp)] at x6
          linarith
      exact ⟨e, [e], x4, he, .cons ⟨x4, he⟩ .nil, by simp, by simp⟩
    · obtain ⟨er, es, i1, i2, i3, i4, i5⟩ := ih hr0
        (fun i hi p hp => hv i hi p (by simpa using Or.inr hp)) d2.ne'
      obtain ⟨ea, er', e, j1, j2, j3, j4, -, j6, j7, j8⟩ := C123_planes hL E w b hb hmeans hW hw vals [a] r
        [ma] mr [a, ma] _ (by simp) hr0 (.cons h1 .nil) hr rfl rfl (by
          intro i hi v hv'
          rcases List.mem_append.1 hv' with h | h
          · exact hva i hi v h
          · obtain ⟨p, hp, hq⟩ := List.mem_flatMap.1 h
            have := hv i hi p (by simpa using Or.inr hp)
            simp only [List.mem_cons, List.not_mem_nil, or_false] at hq
            rcases hq with rfl | rfl
            · exact this.1
            · exact this.2) hD m hm hm0
      obtain rfl : er = er' := by
        rw [i1] at j2
        exact Except.ok.inj j2
      simp only [List.length_cons, List.length_nil, zero_add, pow_one, Nat.add_comm 1] at j7 j8
      have hle : ea * er ^ r.length ≤ ea * es.prod := mul_le_mul_of_nonneg_left i4 j4.le
      refine ⟨e, ea :: es, j3, j6, .cons ⟨j1, j4⟩ i3, ?_, ?_⟩
      · rw [List.prod_cons, List.length_cons]
        exact j7.trans hle
      · rw [List.prod_cons, List.length_cons, List.zip_cons_cons, List.pairwise_cons, ← i5]
        have hcor : (∀ u ∈ [a, ma], ∀ v ∈ (r.zip mr).flatMap (fun p => [p.1, p.2]), wcov b w vals u v = 0) ↔
            ∀ q ∈ r.zip mr, wcov b w vals a q.1 = 0 ∧ wcov b w vals a q.2 = 0 ∧
              wcov b w vals ma q.1 = 0 ∧ wcov b w vals ma q.2 = 0 := by
          constructor
          · intro h q hq
            exact ⟨h a (by simp) _ (List.mem_flatMap.2 ⟨q, hq, by simp⟩),
              h a (by simp) _ (List.mem_flatMap.2 ⟨q, hq, by simp⟩),
              h ma (by simp) _ (List.mem_flatMap.2 ⟨q, hq, by simp⟩),
              h ma (by simp) _ (List.mem_flatMap.2 ⟨q, hq, by simp⟩)⟩
          · intro h u hu v hv'
            obtain ⟨q, hq, hq'⟩ := List.mem_flatMap.1 hv'
            obtain ⟨k1, k2, k3, k4⟩ := h q hq
            simp only [List.mem_cons, List.not_mem_nil, or_false] at hu hq'
            rcases hu with rfl | rfl <;> rcases hq' with rfl | rfl <;> assumption
        rw [← hcor, ← j8]
        constructor
        · intro h
          have k1 : e ^ (r.length + 1) = ea * er ^ r.length := le_antisymm j7 (by rw [h]; exact hle)
          exact ⟨k1, mul_left_cancel₀ j4.ne' (k1.symm.trans h)⟩
        · rintro ⟨k1, k2⟩
          rw [k1, k2]

/-! ### a case: eight hits with x and y correlated -/

/-- eight hits: x = y = ±1, px = ±1, y = ±1, py = ±1 -/
noncomputable def tiltWorld : BWorld ℝ :=
  { hits := fun i => ⟨fun v => match v with
      | .x => [1, -1, 0, 0, 0, 0, 0, 0].getD i 0
      | .px => [0, 0, 1, -1, 0, 0, 0, 0].getD i 0
      | .y => [1, -1, 0, 0, 1, -1, 0, 0].getD i 0
      | .py => [0, 0, 0, 0, 0, 0, 1, -1].getD i 0
      | .pz => 2 | .mass => 1 | .local_weight => 1 | _ => 0, fun _ => 0⟩
    ctx := fun _ => WC.new, hcur := 0, bcur := 0, geo := false }

/-- the values of the eight hits -/
noncomputable def tiltVals (v : String) (i : Nat) : ℝ :=
  if v = "x" then (tiltWorld.hits i).d .x else if v = "px" then (tiltWorld.hits i).d .px
  else if v = "y" then (tiltWorld.hits i).d .y else (tiltWorld.hits i).d .py

theorem tilt_weight (i : Nat) : tiltWorld.weight i = 1 := by
  simp [BWorld.weight, BWorld.hview, HS.userWeight, tiltWorld, WC.new, WC.getWeight, WMap.find]

theorem tilt_values (i : Nat) : ∀ v ∈ ["x", "px", "y", "py"],
    Bunch.hitNum realExt tiltWorld i v = .ok (tiltVals v i) := by
  intro v hv
  simp only [List.mem_cons, List.not_mem_nil, or_false] at hv
  rcases hv with rfl | rfl | rfl | rfl <;> rfl

theorem tilt_x (i : Nat) : tiltVals "x" i = [1, -1, 0, 0, 0, 0, 0, 0].getD i 0 := rfl
theorem tilt_px (i : Nat) : tiltVals "px" i = [0, 0, 1, -1, 0, 0, 0, 0].getD i 0 := rfl
theorem tilt_y (i : Nat) : tiltVals "y" i = [1, -1, 0, 0, 1, -1, 0, 0].getD i 0 := rfl
theorem tilt_py (i : Nat) : tiltVals "py" i = [0, 0, 0, 0, 0, 0, 1, -1].getD i 0 := rfl

theorem tilt_cov : covOf twiceBunch tiltWorld tiltVals ["x", "px", "y", "py"] =
    (!![1 / 4, 0, 1 / 4, 0; 0, 1 / 4, 0, 0; 1 / 4, 0, 1 / 2, 0; 0, 0, 0, 1 / 4] : Matrix (Fin 4) (Fin 4) ℝ) := by
  ext i j
  change Fin 4 at i j
  fin_cases i <;> fin_cases j <;>
    simp [covOf, wcov, wmoment, wmean, twiceBunch, tilt_x, tilt_px, tilt_y, tilt_py, tilt_weight] <;>
    norm_num

theorem tilt_det : (covOf twiceBunch tiltWorld tiltVals ["x", "px", "y", "py"]).det ≠ 0 := by
  rw [tilt_cov]
  show Matrix.det (n := Fin 4) _ ≠ 0
  simp [Matrix.det_succ_row_zero, Fin.sum_univ_succ, Fin.succAbove]
  norm_num

/-- the emittance in x and y together is smaller than the emittances in x and in y suggest -/
example : ∃ ex ey exy, Bunch.getEmittance realLin realExt tiltWorld twiceBunch ["x"] none = .ok ex ∧
    Bunch.getEmittance realLin realExt tiltWorld twiceBunch ["y"] none = .ok ey ∧
    Bunch.getEmittance realLin realExt tiltWorld twiceBunch ["x", "y"] none = .ok exy ∧
    exy ^ 2 < ex * ey := by
  obtain ⟨ex, ey, exy, h1, h2, h3, -, -, -, h4, h5⟩ := C123_planes realLin_lawful realExt tiltWorld twiceBunch
    ⟨rfl, rfl, rfl⟩ rfl (by simp only [twiceBunch, List.map_cons, List.map_nil, tilt_weight]; norm_num)
    (fun i _ => by rw [tilt_weight]; norm_num) tiltVals ["x"] ["y"] ["px"] ["py"] ["x", "px"] ["y", "py"]
    (by simp) (by simp) (.cons (by simp [Conjugate, tiltWorld]) .nil)
    (.cons (by simp [Conjugate, tiltWorld]) .nil) rfl rfl (fun i _ => tilt_values i) tilt_det 1
    ⟨one_ne_zero, ⟨0, rfl, rfl⟩⟩ one_pos
  refine ⟨ex, ey, exy, h1, h2, h3, ?_⟩
  simp only [List.length_cons, List.length_nil, zero_add, pow_one, Nat.reduceAdd] at h4 h5
  refine lt_of_le_of_ne h4 fun he => ?_
  have h6 := h5.1 he "x" (by simp) "y" (by simp)
  simp only [wcov, wmoment, wmean, twiceBunch, tilt_x, tilt_y, List.map_cons, List.map_nil, tilt_weight] at h6
  norm_num at h6

/-- the same for each axis alone -/
example : ∃ e ex ey, Bunch.getEmittance realLin realExt tiltWorld twiceBunch ["x", "y"] none = .ok e ∧
    Bunch.getEmittance realLin realExt tiltWorld twiceBunch ["x"] none = .ok ex ∧
    Bunch.getEmittance realLin realExt tiltWorld twiceBunch ["y"] none = .ok ey ∧ e ^ 2 ≤ ex * ey := by
  obtain ⟨e, es, h1, -, h3, h4, -⟩ := C123_each realLin_lawful realExt tiltWorld twiceBunch
    ⟨rfl, rfl, rfl⟩ rfl (by simp only [twiceBunch, List.map_cons, List.map_nil, tilt_weight]; norm_num)
    (fun i _ => by rw [tilt_weight]; norm_num) tiltVals 1 ⟨one_ne_zero, ⟨0, rfl, rfl⟩⟩ one_pos ["x", "y"]
    ["px", "py"] (.cons (by simp [Conjugate, tiltWorld]) (.cons (by simp [Conjugate, tiltWorld]) .nil))
    (by simp) (fun i _ p hp => by
      simp only [List.zip_cons_cons, List.zip_nil_left, List.mem_cons, List.not_mem_nil, or_false] at hp
      rcases hp with rfl | rfl
      · exact ⟨tilt_values i _ (by simp), tilt_values i _ (by simp)⟩
      · exact ⟨tilt_values i _ (by simp), tilt_values i _ (by simp)⟩) tilt_det
  cases h3 with
  | cons a1 h3 =>
    cases h3 with
    | cons a2 h3 =>
      cases h3
      exact ⟨e, _, _, h1, a1.1, a2.1, by simpa using h4⟩

end Xboa.Planes
