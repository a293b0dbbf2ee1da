import Verif.Props.BunchRelative
import Verif.Props.PlaneEmittance
import Mathlib.Analysis.MeanInequalities
import Mathlib.Analysis.Matrix.Spectrum
import Mathlib.Tactic.FieldSimp
/-
C124: the emittance of the hits of two bunches put in one bunch.
-/
set_option linter.unusedSectionVars false
namespace Xboa.Joined
open Amp Matrix Planes
open scoped MatrixOrder

/-! ### Determinants -/
section mix
variable {n : Type} [Fintype n] [DecidableEq n]

theorem det_one_mix (H : Matrix n n ℝ) (hH : H.PosSemidef) (s t : ℝ) :
    (s • (1 : Matrix n n ℝ) + t • H).det = ∏ i, (s + t * hH.1.eigenvalues i) := by
  have h : s • (1 : Matrix n n ℝ) + t • H = Unitary.conjStarAlgAut ℝ _ hH.1.eigenvectorUnitary
      (s • 1 + t • diagonal (RCLike.ofReal ∘ hH.1.eigenvalues)) := by
    rw [map_add, map_smul, map_smul, map_one, ← hH.1.spectral_theorem]
  have hu : (hH.1.eigenvectorUnitary : Matrix n n ℝ) * star (hH.1.eigenvectorUnitary : Matrix n n ℝ) = 1 :=
    Unitary.coe_mul_star_self _
  have hd : (hH.1.eigenvectorUnitary : Matrix n n ℝ).det *
      (star (hH.1.eigenvectorUnitary : Matrix n n ℝ)).det = 1 := by rw [← det_mul, hu, det_one]
  rw [h, Unitary.conjStarAlgAut_apply, det_mul, det_mul]
  have hdiag : s • (1 : Matrix n n ℝ) + t • diagonal (RCLike.ofReal ∘ hH.1.eigenvalues) =
      diagonal fun i => s + t * hH.1.eigenvalues i := by
    ext i j
    by_cases hij : i = j
    · subst hij
      simp
    · simp [hij]
  rw [hdiag, det_diagonal]
  linear_combination (∏ i, (s + t * hH.1.eigenvalues i)) * hd

/-- The determinant of a mean of positive definite matrices is at least the geometric mean. -/
theorem det_mix (A B : Matrix n n ℝ) (hA : A.PosDef) (hB : B.PosDef) (s t : ℝ) (hs : 0 < s) (ht : 0 < t)
    (hst : s + t = 1) : A.det ^ s * B.det ^ t ≤ (s • A + t • B).det := by
  obtain ⟨C, hC⟩ := CStarAlgebra.nonneg_iff_eq_star_mul_self.mp hA.posSemidef.nonneg
  rw [star_eq_conjTranspose] at hC
  have hCd : A.det = C.det ^ 2 := by
    rw [hC, det_mul, det_conjTranspose, star_trivial]; ring
  have hC0 : C.det ≠ 0 := by
    intro h
    have := hA.det_pos
    rw [hCd, h] at this
    norm_num at this
  have hCu := hC0.isUnit
  have hCt : IsUnit (Cᴴ).det := by rw [det_conjTranspose, star_trivial]; exact hCu
  have hH : ((C⁻¹)ᴴ * B * C⁻¹).PosSemidef := hB.posSemidef.conjTranspose_mul_mul_same _
  have hBC : Cᴴ * ((C⁻¹)ᴴ * B * C⁻¹) * C = B := by
    rw [conjTranspose_nonsing_inv, Matrix.mul_assoc, Matrix.mul_assoc _ C⁻¹ C, nonsing_inv_mul _ hCu,
      Matrix.mul_one, ← Matrix.mul_assoc, mul_nonsing_inv _ hCt, Matrix.one_mul]
  generalize (C⁻¹)ᴴ * B * C⁻¹ = H at hH hBC
  have hmix : s • A + t • B = Cᴴ * (s • 1 + t • H) * C := by
    rw [Matrix.mul_add, Matrix.add_mul, Matrix.mul_smul, Matrix.smul_mul, Matrix.mul_one, ← hC,
      Matrix.mul_smul, Matrix.smul_mul, hBC]
  have hBd : B.det = A.det * H.det := by
    rw [← hBC, det_mul, det_mul, det_conjTranspose, star_trivial, hCd]; ring
  have hev := hH.eigenvalues_nonneg
  have hHd : H.det = ∏ i, hH.1.eigenvalues i := by
    simpa using hH.1.det_eq_prod_eigenvalues
  have hAp := hA.det_pos
  have hH0 : 0 ≤ H.det := by rw [hHd]; exact Finset.prod_nonneg fun i _ => hev i
  calc A.det ^ s * B.det ^ t = A.det * H.det ^ t := by
        rw [hBd, Real.mul_rpow hAp.le hH0, ← mul_assoc, ← Real.rpow_add hAp, hst, Real.rpow_one]
    _ ≤ A.det * ∏ i, (s + t * hH.1.eigenvalues i) := by
        refine mul_le_mul_of_nonneg_left ?_ hAp.le
        rw [hHd, ← Real.finsetProd_rpow _ _ fun i _ => hev i]
        refine Finset.prod_le_prod (fun i _ => Real.rpow_nonneg (hev i) _) fun i _ => ?_
        have := Real.geom_mean_le_arith_mean2_weighted hs.le ht.le zero_le_one (hev i) hst
        simpa using this
    _ = (s • A + t • B).det := by
        rw [hmix, det_mul, det_mul, det_one_mix H hH, det_conjTranspose, star_trivial, hCd]; ring

end mix

/-! ### The covariances -/

theorem wcov_join (w : BWorld ℝ) (b₁ b₂ b : Bunch ℝ) (vals : String → Nat → ℝ)
    (hb : b.hits.Perm (b₁.hits ++ b₂.hits)) (n1 : 0 < (b₁.hits.map w.weight).sum)
    (n2 : 0 < (b₂.hits.map w.weight).sum) (u v : String) :
    let W₁ := (b₁.hits.map w.weight).sum
    let W₂ := (b₂.hits.map w.weight).sum
    let d := fun x => wmean b₁.hits w.weight (vals x) - wmean b₂.hits w.weight (vals x)
    wcov b w vals u v = W₁ / (W₁ + W₂) * wcov b₁ w vals u v + W₂ / (W₁ + W₂) * wcov b₂ w vals u v +
      W₁ * W₂ / (W₁ + W₂) ^ 2 * (d u * d v) := by
  intro W₁ W₂ d
  have n1' : W₁ ≠ 0 := n1.ne'
  have n2' : W₂ ≠ 0 := n2.ne'
  have n3 : W₁ + W₂ ≠ 0 := (add_pos n1 n2).ne'
  have hWsum : (b.hits.map w.weight).sum = W₁ + W₂ := by rw [(hb.map _).sum_eq]; simp [W₁, W₂]
  have hmean : ∀ f : Nat → ℝ, wmean b.hits w.weight f =
      (W₁ * wmean b₁.hits w.weight f + W₂ * wmean b₂.hits w.weight f) / (W₁ + W₂) := by
    intro f
    unfold wmean
    rw [hWsum, mul_div_cancel₀ _ n1', mul_div_cancel₀ _ n2', (hb.map _).sum_eq]
    simp
  have hsplit : ∀ x y : ℝ, (b.hits.map (fun k => w.weight k * ((vals u k - x) * (vals v k - y)))).sum =
      (b₁.hits.map (fun k => w.weight k * ((vals u k - x) * (vals v k - y)))).sum +
      (b₂.hits.map (fun k => w.weight k * ((vals u k - x) * (vals v k - y)))).sum := by
    intro x y; rw [(hb.map _).sum_eq]; simp
  unfold wcov
  simp only [wmoment_pair, hsplit]
  rw [wmean_cross b₁.hits w.weight _ _ _ _ n1', wmean_cross b₂.hits w.weight _ _ _ _ n2', hWsum, hmean, hmean]
  change _ = W₁ / (W₁ + W₂) * (_ / W₁) + W₂ / (W₁ + W₂) * (_ / W₂) + _
  simp only [d]
  change (_ + W₁ * _ + (_ + W₂ * _)) / _ = _
  field_simp
  ring

/-- **C124.** For two bunches with nonnegative weights and a positive emittance and first hits of the same
mass, the emittance of the hits of both in one bunch, in any order, exists and is at least the geometric
mean of the two emittances weighted with the weights of the bunches, so at least the smaller of the two; it
is greater than this mean if the means of a position or momentum differ. -/
theorem C124_join {L : LinAlg ℝ} (hL : L.Lawful) (E : Ext ℝ) (w : BWorld ℝ) (b₁ b₂ b : Bunch ℝ)
    (vals : String → Nat → ℝ) (axes moms cl : List String) (hax : axes ≠ [])
    (hmoms : List.Forall₂ (Conjugate w.geo) axes moms)
    (hcl : cl = (axes.zip moms).flatMap fun p => [p.1, p.2])
    (hb : b.hits.Perm (b₁.hits ++ b₂.hits)) (h₁ : Readable E cl w b₁ vals) (h₂ : Readable E cl w b₂ vals)
    (h : b.Normal w) (hmeans : b.means = []) (hw : ∀ i ∈ b.hits, 0 ≤ w.weight i)
    (hD₁ : (covOf b₁ w vals cl).det ≠ 0) (hD₂ : (covOf b₂ w vals cl).det ≠ 0)
    (m : ℝ) (hm₁ : MassFor w b₁ m) (hm₂ : MassFor w b₂ m) (hm : MassFor w b m) (hm0 : 0 < m) :
    ∃ W₁ W₂ e₁ e₂ e, Bunch.bunchWeight w b₁ = W₁ ∧ Bunch.bunchWeight w b₂ = W₂ ∧ 0 < W₁ ∧ 0 < W₂ ∧
      Bunch.getEmittance L E w b₁ axes none = .ok e₁ ∧ Bunch.getEmittance L E w b₂ axes none = .ok e₂ ∧
      Bunch.getEmittance L E w b axes none = .ok e ∧ 0 < e₁ ∧ 0 < e₂ ∧
      e₁ ^ (W₁ / (W₁ + W₂)) * e₂ ^ (W₂ / (W₁ + W₂)) ≤ e ∧ min e₁ e₂ ≤ e ∧
      ((∃ v ∈ cl, wmean b₁.hits w.weight (vals v) ≠ wmean b₂.hits w.weight (vals v)) →
        e₁ ^ (W₁ / (W₁ + W₂)) * e₂ ^ (W₂ / (W₁ + W₂)) < e) := by
  have hw₁ : ∀ i ∈ b₁.hits, 0 ≤ w.weight i := fun i hi => hw i (hb.mem_iff.2 (List.mem_append_left _ hi))
  have hw₂ : ∀ i ∈ b₂.hits, 0 ≤ w.weight i := fun i hi => hw i (hb.mem_iff.2 (List.mem_append_right _ hi))
  have hpos : ∀ c : Bunch ℝ, (∀ i ∈ c.hits, 0 ≤ w.weight i) →
      ¬ |(c.hits.map w.weight).sum| < 1 / 1000000000 → 1 / 1000000000 ≤ (c.hits.map w.weight).sum := by
    intro c hc hn
    have h0 : 0 ≤ (c.hits.map w.weight).sum := by
      apply List.sum_nonneg
      intro y hy
      obtain ⟨s, hs', rfl⟩ := List.mem_map.mp hy
      exact hc s hs'
    rwa [abs_of_nonneg h0, not_lt] at hn
  have g1 := hpos b₁ hw₁ h₁.heavy
  have g2 := hpos b₂ hw₂ h₂.heavy
  have p1 : 0 < (b₁.hits.map w.weight).sum := by linarith
  have p2 : 0 < (b₂.hits.map w.weight).sum := by linarith
  have hWsum : (b.hits.map w.weight).sum = (b₁.hits.map w.weight).sum + (b₂.hits.map w.weight).sum := by
    rw [(hb.map _).sum_eq]; simp
  have hheavy : ¬ |(b.hits.map w.weight).sum| < 1 / 1000000000 := by
    rw [hWsum, abs_of_pos (by linarith)]; linarith
  have hv : ∀ i ∈ b.hits, ∀ v ∈ cl, Bunch.hitNum E w i v = .ok (vals v i) := by
    intro i hi v hv'
    rcases List.mem_append.1 (hb.mem_iff.1 hi) with hi | hi
    · exact h₁.vals i hi v hv'
    · exact h₂.vals i hi v hv'
  have d1 := ((covOf_psd w b₁ vals hw₁ cl).posDef_iff_det_ne_zero.2 hD₁)
  have d2 := ((covOf_psd w b₂ vals hw₂ cl).posDef_iff_det_ne_zero.2 hD₂)
  set W₁ := (b₁.hits.map w.weight).sum with hW₁
  set W₂ := (b₂.hits.map w.weight).sum with hW₂
  have p3 : 0 < W₁ + W₂ := add_pos p1 p2
  have hs : 0 < W₁ / (W₁ + W₂) := div_pos p1 p3
  have ht : 0 < W₂ / (W₁ + W₂) := div_pos p2 p3
  have hst : W₁ / (W₁ + W₂) + W₂ / (W₁ + W₂) = 1 := by field_simp
  have hmix := det_mix _ _ d1 d2 _ _ hs ht hst
  have hPpd : ((W₁ / (W₁ + W₂)) • covOf b₁ w vals cl + (W₂ / (W₁ + W₂)) • covOf b₂ w vals cl).PosDef :=
    (d1.smul hs).add (d2.smul ht)
  obtain ⟨q1, q2, q3⟩ := det_add_one _ hPpd fun i : Fin cl.length => Real.sqrt (W₁ * W₂ / (W₁ + W₂) ^ 2) *
    (wmean b₁.hits w.weight (vals (cl.getD i "")) - wmean b₂.hits w.weight (vals (cl.getD i "")))
  have hcov : (W₁ / (W₁ + W₂)) • covOf b₁ w vals cl + (W₂ / (W₁ + W₂)) • covOf b₂ w vals cl +
      vecMulVec (fun i : Fin cl.length => Real.sqrt (W₁ * W₂ / (W₁ + W₂) ^ 2) *
        (wmean b₁.hits w.weight (vals (cl.getD i "")) - wmean b₂.hits w.weight (vals (cl.getD i ""))))
      (star fun i : Fin cl.length => Real.sqrt (W₁ * W₂ / (W₁ + W₂) ^ 2) *
        (wmean b₁.hits w.weight (vals (cl.getD i "")) - wmean b₂.hits w.weight (vals (cl.getD i "")))) =
      covOf b w vals cl := by
    ext i j
    have hj := wcov_join w b₁ b₂ b vals hb p1 p2 (cl.getD i "") (cl.getD j "")
    simp only [← hW₁, ← hW₂] at hj
    simp only [Matrix.add_apply, Matrix.smul_apply, smul_eq_mul, vecMulVec_apply, star_trivial, covOf, of_apply]
    rw [hj]
    have hq := Real.mul_self_sqrt (show 0 ≤ W₁ * W₂ / (W₁ + W₂) ^ 2 by positivity)
    linear_combination ((wmean b₁.hits w.weight (vals (cl.getD i "")) -
      wmean b₂.hits w.weight (vals (cl.getD i ""))) * (wmean b₁.hits w.weight (vals (cl.getD j "")) -
      wmean b₂.hits w.weight (vals (cl.getD j "")))) * hq
  rw [hcov] at q1 q2 q3
  obtain ⟨_, e₁, _, _, -, -, -, x4, ⟨x5, x6⟩, -⟩ := amp_ok hL E w b₁ h₁.normal h₁.means h₁.heavy vals axes
    moms cl hax hmoms hcl h₁.vals d1.det_pos m hm₁
  obtain ⟨_, e₂, _, _, -, -, -, y4, ⟨y5, y6⟩, -⟩ := amp_ok hL E w b₂ h₂.normal h₂.means h₂.heavy vals axes
    moms cl hax hmoms hcl h₂.vals d2.det_pos m hm₂
  obtain ⟨_, e, _, _, -, -, -, z4, ⟨z5, z6⟩, -⟩ := amp_ok hL E w b h hmeans hheavy vals axes
    moms cl hax hmoms hcl hv q1.det_pos m hm
  have hk : cl.length ≠ 0 := by
    rw [hcl]
    cases hmoms with
    | nil => exact absurd rfl hax
    | cons => simp
  have pos : ∀ (eps d : ℝ), 0 ≤ eps * m → (eps * m) ^ cl.length = d → 0 < d → 0 < eps := by
    intro eps d h1 h3 h4
    rcases h1.lt_or_eq with h | h
    · exact pos_of_mul_pos_left h hm0.le
    · rw [← h, zero_pow hk] at h3
      linarith
  have r1 := pos e₁ _ x5 x6 d1.det_pos
  have r2 := pos e₂ _ y5 y6 d2.det_pos
  have hsw : ∀ (x s : ℝ), 0 ≤ x → (x ^ cl.length) ^ s = (x ^ s) ^ cl.length := by
    intro x s hx
    rw [← Real.rpow_natCast, ← Real.rpow_natCast, ← Real.rpow_mul hx, ← Real.rpow_mul hx, mul_comm]
  have hmm : m ^ (W₁ / (W₁ + W₂)) * m ^ (W₂ / (W₁ + W₂)) = m := by
    rw [← Real.rpow_add hm0, hst, Real.rpow_one]
  have hprod : (e₁ * m) ^ (W₁ / (W₁ + W₂)) * (e₂ * m) ^ (W₂ / (W₁ + W₂)) =
      e₁ ^ (W₁ / (W₁ + W₂)) * e₂ ^ (W₂ / (W₁ + W₂)) * m := by
    rw [Real.mul_rpow r1.le hm0.le, Real.mul_rpow r2.le hm0.le]
    linear_combination (e₁ ^ (W₁ / (W₁ + W₂)) * e₂ ^ (W₂ / (W₁ + W₂))) * hmm
  have hdets : (covOf b₁ w vals cl).det ^ (W₁ / (W₁ + W₂)) * (covOf b₂ w vals cl).det ^ (W₂ / (W₁ + W₂)) =
      (e₁ ^ (W₁ / (W₁ + W₂)) * e₂ ^ (W₂ / (W₁ + W₂)) * m) ^ cl.length := by
    rw [← x6, ← y6, hsw _ _ x5, hsw _ _ y5, ← mul_pow, hprod]
  have hgeo : e₁ ^ (W₁ / (W₁ + W₂)) * e₂ ^ (W₂ / (W₁ + W₂)) ≤ e := by
    have hle := hmix.trans q2
    rw [hdets, ← z6] at hle
    exact le_of_mul_le_mul_right ((pow_le_pow_iff_left₀ (by positivity) z5 hk).1 hle) hm0
  refine ⟨W₁, W₂, e₁, e₂, e, by rw [Bunch.bunchWeight_eq], by rw [Bunch.bunchWeight_eq], p1, p2, x4, y4, z4,
    r1, r2, hgeo, le_trans ?_ hgeo, ?_⟩
  · have hmin : 0 < min e₁ e₂ := lt_min r1 r2
    calc min e₁ e₂ = min e₁ e₂ ^ (W₁ / (W₁ + W₂)) * min e₁ e₂ ^ (W₂ / (W₁ + W₂)) := by
          rw [← Real.rpow_add hmin, hst, Real.rpow_one]
      _ ≤ _ := mul_le_mul (Real.rpow_le_rpow hmin.le (min_le_left _ _) hs.le)
          (Real.rpow_le_rpow hmin.le (min_le_right _ _) ht.le) (by positivity) (by positivity)
  · rintro ⟨v, hv', hne⟩
    refine lt_of_le_of_ne hgeo fun heq => hne ?_
    rw [hdets, heq, z6] at hmix
    obtain ⟨i, hi, rfl⟩ := List.getElem_of_mem hv'
    have hc := congrFun (q3 (le_antisymm q2 hmix)) ⟨i, hi⟩
    have hq : Real.sqrt (W₁ * W₂ / (W₁ + W₂) ^ 2) ≠ 0 := (Real.sqrt_pos.2 (by positivity)).ne'
    have := (mul_eq_zero.1 hc).resolve_left hq
    rw [List.getD_eq_getElem _ _ hi] at this
    exact sub_eq_zero.1 this

/-! ### a case: the eight hits, four in each bunch -/

/-- the first four of the eight hits -/
def firstHalf : Bunch ℝ := ⟨[0, 1, 2, 3], [0, 1, 2, 3].map some, none, []⟩

/-- the other four -/
def secondHalf : Bunch ℝ := ⟨[4, 5, 6, 7], [4, 5, 6, 7].map some, none, []⟩

theorem half_x (i : Nat) : twiceVals "x" i = [1, -1, 0, 0, 20 / 21, -20 / 21, 0, 0].getD i 0 := rfl
theorem half_px (i : Nat) : twiceVals "px" i = [0, 0, 1, -1, 0, 0, 4 / 3, -4 / 3].getD i 0 := rfl

theorem half_det : (covOf firstHalf twiceWorld twiceVals ["x", "px"]).det ≠ 0 ∧
    (covOf secondHalf twiceWorld twiceVals ["x", "px"]).det ≠ 0 := by
  rw [det_two, det_two]
  constructor <;>
    simp only [wcov, wmoment, wmean, firstHalf, secondHalf, half_x, half_px, List.map_cons, List.map_nil,
      twice_weight] <;> norm_num

example : ∃ e₁ e₂ e, Bunch.getEmittance realLin realExt twiceWorld firstHalf ["x"] none = .ok e₁ ∧
    Bunch.getEmittance realLin realExt twiceWorld secondHalf ["x"] none = .ok e₂ ∧
    Bunch.getEmittance realLin realExt twiceWorld twiceBunch ["x"] none = .ok e ∧ 0 < e₁ ∧ 0 < e₂ ∧
    min e₁ e₂ ≤ e := by
  obtain ⟨_, _, e₁, e₂, e, -, -, -, -, h1, h2, h3, h4, h5, -, h6, -⟩ := C124_join realLin_lawful realExt twiceWorld
    firstHalf secondHalf twiceBunch twiceVals ["x"] ["px"] ["x", "px"] (by simp) twice_conj rfl (.refl _)
    ⟨⟨rfl, rfl, rfl⟩, rfl, by
      simp only [firstHalf, List.map_cons, List.map_nil, twice_weight]; norm_num, fun i _ => twice_values i⟩
    ⟨⟨rfl, rfl, rfl⟩, rfl, by
      simp only [secondHalf, List.map_cons, List.map_nil, twice_weight]; norm_num, fun i _ => twice_values i⟩
    ⟨rfl, rfl, rfl⟩ rfl (fun i _ => by rw [twice_weight]; norm_num) half_det.1 half_det.2 1
    ⟨one_ne_zero, ⟨0, rfl, rfl⟩⟩ ⟨one_ne_zero, ⟨4, rfl, rfl⟩⟩ twice_mass one_pos
  exact ⟨e₁, e₂, e, h1, h2, h3, h4, h5, h6⟩

/-- eight hits, the last four displaced by 2 in x -/
noncomputable def apartWorld : BWorld ℝ :=
  { hits := fun i => ⟨fun v => match v with
      | .x => [1, -1, 0, 0, 3, 1, 2, 2].getD i 0
      | .px => [0, 0, 1, -1, 0, 0, 1, -1].getD i 0
      | .pz => 2 | .mass => 1 | .local_weight => 1 | _ => 0, fun _ => 0⟩
    ctx := fun _ => WC.new, hcur := 0, bcur := 0, geo := false }

/-- the values of x and px of the eight hits -/
noncomputable def apartVals (v : String) (i : Nat) : ℝ :=
  if v = "x" then (apartWorld.hits i).d .x else (apartWorld.hits i).d .px

theorem apart_weight (i : Nat) : apartWorld.weight i = 1 := by
  simp [BWorld.weight, BWorld.hview, HS.userWeight, apartWorld, WC.new, WC.getWeight, WMap.find]

theorem apart_values (i : Nat) : ∀ v ∈ ["x", "px"],
    Bunch.hitNum realExt apartWorld i v = .ok (apartVals v i) := by
  intro v hv
  simp only [List.mem_cons, List.not_mem_nil, or_false] at hv
  rcases hv with rfl | rfl <;> rfl

theorem apart_x (i : Nat) : apartVals "x" i = [1, -1, 0, 0, 3, 1, 2, 2].getD i 0 := rfl
theorem apart_px (i : Nat) : apartVals "px" i = [0, 0, 1, -1, 0, 0, 1, -1].getD i 0 := rfl

theorem apart_det : (covOf firstHalf apartWorld apartVals ["x", "px"]).det ≠ 0 ∧
    (covOf secondHalf apartWorld apartVals ["x", "px"]).det ≠ 0 := by
  rw [det_two, det_two]
  constructor <;>
    simp only [wcov, wmoment, wmean, firstHalf, secondHalf, apart_x, apart_px, List.map_cons, List.map_nil,
      apart_weight] <;> norm_num

/-- two bunches at different places: the emittance grows -/
example : ∃ W₁ W₂ e₁ e₂ e : ℝ, Bunch.getEmittance realLin realExt apartWorld firstHalf ["x"] none = .ok e₁ ∧
    Bunch.getEmittance realLin realExt apartWorld secondHalf ["x"] none = .ok e₂ ∧
    Bunch.getEmittance realLin realExt apartWorld twiceBunch ["x"] none = .ok e ∧
    e₁ ^ (W₁ / (W₁ + W₂)) * e₂ ^ (W₂ / (W₁ + W₂)) < e := by
  obtain ⟨W₁, W₂, e₁, e₂, e, -, -, -, -, h1, h2, h3, -, -, -, -, h6⟩ := C124_join realLin_lawful realExt
    apartWorld firstHalf secondHalf twiceBunch apartVals ["x"] ["px"] ["x", "px"] (by simp)
    (.cons (by simp [Conjugate, apartWorld]) .nil) rfl (.refl _)
    ⟨⟨rfl, rfl, rfl⟩, rfl, by
      simp only [firstHalf, List.map_cons, List.map_nil, apart_weight]; norm_num, fun i _ => apart_values i⟩
    ⟨⟨rfl, rfl, rfl⟩, rfl, by
      simp only [secondHalf, List.map_cons, List.map_nil, apart_weight]; norm_num, fun i _ => apart_values i⟩
    ⟨rfl, rfl, rfl⟩ rfl (fun i _ => by rw [apart_weight]; norm_num) apart_det.1 apart_det.2 1
    ⟨one_ne_zero, ⟨0, rfl, rfl⟩⟩ ⟨one_ne_zero, ⟨4, rfl, rfl⟩⟩ ⟨one_ne_zero, ⟨0, rfl, rfl⟩⟩ one_pos
  refine ⟨W₁, W₂, e₁, e₂, e, h1, h2, h3, h6 ⟨"x", by simp, ?_⟩⟩
  simp only [wmean, firstHalf, secondHalf, apart_x, List.map_cons, List.map_nil, apart_weight]
  norm_num

end Xboa.Joined
