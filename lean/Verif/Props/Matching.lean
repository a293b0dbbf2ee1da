import Verif.Props.Invariants
import Verif.Props.BunchDerived
import Mathlib.Tactic.FieldSimp
import Mathlib.Tactic.LinearCombination
/-
C116: a bunch with the covariances of an ellipse that was built for some optics functions has these optics
functions.
-/
set_option linter.unusedSectionVars false
namespace Xboa.Matching
open Finset Invariants
variable {K : Type} [Field K] [LinearOrder K] [IsStrictOrderedRing K]

/-! ### specification -/

/-- The covariance matrix of the bunch in some variables is c times the matrix M. -/
def HasEllipse (E : Ext K) (w : BWorld K) (b : Bunch K) (vars : List String) (c : K) (M : Mat K) : Prop :=
  ∃ V, Bunch.covarianceMatrix E w b vars [] = .ok V ∧
    ∀ i j, i < vars.length → j < vars.length → V.entry i j = c * M.entry i j

/-- What the four optics functions of xboa return for the bunch. -/
def Returns (L : LinAlg K) (E : Ext K) (w : BWorld K) (b : Bunch K) (axes : List String) (geometric : Bool)
    (emittance beta alpha gamma : K) : Prop :=
  Bunch.getEmittance L E w b axes none = .ok emittance ∧
  Bunch.getBeta L E w b axes geometric = .ok beta ∧
  Bunch.getAlpha L E w b axes geometric = .ok alpha ∧
  Bunch.getGamma L E w b axes geometric = .ok gamma

/-! ### emittance -/

private theorem ok_bind {α β : Type} (a : α) (f : α → Except Err β) : (Except.ok a >>= f) = f a := rfl

section
variable {L : LinAlg K} (hL : L.Lawful) (E : Ext K) (w : BWorld K) (b : Bunch K) (hb : b.Normal w)
  (hmeans : b.means = []) (hW : ¬ |(b.hits.map w.weight).sum| < 1 / 1000000000) (vals : String → Nat → K)
include hL hb hmeans hW

omit hb hmeans hW in
theorem root_eq {n : Nat} (hn : n ≠ 0) {x e : K} (he : 0 ≤ e) (h : x = e ^ n) : L.root n x = e := by
  have hx : 0 ≤ x := by rw [h]; exact pow_nonneg he n
  exact (pow_left_inj₀ (hL.root_nonneg n x hx) he hn).mp ((hL.root_pow n x hn hx).trans h)

/-- the covariances and the determinant of a bunch that has an ellipse -/
theorem covs_of {cl : List String}
    (hv : ∀ i ∈ b.hits, ∀ v ∈ cl, Bunch.hitNum E w i v = .ok (vals v i)) {c : K} {M : Mat K}
    (h : HasEllipse E w b cl c M) :
    (∀ i j, i < cl.length → j < cl.length →
      wcov b w vals (cl.getD i "") (cl.getD j "") = c * M.entry i j) ∧
    ∃ V, Bunch.emitCov E w b cl none = .ok V ∧ V.rows = cl.length ∧ V.cols = cl.length ∧
      V.det = c ^ cl.length * (square cl.length M).det := by
  obtain ⟨V, h1, h2⟩ := h
  obtain ⟨V', g1, g2, g3, g4⟩ := Bunch.emitCov_ok E w b hb hmeans hW vals cl hv
  have hV : V' = V := by
    simp only [Bunch.emitCov, Bunch.covPicker, hb.covs, h1] at g1
    exact (Except.ok.inj g1).symm
  subst hV
  refine ⟨fun i j hi hj => (g4 i j hi hj).symm.trans (h2 i j hi hj), V', g1, g2, g3, ?_⟩
  obtain ⟨r, c', e⟩ := V'
  simp only at g2 g3 h2
  subst g2
  unfold Mat.det
  have : (Matrix.of fun i j : Fin cl.length => e i j) = c • square cl.length M := by
    ext i j
    simp only [Matrix.of_apply, Matrix.smul_apply, smul_eq_mul, square]
    exact h2 i j i.2 j.2
  simp only
  rw [this, Matrix.det_smul, Fintype.card_fin]

theorem emittance_normalised {axes cl : List String} (hne : cl ≠ []) (hg : w.geo = false)
    (hcl : Bunch.covList false axes = .ok cl) (V : Mat K) (hV : Bunch.emitCov E w b cl none = .ok V)
    (hr : V.rows = cl.length) (hc : V.cols = cl.length) (e mass : K) (hm : FirstMass w b mass) (hm0 : 0 < mass)
    (he : 0 ≤ e) (hdet : V.det = (e * mass) ^ cl.length) :
    Bunch.getEmittance L E w b axes none = .ok e := by
  have hn : cl.length ≠ 0 := fun h => hne (List.length_eq_zero_iff.mp h)
  have hroot := root_eq hL hn (mul_nonneg he hm0.le) hdet
  have hnn : ¬ V.det < 0 := by
    rw [hdet]; exact not_lt.mpr (pow_nonneg (mul_nonneg he hm0.le) _)
  obtain ⟨i, hi, hmi⟩ := hm
  cases hh : b.hits with
  | nil => rw [hh] at hi; cases hi
  | cons x r =>
    rw [hh] at hi
    cases hi
    unfold Bunch.getEmittance
    simp only [hg, hcl, hV, hr, hc, ne_eq, not_true, if_false, hn, hnn, hh, hmi, hm0.ne', hroot, Bool.false_eq_true,
      mul_div_assoc, div_self hm0.ne', mul_one]

theorem emittance_geometric {axes cl : List String} (hne : cl ≠ []) (hg : w.geo = true)
    (hcl : Bunch.covList true axes = .ok cl) (V : Mat K) (hV : Bunch.emitCov E w b cl none = .ok V)
    (hr : V.rows = cl.length) (hc : V.cols = cl.length) (e : K)
    (he : 0 ≤ e) (hdet : V.det = e ^ cl.length) :
    Bunch.getEmittance L E w b axes none = .ok e := by
  have hn : cl.length ≠ 0 := fun h => hne (List.length_eq_zero_iff.mp h)
  have hroot := root_eq hL hn he hdet
  have hnn : ¬ V.det < 0 := by
    rw [hdet]; exact not_lt.mpr (pow_nonneg he _)
  unfold Bunch.getEmittance
  simp only [hg, hcl, hV, hr, hc, ne_eq, not_true, if_false, hn, hnn, hroot, if_true]

/-! ### one plane -/

/-- **C116, one plane**: a bunch whose covariance matrix in a position and its momentum is c times the
matrix from `build_ellipse_2d(beta, alpha, emittance, p, mass, False)`, mass being the mass of its first
hit, has emittance c * emittance, alpha as asked for, and beta and gamma as asked for if its mean momentum
P is p; otherwise they are beta * P / p and gamma * p / P. -/
theorem C116_plane (hg : w.geo = false) (a q : String) (hq : Conjugate false a q)
    (hv : ∀ i ∈ b.hits, ∀ v ∈ [a, q], Bunch.hitNum E w i v = .ok (vals v i))
    (beta alpha emittance p mass : K) (hbeta : 0 < beta) (he : 0 < emittance) (hp : p ≠ 0) (hm0 : 0 < mass)
    (hm : FirstMass w b mass) (M : Mat K)
    (hM : Bunch.buildEllipse2d beta alpha emittance p mass false = .ok M) (c : K) (hc : 0 < c)
    (hell : HasEllipse E w b [a, q] c M) (P : K) (hP : Bunch.meanOf E w b "p" = .ok P) (hP0 : P ≠ 0) :
    Returns L E w b [a] false (c * emittance) (beta * P / p) alpha ((1 + alpha ^ 2) / beta * p / P) := by
  simp only [Bunch.buildEllipse2d, hbeta.ne', not_le.mpr hbeta, not_le.mpr he, hp, if_false,
    Except.ok.injEq, Bool.false_eq_true] at hM
  obtain ⟨hcov, V, v1, v2, v3, v4⟩ := covs_of hL E w b hb hmeans hW vals hv hell
  have caa := hcov 0 0 (by simp) (by simp)
  have caq := hcov 0 1 (by simp) (by simp)
  have cqq := hcov 1 1 (by simp) (by simp)
  subst hM
  simp only [List.getD_cons_zero, List.getD_cons_succ] at caa caq cqq
  simp at caa caq cqq
  have hcl : Bunch.covList false [a] = .ok [a, q] := by simp [Bunch.covList, hq.momVar]
  have hE : Bunch.getEmittance L E w b [a] none = .ok (c * emittance) := by
    refine emittance_normalised hL E w b hb hmeans hW (by simp) hg hcl V v1 v2 v3 _ mass hm hm0
      (mul_pos hc he).le ?_
    rw [v4]
    have : (square [a, q].length (⟨2, 2, fun i j => if i = 0 ∧ j = 0 then beta * emittance * mass / p
        else if i = 1 ∧ j = 1 then (1 + alpha ^ 2) / beta * emittance * mass * p else -alpha * emittance * mass⟩ :
          Mat K)).det = (emittance * mass) ^ 2 := by
      refine (Matrix.det_fin_two _).trans ?_
      simp [square]
      field_simp
      ring
    rw [this]
    show c ^ 2 * (emittance * mass) ^ 2 = (c * emittance * mass) ^ 2
    ring
  obtain ⟨o1, o2, o3⟩ := optics_values E w b hb hmeans hW vals a q hq hv mass (c * emittance) P ⟨hm, hm0.ne'⟩ hE
    (mul_pos hc he).ne' hP hP0
  refine ⟨hE, o1.trans ?_, o2.trans ?_, o3.trans ?_⟩
  · rw [caa]; congr 1; field_simp
  · rw [caq]; congr 1; field_simp
  · rw [cqq]; congr 1; field_simp

/-- **C116, one plane, geometric variables**: with `set_geometric_momentum(True)` a bunch whose covariance
matrix in a position and its slope is c times the matrix from `build_ellipse_2d(..., True)` has the optics
functions asked for, whatever its momentum. -/
theorem C116_geometric (hg : w.geo = true) (a q : String) (hq : Conjugate true a q)
    (hv : ∀ i ∈ b.hits, ∀ v ∈ [a, q], Bunch.hitNum E w i v = .ok (vals v i))
    (beta alpha emittance p mass : K) (hbeta : 0 < beta) (he : 0 < emittance) (M : Mat K)
    (hM : Bunch.buildEllipse2d beta alpha emittance p mass true = .ok M) (c : K) (hc : 0 < c)
    (hell : HasEllipse E w b [a, q] c M) :
    Returns L E w b [a] true (c * emittance) beta alpha ((1 + alpha ^ 2) / beta) := by
  simp only [Bunch.buildEllipse2d, hbeta.ne', not_le.mpr hbeta, not_le.mpr he, if_false,
    Except.ok.injEq, if_true] at hM
  obtain ⟨hcov, V, v1, v2, v3, v4⟩ := covs_of hL E w b hb hmeans hW vals hv hell
  have caa := hcov 0 0 (by simp) (by simp)
  have caq := hcov 0 1 (by simp) (by simp)
  have cqq := hcov 1 1 (by simp) (by simp)
  subst hM
  simp only [List.getD_cons_zero, List.getD_cons_succ] at caa caq cqq
  simp at caa caq cqq
  have hcl : Bunch.covList true [a] = .ok [a, q] := by simp [Bunch.covList, hq.momVar]
  have hE : Bunch.getEmittance L E w b [a] none = .ok (c * emittance) := by
    refine emittance_geometric hL E w b hb hmeans hW (by simp) hg hcl V v1 v2 v3 _ (mul_pos hc he).le ?_
    rw [v4]
    have : (square [a, q].length (⟨2, 2, fun i j => if i = 0 ∧ j = 0 then beta * emittance
        else if i = 1 ∧ j = 1 then (1 + alpha ^ 2) / beta * emittance else -alpha * emittance⟩ :
          Mat K)).det = emittance ^ 2 := by
      refine (Matrix.det_fin_two _).trans ?_
      simp [square]
      field_simp
      ring
    rw [this]
    show c ^ 2 * emittance ^ 2 = (c * emittance) ^ 2
    ring
  have he0 : c * emittance ≠ 0 := (mul_pos hc he).ne'
  have va : ∀ i ∈ b.hits, Bunch.hitNum E w i a = .ok (vals a i) := fun i hi => hv i hi a (by simp)
  have vq : ∀ i ∈ b.hits, Bunch.hitNum E w i q = .ok (vals q i) := fun i hi => hv i hi q (by simp)
  have kaa := Bunch.cov2_ok E w b hb hmeans hW vals a a va va
  have kqq := Bunch.cov2_ok E w b hb hmeans hW vals q q vq vq
  have kaq := Bunch.cov2_ok E w b hb hmeans hW vals a q va vq
  have hq' := hq.momVar
  have he1 := he.ne'
  have hc1 := hc.ne'
  refine ⟨hE, ?_, ?_, ?_⟩
  · simp [Bunch.getBeta, hE, Bunch.sumAxes, kaa, Bunch.pyDiv, ok_bind, he1, hc1, caa]
    field_simp
  · simp [Bunch.getAlpha, hE, Bunch.sumAxes, Bunch.axisCov, hq', kaq, Bunch.pyDiv, ok_bind, he1, hc1, caq]
    field_simp
  · simp [Bunch.getGamma, hE, Bunch.sumAxes, Bunch.momVariance, hq', kqq, Bunch.pyDiv, ok_bind, he1, hc1, cqq]
    field_simp

/-! ### two planes -/

/-- the optics functions of a bunch in two planes, normalised variables -/
theorem two_planes (a a' q q' : String) (hq : Conjugate false a q) (hq' : Conjugate false a' q')
    (hv : ∀ i ∈ b.hits, ∀ v ∈ [a, q, a', q'], Bunch.hitNum E w i v = .ok (vals v i))
    (mass e p : K) (hm : FirstMass w b mass ∧ mass ≠ 0) (he : Bunch.getEmittance L E w b [a, a'] none = .ok e)
    (he0 : e ≠ 0) (hp : Bunch.meanOf E w b "p" = .ok p) (hp0 : p ≠ 0) :
    Returns L E w b [a, a'] false e
      ((wcov b w vals a a + wcov b w vals a' a') * (p / (e * mass * 2)))
      (-((wcov b w vals a q + wcov b w vals a' q') / (e * mass * 2)))
      ((wcov b w vals q q + wcov b w vals q' q') / (p * mass) / (e * 2)) := by
  have h1 := hq.momVar
  have h2 := hq'.momVar
  have hf := hm.1.firstMass
  have hm0 := hm.2
  have v1 : ∀ i ∈ b.hits, Bunch.hitNum E w i a = .ok (vals a i) := fun i hi => hv i hi a (by simp)
  have v2 : ∀ i ∈ b.hits, Bunch.hitNum E w i q = .ok (vals q i) := fun i hi => hv i hi q (by simp)
  have v3 : ∀ i ∈ b.hits, Bunch.hitNum E w i a' = .ok (vals a' i) := fun i hi => hv i hi a' (by simp)
  have v4 : ∀ i ∈ b.hits, Bunch.hitNum E w i q' = .ok (vals q' i) := fun i hi => hv i hi q' (by simp)
  have k1 := Bunch.cov2_ok E w b hb hmeans hW vals a a v1 v1
  have k2 := Bunch.cov2_ok E w b hb hmeans hW vals q q v2 v2
  have k3 := Bunch.cov2_ok E w b hb hmeans hW vals a q v1 v2
  have k4 := Bunch.cov2_ok E w b hb hmeans hW vals a' a' v3 v3
  have k5 := Bunch.cov2_ok E w b hb hmeans hW vals q' q' v4 v4
  have k6 := Bunch.cov2_ok E w b hb hmeans hW vals a' q' v3 v4
  refine ⟨he, ?_, ?_, ?_⟩
  · simp [Bunch.getBeta, he, Bunch.sumAxes, k1, k4, Bunch.pyDiv, ok_bind, he0, hp, hf, hm0]
  · simp [Bunch.getAlpha, he, Bunch.sumAxes, Bunch.axisCov, h1, h2, k3, k6, Bunch.pyDiv, ok_bind, he0, hf, hm0]
  · simp [Bunch.getGamma, he, Bunch.sumAxes, Bunch.momVariance, h1, h2, k2, k5, Bunch.pyDiv, ok_bind, he0, hp,
      hf, hm0, hp0]

omit hL hb hmeans hW in
/-- the determinant of a Penn ellipse of any charge -/
theorem penn_det (x y z u : K) : Matrix.det (Matrix.of fun i j : Fin 4 =>
    (([[x, y, 0, u], [y, z, -u, 0], [0, -u, x, y], [u, 0, y, z]] : List (List K)).getD i []).getD j 0)
    = (x * z - y ^ 2 - u ^ 2) ^ 2 := by
  simp [Matrix.det_succ_row_zero, Fin.sum_univ_succ, Fin.succAbove]
  ring

/-- The angular momenta of the bunch about its own axis: the means of its positions and momenta. -/
def Axis (b : Bunch K) (w : BWorld K) (vals : String → Nat → K) (names : List String)
    (axis : List (String × PyVal K)) : Prop :=
  ∀ v ∈ names, ∃ x, axis.lookup v = some x ∧ x.num? = some (wmean b.hits w.weight (vals v))

/-- the covariances of a bunch with a Penn ellipse -/
theorem penn_covs (hv : ∀ i ∈ b.hits, ∀ v ∈ ["x", "px", "y", "py"], Bunch.hitNum E w i v = .ok (vals v i))
    (emittance mass beta alpha p Lt bz charge : K) (hbeta : 0 < beta) (he : 0 < emittance) (hp : p ≠ 0)
    (hm0 : 0 < mass) (M : Mat K)
    (hM : Bunch.buildPennEllipse E.cLight emittance mass beta alpha p Lt bz charge = .ok M) (s : K)
    (hell : HasEllipse E w b ["x", "px", "y", "py"] s M) :
    let u := beta * (E.cLight * bz / 2 / p) - Lt
    let g := (1 + alpha * alpha + u * u) / beta
    wcov b w vals "x" "x" = s * (emittance * mass * beta / p) ∧
    wcov b w vals "y" "y" = s * (emittance * mass * beta / p) ∧
    wcov b w vals "x" "px" = s * (-emittance * mass * alpha) ∧
    wcov b w vals "y" "py" = s * (-emittance * mass * alpha) ∧
    wcov b w vals "px" "px" = s * (emittance * mass * p * g) ∧
    wcov b w vals "py" "py" = s * (emittance * mass * p * g) ∧
    wcov b w vals "x" "py" = s * (-emittance * mass * u * charge) ∧
    wcov b w vals "y" "px" = s * (emittance * mass * u * charge) ∧
    ∃ V, Bunch.emitCov E w b ["x", "px", "y", "py"] none = .ok V ∧ V.rows = 4 ∧ V.cols = 4 ∧
      V.det = (s * emittance * mass) ^ 4 * (1 + (1 - charge ^ 2) * u ^ 2) ^ 2 := by
  intro u g
  simp only [Bunch.buildPennEllipse, not_le.mpr hbeta, not_le.mpr he, not_le.mpr hm0, hp, if_false,
    Except.ok.injEq] at hM
  obtain ⟨hcov, V, v1, v2, v3, v4⟩ := covs_of hL E w b hb hmeans hW vals hv hell
  have h00 := hcov 0 0 (by simp) (by simp)
  have h01 := hcov 0 1 (by simp) (by simp)
  have h11 := hcov 1 1 (by simp) (by simp)
  have h22 := hcov 2 2 (by simp) (by simp)
  have h23 := hcov 2 3 (by simp) (by simp)
  have h33 := hcov 3 3 (by simp) (by simp)
  have h03 := hcov 0 3 (by simp) (by simp)
  have h21 := hcov 2 1 (by simp) (by simp)
  rw [← hM] at h00 h01 h11 h22 h23 h33 h03 h21
  refine ⟨h00, h22, h01, h23, h11, h33, h03, h21.trans ?_, V, v1, v2, v3, ?_⟩
  · simp [u]
  · rw [v4]
    have : (square ["x", "px", "y", "py"].length M).det =
        ((emittance * mass) ^ 2 * (1 + (1 - charge ^ 2) * u ^ 2)) ^ 2 := by
      rw [← hM]
      refine (penn_det (emittance * mass * beta / p) (-emittance * mass * alpha) (emittance * mass * p * g)
        (-emittance * mass * u * charge)).trans ?_
      have : emittance * mass * beta / p * (emittance * mass * p * g) =
          (emittance * mass) ^ 2 * (1 + alpha * alpha + u * u) := by
        simp only [g]; field_simp
      rw [this]
      ring
    rw [this]
    show s ^ 4 * _ = _
    ring

/-- **C116, two planes**: a bunch whose covariance matrix in x, px, y, py is s times the matrix from
`build_penn_ellipse`, for particles of charge 1 or -1 and of the mass of its first hit, has transverse
emittance s * emittance and alpha as asked for, and beta and gamma as asked for if its mean momentum P
is p.  Missing: other charges (false). -/
theorem C116_penn_partial (hg : w.geo = false)
    (hv : ∀ i ∈ b.hits, ∀ v ∈ ["x", "px", "y", "py"], Bunch.hitNum E w i v = .ok (vals v i))
    (emittance mass beta alpha p Lt bz charge : K) (hbeta : 0 < beta) (he : 0 < emittance) (hp : p ≠ 0)
    (hm0 : 0 < mass) (hm : FirstMass w b mass) (hch : charge = 1 ∨ charge = -1) (M : Mat K)
    (hM : Bunch.buildPennEllipse E.cLight emittance mass beta alpha p Lt bz charge = .ok M) (s : K) (hs : 0 < s)
    (hell : HasEllipse E w b ["x", "px", "y", "py"] s M) (P : K) (hP : Bunch.meanOf E w b "p" = .ok P)
    (hP0 : P ≠ 0) :
    Returns L E w b ["x", "y"] false (s * emittance) (beta * P / p) alpha
      ((1 + alpha ^ 2 + (beta * (E.cLight * bz / (2 * p)) - Lt) ^ 2) / beta * p / P) := by
  obtain ⟨c1, c2, c3, c4, c5, c6, _, _, V, v1, v2, v3, v4⟩ := penn_covs hL E w b hb hmeans hW vals hv emittance mass
    beta alpha p Lt bz charge hbeta he hp hm0 M hM s hell
  have hsq : charge ^ 2 = 1 := by rcases hch with rfl | rfl <;> norm_num
  rw [hsq] at v4
  have hE : Bunch.getEmittance L E w b ["x", "y"] none = .ok (s * emittance) := by
    refine emittance_normalised hL E w b hb hmeans hW (cl := ["x", "px", "y", "py"]) (by simp) hg (by decide) V v1
      v2 v3 _ mass hm hm0 (mul_pos hs he).le ?_
    rw [v4]
    show _ = (s * emittance * mass) ^ 4
    ring
  obtain ⟨o1, o2, o3, o4⟩ := two_planes hL E w b hb hmeans hW vals "x" "y" "px" "py" (by simp [Conjugate])
    (by simp [Conjugate]) hv mass (s * emittance) P ⟨hm, hm0.ne'⟩ hE (mul_pos hs he).ne' hP hP0
  have he1 := he.ne'
  have hs1 := hs.ne'
  have hm1 := hm0.ne'
  have hb1 := hbeta.ne'
  refine ⟨hE, o2.trans ?_, o3.trans ?_, o4.trans ?_⟩
  · rw [c1, c2]; congr 1; field_simp; ring
  · rw [c3, c4]; congr 1; field_simp; ring
  · rw [c5, c6]
    have hk : E.cLight * bz / 2 / p = E.cLight * bz / (2 * p) := by rw [div_div]
    rw [hk]
    generalize beta * (E.cLight * bz / (2 * p)) - Lt = u
    congr 1; field_simp; ring

/-- C116, exact law for any charge: the square of the emittance is that asked for times |1 + (1 - charge^2) (beta k - Lt)^2|. -/
theorem C116_any_charge (hg : w.geo = false)
    (hv : ∀ i ∈ b.hits, ∀ v ∈ ["x", "px", "y", "py"], Bunch.hitNum E w i v = .ok (vals v i))
    (emittance mass beta alpha p Lt bz charge : K) (hbeta : 0 < beta) (he : 0 < emittance) (hp : p ≠ 0)
    (hm0 : 0 < mass) (hm : FirstMass w b mass) (M : Mat K)
    (hM : Bunch.buildPennEllipse E.cLight emittance mass beta alpha p Lt bz charge = .ok M)
    (hell : HasEllipse E w b ["x", "px", "y", "py"] 1 M) :
    ∃ e, Bunch.getEmittance L E w b ["x", "y"] none = .ok e ∧ 0 ≤ e ∧
      e ^ 2 = emittance ^ 2 * |1 + (1 - charge ^ 2) * (beta * (E.cLight * bz / (2 * p)) - Lt) ^ 2| := by
  obtain ⟨_, _, _, _, _, _, _, _, V, v1, v2, v3, v4⟩ := penn_covs hL E w b hb hmeans hW vals hv emittance mass
    beta alpha p Lt bz charge hbeta he hp hm0 M hM 1 hell
  rw [div_div] at v4
  generalize beta * (E.cLight * bz / (2 * p)) - Lt = u at *
  have hd : 0 ≤ V.det := by rw [v4]; positivity
  have r0 := hL.root_nonneg 4 V.det hd
  have r1 := hL.root_pow 4 V.det (by decide) hd
  refine ⟨L.root 4 V.det / mass, ?_, div_nonneg r0 hm0.le, ?_⟩
  · refine emittance_normalised hL E w b hb hmeans hW (cl := ["x", "px", "y", "py"]) (by simp) hg (by decide) V v1
      v2 v3 _ mass hm hm0 (div_nonneg r0 hm0.le) ?_
    rw [div_mul_cancel₀ _ hm0.ne']
    exact r1.symm
  · have h1 : (L.root 4 V.det ^ 2) ^ 2 = ((emittance * mass) ^ 2 * |1 + (1 - charge ^ 2) * u ^ 2|) ^ 2 := by
      rw [mul_pow _ |_| 2, sq_abs, ← pow_mul, r1, v4]; ring
    have h2 := (pow_left_inj₀ (sq_nonneg _) (by positivity) (by decide : (2 : Nat) ≠ 0)).mp h1
    rw [div_pow, h2]
    field_simp

/-! ### angular momentum -/

omit hL hb hmeans hW in
theorem cov_average (u v : String) : wcov b w vals u v =
    average2 b w fun i => (vals u i - wmean b.hits w.weight (vals u)) * (vals v i - wmean b.hits w.weight (vals v)) := by
  simp only [wcov, wmoment_pair, average2]

/-- **C116, angular momentum**: about its own axis and centre, the bunch of C116_penn_partial has the kinetic angular
momentum 2 emittance mass charge (Lt - beta k), k = c bz / 2p.  For charge 1 its canonical angular momentum
in the field bz is 2 emittance mass Lt: the normalised canonical angular momentum asked for is L / (2
emittance mass).  Missing: charge -1 (false), for which what is returned is given too. -/
theorem C116_angular_momentum_partial (hg : w.geo = false)
    (hv : ∀ i ∈ b.hits, ∀ v ∈ ["x", "px", "y", "py"], Bunch.hitNum E w i v = .ok (vals v i))
    (emittance mass beta alpha p Lt bz charge : K) (hbeta : 0 < beta) (he : 0 < emittance) (hp : p ≠ 0)
    (hm0 : 0 < mass) (M : Mat K)
    (hM : Bunch.buildPennEllipse E.cLight emittance mass beta alpha p Lt bz charge = .ok M) (s : K)
    (hell : HasEllipse E w b ["x", "px", "y", "py"] s M) (axis field : List (String × PyVal K))
    (hax : Axis b w vals ["x", "y", "px", "py"] axis) (hfield : Axis b w vals ["x", "y"] field) :
    Bunch.kineticAngularMomentum E w b axis =
      .ok (2 * (s * emittance) * mass * charge * (Lt - beta * (E.cLight * bz / (2 * p)))) ∧
    (charge = 1 → Bunch.canonicalAngularMomentum E w b (some bz) field axis =
      .ok (2 * (s * emittance) * mass * Lt)) ∧
    (charge = -1 → Bunch.canonicalAngularMomentum E w b (some bz) field axis =
      .ok (2 * (s * emittance) * mass * (2 * beta * (E.cLight * bz / (2 * p)) - Lt))) := by
  obtain ⟨c1, c2, _, _, _, _, c7, c8, _⟩ := penn_covs hL E w b hb hmeans hW vals hv emittance mass
    beta alpha p Lt bz charge hbeta he hp hm0 M hM s hell
  rw [cov_average] at c1 c2 c7 c8
  have hv' : ∀ i ∈ b.hits, ∀ v ∈ ["x", "y", "px", "py"], Bunch.hitNum E w i v = .ok (vals v i) :=
    fun i hi v h => hv i hi v (by simp at h ⊢; tauto)
  have hk := C73_kinetic E w b hb hW vals hg hv' axis (fun v => wmean b.hits w.weight (vals v)) hax
  have hc := C73_canonical_partial E w b hb hW vals hg hv' axis field (fun v => wmean b.hits w.weight (vals v))
    (fun v => wmean b.hits w.weight (vals v)) hax hfield (some bz) bz (.inl rfl)
  rw [← average2_sub, c7, c8] at hk hc
  have hr : (average2 b w fun i => (vals "x" i - wmean b.hits w.weight (vals "x")) ^ 2 +
      (vals "y" i - wmean b.hits w.weight (vals "y")) ^ 2) = s * (emittance * mass * beta / p) * 2 := by
    rw [← average2_add]
    simp only [pow_two]
    rw [c1, c2]; ring
  rw [hr] at hc
  refine ⟨hk.trans ?_, ?_, ?_⟩
  · congr 1; field_simp; ring
  · rintro rfl
    refine hc.trans ?_
    congr 1; field_simp; ring
  · rintro rfl
    refine hc.trans ?_
    congr 1; field_simp; ring

end

/-! ### transform_to -/

section
variable {L : LinAlg K} (hL : L.Lawful) (hG : Bunch.EighLawful L) {E : Ext K} (hE : E.Lawful)
  (w : BWorld K) (b : Bunch K) (hwf : (w.ctx w.hcur).WF) (hnodup : b.hits.Nodup)
  (hb : b.Normal w) (hmeans : b.means = []) (hW : ¬ |(b.hits.map w.weight).sum| < 1 / 1000000000)
  (vals : String → Nat → K) (T : List (String × K))
include hL hG hE hwf hnodup hb hmeans hW

/-- the bunch after transform_to has the target as ellipse, and its masses and determinant -/
theorem transformed (cl : List String) (hne : cl ≠ []) (hnd : cl.Nodup)
    (hco : ∀ v ∈ cl, v ∈ coordNames ∧ v ≠ "mass")
    (hv : ∀ i ∈ b.hits, ∀ v ∈ cl, Bunch.hitNum E w i v = .ok (vals v i))
    (target : Mat K) (t1 : target.rows = cl.length) (t2 : target.cols = cl.length)
    (ts : (Bunch.toM cl.length target).transpose = Bunch.toM cl.length target)
    (tp : PosDefinite cl.length (Bunch.toM cl.length target))
    (V : Mat K) (hV : Bunch.covarianceMatrix E w b cl [] = .ok V)
    (cp : PosDefinite cl.length (Bunch.toM cl.length V)) (mass : K) (hm : FirstMass w b mass) :
    ∃ (w' : BWorld K) (vals' : String → Nat → K) (V' : Mat K) (c : K),
      Bunch.transformTo L E b cl target T [] "" w = (.ok (), w') ∧
      b.Normal w' ∧ w'.geo = w.geo ∧ ¬ |(b.hits.map w'.weight).sum| < 1 / 1000000000 ∧ FirstMass w' b mass ∧
      (∀ i ∈ b.hits, ∀ v ∈ cl, Bunch.hitNum E w' i v = .ok (vals' v i)) ∧
      Bunch.covarianceMatrix E w' b cl [] = .ok V' ∧ 0 < c ∧ V'.rows = cl.length ∧ V'.cols = cl.length ∧
      (∀ i j, i < cl.length → j < cl.length → V'.entry i j = c * target.entry i j) ∧ V'.det = V.det ∧
      V.rows = cl.length ∧ V.cols = cl.length := by
  obtain ⟨w', R, V', c, h1, h2, h3, h4, _, h6, h7, h8, h9, h10, h11, h12⟩ := C62_default hL hG hE w b hwf hnodup hb
    hmeans hW cl hne hnd (fun n hn => (hco n hn).1) T vals hv target t1 t2 ts tp V hV cp
  have hn : cl.length ≠ 0 := fun h => hne (List.length_eq_zero_iff.1 h)
  obtain ⟨M0, m1, m2, m3, m4⟩ := C21_bunch_entries E w b hb hmeans hW cl [] vals hv (by simp)
  rw [hV] at m1
  cases m1
  have hab : ∃ R' : Mat K, R'.rows = cl.length ∧ R'.cols = cl.length ∧
      Bunch.abelian E cl R' T [] "" b.hits w = (.ok (), w') := by
    have cs : (Bunch.toM cl.length V).transpose = Bunch.toM cl.length V := by
      ext i j
      simp only [Matrix.transpose_apply, Bunch.toM, Matrix.of_apply]
      rw [m4 j i j.2 i.2, m4 i j i.2 j.2]
      exact (wmoment_order_and_zero_weight b.hits [] w.weight _ _).2.1 (List.Perm.swap _ _ _)
    obtain ⟨R', c', r1, r2, r3, _⟩ := Bunch.transformMatrix_ok hL hG hE hn V target m2 m3 t1 t2 cs ts cp tp
    refine ⟨R', r2, r3, ?_⟩
    unfold Bunch.transformTo at h1
    simp only [List.map_nil, hV, r1] at h1
    exact h1
  obtain ⟨R', q1, q2, q3⟩ := hab
  obtain ⟨w'', g1, g2, g3, g4⟩ := C59_hits E w b hwf hnodup cl hnd (fun n hn => (hco n hn).1) R' q1 q2 T [] vals hv
  have hw : w'' = w' := (Prod.ext_iff.mp (g1.symm.trans q3)).2
  subst hw
  refine ⟨w'', movedVals cl R' T [] vals, V', c, h1, h2.normal hb, h2.geo, by rw [h2.sum]; exact hW,
    mass_same (fun i => g4 i "mass" (by decide) (fun h => (hco "mass" h).2 rfl)) hm, ?_, h7, h8, h9, h10, h11, h12,
    m2, m3⟩
  intro i hi v hvv
  have := g3 i hi _ (List.idxOf_lt_length_of_mem hvv)
  rwa [getD_idxOf hvv] at this

omit hL hG hE hwf hnodup in
/-- the mean of the momentum exists -/
theorem mean_p : ∃ P, Bunch.meanOf E w b "p" = .ok P := by
  choose pv hpv using hitNum_p E w
  exact ⟨_, Bunch.meanOf_ok E w b hb hmeans hW (fun _ i => pv i) "p" (fun i _ => hpv i)⟩

/-- **C116, matching one plane with transform_to**: `bunch.transform_to([a, q], build_ellipse_2d(beta, alpha,
emittance, p, mass, False), T)` of a bunch with a positive definite covariance matrix leaves its emittance
as it was, whatever the emittance of the ellipse, and gives it alpha as asked for; beta and gamma are as
asked for if the mean momentum P after the transformation is p. -/
theorem C116_transform_to (hg : w.geo = false) (a q : String) (haq : (a, q) ∈ pairs)
    (hv : ∀ i ∈ b.hits, ∀ v ∈ [a, q], Bunch.hitNum E w i v = .ok (vals v i))
    (beta alpha emittance p mass : K) (hbeta : 0 < beta) (he : 0 < emittance) (hp : 0 < p) (hm0 : 0 < mass)
    (hm : FirstMass w b mass) (M : Mat K)
    (hM : Bunch.buildEllipse2d beta alpha emittance p mass false = .ok M)
    (V : Mat K) (hV : Bunch.covarianceMatrix E w b [a, q] [] = .ok V)
    (cp : PosDefinite 2 (Bunch.toM 2 V)) :
    ∃ (w' : BWorld K) (e P : K), Bunch.transformTo L E b [a, q] M T [] "" w = (.ok (), w') ∧
      Bunch.getEmittance L E w b [a] none = .ok e ∧ Bunch.meanOf E w' b "p" = .ok P ∧
      (P ≠ 0 → Returns L E w' b [a] false e (beta * P / p) alpha ((1 + alpha ^ 2) / beta * p / P)) := by
  have hps : ∀ x ∈ [(a, q)], x ∈ pairs := by simpa using haq
  have hnd : [a, q].Nodup := phaseSpace_nodup hps (by simp)
  have hco : ∀ v ∈ [a, q], v ∈ coordNames ∧ v ≠ "mass" := phaseSpace_coord hps
  have hq : Conjugate false a q := by
    have := conj_of_pairs hps
    simpa using this
  obtain ⟨M', m1, m2, _, _, m5⟩ := C30_ellipse_2d beta alpha emittance p mass false hbeta he (.inr hp.ne')
  rw [hM] at m1
  cases m1
  have ts : (Bunch.toM 2 M).transpose = Bunch.toM 2 M := by
    ext i j
    exact m2.symm j i j.2 i.2
  have tp : PosDefinite 2 (Bunch.toM 2 M) := by
    intro v hv0
    have : v ⬝ᵥ (Bunch.toM 2 M).mulVec v = quad2 M (v 0) (v 1) := by
      simp only [dotProduct, Matrix.mulVec, Fin.sum_univ_two, Bunch.toM, Matrix.of_apply, quad2, Fin.val_zero,
        Fin.val_one]
      ring
    rw [this]
    refine m5 (.inr ⟨hp, hm0⟩) _ _ ?_
    rintro ⟨h0, h1⟩
    apply hv0
    funext i
    fin_cases i
    · exact h0
    · exact h1
  obtain ⟨w', vals', V', c, t1, t2, t3, t4, t5, t6, t7, t8, t9, t10, t11, t12, t13, t14⟩ := transformed hL hG hE w b
    hwf hnodup hb hmeans hW vals T [a, q] (by simp) hnd hco hv M m2.rows m2.cols ts tp V hV cp mass hm
  obtain ⟨P, hP⟩ := mean_p (E := E) w' b t2 hmeans t4
  have hell : HasEllipse E w' b [a, q] c M := ⟨V', t7, t11⟩
  have hg' : w'.geo = false := t3.trans hg
  have hcl : Bunch.covList false [a] = .ok [a, q] := by simp [Bunch.covList, hq.momVar]
  have hdet : V.det = (c * emittance * mass) ^ 2 := by
    rw [← t12, Mat.det_two V' t9, t11 0 0 (by simp) (by simp), t11 0 1 (by simp) (by simp),
      t11 1 0 (by simp) (by simp), t11 1 1 (by simp) (by simp)]
    have := m2.det_eq
    rw [Mat.det_two M m2.rows] at this
    simp only [Bool.false_eq_true, if_false] at this
    linear_combination c ^ 2 * this
  refine ⟨w', c * emittance, P, t1, ?_, hP, fun hP0 => ?_⟩
  · refine emittance_normalised hL E w b hb hmeans hW (by simp) hg hcl V ?_ t13 t14 _ mass hm hm0
      (mul_pos t8 he).le hdet
    simp only [Bunch.emitCov, Bunch.covPicker, hb.covs, hV]
  · exact C116_plane hL E w' b t2 hmeans t4 vals' hg' a q hq t6 beta alpha emittance p mass hbeta he hp.ne' hm0 t5 M hM
      c t8 hell P hP hP0

omit hL hG hE hwf hnodup hb hmeans hW in
theorem penn_positive {x y z u : K} (hx : 0 < x) (hD : 0 < x * z - y ^ 2 - u ^ 2) :
    PosDefinite 4 (Bunch.toM 4 (⟨4, 4, fun i j =>
      (([[x, y, 0, u], [y, z, -u, 0], [0, -u, x, y], [u, 0, y, z]] : List (List K)).getD i []).getD j 0⟩ : Mat K)) := by
  intro v hv
  have key : x * (v ⬝ᵥ (Bunch.toM 4 (⟨4, 4, fun i j =>
      (([[x, y, 0, u], [y, z, -u, 0], [0, -u, x, y], [u, 0, y, z]] : List (List K)).getD i []).getD j 0⟩ :
        Mat K)).mulVec v) = (x * v 0 + y * v 1 + u * v 3) ^ 2 + (x * v 2 + y * v 3 - u * v 1) ^ 2 +
        (x * z - y ^ 2 - u ^ 2) * (v 1 ^ 2 + v 3 ^ 2) := by
    simp [dotProduct, Matrix.mulVec, Fin.sum_univ_four, Bunch.toM]
    ring
  by_contra hn
  have hle : x * (v ⬝ᵥ (Bunch.toM 4 (⟨4, 4, fun i j =>
      (([[x, y, 0, u], [y, z, -u, 0], [0, -u, x, y], [u, 0, y, z]] : List (List K)).getD i []).getD j 0⟩ :
        Mat K)).mulVec v) ≤ 0 := mul_nonpos_of_nonneg_of_nonpos hx.le (not_lt.mp hn)
  rw [key] at hle
  have s1 := sq_nonneg (x * v 0 + y * v 1 + u * v 3)
  have s2 := sq_nonneg (x * v 2 + y * v 3 - u * v 1)
  have s3 : 0 ≤ v 1 ^ 2 + v 3 ^ 2 := by positivity
  have s4 := mul_nonneg hD.le s3
  have z3 : v 1 ^ 2 + v 3 ^ 2 = 0 := by
    have : (x * z - y ^ 2 - u ^ 2) * (v 1 ^ 2 + v 3 ^ 2) = 0 := by linarith
    exact (mul_eq_zero.mp this).resolve_left hD.ne'
  have z1 : v 1 = 0 := by
    have : v 1 ^ 2 = 0 := by have := sq_nonneg (v 3); have := sq_nonneg (v 1); linarith
    exact pow_eq_zero_iff (two_ne_zero) |>.mp this
  have z4 : v 3 = 0 := by
    have : v 3 ^ 2 = 0 := by have := sq_nonneg (v 1); have := sq_nonneg (v 3); linarith
    exact pow_eq_zero_iff (two_ne_zero) |>.mp this
  rw [z1, z4] at s1 s2 hle
  have w0 : (x * v 0) ^ 2 = 0 := by nlinarith
  have w2 : (x * v 2) ^ 2 = 0 := by nlinarith
  have z0 : v 0 = 0 := (mul_eq_zero.mp (pow_eq_zero_iff (two_ne_zero) |>.mp w0)).resolve_left hx.ne'
  have z2 : v 2 = 0 := (mul_eq_zero.mp (pow_eq_zero_iff (two_ne_zero) |>.mp w2)).resolve_left hx.ne'
  apply hv
  funext i
  fin_cases i
  · exact z0
  · exact z1
  · exact z2
  · exact z4

/-- **C116, matching two planes with transform_to**: `bunch.transform_to(['x','px','y','py'],
build_penn_ellipse(...), T)` for particles of charge 1 or -1 leaves the transverse emittance as it was and
gives the bunch alpha as asked for; beta and gamma are as asked for if the mean momentum P after the
transformation is p.  For charge 1 the canonical angular momentum about the axis of the bunch is then
2 emittance mass Lt, with the emittance of the bunch.  Missing: other charges (false). -/
theorem C116_transform_to_penn_partial (hg : w.geo = false)
    (hv : ∀ i ∈ b.hits, ∀ v ∈ ["x", "px", "y", "py"], Bunch.hitNum E w i v = .ok (vals v i))
    (emittance mass beta alpha p Lt bz charge : K) (hbeta : 0 < beta) (he : 0 < emittance) (hp : 0 < p)
    (hm0 : 0 < mass) (hm : FirstMass w b mass) (hch : charge = 1 ∨ charge = -1) (M : Mat K)
    (hM : Bunch.buildPennEllipse E.cLight emittance mass beta alpha p Lt bz charge = .ok M)
    (V : Mat K) (hV : Bunch.covarianceMatrix E w b ["x", "px", "y", "py"] [] = .ok V)
    (cp : PosDefinite 4 (Bunch.toM 4 V)) :
    ∃ (w' : BWorld K) (vals' : String → Nat → K) (e P : K),
      Bunch.transformTo L E b ["x", "px", "y", "py"] M T [] "" w = (.ok (), w') ∧
      (∀ i ∈ b.hits, ∀ v ∈ ["x", "px", "y", "py"], Bunch.hitNum E w' i v = .ok (vals' v i)) ∧
      Bunch.getEmittance L E w b ["x", "y"] none = .ok e ∧ Bunch.meanOf E w' b "p" = .ok P ∧
      (P ≠ 0 → Returns L E w' b ["x", "y"] false e (beta * P / p) alpha
        ((1 + alpha ^ 2 + (beta * (E.cLight * bz / (2 * p)) - Lt) ^ 2) / beta * p / P)) ∧
      (charge = 1 → ∀ axis field, Axis b w' vals' ["x", "y", "px", "py"] axis →
        Axis b w' vals' ["x", "y"] field →
        Bunch.canonicalAngularMomentum E w' b (some bz) field axis = .ok (2 * e * mass * Lt)) := by
  obtain ⟨M', m1, m2⟩ := C30_penn E.cLight emittance mass beta alpha p Lt bz charge hbeta he hm0 hp.ne'
    (by rcases hch with rfl | rfl <;> norm_num)
  rw [hM] at m1
  cases m1
  have ts : (Bunch.toM 4 M).transpose = Bunch.toM 4 M := by
    ext i j
    exact m2.symm j i j.2 i.2
  have hsq : charge ^ 2 = 1 := by rcases hch with rfl | rfl <;> norm_num
  have tp : PosDefinite 4 (Bunch.toM 4 M) := by
    have hM' := hM
    simp only [Bunch.buildPennEllipse, not_le.mpr hbeta, not_le.mpr he, not_le.mpr hm0, hp.ne', if_false,
      Except.ok.injEq] at hM'
    rw [← hM']
    apply penn_positive
    · positivity
    · generalize beta * (E.cLight * bz / 2 / p) - Lt = u
      have hp0 := hp.ne'
      have : emittance * mass * beta / p * (emittance * mass * p * ((1 + alpha * alpha + u * u) / beta)) =
          (emittance * mass) ^ 2 * (1 + alpha * alpha + u * u) := by field_simp
      rw [this]
      have h2 : (emittance * mass) ^ 2 * (1 + alpha * alpha + u * u) - (-emittance * mass * alpha) ^ 2 -
          (-emittance * mass * u * charge) ^ 2 = (emittance * mass) ^ 2 := by
        linear_combination (-(emittance * mass) ^ 2 * u ^ 2) * hsq
      rw [h2]
      positivity
  obtain ⟨w', vals', V', c, t1, t2, t3, t4, t5, t6, t7, t8, t9, t10, t11, t12, t13, t14⟩ := transformed hL hG hE w b
    hwf hnodup hb hmeans hW vals T ["x", "px", "y", "py"] (by simp) (by decide)
    (by intro v hv; simp only [List.mem_cons, List.not_mem_nil, or_false] at hv
        rcases hv with rfl | rfl | rfl | rfl <;> exact ⟨by decide, by decide⟩)
    hv M m2.rows m2.cols ts tp V hV cp mass hm
  obtain ⟨P, hP⟩ := mean_p (E := E) w' b t2 hmeans t4
  have hell : HasEllipse E w' b ["x", "px", "y", "py"] c M := ⟨V', t7, t11⟩
  have hg' : w'.geo = false := t3.trans hg
  obtain ⟨_, _, _, _, _, _, _, _, V'', u1, u2, u3, u4⟩ := penn_covs hL E w' b t2 hmeans t4 vals' t6 emittance mass
    beta alpha p Lt bz charge hbeta he hp.ne' hm0 M hM c hell
  have hV'' : V'' = V' := by
    simp only [Bunch.emitCov, Bunch.covPicker, t2.covs, t7] at u1
    exact (Except.ok.inj u1).symm
  subst hV''
  refine ⟨w', vals', c * emittance, P, t1, t6, ?_, hP, fun hP0 => ?_, ?_⟩
  · refine emittance_normalised hL E w b hb hmeans hW (cl := ["x", "px", "y", "py"]) (by simp) hg (by decide) V ?_ t13
      t14 _ mass hm hm0 (mul_pos t8 he).le ?_
    · simp only [Bunch.emitCov, Bunch.covPicker, hb.covs, hV]
    · rw [← t12, u4, hsq]
      show _ = (c * emittance * mass) ^ 4
      ring
  · exact C116_penn_partial hL E w' b t2 hmeans t4 vals' hg' t6 emittance mass beta alpha p Lt bz charge hbeta he hp.ne' hm0 t5
      hch M hM c t8 hell P hP hP0
  · rintro hc axis field hax hf
    exact (C116_angular_momentum_partial hL E w' b t2 hmeans t4 vals' hg' t6 emittance mass beta alpha p Lt bz charge hbeta he
      hp.ne' hm0 M hM c hell axis field hax hf).2.1 hc

end

/-! ### cases -/

/-- eight hits: (x, px, y, py) = 2 (1, 0, 0, r), 2 (0, 0, 0, s), 2 (0, -r, 1, 0), 2 (0, s, 0, 0) and their
opposites, mass 1 and pz 3 -/
noncomputable def spinWorld (r s : ℝ) : BWorld ℝ :=
  { hits := fun i => ⟨fun v => match v with
      | .x => [2, -2, 0, 0, 0, 0, 0, 0].getD i 0
      | .px => [0, 0, 0, 0, -(2 * r), 2 * r, 2 * s, -(2 * s)].getD i 0
      | .y => [0, 0, 0, 0, 2, -2, 0, 0].getD i 0
      | .py => [2 * r, -(2 * r), 2 * s, -(2 * s), 0, 0, 0, 0].getD i 0
      | .pz => 3 | .mass => 1 | .local_weight => 1 | _ => 0, fun _ => 0⟩
    ctx := fun _ => WC.new, hcur := 0, bcur := 0, geo := false }

/-- the bunch of the eight hits -/
def spinBunch : Bunch ℝ := ⟨[0, 1, 2, 3, 4, 5, 6, 7], [0, 1, 2, 3, 4, 5, 6, 7].map some, none, []⟩

/-- the values of the eight hits -/
noncomputable def spinVals (r s : ℝ) (v : String) (i : Nat) : ℝ :=
  if v = "x" then (spinWorld r s).hits i |>.d .x else if v = "px" then (spinWorld r s).hits i |>.d .px
  else if v = "y" then (spinWorld r s).hits i |>.d .y else (spinWorld r s).hits i |>.d .py

theorem spin_weight (r s : ℝ) (i : Nat) : (spinWorld r s).weight i = 1 := by
  simp [BWorld.weight, BWorld.hview, HS.userWeight, spinWorld, WC.new, WC.getWeight, WMap.find]

theorem spin_values (r s : ℝ) (i : Nat) : ∀ v ∈ ["x", "px", "y", "py"],
    Bunch.hitNum realExt (spinWorld r s) i v = .ok (spinVals r s v i) := by
  intro v hv
  simp only [List.mem_cons, List.not_mem_nil, or_false] at hv
  rcases hv with rfl | rfl | rfl | rfl <;> rfl

theorem spin_sum (r s : ℝ) : ¬ |(spinBunch.hits.map (spinWorld r s).weight).sum| < 1 / 1000000000 := by
  simp only [spinBunch, List.map_cons, List.map_nil, spin_weight]; norm_num

theorem spin_normal (r s : ℝ) : spinBunch.Normal (spinWorld r s) := ⟨rfl, rfl, rfl⟩

/-- the covariance matrix of the eight hits -/
def spinMat (r s : ℝ) : List (List ℝ) :=
  [[1, 0, 0, r], [0, r ^ 2 + s ^ 2, -r, 0], [0, -r, 1, 0], [r, 0, 0, r ^ 2 + s ^ 2]]

theorem spin_mean (r s : ℝ) : ∀ v ∈ ["x", "px", "y", "py"],
    wmean spinBunch.hits (spinWorld r s).weight (spinVals r s v) = 0 := by
  have hx : ∀ i, spinVals r s "x" i = [2, -2, 0, 0, 0, 0, 0, 0].getD i 0 := fun i => rfl
  have hpx : ∀ i, spinVals r s "px" i = [0, 0, 0, 0, -(2 * r), 2 * r, 2 * s, -(2 * s)].getD i 0 := fun i => rfl
  have hy : ∀ i, spinVals r s "y" i = [0, 0, 0, 0, 2, -2, 0, 0].getD i 0 := fun i => rfl
  have hpy : ∀ i, spinVals r s "py" i = [2 * r, -(2 * r), 2 * s, -(2 * s), 0, 0, 0, 0].getD i 0 := fun i => rfl
  intro v hv
  simp only [List.mem_cons, List.not_mem_nil, or_false] at hv
  rcases hv with rfl | rfl | rfl | rfl <;>
  simp [wmean, spinBunch, hx, hpx, hy, hpy, spin_weight]

theorem spin_cov (r s : ℝ) : ∀ i j, i < 4 → j < 4 →
    wcov spinBunch (spinWorld r s) (spinVals r s) (["x", "px", "y", "py"].getD i "") (["x", "px", "y", "py"].getD j "") =
      ((spinMat r s).getD i []).getD j 0 := by
  have hx : ∀ i, spinVals r s "x" i = [2, -2, 0, 0, 0, 0, 0, 0].getD i 0 := fun i => rfl
  have hpx : ∀ i, spinVals r s "px" i = [0, 0, 0, 0, -(2 * r), 2 * r, 2 * s, -(2 * s)].getD i 0 := fun i => rfl
  have hy : ∀ i, spinVals r s "y" i = [0, 0, 0, 0, 2, -2, 0, 0].getD i 0 := fun i => rfl
  have hpy : ∀ i, spinVals r s "py" i = [2 * r, -(2 * r), 2 * s, -(2 * s), 0, 0, 0, 0].getD i 0 := fun i => rfl
  have m := spin_mean r s
  simp only [List.mem_cons, List.not_mem_nil, or_false, forall_eq_or_imp, forall_eq] at m
  obtain ⟨m1, m2, m3, m4⟩ := m
  intro i j hi hj
  interval_cases i <;> interval_cases j <;>
  simp [wcov, m1, m2, m3, m4] <;>
  simp [wmoment, spinBunch, hx, hpx, hy, hpy, spin_weight, spinMat] <;> ring

theorem spin_ellipse (r s : ℝ) (M : Mat ℝ)
    (h : ∀ i j, i < 4 → j < 4 → M.entry i j = ((spinMat r s).getD i []).getD j 0) :
    HasEllipse realExt (spinWorld r s) spinBunch ["x", "px", "y", "py"] 1 M := by
  obtain ⟨V, h1, _, _, h4⟩ := Bunch.emitCov_ok realExt (spinWorld r s) spinBunch (spin_normal r s) rfl (spin_sum r s)
    (spinVals r s) ["x", "px", "y", "py"] (fun i _ => spin_values r s i)
  refine ⟨V, ?_, fun i j hi hj => ?_⟩
  · simpa only [Bunch.emitCov, Bunch.covPicker, spinBunch] using h1
  · rw [h4 i j hi hj, one_mul, h i j hi hj]
    exact spin_cov r s i j hi hj

theorem spin_axis (r s : ℝ) : Axis spinBunch (spinWorld r s) (spinVals r s) ["x", "y", "px", "py"] Bunch.canonicalAxis ∧
    Axis spinBunch (spinWorld r s) (spinVals r s) ["x", "y"] Bunch.fieldAxis := by
  constructor
  · intro v hv
    rw [spin_mean r s v (by simp at hv ⊢; tauto)]
    simp only [List.mem_cons, List.not_mem_nil, or_false] at hv
    rcases hv with rfl | rfl | rfl | rfl <;> exact ⟨_, rfl, by simp [PyVal.num?]⟩
  · intro v hv
    rw [spin_mean r s v (by simp at hv ⊢; tauto)]
    simp only [List.mem_cons, List.not_mem_nil, or_false] at hv
    rcases hv with rfl | rfl <;> exact ⟨_, rfl, by simp [PyVal.num?]⟩

/-- the Penn ellipse of the eight hits: emittance, mass, beta and p 1, alpha 0 -/
theorem spin_penn (Lt bz charge u r s : ℝ) (hu : realExt.cLight * bz / 2 - Lt = u) (hr : r = -(u * charge))
    (hs : r ^ 2 + s ^ 2 = 1 + u * u) :
    ∃ M, Bunch.buildPennEllipse realExt.cLight 1 1 1 0 1 Lt bz charge = .ok M ∧
      HasEllipse realExt (spinWorld r s) spinBunch ["x", "px", "y", "py"] 1 M := by
  have h1 : ¬ (1 : ℝ) ≤ 0 := by norm_num
  refine ⟨_, by simp only [Bunch.buildPennEllipse, h1, one_ne_zero, if_false]; rfl, spin_ellipse r s _ ?_⟩
  intro i j hi hj
  interval_cases i <;> interval_cases j <;> simp [spinMat, hu, hr, ← hs]

/-- C116 is false of the canonical angular momentum of particles of charge -1: for all of them it is not
multiplied with the charge, while build_penn_ellipse does.  Here the ellipse is built for no canonical
angular momentum, and 4 is returned. -/
theorem C116_canonical_false : ∃ (M : Mat ℝ) (w : BWorld ℝ) (b : Bunch ℝ) (bz : ℝ),
    Bunch.buildPennEllipse realExt.cLight 1 1 1 0 1 0 bz (-1) = .ok M ∧
    HasEllipse realExt w b ["x", "px", "y", "py"] 1 M ∧ b.Normal w ∧ FirstMass w b 1 ∧
    Bunch.getEmittance realLin realExt w b ["x", "y"] none = .ok 1 ∧
    Bunch.canonicalAngularMomentum realExt w b (some bz) Bunch.fieldAxis Bunch.canonicalAxis = .ok 4 := by
  have hc : realExt.cLight ≠ 0 := by norm_num [realExt]
  obtain ⟨M, h1, h2⟩ := spin_penn 0 (2 / realExt.cLight) (-1) 1 1 1 (by field_simp; norm_num) (by norm_num) (by norm_num)
  obtain ⟨P, hP⟩ := mean_p (E := realExt) (spinWorld 1 1) spinBunch (spin_normal 1 1) rfl (spin_sum 1 1)
  have hm : FirstMass (spinWorld 1 1) spinBunch 1 := ⟨0, rfl, rfl⟩
  refine ⟨M, spinWorld 1 1, spinBunch, 2 / realExt.cLight, h1, h2, spin_normal 1 1, hm, ?_, ?_⟩
  · obtain ⟨e, e1, e2, e3⟩ := C116_any_charge realLin_lawful realExt (spinWorld 1 1) spinBunch (spin_normal 1 1) rfl
      (spin_sum 1 1) (spinVals 1 1) rfl (fun i _ => spin_values 1 1 i) 1 1 1 0 1 0 _ (-1) one_pos one_pos one_ne_zero one_pos
      hm M h1 h2
    have : e = 1 := by
      norm_num at e3
      rcases e3 with h | h
      · exact h
      · rw [h] at e2; norm_num at e2
    rw [e1, this]
  · have := (C116_angular_momentum_partial realLin_lawful realExt (spinWorld 1 1) spinBunch (spin_normal 1 1) rfl
      (spin_sum 1 1) (spinVals 1 1) rfl (fun i _ => spin_values 1 1 i) 1 1 1 0 1 0 _ (-1) one_pos one_pos one_ne_zero
      one_pos M h1 1 h2 Bunch.canonicalAxis Bunch.fieldAxis (spin_axis 1 1).1 (spin_axis 1 1).2).2.2 rfl
    rw [this]
    congr 1
    field_simp
    norm_num

/-- C116 is false for charges other than 1 and -1: the ellipse for neutral particles built for emittance 1
has emittance 5/4. -/
theorem C116_charge_false : ∃ (M : Mat ℝ) (w : BWorld ℝ) (b : Bunch ℝ),
    Bunch.buildPennEllipse realExt.cLight 1 1 1 0 1 (-3 / 4) 0 0 = .ok M ∧
    HasEllipse realExt w b ["x", "px", "y", "py"] 1 M ∧ b.Normal w ∧ FirstMass w b 1 ∧
    Bunch.getEmittance realLin realExt w b ["x", "y"] none = .ok (5 / 4) := by
  obtain ⟨M, h1, h2⟩ := spin_penn (-3 / 4) 0 0 (3 / 4) 0 (5 / 4) (by norm_num) (by norm_num) (by norm_num)
  have hm : FirstMass (spinWorld 0 (5 / 4)) spinBunch 1 := ⟨0, rfl, rfl⟩
  refine ⟨M, spinWorld 0 (5 / 4), spinBunch, h1, h2, spin_normal _ _, hm, ?_⟩
  obtain ⟨e, e1, e2, e3⟩ := C116_any_charge realLin_lawful realExt (spinWorld 0 (5 / 4)) spinBunch (spin_normal _ _) rfl
    (spin_sum _ _) (spinVals 0 (5 / 4)) rfl (fun i _ => spin_values _ _ i) 1 1 1 0 1 (-3 / 4) 0 0 one_pos one_pos
    one_ne_zero one_pos hm M h1 h2
  have h3 : e ^ 2 = (5 / 4) ^ 2 := by rw [e3]; norm_num
  rw [e1, (pow_left_inj₀ e2 (by norm_num) (by decide : (2 : Nat) ≠ 0)).mp h3]

/-- case for C116_penn_partial and C116_angular_momentum_partial: charge 1, built for Lt = -1 without field -/
example : ∃ (M : Mat ℝ) (P : ℝ), Bunch.buildPennEllipse realExt.cLight 1 1 1 0 1 (-1) 0 1 = .ok M ∧
    Bunch.meanOf realExt (spinWorld (-1) 1) spinBunch "p" = .ok P ∧
    (P ≠ 0 → Returns realLin realExt (spinWorld (-1) 1) spinBunch ["x", "y"] false 1 P 0 (2 / P)) ∧
    Bunch.canonicalAngularMomentum realExt (spinWorld (-1) 1) spinBunch (some 0) Bunch.fieldAxis Bunch.canonicalAxis =
      .ok (-2) := by
  obtain ⟨M, h1, h2⟩ := spin_penn (-1) 0 1 1 (-1) 1 (by norm_num) (by norm_num) (by norm_num)
  obtain ⟨P, hP⟩ := mean_p (E := realExt) (spinWorld (-1) 1) spinBunch (spin_normal _ _) rfl (spin_sum _ _)
  have hm : FirstMass (spinWorld (-1) 1) spinBunch 1 := ⟨0, rfl, rfl⟩
  refine ⟨M, P, h1, hP, fun hP0 => ?_, ?_⟩
  · have := C116_penn_partial realLin_lawful realExt (spinWorld (-1) 1) spinBunch (spin_normal _ _) rfl (spin_sum _ _)
      (spinVals (-1) 1) rfl (fun i _ => spin_values _ _ i) 1 1 1 0 1 (-1) 0 1 one_pos one_pos one_ne_zero one_pos hm
      (.inl rfl) M h1 1 one_pos h2 P hP hP0
    norm_num at this
    exact this
  · have := (C116_angular_momentum_partial realLin_lawful realExt (spinWorld (-1) 1) spinBunch (spin_normal _ _) rfl
      (spin_sum _ _) (spinVals (-1) 1) rfl (fun i _ => spin_values _ _ i) 1 1 1 0 1 (-1) 0 1 one_pos one_pos one_ne_zero
      one_pos M h1 1 h2 Bunch.canonicalAxis Bunch.fieldAxis (spin_axis _ _).1 (spin_axis _ _).2).2.1 rfl
    rw [this]
    norm_num

/-- case for C116_plane and C116_transform_to: the eight hits matched to beta 5, alpha 2 for momentum 3 -/
example : ∃ (M : Mat ℝ) (w' : BWorld ℝ) (e P : ℝ), Bunch.buildEllipse2d 5 2 7 3 1 false = .ok M ∧
    Bunch.transformTo realEigh realExt Amp.twiceBunch ["x", "px"] M [("x", 1)] [] "" Amp.twiceWorld = (.ok (), w') ∧
    Bunch.getEmittance realEigh realExt Amp.twiceWorld Amp.twiceBunch ["x"] none = .ok e ∧
    Bunch.meanOf realExt w' Amp.twiceBunch "p" = .ok P ∧
    (P ≠ 0 → Returns realEigh realExt w' Amp.twiceBunch ["x"] false e (5 * P / 3) 2 ((1 + 2 ^ 2) / 5 * 3 / P)) := by
  obtain ⟨M, hM, _⟩ := C30_ellipse_2d (5 : ℝ) 2 7 3 1 false (by norm_num) (by norm_num) (.inr (by norm_num))
  obtain ⟨V, v1, v2, v3, v4⟩ := Bunch.emitCov_ok realExt Amp.twiceWorld Amp.twiceBunch ⟨rfl, rfl, rfl⟩ rfl Amp.twice_sum
    Amp.twiceVals ["x", "px"] (fun i _ => Amp.twice_values i)
  obtain ⟨c1, c2, c3⟩ := Amp.twice_cov
  have e00 : V.entry 0 0 = 841 / 1764 := (v4 0 0 (by simp) (by simp)).trans c1
  have e11 : V.entry 1 1 = 25 / 36 := (v4 1 1 (by simp) (by simp)).trans c2
  have e01 : V.entry 0 1 = 0 := (v4 0 1 (by simp) (by simp)).trans c3
  have e10 : V.entry 1 0 = 0 := (v4 1 0 (by simp) (by simp)).trans ((wcov_comm _ _ _ _ _).trans c3)
  obtain ⟨w', e, P, h⟩ := C116_transform_to realEigh_lawful realEigh_eigh realExt_lawful Amp.twiceWorld Amp.twiceBunch
    WC.WF.new (by decide) ⟨rfl, rfl, rfl⟩ rfl Amp.twice_sum Amp.twiceVals [("x", 1)] rfl "x" "px" (by decide)
    (fun i _ => Amp.twice_values i) 5 2 7 3 1 (by norm_num) (by norm_num) (by norm_num) one_pos ⟨0, rfl, rfl⟩ M hM V
    (by simpa only [Bunch.emitCov, Bunch.covPicker, Amp.twiceBunch] using v1)
    (two_posDefinite _ (by rw [e00]; norm_num) (by rw [e01, e10]) (by rw [e00, e01, e11]; norm_num))
  exact ⟨M, w', e, P, hM, h⟩

/-- the eight hits of `Amp.twiceWorld` after set_geometric_momentum(True) -/
noncomputable def slopeWorld : BWorld ℝ := { Amp.twiceWorld with geo := true }

/-- their positions and slopes -/
noncomputable def slopeVals (v : String) (i : Nat) : ℝ :=
  if v = "x" then (slopeWorld.hits i).d .x else (slopeWorld.hits i).d .px / (slopeWorld.hits i).d .pz

/-- case for C116_geometric -/
example : ∃ M : Mat ℝ, Bunch.buildEllipse2d (58 / 35) 0 (145 / 504) 3 1 true = .ok M ∧
    Returns realLin realExt slopeWorld Amp.twiceBunch ["x"] true (145 / 504) (58 / 35) 0 (35 / 58) := by
  have hb : ¬ (58 / 35 : ℝ) ≤ 0 := by norm_num
  have he : ¬ (145 / 504 : ℝ) ≤ 0 := by norm_num
  have hb0 : (58 / 35 : ℝ) ≠ 0 := by norm_num
  have hw : ∀ i, slopeWorld.weight i = 1 := Amp.twice_weight
  have hv : ∀ i ∈ Amp.twiceBunch.hits, ∀ v ∈ ["x", "x'"], Bunch.hitNum realExt slopeWorld i v = .ok (slopeVals v i) := by
    intro i _ v hv
    simp only [List.mem_cons, List.not_mem_nil, or_false] at hv
    rcases hv with rfl | rfl
    · rfl
    · have hz : (slopeWorld.hview i).core.d .pz = 2 := rfl
      have hg : ∀ t : HS ℝ, Hit.get realExt "x'" t = Hit.ret Hit.get_xP t := fun _ => rfl
      have hf : ∀ t : HS ℝ, Hit.getF "px" t = (.ok (t.core.d .px), t) ∧ Hit.getF "pz" t = (.ok (t.core.d .pz), t) :=
        fun _ => ⟨rfl, rfl⟩
      simp [Bunch.hitNum, Hit.getNum, hg, Hit.ret, Hit.get_xP, Hit.divF, PyM.bind_apply, (hf _).1, (hf _).2, hz]
      rfl
  have hsum : ¬ |(Amp.twiceBunch.hits.map slopeWorld.weight).sum| < 1 / 1000000000 := Amp.twice_sum
  have hx : ∀ i, slopeVals "x" i = [1, -1, 0, 0, 20 / 21, -20 / 21, 0, 0].getD i 0 := fun i => rfl
  have hp : ∀ i, slopeVals "x'" i = [0, 0, 1, -1, 0, 0, 4 / 3, -4 / 3].getD i 0 / 2 := fun i => rfl
  obtain ⟨V, v1, v2, v3, v4⟩ := Bunch.emitCov_ok realExt slopeWorld Amp.twiceBunch ⟨rfl, rfl, rfl⟩ rfl hsum
    slopeVals ["x", "x'"] hv
  obtain ⟨M, hM⟩ : ∃ M : Mat ℝ, Bunch.buildEllipse2d (58 / 35) 0 (145 / 504) 3 1 true = .ok M :=
    ⟨_, by simp only [Bunch.buildEllipse2d, hb, he, hb0, if_false, if_true]; rfl⟩
  have hM' := hM
  simp only [Bunch.buildEllipse2d, hb, he, hb0, if_false, if_true, Except.ok.injEq] at hM'
  refine ⟨M, hM, ?_⟩
  have := C116_geometric realLin_lawful realExt slopeWorld Amp.twiceBunch ⟨rfl, rfl, rfl⟩ rfl hsum slopeVals rfl "x" "x'"
    (by simp [Conjugate]) hv (58 / 35) 0 (145 / 504) 3 1 (by norm_num) (by norm_num) M hM 1 one_pos
    ⟨V, by simpa only [Bunch.emitCov, Bunch.covPicker, Amp.twiceBunch] using v1, fun i j hi hj => by
      rw [v4 i j hi hj, ← hM']
      simp only [List.length_cons, List.length_nil] at hi hj
      interval_cases i <;> interval_cases j <;>
      simp [wcov, wmoment, wmean, Amp.twiceBunch, hx, hp, hw] <;> norm_num⟩
  norm_num at this
  exact this

end Xboa.Matching
