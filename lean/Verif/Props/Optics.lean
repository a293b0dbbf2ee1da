import Verif.Model.Optics
import Mathlib.LinearAlgebra.Matrix.NonsingularInverse
import Mathlib.Analysis.SpecialFunctions.Pow.Real
import Verif.Props.MassShell
import Verif.Props.BunchCov
import Mathlib.Tactic.LinearCombination
import Mathlib.Tactic.IntervalCases
/-
C30 (ellipse construction), C54 (Twiss parameters), C58 (mean amplitude).
-/
set_option linter.unusedSectionVars false
namespace Xboa
open Finset
variable {K : Type} [Field K] [LinearOrder K] [IsStrictOrderedRing K]

theorem Mat.det_two (M : Mat K) (h : M.rows = 2) :
    M.det = M.entry 0 0 * M.entry 1 1 - M.entry 0 1 * M.entry 1 0 := by
  obtain ⟨r, c, e⟩ := M
  simp only at h
  subst h
  unfold Mat.det
  exact Matrix.det_fin_two _

/-! ### C30 -/

/-- A symmetric matrix with the given shape and determinant. -/
structure IsEllipse (M : Mat K) (n : Nat) (det : K) : Prop where
  rows : M.rows = n
  cols : M.cols = n
  symm : ∀ i j, i < n → j < n → M.entry i j = M.entry j i
  det_eq : M.det = det

/-- The quadratic form of a 2 x 2 matrix. -/
def quad2 (M : Mat K) (x y : K) : K :=
  M.entry 0 0 * x ^ 2 + (M.entry 0 1 + M.entry 1 0) * (x * y) + M.entry 1 1 * y ^ 2

/-- C30: a 2d ellipse with valid parameters is symmetric with the requested emittance, is positive
definite for positive momentum and mass, and its elements are the documented Twiss combinations. -/
theorem C30_ellipse_2d (beta alpha emittance p mass : K) (geometric : Bool) (hb : 0 < beta)
    (he : 0 < emittance) (hp : geometric = true ∨ p ≠ 0) :
    ∃ M, Bunch.buildEllipse2d beta alpha emittance p mass geometric = .ok M ∧
      IsEllipse M 2 (if geometric then emittance ^ 2 else (emittance * mass) ^ 2) ∧
      (geometric = true → M.entry 0 0 = beta * emittance ∧ M.entry 0 1 = -alpha * emittance) ∧
      (geometric = false → M.entry 0 0 = beta * emittance * mass / p ∧
        M.entry 0 1 = -alpha * emittance * mass) ∧
      (geometric = true ∨ (0 < p ∧ 0 < mass) →
        ∀ x y, ¬ (x = 0 ∧ y = 0) → 0 < quad2 M x y) := by
  have hpos : ∀ a b c d : K, 0 < a → 0 < a * c - b * d → b = d → ∀ x y : K, ¬ (x = 0 ∧ y = 0) →
      0 < a * x ^ 2 + (b + d) * (x * y) + c * y ^ 2 := by
    intro a b c d ha hdet hbd x y hxy
    subst hbd
    have key : a * (a * x ^ 2 + (b + b) * (x * y) + c * y ^ 2) =
        (a * x + b * y) ^ 2 + (a * c - b * b) * y ^ 2 := by ring
    have : 0 < a * (a * x ^ 2 + (b + b) * (x * y) + c * y ^ 2) := by
      rw [key]
      by_cases hy : y = 0
      · have hx : x ≠ 0 := fun hx => hxy ⟨hx, hy⟩
        subst hy
        have : (a * x) ≠ 0 := mul_ne_zero ha.ne' hx
        simp only [mul_zero, add_zero]
        positivity
      · have : 0 < (a * c - b * b) * y ^ 2 := by positivity
        have := sq_nonneg (a * x + b * y)
        linarith
    exact (mul_pos_iff_of_pos_left ha).mp this
  cases geometric with
  | true =>
    refine ⟨⟨2, 2, fun i j => if i = 0 ∧ j = 0 then beta * emittance
        else if i = 1 ∧ j = 1 then (1 + alpha ^ 2) / beta * emittance else -alpha * emittance⟩,
      ?_, ⟨rfl, rfl, ?_, ?_⟩, ?_, ?_, ?_⟩
    · simp [Bunch.buildEllipse2d, hb.ne', not_le.mpr hb, not_le.mpr he]
    · intro i j hi hj
      simp only [and_comm]
    · rw [Mat.det_two _ rfl]
      simp
      field_simp
      ring
    · intro _; simp
    · intro h; cases h
    · intro _ x y hxy
      refine hpos _ _ _ _ ?_ ?_ ?_ x y hxy
      · simp; positivity
      · simp
        have : beta * emittance * ((1 + alpha ^ 2) / beta * emittance) - alpha * emittance * (alpha * emittance) = emittance ^ 2 := by
          field_simp; ring
        have h2 : 0 < emittance ^ 2 := by positivity
        linarith
      · simp
  | false =>
    have hp' : p ≠ 0 := by rcases hp with h | h; cases h; exact h
    refine ⟨⟨2, 2, fun i j => if i = 0 ∧ j = 0 then beta * emittance * mass / p
        else if i = 1 ∧ j = 1 then (1 + alpha ^ 2) / beta * emittance * mass * p
        else -alpha * emittance * mass⟩, ?_, ⟨rfl, rfl, ?_, ?_⟩, ?_, ?_, ?_⟩
    · simp [Bunch.buildEllipse2d, hb.ne', not_le.mpr hb, not_le.mpr he, hp']
    · intro i j hi hj
      simp only [and_comm]
    · rw [Mat.det_two _ rfl]
      simp
      field_simp
      ring
    · intro h; cases h
    · intro _; simp
    · intro h x y hxy
      obtain ⟨hp0, hm⟩ : 0 < p ∧ 0 < mass := by rcases h with h | h; cases h; exact h
      refine hpos _ _ _ _ ?_ ?_ ?_ x y hxy
      · simp; positivity
      · simp
        have : beta * emittance * mass / p * ((1 + alpha ^ 2) / beta * emittance * mass * p) -
            alpha * emittance * mass * (alpha * emittance * mass) = (emittance * mass) ^ 2 := by
          field_simp; ring
        have h2 : 0 < (emittance * mass) ^ 2 := by positivity
        linarith
      · simp

/-- C30: the Penn ellipse with charge +1 or -1 is symmetric with 4d emittance as requested. -/
theorem C30_penn (c emittance mass beta alpha p Lt bz q : K) (hb : 0 < beta) (he : 0 < emittance)
    (hm : 0 < mass) (hp : p ≠ 0) (hq : q ^ 2 = 1) :
    ∃ M, Bunch.buildPennEllipse c emittance mass beta alpha p Lt bz q = .ok M ∧
      IsEllipse M 4 ((emittance * mass) ^ 4) := by
  have hok : ∃ M, Bunch.buildPennEllipse c emittance mass beta alpha p Lt bz q = .ok M := by
    simp [Bunch.buildPennEllipse, not_le.mpr hb, not_le.mpr he, not_le.mpr hm, hp]
  obtain ⟨M, h⟩ := hok
  refine ⟨M, h, ?_⟩
  simp only [Bunch.buildPennEllipse, not_le.mpr hb, not_le.mpr he, not_le.mpr hm, hp, if_false,
    Except.ok.injEq] at h
  subst h
  refine ⟨rfl, rfl, ?_, ?_⟩
  · intro i j hi hj
    interval_cases i <;> interval_cases j <;> simp
  · unfold Mat.det
    have : ∀ (s a b c : K), Matrix.det (Matrix.of fun i j : Fin 4 =>
        (([[s, a, 0, c], [a, b, -c, 0], [0, -c, s, a], [c, 0, a, b]] : List (List K)).getD i []).getD j 0)
        = (s * b - a ^ 2 - c ^ 2) ^ 2 := by
      intro s a b c
      simp [Matrix.det_succ_row_zero, Fin.sum_univ_succ, Fin.succAbove]
      ring
    rw [this]
    have e : emittance * mass * beta / p * (emittance * mass * p * ((1 + alpha * alpha +
        (beta * (c * bz / 2 / p) - Lt) * (beta * (c * bz / 2 / p) - Lt)) / beta)) -
        (-emittance * mass * alpha) ^ 2 -
        (-emittance * mass * (beta * (c * bz / 2 / p) - Lt) * q) ^ 2 = (emittance * mass) ^ 2 := by
      have : emittance * mass * beta / p * (emittance * mass * p * ((1 + alpha * alpha +
        (beta * (c * bz / 2 / p) - Lt) * (beta * (c * bz / 2 / p) - Lt)) / beta)) =
        (emittance * mass) ^ 2 * (1 + alpha * alpha +
        (beta * (c * bz / 2 / p) - Lt) * (beta * (c * bz / 2 / p) - Lt)) := by
        generalize (beta * (c * bz / 2 / p) - Lt) = u
        field_simp
      rw [this]
      linear_combination (-(emittance * mass) ^ 2 * (beta * (c * bz / 2 / p) - Lt) ^ 2) * hq
    rw [e]
    ring

/-- C30: invalid parameters are rejected with ValueError: negative beta and non-positive emittance
(2d), non-positive beta, emittance or mass (Penn). -/
theorem C30_rejects (c beta alpha emittance p mass Lt bz q : K) (geometric : Bool) :
    (beta < 0 ∨ (0 < beta ∧ emittance ≤ 0) →
      Bunch.buildEllipse2d beta alpha emittance p mass geometric = .error .ValueError) ∧
    (beta ≤ 0 ∨ emittance ≤ 0 ∨ mass ≤ 0 →
      Bunch.buildPennEllipse c emittance mass beta alpha p Lt bz q = .error .ValueError) := by
  constructor
  · rintro (h | ⟨h, h'⟩)
    · simp [Bunch.buildEllipse2d, h.ne, h.le]
    · simp [Bunch.buildEllipse2d, h.ne', not_le.mpr h, h']
  · intro h
    unfold Bunch.buildPennEllipse
    by_cases h1 : beta ≤ 0
    · rw [if_pos h1]
    · rw [if_neg h1]
      by_cases h2 : emittance ≤ 0
      · rw [if_pos h2]
      · rw [if_neg h2, if_pos ((h.resolve_left h1).resolve_left h2)]

/-- C30 is false as stated: build_ellipse_2d divides by beta before it is checked, so beta = 0 gives
ZeroDivisionError, and a negative mass is accepted. -/
theorem C30_false : (∀ alpha emittance p mass : K, ∀ g,
      Bunch.buildEllipse2d 0 alpha emittance p mass g = .error .ZeroDivisionError) ∧
    ∃ M : Mat K, Bunch.buildEllipse2d 1 0 1 1 (-1) false = .ok M := by
  constructor
  · intros; simp [Bunch.buildEllipse2d]
  · exact ⟨_, by simp [Bunch.buildEllipse2d, not_le.mpr (one_pos : (0 : K) < 1)]; rfl⟩

example : (Bunch.buildEllipse2d (2 : ℚ) 1 3 5 7 false).toOption.map
    (fun M => (M.entry 0 0, M.entry 0 1, M.entry 1 1, M.entry 0 0 * M.entry 1 1 - M.entry 0 1 ^ 2)) =
    some (42 / 5, -21, 105, 441) := by decide +kernel

/-! ### C54 -/

private theorem ok_bind {α β : Type} (x : α) (f : α → Except Err β) :
    ((Except.ok x : Except Err α) >>= f) = f x := rfl
private theorem ok_map {α β : Type} (x : α) (f : α → β) :
    f <$> (Except.ok x : Except Err α) = .ok (f x) := rfl

/-- The weighted covariance of two variables about their means. -/
def wcov (b : Bunch K) (w : BWorld K) (vals : String → Nat → K) (u v : String) : K :=
  wmoment b.hits w.weight [fun i => vals u i - wmean b.hits w.weight (vals u),
    fun i => vals v i - wmean b.hits w.weight (vals v)]

theorem wcov_comm (b : Bunch K) (w : BWorld K) (vals : String → Nat → K) (u v : String) :
    wcov b w vals u v = wcov b w vals v u :=
  (wmoment_order_and_zero_weight b.hits [] w.weight _ _).2.1 (List.Perm.swap _ _ _)

/-- The momentum variable of an axis: the slope with the geometric convention, else the momentum (for
a time axis the energy). -/
def Conjugate (geo : Bool) (axis mom : String) : Prop :=
  (axis, mom) ∈ (if geo then [("x", "x'"), ("y", "y'"), ("z", "z'"), ("t", "t'"), ("ct", "ct'")]
    else [("x", "px"), ("y", "py"), ("z", "pz"), ("t", "energy"), ("ct", "energy")])

/-- `mass` is the mass of the first hit of the bunch. -/
def FirstMass (w : BWorld K) (b : Bunch K) (mass : K) : Prop :=
  ∃ i, b.hits.head? = some i ∧ (w.hits i).d .mass = mass

theorem Conjugate.momVar {geo : Bool} {a m : String} (h : Conjugate geo a m) :
    Bunch.momVar geo a = .ok m := by
  cases geo <;> simp only [Conjugate, if_true, Bool.false_eq_true, if_false, List.mem_cons,
    Prod.mk.injEq, List.not_mem_nil, or_false] at h <;>
  rcases h with ⟨rfl, rfl⟩ | ⟨rfl, rfl⟩ | ⟨rfl, rfl⟩ | ⟨rfl, rfl⟩ | ⟨rfl, rfl⟩ <;> decide

theorem FirstMass.firstMass {w : BWorld K} {b : Bunch K} {mass : K} (h : FirstMass w b mass) :
    Bunch.firstMass w b = .ok mass := by
  obtain ⟨i, hi, rfl⟩ := h
  cases hh : b.hits with
  | nil => rw [hh] at hi; cases hi
  | cons x r => rw [hh] at hi; cases hi; simp [Bunch.firstMass, hh]

section
variable (E : Ext K) (w : BWorld K) (b : Bunch K) (hb : b.Normal w) (hmeans : b.means = [])
  (hW : ¬ |(b.hits.map w.weight).sum| < 1 / 1000000000) (vals : String → Nat → K)
include hb hmeans hW

theorem Bunch.mean_ok (vars : List String)
    (hv : ∀ i ∈ b.hits, ∀ v ∈ vars, Bunch.hitNum E w i v = .ok (vals v i)) :
    ∃ d, Bunch.mean E w b vars = .ok d ∧
      ∀ v ∈ vars, d.lookup v = some (.flt (wmean b.hits w.weight (vals v))) := by
  rw [← Bunch.bunchWeight_eq] at hW
  obtain ⟨d, h1, h2, h3⟩ := Bunch.meanLoop_ok E w b hb hmeans hW vals vars hv [] (by simp)
  refine ⟨d, h1, ?_⟩
  intro v hvm
  cases hl : d.lookup v with
  | none => exact absurd hl (h3 v (.inl hvm))
  | some p => rw [h2 v p hl]

theorem Bunch.meanOf_ok (v : String)
    (hv : ∀ i ∈ b.hits, Bunch.hitNum E w i v = .ok (vals v i)) :
    Bunch.meanOf E w b v = .ok (wmean b.hits w.weight (vals v)) := by
  obtain ⟨d, h1, h2⟩ := Bunch.mean_ok E w b hb hmeans hW vals [v] (by
    intro i hi u hu; simp only [List.mem_singleton] at hu; subst hu; exact hv i hi)
  simp only [Bunch.meanOf, h1, h2 v (by simp)]

theorem Bunch.cov2_ok (u v : String)
    (hu : ∀ i ∈ b.hits, Bunch.hitNum E w i u = .ok (vals u i))
    (hv : ∀ i ∈ b.hits, Bunch.hitNum E w i v = .ok (vals v i)) :
    Bunch.cov2 E w b u v = .ok (wcov b w vals u v) := by
  have hall : ∀ i ∈ b.hits, ∀ x ∈ [u, v], Bunch.hitNum E w i x = .ok (vals x i) := by
    intro i hi x hx
    simp only [List.mem_cons, List.not_mem_nil, or_false] at hx
    rcases hx with rfl | rfl
    · exact hu i hi
    · exact hv i hi
  obtain ⟨d, h1, h2⟩ := Bunch.mean_ok E w b hb hmeans hW vals [u, v] hall
  simp only [Bunch.cov2, h1]
  exact C19_moment E w b hb hW [u, v] d vals (fun x => wmean b.hits w.weight (vals x)) hall
    (fun x hx => ⟨_, h2 x hx, rfl⟩)

/-- the covariance matrix of an axis list, with its entries -/
theorem Bunch.emitCov_ok (cl : List String)
    (hv : ∀ i ∈ b.hits, ∀ v ∈ cl, Bunch.hitNum E w i v = .ok (vals v i)) :
    ∃ M, Bunch.emitCov E w b cl none = .ok M ∧ M.rows = cl.length ∧ M.cols = cl.length ∧
      ∀ i j, i < cl.length → j < cl.length →
        M.entry i j = wcov b w vals (cl.getD i "") (cl.getD j "") := by
  obtain ⟨M, h1, h2, h3, h4⟩ := C21_bunch_entries E w b hb hmeans hW cl [] vals hv (by simp)
  refine ⟨M, ?_, h2, h3, ?_⟩
  · simp only [Bunch.emitCov, Bunch.covPicker, hb.covs, h1]
  · intro i j hi hj
    rw [h4 i j hi hj]
    rfl

/-- the squared one dimensional emittance -/
theorem Bunch.emittance_one {L : LinAlg K} (hL : L.Lawful) (a m : String)
    (hm : Bunch.momVar w.geo a = .ok m)
    (hv : ∀ i ∈ b.hits, ∀ v ∈ [a, m], Bunch.hitNum E w i v = .ok (vals v i))
    (hD : 0 < wcov b w vals a a * wcov b w vals m m - wcov b w vals a m ^ 2)
    (mass : K) (hmass : w.geo = true ∨ (Bunch.firstMass w b = .ok mass ∧ mass ≠ 0)) :
    ∃ e, Bunch.getEmittance L E w b [a] none = .ok e ∧ e ≠ 0 ∧
      (if w.geo then e ^ 2 else (e * mass) ^ 2) =
        wcov b w vals a a * wcov b w vals m m - wcov b w vals a m ^ 2 := by
  obtain ⟨M, h1, h2, h3, h4⟩ := Bunch.emitCov_ok E w b hb hmeans hW vals [a, m] hv
  have hdet : M.det = wcov b w vals a a * wcov b w vals m m - wcov b w vals a m ^ 2 := by
    rw [Mat.det_two M h2, h4 0 0 (by simp) (by simp), h4 0 1 (by simp) (by simp),
      h4 1 0 (by simp) (by simp), h4 1 1 (by simp) (by simp)]
    simp only [List.getD_cons_zero, List.getD_cons_succ]
    rw [wcov_comm b w vals m a]
    ring
  have hcl : Bunch.covList w.geo [a] = .ok [a, m] := by simp [Bunch.covList, hm]
  have hroot := hL.root_pow 2 M.det (by simp) (by rw [hdet]; exact hD.le)
  have hroot0 : L.root 2 M.det ≠ 0 := by
    intro h0
    rw [h0, hdet] at hroot
    rw [← hroot] at hD
    simp at hD
  have hnn : ¬ M.det < 0 := by rw [hdet]; exact not_lt.mpr hD.le
  cases hg : w.geo with
  | true =>
    refine ⟨L.root 2 M.det, ?_, hroot0, ?_⟩
    · rw [hg] at hcl
      simp [Bunch.getEmittance, hg, hcl, h1, h2, h3, hnn]
    · rw [if_pos rfl, hroot, hdet]
  | false =>
    obtain ⟨hf, hm0⟩ : Bunch.firstMass w b = .ok mass ∧ mass ≠ 0 := by
      rcases hmass with h | h
      · rw [hg] at h; cases h
      · exact h
    refine ⟨L.root 2 M.det / mass, ?_, div_ne_zero hroot0 hm0, ?_⟩
    · rw [hg] at hcl
      cases hh : b.hits with
      | nil => simp [Bunch.firstMass, hh] at hf
      | cons h r =>
        simp only [Bunch.firstMass, hh, Except.ok.injEq] at hf
        simp [Bunch.getEmittance, hg, hcl, h1, h2, h3, hnn, hh, hf, hm0]
    · rw [if_neg (by simp), div_mul_cancel₀ _ hm0, hroot, hdet]

/-- C54, exact law: with one axis `a`, global flag `w.geo` (momentum `m`) and argument `geometric`
(momentum `m'`), the three functions succeed and beta * gamma - alpha^2 is the determinant of the
covariance of (a, m') divided by the squared emittance computed from (a, m). -/
theorem C54_exact {L : LinAlg K} (hL : L.Lawful) (geometric : Bool) (a m m' : String)
    (hm : Conjugate w.geo a m) (hm' : Conjugate geometric a m')
    (hv : ∀ i ∈ b.hits, ∀ v ∈ [a, m, m', "p"], Bunch.hitNum E w i v = .ok (vals v i))
    (hD : 0 < wcov b w vals a a * wcov b w vals m m - wcov b w vals a m ^ 2)
    (mass : K) (hmass : FirstMass w b mass ∧ mass ≠ 0)
    (hp : wmean b.hits w.weight (vals "p") ≠ 0) :
    ∃ beta gamma alpha, Bunch.getBeta L E w b [a] geometric = .ok beta ∧
      Bunch.getGamma L E w b [a] geometric = .ok gamma ∧
      Bunch.getAlpha L E w b [a] geometric = .ok alpha ∧
      (beta * gamma - alpha ^ 2) * ((if w.geo then 1 else 1 / mass ^ 2) *
          (wcov b w vals a a * wcov b w vals m m - wcov b w vals a m ^ 2)) =
        (if geometric then 1 else 1 / mass ^ 2) *
          (wcov b w vals a a * wcov b w vals m' m' - wcov b w vals a m' ^ 2) := by
  replace hm := hm.momVar
  replace hm' := hm'.momVar
  replace hmass := And.intro hmass.1.firstMass hmass.2
  obtain ⟨e, he, he0, he2⟩ := Bunch.emittance_one E w b hb hmeans hW vals hL a m hm
    (fun i hi v hvm => hv i hi v (by simp at hvm ⊢; tauto)) hD mass (.inr hmass)
  obtain ⟨hf, hm0⟩ := hmass
  have va : ∀ i ∈ b.hits, Bunch.hitNum E w i a = .ok (vals a i) := fun i hi => hv i hi a (by simp)
  have vm : ∀ i ∈ b.hits, Bunch.hitNum E w i m' = .ok (vals m' i) := fun i hi => hv i hi m' (by simp)
  have vp : ∀ i ∈ b.hits, Bunch.hitNum E w i "p" = .ok (vals "p" i) := fun i hi => hv i hi "p" (by simp)
  have caa := Bunch.cov2_ok E w b hb hmeans hW vals a a va va
  have cmm := Bunch.cov2_ok E w b hb hmeans hW vals m' m' vm vm
  have cam := Bunch.cov2_ok E w b hb hmeans hW vals a m' va vm
  have hmp := Bunch.meanOf_ok E w b hb hmeans hW vals "p" vp
  have he2' : (if w.geo then 1 else 1 / mass ^ 2) *
      (wcov b w vals a a * wcov b w vals m m - wcov b w vals a m ^ 2) = e ^ 2 := by
    rw [← he2]
    cases w.geo with
    | true => simp
    | false => simp; field_simp
  rw [he2']
  generalize wmean b.hits w.weight (vals "p") = p at *
  generalize wcov b w vals a a = A at *
  generalize wcov b w vals m' m' = C at *
  generalize wcov b w vals a m' = B at *
  cases geometric with
  | true =>
    refine ⟨A / e, C / e, -(B / e), ?_, ?_, ?_, ?_⟩
    · simp [Bunch.getBeta, he, Bunch.sumAxes, caa, Bunch.pyDiv, ok_bind, ok_map, he0]
    · simp [Bunch.getGamma, he, Bunch.sumAxes, Bunch.momVariance, hm', cmm, Bunch.pyDiv, ok_bind, ok_map, he0]
    · simp [Bunch.getAlpha, he, Bunch.sumAxes, Bunch.axisCov, hm', cam, Bunch.pyDiv, ok_bind, ok_map, he0]
    · simp only [if_true, one_mul]
      field_simp
  | false =>
    refine ⟨A * (p / (e * mass)), C / (p * mass) / e, -(B / (e * mass)), ?_, ?_, ?_, ?_⟩
    · simp [Bunch.getBeta, he, Bunch.sumAxes, caa, Bunch.pyDiv, ok_bind, ok_map, he0, hmp, hf, hm0]
    · simp [Bunch.getGamma, he, Bunch.sumAxes, Bunch.momVariance, hm', cmm, Bunch.pyDiv, ok_bind, ok_map, he0, hmp,
        hf, hm0, hp]
    · simp [Bunch.getAlpha, he, Bunch.sumAxes, Bunch.axisCov, hm', cam, Bunch.pyDiv, ok_bind, ok_map, he0, hf, hm0]
    · simp only [Bool.false_eq_true, if_false]
      field_simp

/-- C54_partial: with the momentum convention of the global flag (the default), beta * gamma -
alpha^2 = 1 in one plane.
Missing: an explicit `geometric` argument different from the global flag (false). -/
theorem C54_partial {L : LinAlg K} (hL : L.Lawful) (a m : String)
    (hm : Conjugate w.geo a m)
    (hv : ∀ i ∈ b.hits, ∀ v ∈ [a, m, "p"], Bunch.hitNum E w i v = .ok (vals v i))
    (hD : 0 < wcov b w vals a a * wcov b w vals m m - wcov b w vals a m ^ 2)
    (mass : K) (hmass : FirstMass w b mass ∧ mass ≠ 0)
    (hp : wmean b.hits w.weight (vals "p") ≠ 0) :
    ∃ beta gamma alpha, Bunch.getBeta L E w b [a] w.geo = .ok beta ∧
      Bunch.getGamma L E w b [a] w.geo = .ok gamma ∧
      Bunch.getAlpha L E w b [a] w.geo = .ok alpha ∧ beta * gamma - alpha ^ 2 = 1 := by
  obtain ⟨be, ga, al, h1, h2, h3, h4⟩ := C54_exact E w b hb hmeans hW vals hL w.geo a m m hm hm
    (fun i hi v hvm => hv i hi v (by simp at hvm ⊢; tauto)) hD mass hmass hp
  refine ⟨be, ga, al, h1, h2, h3, ?_⟩
  have hne : (if w.geo then 1 else 1 / mass ^ 2) *
      (wcov b w vals a a * wcov b w vals m m - wcov b w vals a m ^ 2) ≠ 0 := by
    apply mul_ne_zero _ hD.ne'
    have := hmass.2
    cases w.geo with
    | true => simp
    | false => simp [this]
  exact mul_right_cancel₀ hne (by rw [h4, one_mul])
end

/-- Four hits (1,0), (-1,0), (0,1), (0,-1) in (x, px) with pz = 2, mass 1, unit weights. -/
def exOpticsWorld : BWorld ℚ :=
  { hits := fun i => ⟨fun v => match v with
      | .x => if i = 0 then 1 else if i = 1 then -1 else 0
      | .px => if i = 2 then 1 else if i = 3 then -1 else 0
      | .pz => 2 | .mass => 1 | .local_weight => 1 | _ => 0, fun _ => 0⟩
    ctx := fun _ => WC.new, hcur := 0, bcur := 0, geo := false }
def exOpticsBunch : Bunch ℚ := ⟨[0, 1, 2, 3], [some 0, some 1, some 2, some 3], none, []⟩
/-- a root that is right for the numbers used below -/
def exLin : LinAlg ℚ :=
  ⟨fun _ => none, fun n x => if n = 2 ∧ x = 1 / 4 then 1 / 2 else if n = 1 then x else 0,
    fun M => (fun _ => 0, M)⟩

/-- C54 is false when `geometric` is given and differs from the global flag: beta * gamma - alpha^2
is 1/4 for the four hits. -/
theorem C54_false : ∃ (E : Ext ℚ) (L : LinAlg ℚ) (w : BWorld ℚ) (b : Bunch ℚ) (e be ga al : ℚ),
    b.Normal w ∧ b.means = [] ∧ L.root 2 (1 / 4) = 1 / 2 ∧
    Bunch.cov2 E w b "x" "x" = .ok (1 / 2) ∧ Bunch.cov2 E w b "px" "px" = .ok (1 / 2) ∧
    Bunch.cov2 E w b "x" "px" = .ok 0 ∧
    Bunch.getEmittance L E w b ["x"] none = .ok e ∧
    Bunch.getBeta L E w b ["x"] true = .ok be ∧ Bunch.getGamma L E w b ["x"] true = .ok ga ∧
    Bunch.getAlpha L E w b ["x"] true = .ok al ∧ be * ga - al ^ 2 ≠ 1 := by
  refine ⟨ratExt, exLin, exOpticsWorld, exOpticsBunch, 1 / 2, 1, 1 / 4, 0, ⟨rfl, rfl, rfl⟩, rfl,
    ?_⟩
  decide +kernel

/-- The real numbers with the matrix inverse and the real root are a lawful choice of external
functions. -/
noncomputable def realLin : LinAlg ℝ :=
  ⟨fun M => if h : M.rows = M.cols ∧ M.det ≠ 0 then
      some ⟨M.rows, M.rows, fun i j => if hij : i < M.rows ∧ j < M.rows then
        (Matrix.of fun i j : Fin M.rows => M.entry i j)⁻¹ ⟨i, hij.1⟩ ⟨j, hij.2⟩ else 0⟩
    else none,
   fun n x => x ^ ((1 : ℝ) / n), fun M => (fun _ => 0, M)⟩

theorem realLin_lawful : realLin.Lawful where
  inv_ok M h1 h2 := by simp [realLin, h1, h2]
  inv_mul M N h h1 := by
    simp only [realLin] at h1
    split at h1
    · rename_i hd
      cases h1
      refine ⟨rfl, rfl, fun i j hi hj => ?_⟩
      have hu : IsUnit (Matrix.of fun i j : Fin M.rows => M.entry i j).det :=
        isUnit_iff_ne_zero.mpr hd.2
      have := congrFun (congrFun (Matrix.nonsing_inv_mul _ hu) ⟨i, hi⟩) ⟨j, hj⟩
      rw [Matrix.mul_apply, Matrix.one_apply] at this
      simp only [Mat.mul, Finset.sum_range, Fin.mk.injEq, Matrix.of_apply] at this ⊢
      rw [← this]
      apply Finset.sum_congr rfl
      intro k _
      simp [hi, k.2]
    · cases h1
  root_nonneg n x h := Real.rpow_nonneg h _
  root_pow n x hn h := by
    simp only [realLin]
    rw [← Real.rpow_natCast, ← Real.rpow_mul h]
    simp [hn]

/-- case for C54_partial and C58: four hits over the reals -/
noncomputable def exRealWorld : BWorld ℝ :=
  { hits := fun i => ⟨fun v => match v with
      | .x => if i = 0 then 1 else if i = 1 then -1 else 0
      | .px => if i = 2 then 1 else if i = 3 then -1 else 0
      | .pz => 2 | .mass => 1 | .local_weight => 1 | _ => 0, fun _ => 0⟩
    ctx := fun _ => WC.new, hcur := 0, bcur := 0, geo := false }
def exRealBunch : Bunch ℝ := ⟨[0, 1, 2, 3], [some 0, some 1, some 2, some 3], none, []⟩

/-! ### C58 -/

theorem get_vector_ok (E : Ext K) (s : HS K) (f : String → K) (o : List (String × K)) :
    ∀ vars : List String, (∀ v ∈ vars, (Hit.getNum E v s).1 = .ok (f v)) →
      (Hit.get_vector E vars o s).1 = .ok (vars.map fun v => f v - Hit.lookup0 o v)
  | [], _ => rfl
  | v :: r, h => by
    have hg : Hit.getNum E v s = (.ok (f v), s) :=
      Prod.ext (h v (by simp)) (Hit.getNum_state E v s)
    have ih := get_vector_ok E s f o r (fun u hu => h u (by simp [hu]))
    simp only [Hit.get_vector, PyM.bind_apply, hg]
    cases hr : Hit.get_vector E r o s with
    | mk x s' =>
      rw [hr] at ih
      cases ih
      rfl

theorem Bunch.meanLoop_flt (E : Ext K) (w : BWorld K) (b : Bunch K) (hmeans : b.means = []) :
    ∀ (vars : List String) (acc d : List (String × PyVal K)),
      (∀ p ∈ acc, ∃ a, p.2 = .flt a) → Bunch.meanLoop E w b vars acc = .ok d →
      ∀ p ∈ d, ∃ a, p.2 = .flt a
  | [], acc, d, hacc, h => by cases h; exact hacc
  | v :: r, acc, d, hacc, h => by
    rw [Bunch.meanLoop] at h
    cases hl : acc.lookup v with
    | some _ => rw [hl] at h; exact meanLoop_flt E w b hmeans r acc d hacc h
    | none =>
      rw [hl] at h
      simp only [hmeans, List.lookup] at h
      cases hm : Bunch.momentWith E w b [v] [(v, .flt 0)] with
      | error e => rw [hm] at h; cases h
      | ok m =>
        rw [hm] at h
        refine meanLoop_flt E w b hmeans r _ d ?_ h
        intro p hp
        rcases List.mem_append.mp hp with hp | hp
        · exact hacc p hp
        · simp only [List.mem_singleton] at hp; subst hp; exact ⟨m, rfl⟩

theorem Bunch.numDict_ok : ∀ d : List (String × PyVal K), (∀ p ∈ d, ∃ a, p.2 = .flt a) →
    ∃ l, Bunch.numDict d = .ok l ∧ ∀ v a, d.lookup v = some (.flt a) → Hit.lookup0 l v = a
  | [], _ => ⟨[], rfl, by simp⟩
  | (k, p) :: r, h => by
    obtain ⟨x, hx⟩ := h (k, p) (by simp)
    simp only at hx
    subst hx
    obtain ⟨l, h1, h2⟩ := numDict_ok r (fun q hq => h q (by simp [hq]))
    refine ⟨(k, x) :: l, by simp [Bunch.numDict, h1], ?_⟩
    intro v a hva
    rw [List.lookup_cons] at hva
    unfold Hit.lookup0
    rw [List.lookup_cons]
    cases hvk : v == k with
    | true => rw [hvk] at hva; simp only [Option.some.injEq, PyVal.flt.injEq] at hva; simp [hva]
    | false => rw [hvk] at hva; exact h2 v a hva

theorem sum_list_swap {ι : Type} (s : Finset ι) (f : Nat → ι → K) : ∀ l : List Nat,
    (l.map fun i => ∑ j ∈ s, f i j).sum = ∑ j ∈ s, (l.map fun i => f i j).sum
  | [] => by simp
  | i :: r => by
    simp only [List.map_cons, List.sum_cons, sum_list_swap s f r, Finset.sum_add_distrib]

theorem covList_length (geo : Bool) : ∀ (axes cl : List String),
    Bunch.covList geo axes = .ok cl → cl.length = 2 * axes.length
  | [], cl, h => by cases h; rfl
  | a :: r, cl, h => by
    rw [Bunch.covList] at h
    cases hm : Bunch.momVar geo a with
    | error e => rw [hm] at h; cases h
    | ok m =>
      rw [hm] at h
      cases hc : Bunch.covList geo r with
      | error e => rw [hc] at h; cases h
      | ok l =>
        rw [hc] at h
        cases h
        simp [covList_length geo r l hc]
        ring

/-- the phase space variables of axes with momenta -/
theorem covList_conj (geo : Bool) {axes moms : List String}
    (h : List.Forall₂ (Conjugate geo) axes moms) :
    Bunch.covList geo axes = .ok ((axes.zip moms).flatMap fun p => [p.1, p.2]) := by
  induction h with
  | nil => rfl
  | cons h _ ih => simp [Bunch.covList, h.momVar, ih]

/-- C58: for n axes, every hit has an amplitude and the weighted average of the amplitudes over the
bunch is 2 n times the emittance. -/
theorem C58_mean_amplitude {L : LinAlg K} (hL : L.Lawful) (E : Ext K) (w : BWorld K) (b : Bunch K)
    (hb : b.Normal w) (hmeans : b.means = [])
    (hW : ¬ |(b.hits.map w.weight).sum| < 1 / 1000000000) (vals : String → Nat → K)
    (axes moms cl : List String) (hax : axes ≠ []) (hmom : List.Forall₂ (Conjugate w.geo) axes moms)
    (hcl : cl = (axes.zip moms).flatMap fun p => [p.1, p.2])
    (hv : ∀ i ∈ b.hits, ∀ v ∈ cl, Bunch.hitNum E w i v = .ok (vals v i))
    (hD : 0 < Matrix.det (Matrix.of fun i j : Fin cl.length =>
      wcov b w vals (cl.getD i "") (cl.getD j "")))
    (hmass : w.geo = true ∨ ∃ mass, FirstMass w b mass ∧ mass ≠ 0) :
    ∃ (amp : Nat → K) (eps : K), Bunch.getEmittance L E w b axes none = .ok eps ∧
      (∀ i ∈ b.hits, Bunch.getAmplitude L E w b i axes = .ok (amp i)) ∧
      wmean b.hits w.weight amp = 2 * axes.length * eps := by
  obtain ⟨M, h1, h2, h3, h4⟩ := Bunch.emitCov_ok E w b hb hmeans hW vals cl hv
  replace hcl : Bunch.covList w.geo axes = .ok cl := by rw [hcl]; exact covList_conj _ hmom
  have hlen := covList_length w.geo axes cl hcl
  have hdet : 0 < M.det := by
    unfold Mat.det
    obtain ⟨r, c, e⟩ := M
    simp only at h2 h3 h4 ⊢
    subst h2
    convert hD using 3
    ext i j
    exact h4 _ _ i.2 j.2
  have hn0 : cl.length ≠ 0 := by
    rw [hlen]
    have := List.length_pos_of_ne_nil hax
    omega
  have hem : ∃ eps, ∀ cov, (cov = none ∨ cov = some M) →
      Bunch.getEmittance L E w b axes cov = .ok eps := by
    have hc : ∀ cov, (cov = none ∨ cov = some M) → Bunch.emitCov E w b cl cov = .ok M := by
      rintro cov (rfl | rfl)
      · exact h1
      · rfl
    have hnn : ¬ M.det < 0 := not_lt.mpr hdet.le
    have hcl' := hcl
    cases hg : w.geo with
    | true =>
      rw [hg] at hcl'
      refine ⟨L.root cl.length M.det, fun cov h => ?_⟩
      simp only [Bunch.getEmittance, hcl', hc cov h, h2, h3, ne_eq, not_true_eq_false, if_false, hn0,
        hnn, hg, if_true]
    | false =>
      rcases hmass with h | ⟨mass, hf, hm0⟩
      · rw [hg] at h; cases h
      · replace hf := hf.firstMass
        rw [hg] at hcl'
        refine ⟨L.root cl.length M.det / mass, fun cov h => ?_⟩
        cases hh : b.hits with
        | nil => simp [Bunch.firstMass, hh] at hf
        | cons x r =>
          simp only [Bunch.firstMass, hh, Except.ok.injEq] at hf
          subst hf
          simp only [Bunch.getEmittance, hcl', hc cov h, h2, h3, ne_eq, not_true_eq_false, if_false,
            hn0, hnn, hg, hh, hm0, Bool.false_eq_true]
  obtain ⟨eps, heps⟩ := hem
  obtain ⟨N, hN⟩ := hL.inv_ok M (by rw [h2, h3]) hdet.ne'
  obtain ⟨hN1, hN2, hN3⟩ := hL.inv_mul M N (by rw [h2, h3]) hN
  obtain ⟨d, hd1, hd2⟩ := Bunch.mean_ok E w b hb hmeans hW vals cl hv
  obtain ⟨l, hl1, hl2⟩ := Bunch.numDict_ok d
    (Bunch.meanLoop_flt E w b hmeans cl [] d (by simp) hd1)
  let dev : Nat → Nat → K := fun i j =>
    vals (cl.getD j "") i - wmean b.hits w.weight (vals (cl.getD j ""))
  let amp : Nat → K := fun i =>
    (∑ j ∈ Finset.range cl.length, ∑ k ∈ Finset.range cl.length,
      dev i j * N.entry j k * dev i k) * eps
  refine ⟨amp, eps, heps none (.inl rfl), ?_, ?_⟩
  · intro i hi
    have hvec := get_vector_ok E (w.hview i) (fun v => vals v i) l cl (fun v hvm => hv i hi v hvm)
    simp only [Bunch.getAmplitude, hcl, hd1, hl1, hvec, h1, hN, heps (some M) (.inr rfl)]
    congr 2
    unfold Bunch.quad
    simp only [List.length_map]
    apply Finset.sum_congr rfl
    intro j hj
    apply Finset.sum_congr rfl
    intro k hk
    rw [Finset.mem_range] at hj hk
    have hget : ∀ t, t < cl.length →
        (cl.map fun v => vals v i - Hit.lookup0 l v).getD t 0 = dev i t := by
      intro t ht
      simp only [dev, List.getD_eq_getElem?_getD, List.getElem?_map, List.getElem?_eq_getElem ht,
        Option.map_some, Option.getD_some]
      rw [hl2 _ _ (hd2 _ (List.getElem_mem ht))]
    rw [hget j hj, hget k hk]
  · have hWne : (b.hits.map w.weight).sum ≠ 0 := by
      intro h; rw [h] at hW; norm_num at hW
    have hkey : ∀ j k, j < cl.length → k < cl.length →
        (b.hits.map fun i => w.weight i * (dev i j * N.entry j k * dev i k)).sum =
        N.entry j k * M.entry k j * (b.hits.map w.weight).sum := by
      intro j k hj hk
      rw [h4 k j hk hj, wcov_comm]
      unfold wcov wmoment
      simp only [List.map_cons, List.map_nil, List.prod_cons, List.prod_nil, mul_one]
      rw [mul_assoc, div_mul_cancel₀ _ hWne, ← List.sum_map_mul_left]
      congr 1
      apply List.map_congr_left
      intro i _
      simp only [dev]
      ring
    have hsum : (b.hits.map fun i => w.weight i * amp i).sum =
        (∑ j ∈ Finset.range cl.length, ∑ k ∈ Finset.range cl.length,
          N.entry j k * M.entry k j) * (b.hits.map w.weight).sum * eps := by
      have : (b.hits.map fun i => w.weight i * amp i) = b.hits.map fun i =>
          (∑ j ∈ Finset.range cl.length, ∑ k ∈ Finset.range cl.length,
            w.weight i * (dev i j * N.entry j k * dev i k)) * eps := by
        apply List.map_congr_left
        intro i _
        simp only [amp, ← mul_assoc, Finset.mul_sum]
      rw [this, List.sum_map_mul_right, sum_list_swap]
      congr 1
      rw [Finset.sum_mul]
      apply Finset.sum_congr rfl
      intro j hj
      rw [sum_list_swap, Finset.sum_mul]
      apply Finset.sum_congr rfl
      intro k hk
      exact hkey j k (Finset.mem_range.mp hj) (Finset.mem_range.mp hk)
    have htr : (∑ j ∈ Finset.range cl.length, ∑ k ∈ Finset.range cl.length,
        N.entry j k * M.entry k j) = (cl.length : K) := by
      have : ∀ j ∈ Finset.range cl.length, (∑ k ∈ Finset.range cl.length,
          N.entry j k * M.entry k j) = 1 := by
        intro j hj
        have := hN3 j j (by rw [h2]; exact Finset.mem_range.mp hj)
          (by rw [h2]; exact Finset.mem_range.mp hj)
        simp only [Mat.mul, hN2, h2, if_true] at this
        exact this
      rw [Finset.sum_congr rfl this]
      simp
    unfold wmean
    rw [hsum, htr, hlen]
    field_simp
    push_cast
    ring

/-! cases: four hits over the reals -/

/-- the values of x, px and p of the four hits -/
noncomputable def exRealVals (v : String) (i : Nat) : ℝ :=
  if v = "x" then (exRealWorld.hits i).d .x else if v = "px" then (exRealWorld.hits i).d .px
  else Real.sqrt ((exRealWorld.hits i).d .px ^ 2 + 0 ^ 2 + 2 ^ 2)

theorem exReal_weight (i : Nat) : exRealWorld.weight i = 1 := by
  simp [BWorld.weight, BWorld.hview, HS.userWeight, exRealWorld, HS.globalWeight, WC.new,
    WC.getWeight, WMap.find]
theorem exReal_values (i : Nat) : ∀ v ∈ ["x", "px", "p"],
    Bunch.hitNum realExt exRealWorld i v = .ok (exRealVals v i) := by
  intro v hv
  simp only [List.mem_cons, List.not_mem_nil, or_false] at hv
  rcases hv with rfl | rfl | rfl
  · rfl
  · rfl
  · rfl
theorem exReal_cov : wcov exRealBunch exRealWorld exRealVals "x" "x" = 1 / 2 ∧
    wcov exRealBunch exRealWorld exRealVals "px" "px" = 1 / 2 ∧
    wcov exRealBunch exRealWorld exRealVals "x" "px" = 0 := by
  have hx : ∀ i, exRealVals "x" i = if i = 0 then 1 else if i = 1 then -1 else 0 := fun i => rfl
  have hp : ∀ i, exRealVals "px" i = if i = 2 then 1 else if i = 3 then -1 else 0 := fun i => rfl
  simp only [wcov, wmoment, wmean, exRealBunch, hx, hp, List.map_cons, List.map_nil, exReal_weight]
  norm_num

example : ∃ beta gamma alpha,
    Bunch.getBeta realLin realExt exRealWorld exRealBunch ["x"] false = .ok beta ∧
    Bunch.getGamma realLin realExt exRealWorld exRealBunch ["x"] false = .ok gamma ∧
    Bunch.getAlpha realLin realExt exRealWorld exRealBunch ["x"] false = .ok alpha ∧
    beta * gamma - alpha ^ 2 = 1 := by
  refine C54_partial realExt exRealWorld exRealBunch ⟨rfl, rfl, rfl⟩ rfl ?_ exRealVals
    realLin_lawful "x" "px" (by simp [Conjugate, exRealWorld]) (fun i _ => exReal_values i) ?_ 1
      ⟨⟨0, rfl, rfl⟩, one_ne_zero⟩ ?_
  · simp only [exRealBunch, List.map_cons, List.map_nil, exReal_weight]; norm_num
  · rw [exReal_cov.1, exReal_cov.2.1, exReal_cov.2.2]; norm_num
  · have : ∀ i, 0 < exRealVals "p" i := by
      intro i
      simp only [exRealVals]
      exact Real.sqrt_pos.mpr (by positivity)
    have h0 := this 0
    have h1 := this 1
    have h2 := this 2
    have h3 := this 3
    simp only [wmean, exRealBunch, List.map_cons, List.map_nil, List.sum_cons, List.sum_nil,
      exReal_weight]
    positivity

example : ∃ (amp : Nat → ℝ) (eps : ℝ),
    Bunch.getEmittance realLin realExt exRealWorld exRealBunch ["x"] none = .ok eps ∧
    (∀ i ∈ exRealBunch.hits,
      Bunch.getAmplitude realLin realExt exRealWorld exRealBunch i ["x"] = .ok (amp i)) ∧
    wmean exRealBunch.hits exRealWorld.weight amp = 2 * (1 : ℕ) * eps := by
  refine C58_mean_amplitude realLin_lawful realExt exRealWorld exRealBunch ⟨rfl, rfl, rfl⟩ rfl ?_
    exRealVals ["x"] ["px"] ["x", "px"] (by simp)
    (.cons (by simp [Conjugate, exRealWorld]) .nil) rfl
    (fun i _ v hv => exReal_values i v (by simp at hv ⊢; tauto)) ?_ (.inr ⟨1, ⟨0, rfl, rfl⟩, one_ne_zero⟩)
  · simp only [exRealBunch, List.map_cons, List.map_nil, exReal_weight]; norm_num
  · have : Matrix.det (Matrix.of fun i j : Fin ["x", "px"].length =>
        wcov exRealBunch exRealWorld exRealVals (["x", "px"].getD i "") (["x", "px"].getD j "")) =
        1 / 4 := by
      have h := Matrix.det_fin_two (Matrix.of fun i j : Fin 2 =>
        wcov exRealBunch exRealWorld exRealVals (["x", "px"].getD i "") (["x", "px"].getD j ""))
      refine Eq.trans h ?_
      have e : wcov exRealBunch exRealWorld exRealVals "px" "x" = 0 := by
        rw [wcov_comm]; exact exReal_cov.2.2
      simp [exReal_cov.1, exReal_cov.2.1, exReal_cov.2.2]
      norm_num
    rw [this]; norm_num

end Xboa
