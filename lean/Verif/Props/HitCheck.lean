import Verif.Model.HitCheck
import Verif.Props.MassShell
import Mathlib.Analysis.Real.Sqrt
import Mathlib.Tactic.Linarith
import Mathlib.Tactic.LinearCombination
/-!
C92: Hit.check.
-/
set_option linter.unusedSectionVars false
namespace Xboa
variable {K : Type} [Field K] [LinearOrder K] [IsStrictOrderedRing K] [FloorRing K]

/-! ### specification -/

/-- How far the hit is from the mass shell, in units of energy squared. -/
def HS.shellError (s : HS K) : K :=
  s.core.d .energy ^ 2 - (s.core.d .px ^ 2 + s.core.d .py ^ 2 + s.core.d .pz ^ 2 + s.core.d .mass ^ 2)

/-- The particle type is 0, listed as bad, or one with a known mass, and its mass is then the known
one up to the tolerance. -/
def HS.PidOk (masses : List (Int × K)) (bad : List Int) (tol : K) (s : HS K) : Prop :=
  (∃ m, masses.lookup |s.core.i .pid| = some m ∧ |s.core.d .mass - m| ≤ tol) ∨
  (masses.lookup |s.core.i .pid| = none ∧ (s.core.i .pid = 0 ∨ s.core.i .pid ∈ bad))

/-! ### rounding -/

theorem pyRound_near (x : K) : |x - (pyRound x : K)| ≤ 1 / 2 := by
  have h1 := Int.floor_le x
  have h2 := Int.lt_floor_add_one x
  unfold pyRound
  simp only
  split
  · rw [abs_le]; constructor <;> linarith
  · split
    · push_cast; rw [abs_le]; constructor <;> linarith
    · split
      · rw [abs_le]; constructor <;> linarith
      · push_cast; rw [abs_le]; constructor <;> linarith

theorem check_eq {E : Ext K} (hE : E.Lawful) (masses : List (Int × K)) (bad : List Int) (tol : K)
    (s : HS K) :
    ∃ b, Hit.check E masses bad tol s = (.ok b, s) ∧ (b = true ↔ s.PidOk masses bad tol ∧
      ((|pyRound (s.core.d .px ^ 2 + s.core.d .py ^ 2 + s.core.d .pz ^ 2 + s.core.d .mass ^ 2) -
        pyRound (s.core.d .energy ^ 2)| : Int) : K) ≤ tol) := by
  have h1 : Hit.get E "pid" s = (.ok (.int (s.core.i .pid)), s) := rfl
  have h2 : (Hit.getF "mass" s : Except Err K × HS K) = (.ok (s.core.d .mass), s) := rfl
  have h3 : (Hit.getF "energy" s : Except Err K × HS K) = (.ok (s.core.d .energy), s) := rfl
  have h4 : Hit.get_p E s =
      (.ok (E.sqrt (s.core.d .px ^ 2 + s.core.d .py ^ 2 + s.core.d .pz ^ 2)), s) := rfl
  have hsq : E.sqrt (s.core.d .px ^ 2 + s.core.d .py ^ 2 + s.core.d .pz ^ 2) ^ 2 =
      s.core.d .px ^ 2 + s.core.d .py ^ 2 + s.core.d .pz ^ 2 := by
    rw [sq, hE.sqrt_mul_self _ (by positivity)]
  unfold Hit.check
  rw [PyM.bind_apply, h1]
  simp only
  unfold HS.PidOk
  generalize s.core.i .pid = pid at *
  cases hl : masses.lookup |pid| with
  | none =>
    by_cases hb : pid ∉ bad ∧ pid ≠ 0
    · refine ⟨false, by simp [hb], ?_⟩
      simp only [Bool.false_eq_true, reduceCtorEq, false_and, exists_false, true_and, false_or, false_iff]
      rintro ⟨h | h, _⟩
      · exact hb.2 h
      · exact hb.1 h
    · have hb' : pid = 0 ∨ pid ∈ bad := by
        by_contra h
        rw [not_or] at h
        exact hb ⟨h.2, h.1⟩
      rw [if_neg (by simp only [Option.isNone_none, true_and]; exact hb)]
      simp only [PyM.bind_apply, h2, Bool.false_eq_true, if_false, h4, h3, hsq]
      split
      · rename_i hgt
        refine ⟨false, rfl, ?_⟩
        simp only [Bool.false_eq_true, false_iff, not_and, not_le]
        exact fun _ => hgt
      · rename_i hle
        exact ⟨true, rfl, by simpa [hb'] using not_lt.mp hle⟩
  | some m =>
    rw [if_neg (by simp)]
    simp only [PyM.bind_apply, h2]
    by_cases hm : |s.core.d .mass - m| > tol
    · refine ⟨false, by simp [hm], ?_⟩
      simp only [Bool.false_eq_true, Option.some.injEq, exists_eq_left', reduceCtorEq, false_and, or_false,
        false_iff, not_and]
      intro h
      exact absurd hm (not_lt.mpr h)
    · simp only [hm, decide_false, Bool.false_eq_true, if_false, PyM.bind_apply, h4, h3, hsq]
      split
      · rename_i hgt
        refine ⟨false, rfl, ?_⟩
        simp only [Bool.false_eq_true, false_iff, not_and, not_le]
        exact fun _ => hgt
      · rename_i hle
        refine ⟨true, rfl, ?_⟩
        simp only [true_iff]
        exact ⟨Or.inl ⟨m, rfl, not_lt.mp hm⟩, not_lt.mp hle⟩

/-! ### C92 -/

/-- C92_partial: check() never raises and changes nothing.  It returns True for every hit that is
exactly on the mass shell and has the mass of its particle type; if it returns True, the type and
mass are right and energy squared is within 1 + tolerance of momentum squared plus mass squared.
Missing: a deviation within the tolerance (false, see C92_accepts_false and C92_rejects_false). -/
theorem C92_partial {E : Ext K} (hE : E.Lawful) (masses : List (Int × K)) (bad : List Int) (tol : K)
    (ht : 0 ≤ tol) (s : HS K) :
    ∃ b, Hit.check E masses bad tol s = (.ok b, s) ∧
      (s.PidOk masses bad tol → s.shellError = 0 → b = true) ∧
      (b = true → s.PidOk masses bad tol ∧ |s.shellError| ≤ 1 + tol) := by
  obtain ⟨b, h1, h2⟩ := check_eq hE masses bad tol s
  refine ⟨b, h1, fun hp hs => h2.mpr ⟨hp, ?_⟩, fun hb => ?_⟩
  · unfold HS.shellError at hs
    rw [sub_eq_zero.mp hs]
    simpa using ht
  · obtain ⟨hp, hr⟩ := h2.mp hb
    refine ⟨hp, ?_⟩
    unfold HS.shellError
    set a := s.core.d .px ^ 2 + s.core.d .py ^ 2 + s.core.d .pz ^ 2 + s.core.d .mass ^ 2
    set e := s.core.d .energy ^ 2
    have n1 := abs_le.mp (pyRound_near a)
    have n2 := abs_le.mp (pyRound_near e)
    push_cast at hr
    have n3 := abs_le.mp hr
    rw [abs_le]
    constructor <;> linarith [n1.1, n1.2, n2.1, n2.2, n3.1, n3.2]

/-- case for C92_partial: an antimuon at rest (mass 4 in these units) on the mass shell, and one
with another mass -/
example : (Hit.check ratExt [(13, 4)] [] (1 / 1000)
    ⟨(((Core.new.setI .pid (-13)).setD .mass 4).setD .energy 4), WC.new⟩).1 = .ok true ∧
    (Hit.check ratExt [(13, 4)] [] (1 / 1000)
    ⟨(((Core.new.setI .pid (-13)).setD .mass 5).setD .energy 5), WC.new⟩).1 = .ok false := by
  decide +kernel

theorem pyRound_of_mem {x : ℝ} {n : Int} (h1 : (n : ℝ) - 1 / 2 < x) (h2 : x < n + 1 / 2) :
    pyRound x = n := by
  have := abs_le.mp (pyRound_near x)
  have a : ((pyRound x : Int) : ℝ) < ((n + 1 : Int) : ℝ) := by push_cast; linarith [this.1, this.2]
  have b : ((n - 1 : Int) : ℝ) < ((pyRound x : Int) : ℝ) := by push_cast; linarith [this.1, this.2]
  have a' := Int.cast_lt.mp a
  have b' := Int.cast_lt.mp b
  omega

/-- a hit of given particle type and mass, with the squares of momentum plus mass and of energy -/
noncomputable def offHit (pid : Int) (m m2 e2 : ℝ) : HS ℝ :=
  ⟨(((Core.new.setI .pid pid).setD .mass m).setD .px (Real.sqrt (m2 - m ^ 2))).setD .energy (Real.sqrt e2),
    WC.new⟩

theorem offHit_check {E : Ext ℝ} (hE : E.Lawful) (masses : List (Int × ℝ)) (pid : Int) (m : ℝ)
    (h0 : masses.lookup |pid| = some m) (bad : List Int) (tol m2 e2 : ℝ) (ht : 0 ≤ tol)
    (hm : m ^ 2 ≤ m2) (he : 0 ≤ e2) :
    (offHit pid m m2 e2).shellError = e2 - m2 ∧ (offHit pid m m2 e2).PidOk masses bad tol ∧
    ∃ b, (Hit.check E masses bad tol (offHit pid m m2 e2)).1 = .ok b ∧
      (b = true ↔ ((|pyRound m2 - pyRound e2| : Int) : ℝ) ≤ tol) := by
  have e1 : (offHit pid m m2 e2).core.d .energy ^ 2 = e2 := by simp [offHit, Real.sq_sqrt he]
  have e3 : (offHit pid m m2 e2).core.d .px ^ 2 + (offHit pid m m2 e2).core.d .py ^ 2 +
      (offHit pid m m2 e2).core.d .pz ^ 2 + (offHit pid m m2 e2).core.d .mass ^ 2 = m2 := by
    simp [offHit, Core.new, Core.setI, Real.sq_sqrt (sub_nonneg.mpr hm)]
  have e4 : (offHit pid m m2 e2).core.d .mass = m := by simp [offHit]
  have hp : (offHit pid m m2 e2).PidOk masses bad tol := Or.inl ⟨m, h0, by rw [e4]; simpa using ht⟩
  refine ⟨by rw [HS.shellError, e1, e3], hp, ?_⟩
  obtain ⟨b, h1, h2⟩ := check_eq hE masses bad tol (offHit pid m m2 e2)
  rw [e1, e3] at h2
  exact ⟨b, by rw [h1], h2.trans ⟨fun h => h.2, fun h => ⟨hp, h⟩⟩⟩

/-- C92 is false: for every particle type with a known mass, every amount up to 1 and every tolerance
there is a hit of that type that is off the mass shell by that amount and is accepted. -/
theorem C92_accepts_false {E : Ext ℝ} (hE : E.Lawful) (masses : List (Int × ℝ)) (pid : Int) (m : ℝ)
    (h0 : masses.lookup |pid| = some m) (bad : List Int) (tol : ℝ) (ht : 0 ≤ tol) (e : ℝ) (he : 0 ≤ e)
    (he1 : e < 1) :
    ∃ s : HS ℝ, s.core.i .pid = pid ∧ s.shellError = e ∧ (Hit.check E masses bad tol s).1 = .ok true := by
  have hc := Int.le_ceil (m ^ 2)
  have hs := sq_nonneg m
  obtain ⟨h1, -, b, h2, h3⟩ := offHit_check hE masses pid m h0 bad tol (⌈m ^ 2⌉ + 1 - e / 2)
    (⌈m ^ 2⌉ + 1 + e / 2) ht (by linarith) (by linarith)
  have hb : b = true := by
    rw [h3, pyRound_of_mem (n := ⌈m ^ 2⌉ + 1) (by push_cast; linarith) (by push_cast; linarith),
      pyRound_of_mem (n := ⌈m ^ 2⌉ + 1) (by push_cast; linarith) (by push_cast; linarith)]
    simpa using ht
  exact ⟨_, rfl, by rw [h1]; ring, by rw [h2, hb]⟩

/-- C92 is false: for every particle type with a known mass, every amount, however small, and every
tolerance below 1 there is a hit of that type and mass that is off the mass shell by that amount and
is rejected. -/
theorem C92_rejects_false {E : Ext ℝ} (hE : E.Lawful) (masses : List (Int × ℝ)) (pid : Int) (m : ℝ)
    (h0 : masses.lookup |pid| = some m) (bad : List Int) (tol : ℝ) (ht : 0 ≤ tol) (ht1 : tol < 1) (e : ℝ)
    (he : 0 < e) (he1 : e < 1) :
    ∃ s : HS ℝ, s.core.i .pid = pid ∧ s.shellError = e ∧ s.PidOk masses bad tol ∧
      (Hit.check E masses bad tol s).1 = .ok false := by
  have hc := Int.le_ceil (m ^ 2)
  have hs := sq_nonneg m
  obtain ⟨h1, hp, b, h2, h3⟩ := offHit_check hE masses pid m h0 bad tol (⌈m ^ 2⌉ + 1 / 2 - e / 2)
    (⌈m ^ 2⌉ + 1 / 2 + e / 2) ht (by linarith) (by linarith)
  have hb : b = false := by
    rw [← Bool.not_eq_true, h3,
      pyRound_of_mem (n := ⌈m ^ 2⌉) (by linarith) (by linarith),
      pyRound_of_mem (n := ⌈m ^ 2⌉ + 1) (by push_cast; linarith) (by push_cast; linarith)]
    simpa using ht1
  exact ⟨_, rfl, by rw [h1]; ring, hp, by rw [h2, hb]⟩

/-- case for C92_accepts_false and C92_rejects_false: the mass table at 0 and 13 (_common.py:87), the
default tolerance, antimuons off by 99 hundredths and by a millionth -/
example : (∃ s : HS ℝ, s.core.i .pid = -13 ∧ s.shellError = 99 / 100 ∧
      (Hit.check realExt [(0, 0), (13, 105.6583668)] [] (1 / 1000) s).1 = .ok true) ∧
    (∃ s : HS ℝ, s.core.i .pid = -13 ∧ s.shellError = 1 / 1000000 ∧
      s.PidOk [(0, 0), (13, 105.6583668)] [] (1 / 1000) ∧
      (Hit.check realExt [(0, 0), (13, 105.6583668)] [] (1 / 1000) s).1 = .ok false) :=
  ⟨C92_accepts_false realExt_lawful _ _ 105.6583668 rfl _ _ (by norm_num) _ (by norm_num) (by norm_num),
   C92_rejects_false realExt_lawful _ _ 105.6583668 rfl _ _ (by norm_num) (by norm_num) _ (by norm_num)
    (by norm_num)⟩

end Xboa
