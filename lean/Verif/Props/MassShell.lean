import Verif.Props.HitCopy
import Mathlib.Analysis.SpecialFunctions.Complex.Arg
import Mathlib.Tactic.FieldSimp
import Mathlib.Tactic.Ring
/-!
Properties C12, C13 (mass shell condition) and C14 (derived variables).
All theorems hold for every lawful choice of square root; `realExt` shows one exists.
-/
set_option linter.unusedSectionVars false
namespace Xboa

/-- The real numbers with their square root, arctangent and the code's speed of light
(_common.py:94) are a lawful choice of external functions. -/
noncomputable def realExt : Ext ℝ :=
  ⟨Real.sqrt, fun y x => Complex.arg ⟨x, y⟩, 299792458 / 1000000⟩

theorem realExt_lawful : realExt.Lawful :=
  ⟨fun a _ => Real.sqrt_nonneg a, fun _ h => Real.mul_self_sqrt h, by norm_num [realExt]⟩

variable {K : Type} [Field K] [LinearOrder K] [IsStrictOrderedRing K]

/-- The relativistic energy momentum relation in terms of stored variables. -/
def HS.OnShell (s : HS K) : Prop :=
  s.core.d .energy ^ 2 = s.core.d .px ^ 2 + s.core.d .py ^ 2 + s.core.d .pz ^ 2 + s.core.d .mass ^ 2

/-- Listed variables outside `vs` read the same in `s` and `s'`. -/
def SameExcept (E : Ext K) (vs : List String) (s s' : HS K) : Prop :=
  ∀ n ∈ hitVariables, n ∉ vs → (Hit.get E n s').1 = (Hit.get E n s).1

theorem SameExcept.of_set {E : Ext K} {s : HS K} {v : DVar}
    (n : String) (a : K) (hn : n ∈ dblNames ∧ n ≠ "global_weight")
    (h : Hit.set E n (.flt a) s = (.ok (), { s with core := s.core.setD v a })) :
    SameExcept E [n] s { s with core := s.core.setD v a } := by
  -- the context is not involved: replay the assignment in any context
  intro m hm hmn
  simp only [List.mem_singleton] at hmn
  have hrow : ∀ b ∈ dblNames, b ≠ "global_weight" → setDblMap.lookup b ≠ some .global := by
    decide +kernel
  obtain ⟨r, hr, hrow'⟩ := row_dbl n hn.1
  have hd := row_distinct n (dblNames_sub n hn.1) m hm hmn
  have ht := row_not_total m hm
  have hs : r.exec s a = { s with core := s.core.setD v a } := by
    have : Hit.set E n (.flt a) s = (.ok (), r.exec s a) := by
      simp [Hit.set, Hitcore.set, hr, asDouble]
    rw [this] at h
    exact (Prod.mk.inj h).2
  rw [← hs]
  have hg : Hitcore.get (r.exec s a) m = Hitcore.get s m := by
    rw [Hitcore.get_eq, Hitcore.get_eq]
    cases r with
    | global => exact absurd hr (hrow n hn.1 hn.2)
    | field f =>
      cases hrm : getRow m with
      | none => rfl
      | some row =>
        cases row with
        | inl g =>
          cases g with
          | field f' =>
            have : f' ≠ f := by
              rintro rfl
              exact hd (by rw [hrm, hrow']; rfl)
            simp [DGet.eval, DSet.exec, Core.setD, this]
          | global => rfl
          | total => exact absurd hrm ht.1
        | inr iv => rfl
  have hok : ∃ val, Hitcore.get s m = .ok val := by
    rw [Hitcore.get_eq]
    cases hrm : getRow m with
    | none => exact absurd hrm ht.2
    | some row => cases row <;> exact ⟨_, rfl⟩
  obtain ⟨val, hval⟩ := hok
  simp [Hit.get, hg, hval]

theorem SameExcept.trans {E : Ext K} {u v : List String} {a b c : HS K}
    (h1 : SameExcept E u a b) (h2 : SameExcept E v b c) : SameExcept E (u ++ v) a c := by
  intro n hn hnu
  simp only [List.mem_append, not_or] at hnu
  rw [h2 n hn hnu.2, h1 n hn hnu.1]

theorem SameExcept.mono {E : Ext K} {u v : List String} {a b : HS K}
    (h : SameExcept E u a b) (huv : ∀ n ∈ u, n ∈ v) : SameExcept E v a b :=
  fun n hn hnv => h n hn (fun hc => hnv (huv n hc))

theorem Hit.pow15Over_sq {E : Ext K} (hE : E.Lawful) {a : K} (ha : 0 < a) :
    pow15Over E a ^ 2 = a := by
  have h := hE.sqrt_mul_self a ha.le
  unfold pow15Over
  rw [abs_of_pos ha, mul_comm a, mul_div_assoc, div_self ha.ne', mul_one, sq, h]

theorem Hit.shellTol_pos : (0 : K) < shellTol := by unfold shellTol; positivity

/-- Variables mass_shell_condition(v) may change. -/
def shellTouches (v : String) : List String := if v = "p" then ["px", "py", "pz"] else [v]

/-- The four momentum assignments of set_p change px, py, pz only. -/
theorem sameExcept_momentum (E : Ext K) (s : HS K) (a b c : K) :
    SameExcept E ["px", "py", "pz"] s ⟨((s.core.setD .px a).setD .py b).setD .pz c, s.wc⟩ := by
  have h1 := SameExcept.of_set (s := s) "px" a ⟨by decide, by decide⟩ (Hit.set_px E s a)
  have h2 := SameExcept.of_set "py" b ⟨by decide, by decide⟩
    (Hit.set_py E { s with core := s.core.setD .px a } b)
  have h3 := SameExcept.of_set "pz" c ⟨by decide, by decide⟩
    (Hit.set_pz E { s with core := (s.core.setD .px a).setD .py b } c)
  exact ((h1.trans h2).trans h3).mono (by simp)

/-- Pure effect of `hit.set('p', v)` for a number v: momentum scaled by one factor (from
(px,py,1) if the particle was at rest). -/
theorem Hit.set_p_cases {E : Ext K} (hE : E.Lawful) (s : HS K) (v : K) :
    ∃ k pz0, Hit.set E "p" (.flt v) s = (.ok (),
      ⟨((s.core.setD .px (s.core.d .px * k)).setD .py (s.core.d .py * k)).setD .pz (pz0 * k), s.wc⟩) ∧
      ((s.core.d .px ^ 2 + s.core.d .py ^ 2 + s.core.d .pz ^ 2 ≠ 0 ∧ pz0 = s.core.d .pz) ∨
       (s.core.d .px ^ 2 + s.core.d .py ^ 2 + s.core.d .pz ^ 2 = 0 ∧ pz0 = 1)) ∧
      (0 ≤ v → 0 ≤ k) ∧
      (s.core.d .px * k) ^ 2 + (s.core.d .py * k) ^ 2 + (pz0 * k) ^ 2 = v ^ 2 := by
  obtain ⟨hne, hset⟩ := Hit.set_p_eq hE s v
  have hset' : Hit.set E "p" (.flt v) s = Hit.set_p E (.flt v) s := rfl
  rw [hset', hset]
  have hsum : 0 ≤ s.core.d .px ^ 2 + s.core.d .py ^ 2 + s.core.d .pz ^ 2 := by positivity
  have hz : E.sqrt (s.core.d .px ^ 2 + s.core.d .py ^ 2 + s.core.d .pz ^ 2) = 0 ↔
      s.core.d .px ^ 2 + s.core.d .py ^ 2 + s.core.d .pz ^ 2 = 0 := by
    have := hE.sqrt_mul_self _ hsum
    constructor
    · intro h; rw [← this, h, mul_zero]
    · intro h; rw [h] at this ⊢; exact mul_self_eq_zero.1 this
  by_cases h : E.sqrt (s.core.d .px ^ 2 + s.core.d .py ^ 2 + s.core.d .pz ^ 2) = 0
  · simp only [h, if_true] at hne ⊢
    simp only [Core.setD_d, reduceCtorEq, if_false, if_true] at hne ⊢
    have hp : 0 ≤ s.core.d .px ^ 2 + s.core.d .py ^ 2 + (1:K) ^ 2 := by positivity
    have hm := hE.sqrt_mul_self _ hp
    have hnn := hE.sqrt_nonneg _ hp
    refine ⟨v / E.sqrt (s.core.d .px ^ 2 + s.core.d .py ^ 2 + 1 ^ 2), 1, ?_, Or.inr ⟨hz.1 h, rfl⟩,
      fun hv => div_nonneg hv hnn, ?_⟩
    · congr 2
      apply Core.ext'
      · intro w; cases w <;> simp
      · intro w; rfl
    · set q := E.sqrt (s.core.d .px ^ 2 + s.core.d .py ^ 2 + 1 ^ 2) with hq
      have : (s.core.d .px * (v / q)) ^ 2 + (s.core.d .py * (v / q)) ^ 2 + (1 * (v / q)) ^ 2 =
          (s.core.d .px ^ 2 + s.core.d .py ^ 2 + 1 ^ 2) * v ^ 2 / (q * q) := by
        field_simp
      rw [this, hm]
      have : s.core.d .px ^ 2 + s.core.d .py ^ 2 + (1:K) ^ 2 ≠ 0 := by positivity
      field_simp
  · simp only [h, if_false] at hne ⊢
    have hm := hE.sqrt_mul_self _ hsum
    have hnn := hE.sqrt_nonneg _ hsum
    refine ⟨v / E.sqrt (s.core.d .px ^ 2 + s.core.d .py ^ 2 + s.core.d .pz ^ 2), s.core.d .pz, rfl,
      Or.inl ⟨fun hc => h (hz.2 hc), rfl⟩, fun hv => div_nonneg hv hnn, ?_⟩
    set q := E.sqrt (s.core.d .px ^ 2 + s.core.d .py ^ 2 + s.core.d .pz ^ 2) with hq
    have : (s.core.d .px * (v / q)) ^ 2 + (s.core.d .py * (v / q)) ^ 2 + (s.core.d .pz * (v / q)) ^ 2 =
        (s.core.d .px ^ 2 + s.core.d .py ^ 2 + s.core.d .pz ^ 2) * v ^ 2 / (q * q) := by
      field_simp
    rw [this, hm]
    have : s.core.d .px ^ 2 + s.core.d .py ^ 2 + s.core.d .pz ^ 2 ≠ 0 := fun hc => h (hz.2 hc)
    field_simp

/-- `hit.set('p', z)` with a complex z raises IndexError and leaves px = -1 (and pz = 1 if the
particle was at rest). -/
theorem Hit.set_p_cplx {E : Ext K} (hE : E.Lawful) (s : HS K) :
    Hit.set E "p" .cplx s = (.error .IndexError, ⟨(if E.sqrt (s.core.d .px ^ 2 + s.core.d .py ^ 2 +
      s.core.d .pz ^ 2) = 0 then s.core.setD .pz 1 else s.core).setD .px (-1), s.wc⟩) := by
  have hne := (Hit.set_p_eq hE s 0).1
  have hset' : Hit.set E "p" .cplx s = Hit.set_p E .cplx s := rfl
  have hpx : ∀ t : HS K, Hit.setF "px" .cplx t = (.error .IndexError, { t with core := t.core.setD .px (-1) }) := by
    intro t
    have : Hit.setF "px" .cplx t = (.error .IndexError, { t with core := t.core.setD .px ((-1 : Int) : K) }) := rfl
    simpa using this
  rw [hset']
  by_cases h : E.sqrt (s.core.d .px ^ 2 + s.core.d .py ^ 2 + s.core.d .pz ^ 2) = 0
  · simp only [h, if_true, Core.setD_d, reduceCtorEq, if_false, one_pow] at hne
    simp [Hit.set_p, Hit.get_p, h, hne, PyVal.arith, hpx]
  · simp [Hit.set_p, Hit.get_p, h, PyVal.arith, hpx]

theorem Hit.shell_px (E : Ext K) (s : HS K) :
    Hit.mass_shell_condition E "px" s =
      if s.core.d .energy * s.core.d .energy - s.core.d .mass * s.core.d .mass - s.core.d .py * s.core.d .py
          - s.core.d .pz * s.core.d .pz > shellTol then
        (.ok (some true), { s with core := s.core.setD .px (pow15Over E
          (s.core.d .energy * s.core.d .energy - s.core.d .mass * s.core.d .mass - s.core.d .py * s.core.d .py
          - s.core.d .pz * s.core.d .pz)) })
      else (.ok (some false), { s with core := s.core.setD .px 0 }) := by
  simp only [Hit.mass_shell_condition, String.reduceEq, if_false, if_true, PyM.bind_apply, Hit.getF_px,
    Hit.getF_py, Hit.getF_pz, Hit.getF_energy, Hit.getF_mass]
  split <;> simp

theorem Hit.shell_py (E : Ext K) (s : HS K) :
    Hit.mass_shell_condition E "py" s =
      if s.core.d .energy * s.core.d .energy - s.core.d .mass * s.core.d .mass - s.core.d .px * s.core.d .px
          - s.core.d .pz * s.core.d .pz > shellTol then
        (.ok (some true), { s with core := s.core.setD .py (pow15Over E
          (s.core.d .energy * s.core.d .energy - s.core.d .mass * s.core.d .mass - s.core.d .px * s.core.d .px
          - s.core.d .pz * s.core.d .pz)) })
      else (.ok (some false), { s with core := s.core.setD .py 0 }) := by
  simp only [Hit.mass_shell_condition, String.reduceEq, if_false, if_true, PyM.bind_apply, Hit.getF_px,
    Hit.getF_py, Hit.getF_pz, Hit.getF_energy, Hit.getF_mass]
  split <;> simp

theorem Hit.shell_pz (E : Ext K) (s : HS K) :
    Hit.mass_shell_condition E "pz" s =
      if s.core.d .energy * s.core.d .energy - s.core.d .mass * s.core.d .mass - s.core.d .px * s.core.d .px
          - s.core.d .py * s.core.d .py > shellTol then
        (.ok (some true), { s with core := s.core.setD .pz (pow15Over E
          (s.core.d .energy * s.core.d .energy - s.core.d .mass * s.core.d .mass - s.core.d .px * s.core.d .px
          - s.core.d .py * s.core.d .py)) })
      else (.ok (some false), { s with core := s.core.setD .pz 0 }) := by
  simp only [Hit.mass_shell_condition, String.reduceEq, if_false, if_true, PyM.bind_apply, Hit.getF_px,
    Hit.getF_py, Hit.getF_pz, Hit.getF_energy, Hit.getF_mass]
  split <;> simp

theorem Hit.shell_energy (E : Ext K) (s : HS K) :
    Hit.mass_shell_condition E "energy" s = (.ok (some true), ⟨s.core.setD .energy
      (E.sqrt (s.core.d .mass * s.core.d .mass + s.core.d .px * s.core.d .px +
        s.core.d .py * s.core.d .py + s.core.d .pz * s.core.d .pz)), s.wc⟩) := by
  simp [Hit.mass_shell_condition]

theorem Hit.shell_empty (E : Ext K) (s : HS K) :
    Hit.mass_shell_condition E "" s = (.ok none, s) := by
  simp [Hit.mass_shell_condition]

theorem Hit.shell_p_pos (E : Ext K) (s s' : HS K)
    (h0 : ¬ (s.core.d .energy - s.core.d .mass) * (s.core.d .energy + s.core.d .mass) < 0)
    (h : Hit.set E "p" (.flt (E.sqrt ((s.core.d .energy - s.core.d .mass) *
      (s.core.d .energy + s.core.d .mass)))) s = (.ok (), s')) :
    Hit.mass_shell_condition E "p" s = (.ok (some true), s') := by
  simp [Hit.mass_shell_condition, powHalf, h0, h]

theorem Hit.shell_p_neg {E : Ext K} (hE : E.Lawful) (s : HS K)
    (h0 : (s.core.d .energy - s.core.d .mass) * (s.core.d .energy + s.core.d .mass) < 0) :
    Hit.mass_shell_condition E "p" s = (.error .IndexError, ⟨(if E.sqrt (s.core.d .px ^ 2 + s.core.d .py ^ 2 +
      s.core.d .pz ^ 2) = 0 then s.core.setD .pz 1 else s.core).setD .px (-1), s.wc⟩) := by
  simp [Hit.mass_shell_condition, powHalf, h0, Hit.set_p_cplx hE]

theorem Hit.shell_other (E : Ext K) (s : HS K) (v : String) (hv : v ∉ Hit.massShellVariables) :
    Hit.mass_shell_condition E v s = (.error .IndexError, s) := by
  simp only [Hit.massShellVariables, List.mem_cons, List.not_mem_nil, or_false, not_or] at hv
  obtain ⟨h0, h1, h2, h3, h4, h5⟩ := hv
  simp [Hit.mass_shell_condition, h0, h1, h2, h3, h4, h5]

/-! ## C12 -/

/-- C12, True: the hit is on shell, only the named variable changed (px, py, pz for 'p'), the
weight context is untouched, and for 'p' the momentum direction is kept (a particle at rest is
sent along z). -/
theorem C12_true {E : Ext K} (hE : E.Lawful) (s s' : HS K) (v : String)
    (h : Hit.mass_shell_condition E v s = (.ok (some true), s')) :
    s'.OnShell ∧ SameExcept E (shellTouches v) s s' ∧ s'.wc = s.wc ∧
    (v = "p" → s.core.d .px ^ 2 + s.core.d .py ^ 2 + s.core.d .pz ^ 2 ≠ 0 →
      ∃ k, 0 ≤ k ∧ s'.core.d .px = s.core.d .px * k ∧ s'.core.d .py = s.core.d .py * k ∧
        s'.core.d .pz = s.core.d .pz * k) := by
  by_cases hv : v ∈ Hit.massShellVariables
  swap
  · rw [Hit.shell_other E s v hv] at h; simp at h
  simp only [Hit.massShellVariables, List.mem_cons, List.not_mem_nil, or_false] at hv
  rcases hv with rfl | rfl | rfl | rfl | rfl | rfl
  · rw [Hit.shell_empty] at h; simp at h
  · by_cases hneg : (s.core.d .energy - s.core.d .mass) * (s.core.d .energy + s.core.d .mass) < 0
    · rw [Hit.shell_p_neg hE s hneg] at h; simp at h
    · obtain ⟨k, pz0, hset, hcase, hk, hsum⟩ := Hit.set_p_cases hE s (E.sqrt ((s.core.d .energy -
        s.core.d .mass) * (s.core.d .energy + s.core.d .mass)))
      rw [Hit.shell_p_pos E s _ hneg hset] at h
      simp only [Prod.mk.injEq, true_and] at h
      subst h
      have hnn := not_lt.1 hneg
      refine ⟨?_, sameExcept_momentum E s _ _ _, rfl, ?_⟩
      · have hq := hE.sqrt_mul_self _ hnn
        simp only [HS.OnShell, Core.setD_d, if_true, reduceCtorEq, if_false, hsum, sq (E.sqrt _), hq]
        ring
      · rintro - hne
        rcases hcase with ⟨_, rfl⟩ | ⟨h0, _⟩
        · exact ⟨k, hk (hE.sqrt_nonneg _ hnn), by simp, by simp, by simp⟩
        · exact absurd h0 hne
  · rw [Hit.shell_px] at h
    split at h
    · rename_i hval
      have hpos := lt_trans Hit.shellTol_pos hval
      simp only [Prod.mk.injEq, true_and] at h
      subst h
      refine ⟨?_, SameExcept.of_set "px" _ ⟨by decide, by decide⟩ (Hit.set_px E s _), rfl, by simp⟩
      simp only [HS.OnShell, Core.setD_d, if_true, reduceCtorEq, if_false, Hit.pow15Over_sq hE hpos]
      ring
    · simp at h
  · rw [Hit.shell_py] at h
    split at h
    · rename_i hval
      have hpos := lt_trans Hit.shellTol_pos hval
      simp only [Prod.mk.injEq, true_and] at h
      subst h
      refine ⟨?_, SameExcept.of_set "py" _ ⟨by decide, by decide⟩ (Hit.set_py E s _), rfl, by simp⟩
      simp only [HS.OnShell, Core.setD_d, if_true, reduceCtorEq, if_false, Hit.pow15Over_sq hE hpos]
      ring
    · simp at h
  · rw [Hit.shell_pz] at h
    split at h
    · rename_i hval
      have hpos := lt_trans Hit.shellTol_pos hval
      simp only [Prod.mk.injEq, true_and] at h
      subst h
      refine ⟨?_, SameExcept.of_set "pz" _ ⟨by decide, by decide⟩ (Hit.set_pz E s _), rfl, by simp⟩
      simp only [HS.OnShell, Core.setD_d, if_true, reduceCtorEq, if_false, Hit.pow15Over_sq hE hpos]
      ring
    · simp at h
  · rw [Hit.shell_energy] at h
    simp only [Prod.mk.injEq, true_and] at h
    subst h
    refine ⟨?_, SameExcept.of_set "energy" _ ⟨by decide, by decide⟩ (Hit.set_energy E s _), rfl, by simp⟩
    have hq := hE.sqrt_mul_self (s.core.d .mass * s.core.d .mass + s.core.d .px * s.core.d .px +
        s.core.d .py * s.core.d .py + s.core.d .pz * s.core.d .pz)
        (by nlinarith [mul_self_nonneg (s.core.d .mass), mul_self_nonneg (s.core.d .px),
          mul_self_nonneg (s.core.d .py), mul_self_nonneg (s.core.d .pz)])
    simp only [HS.OnShell, Core.setD_d, if_true, reduceCtorEq, if_false, sq (E.sqrt _), hq]
    ring

/-- C12, False: only for px, py, pz; the variable is left at 0 and everything else unchanged. -/
theorem C12_false_result {E : Ext K} (hE : E.Lawful) (s s' : HS K) (v : String)
    (h : Hit.mass_shell_condition E v s = (.ok (some false), s')) :
    v ∈ ["px", "py", "pz"] ∧ (Hit.get E v s').1 = .ok (.flt 0) ∧ SameExcept E [v] s s' ∧
      s'.wc = s.wc := by
  by_cases hv : v ∈ Hit.massShellVariables
  swap
  · rw [Hit.shell_other E s v hv] at h; simp at h
  simp only [Hit.massShellVariables, List.mem_cons, List.not_mem_nil, or_false] at hv
  rcases hv with rfl | rfl | rfl | rfl | rfl | rfl
  · rw [Hit.shell_empty] at h; simp at h
  · by_cases hneg : (s.core.d .energy - s.core.d .mass) * (s.core.d .energy + s.core.d .mass) < 0
    · rw [Hit.shell_p_neg hE s hneg] at h; simp at h
    · obtain ⟨k, pz0, hset, _⟩ := Hit.set_p_cases hE s (E.sqrt ((s.core.d .energy -
        s.core.d .mass) * (s.core.d .energy + s.core.d .mass)))
      rw [Hit.shell_p_pos E s _ hneg hset] at h
      simp at h
  · rw [Hit.shell_px] at h
    split at h
    · simp at h
    · simp only [Prod.mk.injEq, true_and] at h
      subst h
      exact ⟨by decide, by simp, SameExcept.of_set "px" _ ⟨by decide, by decide⟩ (Hit.set_px E s _), rfl⟩
  · rw [Hit.shell_py] at h
    split at h
    · simp at h
    · simp only [Prod.mk.injEq, true_and] at h
      subst h
      exact ⟨by decide, by simp, SameExcept.of_set "py" _ ⟨by decide, by decide⟩ (Hit.set_py E s _), rfl⟩
  · rw [Hit.shell_pz] at h
    split at h
    · simp at h
    · simp only [Prod.mk.injEq, true_and] at h
      subst h
      exact ⟨by decide, by simp, SameExcept.of_set "pz" _ ⟨by decide, by decide⟩ (Hit.set_pz E s _), rfl⟩
  · rw [Hit.shell_energy] at h; simp at h

/-- C12, '' is a no-op and an unknown variable raises IndexError; nothing changes. -/
theorem C12_noop (E : Ext K) (s : HS K) :
    Hit.mass_shell_condition E "" s = (.ok none, s) ∧
    ∀ v, v ∉ ["", "p", "px", "py", "pz", "energy"] →
      Hit.mass_shell_condition E v s = (.error .IndexError, s) :=
  ⟨Hit.shell_empty E s, fun v hv => Hit.shell_other E s v hv⟩

/-- Non-vacuity of C12_true: energy 5, mass 0, py = 3 gives a real px. -/
example : ∃ s', Hit.mass_shell_condition realExt "px"
    ⟨(Core.new.setD .energy 5).setD .py 3, WC.new⟩ = (.ok (some true), s') := by
  rw [Hit.shell_px, if_pos]
  · exact ⟨_, rfl⟩
  · simp [Core.new, Hit.shellTol]; norm_num

/-- Non-vacuity of C12_false_result. -/
example : ∃ s', Hit.mass_shell_condition realExt "px"
    ⟨(Core.new.setD .energy 3).setD .py 5, WC.new⟩ = (.ok (some false), s') := by
  rw [Hit.shell_px, if_neg]
  · exact ⟨_, rfl⟩
  · simp [Core.new, Hit.shellTol]; norm_num

/-! ## C13

Full claim: whenever no value of `v` puts the hit on shell, mass_shell_condition(v) returns
False and `v` reads 0, for v in p, px, py, pz, energy.  False for 'p'. -/

/-- The values of `v` that could be chosen: there is a change of `v` only that is on shell. -/
def Solvable (s : HS K) (v : String) : Prop :=
  (v = "px" ∧ ∃ a, HS.OnShell { s with core := s.core.setD .px a }) ∨
  (v = "py" ∧ ∃ a, HS.OnShell { s with core := s.core.setD .py a }) ∨
  (v = "pz" ∧ ∃ a, HS.OnShell { s with core := s.core.setD .pz a }) ∨
  (v = "energy" ∧ ∃ a, HS.OnShell { s with core := s.core.setD .energy a }) ∨
  (v = "p" ∧ ∃ a b c, HS.OnShell { s with core := ((s.core.setD .px a).setD .py b).setD .pz c })

/-- C13 is false: a hit with energy 0, mass 1: 'p' raises IndexError and leaves px = -1. -/
theorem C13_false : ∃ s : HS ℝ, ¬ Solvable s "p" ∧
    ∃ s', Hit.mass_shell_condition realExt "p" s = (.error .IndexError, s') ∧ s'.core.d .px = -1 ∧
      s.core.d .px = 0 := by
  refine ⟨⟨Core.new.setD .mass 1, WC.new⟩, ?_, _, Hit.shell_p_neg realExt_lawful _ ?_, ?_, ?_⟩
  · rintro (⟨h, _⟩ | ⟨h, _⟩ | ⟨h, _⟩ | ⟨h, _⟩ | ⟨_, a, b, c, h⟩)
    · simp at h
    · simp at h
    · simp at h
    · simp at h
    · simp [HS.OnShell, Core.new] at h
      nlinarith [sq_nonneg a, sq_nonneg b, sq_nonneg c]
  · simp [Core.new]
  · simp
  · simp [Core.new]

/-- C13_partial: for px, py, pz and energy an impossible condition returns False with the
variable at 0.  Missing: 'p' (false). -/
theorem C13_partial {E : Ext K} (hE : E.Lawful) (s : HS K) (v : String)
    (hv : v ∈ ["px", "py", "pz", "energy"]) (hno : ¬ Solvable s v) :
    ∃ s', Hit.mass_shell_condition E v s = (.ok (some false), s') ∧
      (Hit.get E v s').1 = .ok (.flt 0) := by
  simp only [List.mem_cons, List.not_mem_nil, or_false] at hv
  rcases hv with rfl | rfl | rfl | rfl
  · have hs := Hit.shell_px E s
    split at hs
    · exact absurd (Or.inl ⟨rfl, _, (C12_true hE _ _ _ hs).1⟩) hno
    · exact ⟨_, hs, by simp⟩
  · have hs := Hit.shell_py E s
    split at hs
    · exact absurd (Or.inr (Or.inl ⟨rfl, _, (C12_true hE _ _ _ hs).1⟩)) hno
    · exact ⟨_, hs, by simp⟩
  · have hs := Hit.shell_pz E s
    split at hs
    · exact absurd (Or.inr (Or.inr (Or.inl ⟨rfl, _, (C12_true hE _ _ _ hs).1⟩))) hno
    · exact ⟨_, hs, by simp⟩
  · have hs := Hit.shell_energy E s
    exact absurd (Or.inr (Or.inr (Or.inr (Or.inl ⟨rfl, _, (C12_true hE _ _ _ hs).1⟩)))) hno

/-- Non-vacuity: an impossible px. -/
example : ¬ Solvable (⟨(Core.new.setD .energy 3).setD .py 5, WC.new⟩ : HS ℝ) "px" := by
  rintro (⟨_, a, h⟩ | ⟨h, _⟩ | ⟨h, _⟩ | ⟨h, _⟩ | ⟨h, _⟩)
  · simp [HS.OnShell, Core.new] at h
    nlinarith [sq_nonneg a]
  · simp at h
  · simp at h
  · simp at h
  · simp at h

/-- C13, how much slack the tolerance gives: px, py, pz report False only if the square of the
solution is at most 1e-6. -/
theorem C13_false_only_near {E : Ext K} (hE : E.Lawful) (s s' : HS K) (a : K)
    (h : Hit.mass_shell_condition E "px" s = (.ok (some false), s'))
    (ha : HS.OnShell { s with core := s.core.setD .px a }) : a ^ 2 ≤ 1 / 1000000 := by
  rw [Hit.shell_px] at h
  split at h
  · simp at h
  · rename_i hval
    simp only [HS.OnShell, Core.setD_d, if_true, reduceCtorEq, if_false] at ha
    have : s.core.d .energy * s.core.d .energy - s.core.d .mass * s.core.d .mass -
        s.core.d .py * s.core.d .py - s.core.d .pz * s.core.d .pz = a ^ 2 := by
      linear_combination ha
    rw [this] at hval
    exact not_lt.1 hval

/-! ## C14: derived variables -/

/-- C14 is false for p with a negative argument: afterwards p reads its absolute value. -/
theorem C14_p_false : ∃ (s s' : HS ℝ) (a : ℝ), Hit.set realExt "p" (.flt a) s = (.ok (), s') ∧
    (Hit.get realExt "p" s').1 ≠ .ok (.flt a) := by
  obtain ⟨k, pz0, hset, _, _, hsum⟩ := Hit.set_p_cases realExt_lawful
    (⟨Core.new.setD .pz 1, WC.new⟩ : HS ℝ) (-1)
  refine ⟨_, _, -1, hset, ?_⟩
  intro hc
  have hg : ∀ t : HS ℝ, (Hit.get realExt "p" t).1 = .ok (.flt (realExt.sqrt
    (t.core.d .px ^ 2 + t.core.d .py ^ 2 + t.core.d .pz ^ 2))) := fun _ => rfl
  rw [hg] at hc
  simp only [Except.ok.injEq, Val.flt.injEq] at hc
  have : (0 : ℝ) ≤ -1 := by rw [← hc]; exact Real.sqrt_nonneg _
  linarith

theorem Hit.sqrt_sq {E : Ext K} (hE : E.Lawful) {a : K} (ha : 0 ≤ a) : E.sqrt (a ^ 2) = a := by
  have h := hE.sqrt_mul_self (a ^ 2) (sq_nonneg a)
  have hn := hE.sqrt_nonneg (a ^ 2) (sq_nonneg a)
  rw [← sq] at h
  exact (pow_left_inj₀ hn ha two_ne_zero).1 h

/-- C14_partial, p: for a >= 0 set succeeds, p reads a, the direction is kept and only px, py, pz
change.  Missing: a < 0 (false, C14_p_false). -/
theorem C14_p_partial {E : Ext K} (hE : E.Lawful) (s : HS K) (a : K) (ha : 0 ≤ a) :
    ∃ s', Hit.set E "p" (.flt a) s = (.ok (), s') ∧ (Hit.get E "p" s').1 = .ok (.flt a) ∧
      SameExcept E ["px", "py", "pz"] s s' ∧
      (s.core.d .px ^ 2 + s.core.d .py ^ 2 + s.core.d .pz ^ 2 ≠ 0 →
      ∃ k, 0 ≤ k ∧ s'.core.d .px = s.core.d .px * k ∧ s'.core.d .py = s.core.d .py * k ∧
        s'.core.d .pz = s.core.d .pz * k) := by
  obtain ⟨k, pz0, hset, hcase, hk, hsum⟩ := Hit.set_p_cases hE s a
  refine ⟨_, hset, ?_, sameExcept_momentum E s _ _ _, ?_⟩
  · have hg : ∀ t : HS K, (Hit.get E "p" t).1 = .ok (.flt (E.sqrt
      (t.core.d .px ^ 2 + t.core.d .py ^ 2 + t.core.d .pz ^ 2))) := fun _ => rfl
    rw [hg]
    simp only [Core.setD_d, if_true, reduceCtorEq, if_false, hsum, Hit.sqrt_sq hE ha]
  · intro hne
    rcases hcase with ⟨_, rfl⟩ | ⟨h0, _⟩
    · exact ⟨k, hk ha, by simp, by simp, by simp⟩
    · exact absurd h0 hne

theorem Hit.not_tiny_ne {a : K} (h : ¬ Hit.pzTiny a) : a ≠ 0 := by
  rintro rfl
  exact h (by unfold Hit.pzTiny; simp)

/-- C14, x' and y': a successful set makes get return the value; only px (py) changes. -/
theorem C14_slopes (E : Ext K) (s s' : HS K) (a : K) :
    (Hit.set E "x'" (.flt a) s = (.ok (), s') →
      (Hit.get E "x'" s').1 = .ok (.flt a) ∧ SameExcept E ["px"] s s') ∧
    (Hit.set E "y'" (.flt a) s = (.ok (), s') →
      (Hit.get E "y'" s').1 = .ok (.flt a) ∧ SameExcept E ["py"] s s') := by
  constructor
  · intro h
    have h' : Hit.set_xP (.flt a) s = (.ok (), s') := h
    by_cases hz : Hit.pzTiny (s.core.d .pz)
    · simp [Hit.set_xP, hz] at h'
    · simp only [Hit.set_xP, PyM.bind_apply, Hit.getF_pz, hz, if_false, PyVal.arith, PyM.lift_apply,
        Hit.setF_px, Prod.mk.injEq, true_and] at h'
      subst h'
      refine ⟨?_, SameExcept.of_set "px" _ ⟨by decide, by decide⟩ (Hit.set_px E s _)⟩
      have hg : ∀ t : HS K, (Hit.get E "x'" t).1 = (Hit.ret Hit.get_xP t).1 := fun _ => rfl
      have hne := Hit.not_tiny_ne hz
      rw [hg]
      simp [Hit.ret, Hit.get_xP, Hit.divF, hne]
  · intro h
    have h' : Hit.set_yP (.flt a) s = (.ok (), s') := h
    by_cases hz : Hit.pzTiny (s.core.d .pz)
    · simp [Hit.set_yP, hz] at h'
    · simp only [Hit.set_yP, PyM.bind_apply, Hit.getF_pz, hz, if_false, PyVal.arith, PyM.lift_apply,
        Hit.setF_py, Prod.mk.injEq, true_and] at h'
      subst h'
      refine ⟨?_, SameExcept.of_set "py" _ ⟨by decide, by decide⟩ (Hit.set_py E s _)⟩
      have hg : ∀ t : HS K, (Hit.get E "y'" t).1 = (Hit.ret Hit.get_yP t).1 := fun _ => rfl
      have hne := Hit.not_tiny_ne hz
      rw [hg]
      simp [Hit.ret, Hit.get_yP, Hit.divF, hne]

/-- C14, x' and y' succeed exactly when |pz| >= 1e-9. -/
theorem C14_slopes_total (E : Ext K) (s : HS K) (a : K) :
    (∃ s', Hit.set E "x'" (.flt a) s = (.ok (), s')) ↔ 1 / 1000000000 ≤ |s.core.d .pz| := by
  have h' : Hit.set E "x'" (.flt a) s = Hit.set_xP (.flt a) s := rfl
  rw [h']
  by_cases hz : Hit.pzTiny (s.core.d .pz)
  · have := hz
    unfold Hit.pzTiny at this
    simp only [Hit.set_xP, PyM.bind_apply, Hit.getF_pz, hz, if_true, PyM.raise_apply,
      Prod.mk.injEq, reduceCtorEq, false_and, exists_false, false_iff]
    exact not_le.2 this
  · have := hz
    unfold Hit.pzTiny at this
    simp [Hit.set_xP, hz, PyVal.arith]
    simpa using this

/-- C14, ct and kinetic_energy: set always succeeds, get returns the value, and only t
(energy) changes. -/
theorem C14_ct_ek {E : Ext K} (hE : E.Lawful) (s : HS K) (a : K) :
    (∃ s', Hit.set E "ct" (.flt a) s = (.ok (), s') ∧ (Hit.get E "ct" s').1 = .ok (.flt a) ∧
      SameExcept E ["t"] s s') ∧
    (∃ s', Hit.set E "kinetic_energy" (.flt a) s = (.ok (), s') ∧
      (Hit.get E "kinetic_energy" s').1 = .ok (.flt a) ∧ SameExcept E ["energy"] s s') := by
  have hc := hE.cLight_pos.ne'
  constructor
  · refine ⟨{ s with core := s.core.setD .t (a / E.cLight) }, rfl, ?_,
      SameExcept.of_set "t" _ ⟨by decide, by decide⟩ (Hit.set_t E s _)⟩
    have hg : ∀ t : HS K, (Hit.get E "ct" t).1 = .ok (.flt (t.core.d .t * E.cLight)) := fun _ => rfl
    rw [hg]; simp [hc]
  · refine ⟨{ s with core := s.core.setD .energy (a + s.core.d .mass) }, rfl, ?_,
      SameExcept.of_set "energy" _ ⟨by decide, by decide⟩ (Hit.set_energy E s _)⟩
    have hg : ∀ t : HS K, (Hit.get E "kinetic_energy" t).1 =
      .ok (.flt (t.core.d .energy - t.core.d .mass)) := fun _ => rfl
    rw [hg]; simp

/-- C14, t': a successful set makes get return the value, gives an energy at least the mass, a
positive pz of unchanged size, and changes only energy and pz. -/
theorem C14_tP (E : Ext K) (s s' : HS K) (a : K)
    (h : Hit.set E "t'" (.flt a) s = (.ok (), s')) :
    (Hit.get E "t'" s').1 = .ok (.flt a) ∧ s'.core.d .mass ≤ s'.core.d .energy ∧
      s'.core.d .pz = |s.core.d .pz| ∧ SameExcept E ["energy", "pz"] s s' := by
  have h' : Hit.set_tP (.flt a) s = (.ok (), s') := h
  have hg : ∀ t : HS K, (Hit.get E "t'" t).1 = (Hit.ret Hit.get_tP t).1 := fun _ => rfl
  rw [hg]
  by_cases hz : Hit.pzTiny (s.core.d .pz)
  · simp [Hit.set_tP, hz] at h'
  · have hne := Hit.not_tiny_ne hz
    by_cases hp : s.core.d .pz < 0
    · simp [Hit.set_tP, hz, PyVal.arith, hp] at h'
      split at h'
      · simp at h'
      · rename_i hem
        simp only [PyM.pure_apply, Prod.mk.injEq, true_and] at h'
        subst h'
        refine ⟨?_, ?_, ?_, ?_⟩
        · simp [Hit.ret, Hit.get_tP, Hit.divF, hne]
        · simpa using hem
        · simp [abs_of_neg hp]
        · have h1 := SameExcept.of_set (s := s) "energy" (-(a * s.core.d .pz)) ⟨by decide, by decide⟩
            (Hit.set_energy E s _)
          have h2 := SameExcept.of_set "energy" (a * s.core.d .pz) ⟨by decide, by decide⟩
            (Hit.set_energy E { s with core := s.core.setD .energy (-(a * s.core.d .pz)) } _)
          have h3 := SameExcept.of_set "pz" (-s.core.d .pz) ⟨by decide, by decide⟩ (Hit.set_pz E
            ⟨(s.core.setD .energy (-(a * s.core.d .pz))).setD .energy (a * s.core.d .pz), s.wc⟩ _)
          exact ((h1.trans h2).trans h3).mono (by simp)
    · simp [Hit.set_tP, hz, PyVal.arith, hp] at h'
      split at h'
      · simp at h'
      · rename_i hem
        simp only [PyM.pure_apply, Prod.mk.injEq, true_and] at h'
        subst h'
        refine ⟨?_, ?_, ?_, ?_⟩
        · simp [Hit.ret, Hit.get_tP, Hit.divF, hne]
        · simpa using hem
        · simp [abs_of_nonneg (not_lt.1 hp)]
        · have h1 := SameExcept.of_set (s := s) "energy" (-(a * s.core.d .pz)) ⟨by decide, by decide⟩
            (Hit.set_energy E s _)
          exact h1.mono (by simp)

/-- Non-vacuity of C14_tP: pz = -2, mass 1, t' = -3 gives energy 6 and pz = 2. -/
example : ∃ s', Hit.set realExt "t'" (.flt (-3)) ⟨(Core.new.setD .pz (-2)).setD .mass 1, WC.new⟩
    = (.ok (), s') := by
  have hz : ¬ Hit.pzTiny (-2 : ℝ) := by unfold Hit.pzTiny; norm_num
  have h' : ∀ s, Hit.set realExt "t'" (.flt (-3)) s = Hit.set_tP (.flt (-3)) s := fun _ => rfl
  rw [h']
  simp [Hit.set_tP, hz, PyVal.arith, Core.new]
  norm_num

/-- Non-vacuity of C14_slopes. -/
example : ∃ s', Hit.set realExt "x'" (.flt (-3)) ⟨Core.new.setD .pz (-2), WC.new⟩ = (.ok (), s') := by
  rw [C14_slopes_total]; simp; norm_num

end Xboa
