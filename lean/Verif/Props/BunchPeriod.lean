import Verif.Props.BunchTransmission
import Mathlib.Tactic.FieldSimp
import Mathlib.Tactic.Linarith
/-
C29 (period_transformation).
-/
set_option linter.unusedSectionVars false
namespace Xboa
variable {K : Type} [Field K] [LinearOrder K] [IsStrictOrderedRing K]

/-- `t'` is in the period around 0 and is `t` less `shift` up to a whole number of periods. -/
def Folded (f shift t t' : K) : Prop :=
  -(1 / 2) / f ≤ t' ∧ t' < 1 / 2 / f ∧ ∃ n : Int, t' = t - shift - (n : K) / f

variable [FloorRing K]

theorem Bunch.periodOne_field (E : Ext K) (v : String) (dv : DVar)
    (hv : setDblMap.lookup v = some (.field dv)) (hv' : getDblMap.lookup v = some (.field dv))
    (off f : K) (hf : 0 < f) (s : HS K) :
    ∃ t', Bunch.periodOne E v off f s = (.ok (), { s with core := s.core.setD dv t' }) ∧
      Folded f off (s.core.d dv) t' := by
  have hset : ∀ (s : HS K) (a : K), Hit.set E v (.flt a) s = (.ok (), { s with core := s.core.setD dv a }) := by
    intro s a; simp [Hit.set, Hitcore.set, hv, asDouble, DSet.exec]
  have hget : ∀ s : HS K, Hit.getNum E v s = (.ok (s.core.d dv), s) := by
    intro s; rw [Hit.getNum_dbl E hv']; rfl
  set x := s.core.d dv - off with hx
  refine ⟨x - (⌊x * f + 1 / 2⌋ : K) / f, ?_, ?_, ?_, ⌊x * f + 1 / 2⌋, by rw [hx]⟩
  · have h1 : (s.core.setD dv x).d dv = x := by simp [Core.setD]
    simp only [Bunch.periodOne, Bunch.subAssign, PyM.bind_apply, hget, hset]
    rw [← hx, h1, if_neg hf.ne']
    simp only [PyM.bind_apply, hget, hset, h1, Core.setD_setD]
  · have h := Int.floor_le (x * f + 1 / 2)
    rw [div_le_iff₀ hf, sub_mul, div_mul_cancel₀ _ hf.ne']
    linarith
  · have h := Int.lt_floor_add_one (x * f + 1 / 2)
    rw [lt_div_iff₀ hf, sub_mul, div_mul_cancel₀ _ hf.ne']
    linarith

/-- C29: after period_transformation on a stored double variable, every hit of the bunch is in the
period around zero and moved by the offset (once per occurrence in the bunch) and a whole number of
periods; no other variable, hit or weight changes. -/
theorem C29_period (E : Ext K) (v : String) (dv : DVar)
    (hv : setDblMap.lookup v = some (.field dv)) (hv' : getDblMap.lookup v = some (.field dv))
    (off f : K) (hf : 0 < f) (l : List Nat) : ∀ w : BWorld K,
    ∃ w', Bunch.period E v off f l w = (.ok (), w') ∧
      (∀ i ∈ l, ∃ t', w'.hits i = (w.hits i).setD dv t' ∧
        Folded f ((l.count i : K) * off) ((w.hits i).d dv) t') ∧
      (∀ i, i ∉ l → w'.hits i = w.hits i) ∧ w'.ctx = w.ctx ∧ w'.hcur = w.hcur ∧ w'.bcur = w.bcur := by
  induction l with
  | nil => intro w; exact ⟨w, rfl, by simp, by simp, rfl, rfl, rfl⟩
  | cons i r ih =>
    intro w
    obtain ⟨t1, h1, ha, hb, n, hn⟩ := Bunch.periodOne_field E v dv hv hv' off f hf (w.hview i)
    have hon : w.onHit i (Bunch.periodOne E v off f) =
        (.ok (), w.hput i ⟨(w.hits i).setD dv t1, w.ctx w.hcur⟩) := by
      simp only [BWorld.onHit, h1]; rfl
    obtain ⟨w', h2, h3, h4, h5, h6, h7⟩ := ih (w.hput i ⟨(w.hits i).setD dv t1, w.ctx w.hcur⟩)
    have hself : (w.hput i ⟨(w.hits i).setD dv t1, w.ctx w.hcur⟩).hits i = (w.hits i).setD dv t1 := by
      simp [BWorld.hput]
    have hoth : ∀ j, j ≠ i →
        (w.hput i ⟨(w.hits i).setD dv t1, w.ctx w.hcur⟩).hits j = w.hits j := by
      intro j hj; simp [BWorld.hput, hj]
    refine ⟨w', ?_, ?_, ?_, ?_, h6, h7⟩
    · rw [Bunch.period, hon]; exact h2
    · intro j hj
      by_cases hji : j = i
      · subst hji
        by_cases hjr : j ∈ r
        · obtain ⟨t', e, c1, c2, m, hm⟩ := h3 j hjr
          refine ⟨t', by rw [e, hself, Core.setD_setD], c1, c2, n + m, ?_⟩
          rw [hself] at hm
          have : ((w.hits j).setD dv t1).d dv = t1 := by simp [Core.setD]
          rw [this, hn] at hm
          rw [hm, List.count_cons_self]
          simp only [BWorld.hview]
          push_cast
          ring
        · refine ⟨t1, by rw [h4 j hjr, hself], ha, hb, n, ?_⟩
          rw [List.count_cons_self, List.count_eq_zero_of_not_mem hjr, hn]
          simp [BWorld.hview]
      · have hjr : j ∈ r := by
          rcases List.mem_cons.mp hj with h | h
          · exact absurd h hji
          · exact h
        obtain ⟨t', e, c⟩ := h3 j hjr
        rw [hoth j hji] at e c
        refine ⟨t', e, ?_⟩
        have hij : i ≠ j := fun e => hji e.symm
        rw [List.count_cons_of_ne hij]
        exact c
    · intro j hj
      rw [List.mem_cons, not_or] at hj
      rw [h4 j hj.2, hoth j hj.1]
    · rw [h5]
      funext c
      by_cases h : c = w.hcur <;> simp [BWorld.hput, h]

/-- C29 for a bunch that holds each hit once, for the time. -/
theorem C29_time (E : Ext K) (off f : K) (hf : 0 < f) (b : Bunch K) (hnd : b.hits.Nodup)
    (w : BWorld K) : ∃ w', Bunch.period E "t" off f b.hits w = (.ok (), w') ∧
      ∀ i ∈ b.hits, ∃ t', w'.hits i = (w.hits i).setD .t t' ∧ Folded f off ((w.hits i).d .t) t' := by
  obtain ⟨w', h1, h2, _⟩ := C29_period E "t" .t rfl rfl off f hf b.hits w
  refine ⟨w', h1, ?_⟩
  intro i hi
  obtain ⟨t', h3, h4⟩ := h2 i hi
  rw [List.count_eq_one_of_mem hnd hi] at h4
  exact ⟨t', h3, by simpa using h4⟩

/-- The folded time is determined by the property. -/
theorem C29_unique (f shift t a b : K) (hf : 0 < f) (ha : Folded f shift t a)
    (hb : Folded f shift t b) : a = b := by
  obtain ⟨a1, a2, n, hn⟩ := ha
  obtain ⟨b1, b2, m, hm⟩ := hb
  rw [div_le_iff₀ hf] at a1 b1
  rw [lt_div_iff₀ hf] at a2 b2
  have e : (a - b) * f = ((m - n : Int) : K) := by
    rw [hn, hm]
    push_cast
    field_simp
    ring
  have h1 : ((m - n : Int) : K) < ((1 : Int) : K) := by rw [← e]; push_cast; linarith
  have h2 : ((-1 : Int) : K) < ((m - n : Int) : K) := by rw [← e]; push_cast; linarith
  have h1' : m - n < 1 := by exact_mod_cast h1
  have h2' : -1 < m - n := by exact_mod_cast h2
  have : m = n := by omega
  rw [hn, hm, this]

/-- non-vacuity: t = 7 and t = -3 with offset 1 and frequency 1/4 -/
example : let w : BWorld ℚ := { exWorld with
      hits := fun i => ⟨fun v => if v = .t then (if i = 0 then 7 else -3) else 0, fun _ => 0⟩ }
    let r := (Bunch.period ratExt "t" 1 (1 / 4) [0, 1] w).2
    ((r.hits 0).d .t, (r.hits 1).d .t) = (-2, 0) := by decide +kernel

end Xboa
