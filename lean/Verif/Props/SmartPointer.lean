import Verif.Model.SmartPointer
import Mathlib.Data.Finset.Insert
import Mathlib.Tactic.SplitIfs
/-!
Property C17: reference counting frees each object exactly once and never while in use.
-/
namespace Xboa
namespace SP

/-- Specification: the handles that point to `a`. -/
def holders (s : SP) (a : Nat) : Finset Nat :=
  (Finset.range s.n).filter (fun h => s.handles h = some (some a))

/-- The invariant. -/
structure Inv (s : SP) : Prop where
  fresh : ∀ h, s.n ≤ h → s.handles h = none
  count : ∀ a, s.count a = if (s.holders a).card = 0 then none else some (s.holders a).card
  live : ∀ h a, s.handles h = some (some a) → s.alive a = true
  ok : s.bad = false

theorem mem_holders {s : SP} (hf : ∀ h, s.n ≤ h → s.handles h = none) {a h : Nat} :
    h ∈ s.holders a ↔ s.handles h = some (some a) := by
  unfold holders
  simp only [Finset.mem_filter, Finset.mem_range, and_iff_right_iff_imp]
  intro hh
  by_contra hc
  rw [hf h (not_lt.1 hc)] at hh
  cases hh

theorem inv_init : Inv init :=
  ⟨fun _ _ => rfl, fun a => by simp [init, holders], fun _ _ h => by simp [init] at h, rfl⟩

/-- Only `handles`, `n` matter for holders. -/
theorem holders_congr {s t : SP} (hn : s.n = t.n) (hh : s.handles = t.handles) (a : Nat) :
    s.holders a = t.holders a := by
  unfold holders; rw [hn, hh]

theorem decref_handles (s : SP) (p : Option Nat) : (s.decref p).handles = s.handles ∧
    (s.decref p).n = s.n := by
  unfold decref
  split
  · exact ⟨rfl, rfl⟩
  · split
    · exact ⟨rfl, rfl⟩
    · split <;> exact ⟨rfl, rfl⟩

theorem incref_handles (s : SP) (p : Option Nat) : (s.incref p).handles = s.handles ∧
    (s.incref p).n = s.n ∧ (s.incref p).alive = s.alive ∧ (s.incref p).bad = s.bad := by
  cases p <;> exact ⟨rfl, rfl, rfl, rfl⟩

theorem inv_mkHandle {s : SP} (hi : Inv s) : Inv s.mkHandle := by
  have hh : ∀ a, (s.mkHandle).holders a = s.holders a := by
    intro a
    ext k
    unfold holders
    rw [Finset.mem_filter, Finset.mem_filter, Finset.mem_range, Finset.mem_range]
    simp only [mkHandle, putHandle]
    constructor
    · rintro ⟨h1, h2⟩
      by_cases e : k = s.n
      · simp [e] at h2
      · rw [if_neg e] at h2
        exact ⟨by omega, h2⟩
    · rintro ⟨h1, h2⟩
      refine ⟨by omega, ?_⟩
      rw [if_neg (by omega)]
      exact h2
  refine ⟨?_, ?_, ?_, hi.ok⟩
  · intro h hle
    simp only [mkHandle, putHandle] at hle ⊢
    rw [if_neg (by omega)]
    exact hi.fresh h (by omega)
  · intro a; rw [hh a]; exact hi.count a
  · intro h a hha
    simp only [mkHandle, putHandle] at hha ⊢
    by_cases e : h = s.n
    · simp [e] at hha
    · rw [if_neg e] at hha
      exact hi.live h a hha

/-- The count map after a decref of a pointer some handle holds, before that handle is changed. -/
theorem decref_spec {s : SP} (hi : Inv s) (h : Nat) (old : Option Nat)
    (ho : s.handles h = some old) :
    (∀ a, (s.decref old).count a =
      let c := ((s.holders a).erase h).card
      if c = 0 then none else some c) ∧
    (∀ a, (s.decref old).alive a = (s.alive a && !(old = some a && ((s.holders a).erase h).card = 0))) ∧
    (s.decref old).bad = false := by
  have hnot : ∀ a, old ≠ some a → (s.holders a).erase h = s.holders a := by
    intro a ha
    apply Finset.erase_eq_of_notMem
    rw [mem_holders hi.fresh, ho]
    simpa using ha
  cases old with
  | none =>
    refine ⟨fun a => ?_, fun a => ?_, hi.ok⟩
    · simp only [decref, hnot a (by simp)]; exact hi.count a
    · simp [decref]
  | some b =>
    have hmem : h ∈ s.holders b := (mem_holders hi.fresh).2 ho
    have hpos : 0 < (s.holders b).card := Finset.card_pos.2 ⟨h, hmem⟩
    have hcard : ((s.holders b).erase h).card = (s.holders b).card - 1 := Finset.card_erase_of_mem hmem
    have hcount : s.count b = some (s.holders b).card := by rw [hi.count b, if_neg (by omega)]
    have hdec : decSizeT (s.holders b).card = (s.holders b).card - 1 := by
      unfold decSizeT; rw [if_neg (by omega)]
    have hal : s.alive b = true := hi.live h b ho
    simp only [decref, hcount, hdec]
    by_cases h1 : (s.holders b).card - 1 = 0
    · rw [if_pos h1]
      refine ⟨fun a => ?_, fun a => ?_, ?_⟩
      · by_cases hab : a = b
        · subst hab; simp [hcard, h1]
        · simp only [hab, if_false, hnot a (by simpa using fun e => hab e.symm)]
          exact hi.count a
      · by_cases hab : a = b
        · subst hab; simp [hcard, h1]
        · have : b ≠ a := fun e => hab e.symm
          simp [hab, this]
      · simp [hi.ok, hal]
    · rw [if_neg h1]
      refine ⟨fun a => ?_, fun a => ?_, hi.ok⟩
      · by_cases hab : a = b
        · subst hab; simp [hcard, h1]
        · simp only [hab, if_false, hnot a (by simpa using fun e => hab e.symm)]
          exact hi.count a
      · by_cases hab : a = b
        · subst hab; simp [hcard, h1]
        · have : b ≠ a := fun e => hab e.symm
          simp [this]

/-- decref logs exactly the object it kills. -/
theorem decref_log {s : SP} (hi : Inv s) (h : Nat) (old : Option Nat)
    (ho : s.handles h = some old) (a : Nat) :
    (s.decref old).log.count a = s.log.count a +
      if (s.decref old).alive a = false ∧ s.alive a = true then 1 else 0 := by
  have hself : ¬ (s.alive a = false ∧ s.alive a = true) := by
    rintro ⟨h1, h2⟩; rw [h1] at h2; cases h2
  have hcase : ((s.decref old).alive = s.alive ∧ (s.decref old).log = s.log) ∨
      ∃ b, old = some b ∧ (s.decref old).alive = (fun k => if k = b then false else s.alive k) ∧
        (s.decref old).log = b :: s.log := by
    unfold decref
    split
    · exact Or.inl ⟨rfl, rfl⟩
    · split
      · exact Or.inl ⟨rfl, rfl⟩
      · split
        · exact Or.inr ⟨_, rfl, rfl, rfl⟩
        · exact Or.inl ⟨rfl, rfl⟩
  rcases hcase with ⟨h1, h2⟩ | ⟨b, rfl, h1, h2⟩
  · rw [h1, h2, if_neg hself, Nat.add_zero]
  · have hal : s.alive b = true := hi.live h b ho
    rw [h1, h2, List.count_cons]
    by_cases hab : a = b
    · subst hab; simp [hal]
    · have : b ≠ a := fun e => hab e.symm
      simp [hab, this]

/-- `set` keeps the invariant and its effect on holders and liveness. -/
theorem set_spec {s : SP} (hi : Inv s) (h : Nat) (old p : Option Nat)
    (ho : s.handles h = some old) (hp : ∀ a, p = some a → s.alive a = true) :
    Inv (s.set h old p) ∧
    (∀ k, (s.set h old p).handles k = if k = h then some p else s.handles k) ∧
    (s.set h old p).n = s.n ∧
    (∀ a, ((s.set h old p).alive a = false ∧ s.alive a = true ↔
      s.holders a ≠ ∅ ∧ (s.set h old p).holders a = ∅)) ∧
    (∀ a, s.alive a = false → (s.set h old p).alive a = false) ∧
    (∀ a, (s.set h old p).log.count a = s.log.count a +
      if (s.set h old p).alive a = false ∧ s.alive a = true then 1 else 0) := by
  by_cases hpo : p = old
  · have hs : s.set h old p = s := by unfold set; rw [if_pos hpo]
    rw [hs]
    refine ⟨hi, ?_, rfl, ?_, fun _ h => h, ?_⟩
    · intro k; split_ifs with e
      · rw [e, ho, hpo]
      · rfl
    · intro a
      constructor
      · rintro ⟨h1, h2⟩; rw [h1] at h2; cases h2
      · rintro ⟨h1, h2⟩; exact absurd h2 h1
    · intro a
      rw [if_neg (by rintro ⟨h1, h2⟩; rw [h1] at h2; cases h2)]
      rfl
  · have hpold : ∀ a, p = some a → old ≠ some a := fun a h1 h2 => hpo (h1.trans h2.symm)
    have hs : s.set h old p = ((s.decref old).putHandle h (some p)).incref p := by
      unfold set; rw [if_neg hpo]
    obtain ⟨d1, d2, d3⟩ := decref_spec hi h old ho
    obtain ⟨dh, dn⟩ := decref_handles s old
    obtain ⟨ih, inn, ia, ib⟩ := incref_handles ((s.decref old).putHandle h (some p)) p
    have hhan : ∀ k, (s.set h old p).handles k = if k = h then some p else s.handles k := by
      intro k; rw [hs, ih]; simp only [putHandle, dh]
    have hn : (s.set h old p).n = s.n := by rw [hs, inn]; simp only [putHandle, dn]
    have hal : (s.set h old p).alive = (s.decref old).alive := by rw [hs, ia]; rfl
    have hlt : h < s.n := by
      by_contra hc
      rw [hi.fresh h (not_lt.1 hc)] at ho; cases ho
    have hfresh : ∀ k, (s.set h old p).n ≤ k → (s.set h old p).handles k = none := by
      intro k hk
      rw [hn] at hk
      rw [hhan, if_neg (by omega)]
      exact hi.fresh k hk
    have hhold : ∀ a, (s.set h old p).holders a =
        if p = some a then insert h ((s.holders a).erase h) else (s.holders a).erase h := by
      intro a
      ext k
      rw [mem_holders hfresh, hhan]
      by_cases hk : k = h
      · subst hk
        by_cases hpa : p = some a <;> simp [hpa]
      · by_cases hpa : p = some a <;> simp [hpa, hk, mem_holders hi.fresh]
    have hcnt : ∀ a, (s.set h old p).count a =
        if ((s.set h old p).holders a).card = 0 then none else some ((s.set h old p).holders a).card := by
      intro a
      rw [hhold a, hs]
      cases p with
      | none => simpa [incref, putHandle] using d1 a
      | some b =>
        by_cases hab : b = a
        · subst hab
          have h2 : (insert h ((s.holders b).erase h)).card = ((s.holders b).erase h).card + 1 :=
            Finset.card_insert_of_notMem (Finset.notMem_erase h _)
          have hd := d1 b
          simp only at hd
          simp only [incref, putHandle, if_true, h2, Nat.add_one_ne_zero, if_false, hd]
          split_ifs with e
          · simp [e]
          · rfl
        · have hba : a ≠ b := fun e => hab e.symm
          have : (some b : Option Nat) ≠ some a := by simpa using hab
          simp only [incref, putHandle, this, hba, if_false]
          exact d1 a
    have hlog : (s.set h old p).log = (s.decref old).log := by
      rw [hs]; cases p <;> rfl
    refine ⟨⟨hfresh, hcnt, ?_, ?_⟩, hhan, hn, ?_, ?_, ?_⟩
    · intro k a hk
      rw [hal, d2 a]
      rw [hhan] at hk
      split_ifs at hk with e
      · have hpa : p = some a := by simpa using hk
        have : old ≠ some a := hpold a hpa
        simp [hp a hpa, this]
      · have hmem : k ∈ (s.holders a).erase h :=
          Finset.mem_erase.2 ⟨e, (mem_holders hi.fresh).2 hk⟩
        have : ((s.holders a).erase h).card ≠ 0 := (Finset.card_pos.2 ⟨k, hmem⟩).ne'
        simp [hi.live k a hk, this]
    · rw [hs, ib]; exact d3
    · intro a
      rw [hal, d2 a]
      constructor
      · rintro ⟨h1, h2⟩
        rw [h2] at h1
        simp only [Bool.true_and, Bool.not_eq_false', Bool.and_eq_true, decide_eq_true_eq] at h1
        obtain ⟨h1, h3⟩ := h1
        have hpa : p ≠ some a := fun e => hpold a e h1
        refine ⟨?_, ?_⟩
        · intro he
          have : h ∈ s.holders a := (mem_holders hi.fresh).2 (by rw [ho, h1])
          rw [he] at this; simp at this
        · rw [hhold a, if_neg hpa]
          exact Finset.card_eq_zero.1 h3
      · rintro ⟨h1, h2⟩
        obtain ⟨k, hk⟩ := Finset.nonempty_iff_ne_empty.2 h1
        have hka := (mem_holders hi.fresh).1 hk
        have hala := hi.live k a hka
        rw [hhold a] at h2
        split_ifs at h2 with hpa
        · exact absurd h2 (Finset.insert_ne_empty _ _)
        · have hkh : k = h := by
            by_contra hne
            have : k ∈ (s.holders a).erase h := Finset.mem_erase.2 ⟨hne, hk⟩
            rw [h2] at this; simp at this
          have holda : old = some a := by
            rw [hkh, ho] at hka; simpa using hka
          simp [hala, holda, h2]
    · intro a ha
      rw [hal, d2 a, ha]; rfl
    · intro a
      rw [hlog, hal]
      exact decref_log hi h old ho a

theorem mkHandle_holders {s : SP} (a : Nat) : (s.mkHandle).holders a = s.holders a := by
  ext k
  unfold holders
  rw [Finset.mem_filter, Finset.mem_filter, Finset.mem_range, Finset.mem_range]
  simp only [mkHandle, putHandle]
  constructor
  · rintro ⟨h1, h2⟩
    by_cases e : k = s.n
    · simp [e] at h2
    · rw [if_neg e] at h2
      exact ⟨by omega, h2⟩
  · rintro ⟨h1, h2⟩
    refine ⟨by omega, ?_⟩
    rw [if_neg (by omega)]
    exact h2

/-- What every step guarantees. -/
def StepOk (s t : SP) : Prop :=
  Inv t ∧
  (∀ a, (t.alive a = false ∧ s.alive a = true ↔ s.holders a ≠ ∅ ∧ t.holders a = ∅)) ∧
  (∀ a, t.log.count a = s.log.count a + if t.alive a = false ∧ s.alive a = true then 1 else 0)

theorem stepOk_same {s t : SP} (ht : Inv t) (hh : ∀ a, t.holders a = s.holders a)
    (hal : ∀ a, s.alive a = true → t.alive a = true) (hl : t.log = s.log) : StepOk s t := by
  have hno : ∀ a, ¬ (t.alive a = false ∧ s.alive a = true) := by
    rintro a ⟨h1, h2⟩; rw [hal a h2] at h1; cases h1
  refine ⟨ht, fun a => ⟨fun h => absurd h (hno a), ?_⟩, fun a => ?_⟩
  · rintro ⟨h1, h2⟩; rw [hh a] at h2; exact absurd h2 h1
  · rw [if_neg (hno a), hl]; rfl

theorem stepOk_refl {s : SP} (hi : Inv s) : StepOk s s :=
  stepOk_same hi (fun _ => rfl) (fun _ h => h) rfl

theorem stepOk_set {s : SP} (hi : Inv s) (h : Nat) (old p : Option Nat)
    (ho : s.handles h = some old) (hp : ∀ a, p = some a → s.alive a = true) :
    StepOk s (s.set h old p) := by
  obtain ⟨h1, _, _, h4, _, h6⟩ := set_spec hi h old p ho hp
  exact ⟨h1, h4, h6⟩

theorem stepOk_mkSet {s : SP} (hi : Inv s) (p : Option Nat)
    (hp : ∀ a, p = some a → s.alive a = true) : StepOk s (s.mkHandle.set s.n none p) := by
  have hi' := inv_mkHandle hi
  have ho : s.mkHandle.handles s.n = some none := by simp [mkHandle, putHandle]
  obtain ⟨h1, _, _, h4, _, h6⟩ := set_spec hi' s.n none p ho hp
  refine ⟨h1, fun a => ?_, fun a => h6 a⟩
  rw [← mkHandle_holders]; exact h4 a

theorem stepOk_step {s : SP} (hi : Inv s) (op : Op) : StepOk s (s.step op) := by
  cases op with
  | alloc a =>
    simp only [step]
    split_ifs with ha
    · exact stepOk_refl hi
    · refine stepOk_same ⟨hi.fresh, hi.count, ?_, hi.ok⟩ (fun _ => rfl) ?_ rfl
      · intro h b hb
        have := hi.live h b hb
        simp [this]
      · intro b hb; simp [hb]
  | create =>
    exact stepOk_same (inv_mkHandle hi) (fun a => mkHandle_holders a) (fun _ h => h) rfl
  | wrap a =>
    simp only [step]
    split_ifs with ha
    · exact stepOk_mkSet hi (some a) (by rintro b h; cases h; exact ha)
    · exact stepOk_refl hi
  | copy h =>
    simp only [step]
    cases ho : s.handles h with
    | none => exact stepOk_refl hi
    | some p =>
      exact stepOk_mkSet hi p (by rintro b rfl; exact hi.live h b ho)
  | assign h h' =>
    simp only [step]
    cases ho : s.handles h with
    | none => exact stepOk_refl hi
    | some old =>
      cases ho' : s.handles h' with
      | none => exact stepOk_refl hi
      | some p => exact stepOk_set hi h old p ho (by rintro b rfl; exact hi.live h' b ho')
  | setRaw h p =>
    simp only [step]
    cases ho : s.handles h with
    | none => exact stepOk_refl hi
    | some old =>
      cases p with
      | none => exact stepOk_set hi h old none ho (by simp)
      | some a =>
        simp only
        split_ifs with ha
        · exact stepOk_set hi h old (some a) ho (by rintro b h; cases h; exact ha)
        · exact stepOk_refl hi
  | destroy h =>
    simp only [step]
    cases ho : s.handles h with
    | none => exact stepOk_refl hi
    | some old =>
      simp only
      obtain ⟨d1, d2, d3⟩ := decref_spec hi h old ho
      obtain ⟨dh, dn⟩ := decref_handles s old
      have hhan : ∀ k, ((s.decref old).putHandle h none).handles k =
          if k = h then none else s.handles k := by
        intro k; simp only [putHandle, dh]
      have hfresh : ∀ k, ((s.decref old).putHandle h none).n ≤ k →
          ((s.decref old).putHandle h none).handles k = none := by
        intro k hk
        rw [hhan]
        split_ifs
        · rfl
        · exact hi.fresh k (by simpa only [putHandle, dn] using hk)
      have hhold : ∀ a, ((s.decref old).putHandle h none).holders a = (s.holders a).erase h := by
        intro a
        ext k
        rw [mem_holders hfresh, hhan, Finset.mem_erase, mem_holders hi.fresh]
        by_cases hk : k = h <;> simp [hk]
      refine ⟨⟨hfresh, fun a => ?_, ?_, d3⟩, ?_, fun a => decref_log hi h old ho a⟩
      · rw [hhold a]; exact d1 a
      · intro k a hk
        show (s.decref old).alive a = true
        rw [d2 a]
        rw [hhan] at hk
        split_ifs at hk with e
        have hmem : k ∈ (s.holders a).erase h :=
          Finset.mem_erase.2 ⟨e, (mem_holders hi.fresh).2 hk⟩
        have : ((s.holders a).erase h).card ≠ 0 := (Finset.card_pos.2 ⟨k, hmem⟩).ne'
        simp [hi.live k a hk, this]
      · intro a
        show (s.decref old).alive a = false ∧ _ ↔ _
        rw [d2 a, hhold a]
        constructor
        · rintro ⟨h1, h2⟩
          rw [h2] at h1
          simp only [Bool.true_and, Bool.not_eq_false', Bool.and_eq_true, decide_eq_true_eq] at h1
          refine ⟨?_, Finset.card_eq_zero.1 h1.2⟩
          intro he
          have : h ∈ s.holders a := (mem_holders hi.fresh).2 (by rw [ho, h1.1])
          rw [he] at this; simp at this
        · rintro ⟨h1, h2⟩
          obtain ⟨k, hk⟩ := Finset.nonempty_iff_ne_empty.2 h1
          have hka := (mem_holders hi.fresh).1 hk
          have hkh : k = h := by
            by_contra hne
            have : k ∈ (s.holders a).erase h := Finset.mem_erase.2 ⟨hne, hk⟩
            rw [h2] at this; simp at this
          have holda : old = some a := by
            rw [hkh, ho] at hka; simpa using hka
          simp [hi.live k a hka, holda, h2]

theorem inv_run (ops : List Op) : Inv (run ops) := by
  unfold run
  have : ∀ s, Inv s → Inv (ops.foldl step s) := by
    induction ops with
    | nil => exact fun s h => h
    | cons op r ih => exact fun s h => ih _ (stepOk_step h op).1
  exact this _ inv_init

end SP

open SP

/-- C17, counts: after any history the recorded count of an object is the number of live handles
pointing to it. -/
theorem C17_count (ops : List Op) (a : Nat) :
    (run ops).refCount a =
      ((Finset.range (run ops).n).filter (fun h => (run ops).handles h = some (some a))).card := by
  have := (inv_run ops).count a
  unfold SP.refCount
  rw [this]
  unfold SP.holders
  split_ifs with h
  · simp [h]
  · rfl

/-- Handle numbers at or above `n` have never been created, so the count above is over all
handles. -/
theorem C17_count_all_handles (ops : List Op) (h : Nat) (hh : (run ops).n ≤ h) :
    (run ops).handles h = none := (inv_run ops).fresh h hh

/-- C17, safety: no history makes a delete of a dead object, and no live handle ever refers to a
destroyed object. -/
theorem C17_safe (ops : List Op) :
    (run ops).bad = false ∧
    ∀ h a, (run ops).handles h = some (some a) → (run ops).alive a = true :=
  ⟨(inv_run ops).ok, (inv_run ops).live⟩

/-- C17, exactly when the last handle goes: in any history, a step destroys object `a` iff before
it some handle referred to `a` and after it none does; and each destruction is one delete. -/
theorem C17_freed_exactly (ops : List Op) (op : Op) (a : Nat) :
    let s := run ops
    let t := run (ops ++ [op])
    ((s.alive a = true ∧ t.alive a = false) ↔
      ((∃ h, s.handles h = some (some a)) ∧ ∀ h, t.handles h ≠ some (some a))) ∧
    t.log.count a = s.log.count a + (if s.alive a = true ∧ t.alive a = false then 1 else 0) := by
  intro s t
  have hs := inv_run ops
  have ht : t = s.step op := by simp [t, s, run, List.foldl_append]
  obtain ⟨h1, h2, h3⟩ := stepOk_step hs op
  rw [← ht] at h1 h2 h3
  have e1 : s.holders a ≠ ∅ ↔ ∃ h, s.handles h = some (some a) := by
    rw [← Finset.nonempty_iff_ne_empty]
    exact exists_congr (fun h => mem_holders hs.fresh)
  have e2 : t.holders a = ∅ ↔ ∀ h, t.handles h ≠ some (some a) := by
    rw [Finset.eq_empty_iff_forall_notMem]
    exact forall_congr' (fun h => not_congr (mem_holders h1.fresh))
  refine ⟨?_, ?_⟩
  · rw [and_comm, h2 a, e1, e2]
  · rw [h3 a]; simp only [and_comm]; rfl

/-- Non-vacuity: allocate, wrap, copy, self assign, destroy one, destroy the other: alive until
the last handle goes. -/
example : (run [.alloc 7, .wrap 7, .copy 0, .assign 0 0, .assign 0 1, .destroy 0]).alive 7 = true ∧
    (run [.alloc 7, .wrap 7, .copy 0, .assign 0 0, .assign 0 1, .destroy 0]).refCount 7 = 1 ∧
    (run [.alloc 7, .wrap 7, .copy 0, .assign 0 0, .assign 0 1, .destroy 0, .destroy 1]).alive 7
      = false := by decide

end Xboa
