import Verif.Model.Subprocess
import Mathlib.Tactic.Common
/-
C111: processes started with common.subprocess are stopped by kill_all_subprocesses and at exit.
-/
namespace Xboa.Subprocess

/-! ### specification -/

/-- A child of the program is running. -/
def Running (s : State) (p : Nat) : Prop := ∃ q, s.procs[p]? = some q ∧ q.status = .running

/-- Child `p` was started by common.subprocess. -/
def Ours (s : State) (p : Nat) : Prop := ∃ q, s.procs[p]? = some q ∧ q.ours = true

/-- After `r` nothing that common.subprocess started is running and other children are as before. -/
def StopsAll (s : State) (r : Option Exn × State) : Prop :=
  r.1 = none ∧ (∀ p, Ours s p → ¬ Running r.2 p) ∧
    ∀ p, ¬ Ours s p → r.2.procs[p]? = s.procs[p]?

/-- A history without the events that spoil the end: a multiprocessing start that fails, a child made by
multiprocessing that ignores SIGTERM, `close()` of a returned object, and a wait for a forked child. -/
def Calm (c : Config) : State → List Op → Prop
  | _, [] => True
  | s, op :: r =>
    (match op with
      | .call o _ stubborn => o ≠ .startFails ∧ (c.hasMultiprocessing = true → o = .runs → stubborn = false)
      | .close _ => False
      | .wait p => p ∉ s.fk
      | _ => True) ∧ Calm c (step c s op) r

/-! ### invariants -/

/-- Every running child started by common.subprocess is in one of the lists of the module, and the lists
hold only such children. -/
structure Inv (s : State) : Prop where
  listed : ∀ p : Nat, ∀ q : Proc, s.procs[p]? = some q → q.ours = true → q.status = .running →
    MpObj.started p ∈ s.mp ∨ p ∈ s.fk
  mp : ∀ p, MpObj.started p ∈ s.mp → ∃ q, s.procs[p]? = some q ∧ q.ours = true
  fk : ∀ p ∈ s.fk, ∃ q, s.procs[p]? = some q ∧ q.ours = true

/-- what calm histories keep -/
structure Good (s : State) : Prop where
  started : ∀ m ∈ s.mp, ∃ p, m = MpObj.started p
  alive : ∀ p ∈ s.fk, ∀ q : Proc, s.procs[p]? = some q → q.status ≠ .gone
  meek : ∀ p : Nat, MpObj.started p ∈ s.mp → ∀ q : Proc, s.procs[p]? = some q → q.stubborn = false

theorem getElem?_update (s : State) (p j : Nat) (f : Proc → Proc) :
    (s.update p f).procs[j]? = (s.procs[j]?).map (fun q => if p = j then f q else q) := by
  simp [State.update, List.getElem?_modify]

/-- an update that keeps ownership and starts nothing -/
theorem Inv.update {s : State} (h : Inv s) (p : Nat) (f : Proc → Proc) (h1 : ∀ q, (f q).ours = q.ours)
    (h2 : ∀ q, (f q).status = .running → q.status = .running) : Inv (s.update p f) := by
  have key : ∀ j : Nat, ∀ q : Proc, (s.update p f).procs[j]? = some q →
      ∃ q0 : Proc, s.procs[j]? = some q0 ∧ q.ours = q0.ours ∧ (q.status = .running → q0.status = .running) := by
    intro j q hq
    rw [getElem?_update] at hq
    cases h0 : s.procs[j]? with
    | none => rw [h0] at hq; cases hq
    | some q0 =>
      rw [h0] at hq
      simp only [Option.map_some, Option.some.injEq] at hq
      refine ⟨q0, rfl, ?_⟩
      split at hq <;> subst hq
      · exact ⟨h1 q0, h2 q0⟩
      · exact ⟨rfl, id⟩
  have back : ∀ j : Nat, ∀ q0 : Proc, s.procs[j]? = some q0 → q0.ours = true →
      ∃ q, (s.update p f).procs[j]? = some q ∧ q.ours = true := by
    intro j q0 h0 ho
    rw [getElem?_update, h0]
    refine ⟨_, rfl, ?_⟩
    split
    · rw [h1]; exact ho
    · exact ho
  refine ⟨fun j q hq ho hr => ?_, fun j hj => ?_, fun j hj => ?_⟩
  · obtain ⟨q0, e1, e2, e3⟩ := key j q hq
    exact h.listed j q0 e1 (e2 ▸ ho) (e3 hr)
  · obtain ⟨q0, e1, e2⟩ := h.mp j hj
    exact back j q0 e1 e2
  · obtain ⟨q0, e1, e2⟩ := h.fk j hj
    exact back j q0 e1 e2

theorem term_ours (q : Proc) : q.term.ours = q.ours := by unfold Proc.term; split <;> rfl
theorem kill_ours (q : Proc) : q.kill.ours = q.ours := by unfold Proc.kill; split <;> rfl
theorem term_running (q : Proc) (h : q.term.status = .running) : q.status = .running := by
  unfold Proc.term at h
  split at h
  · cases h
  · exact h
theorem kill_running (q : Proc) (h : q.kill.status = .running) : q.status = .running := by
  unfold Proc.kill at h
  split at h
  · cases h
  · exact h

theorem term_gone (q : Proc) (h : q.status ≠ .gone) : q.term.status ≠ .gone := by
  unfold Proc.term; split
  · simp
  · exact h
theorem kill_gone (q : Proc) (h : q.status ≠ .gone) : q.kill.status ≠ .gone := by
  unfold Proc.kill; split
  · simp
  · exact h

theorem Inv.killMp {s : State} (h : Inv s) : ∀ l, Inv (killMp l s).2 := by
  intro l
  induction l generalizing s with
  | nil => exact h
  | cons m r ih =>
    cases m with
    | started p => exact ih (h.update p _ term_ours term_running)
    | unstarted => exact h
    | closed => exact h

theorem Inv.killFk {s : State} (h : Inv s) : ∀ l, Inv (killFk l s).2 := by
  intro l
  induction l generalizing s with
  | nil => exact h
  | cons p r ih =>
    rw [Subprocess.killFk]
    split
    · exact h
    · split
      · exact h
      · exact ih (h.update p _ kill_ours kill_running)

theorem Inv.killAll {s : State} (h : Inv s) : Inv (killAll s).2 := by
  unfold Subprocess.killAll
  have h1 := h.killMp s.mp
  split
  · rename_i e s' hk; rw [hk] at h1; exact h1
  · rename_i s' hk; rw [hk] at h1; exact h1.killFk _

theorem getElem?_spawn (s : State) (a b : Bool) (j : Nat) (q : Proc) :
    (s.spawn a b).procs[j]? = some q ↔
      s.procs[j]? = some q ∨ (j = s.procs.length ∧ q = ⟨.running, a, b⟩) := by
  simp only [State.spawn]
  rw [List.getElem?_append]
  split
  · rename_i hj
    constructor
    · exact .inl
    · rintro (h | ⟨h, _⟩)
      · exact h
      · omega
  · rename_i hj
    have hn : s.procs[j]? = none := List.getElem?_eq_none (by omega)
    rw [hn]
    constructor
    · intro h
      right
      by_cases e : j = s.procs.length
      · subst e; simp at h; exact ⟨rfl, h.symm⟩
      · rw [List.getElem?_eq_none (by simp; omega)] at h; cases h
    · rintro (h | ⟨rfl, rfl⟩)
      · cases h
      · simp

theorem Inv.spawn_mp {s : State} (h : Inv s) (a : Bool) :
    Inv { s.spawn a true with mp := s.mp ++ [.started s.procs.length] } := by
  refine ⟨fun p q hq ho hr => ?_, fun p hp => ?_, fun p hp => ?_⟩
  · rcases (getElem?_spawn s a true p q).mp hq with h0 | ⟨rfl, rfl⟩
    · rcases h.listed p q h0 ho hr with e | e
      · exact .inl (by simp [e])
      · exact .inr e
    · exact .inl (by simp)
  · rcases List.mem_append.mp hp with hp | hp
    · obtain ⟨q, e1, e2⟩ := h.mp p hp
      exact ⟨q, (getElem?_spawn s a true p q).mpr (.inl e1), e2⟩
    · simp only [List.mem_singleton, MpObj.started.injEq] at hp
      exact ⟨_, (getElem?_spawn s a true p _).mpr (.inr ⟨hp, rfl⟩), rfl⟩
  · obtain ⟨q, e1, e2⟩ := h.fk p hp
    exact ⟨q, (getElem?_spawn s a true p q).mpr (.inl e1), e2⟩

theorem Inv.fork {s : State} (h : Inv s) (f a : Bool) : Inv (fork f a s).2 := by
  unfold Subprocess.fork
  split
  · refine ⟨fun p q hq ho hr => ?_, fun p hp => ?_, fun p hp => ?_⟩
    · rcases (getElem?_spawn s a true p q).mp hq with h0 | ⟨rfl, rfl⟩
      · rcases h.listed p q h0 ho hr with e | e
        · exact .inl e
        · exact .inr (by simp [e])
      · exact .inr (by simp)
    · obtain ⟨q, e1, e2⟩ := h.mp p hp
      exact ⟨q, (getElem?_spawn s a true p q).mpr (.inl e1), e2⟩
    · rcases List.mem_append.mp hp with hp | hp
      · obtain ⟨q, e1, e2⟩ := h.fk p hp
        exact ⟨q, (getElem?_spawn s a true p q).mpr (.inl e1), e2⟩
      · simp only [List.mem_singleton] at hp
        exact ⟨_, (getElem?_spawn s a true p _).mpr (.inr ⟨hp, rfl⟩), rfl⟩
  · exact h

theorem Inv.fallBack {s : State} (h : Inv s) (c : Config) (f a : Bool) : Inv (fallBack c f a s).2 := by
  unfold Subprocess.fallBack
  split
  · exact h.fork f a
  · exact h

theorem Inv.call {s : State} (h : Inv s) (c : Config) (o : MpOutcome) (f a : Bool) :
    Inv (call c o f a s).2 := by
  have hu : Inv { s with mp := s.mp ++ [.unstarted] } :=
    ⟨fun p q hq ho hr => (h.listed p q hq ho hr).imp (fun e => by simp [e]) id,
      fun p hp => h.mp p (by simpa using hp), h.fk⟩
  unfold Subprocess.call
  split
  · cases o with
    | refused => exact h.fallBack c f a
    | startFails => exact hu.fallBack c f a
    | runs => exact h.spawn_mp a
  · exact h.fallBack c f a

theorem Inv.set_closed {s : State} (h : Inv s) (i : Nat)
    (hi : ∀ p, s.mp[i]? = some (.started p) → ¬ Running s p) : Inv { s with mp := s.mp.set i .closed } := by
  refine ⟨fun p q hq ho hr => ?_, fun p hp => ?_, h.fk⟩
  · rcases h.listed p q hq ho hr with e | e
    · left
      obtain ⟨j, hj⟩ := List.mem_iff_getElem?.mp e
      have hne : i ≠ j := by
        rintro rfl
        exact hi p hj ⟨q, hq, hr⟩
      refine List.mem_iff_getElem?.mpr ⟨j, ?_⟩
      simp only
      rw [List.getElem?_set_ne hne]
      exact hj
    · exact .inr e
  · rcases List.mem_or_eq_of_mem_set hp with hp | hp
    · exact h.mp p hp
    · cases hp

theorem Inv.step {s : State} (h : Inv s) (c : Config) (op : Op) : Inv (step c s op) := by
  cases op with
  | call o f a => exact h.call c o f a
  | other a =>
    refine ⟨fun p q hq ho hr => ?_, fun p hp => ?_, fun p hp => ?_⟩
    · rcases (getElem?_spawn s a false p q).mp hq with h0 | ⟨rfl, rfl⟩
      · exact h.listed p q h0 ho hr
      · cases ho
    · obtain ⟨q, e1, e2⟩ := h.mp p hp
      exact ⟨q, (getElem?_spawn s a false p q).mpr (.inl e1), e2⟩
    · obtain ⟨q, e1, e2⟩ := h.fk p hp
      exact ⟨q, (getElem?_spawn s a false p q).mpr (.inl e1), e2⟩
  | ends p =>
    refine h.update p _ (fun q => ?_) (fun q hq => ?_)
    · split <;> rfl
    · by_contra hn
      rw [if_neg hn] at hq; exact hn hq
  | wait p =>
    refine h.update p _ (fun q => ?_) (fun q hq => ?_)
    · split <;> rfl
    · by_cases he : q.status = .ended
      · rw [if_pos he] at hq; cases hq
      · rw [if_neg he] at hq; exact hq
  | close i =>
    simp only [Subprocess.step]
    cases hm : s.mp[i]? with
    | none => exact h
    | some m =>
      cases m with
      | started p =>
        simp only
        cases hq : s.procs[p]? with
        | none => exact h
        | some q =>
          simp only
          split
          · exact h
          · rename_i hn
            refine h.set_closed i (fun p' hp' => ?_)
            rw [hm] at hp'
            simp only [Option.some.injEq, MpObj.started.injEq] at hp'
            subst hp'
            rintro ⟨q', e1, e2⟩
            rw [hq] at e1; cases e1; exact hn e2
      | unstarted => exact h.set_closed i (fun p' hp' => by rw [hm] at hp'; cases hp')
      | closed => exact h.set_closed i (fun p' hp' => by rw [hm] at hp'; cases hp')
  | setPkgFlag b => exact ⟨h.listed, h.mp, h.fk⟩
  | setModFlag b => exact ⟨h.listed, h.mp, h.fk⟩
  | killAll => exact h.killAll

theorem Inv.run {s : State} (h : Inv s) (c : Config) : ∀ ops, Inv (run c s ops) := by
  intro ops
  induction ops generalizing s with
  | nil => exact h
  | cons op r ih => exact ih (h.step c op)

theorem Inv.start : Inv start := ⟨by simp [Subprocess.start], by simp [Subprocess.start], by simp [Subprocess.start]⟩

/-! ### what kill_all_subprocesses does -/

theorem term_term (q : Proc) : q.term.term = q.term := by
  unfold Proc.term; split <;> simp_all
theorem kill_kill (q : Proc) : q.kill.kill = q.kill := by
  unfold Proc.kill; split <;> simp_all

theorem killMp_lists : ∀ (l : List MpObj) (s : State), (killMp l s).2.mp = s.mp ∧
    (killMp l s).2.fk = s.fk ∧ (killMp l s).2.procs.length = s.procs.length ∧
    (killMp l s).2.modFlag = s.modFlag
  | [], s => ⟨rfl, rfl, rfl, rfl⟩
  | .started p :: r, s => by
    have := killMp_lists r (s.update p Proc.term)
    simpa [killMp, State.update] using this
  | .unstarted :: _, s => ⟨rfl, rfl, rfl, rfl⟩
  | .closed :: _, s => ⟨rfl, rfl, rfl, rfl⟩

theorem killMp_started : ∀ (l : List MpObj) (s : State), (∀ m ∈ l, ∃ p, m = MpObj.started p) →
    (killMp l s).1 = none ∧ ∀ j, (killMp l s).2.procs[j]? =
      (s.procs[j]?).map (fun q => if MpObj.started j ∈ l then q.term else q)
  | [], s, _ => ⟨rfl, fun j => by simp [killMp]⟩
  | .unstarted :: _, s, h => by obtain ⟨p, hp⟩ := h .unstarted (by simp); cases hp
  | .closed :: _, s, h => by obtain ⟨p, hp⟩ := h .closed (by simp); cases hp
  | .started p :: r, s, h => by
    obtain ⟨h1, h2⟩ := killMp_started r (s.update p Proc.term) (fun m hm => h m (by simp [hm]))
    refine ⟨h1, fun j => ?_⟩
    rw [killMp, h2 j, getElem?_update, Option.map_map]
    congr 1
    funext q
    simp only [Function.comp, List.mem_cons, MpObj.started.injEq]
    by_cases e : p = j
    · subst e
      by_cases e2 : MpObj.started p ∈ r <;> simp [e2, term_term]
    · have e' : ¬ j = p := fun h => e h.symm
      simp [e, e']

theorem killFk_alive : ∀ (l : List Nat) (s : State),
    (∀ p ∈ l, ∃ q, s.procs[p]? = some q ∧ q.status ≠ .gone) →
    (killFk l s).1 = none ∧ ∀ j, (killFk l s).2.procs[j]? =
      (s.procs[j]?).map (fun q => if j ∈ l then q.kill else q)
  | [], s, _ => ⟨rfl, fun j => by simp [killFk]⟩
  | p :: r, s, h => by
    obtain ⟨q, hq, hg⟩ := h p (by simp)
    have keep : ∀ p' ∈ r, ∃ q', (s.update p Proc.kill).procs[p']? = some q' ∧ q'.status ≠ .gone := by
      intro p' hp'
      obtain ⟨q', e1, e2⟩ := h p' (by simp [hp'])
      rw [getElem?_update, e1]
      refine ⟨_, rfl, ?_⟩
      split
      · exact kill_gone _ e2
      · exact e2
    obtain ⟨h1, h2⟩ := killFk_alive r (s.update p Proc.kill) keep
    simp only [killFk, hq, if_neg hg]
    refine ⟨h1, fun j => ?_⟩
    rw [h2 j, getElem?_update, Option.map_map]
    congr 1
    funext q
    simp only [Function.comp, List.mem_cons]
    by_cases e : p = j
    · subst e
      by_cases e2 : p ∈ r <;> simp [e2, kill_kill]
    · have e' : ¬ j = p := fun h => e h.symm
      simp [e, e']

theorem killAll_good {s : State} (hi : Inv s) (hg : Good s) :
    (killAll s).1 = none ∧ ∀ j, (killAll s).2.procs[j]? = (s.procs[j]?).map (fun q =>
      let q' := if MpObj.started j ∈ s.mp then q.term else q
      if j ∈ s.fk then q'.kill else q') := by
  obtain ⟨h1, h2⟩ := killMp_started s.mp s hg.started
  have h3 := killMp_lists s.mp s
  have ha : ∀ p ∈ (killMp s.mp s).2.fk, ∃ q, (killMp s.mp s).2.procs[p]? = some q ∧ q.status ≠ .gone := by
    intro p hp
    rw [h3.2.1] at hp
    obtain ⟨q, e1, _⟩ := hi.fk p hp
    have e2 := hg.alive p hp q e1
    rw [h2 p, e1]
    refine ⟨_, rfl, ?_⟩
    split
    · exact term_gone _ e2
    · exact e2
  obtain ⟨h4, h5⟩ := killFk_alive _ _ ha
  have e : killAll s = killFk (killMp s.mp s).2.fk (killMp s.mp s).2 := by
    unfold killAll
    rw [show killMp s.mp s = (none, (killMp s.mp s).2) from Prod.ext h1 rfl]
  rw [e]
  refine ⟨h4, fun j => ?_⟩
  rw [h5 j, h2 j, h3.2.1, Option.map_map]
  rfl

theorem stopsAll_good {s : State} (hi : Inv s) (hg : Good s) : StopsAll s (killAll s) := by
  obtain ⟨h1, h2⟩ := killAll_good hi hg
  refine ⟨h1, ?_, ?_⟩
  · rintro p ⟨q, hq, ho⟩ ⟨q', hq', hr⟩
    rw [h2 p, hq] at hq'
    simp only [Option.map_some, Option.some.injEq] at hq'
    by_cases hrun : q.status = .running
    · rcases hi.listed p q hq ho hrun with e | e
      · have ht : q.term.status = .ended := by simp [Proc.term, hrun, hg.meek p e q hq]
        rw [if_pos e] at hq'
        split at hq'
        · rw [← hq'] at hr; have := kill_running _ hr; rw [ht] at this; cases this
        · rw [← hq', ht] at hr; cases hr
      · rw [if_pos e] at hq'
        have : ∀ x : Proc, x.kill.status ≠ .running := by
          intro x; unfold Proc.kill; split
          · simp
          · assumption
        exact this _ (hq' ▸ hr)
    · apply hrun
      rw [← hq'] at hr
      split at hr
      · replace hr := kill_running _ hr
        split at hr
        · exact term_running _ hr
        · exact hr
      · split at hr
        · exact term_running _ hr
        · exact hr
  · intro p hp
    rw [h2 p]
    cases hq : s.procs[p]? with
    | none => rfl
    | some q =>
      have n1 : MpObj.started p ∉ s.mp := fun h => hp (by
        obtain ⟨q', e1, e2⟩ := hi.mp p h; exact ⟨q', e1, e2⟩)
      have n2 : p ∉ s.fk := fun h => hp (by
        obtain ⟨q', e1, e2⟩ := hi.fk p h; exact ⟨q', e1, e2⟩)
      simp [n1, n2]

theorem Good.update {s : State} (h : Good s) (p : Nat) (f : Proc → Proc)
    (h2 : ∀ q, (f q).stubborn = q.stubborn)
    (h3 : p ∈ s.fk → ∀ q, q.status ≠ .gone → (f q).status ≠ .gone) : Good (s.update p f) := by
  refine ⟨h.started, fun j hj q hq => ?_, fun j hj q hq => ?_⟩
  · rw [getElem?_update] at hq
    cases h0 : s.procs[j]? with
    | none => rw [h0] at hq; cases hq
    | some q0 =>
      rw [h0] at hq
      simp only [Option.map_some, Option.some.injEq] at hq
      have := h.alive j hj q0 h0
      split at hq
      · rename_i e; subst e; rw [← hq]; exact h3 hj q0 this
      · rw [← hq]; exact this
  · rw [getElem?_update] at hq
    cases h0 : s.procs[j]? with
    | none => rw [h0] at hq; cases hq
    | some q0 =>
      rw [h0] at hq
      simp only [Option.map_some, Option.some.injEq] at hq
      split at hq
      · rw [← hq, h2]; exact h.meek j hj q0 h0
      · rw [← hq]; exact h.meek j hj q0 h0

theorem Good.fork {s : State} (hi : Inv s) (h : Good s) (f a : Bool) : Good (fork f a s).2 := by
  unfold Subprocess.fork
  split
  · refine ⟨h.started, fun j hj q hq => ?_, fun j hj q hq => ?_⟩
    · rcases (getElem?_spawn s a true j q).mp hq with h0 | ⟨rfl, rfl⟩
      · rcases List.mem_append.mp hj with hj | hj
        · exact h.alive j hj q h0
        · simp only [List.mem_singleton] at hj
          subst hj
          rw [List.getElem?_eq_none (Nat.le_refl _)] at h0; cases h0
      · simp
    · rcases (getElem?_spawn s a true j q).mp hq with h0 | ⟨rfl, rfl⟩
      · exact h.meek j hj q h0
      · obtain ⟨q', e1, _⟩ := hi.mp _ hj
        rw [List.getElem?_eq_none (Nat.le_refl _)] at e1; cases e1
  · exact h

theorem Good.fallBack {s : State} (hi : Inv s) (h : Good s) (c : Config) (f a : Bool) :
    Good (fallBack c f a s).2 := by
  unfold Subprocess.fallBack
  split
  · exact h.fork hi f a
  · exact h

theorem Good.call {s : State} (hi : Inv s) (h : Good s) (c : Config) (o : MpOutcome)
    (ho : o ≠ .startFails) (f a : Bool) (ha : c.hasMultiprocessing = true → o = .runs → a = false) :
    Good (call c o f a s).2 := by
  unfold Subprocess.call
  split
  · rename_i hmp
    cases o with
    | refused => exact h.fallBack hi c f a
    | startFails => exact absurd rfl ho
    | runs =>
      have ha := ha hmp rfl
      subst ha
      refine ⟨fun m hm => ?_, fun j hj q hq => ?_, fun j hj q hq => ?_⟩
      · rcases List.mem_append.mp hm with hm | hm
        · exact h.started m hm
        · exact ⟨_, List.mem_singleton.mp hm⟩
      · rcases (getElem?_spawn s false true j q).mp hq with h0 | ⟨rfl, rfl⟩
        · exact h.alive j hj q h0
        · simp
      · rcases (getElem?_spawn s false true j q).mp hq with h0 | ⟨rfl, rfl⟩
        · rcases List.mem_append.mp hj with hj | hj
          · exact h.meek j hj q h0
          · simp only [List.mem_singleton, MpObj.started.injEq] at hj
            subst hj
            rw [List.getElem?_eq_none (Nat.le_refl _)] at h0; cases h0
        · rfl
  · exact h.fallBack hi c f a

theorem Good.killAll {s : State} (hi : Inv s) (h : Good s) : Good (killAll s).2 := by
  obtain ⟨h1, h2⟩ := killAll_good hi h
  have hfk : ∀ l (s : State), (killFk l s).2.mp = s.mp ∧ (killFk l s).2.fk = s.fk := by
    intro l
    induction l with
    | nil => intro s; exact ⟨rfl, rfl⟩
    | cons p r ih =>
      intro s
      rw [killFk]
      split
      · exact ⟨rfl, rfl⟩
      · split
        · exact ⟨rfl, rfl⟩
        · exact ih _
  have hl : (Subprocess.killAll s).2.mp = s.mp ∧ (Subprocess.killAll s).2.fk = s.fk := by
    have h3 := killMp_lists s.mp s
    unfold Subprocess.killAll
    split
    · rename_i e s' hk; rw [hk] at h3; exact ⟨h3.1, h3.2.1⟩
    · rename_i s' hk; rw [hk] at h3
      exact ⟨(hfk _ _).1.trans h3.1, (hfk _ _).2.trans h3.2.1⟩
  have hp : ∀ j : Nat, ∀ q : Proc, (Subprocess.killAll s).2.procs[j]? = some q → ∃ q0 : Proc, s.procs[j]? = some q0 ∧
      q.ours = q0.ours ∧ q.stubborn = q0.stubborn ∧ (q0.status ≠ .gone → q.status ≠ .gone) := by
    intro j q hq
    rw [h2 j] at hq
    cases h0 : s.procs[j]? with
    | none => rw [h0] at hq; cases hq
    | some q0 =>
      rw [h0] at hq
      simp only [Option.map_some, Option.some.injEq] at hq
      subst hq
      refine ⟨q0, rfl, ?_⟩
      have t : q0.term.stubborn = q0.stubborn ∧ (q0.status ≠ .gone → q0.term.status ≠ .gone) := by
        unfold Proc.term; split <;> simp_all
      have k : ∀ x : Proc, x.kill.stubborn = x.stubborn ∧ (x.status ≠ .gone → x.kill.status ≠ .gone) := by
        intro x; unfold Proc.kill; split <;> simp_all
      split <;> split
      · exact ⟨(kill_ours _).trans (term_ours _), (k _).1.trans t.1, fun h => (k _).2 (t.2 h)⟩
      · exact ⟨kill_ours _, (k _).1, (k _).2⟩
      · exact ⟨term_ours _, t.1, t.2⟩
      · exact ⟨rfl, rfl, id⟩
  refine ⟨by rw [hl.1]; exact h.started, fun j hj q hq => ?_, fun j hj q hq => ?_⟩
  · rw [hl.2] at hj
    obtain ⟨q0, e1, _, _, e4⟩ := hp j q hq
    exact e4 (h.alive j hj q0 e1)
  · obtain ⟨q0, e1, e2, e3, _⟩ := hp j q hq
    rw [hl.1] at hj
    rw [e3]; exact h.meek j hj q0 e1

theorem calm_good (c : Config) : ∀ (ops : List Op) (s : State), Inv s → Good s → Calm c s ops →
    Good (run c s ops)
  | [], _, _, h, _ => h
  | op :: r, s, hi, h, hc => by
    obtain ⟨hop, hr⟩ := hc
    refine calm_good c r (step c s op) (hi.step c op) ?_ hr
    cases op with
    | call o f a => exact h.call hi c o hop.1 f a hop.2
    | other a =>
      refine ⟨h.started, fun j hj q hq => ?_, fun j hj q hq => ?_⟩
      · rcases (getElem?_spawn s a false j q).mp hq with h0 | ⟨rfl, rfl⟩
        · exact h.alive j hj q h0
        · simp
      · rcases (getElem?_spawn s a false j q).mp hq with h0 | ⟨rfl, rfl⟩
        · exact h.meek j hj q h0
        · obtain ⟨q', e1, _⟩ := hi.mp _ hj
          rw [List.getElem?_eq_none (Nat.le_refl _)] at e1; cases e1
    | ends p =>
      refine h.update p _ (fun q => ?_) (fun _ q hq => ?_)
      · split <;> rfl
      · split
        · simp
        · exact hq
    | wait p =>
      refine h.update p _ (fun q => ?_) (fun hp => absurd hp hop)
      split <;> rfl
    | close i => exact absurd hop id
    | setPkgFlag b => exact ⟨h.started, h.alive, h.meek⟩
    | setModFlag b => exact ⟨h.started, h.alive, h.meek⟩
    | killAll => exact h.killAll hi

/-! ### properties -/

/-- C111_partial: after any calm history kill_all_subprocesses, and the function called at exit unless the
flag of the module was cleared, succeeds, leaves nothing running that common.subprocess started, and does
not touch other children.
Missing: the four events that Calm excludes (false, C111_false) and the documented ImportError (C111_root). -/
theorem C111_partial (c : Config) (ops : List Op) (h : Calm c start ops) :
    StopsAll (run c start ops) (killAll (run c start ops)) ∧
    ((run c start ops).modFlag = true → StopsAll (run c start ops) (atExit (run c start ops))) := by
  have hi := Inv.start.run c ops
  have hg := calm_good c ops start Inv.start
    ⟨by simp [start], by simp [start], by simp [start]⟩ h
  have := stopsAll_good hi hg
  refine ⟨this, fun hf => ?_⟩
  unfold atExit
  rw [if_pos hf]
  exact this

/-- C111, what happens otherwise: after any history, if a Process object in the list was never started or
was closed, kill_all_subprocesses raises, and every child that is not held by an object before it, among
them all the forked ones, stays as it is. -/
theorem C111_stuck (c : Config) (ops : List Op) (before after : List MpObj) (bad : MpObj)
    (hs : (run c start ops).mp = before ++ bad :: after) (hbefore : ∀ m ∈ before, ∃ p, m = .started p)
    (hbad : bad = .unstarted ∨ bad = .closed) :
    (killAll (run c start ops)).1 = some (if bad = .unstarted then .AttributeError else .ValueError) ∧
    ∀ p, MpObj.started p ∉ before →
      (killAll (run c start ops)).2.procs[p]? = (run c start ops).procs[p]? := by
  have key : ∀ (l : List MpObj) (s : State), (∀ m ∈ l, ∃ p, m = MpObj.started p) →
      killMp (l ++ bad :: after) s =
        (some (if bad = .unstarted then Exn.AttributeError else .ValueError), (killMp l s).2) := by
    intro l
    induction l with
    | nil =>
      intro s _
      rcases hbad with rfl | rfl <;> simp [killMp]
    | cons m r ih =>
      intro s hm
      obtain ⟨p, rfl⟩ := hm m (by simp)
      simp only [List.cons_append, killMp]
      exact ih _ (fun m' hm' => hm m' (by simp [hm']))
  generalize run c start ops = s at hs
  have hk := key before s hbefore
  unfold killAll
  rw [hs, hk]
  refine ⟨rfl, fun p hp => ?_⟩
  simp only
  rw [(killMp_started before s hbefore).2 p]
  cases s.procs[p]? <;> simp [hp]

/-- C111: without multiprocessing, common.subprocess forks whether or not ROOT is there, and never raises
ImportError although "if multiprocessing is not available and ROOT is installed, this routine will throw
an ImportError" is documented. -/
theorem C111_root (c : Config) (h : c.hasMultiprocessing = false) (o : MpOutcome) (stubborn : Bool)
    (s : State) :
    (∃ p, (call c o true stubborn s).1 = .ok (.pid p) ∧ Running (call c o true stubborn s).2 p) ∧
    ∀ forks, (call c o forks stubborn s).1 ≠ .error .ImportError := by
  have ht : tryRoot c = .ImportError := by
    unfold tryRoot hasRoot; cases c.hasRoot <;> rfl
  have e : ∀ forks, call c o forks stubborn s = fork forks stubborn s := by
    intro forks; simp [call, h, fallBack, ht]
  refine ⟨⟨s.procs.length, ?_, ?_⟩, fun forks => ?_⟩
  · rw [e]; rfl
  · rw [e]
    exact ⟨⟨.running, stubborn, true⟩, (getElem?_spawn s stubborn true _ _).mpr (.inr ⟨rfl, rfl⟩), rfl⟩
  · rw [e]; unfold fork; split <;> simp

/-- C111: the switch `xboa.common.kill_subprocesses_at_exit` of the documentation has no effect: whatever a
program that does not reach in to the private module `_common` does, the children are killed at exit as
if it had not been touched. -/
theorem C111_switch (c : Config) (ops : List Op) (h : ∀ b, Op.setModFlag b ∉ ops) :
    atExit (run c start ops) = killAll (run c start ops) := by
  have hk : ∀ l (s : State), (killFk l s).2.modFlag = s.modFlag := by
    intro l
    induction l with
    | nil => intro s; rfl
    | cons p r ih =>
      intro s
      rw [killFk]
      split
      · rfl
      · split
        · rfl
        · exact ih _
  have hs : ∀ s op, (∀ b, op ≠ .setModFlag b) → (step c s op).modFlag = s.modFlag := by
    intro s op hop
    cases op with
    | call o f a =>
      simp only [step, call, fallBack, fork]
      split <;> (try split) <;> (try split) <;> (try split) <;> rfl
    | other a => rfl
    | ends p => rfl
    | wait p => rfl
    | close i =>
      simp only [step]
      split
      · split
        · split <;> rfl
        · rfl
      · rfl
      · rfl
    | setPkgFlag b => rfl
    | setModFlag b => exact absurd rfl (hop b)
    | killAll =>
      simp only [step, killAll]
      have := killMp_lists s.mp s
      split
      · rename_i e s' hk'; rw [hk'] at this; exact this.2.2.2
      · rename_i s' hk'; rw [hk'] at this; exact (hk _ _).trans this.2.2.2
  have hrun : ∀ (ops : List Op) s, (∀ b, Op.setModFlag b ∉ ops) → (run c s ops).modFlag = s.modFlag := by
    intro ops
    induction ops with
    | nil => intro s _; rfl
    | cons op r ih =>
      intro s ho
      refine (ih (step c s op) (fun b hb => ho b (by simp [hb]))).trans (hs s op (fun b hb => ?_))
      exact ho b (by simp [hb])
  have ht : (run c start ops).modFlag = true := hrun ops start h
  unfold atExit
  rw [if_pos ht]

/-- C111 is false in each of the four cases that Calm excludes: a start that failed (the child started
afterwards, the forked one, and all others run on), an object that the caller closed, a forked child
that the caller waited for, and a child that ignores SIGTERM. -/
theorem C111_false :
    (killAll (run ⟨true, false⟩ start [.call .startFails true false, .call .runs true false])) =
      (some .AttributeError, run ⟨true, false⟩ start [.call .startFails true false, .call .runs true false]) ∧
    (∀ ops ∈ [[.call .startFails true false, .call .runs true false],
        [.call .runs true false, .call .runs true false, .ends 0, .close 0],
        [.call .refused true false, .call .refused true false, .ends 0, .wait 0],
        [.call .runs true false, .call .runs true true]],
      Ours (run ⟨true, false⟩ start ops) 1 ∧ Running (atExit (run ⟨true, false⟩ start ops)).2 1) := by
  refine ⟨by decide, ?_⟩
  intro ops h
  simp only [List.mem_cons, List.not_mem_nil, or_false] at h
  rcases h with rfl | rfl | rfl | rfl <;> exact ⟨⟨_, rfl, rfl⟩, ⟨_, rfl, rfl⟩⟩

/-- a calm history: two children by multiprocessing, one by fork that ignores SIGTERM, one of them ended, and one child of
another origin -/
example : Calm ⟨true, true⟩ start [.call .runs true false, .other true, .call .refused true true,
    .call .runs true false, .ends 0, .wait 0] ∧
    (killAll (run ⟨true, true⟩ start [.call .runs true false, .other true, .call .refused true true,
      .call .runs true false, .ends 0, .wait 0])).2.procs.map Proc.status =
      [.gone, .running, .ended, .ended] := by
  refine ⟨?_, by decide⟩
  simp [Calm, step, call, fallBack, fork, tryRoot, hasRoot, start, State.spawn, State.update]

/-- a history that gets stuck -/
example : (run ⟨true, false⟩ start [.call .runs true false, .call .startFails true false]).mp =
    [.started 0] ++ .unstarted :: [] := by decide

end Xboa.Subprocess
