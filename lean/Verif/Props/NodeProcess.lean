import Verif.Model.NodeProcess
/-
C103: tracking in a child process.
-/
set_option linter.unusedSectionVars false
namespace Xboa.Node
variable {H B : Type}

/-! ### no results in Python 3 -/

/-- what holds of every state in Python 3: no results file, and no child got past reading -/
def Dry (s : St H B) : Prop := s.sandwich = none ∧ ∀ (k : Nat) (h : List H), s.phase[k]? ≠ some (.loaded h)

theorem isAlive_rest (V : Env H B) (s : St H B) : (isAlive V s).2.sandwich = s.sandwich ∧
    (isAlive V s).2.phase = s.phase ∧ (isAlive V s).2.jar = s.jar ∧ (isAlive V s).2.proc = s.proc ∧
    (isAlive V s).2.polls.length = s.polls.length := by
  unfold isAlive poll
  cases h : s.proc <;> simp [h]

theorem join_rest {V : Env H B} {t : Option Nat} {s s' : St H B} (h : Join V t s s') :
    s'.sandwich = s.sandwich ∧ s'.phase = s.phase ∧ s'.jar = s.jar ∧ s'.proc = s.proc ∧
    s'.polls.length = s.polls.length := by
  induction h with
  | stop t s s' h => have := isAlive_rest V s; rw [h] at this; exact this
  | late s s' h => have := isAlive_rest V s; rw [h] at this; exact this
  | again t s s' s'' h _ _ ih =>
    have := isAlive_rest V s
    rw [h] at this
    exact ⟨ih.1.trans this.1, ih.2.1.trans this.2.1, ih.2.2.1.trans this.2.2.1,
      ih.2.2.2.1.trans this.2.2.2.1, ih.2.2.2.2.trans this.2.2.2.2⟩

theorem kill_rest {V : Env H B} {t : Option Nat} {s s' : St H B} {r : Except Err Unit}
    (h : Kill V t s r s') : s'.sandwich = s.sandwich ∧ s'.phase = s.phase ∧ s'.jar = s.jar ∧
    s'.proc = s.proc ∧ s'.polls.length = s.polls.length := by
  cases h with
  | early h => exact ⟨rfl, rfl, rfl, rfl, rfl⟩
  | ended s' k h hj =>
    have := join_rest hj
    simpa [poll] using this

theorem getReturn_state (V : Env H B) (s : St H B) : (getReturn V s).2 = (isAlive V s).2 := by
  unfold getReturn
  rcases h : isAlive V s with ⟨b, s'⟩
  cases b <;> simp only
  cases s'.exitcode <;> simp only
  cases s'.sandwich <;> rfl

theorem start_rest (V : Env H B) (s : St H B) : (start V s).2.sandwich = s.sandwich ∧
    (start V s).2.jar = s.jar ∧
    ((start V s).2.phase = s.phase ∨ (start V s).2.phase = s.phase ++ [.fresh]) := by
  have := isAlive_rest V s
  unfold start
  rcases h : isAlive V s with ⟨b, s'⟩
  rw [h] at this
  simp only at this
  cases b <;> simp [this.1, this.2.1, this.2.2.1]

theorem dry_step {V : Env H B} (hP : V.pickle.Python3) {s s' : St H B} {o : Op H} {r : Out H}
    (h : Step V s o r s') (hs : Dry s) : Dry s' := by
  obtain ⟨h1, h2⟩ := hs
  cases h with
  | setHits _ h => obtain ⟨e, he⟩ := hP.jar h; simp only [setHits, he]; exact ⟨h1, h2⟩
  | start =>
    obtain ⟨e1, _, e2⟩ := start_rest V s
    refine ⟨e1.trans h1, fun k h => ?_⟩
    rcases e2 with e | e
    · rw [e]; exact h2 k h
    · rw [e]
      rcases Nat.lt_trichotomy k s.phase.length with hk | hk | hk
      · rw [List.getElem?_append_left hk]; exact h2 k h
      · subst hk; simp
      · rw [List.getElem?_eq_none (by simp; omega)]; simp
  | isAlive =>
    obtain ⟨e1, e2, _⟩ := isAlive_rest V s
    exact ⟨e1.trans h1, by rw [e2]; exact h2⟩
  | join t _ _ hj =>
    obtain ⟨e1, e2, _⟩ := join_rest hj
    exact ⟨e1.trans h1, by rw [e2]; exact h2⟩
  | kill t _ _ _ hj =>
    obtain ⟨e1, e2, _⟩ := kill_rest hj
    exact ⟨e1.trans h1, by rw [e2]; exact h2⟩
  | getReturn =>
    obtain ⟨e1, e2, _⟩ := isAlive_rest V s
    rw [getReturn_state]
    exact ⟨e1.trans h1, by rw [e2]; exact h2⟩
  | childReads _ k =>
    have hset : ∀ p : Phase H, (∀ h, p ≠ .loaded h) → ∀ (j : Nat) (h : List H), (s.phase.set k p)[j]? ≠ some (.loaded h) := by
      intro p hp j h
      rw [List.getElem?_set]
      split
      · split
        · simpa using hp h
        · simp
      · exact h2 j h
    unfold childReads
    split
    · rename_i b _ _
      obtain ⟨e, he⟩ := hP.unjar b
      rw [he]
      exact ⟨h1, hset _ (by simp)⟩
    · exact ⟨h1, hset _ (by simp)⟩
    · exact ⟨h1, h2⟩
  | childWrites _ k =>
    unfold childWrites
    split
    · rename_i h e
      exact (h2 k h e).elim
    · exact ⟨h1, h2⟩

theorem dry_run {V : Env H B} (hP : V.pickle.Python3) {l : List (Op H × Out H)} {s : St H B}
    (h : Run V l s) : Dry s := by
  induction h with
  | new => exact ⟨rfl, by simp [St.new]⟩
  | step l s s' o r _ hs ih => exact dry_step hP hs ih

/-- C103 is false in Python 3: set_hit_list raises whenever it is called, and no history of
calls and of the children, however long, ever has get_return_value return a value. -/
theorem C103_false {V : Env H B} (hP : V.pickle.Python3) {l : List (Op H × Out H)} {s : St H B}
    (h : Run V l s) : (∀ r, (Op.getReturn, r) ∈ l → r = .hits (.error .RuntimeError)) ∧
      ∀ hits r, (Op.setHits hits, r) ∈ l → ∃ e, r = .unit (.error e) := by
  induction h with
  | new => simp
  | step l s s' o r hr hs ih =>
    have hd := dry_run hP hr
    refine ⟨fun r' h => ?_, fun hits r' h => ?_⟩
    · rcases List.mem_append.mp h with h | h
      · exact ih.1 r' h
      · simp only [List.mem_singleton, Prod.mk.injEq] at h
        obtain ⟨rfl, rfl⟩ := h
        cases hs
        have e := (isAlive_rest V s).1
        unfold getReturn
        rcases ha : isAlive V s with ⟨b, s1⟩
        rw [ha] at e
        simp only at e
        rw [hd.1] at e
        cases b <;> simp only
        cases s1.exitcode <;> simp [e]
    · rcases List.mem_append.mp h with h | h
      · exact ih.2 hits r' h
      · simp only [List.mem_singleton, Prod.mk.injEq] at h
        obtain ⟨rfl, rfl⟩ := h
        cases hs
        obtain ⟨e, he⟩ := hP.jar hits
        exact ⟨e, by simp [setHits, he]⟩

/-! ### if the files were binary -/

/-- pickle through files opened in binary mode: what is read is what was written, and nothing can be
read from an empty file. -/
structure Faithful (P : Pickle H B) : Prop where
  jar : ∀ h b, P.dumpJar h = .ok b → P.loadJar b = .ok h
  hits : ∀ h b, P.dumpHits h = .ok b → P.loadHits b = .ok h
  noJar : ∃ e, P.loadJar P.empty = .error e
  noHits : ∃ e, P.loadHits P.empty = .error e

/-- `h` was given to set_hit_list. -/
def WasSet (l : List (Op H × Out H)) (h : List H) : Prop := ∃ r, (Op.setHits h, r) ∈ l

/-- where the contents of the files and the hit lists of the children come from -/
structure From (V : Env H B) (S : List H → Prop) (s : St H B) : Prop where
  jar : ∀ b, s.jar = some b → b = V.pickle.empty ∨ ∃ h, S h ∧ V.pickle.dumpJar h = .ok b
  phase : ∀ (k : Nat) (h : List H), s.phase[k]? = some (.loaded h) → S h
  sandwich : ∀ b, s.sandwich = some b → b = V.pickle.empty ∨
    ∃ h r, S h ∧ V.track h = .ok r ∧ V.pickle.dumpHits r = .ok b

theorem From.mono {V : Env H B} {S T : List H → Prop} {s : St H B} (h : From V S s)
    (hST : ∀ x, S x → T x) : From V T s :=
  ⟨fun b e => (h.jar b e).imp id fun ⟨x, hx, e⟩ => ⟨x, hST x hx, e⟩,
   fun k x e => hST x (h.phase k x e),
   fun b e => (h.sandwich b e).imp id fun ⟨x, r, hx, e⟩ => ⟨x, r, hST x hx, e⟩⟩

theorem From.of_eq {V : Env H B} {S : List H → Prop} {s s' : St H B} (h : From V S s)
    (e1 : s'.sandwich = s.sandwich) (e2 : s'.phase = s.phase) (e3 : s'.jar = s.jar) : From V S s' :=
  ⟨by rw [e3]; exact h.jar, by rw [e2]; exact h.phase, by rw [e1]; exact h.sandwich⟩

theorem from_step {V : Env H B} (hP : Faithful V.pickle) {s s' : St H B} {o : Op H} {r : Out H}
    {S : List H → Prop} (h : Step V s o r s') (hs : From V S s) (hS : ∀ x, o = .setHits x → S x) :
    From V S s' := by
  cases h with
  | setHits _ h =>
    unfold setHits
    cases hd : V.pickle.dumpJar h with
    | ok b =>
      refine ⟨fun b' e => .inr ⟨h, hS h rfl, ?_⟩, hs.phase, hs.sandwich⟩
      simp only [Option.some.injEq] at e
      rw [hd, e]
    | error e =>
      refine ⟨fun b' e => .inl ?_, hs.phase, hs.sandwich⟩
      simp only [Option.some.injEq] at e
      exact e.symm
  | start =>
    obtain ⟨e1, e3, e2⟩ := start_rest V s
    refine ⟨by rw [e3]; exact hs.jar, fun k h => ?_, by rw [e1]; exact hs.sandwich⟩
    rcases e2 with e | e
    · rw [e]; exact hs.phase k h
    · rw [e]
      rcases Nat.lt_trichotomy k s.phase.length with hk | hk | hk
      · rw [List.getElem?_append_left hk]; exact hs.phase k h
      · subst hk; simp
      · rw [List.getElem?_eq_none (by simp; omega)]; simp
  | isAlive =>
    obtain ⟨e1, e2, e3, _⟩ := isAlive_rest V s
    exact hs.of_eq e1 e2 e3
  | join t _ _ hj =>
    obtain ⟨e1, e2, e3, _⟩ := join_rest hj
    exact hs.of_eq e1 e2 e3
  | kill t _ _ _ hj =>
    obtain ⟨e1, e2, e3, _⟩ := kill_rest hj
    exact hs.of_eq e1 e2 e3
  | getReturn =>
    obtain ⟨e1, e2, e3, _⟩ := isAlive_rest V s
    rw [getReturn_state]
    exact hs.of_eq e1 e2 e3
  | childReads _ k =>
    have hset : ∀ p : Phase H, (∀ h, p = .loaded h → S h) → ∀ (j : Nat) (h : List H),
        (s.phase.set k p)[j]? = some (.loaded h) → S h := by
      intro p hp j h e
      rw [List.getElem?_set] at e
      split at e
      · split at e
        · simp only [Option.some.injEq] at e; exact hp h e
        · cases e
      · exact hs.phase j h e
    unfold childReads
    split
    · rename_i b ep ej
      cases hl : V.pickle.loadJar b with
      | ok h =>
        refine ⟨hs.jar, hset _ ?_, ?_⟩
        · intro h' e
          simp only [Phase.loaded.injEq] at e
          subst e
          rcases hs.jar b ej with rfl | ⟨x, hx, e⟩
          · obtain ⟨e, he⟩ := hP.noJar
            rw [he] at hl; cases hl
          · rw [hP.jar x b e, Except.ok.injEq] at hl
            exact hl ▸ hx
        · intro b' e
          simp only at e
          split at e
          · cases e
          · exact hs.sandwich b' e
      | error e => exact ⟨hs.jar, hset _ (by simp), hs.sandwich⟩
    · exact ⟨hs.jar, hset _ (by simp), hs.sandwich⟩
    · exact hs
  | childWrites _ k =>
    have hset : ∀ (j : Nat) (h : List H), (s.phase.set k .done)[j]? = some (.loaded h) → S h := by
      intro j h e
      rw [List.getElem?_set] at e
      split at e
      · split at e
        · simp at e
        · cases e
      · exact hs.phase j h e
    unfold childWrites
    split
    · rename_i h eh
      cases ht : V.track h with
      | error e => exact ⟨hs.jar, hset, hs.sandwich⟩
      | ok r =>
        simp only
        cases hd : V.pickle.dumpHits r with
        | ok b =>
          refine ⟨hs.jar, hset, fun b' e => .inr ⟨h, r, hs.phase k h eh, ht, ?_⟩⟩
          simp only [Option.some.injEq] at e
          rw [hd, e]
        | error e =>
          refine ⟨hs.jar, hset, fun b' e => .inl ?_⟩
          simp only [Option.some.injEq] at e
          exact e.symm
    · exact hs

theorem from_run {V : Env H B} (hP : Faithful V.pickle) {l : List (Op H × Out H)} {s : St H B}
    (h : Run V l s) : From V (WasSet l) s := by
  induction h with
  | new => exact ⟨by simp [St.new], by simp [St.new], by simp [St.new]⟩
  | step l s s' o r _ hs ih =>
    refine from_step hP hs (ih.mono fun x ⟨r, hr⟩ => ⟨r, by simp [hr]⟩) ?_
    rintro x rfl
    exact ⟨r, by simp⟩

/-- C103 if the files were opened in binary mode: a value returned by get_return_value is what the
tracking makes of one of the hit lists given to set_hit_list before. -/
theorem C103_partial {V : Env H B} (hP : Faithful V.pickle) {l : List (Op H × Out H)} {s s' : St H B}
    (h : Run V l s) {v : List (List H)} (hv : Step V s .getReturn (.hits (.ok v)) s') :
    ∃ hits, (∃ r, (Op.setHits hits, r) ∈ l) ∧ V.track hits = .ok v := by
  have hf := from_run hP h
  generalize hr : Out.hits (.ok v) = r at hv
  cases hv
  simp only [Out.hits.injEq] at hr
  unfold getReturn at hr
  obtain ⟨e1, _⟩ := isAlive_rest V s
  rcases ha : isAlive V s with ⟨b, s1⟩
  rw [ha] at hr e1
  simp only at hr e1
  cases b with
  | true => cases hr
  | false =>
    simp only at hr
    cases hx : s1.exitcode with
    | none => rw [hx] at hr; cases hr
    | some c =>
      rw [hx] at hr
      simp only at hr
      cases hsw : s1.sandwich with
      | none => rw [hsw] at hr; cases hr
      | some b =>
        rw [hsw] at hr
        simp only at hr
        rcases hf.sandwich b (e1 ▸ hsw) with rfl | ⟨x, r, hx, ht, hd⟩
        · obtain ⟨e, he⟩ := hP.noHits
          rw [he] at hr; cases hr
        · rw [hP.hits r b hd, Except.ok.injEq] at hr
          exact ⟨x, hx, hr ▸ ht⟩

/-! ### the order of calls -/

/-- the bookkeeping of the children -/
structure Books (V : Env H B) (l : List (Op H × Out H)) (s : St H B) : Prop where
  started : s.proc = none ↔ (Op.start, Out.unit (.ok ())) ∉ l
  last : ∀ k, s.proc = some k → k + 1 = s.phase.length
  idle : s.proc = none → s.phase = [] ∧ s.exitcode = none
  exited : ∀ k, k + 1 < s.phase.length → ∃ n c, V.exit k n = some c
  sync : s.polls.length = s.phase.length

theorem stays {V : Env H B} (hV : V.Stable) {k n : Nat} {c : Int} (h : V.exit k n = some c) (m : Nat)
    (hm : n ≤ m) : V.exit k m = some c := by
  obtain ⟨d, rfl⟩ := Nat.exists_eq_add_of_le hm
  clear hm
  induction d with
  | zero => exact h
  | succ d ih => exact hV k (n + d) c ih

theorem alive_false {V : Env H B} {s s' : St H B} (h : isAlive V s = (false, s')) (k : Nat)
    (hk : s.proc = some k) : ∃ n c, V.exit k n = some c ∧ s'.exitcode = some c := by
  simp only [isAlive, hk, poll, Prod.mk.injEq] at h
  obtain ⟨h1, rfl⟩ := h
  cases hc : V.exit k (s.polls.getD k 0) with
  | none => rw [hc] at h1; cases h1
  | some c => exact ⟨_, c, hc, rfl⟩

theorem alive_exitcode {V : Env H B} {s : St H B} (h : s.proc = none) :
    isAlive V s = (false, s) := by simp [isAlive, h]

theorem Books.congr {V : Env H B} {l : List (Op H × Out H)} {s s' : St H B} {o : Op H} {r : Out H}
    (h : Books V l s) (ho : o ≠ .start ∨ r ≠ .unit (.ok ())) (e2 : s'.phase = s.phase)
    (e3 : s'.proc = s.proc) (e4 : s'.polls.length = s.polls.length)
    (e5 : s.proc = none → s'.exitcode = s.exitcode) : Books V (l ++ [(o, r)]) s' := by
  refine ⟨?_, ?_, ?_, ?_, ?_⟩
  · rw [e3, h.started]
    simp only [List.mem_append, List.mem_singleton, Prod.mk.injEq, not_or]
    constructor
    · intro h'
      refine ⟨h', ?_⟩
      rintro ⟨rfl, rfl⟩
      rcases ho with ho | ho <;> exact ho rfl
    · exact fun h' => h'.1
  · rw [e3, e2]; exact h.last
  · rw [e3, e2]
    intro hn
    rw [e5 hn]
    exact h.idle hn
  · rw [e2]; exact h.exited
  · rw [e4, e2]; exact h.sync

theorem join_none {V : Env H B} {t : Option Nat} {s s' : St H B} (h : Join V t s s')
    (hn : s.proc = none) : s'.exitcode = s.exitcode := by
  cases h with
  | stop _ _ _ h => rw [alive_exitcode hn] at h; cases h; rfl
  | late _ _ h => rw [alive_exitcode hn] at h; cases h
  | again _ _ s' _ h _ _ => rw [alive_exitcode hn] at h; cases h

theorem childReads_rest (V : Env H B) (k : Nat) (s : St H B) : (childReads V k s).proc = s.proc ∧
    (childReads V k s).exitcode = s.exitcode ∧ (childReads V k s).polls = s.polls ∧
    (childReads V k s).phase.length = s.phase.length := by
  unfold childReads
  split
  · split <;> simp
  · simp
  · simp

theorem childWrites_rest (V : Env H B) (k : Nat) (s : St H B) : (childWrites V k s).proc = s.proc ∧
    (childWrites V k s).exitcode = s.exitcode ∧ (childWrites V k s).polls = s.polls ∧
    (childWrites V k s).phase.length = s.phase.length := by
  unfold childWrites
  split
  · split
    · simp
    · split <;> simp
  · simp

theorem Books.child {V : Env H B} {l : List (Op H × Out H)} {s s' : St H B} {o : Op H} {r : Out H}
    (h : Books V l s) (ho : o ≠ .start) (e2 : s'.phase.length = s.phase.length)
    (e3 : s'.proc = s.proc) (e4 : s'.polls = s.polls)
    (e5 : s'.exitcode = s.exitcode) : Books V (l ++ [(o, r)]) s' := by
  refine ⟨?_, ?_, ?_, ?_, ?_⟩
  · rw [e3, h.started]
    simp only [List.mem_append, List.mem_singleton, Prod.mk.injEq, not_or]
    exact ⟨fun h' => ⟨h', fun e => ho e.1.symm⟩, fun h' => h'.1⟩
  · rw [e3, e2]; exact h.last
  · rw [e3, e5]
    intro hn
    exact ⟨List.eq_nil_of_length_eq_zero (by rw [e2, (h.idle hn).1]; rfl), (h.idle hn).2⟩
  · rw [e2]; exact h.exited
  · rw [e4, e2]; exact h.sync

theorem books_run {V : Env H B} {l : List (Op H × Out H)} {s : St H B} (h : Run V l s) :
    Books V l s := by
  induction h with
  | new => exact ⟨by simp [St.new], by simp [St.new], by simp [St.new], by simp [St.new], rfl⟩
  | step l s s' o r _ hs ih =>
    cases hs with
    | setHits _ h =>
      refine ih.congr (.inl (by simp)) ?_ ?_ ?_ ?_ <;> unfold setHits <;>
        cases V.pickle.dumpJar h <;> simp
    | start =>
      obtain ⟨r1, r2, r3, r4, r5⟩ := isAlive_rest V s
      unfold start
      rcases ha : isAlive V s with ⟨b, s1⟩
      rw [ha] at r1 r2 r3 r4 r5
      simp only at r1 r2 r3 r4 r5
      cases b with
      | true =>
        refine ih.congr (.inr (by simp)) r2 r4 r5 ?_
        intro hn
        rw [alive_exitcode hn] at ha
        cases ha
      | false =>
        refine ⟨by simp, ?_, by simp, ?_, ?_⟩
        · intro k hk
          simp only [Option.some.injEq] at hk
          subst hk
          simp
        · intro k hk
          simp only [List.length_append, List.length_singleton, r2] at hk
          rcases Nat.lt_or_ge (k + 1) s.phase.length with h | h
          · exact ih.exited k h
          · cases hp : s.proc with
            | none =>
              rw [(ih.idle hp).1] at hk
              simp at hk
            | some j =>
              have hj := ih.last j hp
              have : j = k := by omega
              subst this
              obtain ⟨n, c, h1, _⟩ := alive_false ha j hp
              exact ⟨n, c, h1⟩
        · simp [r2, r5, ih.sync]
    | isAlive =>
      obtain ⟨r1, r2, r3, r4, r5⟩ := isAlive_rest V s
      refine ih.congr (.inl (by simp)) r2 r4 r5 ?_
      intro hn; rw [alive_exitcode hn]
    | join t _ _ hj =>
      obtain ⟨r1, r2, r3, r4, r5⟩ := join_rest hj
      exact ih.congr (.inl (by simp)) r2 r4 r5 (join_none hj)
    | kill t _ _ _ hj =>
      obtain ⟨r1, r2, r3, r4, r5⟩ := kill_rest hj
      refine ih.congr (.inl (by simp)) r2 r4 r5 ?_
      intro hn
      cases hj with
      | early => rfl
      | ended s' k hk _ => rw [hn] at hk; cases hk
    | getReturn =>
      obtain ⟨r1, r2, r3, r4, r5⟩ := isAlive_rest V s
      rw [← getReturn_state] at r2 r4 r5
      refine ih.congr (.inl (by simp)) r2 r4 r5 ?_
      intro hn; rw [getReturn_state, alive_exitcode hn]
    | childReads _ k =>
      obtain ⟨r1, r2, r3, r4⟩ := childReads_rest V k s
      exact ih.child (by simp) r4 r1 r3 r2
    | childWrites _ k =>
      obtain ⟨r1, r2, r3, r4⟩ := childWrites_rest V k s
      exact ih.child (by simp) r4 r1 r3 r2

/-- C103: before start has succeeded, the process is not alive, and get_return_value, terminate and
kill raise RuntimeError. -/
theorem C103_before {V : Env H B} {l : List (Op H × Out H)} {s s' : St H B} (h : Run V l s)
    (hl : (Op.start, Out.unit (.ok ())) ∉ l) :
    (∀ r, Step V s .isAlive r s' → r = .bool false) ∧
    (∀ r, Step V s .getReturn r s' → r = .hits (.error .RuntimeError)) ∧
    ∀ t r, Step V s (.kill t) r s' → r = .unit (.error .RuntimeError) := by
  have hb := books_run h
  have hn := hb.started.mpr hl
  refine ⟨?_, ?_, ?_⟩
  · intro r hr
    cases hr
    rw [alive_exitcode hn]
  · intro r hr
    cases hr
    simp only [getReturn, alive_exitcode hn, (hb.idle hn).2]
  · intro t r hr
    cases hr with
    | kill _ _ _ _ hk =>
      cases hk with
      | early => rfl
      | ended s' k hk _ => rw [hn] at hk; cases hk

/-- C103: at any time all children but the one started last have exited; start raises RuntimeError
exactly when the last one is still running, and get_return_value does so then. -/
theorem C103_one_child {V : Env H B} (hV : V.Stable) {l : List (Op H × Out H)} {s : St H B}
    (h : Run V l s) :
    (∀ k, k + 1 < s.phase.length → ∃ n, ∀ m, n ≤ m → V.exit k m ≠ none) ∧
    (∀ r s', Step V s .start r s' →
      (r = .unit (.error .RuntimeError) ↔ Step V s .isAlive (.bool true) s') ∧
      (r ≠ .unit (.error .RuntimeError) → r = .unit (.ok ()) ∧ s'.phase.length = s.phase.length + 1)) ∧
    ∀ r s', Step V s .getReturn r s' → Step V s .isAlive (.bool true) s' →
      r = .hits (.error .RuntimeError) := by
  have hb := books_run h
  refine ⟨?_, ?_, ?_⟩
  · intro k hk
    obtain ⟨n, c, hc⟩ := hb.exited k hk
    exact ⟨n, fun m hm => by rw [stays hV hc m hm]; simp⟩
  · intro r s' hr
    cases hr
    obtain ⟨r1, r2, r3, r4, r5⟩ := isAlive_rest V s
    rcases ha : isAlive V s with ⟨b, s1⟩
    rw [ha] at r2
    cases b with
    | true =>
      have e : start V s = (.error .RuntimeError, s1) := by simp [start, ha]
      rw [e]
      refine ⟨⟨fun _ => ?_, fun _ => rfl⟩, fun h => (h rfl).elim⟩
      have := Step.isAlive (V := V) s
      rw [ha] at this
      exact this
    | false =>
      obtain ⟨y, hy, hyp⟩ : ∃ y, start V s = (.ok (), y) ∧ y.phase = s1.phase ++ [.fresh] :=
        ⟨(start V s).2, by simp [start, ha], by simp [start, ha]⟩
      rw [hy]
      refine ⟨⟨fun h => ?_, fun h => ?_⟩, fun _ => ⟨rfl, ?_⟩⟩
      · simp at h
      · generalize hx : Out.bool true = x at h
        generalize hz : (Except.ok (ε := Err) (), y).2 = z at h
        cases h
        rw [ha] at hx
        simp at hx
      · simp only at r2 ⊢
        rw [hyp, r2]
        simp
  · intro r s' hr hal
    cases hr
    generalize hx : Out.bool true = x at hal
    generalize hy : (getReturn V s).2 = y at hal
    cases hal
    simp only [Out.bool.injEq] at hx
    unfold getReturn
    rcases ha : isAlive V s with ⟨b, s1⟩
    rw [ha] at hx
    simp only at hx
    subst hx
    rfl

theorem join_polled {V : Env H B} {k : Nat} : ∀ (t : Option Nat) (s s' : St H B), t = none →
    s.proc = some k → k < s.polls.length → Join V t s s' →
    ∃ n c, s'.exitcode = some c ∧ V.exit k n = some c ∧ s'.polls.getD k 0 = n + 1 := by
  intro t s s' ht hk hkl hj
  induction hj with
  | stop t s s' h =>
    simp only [isAlive, hk, poll, Prod.mk.injEq] at h
    obtain ⟨h1, rfl⟩ := h
    cases hc : V.exit k (s.polls.getD k 0) with
    | none => rw [hc] at h1; cases h1
    | some c =>
      refine ⟨s.polls.getD k 0, c, rfl, hc, ?_⟩
      simp [List.getD_eq_getElem?_getD, hkl]
  | late s s' h => cases ht
  | again t s s' s'' h _ _ ih =>
    subst ht
    have e := isAlive_rest V s
    rw [h] at e
    exact ih rfl (e.2.2.2.1.trans hk) (by rw [e.2.2.2.2]; exact hkl)

/-- C103: join() and kill() without a timeout, on a process that was started, return only when the
child has exited, and exitcode is its exit code. -/
theorem C103_join {V : Env H B} (hV : V.Stable) {l : List (Op H × Out H)} {s s' : St H B}
    (h : Run V l s) (hl : (Op.start, Out.unit (.ok ())) ∈ l) (r : Out H)
    (hs : Step V s (.join none) r s' ∨ Step V s (.kill none) r s') :
    r = .unit (.ok ()) ∧ ∃ k n c, k + 1 = s'.phase.length ∧ s'.exitcode = some c ∧
      ∀ m, n ≤ m → V.exit k m = some c := by
  have hb := books_run h
  have hne : s.proc ≠ none := fun e => (hb.started.mp e) hl
  obtain ⟨k, hk⟩ := Option.ne_none_iff_exists'.mp hne
  have hkl : k < s.polls.length := by
    have := hb.last k hk
    rw [hb.sync]
    omega
  rcases hs with hs | hs
  · cases hs with
    | join _ _ _ hj =>
      obtain ⟨n, c, h1, h2, _⟩ := join_polled none s s' rfl hk hkl hj
      refine ⟨rfl, k, n, c, ?_, h1, stays hV h2⟩
      rw [(join_rest hj).2.1]
      exact hb.last k hk
  · cases hs with
    | kill _ _ _ _ hkill =>
      cases hkill with
      | early hn => exact (hne hn).elim
      | ended s1 k' hk' hj =>
        rw [hk] at hk'
        cases hk'
        obtain ⟨n, c, h1, h2, h3⟩ := join_polled none s s1 rfl hk hkl hj
        refine ⟨rfl, k, n, c, ?_, ?_, stays hV h2⟩
        · simp only [poll]
          rw [(join_rest hj).2.1]
          exact hb.last k hk
        · simp only [poll]
          rw [h3]
          exact stays hV h2 (n + 1) (by omega)

/-- C103, the usual order of calls, if the files were opened in binary mode: set_hit_list, start, the
child reads and writes, join, get_return_value gives what the tracking makes of the hits. -/
theorem C103_result {V : Env H B} (hP : Faithful V.pickle) (hV : V.Stable)
    {l : List (Op H × Out H)} {s s1 s2 s3 s4 s5 s6 : St H B} (h : Run V l s) {hits : List H} {v : List (List H)}
    (hv : V.track hits = .ok v) {b : B} (hb : V.pickle.dumpHits v = .ok b) {r r3 r4 r5 : Out H}
    (t1 : Step V s (.setHits hits) (.unit (.ok ())) s1) (t2 : Step V s1 .start (.unit (.ok ())) s2)
    (t3 : Step V s2 (.childReads (s2.phase.length - 1)) r3 s3)
    (t4 : Step V s3 (.childWrites (s2.phase.length - 1)) r4 s4)
    (t5 : Step V s4 (.join none) r5 s5) (t6 : Step V s5 .getReturn r s6) : r = .hits (.ok v) := by
  have hr1 := h.step _ _ _ _ _ t1
  have hr2 := hr1.step _ _ _ _ _ t2
  have hr3 := hr2.step _ _ _ _ _ t3
  have hr4 := hr3.step _ _ _ _ _ t4
  have hr5 := hr4.step _ _ _ _ _ t5
  -- the jar
  obtain ⟨bj, hbj, hjar⟩ : ∃ bj, V.pickle.dumpJar hits = .ok bj ∧ s1.jar = some bj := by
    generalize hx : Out.unit (.ok ()) = x at t1
    cases t1
    unfold setHits at hx ⊢
    cases hd : V.pickle.dumpJar hits with
    | ok bj => exact ⟨bj, rfl, by simp⟩
    | error e => rw [hd] at hx; simp at hx
  -- the new child
  obtain ⟨hjar2, ph, hph⟩ : s2.jar = some bj ∧ ∃ ph, s2.phase = ph ++ [.fresh] := by
    generalize hx : Out.unit (.ok ()) = x at t2
    cases t2
    have e := isAlive_rest V s1
    unfold start at hx ⊢
    rcases ha : isAlive V s1 with ⟨a, s1'⟩
    rw [ha] at hx e
    cases a with
    | true => simp at hx
    | false => exact ⟨by simpa [hjar] using e.2.2.1, s1'.phase, rfl⟩
  have hk : s2.phase[s2.phase.length - 1]? = some .fresh := by simp [hph]
  have hpos : s2.phase.length - 1 < s2.phase.length := by simp [hph]
  have h3 : s3.phase[s2.phase.length - 1]? = some (.loaded hits) := by
    cases t3
    unfold childReads
    rw [hk, hjar2]
    simp only [hP.jar hits bj hbj]
    simp [hpos]
  have h4 : s4.sandwich = some b := by
    cases t4
    unfold childWrites
    rw [h3]
    simp only [hv, hb]
  have h5 : s5.sandwich = some b := by
    generalize hx : Op.join none = x at t5
    cases t5 <;> simp only [reduceCtorEq, Op.join.injEq] at hx
    rename_i hj
    rw [(join_rest hj).1, h4]
  have hj : Join V none s4 s5 := by
    generalize hx : Op.join none = x at t5
    cases t5 <;> simp only [reduceCtorEq, Op.join.injEq] at hx
    subst hx
    assumption
  cases t6
  unfold getReturn
  have e := isAlive_rest V s5
  rcases ha : isAlive V s5 with ⟨a, s6⟩
  rw [ha] at e
  simp only at e
  have hbk := books_run hr5
  have hne : s5.proc ≠ none := fun e => (hbk.started.mp e) (by simp)
  obtain ⟨k', hk'⟩ := Option.ne_none_iff_exists'.mp hne
  have hlive : a = false ∧ ∃ c, s6.exitcode = some c := by
    have hb4 := books_run hr4
    have hk4 : s4.proc = some k' := (join_rest hj).2.2.2.1.symm.trans hk'
    have hl4 := hb4.last k' hk4
    obtain ⟨n', c', _, g2, g3⟩ := join_polled none s4 s5 rfl hk4 (by rw [hb4.sync]; omega) hj
    have g4 := stays hV g2 (n' + 1) (by omega)
    simp only [isAlive, hk', poll, g3, g4, Option.isNone_some, Prod.mk.injEq] at ha
    obtain ⟨rfl, rfl⟩ := ha
    exact ⟨rfl, c', rfl⟩
  obtain ⟨rfl, c', hc'⟩ := hlive
  simp only [hc', e.1, h5, hP.hits v b hb]

/-! ### old results -/

/-- pickling that works -/
def goodPickle : Pickle Nat (Option (List Nat ⊕ List (List Nat))) where
  dumpJar h := .ok (some (.inl h))
  loadJar := fun | some (.inl h) => .ok h | _ => .error .TypeError
  dumpHits h := .ok (some (.inr h))
  loadHits := fun | some (.inr h) => .ok h | _ => .error .TypeError
  empty := none

theorem goodPickle_faithful : Faithful goodPickle :=
  ⟨by rintro h b ⟨⟩; rfl, by rintro h b ⟨⟩; rfl, ⟨_, rfl⟩, ⟨_, rfl⟩⟩

/-- the tracking doubles; the first child ends well, the second is killed before it reads -/
def staleEnv : Env Nat (Option (List Nat ⊕ List (List Nat))) where
  pickle := goodPickle
  track h := .ok [h.map (2 * ·)]
  cwdIsOut := false
  exit k _ := if k = 0 then some 0 else some (-9)

/-- pickling in Python 3 -/
def textPickle : Pickle Nat Unit where
  dumpJar _ := .error .TypeError
  loadJar _ := .error .TypeError
  dumpHits _ := .error .TypeError
  loadHits _ := .error .TypeError
  empty := ()

example : textPickle.Python3 := ⟨fun _ => ⟨_, rfl⟩, fun _ => ⟨_, rfl⟩, fun _ => ⟨_, rfl⟩, fun _ => ⟨_, rfl⟩⟩

theorem staleEnv_stable : staleEnv.Stable := by
  intro k n c h
  exact h

theorem stale_first : ∃ s, Run staleEnv [(.setHits [1], .unit (.ok ())), (.start, .unit (.ok ())),
    (.childReads 0, .unit (.ok ())), (.childWrites 0, .unit (.ok ())),
    (.getReturn, .hits (.ok [[2]]))] s ∧ s.proc = some 0 ∧ s.phase = [.done] ∧ s.polls = [1] ∧
    s.sandwich = some (some (.inr [[2]])) := by
  have h0 : Run staleEnv [] St.new := .new
  have h1 := Run.step _ _ _ _ _ h0 (.setHits _ [1])
  have h2 := Run.step _ _ _ _ _ h1 (.start _)
  have h3 := Run.step _ _ _ _ _ h2 (.childReads _ 0)
  have h4 := Run.step _ _ _ _ _ h3 (.childWrites _ 0)
  have h5 := Run.step _ _ _ _ _ h4 (.getReturn _)
  exact ⟨_, h5, rfl, rfl, rfl, rfl⟩

/-- C103 is false of the hits set last, even if the files were opened in binary mode: when a second job
is killed, get_return_value returns the results of the first. -/
theorem C103_stale_false : ∃ (V : Env Nat (Option (List Nat ⊕ List (List Nat))))
    (s : St Nat (Option (List Nat ⊕ List (List Nat)))), Faithful V.pickle ∧ V.Stable ∧
    V.track [1] = .ok [[2]] ∧ V.track [5] = .ok [[10]] ∧
    Run V [(.setHits [1], .unit (.ok ())), (.start, .unit (.ok ())),
      (.childReads 0, .unit (.ok ())), (.childWrites 0, .unit (.ok ())),
      (.getReturn, .hits (.ok [[2]])), (.setHits [5], .unit (.ok ())), (.start, .unit (.ok ())),
      (.kill none, .unit (.ok ())), (.getReturn, .hits (.ok [[2]]))] s := by
  have h0 : Run staleEnv [] St.new := .new
  have h1 := Run.step _ _ _ _ _ h0 (.setHits _ [1])
  have h2 := Run.step _ _ _ _ _ h1 (.start _)
  have h3 := Run.step _ _ _ _ _ h2 (.childReads _ 0)
  have h4 := Run.step _ _ _ _ _ h3 (.childWrites _ 0)
  have h5 := Run.step _ _ _ _ _ h4 (.getReturn _)
  have h6 := Run.step _ _ _ _ _ h5 (.setHits _ [5])
  have h7 := Run.step _ _ _ _ _ h6 (.start _)
  have h8 := Run.step _ _ _ _ _ h7 (.kill none _ _ _ (.ended _ _ _ 1 rfl (.stop _ _ _ rfl)))
  have h9 := Run.step _ _ _ _ _ h8 (.getReturn _)
  exact ⟨staleEnv, _, goodPickle_faithful, staleEnv_stable, rfl, rfl, h9⟩

/-- the histories the theorems speak of: a result is returned, and it is what was tracked -/
example : ∃ s, Run staleEnv [(.setHits [1], .unit (.ok ())), (.start, .unit (.ok ())),
    (.childReads 0, .unit (.ok ())), (.childWrites 0, .unit (.ok ())),
    (.getReturn, .hits (.ok [[2]]))] s := by
  obtain ⟨s, h, _⟩ := stale_first
  exact ⟨s, h⟩

/-- in Python 3 the same calls: the exception of set_hit_list, and no results -/
example : ∃ s, Run (⟨textPickle, fun h => .ok [h], true, fun _ _ => some 1⟩ : Env Nat Unit)
    [(.setHits [1], .unit (.error .TypeError)), (.start, .unit (.ok ())),
     (.childReads 0, .unit (.ok ())), (.join none, .unit (.ok ())),
     (.getReturn, .hits (.error .RuntimeError))] s := by
  have h0 := Run.new (V := (⟨textPickle, fun h => .ok [h], true, fun _ _ => some 1⟩ : Env Nat Unit))
  have h1 := Run.step _ _ _ _ _ h0 (.setHits _ [1])
  have h2 := Run.step _ _ _ _ _ h1 (.start _)
  have h3 := Run.step _ _ _ _ _ h2 (.childReads _ 0)
  have h4 := Run.step _ _ _ _ _ h3 (.join none _ _ (.stop _ _ _ rfl))
  have h5 := Run.step _ _ _ _ _ h4 (.getReturn _)
  exact ⟨_, h5⟩

end Xboa.Node
