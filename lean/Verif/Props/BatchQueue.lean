import Verif.Model.BatchQueue
import Mathlib.Tactic.Common
/-
Property C122: a tracking job in a batch queue is not lost.
-/
namespace Xboa.Batch

/-! ### Specification -/

/-- `pre` is all there is in front of the first place where `key` occurs in `s`, `post` all behind it. -/
def SplitsAt (s key pre post : List Char) : Prop :=
  s = pre ++ key ++ post ∧ ∀ p q, s = p ++ key ++ q → pre.length ≤ p.length

/-- The text between two keys: between the first start key and the first end key behind it. -/
def Between (s start stop r : List Char) : Prop :=
  ∃ pre rest post, SplitsAt s start pre rest ∧ SplitsAt rest stop r post

/-- The batch system says what it does: bsub prints the number of the new job between the first < and
the first >, bjobs prints the state of a job between "Status <" and ">". -/
structure Honest (V : Env) (state : Int → Nat → List Char) : Prop where
  submit : ∀ n j r, V.submit n = .ok (j, r) → ∃ pre num post, r = pre ++ '<' :: (num ++ '>' :: post) ∧
    '<' ∉ pre ∧ '>' ∉ pre ∧ '>' ∉ num ∧ V.int num = some j
  status : ∀ j t r, V.status j t = .ok r → Between r "Status <".toList ">".toList (state j t)

/-- A state of a job in which it is over: it has run or was stopped. -/
def Over (st : List Char) : Prop := st = "DONE".toList ∨ st = "EXIT".toList

/-! ### Finding text -/

theorem firstAt_some (key : List Char) : ∀ (s : List Char) (n : Nat), firstAt key s = some n →
    s = s.take n ++ key ++ s.drop (n + key.length) ∧ n ≤ s.length
  | [], n, h => by
    unfold firstAt at h
    split at h
    · next hk => cases h; subst hk; simp
    · exact absurd h (by simp)
  | c :: r, n, h => by
    unfold firstAt at h
    split at h
    · next hk =>
      cases h
      obtain ⟨t, ht⟩ := List.isPrefixOf_iff_prefix.1 hk
      rw [← ht]
      simp
    · cases hf : firstAt key r with
      | none => rw [hf] at h; exact absurd h (by simp)
      | some m =>
        rw [hf] at h
        have hn : m + 1 = n := by simpa using h
        subst hn
        obtain ⟨e, l⟩ := firstAt_some key r m hf
        refine ⟨?_, by simpa using l⟩
        have : m + 1 + key.length = (m + key.length) + 1 := by omega
        rw [this]
        simp only [List.take_succ_cons, List.drop_succ_cons, List.cons_append]
        exact congrArg (c :: ·) e

theorem firstAt_le (key : List Char) : ∀ (p q : List Char), ∃ n, firstAt key (p ++ key ++ q) = some n ∧
    n ≤ p.length
  | [], q => by
    cases hs : ([] ++ key ++ q : List Char) with
    | nil =>
      have : key = [] := by
        have := congrArg List.length hs
        simp at this
        exact this.1
      subst this
      exact ⟨0, by simp [firstAt], Nat.le_refl _⟩
    | cons c r =>
      refine ⟨0, ?_, Nat.le_refl _⟩
      unfold firstAt
      rw [if_pos]
      rw [← hs]
      exact List.isPrefixOf_iff_prefix.2 ⟨q, by simp⟩
  | c :: p, q => by
    obtain ⟨n, hn, l⟩ := firstAt_le key p q
    simp only [List.cons_append]
    unfold firstAt
    split
    · exact ⟨0, rfl, Nat.zero_le _⟩
    · refine ⟨n + 1, ?_, by simpa using l⟩
      rw [hn]
      rfl

theorem splitsAt_iff (s key pre post : List Char) :
    SplitsAt s key pre post ↔ firstAt key s = some pre.length ∧ s = pre ++ key ++ post := by
  constructor
  · rintro ⟨e, hmin⟩
    obtain ⟨n, hn, l⟩ := firstAt_le key pre post
    rw [← e] at hn
    obtain ⟨e', l'⟩ := firstAt_some key s n hn
    have := hmin _ _ e'
    rw [List.length_take, Nat.min_eq_left l'] at this
    rw [hn, show n = pre.length by omega]
    exact ⟨rfl, e⟩
  · rintro ⟨h, e⟩
    refine ⟨e, fun p q hpq => ?_⟩
    obtain ⟨n, hn, l⟩ := firstAt_le key p q
    rw [← hpq, h] at hn
    cases hn
    exact l

theorem firstAt_none (key s : List Char) :
    firstAt key s = none ↔ ¬ ∃ p q, s = p ++ key ++ q := by
  constructor
  · rintro h ⟨p, q, e⟩
    obtain ⟨n, hn, -⟩ := firstAt_le key p q
    rw [← e, h] at hn
    cases hn
  · intro h
    cases hf : firstAt key s with
    | none => rfl
    | some n => exact absurd ⟨_, _, (firstAt_some key s n hf).1⟩ h

/-- what the model of _get_substr is in terms of `firstAt` -/
theorem getSubstr_eq (V : Env) (h2 : V.python2 = true) (s start stop : List Char) :
    getSubstr V s start stop =
      match firstAt start s with
      | none => .error .ValueError
      | some n =>
        match firstAt stop (s.drop (n + start.length)) with
        | none => .error .ValueError
        | some m => .ok ((s.drop (n + start.length)).take m) := by
  unfold getSubstr find
  simp only [h2, Bool.not_true, Bool.false_eq_true, if_false]
  cases h : firstAt start s with
  | none => rfl
  | some n =>
    have hn : ¬ ((n : Int) < 0) := by omega
    simp only [hn, if_false, Int.toNat_natCast]
    cases h' : firstAt stop (s.drop (n + start.length)) with
    | none => rfl
    | some m =>
      have hm : ¬ ((m : Int) < 0) := by omega
      simp only [hm, if_false, slice, bound, Int.toNat_natCast]
      simp

/-- **C122 (the text between two keys).** _get_substr gives the text between the first start key and
the first end key behind it, and raises ValueError exactly if there is no end key behind the first
start key or no start key. -/
theorem C122_substr (V : Env) (h2 : V.python2 = true) (s start stop : List Char) :
    (∀ r, getSubstr V s start stop = .ok r ↔ Between s start stop r) ∧
    (∀ e, getSubstr V s start stop = .error e ↔ e = .ValueError ∧ ¬ ∃ r, Between s start stop r) := by
  have key : ∀ r, getSubstr V s start stop = .ok r ↔ Between s start stop r := by
    intro r
    rw [getSubstr_eq V h2]
    constructor
    · intro h
      cases hn : firstAt start s with
      | none => rw [hn] at h; cases h
      | some n =>
        rw [hn] at h
        simp only at h
        cases hm : firstAt stop (s.drop (n + start.length)) with
        | none => rw [hm] at h; cases h
        | some m =>
          rw [hm] at h
          simp only [Except.ok.injEq] at h
          obtain ⟨e, l⟩ := firstAt_some _ _ _ hn
          obtain ⟨e', l'⟩ := firstAt_some _ _ _ hm
          refine ⟨s.take n, s.drop (n + start.length), (s.drop (n + start.length)).drop (m + stop.length),
            (splitsAt_iff _ _ _ _).2 ⟨?_, e⟩, (splitsAt_iff _ _ _ _).2 ⟨?_, ?_⟩⟩
          · rw [hn, List.length_take, Nat.min_eq_left l]
          · rw [hm, ← h, List.length_take, Nat.min_eq_left l']
          · rw [← h]; exact e'
    · rintro ⟨pre, rest, post, h1, h2'⟩
      obtain ⟨hn, e⟩ := (splitsAt_iff _ _ _ _).1 h1
      obtain ⟨hm, e'⟩ := (splitsAt_iff _ _ _ _).1 h2'
      have hd : s.drop (pre.length + start.length) = rest := by
        rw [e, ← List.length_append, List.drop_left]
      rw [hn]
      simp only [hd, hm]
      rw [e', List.append_assoc, List.take_left]
  refine ⟨key, fun e => ?_⟩
  constructor
  · intro h
    constructor
    · rw [getSubstr_eq V h2] at h
      split at h
      · exact ((Except.error.inj h)).symm
      · split at h
        · exact ((Except.error.inj h)).symm
        · cases h
    · rintro ⟨r, hr⟩
      rw [(key r).2 hr] at h
      cases h
  · rintro ⟨rfl, h⟩
    cases hg : getSubstr V s start stop with
    | ok r => exact absurd ⟨r, (key r).1 hg⟩ h
    | error e =>
      rw [getSubstr_eq V h2] at hg
      split at hg
      · rw [← hg]
      · split at hg
        · rw [← hg]
        · cases hg

theorem firstAt_char (c : Char) : ∀ (p q : List Char), c ∉ p →
    firstAt [c] (p ++ c :: q) = some p.length
  | [], q, _ => by simp [firstAt]
  | d :: p, q, h => by
    have hd : ¬ c = d := fun e => h (by simp [e])
    have hp : c ∉ p := fun e => h (by simp [e])
    simp only [List.cons_append]
    unfold firstAt
    rw [if_neg, firstAt_char c p q hp]
    · rfl
    · simp [List.isPrefixOf, hd]

/-- the number that bsub prints is read back -/
theorem slice_number (pre num post : List Char) (h1 : '<' ∉ pre) (h2 : '>' ∉ pre) (h3 : '>' ∉ num) :
    slice (pre ++ '<' :: (num ++ '>' :: post)) (find (pre ++ '<' :: (num ++ '>' :: post)) "<".toList + 1)
      (find (pre ++ '<' :: (num ++ '>' :: post)) ">".toList) = num := by
  have e1 : find (pre ++ '<' :: (num ++ '>' :: post)) "<".toList = pre.length := by
    unfold find
    rw [show "<".toList = ['<'] from rfl, firstAt_char _ _ _ h1]
  have e2 : find (pre ++ '<' :: (num ++ '>' :: post)) ">".toList = (pre ++ '<' :: num).length := by
    unfold find
    rw [show ">".toList = ['>'] from rfl,
      show pre ++ '<' :: (num ++ '>' :: post) = (pre ++ '<' :: num) ++ '>' :: post by simp,
      firstAt_char _ _ _ (by simp [h2, h3])]
  rw [e1, e2]
  unfold slice bound
  have a : ¬ ((pre.length : Int) + 1 < 0) := by omega
  have b : ¬ (((pre ++ '<' :: num).length : Int) < 0) := by omega
  rw [if_neg a, if_neg b, Int.toNat_natCast,
    show ((pre.length : Int) + 1).toNat = (pre ++ ['<']).length by simp,
    show pre ++ '<' :: (num ++ '>' :: post) = (pre ++ '<' :: num) ++ '>' :: post by simp, List.take_left,
    show pre ++ '<' :: num = (pre ++ ['<']) ++ num by simp, List.drop_left]

/-! ### The life of a job -/

/-- What holds between any two calls. -/
structure Inv (state : Int → Nat → List Char) (s : St) : Prop where
  last : s.jobs.getLast? = s.pid
  killed : ∀ j ∈ s.killed, j ∈ s.jobs
  old : ∀ j ∈ s.jobs.dropLast, ∃ t, t < s.asked ∧ state j t ∉ aliveStates

variable {V : Env} {state : Int → Nat → List Char}

/-- is_alive in terms of the state of the job -/
theorem isAlive_cases (h2 : V.python2 = true) (hV : Honest V state) (s : St) :
    let r := isAlive V s
    r.2.pid = s.pid ∧ r.2.jobs = s.jobs ∧ r.2.killed = s.killed ∧ s.asked ≤ r.2.asked ∧
    (s.pid = none → r = (.ok false, s)) ∧
    (∀ j, s.pid = some j →
      (∃ e, V.status j s.asked = .error e ∧ r.1 = .error e) ∨
      (r.1 = .ok true ∧ state j s.asked ∈ aliveStates) ∨
      (r.1 = .ok false ∧ state j s.asked ∉ aliveStates ∧ r.2.asked = s.asked + 1)) := by
  intro r
  cases hp : s.pid with
  | none =>
    have : r = (.ok false, s) := by simp only [r, isAlive, hp]
    rw [this]
    simp [hp]
  | some j =>
    cases hs : V.status j s.asked with
    | error e =>
      have : r = (.error e, { s with asked := s.asked + 1 }) := by simp only [r, isAlive, hp, hs]
      rw [this]
      refine ⟨hp, rfl, rfl, Nat.le_succ _, by simp, ?_⟩
      intro k hk
      cases hk
      exact Or.inl ⟨e, hs, rfl⟩
    | ok t =>
      have hb := ((C122_substr V h2 t _ _).1 _).2 (hV.status _ _ _ hs)
      by_cases ha : state j s.asked ∈ aliveStates
      · have : r = (.ok true, { s with asked := s.asked + 1 }) := by
          simp only [r, isAlive, hp, hs, hb, ha, if_true]
        rw [this]
        refine ⟨hp, rfl, rfl, Nat.le_succ _, by simp, ?_⟩
        intro k hk
        cases hk
        exact Or.inr (Or.inl ⟨rfl, ha⟩)
      · cases hc : getSubstr V t "exit code ".toList ".".toList with
        | ok c =>
          have : r = (.ok false, { s with asked := s.asked + 1, exitcode := some (.text c) }) := by
            simp only [r, isAlive, hp, hs, hb, ha, if_false, hc]
          rw [this]
          refine ⟨hp, rfl, rfl, Nat.le_succ _, by simp, ?_⟩
          intro k hk
          cases hk
          exact Or.inr (Or.inr ⟨rfl, ha, rfl⟩)
        | error e =>
          have he := (((C122_substr V h2 t _ _).2 e).1 hc).1
          subst he
          have : r = (.ok false, { s with asked := s.asked + 1, exitcode := some .zero }) := by
            simp only [r, isAlive, hp, hs, hb, ha, if_false, hc]
          rw [this]
          refine ⟨hp, rfl, rfl, Nat.le_succ _, by simp, ?_⟩
          intro k hk
          cases hk
          exact Or.inr (Or.inr ⟨rfl, ha, rfl⟩)

/-- start after is_alive gave False and bsub made job `j` -/
theorem start_submits (h2 : V.python2 = true) (hV : Honest V state) (s s' : St) (j : Int) (r : List Char)
    (ha : isAlive V s = (.ok false, s')) (hj : V.submit s'.jobs.length = .ok (j, r)) :
    start V s = (.ok (), { s' with jobs := s'.jobs ++ [j], pid := some j }) := by
  obtain ⟨pre, num, post, rfl, n1, n2, n3, hi⟩ := hV.submit _ _ _ hj
  unfold start
  simp only [ha, hj, h2, Bool.not_true, Bool.false_eq_true, if_false, slice_number pre num post n1 n2 n3, hi]

theorem inv_isAlive (h2 : V.python2 = true) (hV : Honest V state) (s : St) (h : Inv state s) :
    Inv state (isAlive V s).2 := by
  obtain ⟨a, b, c, d, -, -⟩ := isAlive_cases h2 hV s
  refine ⟨by rw [a, b]; exact h.last, by rw [b, c]; exact h.killed, ?_⟩
  rw [b]
  intro j hj
  obtain ⟨t, ht, hs⟩ := h.old j hj
  exact ⟨t, by omega, hs⟩

/-- The three possible results of start. -/
theorem start_cases (h2 : V.python2 = true) (hV : Honest V state) (s : St) :
    (∃ e, start V s = (.error e, (isAlive V s).2)) ∨
    (∃ j, start V s = (.ok (), { (isAlive V s).2 with jobs := s.jobs ++ [j], pid := some j }) ∧
      (∃ r, V.submit s.jobs.length = .ok (j, r)) ∧
      (∀ i, s.pid = some i → state i s.asked ∉ aliveStates ∧ (isAlive V s).2.asked = s.asked + 1)) := by
  obtain ⟨a, b, c, d, f, g⟩ := isAlive_cases h2 hV s
  cases hr : isAlive V s with
  | mk x s' =>
    rw [hr] at a b c d f g
    simp only at a b c d f g
    cases x with
    | error e => exact Or.inl ⟨e, by simp only [start, hr]⟩
    | ok q =>
      cases q with
      | true => exact Or.inl ⟨.RuntimeError, by simp only [start, hr]⟩
      | false =>
        cases hj : V.submit s'.jobs.length with
        | error e => exact Or.inl ⟨e, by simp only [start, hr, hj]⟩
        | ok p =>
          obtain ⟨j, r⟩ := p
          refine Or.inr ⟨j, ?_, ⟨r, by rw [← b]; exact hj⟩, ?_⟩
          · rw [start_submits h2 hV s s' j r hr hj, b]
          · intro i hi
            rcases g i hi with ⟨e, _, he⟩ | ⟨he, _⟩ | ⟨_, x, y⟩
            · cases he
            · cases he
            · exact ⟨x, y⟩

theorem inv_step (h2 : V.python2 = true) (hV : Honest V state) (s : St) (h : Inv state s) (o : Op) :
    Inv state (step V s o) := by
  cases o with
  | isAlive => exact inv_isAlive h2 hV s h
  | kill =>
    unfold step kill
    cases hp : s.pid with
    | none => exact h
    | some j =>
      refine ⟨h.last.trans hp, ?_, h.old⟩
      intro k hk
      rcases List.mem_append.1 hk with hk | hk
      · exact h.killed k hk
      · rw [List.mem_singleton.1 hk]
        exact List.mem_of_getLast? (h.last.trans hp)
  | start =>
    have ha := inv_isAlive h2 hV s h
    obtain ⟨a, b, c, d, -, -⟩ := isAlive_cases h2 hV s
    rcases start_cases h2 hV s with ⟨e, he⟩ | ⟨j, he, -, hold⟩
    · show Inv state (start V s).2
      rw [he]
      exact ha
    · show Inv state (start V s).2
      rw [he]
      refine ⟨by simp, ?_, ?_⟩
      · intro k hk
        have := ha.killed k hk
        rw [b] at this
        exact List.mem_append_left _ this
      · intro k hk
        simp only [List.dropLast_concat] at hk
        rcases List.eq_nil_or_concat s.jobs with hn | ⟨l, i, hl⟩
        · rw [hn] at hk; cases hk
        · rw [List.concat_eq_append] at hl
          have hi : s.pid = some i := by rw [← h.last, hl]; simp
          rw [hl] at hk
          rcases List.mem_append.1 hk with hk | hk
          · obtain ⟨t, ht, hs⟩ := h.old k (by rw [hl]; simpa using hk)
            exact ⟨t, by simp only at d ⊢; omega, hs⟩
          · rw [List.mem_singleton.1 hk]
            obtain ⟨x, y⟩ := hold i hi
            exact ⟨s.asked, by simp only; omega, x⟩

theorem inv_run (h2 : V.python2 = true) (hV : Honest V state) (ops : List Op) :
    ∀ s, Inv state s → Inv state (run V s ops) := by
  induction ops with
  | nil => exact fun s h => h
  | cons o l ih => exact fun s h => ih _ (inv_step h2 hV s h o)

/-- **C122 (partial).** With Python 2 and a batch system that says what it does, after any sequence of
calls on a new object: the object follows the job it submitted last; every job submitted before was
found in a state other than PEND, RUN and WAIT; bkill was given only its own jobs; kill stops the job
submitted last, and raises RuntimeError and does nothing if there is none; and start either raises and
submits nothing, as it does with a RuntimeError while the last job is pending, running or waiting, or
submits one job and follows it.  Missing: Python 3 (`C122_false`, `C122_lost_false`) and suspended jobs
(`C122_suspended_false`). -/
theorem C122_partial (h2 : V.python2 = true) (hV : Honest V state) (s₀ : St) (h0 : new V = .ok s₀)
    (ops : List Op) :
    let s := run V s₀ ops
    s.pid = s.jobs.getLast? ∧
    (∀ j ∈ s.jobs.dropLast, ∃ t, t < s.asked ∧
      state j t ≠ "PEND".toList ∧ state j t ≠ "RUN".toList ∧ state j t ≠ "WAIT".toList) ∧
    (∀ j ∈ s.killed, j ∈ s.jobs) ∧
    (s.jobs = [] → kill s = (.error .RuntimeError, s)) ∧
    (∀ j, s.jobs.getLast? = some j → kill s = (.ok (), { s with killed := s.killed ++ [j] })) ∧
    ((∃ e, (start V s).1 = .error e ∧ (start V s).2.jobs = s.jobs ∧ (start V s).2.pid = s.pid) ∨
      (∃ j, (start V s).1 = .ok () ∧ (start V s).2.jobs = s.jobs ++ [j] ∧
        (start V s).2.pid = some j ∧ ∃ r, V.submit s.jobs.length = .ok (j, r))) ∧
    (∀ j r, s.jobs.getLast? = some j → V.status j s.asked = .ok r →
      (state j s.asked = "PEND".toList ∨ state j s.asked = "RUN".toList ∨ state j s.asked = "WAIT".toList) →
      (start V s).1 = .error .RuntimeError) := by
  intro s
  have h : Inv state s := by
    refine inv_run h2 hV ops s₀ ?_
    unfold new at h0
    split at h0
    · cases h0
    · split at h0
      · cases h0
      · cases h0
        exact ⟨rfl, by simp, by simp⟩
  refine ⟨h.last.symm, ?_, h.killed, ?_, ?_, ?_, ?_⟩
  · intro j hj
    obtain ⟨t, ht, hs⟩ := h.old j hj
    refine ⟨t, ht, ?_⟩
    unfold aliveStates at hs
    simp only [List.mem_cons, List.not_mem_nil, or_false, not_or] at hs
    exact hs
  · intro hj
    have : s.pid = none := by rw [← h.last, hj]; rfl
    simp only [kill, this]
  · intro j hj
    have : s.pid = some j := by rw [← h.last, hj]
    simp only [kill, this]
  · obtain ⟨a, b, -, -, -, -⟩ := isAlive_cases h2 hV s
    rcases start_cases h2 hV s with ⟨e, he⟩ | ⟨j, he, hr, -⟩
    · refine Or.inl ⟨e, by rw [he], ?_⟩
      rw [he]
      exact ⟨b, a⟩
    · refine Or.inr ⟨j, by rw [he], ?_⟩
      rw [he]
      exact ⟨rfl, rfl, hr⟩
  · intro j r hj hs hst
    have hp : s.pid = some j := by rw [← h.last, hj]
    obtain ⟨-, -, -, -, -, g⟩ := isAlive_cases h2 hV s
    have hm : state j s.asked ∈ aliveStates := by
      unfold aliveStates
      simpa only [List.mem_cons, List.not_mem_nil, or_false] using hst
    rcases g j hp with ⟨e, he, _⟩ | ⟨ha, _⟩ | ⟨_, hn, _⟩
    · rw [hs] at he; cases he
    · cases hr : isAlive V s with
      | mk x s' =>
        rw [hr] at ha
        simp only at ha
        subst ha
        simp only [start, hr]
    · exact absurd hm hn

/-- **C122 (is_alive).** is_alive of a job is True exactly in the states PEND, RUN and WAIT and then sets
nothing; in any other state it is False and the exit code is the text behind "exit code " up to the next
full stop, or the number 0 if there is none. -/
theorem C122_alive (h2 : V.python2 = true) (hV : Honest V state) (s : St) (j : Int) (r : List Char)
    (hp : s.pid = some j) (hr : V.status j s.asked = .ok r) :
    ((state j s.asked = "PEND".toList ∨ state j s.asked = "RUN".toList ∨ state j s.asked = "WAIT".toList) →
      (isAlive V s).1 = .ok true ∧ (isAlive V s).2.exitcode = s.exitcode) ∧
    (¬ (state j s.asked = "PEND".toList ∨ state j s.asked = "RUN".toList ∨
        state j s.asked = "WAIT".toList) →
      (isAlive V s).1 = .ok false ∧
      (∀ c, Between r "exit code ".toList ".".toList c → (isAlive V s).2.exitcode = some (.text c)) ∧
      ((¬ ∃ c, Between r "exit code ".toList ".".toList c) → (isAlive V s).2.exitcode = some .zero)) := by
  have hb := ((C122_substr V h2 r _ _).1 _).2 (hV.status _ _ _ hr)
  have hm : state j s.asked ∈ aliveStates ↔ (state j s.asked = "PEND".toList ∨
      state j s.asked = "RUN".toList ∨ state j s.asked = "WAIT".toList) := by
    unfold aliveStates
    simp only [List.mem_cons, List.not_mem_nil, or_false]
  rw [← hm]
  constructor
  · intro ha
    simp only [isAlive, hp, hr, hb, ha, if_true, and_self]
  · intro ha
    refine ⟨?_, ?_, ?_⟩
    · cases hc : getSubstr V r "exit code ".toList ".".toList with
      | ok c => simp only [isAlive, hp, hr, hb, ha, if_false, hc]
      | error e =>
        have he := (((C122_substr V h2 r _ _).2 e).1 hc).1
        subst he
        simp only [isAlive, hp, hr, hb, ha, if_false, hc]
    · intro c hc
      have hc' := ((C122_substr V h2 r _ _).1 c).2 hc
      simp only [isAlive, hp, hr, hb, ha, if_false, hc']
    · intro hc
      have hc' := ((C122_substr V h2 r _ _).2 .ValueError).2 ⟨rfl, hc⟩
      simp only [isAlive, hp, hr, hb, ha, if_false, hc']

/-- **C122 is false of the code in Python 3**: no BSubProcess can be made. -/
theorem C122_false (V : Env) (h3 : V.python2 = false) : ∃ e, new V = .error e := by
  unfold new
  split
  · exact ⟨_, rfl⟩
  · rw [h3]
    exact ⟨_, rfl⟩

/-- **C122 is false of the code in Python 3**, for an object that exists all the same and was not started
(one read from a pickle, say): every start to which the batch system answers submits a further job and
then raises TypeError; none of the jobs is ever known to the object, so that is_alive is always False
and kill always raises RuntimeError, without stopping anything. -/
theorem C122_lost_false (V : Env) (h3 : V.python2 = false) (ids : Nat → Int) (out : Nat → List Char)
    (hs : ∀ n, V.submit n = .ok (ids n, out n)) (s₀ : St) (h0 : s₀.pid = none) (ops : List Op) :
    let s := run V s₀ ops
    s.pid = none ∧ s.killed = s₀.killed ∧
    s.jobs.length = s₀.jobs.length + (ops.countP fun o => match o with | .start => true | _ => false) ∧
    (start V s).1 = .error .TypeError ∧ (start V s).2.jobs = s.jobs ++ [ids s.jobs.length] ∧
    (isAlive V s).1 = .ok false ∧ kill s = (.error .RuntimeError, s) := by
  have st : ∀ s : St, s.pid = none →
      start V s = (.error .TypeError, { s with jobs := s.jobs ++ [ids s.jobs.length] }) := by
    intro s h
    simp [start, isAlive, h, hs, h3]
  have main : ∀ (ops : List Op) (s₀ : St), s₀.pid = none → (run V s₀ ops).pid = none ∧
      (run V s₀ ops).killed = s₀.killed ∧ (run V s₀ ops).jobs.length =
        s₀.jobs.length + (ops.countP fun o => match o with | .start => true | _ => false) := by
    intro ops
    induction ops with
    | nil => exact fun s h => ⟨h, rfl, rfl⟩
    | cons o l ih =>
      intro s h
      cases o with
      | start =>
        obtain ⟨a, b, c⟩ := ih (step V s .start) (by simp only [step, st s h]; exact h)
        refine ⟨a, b.trans (by simp only [step, st s h]), c.trans ?_⟩
        simp only [step, st s h, List.length_append, List.length_singleton, List.countP_cons, if_true]
        omega
      | isAlive =>
        have e : step V s .isAlive = s := by simp only [step, isAlive, h]
        obtain ⟨a, b, c⟩ := ih s h
        have : run V s (.isAlive :: l) = run V s l := by simp only [run, List.foldl_cons, e]
        rw [this]
        exact ⟨a, b, c.trans (by simp)⟩
      | kill =>
        have e : step V s .kill = s := by simp only [step, kill, h]
        obtain ⟨a, b, c⟩ := ih s h
        have : run V s (.kill :: l) = run V s l := by simp only [run, List.foldl_cons, e]
        rw [this]
        exact ⟨a, b, c.trans (by simp)⟩
  intro s
  obtain ⟨a, b, c⟩ := main ops s₀ h0
  refine ⟨a, b, c, by rw [st s a], by rw [st s a], ?_, ?_⟩
  · show (isAlive V (run V s₀ ops)).1 = _
    simp only [isAlive, a]
  · show kill (run V s₀ ops) = _
    simp only [kill, a]
    rfl

/-! ### Examples -/

/-- The digits of a small number. -/
def digits (s : List Char) : Option Int := s.foldl
  (fun a c => a.bind fun n => if c.isDigit then some (10 * n + (c.toNat - 48)) else none) (some 0)

/-- A batch system: jobs 10, 11, ... ; the state of a job is given by a table. -/
def exEnv (state : Int → Nat → List Char) : Env where
  python2 := true
  hasBsub := true
  submit n := if n = 0 then .ok (10, "Job <10> is submitted to queue <short>.".toList)
    else .ok (11, "Job <11> is submitted to queue <short>.".toList)
  status j t := .ok ("Job <1>, User <a>, Status <".toList ++ (state j t ++ ">, Queue <short>".toList))
  int := digits

/-- any table of states without > makes an honest batch system -/
theorem exEnv_honest (state : Int → Nat → List Char) (hst : ∀ j t, '>' ∉ state j t) :
    Honest (exEnv state) state where
  submit n j r h := by
    simp only [exEnv] at h
    split at h
    · cases h
      exact ⟨"Job ".toList, "10".toList, " is submitted to queue <short>.".toList, rfl, by decide +kernel,
        by decide +kernel, by decide +kernel, show digits "10".toList = some 10 by decide +kernel⟩
    · cases h
      exact ⟨"Job ".toList, "11".toList, " is submitted to queue <short>.".toList, rfl, by decide +kernel,
        by decide +kernel, by decide +kernel,
        show digits "11".toList = some 11 by decide +kernel⟩
  status j t r h := by
    simp only [exEnv] at h
    cases h
    refine ⟨"Job <1>, User <a>, ".toList, state j t ++ ">, Queue <short>".toList, ", Queue <short>".toList,
      (splitsAt_iff _ _ _ _).2 ⟨?_, ?_⟩, (splitsAt_iff _ _ _ _).2 ⟨?_, ?_⟩⟩
    · have : ∀ l : List Char, firstAt "Status <".toList ("Job <1>, User <a>, Status <".toList ++ l) =
          some 19 := fun l => by simp [firstAt, List.isPrefixOf]
      rw [this]
      rfl
    · rfl
    · exact firstAt_char _ _ _ (hst j t)
    · simp

/-- Job 10 is suspended, job 11 runs, for ever. -/
def suspended : Int → Nat → List Char := fun j _ => if j = 10 then "USUSP".toList else "RUN".toList

/-- **C122 is false of the code for suspended jobs**, also in Python 2: is_alive says that a suspended
job is no longer there, with exit code 0, start submits a second job, and from then on the first one,
which never came to its end, is not followed any more and cannot be stopped. -/
theorem C122_suspended_false :
    ∃ (V : Env) (state : Int → Nat → List Char), V.python2 = true ∧ Honest V state ∧
      ∃ s₀, new V = .ok s₀ ∧
        let s := run V s₀ [.start, .isAlive]
        let s' := run V s₀ [.start, .start, .kill]
        s.jobs = [10] ∧ (isAlive V s).1 = .ok false ∧ s.exitcode = some .zero ∧
        (∀ j t, ¬ Over (state j t)) ∧ s'.jobs = [10, 11] ∧ s'.pid = some 11 ∧ s'.killed = [11] := by
  refine ⟨exEnv suspended, suspended, rfl, exEnv_honest _ ?_, _, rfl, ?_, ?_, ?_, ?_, ?_, ?_, ?_⟩
  · intro j t
    unfold suspended
    split <;> decide
  · decide +kernel
  · decide +kernel
  · decide +kernel
  · intro j t
    unfold suspended Over
    split <;> decide
  · decide +kernel
  · decide +kernel
  · decide +kernel

/-- Job 10 runs for two questions and is done then, job 11 is pending. -/
def twoJobs : Int → Nat → List Char := fun j t =>
  if j = 10 then (if t < 2 then "RUN".toList else "DONE".toList) else "PEND".toList

example : Honest (exEnv twoJobs) twoJobs ∧ (exEnv twoJobs).python2 = true ∧
    ∃ s₀, new (exEnv twoJobs) = .ok s₀ ∧
      (run (exEnv twoJobs) s₀ [.start, .start, .isAlive, .start, .start]).jobs = [10, 11] ∧
      (run (exEnv twoJobs) s₀ [.start, .start, .isAlive]).jobs = [10] := by
  refine ⟨exEnv_honest _ ?_, rfl, _, rfl, ?_, ?_⟩
  · intro j t
    unfold twoJobs
    split
    · split <;> decide
    · decide
  · decide +kernel
  · decide +kernel

example : (run (exEnv twoJobs) ⟨some 10, none, [10], [], 1⟩ [.isAlive, .isAlive]).exitcode = some .zero ∧
    (isAlive (exEnv twoJobs) ⟨some 10, none, [10], [], 1⟩).1 = .ok true := by
  refine ⟨?_, ?_⟩ <;> decide +kernel

example : Between "a exit code 7. exit code 8.".toList "exit code ".toList ".".toList "7".toList :=
  ((C122_substr (exEnv twoJobs) rfl _ _ _).1 _).1 (by decide +kernel)

example : let V : Env := { exEnv twoJobs with python2 := false }
    V.python2 = false ∧ (∃ (ids : Nat → Int) (out : Nat → List Char), ∀ n, V.submit n = .ok (ids n, out n)) ∧
    (run V ⟨none, none, [], [], 0⟩ [.start, .start]).jobs = [10, 11] := by
  refine ⟨rfl, ⟨fun n => if n = 0 then 10 else 11, fun n => if n = 0 then
    "Job <10> is submitted to queue <short>.".toList else "Job <11> is submitted to queue <short>.".toList,
    fun n => ?_⟩, by decide +kernel⟩
  simp only [exEnv]
  split <;> rfl

end Xboa.Batch
