import Verif.Model.Figures
import Mathlib.Tactic.Common
import Mathlib.Data.List.Nodup
/-
C112: every plot has a figure of its own, unless a figure is named.
-/
set_option linter.unusedSectionVars false
namespace Xboa
namespace Figures
variable {K : Type} [Field K] [LinearOrder K]

/-! ### specification -/

/-- The figure named by the caller, if any. -/
def Call.fig : Call K → Option Int
  | .histogram _ _ _ f => f
  | .graph _ _ _ f => f
  | .multigraph _ _ f => f
  | .scatter _ _ _ _ _ f => f
  | _ => none

/-- From s to s' the drawing `a` was added to figure n, which was made if it did not exist, and no other
figure has changed. -/
def Added (s s' : State K) (n : Int) (a : List (Art K)) : Prop :=
  s'.content n = some ((s.content n).getD [] ++ a) ∧ ∀ m, m ≠ n → s'.content m = s.content m

/-- A program that names only figures with numbers that xboa has given out before. -/
def OnlyGiven : State K → List (Op K) → Prop
  | _, [] => True
  | s, op :: r =>
    (match op with
      | .plot c => ∀ n, c.fig = some n → n ≤ s.counter
      | .figure n => n ≤ s.counter
      | .draw _ => s.figs ≠ []
      | .close _ => True) ∧ OnlyGiven (step s op) r

/-- The number that a statement returns, if it is a plot without a named figure. -/
def numbered (s : State K) : Op K → List Int
  | .plot c => if c.fig = none then ((call c s).1.toOption).toList else []
  | _ => []

/-- The numbers that the plots without a named figure returned. -/
def automatic : State K → List (Op K) → List Int
  | _, [] => []
  | s, op :: r => numbered s op ++ automatic (step s op) r

/-! ### the dictionary of figures -/

theorem lookup_others (n m : Int) (figs : List (Int × List (Art K))) (h : m ≠ n) :
    (others n figs).lookup m = figs.lookup m := by
  induction figs with
  | nil => rfl
  | cons f r ih =>
    obtain ⟨k, l⟩ := f
    simp only [others, List.filter_cons]
    by_cases hk : k = n
    · subst hk
      have : (m == k) = false := by simpa using h
      simp only [ne_eq, not_true_eq_false, decide_false, Bool.false_eq_true, if_false, List.lookup_cons, this]
      exact ih
    · simp only [ne_eq, hk, not_false_eq_true, decide_true, if_true, List.lookup_cons]
      split <;> first | rfl | exact ih

theorem lookup_others_self (n : Int) (figs : List (Int × List (Art K))) : (others n figs).lookup n = none := by
  induction figs with
  | nil => rfl
  | cons f r ih =>
    obtain ⟨k, l⟩ := f
    simp only [others, List.filter_cons]
    by_cases hk : k = n
    · simp only [hk, ne_eq, not_true_eq_false, decide_false, Bool.false_eq_true, if_false]
      exact ih
    · have : (n == k) = false := by simpa using Ne.symm hk
      simp only [ne_eq, hk, not_false_eq_true, decide_true, if_true, List.lookup_cons, this]
      exact ih

theorem lookup_append (n : Int) (l r : List (Int × List (Art K))) :
    (l ++ r).lookup n = (l.lookup n).or (r.lookup n) := by
  induction l with
  | nil => rfl
  | cons f l ih =>
    obtain ⟨k, x⟩ := f
    simp only [List.cons_append, List.lookup_cons]
    split
    · rfl
    · exact ih

theorem addLast_append (a : Art K) (l : List (Int × List (Art K))) (n : Int) (x : List (Art K)) :
    addLast a (l ++ [(n, x)]) = l ++ [(n, x ++ [a])] := by
  induction l with
  | nil => rfl
  | cons f l ih =>
    cases l with
    | nil => rfl
    | cons g l => simpa [addLast] using ih

theorem content_figure (n m : Int) (s : State K) :
    (pyplotFigure n s).content m = if m = n then some ((s.content n).getD []) else s.content m := by
  simp only [State.content, pyplotFigure, lookup_append]
  by_cases h : m = n
  · subst h
    simp [lookup_others_self]
  · have : (m == n) = false := by simpa using h
    rw [lookup_others n m _ h]
    simp [h, List.lookup_cons, this]

theorem content_draw_figure (n m : Int) (a : Art K) (s : State K) :
    (pyplotDraw a (pyplotFigure n s)).content m =
      if m = n then some ((s.content n).getD [] ++ [a]) else s.content m := by
  simp only [State.content, pyplotDraw, pyplotFigure, addLast_append]
  rw [if_neg (by simp)]
  rw [lookup_append]
  by_cases h : m = n
  · subst h
    simp [lookup_others_self]
  · have : (m == n) = false := by simpa using h
    rw [lookup_others n m _ h]
    simp [h, List.lookup_cons, this]

/-- where a plot goes -/
def target (s : State K) (f : Option Int) : Int := f.getD (s.counter + 1)

theorem plotOn_ok (f : Option Int) (a : Art K) (s : State K) :
    (plotOn f (.ok a) s).1 = .ok (target s f) ∧ Added s (plotOn f (.ok a) s).2 (target s f) [a] ∧
      (plotOn f (.ok a) s).2.counter = if f = none then s.counter + 1 else s.counter := by
  cases f with
  | none =>
    refine ⟨rfl, ⟨?_, fun m hm => ?_⟩, rfl⟩
    · have := content_draw_figure (s.counter + 1) (s.counter + 1) a { s with counter := s.counter + 1 }
      rw [if_pos rfl] at this
      exact this
    · change m ≠ s.counter + 1 at hm
      have := content_draw_figure (s.counter + 1) m a { s with counter := s.counter + 1 }
      rw [if_neg hm] at this
      exact this
  | some n =>
    refine ⟨rfl, ⟨?_, fun m hm => ?_⟩, rfl⟩
    · have := content_draw_figure n n a s
      rw [if_pos rfl] at this
      exact this
    · change m ≠ n at hm
      have := content_draw_figure n m a s
      rw [if_neg hm] at this
      exact this

theorem plotOn_error (f : Option Int) (e : Err) (s : State K) :
    (plotOn f (.error e) s).1 = .error e ∧ Added s (plotOn f (.error e) s).2 (target s f) [] ∧
      (plotOn f (.error e) s).2.counter = if f = none then s.counter + 1 else s.counter := by
  cases f with
  | none =>
    refine ⟨rfl, ⟨?_, fun m hm => ?_⟩, rfl⟩
    · have := content_figure (s.counter + 1) (s.counter + 1) { s with counter := s.counter + 1 }
      rw [if_pos rfl] at this
      rw [List.append_nil]
      exact this
    · change m ≠ s.counter + 1 at hm
      have := content_figure (s.counter + 1) m { s with counter := s.counter + 1 }
      rw [if_neg hm] at this
      exact this
  | some n =>
    refine ⟨rfl, ⟨?_, fun m hm => ?_⟩, rfl⟩
    · have := content_figure n n s
      rw [if_pos rfl] at this
      rw [List.append_nil]
      exact this
    · change m ≠ n at hm
      have := content_figure n m s
      rw [if_neg hm] at this
      exact this

/-- every plot is plotOn of some body -/
theorem call_body (c : Call K) : ∃ body : Except Err (Art K), ∀ s, call c s = plotOn c.fig body s := by
  cases c with
  | multigraph xss yss f => exact ⟨.error .NameError, fun s => rfl⟩
  | _ => exact ⟨_, fun s => rfl⟩

/-- **C112, what every plot does**: a plot that returns adds exactly one drawing to one figure and returns
the number of that figure - the one named, or else the next number; one that raises draws nothing.  No
other figure is changed.  (The functions of _common.py do not return the number.) -/
theorem C112_call (c : Call K) (s : State K) :
    (∃ a, (call c s).1 = .ok (target s c.fig) ∧ Added s (call c s).2 (target s c.fig) [a]) ∨
    (∃ e, (call c s).1 = .error e ∧ Added s (call c s).2 (target s c.fig) []) := by
  obtain ⟨body, hb⟩ := call_body c
  rw [hb]
  cases body with
  | ok a => exact .inl ⟨a, (plotOn_ok _ a s).1, (plotOn_ok _ a s).2.1⟩
  | error e => exact .inr ⟨e, (plotOn_error _ e s).1, (plotOn_error _ e s).2.1⟩

theorem call_counter (c : Call K) (s : State K) :
    (call c s).2.counter = if c.fig = none then s.counter + 1 else s.counter := by
  obtain ⟨body, hb⟩ := call_body c
  rw [hb]
  cases body with
  | ok a => exact (plotOn_ok _ a s).2.2
  | error e => exact (plotOn_error _ e s).2.2

/-- **C112, scatter plots**: make_scatter shows the points and labels it is given, in order, if there are
as many x values as y values and at least one and no size is given; otherwise it raises. -/
theorem C112_scatter (xs ys : List K) (xl yl : String) (size : Bool) (f : Option Int) (s : State K) :
    (xs ≠ [] → xs.length = ys.length → size = false →
      (makeScatter xs xl ys yl size f s).1 = .ok (target s f) ∧
      Added s (makeScatter xs xl ys yl size f s).2 (target s f) [.scatter xs ys xl yl]) ∧
    (xs = [] ∨ xs.length ≠ ys.length → (makeScatter xs xl ys yl size f s).1 = .error .IndexError) := by
  constructor
  · intro h1 h2 h3
    have : ¬ (xs.length = 0 ∨ xs.length ≠ ys.length) := by
      rintro (h | h)
      · exact h1 (List.length_eq_zero_iff.mp h)
      · exact h h2
    simp only [makeScatter, if_neg this, h3, Bool.false_eq_true, if_false]
    exact ⟨(plotOn_ok _ _ s).1, (plotOn_ok _ _ s).2.1⟩
  · intro h
    have : xs.length = 0 ∨ xs.length ≠ ys.length := h.imp (fun h => by rw [h]; rfl) id
    simp only [makeScatter, if_pos this]
    exact (plotOn_error _ _ s).1

/-! ### programs -/

/-- every figure has a number that was given out -/
def Bounded (s : State K) : Prop := ∀ n, s.content n ≠ none → n ≤ s.counter

theorem Bounded.added {s s' : State K} (h : Bounded s) {n : Int} {a : List (Art K)} (hs : Added s s' n a)
    (hc : s.counter ≤ s'.counter) (hn : n ≤ s'.counter) : Bounded s' := by
  intro m hm
  by_cases h1 : m = n
  · rw [h1]; exact hn
  · rw [hs.2 m h1] at hm
    exact (h m hm).trans hc

theorem content_close (n m : Int) (s : State K) :
    (pyplotClose n s).content m = if m = n then none else s.content m := by
  simp only [State.content, pyplotClose]
  by_cases h : m = n
  · rw [if_pos h, h, lookup_others_self]
  · rw [if_neg h, lookup_others n m _ h]

theorem addLast_keys (a : Art K) (l : List (Int × List (Art K))) (m : Int) :
    (addLast a l).lookup m ≠ none → l.lookup m ≠ none := by
  induction l with
  | nil => exact id
  | cons f l ih =>
    obtain ⟨k, x⟩ := f
    cases l with
    | nil =>
      simp only [addLast, List.lookup_cons]
      split <;> simp
    | cons g l =>
      simp only [addLast, List.lookup_cons] at ih ⊢
      split
      · simp
      · exact ih

theorem step_bounded {s : State K} {op : Op K} {r : List (Op K)} (h : Bounded s) (ho : OnlyGiven s (op :: r)) :
    Bounded (step s op) := by
  obtain ⟨ho, _⟩ := ho
  cases op with
  | plot c =>
    have hc := call_counter c s
    have hle : s.counter ≤ (call c s).2.counter := by rw [hc]; split <;> omega
    have ht : target s c.fig ≤ (call c s).2.counter := by
      rw [hc]
      cases hf : c.fig with
      | none => simp [target]
      | some n => simpa [target] using ho n hf
    rcases C112_call c s with ⟨a, _, ha⟩ | ⟨e, _, ha⟩
    · exact h.added ha hle ht
    · exact h.added ha hle ht
  | figure n =>
    intro m hm
    simp only [step, content_figure] at hm
    by_cases h1 : m = n
    · rw [h1]; exact ho
    · rw [if_neg h1] at hm
      exact h m hm
  | draw a =>
    intro m hm
    refine h m ?_
    have hne : s.figs.isEmpty = false := by
      cases hf : s.figs with
      | nil => exact absurd hf ho
      | cons _ _ => rfl
    simp only [step, State.content, pyplotDraw, hne, Bool.false_eq_true, if_false] at hm
    exact addLast_keys a _ m hm
  | close n =>
    intro m hm
    simp only [step, content_close] at hm
    split at hm
    · exact absurd rfl hm
    · exact h m hm

theorem run_bounded : ∀ (ops : List (Op K)) (s : State K), Bounded s → OnlyGiven s ops → Bounded (run s ops)
  | [], _, h, _ => h
  | op :: r, s, h, ho => run_bounded r (step s op) (step_bounded h ho) ho.2

/-- **C112 in part**: in a program that names only figures with numbers that xboa has given out before, a
plot without a named figure gets a figure that does not exist: if it returns, the figure holds what this
call has drawn and nothing else, and all other figures are as before.  Missing: programs that name other
figures, or make figures with pyplot (false, `C112_false`). -/
theorem C112_partial (ops : List (Op K)) (ho : OnlyGiven start ops) (c : Call K) (hc : c.fig = none) (n : Int)
    (h : (call c (run start ops)).1 = .ok n) :
    (run start ops).content n = none ∧
      (∃ a, (call c (run start ops)).2.content n = some [a]) ∧
      ∀ m, m ≠ n → (call c (run start ops)).2.content m = (run start ops).content m := by
  set s := run start ops with hs
  have hb : Bounded s := run_bounded ops start (fun n hn => absurd rfl hn) ho
  have hnew : s.content (s.counter + 1) = none := by
    by_contra hne
    have := hb _ hne
    omega
  rcases C112_call c s with ⟨a, h1, h2⟩ | ⟨e, h1, _⟩
  · rw [hc] at h1 h2
    have hn : n = s.counter + 1 := by
      rw [h] at h1
      exact Except.ok.inj h1
    subst hn
    refine ⟨hnew, ⟨a, ?_⟩, h2.2⟩
    have := h2.1
    rw [show target s none = s.counter + 1 from rfl, hnew] at this
    simpa using this
  · rw [h] at h1; cases h1

/-- The exact condition, for all programs: the figure of a plot that names none is not new if and only if
the program has made a figure with the next number. -/
theorem C112_new (ops : List (Op K)) (c : Call K) (hc : c.fig = none) (n : Int)
    (h : (call c (run start ops)).1 = .ok n) :
    ((∃ a, (call c (run start ops)).2.content n = some [a] ∧ (run start ops).content n = none) ↔
      (run start ops).content ((run start ops).counter + 1) = none) := by
  set s := run start ops with hs
  rcases C112_call c s with ⟨a, h1, h2⟩ | ⟨e, h1, _⟩
  · rw [hc] at h1 h2
    have hn : n = s.counter + 1 := by
      rw [h] at h1
      exact Except.ok.inj h1
    subst hn
    constructor
    · rintro ⟨_, _, h⟩
      exact h
    · intro hnew
      refine ⟨a, ?_, hnew⟩
      have := h2.1
      rw [show target s none = s.counter + 1 from rfl, hnew] at this
      simpa using this
  · rw [h] at h1; cases h1

theorem step_counter (s : State K) (op : Op K) : s.counter ≤ (step s op).counter := by
  cases op with
  | plot c =>
    show s.counter ≤ (call c s).2.counter
    rw [call_counter]; split <;> omega
  | figure n => exact le_refl _
  | draw a => exact le_refl _
  | close n => exact le_refl _

theorem numbered_mem {s : State K} {op : Op K} {n : Int} (h : n ∈ numbered s op) :
    s.counter < n ∧ n = (step s op).counter := by
  cases op with
  | plot c =>
    by_cases hc : c.fig = none
    · simp only [numbered, hc, if_true] at h
      have hcount := call_counter c s
      rw [if_pos hc] at hcount
      change s.counter < n ∧ n = (call c s).2.counter
      rcases C112_call c s with ⟨a, h1, _⟩ | ⟨e, h1, _⟩
      · rw [h1, hc] at h
        have : n = s.counter + 1 := by simpa [target, Except.toOption] using h
        omega
      · rw [h1] at h
        simp [Except.toOption] at h
    · simp [numbered, hc] at h
  | figure n => cases h
  | draw a => cases h
  | close n => cases h

theorem automatic_above : ∀ (ops : List (Op K)) (s : State K), ∀ n ∈ automatic s ops, s.counter < n
  | [], _, _, h => by cases h
  | op :: r, s, n, h => by
    rcases List.mem_append.mp h with h | h
    · exact (numbered_mem h).1
    · have := automatic_above r (step s op) n h
      have := step_counter s op
      omega

/-- **C112, the numbers given out are unique**: in every program no two plots without a named figure get
the same number. -/
theorem C112_unique (ops : List (Op K)) : ∀ s : State K, (automatic s ops).Nodup := by
  induction ops with
  | nil => exact fun _ => List.nodup_nil
  | cons op r ih =>
    intro s
    show (numbered s op ++ automatic (step s op) r).Nodup
    rw [List.nodup_append]
    refine ⟨?_, ih _, ?_⟩
    · cases op with
      | plot c =>
        simp only [numbered]
        split
        · cases (call c s).1.toOption <;> simp
        · exact List.nodup_nil
      | figure n => exact List.nodup_nil
      | draw a => exact List.nodup_nil
      | close n => exact List.nodup_nil
    · intro x hx y hy hxy
      subst hxy
      have h1 := automatic_above r (step s op) x hy
      have h2 := (numbered_mem hx).2
      omega

/-- make_multigraph never works: `min_max` is not defined in the module.  It leaves an empty figure. -/
theorem C112_multigraph_false (xss yss : List (List K)) (s : State K) :
    (makeMultigraph xss yss none s).1 = .error .NameError ∧
      (s.content (s.counter + 1) = none →
        (makeMultigraph xss yss none s).2.content (s.counter + 1) = some []) := by
  refine ⟨rfl, fun h => ?_⟩
  have := (plotOn_error (K := K) none .NameError s).2.1.1
  rw [show target s none = s.counter + 1 from rfl, h] at this
  exact this

/-- The claim is false: a program names figure 1 for its first plot; the next plot, which names none, is
put on the same figure.  The same happens to a figure made with pyplot.figure(). -/
theorem C112_false :
    let named : Call ℚ := .scatter [1] "x" [2] "y" false (some 1)
    let new : Call ℚ := .scatter [3] "z" [4] "w" false none
    (call new (run start [.plot named])).1 = .ok 1 ∧
    (call new (run start [.plot named])).2.content 1 =
      some [.scatter [1] [2] "x" "y", .scatter [3] [4] "z" "w"] ∧
    (call new (run start [.figure 1, .draw (.hist [(0, 5)])])).2.content 1 =
      some [.hist [(0, 5)], .scatter [3] [4] "z" "w"] := by
  decide +kernel

/-! ### examples -/

/-- three plots, the last one on the figure of the first: hypotheses of C112_partial -/
def exampleProgram : List (Op ℚ) :=
  [.plot (.scatter [1] "x" [2] "y" false none), .plot (.matplotScatter [1, 2] "x" [] "y"),
   .plot (.scatter [5, 6] "x" [7, 8] "y" false (some 1)), .close 2]

example : OnlyGiven start exampleProgram ∧
    (call (.matplotScatter [1] "x" [2] "y") (run start exampleProgram)).1 = .ok 3 ∧
    (run start exampleProgram).content 1 =
      some [.scatter [1] [2] "x" "y", .scatter [5, 6] [7, 8] "x" "y"] ∧
    (call (.matplotScatter [1] "x" [2] "y") (run start exampleProgram)).2.content 3 =
      some [.scatter [1] [2] "x" "x"] ∧
    automatic start exampleProgram = [1] := by
  refine ⟨⟨?_, ?_, ?_, trivial, trivial⟩, by decide +kernel, by decide +kernel, by decide +kernel,
    by decide +kernel⟩
  · intro n h; cases h
  · intro n h; cases h
  · intro n h
    cases h
    decide +kernel

end Figures
end Xboa
