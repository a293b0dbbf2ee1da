import Verif.Model.Process
import Mathlib.Tactic.Ring
/-
C36 (process_list).
-/
namespace Xboa
namespace Common
variable {A R : Type}

/-- every task is pending, running or already has its result on the queue -/
def Pool.results (f : A → R) (s : Pool A R) : List (Nat × R) :=
  s.queue ++ (s.pending.flatten ++ s.running.flatten).map fun p => (p.1, f p.2)

theorem Pool.Step.results_perm {f : A → R} {n : Nat} {s t : Pool A R} (h : Pool.Step f n s t) :
    (t.results f).Perm (s.results f) := by
  cases h with
  | take c ps rs q h =>
    simp only [Pool.results, List.flatten_cons]
    apply List.Perm.append_left
    apply List.Perm.map
    rw [List.append_assoc, ← List.append_assoc ps.flatten]
    exact (List.perm_append_comm.append_right _).trans (by rw [List.append_assoc])
  | work i a c ps r1 r2 q =>
    simp only [Pool.results, List.flatten_append, List.flatten_cons, List.map_append,
      List.map_cons, List.append_assoc, List.singleton_append, List.cons_append, List.nil_append]
    apply List.Perm.append_left
    have := List.perm_middle (a := (i, f a))
      (l₁ := (List.map (fun p : Nat × A => (p.1, f p.2)) ps.flatten) ++
        (List.map (fun p : Nat × A => (p.1, f p.2)) r1.flatten))
      (l₂ := (List.map (fun p : Nat × A => (p.1, f p.2)) c) ++
        (List.map (fun p : Nat × A => (p.1, f p.2)) r2.flatten))
    simpa only [List.append_assoc] using this.symm
  | done ps r1 r2 q => simp [Pool.results]

theorem Pool.Run.results_perm {f : A → R} {n k : Nat} {s t : Pool A R} (h : Pool.Run f n k s t) :
    (t.results f).Perm (s.results f) := by
  induction h with
  | nil s => exact .refl _
  | cons h _ ih => exact ih.trans h.results_perm

/-- the number of workers is never exceeded -/
theorem Pool.Run.workers {f : A → R} {n k : Nat} {s t : Pool A R} (h : Pool.Run f n k s t)
    (hs : s.running.length ≤ n) : t.running.length ≤ n := by
  induction h with
  | nil s => exact hs
  | cons h _ ih =>
    apply ih
    cases h <;> simp at hs ⊢ <;> omega

/-- what is left to do: every task once, every chunk twice (to take it and to finish it) -/
def Pool.todo (s : Pool A R) : Nat :=
  s.pending.flatten.length + s.running.flatten.length + 2 * s.pending.length + s.running.length

theorem Pool.Step.todo {f : A → R} {n : Nat} {s t : Pool A R} (h : Pool.Step f n s t) :
    t.todo + 1 = s.todo := by
  cases h <;> simp [Pool.todo] <;> omega

theorem Pool.Run.todo {f : A → R} {n k : Nat} {s t : Pool A R} (h : Pool.Run f n k s t) :
    t.todo + k = s.todo := by
  induction h with
  | nil s => rfl
  | cons h _ ih => have := h.todo; omega

theorem Pool.progress (f : A → R) {n : Nat} (hn : 0 < n) (s : Pool A R) (h : ¬ s.Finished) :
    ∃ t, Pool.Step f n s t := by
  obtain ⟨ps, rs, q⟩ := s
  cases rs with
  | nil =>
    cases ps with
    | nil => exact absurd ⟨rfl, rfl⟩ h
    | cons c ps => exact ⟨_, .take c ps [] q hn⟩
  | cons c rs =>
    cases c with
    | nil => exact ⟨_, .done ps [] rs q⟩
    | cons p c => exact ⟨_, .work p.1 p.2 c ps [] rs q⟩

theorem indexedArgs_map (f : A → R) (args : List A) :
    (indexedArgs args).map (fun p => (p.1, f p.2)) = indexedArgs (args.map f) := by
  simp [indexedArgs, List.zipIdx_map]

theorem indexedArgs_fst (args : List A) : (indexedArgs args).map Prod.fst = List.range args.length := by
  simp only [indexedArgs, List.map_map]
  rw [show (Prod.fst ∘ fun p : A × Nat => (p.2, p.1)) = Prod.snd from rfl]
  rw [List.zipIdx_map_snd, List.range_eq_range']

theorem indexedArgs_snd (args : List A) : (indexedArgs args).map Prod.snd = args := by
  simp only [indexedArgs, List.map_map]
  rw [show (Prod.snd ∘ fun p : A × Nat => (p.2, p.1)) = Prod.fst from rfl]
  exact List.zipIdx_map_fst 0 args

theorem collect_perm (q : List (Nat × R)) (out : List R) (h : q.Perm (indexedArgs out)) :
    collect q = out := by
  have hp : (q.mergeSort fun a b => decide (a.1 ≤ b.1)).Perm (indexedArgs out) :=
    (List.mergeSort_perm _ _).trans h
  have hs : (q.mergeSort fun a b => decide (a.1 ≤ b.1)).Pairwise (fun a b => a.1 ≤ b.1) := by
    have := List.pairwise_mergeSort (le := fun a b : Nat × R => decide (a.1 ≤ b.1))
      (by intro a b c; simp; omega) (by intro a b; simp; omega) q
    simpa using this
  have hs' : (indexedArgs out).Pairwise (fun a b => a.1 ≤ b.1) := by
    have : ((indexedArgs out).map Prod.fst).Pairwise (· ≤ ·) := by
      rw [indexedArgs_fst]
      exact List.pairwise_le_range
    rwa [List.pairwise_map] at this
  have hnd : ((indexedArgs out).map Prod.fst).Nodup := by
    rw [indexedArgs_fst]; exact List.nodup_range
  have he : q.mergeSort (fun a b => decide (a.1 ≤ b.1)) = indexedArgs out := by
    apply hp.eq_of_pairwise _ hs hs'
    intro a b ha hb h1 h2
    exact List.inj_on_of_nodup_map hnd (hp.mem_iff.mp ha) hb (le_antisymm h1 h2)
  rw [collect, he, indexedArgs_snd]

end Common

/-- C36: whatever the cutting into chunks and the order in which the workers act, if process_list
returns at all it returns the results in the order of the arguments. -/
theorem C36_result {A R : Type} (f : A → R) (args : List A) (n : Nat) (hn : 0 < n)
    (out : Except Err (List R)) (h : Common.ProcessList f args n out) : out = .ok (args.map f) := by
  cases h with
  | bad h0 => omega
  | ok chunks k s _ hc hr hf =>
    congr 1
    apply Common.collect_perm
    have := hr.results_perm
    simp only [Common.Pool.results, hf.1, hf.2, hc, List.flatten_nil, List.append_nil, List.map_nil,
      List.nil_append, Common.indexedArgs_map] at this
    exact this

/-- C36, concurrency: at no moment of a run are more than max_n_processes workers busy. -/
theorem C36_workers {A R : Type} (f : A → R) (n k : Nat) (chunks : List (List (Nat × A)))
    (s : Common.Pool A R) (h : Common.Pool.Run f n k ⟨chunks, [], []⟩ s) : s.running.length ≤ n :=
  h.workers (Nat.zero_le _)

/-- C36, termination: every run, however scheduled, can be continued until it is finished (no
deadlock), and no run is longer than the number of tasks plus twice the number of chunks. -/
theorem C36_terminates {A R : Type} (f : A → R) (args : List A) (n k : Nat) (hn : 0 < n)
    (chunks : List (List (Nat × A))) (hc : chunks.flatten = Common.indexedArgs args)
    (s : Common.Pool A R) (h : Common.Pool.Run f n k ⟨chunks, [], []⟩ s) :
    k ≤ args.length + 2 * chunks.length ∧ (s.Finished ∨ ∃ t, Common.Pool.Step f n s t) ∧
    (s.Finished → k = args.length + 2 * chunks.length) := by
  have hl : chunks.flatten.length = args.length := by
    rw [hc]; simp [Common.indexedArgs]
  have ht := h.todo
  simp only [Common.Pool.todo, List.flatten_nil, List.length_nil, hl] at ht
  refine ⟨by omega, ?_, fun hf => ?_⟩
  · by_cases hf : s.Finished
    · exact .inl hf
    · exact .inr (Common.Pool.progress f hn s hf)
  · rw [hf.1, hf.2] at ht
    simp at ht
    omega

/-- C36: process_list can always return: from the start there is a run that finishes, for every
cutting into chunks. -/
theorem C36_returns {A R : Type} (f : A → R) (n : Nat) (hn : 0 < n) (s : Common.Pool A R) :
    ∃ k t, Common.Pool.Run f n k s t ∧ t.Finished := by
  induction hm : s.todo using Nat.strong_induction_on generalizing s with
  | _ m ih =>
    by_cases hf : s.Finished
    · exact ⟨0, s, .nil s, hf⟩
    · obtain ⟨t, ht⟩ := Common.Pool.progress f hn s hf
      obtain ⟨k, u, hr, hu⟩ := ih t.todo (by have := ht.todo; omega) t rfl
      exact ⟨k + 1, u, .cons ht hr, hu⟩

/-- the hypotheses of C36 can be met: two workers, the second task ends first -/
example : Common.ProcessList (fun x : Nat => x * x) [3, 5] 2 (.ok [9, 25]) := by
  have h := Common.ProcessList.ok (f := fun x : Nat => x * x) (args := [3, 5]) (n := 2)
    [[(0, 3)], [(1, 5)]] 6 ⟨[], [], [(1, 25), (0, 9)]⟩ (by decide) (by decide)
    (.cons (.take [(0, 3)] [[(1, 5)]] [] [] (by decide))
    (.cons (.take [(1, 5)] [] [[(0, 3)]] [] (by decide))
    (.cons (.work 1 5 [] [] [] [[(0, 3)]] [])
    (.cons (.work 0 3 [] [] [[]] [] [(1, 25)])
    (.cons (.done [] [] [[]] _)
    (.cons (.done [] [] [] _) (.nil _))))))) ⟨rfl, rfl⟩
  have e := C36_result _ _ _ (by decide) _ h
  rw [e] at h
  exact h

end Xboa
