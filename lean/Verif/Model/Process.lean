import Mathlib.Data.List.Basic
import Mathlib.Data.List.Sort
import Verif.Model.Py
/-
Model of xboa/common/_common.py: process_list.  Worker processes run concurrently: a run is a
sequence of atomic steps in any order.
-/
namespace Xboa
namespace Common

/-- The state of a multiprocessing pool that runs `pool.map`: chunks of tasks not yet handed out, the
remaining tasks of each busy worker, and the shared queue of results (index, output), oldest
first.  multiprocessing.Pool.map cuts the task list into chunks; how it does so is left open. -/
structure Pool (A : Type) (R : Type) where
  pending : List (List (Nat × A))
  running : List (List (Nat × A))
  queue : List (Nat × R)

variable {A R : Type}

/-- One atomic step of the pool with at most `n` workers.  `f` is the result of function_call(*arg),
an exception being a value like any other; models _common.py:899-916 (__function_with_queue) in
`work`, and the library's Pool.map in `take` and `done`. -/
inductive Pool.Step (f : A → R) (n : Nat) : Pool A R → Pool A R → Prop
  /-- an idle worker takes the next chunk -/
  | take (c : List (Nat × A)) (ps rs : List (List (Nat × A))) (q : List (Nat × R))
      (h : rs.length < n) : Pool.Step f n ⟨c :: ps, rs, q⟩ ⟨ps, c :: rs, q⟩
  /-- any worker finishes its current task and puts (index, output) on the queue -/
  | work (i : Nat) (a : A) (c : List (Nat × A)) (ps r1 r2 : List (List (Nat × A)))
      (q : List (Nat × R)) :
      Pool.Step f n ⟨ps, r1 ++ ((i, a) :: c) :: r2, q⟩ ⟨ps, r1 ++ c :: r2, q ++ [(i, f a)]⟩
  /-- any worker whose chunk is finished becomes idle -/
  | done (ps r1 r2 : List (List (Nat × A))) (q : List (Nat × R)) :
      Pool.Step f n ⟨ps, r1 ++ [] :: r2, q⟩ ⟨ps, r1 ++ r2, q⟩

/-- a run of `k` steps -/
inductive Pool.Run (f : A → R) (n : Nat) : Nat → Pool A R → Pool A R → Prop
  | nil (s : Pool A R) : Pool.Run f n 0 s s
  | cons {k : Nat} {s t u : Pool A R} : Pool.Step f n s t → Pool.Run f n k t u →
      Pool.Run f n (k + 1) s u

/-- `pool.map` returns when nothing is left to do -/
def Pool.Finished (s : Pool A R) : Prop := s.pending = [] ∧ s.running = []

/-- models _common.py:940: the indexed argument list -/
def indexedArgs (args : List A) : List (Nat × A) := args.zipIdx.map fun p => (p.2, p.1)

/-- models _common.py:943-949: the queue is emptied into a list, the list of pairs is sorted (the
indices are distinct, so only they are compared) and the outputs are picked out. -/
def collect (queue : List (Nat × R)) : List R :=
  (queue.mergeSort fun a b => decide (a.1 ≤ b.1)).map Prod.snd

/-- models _common.py:918-952 (process_list) as a relation between the arguments and the possible
return values: the pool is started with some cutting of the indexed arguments into chunks, runs
until `pool.map` returns, and the queue is collected.  multiprocessing.Pool raises ValueError for
fewer than one process. -/
inductive ProcessList (f : A → R) (args : List A) (n : Nat) : Except Err (List R) → Prop
  | bad : n = 0 → ProcessList f args n (.error .ValueError)
  | ok (chunks : List (List (Nat × A))) (k : Nat) (s : Pool A R) : 0 < n →
      chunks.flatten = indexedArgs args → Pool.Run f n k ⟨chunks, [], []⟩ s → s.Finished →
      ProcessList f args n (.ok (collect s.queue))

end Common
end Xboa
