import Mathlib.Data.Finset.Card
import Mathlib.Data.Finset.Range
/-
Model of SmartPointer, xboa/core/utils/SmartPointer.hh: a process wide map from addresses to
reference counts, and handles holding an address or NULL.

The memory allocator is an adversary that may reuse an address once it is dead.  `bad` records
undefined behaviour: a `delete` of an address that is not alive.
Not modelled: a NULL context (ref_count_ unset; the extension modules set it at import,
PyHitcore.cc:142,368, PyBunchcore.cc:556), counts reaching 2^64.
-/
namespace Xboa

/-- Process state seen by SmartPointer<T>. -/
structure SP where
  /-- handles created so far are numbered below `n` -/
  n : Nat
  /-- `none`: not created yet or destroyed; `some none`: ptr_ == NULL -/
  handles : Nat → Option (Option Nat)
  /-- the map *ref_count_ (SmartPointer.hh:86) -/
  count : Nat → Option Nat
  /-- addresses holding a live object -/
  alive : Nat → Bool
  /-- a delete hit a dead address -/
  bad : Bool
  /-- addresses deleted, latest first -/
  log : List Nat

namespace SP

/-- Start of the process. -/
def init : SP := ⟨0, fun _ => none, fun _ => none, fun _ => false, false, []⟩

/-- `--x` on std::size_t. -/
def decSizeT (c : Nat) : Nat := if c = 0 then 18446744073709551615 else c - 1

/-- models SmartPointer.hh:133-148 (decref). -/
def decref (s : SP) : Option Nat → SP
  | none => s
  | some a =>
    match s.count a with
    | none => s
    | some c =>
      if decSizeT c = 0 then
        { s with
          alive := fun b => if b = a then false else s.alive b
          bad := s.bad || !s.alive a
          log := a :: s.log
          count := fun b => if b = a then none else s.count b }
      else { s with count := fun b => if b = a then some (decSizeT c) else s.count b }

/-- models SmartPointer.hh:158-166 (incref). -/
def incref (s : SP) : Option Nat → SP
  | none => s
  | some a =>
    let c := match s.count a with
      | none => 0
      | some c => c
    { s with count := fun b => if b = a then some (c + 1) else s.count b }

/-- Write ptr_ of a handle. -/
def putHandle (s : SP) (h : Nat) (p : Option (Option Nat)) : SP :=
  { s with handles := fun k => if k = h then p else s.handles k }

/-- models SmartPointer.hh:116-126 (set) on handle `h` whose ptr_ is `old`. -/
def set (s : SP) (h : Nat) (old p : Option Nat) : SP :=
  if p = old then s
  else ((s.decref old).putHandle h (some p)).incref p

/-- What C++ code using the class can do. -/
inductive Op
  | alloc (a : Nat)         -- new T, allocator returns address a
  | create                  -- SmartPointer()                       :89-91
  | wrap (a : Nat)          -- SmartPointer(ptr)                    :93-96
  | copy (h : Nat)          -- SmartPointer(handle)                 :98-102
  | assign (h h' : Nat)     -- handle = handle'                     :104-109
  | setRaw (h : Nat) (p : Option Nat)  -- handle.set(ptr)           :116-126
  | destroy (h : Nat)       -- ~SmartPointer()                      :111-114

/-- Construct a handle with ptr_ = NULL (the initialiser of every constructor). -/
def mkHandle (s : SP) : SP := { s.putHandle s.n (some none) with n := s.n + 1 }

/-- One operation.  Operations a C++ program cannot perform without undefined behaviour of its
own (using a destroyed handle, wrapping a dangling raw pointer, an allocator returning a live
address) are skipped. -/
def step (s : SP) : Op → SP
  | .alloc a => if s.alive a then s else { s with alive := fun b => if b = a then true else s.alive b }
  | .create => s.mkHandle
  | .wrap a => if s.alive a then s.mkHandle.set s.n none (some a) else s
  | .copy h =>
    match s.handles h with
    | none => s
    | some p => s.mkHandle.set s.n none p
  | .assign h h' =>
    match s.handles h, s.handles h' with
    | some old, some p => s.set h old p
    | _, _ => s
  | .setRaw h p =>
    match s.handles h, p with
    | some old, none => s.set h old none
    | some old, some a => if s.alive a then s.set h old (some a) else s
    | none, _ => s
  | .destroy h =>
    match s.handles h with
    | none => s
    | some old => (s.decref old).putHandle h none

/-- Run a history. -/
def run (ops : List Op) : SP := ops.foldl step init

/-- models SmartPointer.hh:150-155 (ref_count). -/
def refCount (s : SP) (a : Nat) : Nat :=
  match s.count a with
  | none => 0
  | some c => c

end SP
end Xboa
