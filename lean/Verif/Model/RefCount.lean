import Mathlib.Data.List.Count
/-
Model of the reference counts of the Python objects that the extension modules create: xboa/core/pylib/PyBunchcore.cc, PyHitcore.cc, PyWeightContext.cc and xboa/core/utils/TypeConversions-inl.hh,
PythonComparator.hh.

An object is an address; addresses are not used again.  What is modelled of CPython: a new object has count
1; Py_INCREF, PyList_Append and PyDict_SetItem add 1; Py_DECREF subtracts 1 and an object of count 0 is freed
and gives up its references.  Not modelled: the values of the objects (Bunchcore, IndexByPower), the cycle
collector (it frees an object only if all of its references are known to it), None, True, False and the
integers up to 256, which are never freed.  The memory for C++ objects is in SmartPointer.
-/
namespace Xboa
namespace RefCount

/-- The objects of the process. -/
structure Mem where
  /-- addresses below `n` have been used -/
  n : Nat
  /-- ob_refcnt -/
  rc : Nat → Nat
  /-- the references that an object owns, as elements of a list or tuple or keys of a dict -/
  items : Nat → List Nat
  alive : Nat → Bool
  /-- the references that the Python program owns -/
  roots : List Nat
  /-- the references that are given up but not counted down yet -/
  pending : List Nat
  /-- a dead object has been counted down -/
  bad : Bool

namespace Mem

/-- Start of the process. -/
def init : Mem := ⟨0, fun _ => 0, fun _ => [], fun _ => false, [], [], false⟩

/-! ### The Python API used by the extension modules -/

/-- A function returning a new reference: PyFloat_FromDouble, PyList_New, PyBytes, alloc of PyHitcore.cc:261
(Py_SET_REFCNT 1), ...  An object that owns `l` takes over the references. -/
def newObj (m : Mem) (l : List Nat) : Nat × Mem :=
  (m.n, { m with
    n := m.n + 1
    rc := fun a => if a = m.n then 1 else m.rc a
    items := fun a => if a = m.n then l else m.items a
    alive := fun a => if a = m.n then true else m.alive a })

/-- Py_INCREF -/
def incref (m : Mem) (a : Nat) : Mem := { m with rc := fun b => if b = a then m.rc b + 1 else m.rc b }

/-- PyList_Append (PyDict_SetItem for a key that is not there yet): the list takes one more reference. -/
def append (m : Mem) (l a : Nat) : Mem :=
  { m.incref a with items := fun b => if b = l then m.items b ++ [a] else m.items b }

/-- return to the Python program, which then owns the reference. -/
def ret (m : Mem) (a : Nat) : Mem := { m with roots := a :: m.roots }

/-! ### Conversions -/

/-- str.isascii -/
def ascii (s : String) : Bool := s.toList.all fun c => decide (c.toNat < 128)

/-- models TypeConversions-inl.hh:40-51 (PyCppStringConverter) for a str: PyUnicode_AsASCIIString returns a
new bytes object, or NULL. -/
def stringIn (s : String) (m : Mem) : Bool × Mem :=
  if ascii s then (true, (m.newObj []).2) else (false, m)

/-- models TypeConversions-inl.hh:65-90 (PyCppListToVectorConverter) for a list of str: the result of the
conversion of an element is ignored. -/
def listIn (l : List String) (m : Mem) : Mem := l.foldl (fun m s => (stringIn s m).2) m

/-- models TypeConversions-inl.hh:93-121 (PyCppDictToMapConverter) for a dict with str keys; the second
component says whether the value is a float. -/
def dictIn : List (String × Bool) → Mem → Bool × Mem
  | [], m => (true, m)
  | (s, isFloat) :: r, m =>
    match stringIn s m with
    | (false, m) => (false, m)
    | (true, m) => if isFloat then dictIn r m else (false, m)

/-- models TypeConversions-inl.hh:150-162 (CppPyDoubleConverter). -/
def doubleOut {K : Type} (_ : K) (m : Mem) : Nat × Mem := m.newObj []

/-- models TypeConversions-inl.hh:164-188 (CppPyVectorToListConverter), the elements being converted by
`conv`. -/
def vectorOut {α : Type} (conv : α → Mem → Nat × Mem) (v : List α) (m : Mem) : Nat × Mem :=
  let (p, m) := m.newObj []
  let m := m.incref p
  (p, v.foldl (fun m x => match conv x m with | (e, m) => m.append p e) m)

/-- CppPyVectorToListConverter (TypeConversions-inl.hh:164-188) for a vector of integers up to 256, which
are not new objects. -/
def smallOut (_ : List Nat) (m : Mem) : Nat × Mem :=
  let (p, m) := m.newObj []
  (p, m.incref p)

/-! ### Functions of the extension modules -/

/-- models PyBunchcore.cc:208-248 (moment); `result` is what Bunchcore::get_moment gives. -/
def moment {K : Type} (axes : List String) (means : List (String × Bool)) (result : Option K) (m : Mem) : Mem :=
  let m := listIn axes m
  match dictIn means m with
  | (false, m) => m
  | (true, m) =>
    match result with
    | none => m
    | some _ =>
      let (p, m) := m.newObj []
      (m.incref p).ret p

/-- models PyBunchcore.cc:263-304 (covariance_matrix); `result` is what Bunchcore::covariance_matrix gives. -/
def covariance_matrix {K : Type} (axes : List String) (means : List (String × Bool))
    (result : Option (List (List K))) (m : Mem) : Mem :=
  let m := listIn axes m
  match dictIn means m with
  | (false, m) => m
  | (true, m) =>
    match result with
    | none => m
    | some v =>
      match vectorOut (vectorOut doubleOut) v m with
      | (p, m) => m.ret p

/-- models PyBunchcore.cc:367-403 (moment_tensor); `result` is what Bunchcore::get_moment_tensor gives. -/
def moment_tensor {K : Type} (axes : List String) (max_power : Int) (result : Option (List K)) (m : Mem) : Mem :=
  if max_power < 0 then m
  else
    let m := listIn axes m
    match result with
    | none => m
    | some v =>
      match vectorOut doubleOut v m with
      | (p, m) => m.ret p

/-- models PyBunchcore.cc:415-443 (index_by_power) for powers up to 256; `result` is what
Bunchcore::get_index_by_power gives. -/
def index_by_power (max_power n_axes : Int) (result : List (List Nat)) (m : Mem) : Mem :=
  if max_power < 0 then m
  else if n_axes < 1 then m
  else
    match vectorOut smallOut result m with
    | (p, m) => m.ret p

/-- models one call of PythonComparator.hh:60-71 (compare), of which Bunchcore.cc:222-252 (cut_double) makes
one for each hit: the tuple of two floats for the arguments.  What the Python function does is left to other
operations of the history; it returns True or False, or raises. -/
def compare (m : Mem) : Mem :=
  let (f, m) := m.newObj []
  let (g, m) := m.newObj []
  (m.newObj [f, g]).2

/-- models PyHitcore.cc:141-149 (dump_memory) and TypeConversions-inl.hh:123-148 (CppPyMapToDictConverter):
`k` hitcores in memory, whose addresses are the keys, with counts up to 256. -/
def dump_memory (k : Nat) (m : Mem) : Mem :=
  let (p, m) := m.newObj []
  let m := m.incref p
  let m := (List.range k).foldl (fun m _ => match m.newObj [] with | (e, m) => m.append p e) m
  m.ret p

/-- models what PyBunchcore.cc:80-111 (get_item), PyBunchcore.cc:178-193 (length), PyHitcore.cc:45-71 (get),
PyHitcore.cc:174-179 (getWeightContext) do with a result that is not None: a new object is returned. -/
def fresh (m : Mem) : Mem :=
  let (p, m) := m.newObj []
  m.ret p

/-- models PyHitcore.cc:76-82 (get_variables) and 118-124 (set_variables): PyList_New of the length of the
names and PyList_SetItem, which takes over the reference. -/
def variableNames (names : List String) (m : Mem) : Mem :=
  let (p, m) := m.newObj []
  let m := names.foldl (fun m _ => match m.newObj [] with
    | (e, m) => { m with items := fun b => if b = p then m.items b ++ [e] else m.items b }) m
  m.ret p

/-- models PyWeightContext.cc:195-208 (parseArg) and 226-268 (binary_operator) for two weight contexts, or one
and an int (`number`): PyNumber_Float makes a float of it.  A float is not made anew, here the operand itself
gets one reference too many; this is not modelled. -/
def arithmetic (number : Bool) (m : Mem) : Mem :=
  let m := if number then (m.newObj []).2 else m
  m.fresh

/-! ### The Python program -/

/-- What can happen in a process. -/
inductive Op (K : Type)
  /-- the Python program makes an object -/
  | new
  /-- the program takes one more reference to an object that it owns or that is an item of one it owns -/
  | take (a : Nat)
  /-- the program gives up a reference -/
  | drop (a : Nat)
  /-- the program puts one of its objects in another -/
  | store (l a : Nat)
  /-- the interpreter counts down the reference that was given up last -/
  | countDown
  | moment (axes : List String) (means : List (String × Bool)) (result : Option K)
  | covariance (axes : List String) (means : List (String × Bool)) (result : Option (List (List K)))
  | tensor (axes : List String) (max_power : Int) (result : Option (List K))
  | index (max_power n_axes : Int) (result : List (List Nat))
  | compare
  | dump (k : Nat)
  | fresh
  | variables (names : List String)
  | arithmetic (number : Bool)

/-- Py_DECREF of the reference given up last. -/
def countDown (m : Mem) : Mem :=
  match m.pending with
  | [] => m
  | a :: r =>
    if m.alive a = false then { m with pending := r, bad := true }
    else if m.rc a ≤ 1 then
      { m with
        rc := fun b => if b = a then 0 else m.rc b
        alive := fun b => if b = a then false else m.alive b
        items := fun b => if b = a then [] else m.items b
        pending := m.items a ++ r }
    else { m with pending := r, rc := fun b => if b = a then m.rc b - 1 else m.rc b }

/-- One operation; what a Python program cannot do is skipped. -/
def step {K : Type} (m : Mem) : Op K → Mem
  | .new => m.fresh
  | .take a => if a ∈ m.roots ∨ ∃ b ∈ m.roots, a ∈ m.items b then (m.incref a).ret a else m
  | .drop a => if a ∈ m.roots then { m with roots := m.roots.erase a, pending := a :: m.pending } else m
  | .store l a => if l ∈ m.roots ∧ a ∈ m.roots then m.append l a else m
  | .countDown => m.countDown
  | .moment axes means result => m.moment axes means result
  | .covariance axes means result => m.covariance_matrix axes means result
  | .tensor axes p result => m.moment_tensor axes p result
  | .index p n result => m.index_by_power p n result
  | .compare => m.compare
  | .dump k => m.dump_memory k
  | .fresh => m.fresh
  | .variables names => m.variableNames names
  | .arithmetic number => m.arithmetic number

/-- Run a history. -/
def run {K : Type} (ops : List (Op K)) : Mem := ops.foldl step init

end Mem
end RefCount
end Xboa
