/-
Model of xboa/core/cpplib/WeightContext.{hh,hpp} and of the Python layer
xboa/core/pylib/PyWeightContext.cc, PyHitcore.cc (set/get current context).

The weight type `K` is arbitrary: only the operation symbols `+ - * / 0 1 ==` are
used and no law about them is assumed, so these definitions also describe IEEE doubles.
-/
namespace Xboa

/-- models WeightContext.hh:109-119 (class HitId; fields spill_, event_, particle_). -/
structure HitId where
  spill : Int
  event : Int
  particle : Int
deriving DecidableEq, Repr

/-- models WeightContext.hh:163-173 (HitId::operator<), branch by branch. -/
def HitId.lt (a b : HitId) : Bool :=
  if a.spill = b.spill then
    if a.event = b.event then
      decide (a.particle < b.particle)
    else
      decide (a.event < b.event)
  else
    decide (a.spill < b.spill)

/-- `std::map<HitId,double>`: entries in key order.  models WeightContext.hh:104. -/
abbrev WMap (K : Type) := List (HitId × K)

namespace WMap
variable {K : Type}

/-- `map.find(id)`: walks the ordered entries; equality of keys is
`!(a<b) && !(b<a)`, as in std::map.  models the find in WeightContext.hpp:47. -/
def find (id : HitId) : WMap K → Option K
  | [] => none
  | (k, v) :: r =>
    if id.lt k then none
    else if k.lt id then find id r
    else some v

/-- `map[id] = w` (insert or overwrite).  models WeightContext.hpp:55. -/
def assign (id : HitId) (w : K) : WMap K → WMap K
  | [] => [(id, w)]
  | (k, v) :: r =>
    if id.lt k then (id, w) :: (k, v) :: r
    else if k.lt id then (k, v) :: assign id w r
    else (k, w) :: r

/-- `map.insert(hint, {id, w})`: no effect when the key is present.
models WeightContext.hpp:67. -/
def insertNew (id : HitId) (w : K) : WMap K → WMap K
  | [] => [(id, w)]
  | (k, v) :: r =>
    if id.lt k then (id, w) :: (k, v) :: r
    else if k.lt id then (k, v) :: insertNew id w r
    else (k, v) :: r

end WMap

/-- models WeightContext.hh:39-107 (members globalWeightsContext_, defaultWeight_). -/
structure WC (K : Type) where
  map : WMap K
  dflt : K

namespace WC
variable {K : Type}

/-- models WeightContext::WeightContext (empty map, defaultWeight_ = 1.0; hh:50, 105). -/
def new [One K] : WC K := ⟨[], 1⟩

/-- models WeightContext.hpp:46-52. -/
def getWeight (c : WC K) (id : HitId) : K :=
  match c.map.find id with
  | none => c.dflt
  | some w => w

/-- models WeightContext.hpp:54-56. -/
def setWeight (c : WC K) (id : HitId) (w : K) : WC K :=
  { c with map := c.map.assign id w }

/-- models WeightContext.hpp:58-61 (the default weight is kept). -/
def clearWeights (c : WC K) : WC K := { c with map := [] }

/-- models WeightContext.hpp:152-154. -/
def getDefaultWeight (c : WC K) : K := c.dflt

/-- models WeightContext.hpp:156-158. -/
def setDefaultWeight (c : WC K) (w : K) : WC K := { c with dflt := w }

/-- models WeightContext.hpp:63-69: every id of `rhs` is inserted with our own default. -/
def adoptHits (c rhs : WC K) : WC K :=
  { c with map := rhs.map.foldl (fun m e => WMap.insertNew e.1 c.dflt m) c.map }

/-- The shared body of WeightContext.hpp:71-105 (add, subtract, multiply, divide by a
context); `f` is the C++ operator. -/
def opCtx (f : K → K → K) (c rhs : WC K) : WC K :=
  let a := c.adoptHits rhs
  { map := a.map.map (fun e => (e.1, f e.2 (rhs.getWeight e.1)))
    dflt := f a.dflt rhs.dflt }

/-- The shared body of WeightContext.hpp:107-137 (operation with a number). -/
def opNum (f : K → K → K) (c : WC K) (k : K) : WC K :=
  { map := c.map.map (fun e => (e.1, f e.2 k))
    dflt := f c.dflt k }

/-- models WeightContext.hpp:139-149. -/
def opNot [Zero K] [BEq K] (c : WC K) : WC K :=
  { map := c.map.map (fun e => (e.1, if e.2 == 0 then c.dflt else 0))
    dflt := 0 }

end WC

/-- The four binary operators of PyWeightContext.cc:270-276. -/
inductive BinOp | add | sub | mul | div
deriving DecidableEq, Repr

/-- Python errors that occur in the modelled code. -/
inductive Err
  | KeyError | IndexError | TypeError | ValueError | NotImplementedError
  | ZeroDivisionError | FloatingPointError | AttributeError | RuntimeError
  | IOError | EOFError | BadEventError | SystemError | NameError | OverflowError | LinAlgError
  | Unmodelled  -- not a Python error: the model says nothing about this branch
deriving DecidableEq, Repr

/-- The C++ operator applied to two numbers. -/
def BinOp.fn {K : Type} [Add K] [Sub K] [Mul K] [Div K] : BinOp → K → K → K
  | .add => fun a b => a + b
  | .sub => fun a b => a - b
  | .mul => fun a b => a * b
  | .div => fun a b => a / b

/-- An operand of a Python expression: a context or a number. -/
inductive Operand (C : Type) (K : Type)
  | ctx (c : C)
  | num (k : K)

/-- models X::operate (WeightContext.hpp:160-229) reached through
PyWeightContext.cc:225-268 (binary_operator).
number-number cannot reach this code (`parseArg` of both succeeds as float):
NotImplementedError, cc:236-239. -/
def WC.binary {K : Type} [Add K] [Sub K] [Mul K] [Div K] (op : BinOp) :
    Operand (WC K) K → Operand (WC K) K → Except Err (WC K)
  | .ctx a, .ctx b => .ok (a.opCtx op.fn b)
  | .ctx a, .num k => .ok (a.opNum op.fn k)
  | .num k, .ctx b =>
    match op with
    | .add => .ok (b.opNum (fun x y => x + y) k)  -- hpp:172-176, wc1 = rhs; wc1.add(lhs)
    | .mul => .ok (b.opNum (fun x y => x * y) k)  -- hpp:191-195
    | .sub => .error .NotImplementedError         -- hpp:210-212, cc:259-262
    | .div => .error .NotImplementedError         -- hpp:227-229
  | .num _, .num _ => .error .NotImplementedError

/-! ### Contexts as shared objects -/

/-- Contexts live on a heap; a Python `WeightContext` object is a SmartPointer to one
(PyWeightContext.cc:170-177), i.e. an index.  `cur` is `Hitcore::weightContext`.
Simplified: objects are never freed (freeing is the subject of C17). -/
structure CtxWorld (K : Type) where
  heap : List (WC K)
  cur : Nat

/-- User level operations on contexts. -/
inductive CtxOp (K : Type)
  | create                                          -- WeightContext()
  | binary (op : BinOp) (l r : Operand Nat K)       -- a + b etc.
  | invert (h : Nat)                                -- ~a
  | setWeight (h : Nat) (w : K) (id : HitId)        -- a.set_weight(w, spill, event, particle)
  | setDefault (h : Nat) (w : K)                    -- a.set_default_weight(w)
  | setCurrent (h : Nat)                            -- Hit.set_weight_context(a)
  | getCurrent                                      -- Hit.get_weight_context()
  | hitSetGlobal (id : HitId) (w : K)               -- a hit writes its global weight
  | clearGlobal                                     -- Hit.clear_global_weights()

namespace CtxWorld
variable {K : Type}

/-- Dereference an operand. -/
def deref (w : CtxWorld K) : Operand Nat K → Option (Operand (WC K) K)
  | .ctx h => (w.heap[h]?).map .ctx
  | .num k => some (.num k)

/-- One step; the result is the handle returned to Python, if any.  A handle that was
never allocated is a TypeError (is_PyWeightContext check, PyWeightContext.cc:64 etc.).
models PyWeightContext.cc:62-102, 210-268; PyHitcore.cc:129-132, 153-179;
Hitcore.hh:438-441. -/
def step [Add K] [Sub K] [Mul K] [Div K] [Zero K] [One K] [BEq K]
    (w : CtxWorld K) : CtxOp K → CtxWorld K × Except Err (Option Nat)
  | .create => ({ w with heap := w.heap ++ [WC.new] }, .ok (some w.heap.length))
  | .binary op l r =>
    match w.deref l, w.deref r with
    | some l, some r =>
      match WC.binary op l r with
      | .ok c => ({ w with heap := w.heap ++ [c] }, .ok (some w.heap.length))
      | .error e => (w, .error e)
    | _, _ => (w, .error .TypeError)
  | .invert h =>
    match w.heap[h]? with
    | some c => ({ w with heap := w.heap ++ [c.opNot] }, .ok (some w.heap.length))
    | none => (w, .error .TypeError)
  | .setWeight h k id =>
    match w.heap[h]? with
    | some c => ({ w with heap := w.heap.set h (c.setWeight id k) }, .ok none)
    | none => (w, .error .TypeError)
  | .setDefault h k =>
    match w.heap[h]? with
    | some c => ({ w with heap := w.heap.set h (c.setDefaultWeight k) }, .ok none)
    | none => (w, .error .TypeError)
  | .setCurrent h =>
    match w.heap[h]? with
    | some _ => ({ w with cur := h }, .ok none)
    | none => (w, .error .TypeError)
  | .getCurrent => (w, .ok (some w.cur))
  | .hitSetGlobal id k =>
    match w.heap[w.cur]? with
    | some c => ({ w with heap := w.heap.set w.cur (c.setWeight id k) }, .ok none)
    | none => (w, .error .TypeError)
  | .clearGlobal =>
    match w.heap[w.cur]? with
    | some c => ({ w with heap := w.heap.set w.cur c.clearWeights }, .ok none)
    | none => (w, .error .TypeError)

/-- Start-up state: one empty context, which is current (PyHitcore.cc import code). -/
def init [One K] : CtxWorld K := ⟨[WC.new], 0⟩

/-- Run a history. -/
def run [Add K] [Sub K] [Mul K] [Div K] [Zero K] [One K] [BEq K]
    (w : CtxWorld K) : List (CtxOp K) → CtxWorld K
  | [] => w
  | op :: ops => run (w.step op).1 ops

end CtxWorld
end Xboa
