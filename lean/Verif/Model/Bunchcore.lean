import Verif.Model.IndexByPower
import Verif.Model.HitTransform
/-
Model of xboa/core/cpplib/Bunchcore.{hh,cc}, xboa/core/pylib/PyBunchcore.cc and the index
converter of xboa/core/utils/TypeConversions-inl.hh.
-/
namespace Xboa
variable {K : Type} [Field K] [LinearOrder K]

/-- All the mutable state seen by a Bunch: the Hitcore objects (numbered), the weight contexts
(numbered), the context `Hitcore::weightContext` of the extension module _hitcore (`hcur`,
PyHitcore.cc:325-333, changed by set_weight_context, PyHitcore.cc:153-172) and that of the
extension module _bunchcore (`bcur`), which has its own copy of the static member because
Hitcore.cc is compiled in to both (setup.py:29-57) and which is assigned once at import
(PyBunchcore.cc:529-537).  `geo` is Bunch.__geometric_momentum. -/
structure BWorld (K : Type) where
  hits : Nat → Core K
  ctx : Nat → WC K
  hcur : Nat
  bcur : Nat
  geo : Bool

namespace BWorld
/-- Hit `i` as the Python class Hit sees it. -/
def hview (w : BWorld K) (i : Nat) : HS K := ⟨w.hits i, w.ctx w.hcur⟩
/-- Hit `i` as the C++ class Bunchcore sees it. -/
def bview (w : BWorld K) (i : Nat) : HS K := ⟨w.hits i, w.ctx w.bcur⟩
/-- Store back what a method of Hit `i` did. -/
def hput (w : BWorld K) (i : Nat) (s : HS K) : BWorld K :=
  { w with hits := fun j => if j = i then s.core else w.hits j
           ctx := fun c => if c = w.hcur then s.wc else w.ctx c }
/-- Store back what Bunchcore did to hit `i`. -/
def bput (w : BWorld K) (i : Nat) (s : HS K) : BWorld K :=
  { w with hits := fun j => if j = i then s.core else w.hits j
           ctx := fun c => if c = w.bcur then s.wc else w.ctx c }
/-- models PyHitcore.cc:153-172 (Hit.set_weight_context): only the _hitcore module changes. -/
def setContext (w : BWorld K) (c : Nat) : BWorld K := { w with hcur := c }
end BWorld

/-- A C++ double (or an object made of doubles) that may have become infinite or NaN. -/
inductive CNum (α : Type) | fin (a : α) | nonfinite
deriving DecidableEq

namespace Bunchcore

/-- `hitcores_`: a vector of possibly null pointers. -/
abbrev Items := List (Option Nat)

/-- models TypeConversions-inl.hh:21-38 (PyCppIndexConverter without length): a negative index
becomes abs(i+1).  Simplified: the index fits a C int. -/
def pyIndex (i : Int) : Nat := if i < 0 then (i + 1).natAbs else i.toNat

/-- models TypeConversions-inl.hh:33-37 (PyCppIndexConverter with length). -/
def pyIndexLen (len : Nat) (i : Int) : Except Err Nat :=
  if len ≤ pyIndex i then .error .IndexError else .ok (pyIndex i)

/-- models Bunchcore.cc:28-34 (set_item). -/
def setItem (l : Items) (i : Nat) (h : Nat) : Items :=
  (if l.length ≤ i then l ++ List.replicate (i + 1 - l.length) none else l).set i (some h)

/-- models PyBunchcore.cc:120-153 (Bunchcore.set_item(value, index)). -/
def pySetItem (l : Items) (h : Nat) (i : Int) : Items := setItem l (pyIndex i) h

/-- models PyBunchcore.cc:80-111 (Bunchcore.get_item); None for a null pointer. -/
def pyGetItem (l : Items) (i : Int) : Except Err (Option Nat) :=
  match pyIndexLen l.length i with
  | .error e => .error e
  | .ok k => .ok (l.getD k none)

/-- models Bunchcore.cc:36-43 and PyBunchcore.cc:157-174 (Bunchcore.del_item). -/
def pyDelItem (l : Items) (i : Int) : Except Err Items :=
  match pyIndexLen l.length i with
  | .error e => .error e
  | .ok k => .ok (l.eraseIdx k)

/-- The hits a loop `for i < size: if (hc == NULL) continue` visits. -/
def visits (w : BWorld K) (l : Items) : List (HS K) := l.filterMap (fun o => o.map w.bview)

/-- models Bunchcore.cc:210-220 (bunch_weight). -/
def bunchWeight (hs : List (HS K)) : K := hs.foldl (fun a h => a + h.totalWeight) 0

/-- models the look up of accessors in Bunchcore.cc:52-58 etc; none if a name is not in the
table of doubles. -/
def resolve : List String → Option (List DGet)
  | [] => some []
  | a :: r =>
    match getDblMap.lookup a, resolve r with
    | some g, some gs => some (g :: gs)
    | _, _ => none

/-- `means[axis]` on a std::map: 0 when absent.  models Bunchcore.cc:60-63. -/
def meanVec (axes : List String) (means : List (String × K)) : List K :=
  axes.map (fun a => (means.lookup a).getD 0)

/-- models the inner loop of Bunchcore.cc:74-77. -/
def hitTerm (gs : List DGet) (ms : List K) (W : K) (h : HS K) : K :=
  (gs.zip ms).foldl (fun m p => m * (p.1.eval h - p.2)) (h.totalWeight / W)

/-- models Bunchcore.cc:46-81 (get_moment); none when it returns false.  Division by a zero
weight makes every term infinite or NaN. -/
def getMoment (hs : List (HS K)) (axes : List String) (means : List (String × K)) :
    Option (CNum K) :=
  match resolve axes with
  | none => none
  | some gs =>
    let ms := meanVec axes means
    let W := bunchWeight hs
    if W = 0 ∧ hs ≠ [] then some .nonfinite
    else some (.fin (hs.foldl (fun acc h => acc + hitTerm gs ms W h) 0))

/-- models the body of the hit loop of Bunchcore.cc:106-119: `cov[j][k] += ...` for all j, k. -/
def covStep (gs : List DGet) (ms : List K) (W : K) (M : Nat → Nat → K) (h : HS K) :
    Nat → Nat → K :=
  fun j k => if j < gs.length ∧ k < gs.length then
      M j k + (h.totalWeight / W * ((gs.getD j .total).eval h - ms.getD j 0)) *
        ((gs.getD k .total).eval h - ms.getD k 0)
    else M j k

/-- models Bunchcore.cc:83-121 (covariance_matrix). -/
def covarianceMatrix (hs : List (HS K)) (axes : List String) (means : List (String × K)) :
    Option (CNum (Mat K)) :=
  match resolve axes with
  | none => none
  | some gs =>
    let ms := meanVec axes means
    let W := bunchWeight hs
    if W = 0 ∧ hs ≠ [] then some .nonfinite
    else some (.fin ⟨axes.length, axes.length, hs.foldl (covStep gs ms W) (fun _ _ => 0)⟩)

/-- models Bunchcore.cc:152-159: the table 1, v, v*v, ... (`powers[k] *= powers[k-1]`). -/
def powers (v : K) : Nat → K
  | 0 => 1
  | k + 1 => v * powers v k

/-- models Bunchcore.cc:160-169: the contribution of one hit to one moment. -/
def tensorTerm (gs : List DGet) (W : K) (idx : List Nat) (h : HS K) : K :=
  ((gs.zip idx).foldl (fun m p => m * powers (p.1.eval h) p.2) h.totalWeight) / W

/-- models Bunchcore.cc:123-172 (get_moment_tensor). -/
def momentTensor (hs : List (HS K)) (axes : List String) (maxSize : Nat) : Option (List K) :=
  if axes.length = 0 ∨ maxSize = 0 then none
  else
    match resolve axes with
    | none => none
    | some gs =>
      let W := bunchWeight hs
      if |W| < 1 / 1000000000000000 then none
      else some ((indexByPower maxSize axes.length).map
        (fun idx => hs.foldl (fun acc h => acc + tensorTerm gs W idx h) 0))

/-- models PyBunchcore.cc:367-403 (Bunchcore.moment_tensor). -/
def pyMomentTensor (hs : List (HS K)) (axes : List String) (maxPower : Int) : Except Err (List K) :=
  if maxPower < 0 then .error .ValueError
  else
    match momentTensor hs axes maxPower.toNat with
    | none => .error .RuntimeError
    | some l => .ok l

/-- models the body of the loop of Bunchcore.cc:233-249; the comparator (PythonComparator.hh)
raises or returns something else than a bool: none. Simplified: it has no side effects. -/
def cutHit (g : DGet) (comp : K → K → Option Bool) (cut : K) (isGlobal : Bool) (s : HS K) :
    Option (HS K) :=
  match comp (g.eval s) cut with
  | none => none
  | some false => some s
  | some true =>
    if isGlobal then some (s.setGlobalWeight 0)
    else some { s with core := s.core.setD .local_weight 0 }

/-- models the loop of Bunchcore.cc:231-250; false when the comparator fails. -/
def cutLoop (g : DGet) (comp : K → K → Option Bool) (cut : K) (isGlobal : Bool) :
    Items → BWorld K → Bool × BWorld K
  | [], w => (true, w)
  | none :: r, w => cutLoop g comp cut isGlobal r w
  | some i :: r, w =>
    match cutHit g comp cut isGlobal (w.bview i) with
    | none => (false, w)
    | some s => cutLoop g comp cut isGlobal r (w.bput i s)

/-- models Bunchcore.cc:222-252 and PyBunchcore.cc:320-362 (Bunchcore.cut_double). -/
def cutDouble (l : Items) (var : String) (comp : K → K → Option Bool) (cut : K)
    (isGlobal : Bool) (w : BWorld K) : Except Err Unit × BWorld K :=
  match getDblMap.lookup var with
  | none => (.error .TypeError, w)
  | some g =>
    match cutLoop g comp cut isGlobal l w with
    | (true, w') => (.ok (), w')
    | (false, w') => (.error .TypeError, w')

end Bunchcore
end Xboa
