import Verif.Model.Bunch
import Mathlib.Algebra.Order.Floor.Defs
/-
Model of more methods of class Bunch, xboa/bunch/_bunch.py: histories of list operations, split,
__eq__, transmission_cut, period_transformation, translate, abelian_transformation.
-/
namespace Xboa
variable {K : Type} [Field K] [LinearOrder K]

/-- Run a method of hit `i` called from Python. -/
def BWorld.onHit {α : Type} (w : BWorld K) (i : Nat) (m : PyM (HS K) α) : Except Err α × BWorld K :=
  match m (w.hview i) with
  | (r, s) => (r, w.hput i s)

namespace Bunch

/-! ### histories -/

/-- models the append loop of _bunch.py:174-178 (new_from_hits); `hits` are the fresh copies. -/
def newFromHits (hits : List Nat) (covs : Option (Mat K)) (means : List (String × PyVal K)) : Bunch K :=
  { hits.foldl (fun b h => b.append h) (new : Bunch K) with covs := covs, means := means }

/-- Operations of a user on one bunch variable. -/
inductive LOp (K : Type)
  | append (h : Nat)
  | setItem (i : Int) (h : Nat)
  | delItem (i : Int)
  | remove (v : String) (comp : K → K → Option Bool) (cut : K)
  | copy (hits : List Nat)   -- b = b.deepcopy() or Bunch.new_from_hits(list)

/-- One operation; `w` is the state of the hits at that moment. -/
def lstep (E : Ext K) (b : Bunch K) (w : BWorld K) : LOp K → Bunch K
  | .append h => b.append h
  | .setItem i h => (b.setItem i h).2
  | .delItem i => (b.delItem i).2
  | .remove v comp c => (conditionalRemove E w comp [(v, c)] b).2
  | .copy hits => newFromHits hits b.covs b.means

/-- A history, with the state of the hits at each operation. -/
def lrun (E : Ext K) (b : Bunch K) (ops : List (BWorld K × LOp K)) : Bunch K :=
  ops.foldl (fun b p => lstep E b p.1 p.2) b

/-! ### split -/

/-- Python `int(x)` of a float: towards zero. -/
def pyInt [FloorRing K] (x : K) : Int := if x < 0 then ⌈x⌉ else ⌊x⌋

/-- `if not k in d: d[k] = Bunch()` then `d[k].append(hit)`, _bunch.py:236-238. -/
def dictAppend (d : List (Int × Bunch K)) (k : Int) (h : Nat) : List (Int × Bunch K) :=
  match d with
  | [] => [(k, append new h)]
  | (k', b) :: r => if k = k' then (k', b.append h) :: r else (k', b) :: dictAppend r k h

/-- models the loop of _bunch.py:233-239 (split); hit.check() has no effect. -/
def splitLoop [FloorRing K] (E : Ext K) (w : BWorld K) (v : String) :
    List Nat → List (Int × Bunch K) → Except Err (List (Int × Bunch K))
  | [], d => .ok d
  | i :: r, d =>
    match hitNum E w i v with
    | .error e => .error e
    | .ok x => splitLoop E w v r (dictAppend d (pyInt x) i)

/-- models _bunch.py:216-239 (split). -/
def split [FloorRing K] (E : Ext K) (w : BWorld K) (v : String) (b : Bunch K) :
    Except Err (List (Int × Bunch K)) := splitLoop E w v b.hits []

/-! ### equality -/

/-- models _bunch.py:143-145: means compared over the keys of self. -/
def meansEq (tol : K) (target : List (String × PyVal K)) : List (String × PyVal K) → Except Err Bool
  | [] => .ok true
  | (k, v) :: r =>
    match target.lookup k with
    | none => .ok false
    | some u =>
      match v, u with
      | .flt a, .flt c => if tol < |a - c| then .ok false else meansEq tol target r
      | .flt a, .int c => if tol < |a - (c : K)| then .ok false else meansEq tol target r
      | .int a, .flt c => if tol < |(a : K) - c| then .ok false else meansEq tol target r
      | .int a, .int c => if tol < |((a - c : Int) : K)| then .ok false else meansEq tol target r
      | _, _ => .error .TypeError

/-- models _bunch.py:146-152: `some b` = return b here, `none` = go on to compare hits.
None against None: all(True) is a TypeError, then None != None is False.  A matrix compares element
by element and the truth value of a row of length other than 1 is a ValueError, as is that of the
matrix in `!=`, so that True is returned.  Different shapes depend on the numpy version. -/
def covsEq (a b : Option (Mat K)) : Except Err (Option Bool) :=
  match a, b with
  | none, none => .ok none
  | some m, none => oneNone m
  | none, some m => oneNone m
  | some m, some m' =>
    if m.rows = m'.rows ∧ m.cols = m'.cols then
      if m.rows = 0 then .ok none
      else if m.cols = 1 then
        .ok (if (List.range m.rows).all (fun i => decide (m.entry i 0 = m'.entry i 0)) then none
          else some false)
      else .ok (some true)
    else .error .Unmodelled
where
  /-- a matrix compared with None -/
  oneNone (m : Mat K) : Except Err (Option Bool) :=
    if m.rows = 0 then .ok none
    else if m.cols = 1 then .ok (some false)
    else .ok (some true)

/-- models _bunch.py:139-155 (__eq__) for two bunches. -/
def eq (w : BWorld K) (tol : K) (a b : Bunch K) : Except Err Bool :=
  if a.hits.length ≠ b.hits.length then .ok false
  else
    match meansEq tol b.means a.means with
    | .error e => .error e
    | .ok false => .ok false
    | .ok true =>
      match covsEq a.covs b.covs with
      | .error e => .error e
      | .ok (some r) => .ok r
      | .ok none => .ok ((a.hits.zip b.hits).all
          (fun p => Hit.eq (w.ctx w.hcur) (w.hits p.1) (w.hits p.2) tol))

/-! ### transmission_cut -/

/-- `[hit[var] for var in vars]` -/
def rowOf (E : Ext K) (w : BWorld K) (i : Nat) : List String → Except Err (List K)
  | [] => .ok []
  | v :: r =>
    match hitNum E w i v with
    | .error e => .error e
    | .ok x =>
      match rowOf E w i r with
      | .error e => .error e
      | .ok xs => .ok (x :: xs)

/-- models _bunch.py:865-867: the table of the test bunch. -/
def rowsOf (E : Ext K) (w : BWorld K) (vars : List String) : List Nat → Except Err (List (List K))
  | [] => .ok []
  | i :: r =>
    match rowOf E w i vars with
    | .error e => .error e
    | .ok x =>
      match rowsOf E w vars r with
      | .error e => .error e
      | .ok xs => .ok (x :: xs)

/-- Python `a < b` of two lists of numbers. -/
def lexLt : List K → List K → Bool
  | [], [] => false
  | [], _ :: _ => true
  | _ :: _, [] => false
  | a :: r, b :: s => if a = b then lexLt r s else decide (a < b)

/-- `list.sort()`: insertion before the first larger element. -/
def insertRow (x : List K) : List (List K) → List (List K)
  | [] => [x]
  | y :: r => if lexLt x y then x :: y :: r else y :: insertRow x r

/-- models `hit_list.sort()`, _bunch.py:868 (a stable sort; equal rows are indistinguishable). -/
def sortRows : List (List K) → List (List K)
  | [] => []
  | x :: r => insertRow x (sortRows r)

/-- models bisect.bisect_left(a, x, lo, hi) of the Python library: `n` bounds the number of steps. -/
def bisectLeft (a : List (List K)) (x : List K) : Nat → Nat → Nat → Nat
  | 0, lo, _ => lo
  | n + 1, lo, hi =>
    if lo < hi then
      let mid := (lo + hi) / 2
      if lexLt (a.getD mid []) x then bisectLeft a x n (mid + 1) hi
      else bisectLeft a x n lo mid
    else lo

/-- `sum([abs(a[i]-b[i]) for i in range(len(b))])` -/
def rowDist (a b : List K) : K := ((a.zip b).map (fun p => |p.1 - p.2|)).sum

/-- models _bunch.py:872-881: whether the weight is kept. -/
def transKeep (tol : K) (tab : List (List K)) (x : List K) : Bool :=
  let n := bisectLeft tab x tab.length 0 tab.length
  (decide (n < tab.length) && decide (rowDist (tab.getD n []) x < tol)) ||
  (decide (n + 1 < tab.length) && decide (rowDist (tab.getD (n + 1) []) x < tol))

/-- the variable whose value is changed, _bunch.py:860-861 -/
def wtName (isGlobal : Bool) : String := if isGlobal then "global_weight" else "local_weight"

/-- models the loop of _bunch.py:869-882. -/
def transLoop (E : Ext K) (tol : K) (tab : List (List K)) (vars : List String) (isGlobal : Bool) :
    List Nat → BWorld K → Except Err Unit × BWorld K
  | [], w => (.ok (), w)
  | i :: r, w =>
    match rowOf E w i vars with
    | .error e => (.error e, w)
    | .ok x =>
      match hitNum E w i (wtName isGlobal) with
      | .error e => (.error e, w)
      | .ok wt =>
        let v : PyVal K := if transKeep tol tab x then .flt wt else .int 0
        match w.onHit i (Hit.set E (wtName isGlobal) v) with
        | (.error e, w') => (.error e, w')
        | (.ok _, w') => transLoop E tol tab vars isGlobal r w'

/-- models _bunch.py:846-882 (transmission_cut). -/
def transmissionCut (E : Ext K) (tol : K) (test b : Bunch K) (vars : List String) (isGlobal : Bool)
    (w : BWorld K) : Except Err Unit × BWorld K :=
  match rowsOf E w vars test.hits with
  | .error e => (.error e, w)
  | .ok rows => transLoop E tol (sortRows rows) vars isGlobal b.hits w

/-! ### transformations -/

/-- models _bunch.py:499-500 (translate). -/
def translate (E : Ext K) (d : List (String × PyVal K)) (msv : String) :
    List Nat → BWorld K → Except Err Unit × BWorld K
  | [], w => (.ok (), w)
  | i :: r, w =>
    match w.onHit i (Hit.translate E d msv) with
    | (.error e, w') => (.error e, w')
    | (.ok _, w') => translate E d msv r w'

/-- models _bunch.py:522-523 (abelian_transformation). -/
def abelian (E : Ext K) (vars : List String) (R : Mat K) (t o : List (String × K)) (msv : String) :
    List Nat → BWorld K → Except Err Unit × BWorld K
  | [], w => (.ok (), w)
  | i :: r, w =>
    match w.onHit i (Hit.abelian_transformation E vars R t o msv) with
    | (.error e, w') => (.error e, w')
    | (.ok _, w') => abelian E vars R t o msv r w'

/-- `hit[variable] -= a` -/
def subAssign (E : Ext K) (v : String) (a : K) : PyM (HS K) Unit := do
  let x ← Hit.getNum E v
  Hit.set E v (.flt (x - a))

/-- models the body of the loop of _bunch.py:574-578. -/
def periodOne [FloorRing K] (E : Ext K) (v : String) (offset frequency : K) : PyM (HS K) Unit := do
  subAssign E v offset
  let x ← Hit.getNum E v
  if frequency = 0 then PyM.raise .ZeroDivisionError
  else subAssign E v ((⌊x * frequency + 1 / 2⌋ : K) / frequency)

/-- models _bunch.py:562-578 (period_transformation). -/
def period [FloorRing K] (E : Ext K) (v : String) (offset frequency : K) :
    List Nat → BWorld K → Except Err Unit × BWorld K
  | [], w => (.ok (), w)
  | i :: r, w =>
    match w.onHit i (periodOne E v offset frequency) with
    | (.error e, w') => (.error e, w')
    | (.ok _, w') => period E v offset frequency r w'

end Bunch
end Xboa
