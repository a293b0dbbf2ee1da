import Verif.Model.BunchList
/-
Model of Bunch.__repr__, __deepcopy__, new_from_hits (xboa/bunch/_bunch.py:84-113, 166-181)
with the state of the hits and of the weights.

Simplified: `eval(repr(x))` is x for the numbers of a hit and for __means (finite Python floats and
ints; the infinities and nan have no literal and raise NameError).
-/
namespace Xboa
namespace BunchCopy
variable {K : Type} [Field K] [LinearOrder K] (E : Ext K)

/-- models the evaluation of `[Hit.new_from_dict({...}), ...]`, _bunch.py:90-91 and 105; the new hits
are the objects `k`, `k + 1`, ... -/
def evalHits : List (List (String × PyVal K)) → Nat → BWorld K → Except Err (List Nat) × BWorld K
  | [], _, w => (.ok [], w)
  | d :: r, k, w =>
    match w.onHit k (Hit.new_from_dict E d "") with
    | (.error e, w') => (.error e, w')
    | (.ok _, w') =>
      match evalHits r (k + 1) w' with
      | (.error e, w'') => (.error e, w'')
      | (.ok l, w'') => (.ok (k :: l), w'')

/-- models the loop of _bunch.py:176-178 (new_from_hits). -/
def copyLoop : List Nat → Nat → Bunch K → BWorld K → Except Err (Bunch K) × BWorld K
  | [], _, b, w => (.ok b, w)
  | i :: r, k, b, w =>
    match w.onHit k (Hit.new_from_dict E (Hit.dict_from_hit (w.hview i)) "") with
    | (.error e, w') => (.error e, w')
    | (.ok _, w') => copyLoop r (k + 1) (b.append k) w'

/-- models _bunch.py:166-181 (new_from_hits); the copies are the objects `first`, `first + 1`, ... -/
def newFromHits (hits : List Nat) (covs : Option (Mat K)) (means : List (String × PyVal K))
    (first : Nat) (w : BWorld K) : Except Err (Bunch K) × BWorld K :=
  match copyLoop E hits first Bunch.new w with
  | (.error e, w') => (.error e, w')
  | (.ok b, w') => (.ok { b with covs := covs, means := means }, w')

/-- models the truth value `self.__covs != None` of _bunch.py:87: an array of several elements has
none (ValueError); that of an empty array depends on the version of numpy. -/
def covsTest : Option (Mat K) → Except Err Unit
  | none => .ok ()
  | some m =>
    if m.rows * m.cols = 1 then .ok ()
    else if m.rows * m.cols = 0 then .error .Unmodelled
    else .error .ValueError

/-- models _bunch.py:84-93 and 103-113 (deepcopy).  `repr` reads all the hits, `eval` makes hits from
them (the objects `first`, ...), new_from_hits copies these (the objects `first + len`, ...). -/
def deepcopy (b : Bunch K) (first : Nat) (w : BWorld K) : Except Err (Bunch K) × BWorld K :=
  match covsTest b.covs with
  | .error e => (.error e, w)
  | .ok _ =>
    match evalHits E (b.hits.map fun i => Hit.dict_from_hit (w.hview i)) first w with
    | (.error e, w') => (.error e, w')
    | (.ok l, w') => newFromHits E l b.covs b.means (first + l.length) w'

end BunchCopy
end Xboa
