import Verif.Model.Bunchcore
/-
Model of class Bunch, xboa/bunch/_bunch.py: list operations, moments, means, covariances, cuts.

Simplified everywhere: variable names that contain the word 'amplitude' are not modelled
(get_hit_variable, _bunch.py:1270-1273), all numbers are field elements.
-/
namespace Xboa
variable {K : Type} [Field K] [LinearOrder K]

/-- models _bunch.py:73-78: __hits (numbers of Hit objects), __bunchcore (the Hitcore of Hit `i`
has number `i`), __covs, __means. -/
structure Bunch (K : Type) where
  hits : List Nat
  core : Bunchcore.Items
  covs : Option (Mat K)
  means : List (String × PyVal K)

namespace Bunch

/-- models _bunch.py:73-78. -/
def new : Bunch K := ⟨[], [], none, []⟩

/-! ### list operations -/

/-- Python list index: a negative one counts from the end. -/
def listIndex (len : Nat) (i : Int) : Except Err Nat :=
  let j := if i < 0 then i + len else i
  if 0 ≤ j ∧ j < len then .ok j.toNat else .error .IndexError

/-- models _bunch.py:119-121 (__getitem__). -/
def getItem (b : Bunch K) (i : Int) : Except Err Nat :=
  match listIndex b.hits.length i with
  | .error e => .error e
  | .ok k => .ok (b.hits.getD k 0)

/-- models _bunch.py:123-126 (__setitem__). -/
def setItem (b : Bunch K) (i : Int) (h : Nat) : Except Err Unit × Bunch K :=
  match listIndex b.hits.length i with
  | .error e => (.error e, b)
  | .ok k => (.ok (), { b with hits := b.hits.set k h, core := Bunchcore.pySetItem b.core h i })

/-- models _bunch.py:128-131 (__delitem__): Bunchcore has no __delitem__ (PyBunchcore.cc:449-471),
so an AttributeError follows the deletion from the list. -/
def delItem (b : Bunch K) (i : Int) : Except Err Unit × Bunch K :=
  match listIndex b.hits.length i with
  | .error e => (.error e, b)
  | .ok k => (.error .AttributeError, { b with hits := b.hits.eraseIdx k })

/-- models _bunch.py:161-164 (append). -/
def append (b : Bunch K) (h : Nat) : Bunch K :=
  { b with core := Bunchcore.pySetItem b.core h b.hits.length, hits := b.hits ++ [h] }

/-! ### reading hits -/

/-- `hit.get(v)` used as a number (_bunch.py:1261-1274). -/
def hitNum (E : Ext K) (w : BWorld K) (i : Nat) (v : String) : Except Err K :=
  (Hit.getNum E v (w.hview i)).1

/-- models _bunch.py:792-797 (bunch_weight); `get('weight')` is Hitcore's total weight. -/
def bunchWeight (w : BWorld K) (b : Bunch K) : K :=
  b.hits.foldl (fun a i => a + (w.hview i).totalWeight) 0

/-- `x - mean` for a Python value. -/
def pySub (x : K) : PyVal K → Except Err K
  | .flt v => .ok (x - v)
  | .int n => .ok (x - (n : K))
  | .cplx => .error .Unmodelled
  | .other => .error .TypeError

/-! ### moments -/

/-- models TypeConversions-inl.hh:53-62, 93-121 (dict of str to float; ints are rejected). -/
def floatDict : List (String × PyVal K) → Option (List (String × K))
  | [] => some []
  | (k, .flt v) :: r =>
    match floatDict r with
    | some r' => some ((k, v) :: r')
    | none => none
  | _ :: _ => none

/-- models PyBunchcore.cc:208-248 (Bunchcore.moment). -/
def coreMoment (w : BWorld K) (b : Bunch K) (vars : List String) (d : List (String × PyVal K)) :
    Except Err (CNum K) :=
  match floatDict d with
  | none => .error .TypeError
  | some means =>
    match Bunchcore.getMoment (Bunchcore.visits w b.core) vars means with
    | none => .error .ValueError
    | some r => .ok r

/-- models _bunch.py:698-700 (mean_list). -/
def meanList (d : List (String × PyVal K)) : List String → Except Err (List (PyVal K))
  | [] => .ok []
  | v :: r =>
    match d.lookup v with
    | none => .error .KeyError
    | some m =>
      match meanList d r with
      | .error e => .error e
      | .ok ms => .ok (m :: ms)

/-- models the inner loop of _bunch.py:703-705; `c` is the running `change`. -/
def pyChange (E : Ext K) (w : BWorld K) (i : Nat) : List (String × PyVal K) → K → Except Err K
  | [], c => .ok c
  | (v, m) :: r, c =>
    match hitNum E w i v with
    | .error e => .error e
    | .ok x =>
      match pySub x m with
      | .error e => .error e
      | .ok dx => pyChange E w i r (c * dx)

/-- models the loop of _bunch.py:702-706. -/
def pySum (E : Ext K) (w : BWorld K) (vm : List (String × PyVal K)) : List Nat → K → Except Err K
  | [], acc => .ok acc
  | i :: r, acc =>
    match pyChange E w i vm 1 with
    | .error e => .error e
    | .ok c => pySum E w vm r (acc + c * (w.hview i).totalWeight)

/-- models the except branch _bunch.py:697-707. -/
def pyMoment (E : Ext K) (w : BWorld K) (b : Bunch K) (vars : List String)
    (d : List (String × PyVal K)) : Except Err K :=
  match meanList d vars with
  | .error e => .error e
  | .ok ms =>
    match pySum E w (vars.zip ms) b.hits 0 with
    | .error e => .error e
    | .ok s => if bunchWeight w b = 0 then .error .ZeroDivisionError else .ok (s / bunchWeight w b)

/-- models _bunch.py:695-707: the C++ moment if it succeeds, else the Python one.  A non finite
C++ result is not modelled further. -/
def momentAbout (E : Ext K) (w : BWorld K) (b : Bunch K) (vars : List String)
    (d : List (String × PyVal K)) : Except Err K :=
  match coreMoment w b vars d with
  | .ok (.fin v) => .ok v
  | .ok .nonfinite => .error .Unmodelled
  | .error _ => pyMoment E w b vars d

/-- The list made by axis_list_to_covariance_list(Bunch.__axis_list), _bunch.py:1206-1217,
1148-1165, 1907. -/
def covNames (geo : Bool) : List String :=
  if geo then ["x", "x'", "y", "y'", "z", "z'", "t", "t'", "ct", "ct'"]
  else ["x", "px", "y", "py", "z", "pz", "t", "energy", "ct", "energy"]

/-- models _bunch.py:684-691: the internal covariance matrix, when one is set.  `covs != None`
compares a numpy matrix element by element, so its truth value raises ValueError unless it has
exactly one element. -/
def internalCov (w : BWorld K) (b : Bunch K) (vars : List String) : Except Err (Option K) :=
  match b.covs with
  | none => .ok none
  | some m =>
    if m.rows * m.cols ≠ 1 then .error .ValueError
    else
      match vars with
      | [v1, v2] =>
        let i1 := (covNames w.geo).idxOf v1
        let i2 := (covNames w.geo).idxOf v2
        if (covNames w.geo).length ≤ i1 ∨ (covNames w.geo).length ≤ i2 then .ok none
        else if i1 = 0 ∧ i2 = 0 then .ok (some (m.entry 0 0))
        else .error .IndexError
      | _ => .ok none

/-- `abs(bunch_weight) < 1e-9` of _bunch.py:683. -/
def weightTiny (W : K) : Prop := |W| < 1 / 1000000000
instance (W : K) : Decidable (weightTiny W) := inferInstanceAs (Decidable (_ < _))

/-- models _bunch.py:671-707 with a non empty mean dictionary. -/
def momentWith (E : Ext K) (w : BWorld K) (b : Bunch K) (vars : List String)
    (d : List (String × PyVal K)) : Except Err K :=
  if weightTiny (bunchWeight w b) then .error .ZeroDivisionError
  else
    match internalCov w b vars with
    | .error e => .error e
    | .ok (some v) => .ok v
    | .ok none => momentAbout E w b vars d

/-- models _bunch.py:709-724 (mean); `acc` is the dictionary built so far. -/
def meanLoop (E : Ext K) (w : BWorld K) (b : Bunch K) :
    List String → List (String × PyVal K) → Except Err (List (String × PyVal K))
  | [], acc => .ok acc
  | v :: r, acc =>
    match acc.lookup v with
    | some _ => meanLoop E w b r acc
    | none =>
      match b.means.lookup v with
      | some m => meanLoop E w b r (acc ++ [(v, m)])
      | none =>
        match momentWith E w b [v] [(v, .flt 0)] with
        | .error e => .error e
        | .ok m => meanLoop E w b r (acc ++ [(v, .flt m)])

/-- models _bunch.py:709-724 (mean). -/
def mean (E : Ext K) (w : BWorld K) (b : Bunch K) (vars : List String) :
    Except Err (List (String × PyVal K)) := meanLoop E w b vars []

/-- models _bunch.py:671-707 (moment): an empty mean dictionary is replaced by self.mean. -/
def moment (E : Ext K) (w : BWorld K) (b : Bunch K) (vars : List String)
    (d : List (String × PyVal K)) : Except Err K :=
  if weightTiny (bunchWeight w b) then .error .ZeroDivisionError
  else
    match internalCov w b vars with
    | .error e => .error e
    | .ok (some v) => .ok v
    | .ok none =>
      match d with
      | [] =>
        match mean E w b vars with
        | .error e => .error e
        | .ok d' => momentAbout E w b vars d'
      | _ => momentAbout E w b vars d

/-- models _bunch.py:738-743: complete the origin dictionary with means. -/
def originLoop (E : Ext K) (w : BWorld K) (b : Bunch K) :
    List String → List (String × PyVal K) → Except Err (List (String × PyVal K))
  | [], d => .ok d
  | v :: r, d =>
    match d.lookup v with
    | some _ => originLoop E w b r d
    | none =>
      match mean E w b [v] with
      | .error e => .error e
      | .ok m => originLoop E w b r (d ++ [(v, (m.lookup v).getD .other)])

/-- Assign one element of a numpy matrix. -/
def matSet (m : Mat K) (i j : Nat) (v : K) : Mat K :=
  { m with entry := fun a b => if a = i ∧ b = j then v else m.entry a b }

/-- models the loops of _bunch.py:752-756 over a list of index pairs. -/
def covLoop (E : Ext K) (w : BWorld K) (b : Bunch K) (vars : List String)
    (d : List (String × PyVal K)) : List (Nat × Nat) → Mat K → Except Err (Mat K)
  | [], m => .ok m
  | (i, j) :: r, m =>
    match moment E w b [vars.getD i "", vars.getD j ""] d with
    | .error e => .error e
    | .ok v => covLoop E w b vars d r (matSet (matSet m i j v) j i v)

/-- the index pairs of `for i1 in range(dim): for i2 in range(i1, dim)` -/
def upperPairs (dim : Nat) : List (Nat × Nat) :=
  (List.range dim).flatMap (fun i => (List.range' i (dim - i)).map (fun j => (i, j)))

/-- models _bunch.py:726-757 (covariance_matrix).  The call of Bunchcore.covariance_matrix in
lines 744-751 is given a list instead of a dict, raises TypeError (TypeConversions-inl.hh:100-103)
and is swallowed, so only the Python loop is reached. -/
def covarianceMatrix (E : Ext K) (w : BWorld K) (b : Bunch K) (vars : List String)
    (origin : List (String × PyVal K)) : Except Err (Mat K) :=
  match originLoop E w b vars origin with
  | .error e => .error e
  | .ok d => covLoop E w b vars d (upperPairs vars.length) ⟨vars.length, vars.length, fun _ _ => 0⟩

/-! ### cuts -/

/-- Names of Hitcore.get_variables() whose value in a fresh Hit is a float, _bunch.py:833. -/
def dblCutNames : List String :=
  ["x", "y", "z", "t", "px", "py", "pz", "energy", "bx", "by", "bz", "ex", "ey", "ez",
   "sx", "sy", "sz", "path_length", "proper_time", "e_dep", "charge", "mass",
   "local_weight", "global_weight"]

/-- models list_get_hit_variable([variable])[0], _bunch.py:1276-1302. -/
def listGet (E : Ext K) (w : BWorld K) (v : String) : List Nat → Except Err (List K)
  | [] => .ok []
  | i :: r =>
    match hitNum E w i v with
    | .error e => .error e
    | .ok x =>
      match listGet E w v r with
      | .error e => .error e
      | .ok xs => .ok (x :: xs)

/-- `hit.set(set_var, 0)` (_bunch.py:844). -/
def setZero (E : Ext K) (w : BWorld K) (i : Nat) (isGlobal : Bool) : Except Err Unit × BWorld K :=
  match Hit.set E (if isGlobal then "global_weight" else "local_weight") (.int 0) (w.hview i) with
  | (r, s) => (r, w.hput i s)

/-- models the loop of _bunch.py:842-844 over hits and their values. -/
def pyCutLoop (E : Ext K) (comp : K → K → Option Bool) (cut : K) (isGlobal : Bool) :
    List (Nat × K) → BWorld K → Except Err Unit × BWorld K
  | [], w => (.ok (), w)
  | (i, x) :: r, w =>
    match comp x cut with
    | none => (.error .TypeError, w)
    | some false => pyCutLoop E comp cut isGlobal r w
    | some true =>
      match setZero E w i isGlobal with
      | (.error e, w') => (.error e, w')
      | (.ok _, w') => pyCutLoop E comp cut isGlobal r w'

/-- models _bunch.py:840-844 (_cut). -/
def pyCut (E : Ext K) (b : Bunch K) (v : String) (comp : K → K → Option Bool) (cut : K)
    (isGlobal : Bool) (w : BWorld K) : Except Err Unit × BWorld K :=
  match listGet E w v b.hits with
  | .error e => (.error e, w)
  | .ok xs => pyCutLoop E comp cut isGlobal (b.hits.zip xs) w

/-- models the body of the loop of _bunch.py:829-838 for value_is_nsigma_bool = False. -/
def cut1 (E : Ext K) (b : Bunch K) (v : String) (comp : K → K → Option Bool) (cut : K)
    (isGlobal : Bool) (w : BWorld K) : Except Err Unit × BWorld K :=
  if dblCutNames.contains v then Bunchcore.cutDouble b.core v comp cut isGlobal w
  else pyCut E b v comp cut isGlobal w

/-- models _bunch.py:814-838 (cut) for value_is_nsigma_bool = False. -/
def cut (E : Ext K) (b : Bunch K) (comp : K → K → Option Bool) (isGlobal : Bool) :
    List (String × K) → BWorld K → Except Err Unit × BWorld K
  | [], w => (.ok (), w)
  | (v, c) :: r, w =>
    match cut1 E b v comp c isGlobal w with
    | (.error e, w') => (.error e, w')
    | (.ok _, w') => cut E b comp isGlobal r w'

/-- models the loop of _bunch.py:633-637. -/
def keepLoop (comp : K → K → Option Bool) (cut : K) : List (Nat × K) → Except Err (List Nat)
  | [] => .ok []
  | (i, x) :: r =>
    match comp x cut with
    | none => .error .TypeError
    | some c =>
      match keepLoop comp cut r with
      | .error e => .error e
      | .ok l => .ok (if c then l else i :: l)

/-- models _bunch.py:639-641: a new Bunchcore filled with set_item(.., i). -/
def refill (hits : List Nat) : Bunchcore.Items :=
  (hits.zipIdx).foldl (fun l p => Bunchcore.pySetItem l p.1 (p.2 : Int)) []

/-- models the body of the loop of _bunch.py:628-641 for value_is_nsigma_bool = False. -/
def conditionalRemove1 (E : Ext K) (w : BWorld K) (v : String) (comp : K → K → Option Bool)
    (cut : K) (b : Bunch K) : Except Err Unit × Bunch K :=
  match listGet E w v b.hits with
  | .error e => (.error e, b)
  | .ok xs =>
    match keepLoop comp cut (b.hits.zip xs) with
    | .error e => (.error e, b)
    | .ok l => (.ok (), { b with hits := l, core := refill l })

/-- models _bunch.py:613-641 (conditional_remove) for value_is_nsigma_bool = False. -/
def conditionalRemove (E : Ext K) (w : BWorld K) (comp : K → K → Option Bool) :
    List (String × K) → Bunch K → Except Err Unit × Bunch K
  | [], b => (.ok (), b)
  | (v, c) :: r, b =>
    match conditionalRemove1 E w v comp c b with
    | (.error e, b') => (.error e, b')
    | (.ok _, b') => conditionalRemove E w comp r b'

end Bunch
end Xboa
