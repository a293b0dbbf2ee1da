import Verif.Model.BunchMore
/-
Model of the amplitude variables of class Bunch, xboa/bunch/_bunch.py: convert_string_to_axis_list,
get_amplitude with all arguments, get_hit_variable, list_get_hit_variable, and moment, mean, cut and
conditional_remove for variables that may be amplitudes ('amplitude x y').
-/
namespace Xboa.Amp
variable {K : Type} [Field K] [LinearOrder K]
open Bunch

/-- `s.split(' ')` on the characters of a string. -/
def splitSpace : List Char → List (List Char)
  | [] => [[]]
  | c :: r =>
    match splitSpace r with
    | [] => [[]]
    | p :: ps => if c = ' ' then [] :: p :: ps else (c :: p) :: ps

/-- models _bunch.py:1219-1235 (convert_string_to_axis_list).  `ev s` is `eval(s)` in line 1229: none
when it raises, else the list of strings it makes (any other value is not modelled). -/
def convertAxes (ev : String → Option (List String)) (s : String) : Except Err (List String) :=
  let l := match ev s with
    | some l => l
    | none => (splitSpace s.toList).map String.ofList
  if l.all (axisList.contains ·) then .ok l else .error .KeyError

/-- `variable_name.find('amplitude') > -1`, _bunch.py:1271, 1293 -/
def isAmplitude (v : String) : Bool := decide ("amplitude".toList <:+: v.toList)

/-- `variable_name[10:len(variable_name)]`, _bunch.py:1272, 1294 -/
def axisPart (v : String) : String := String.ofList (v.toList.drop 10)

/-- models _bunch.py:1895-1903 (__mean_picker); `cl` is the list of line 1898. -/
def meanPicker (b : Bunch K) (cl : List String) : List (String × PyVal K) :=
  if b.means.isEmpty then []
  else
    match cl.mapM (fun v => (b.means.lookup v).map fun m => (v, m)) with
    | some d => d
    | none => []

/-- models _bunch.py:1167-1202 (get_amplitude); geometric is the global flag.  `cov` and `d` are the
arguments covariance_matrix and mean_dict. -/
def getAmplitudeWith (L : LinAlg K) (E : Ext K) (w : BWorld K) (b : Bunch K) (hit : Nat)
    (axes : List String) (cov : Option (Mat K)) (d : List (String × PyVal K)) : Except Err K := do
  let cl ← covList w.geo axes
  let d ← if d.isEmpty then
      (if (meanPicker b cl).isEmpty then mean E w b cl else .ok (meanPicker b cl))
    else .ok d
  let means ← numDict d
  let v ← (Hit.get_vector E cl means (w.hview hit)).1
  let M ← emitCov E w b cl cov
  match L.inv M with
  | none => .error .LinAlgError
  | some N =>
    if N.rows ≠ v.length then .error .ValueError
    else do
      let eps ← getEmittance L E w b axes (some M)
      .ok (quad N v * eps)

/-- models _bunch.py:1261-1274 (get_hit_variable). -/
def hitVariable (L : LinAlg K) (E : Ext K) (ev : String → Option (List String)) (w : BWorld K)
    (b : Bunch K) (hit : Nat) (v : String) (cov : Option (Mat K)) (d : List (String × PyVal K)) :
    Except Err K :=
  if isAmplitude v then
    match convertAxes ev (axisPart v) with
    | .error e => .error e
    | .ok axes => getAmplitudeWith L E w b hit axes cov d
  else hitNum E w hit v

/-- models the loop of _bunch.py:1298-1299 -/
def collectHits (f : Nat → Except Err K) : List Nat → Except Err (List K)
  | [] => .ok []
  | i :: r =>
    match f i with
    | .error e => .error e
    | .ok x =>
      match collectHits f r with
      | .error e => .error e
      | .ok xs => .ok (x :: xs)

/-- models list_get_hit_variable([variable])[0], _bunch.py:1276-1302, without units. -/
def listGetVar (L : LinAlg K) (E : Ext K) (ev : String → Option (List String)) (w : BWorld K)
    (b : Bunch K) (v : String) : Except Err (List K) :=
  if isAmplitude v then
    match convertAxes ev (axisPart v) with
    | .error e => .error e
    | .ok axes =>
      match covList w.geo axes with
      | .error e => .error e
      | .ok cl =>
        match covarianceMatrix E w b cl [] with
        | .error e => .error e
        | .ok M =>
          match mean E w b cl with
          | .error e => .error e
          | .ok d => collectHits (fun i => hitVariable L E ev w b i v (some M) d) b.hits
  else collectHits (fun i => hitVariable L E ev w b i v none []) b.hits

/-! ### moments -/

/-- models the inner loop of _bunch.py:703-705 -/
def changeVar (f : String → Except Err K) : List (String × PyVal K) → K → Except Err K
  | [], c => .ok c
  | (v, m) :: r, c =>
    match f v with
    | .error e => .error e
    | .ok x =>
      match pySub x m with
      | .error e => .error e
      | .ok dx => changeVar f r (c * dx)

/-- models the loop of _bunch.py:702-706 -/
def sumVar (L : LinAlg K) (E : Ext K) (ev : String → Option (List String)) (w : BWorld K)
    (b : Bunch K) (vm : List (String × PyVal K)) : List Nat → K → Except Err K
  | [], acc => .ok acc
  | i :: r, acc =>
    match changeVar (fun v => hitVariable L E ev w b i v none []) vm 1 with
    | .error e => .error e
    | .ok c => sumVar L E ev w b vm r (acc + c * (w.hview i).totalWeight)

/-- models _bunch.py:671-707 (moment) with a non empty mean dictionary, for variables that may be
amplitudes. -/
def momentVar (L : LinAlg K) (E : Ext K) (ev : String → Option (List String)) (w : BWorld K)
    (b : Bunch K) (vars : List String) (d : List (String × PyVal K)) : Except Err K :=
  if weightTiny (bunchWeight w b) then .error .ZeroDivisionError
  else
    match internalCov w b vars with
    | .error e => .error e
    | .ok (some v) => .ok v
    | .ok none =>
      match coreMoment w b vars d with
      | .ok (.fin v) => .ok v
      | .ok .nonfinite => .error .Unmodelled
      | .error _ =>
        match meanList d vars with
        | .error e => .error e
        | .ok ms =>
          match sumVar L E ev w b (vars.zip ms) b.hits 0 with
          | .error e => .error e
          | .ok s =>
            if bunchWeight w b = 0 then .error .ZeroDivisionError else .ok (s / bunchWeight w b)

/-- models _bunch.py:709-724 (mean) of one variable that may be an amplitude. -/
def meanVar (L : LinAlg K) (E : Ext K) (ev : String → Option (List String)) (w : BWorld K)
    (b : Bunch K) (v : String) : Except Err (PyVal K) :=
  match b.means.lookup v with
  | some m => .ok m
  | none =>
    match momentVar L E ev w b [v] [(v, .flt 0)] with
    | .error e => .error e
    | .ok m => .ok (.flt m)

/-! ### cuts -/

/-- models _bunch.py:830-831: the cut value; `nsigma` is value_is_nsigma_bool. -/
def cutValue (L : LinAlg K) (E : Ext K) (ev : String → Option (List String)) (w : BWorld K)
    (b : Bunch K) (v : String) (nsigma : Bool) (c : K) : Except Err K :=
  if nsigma then
    match meanVar L E ev w b v with
    | .error e => .error e
    | .ok m =>
      match momentVar L E ev w b [v, v] [(v, m)] with
      | .error e => .error e
      | .ok x => if x < 0 then .error .Unmodelled else .ok (c * E.sqrt x)
  else .ok c

/-- models _bunch.py:829-844: the body of the loop of cut. -/
def cutVar1 (L : LinAlg K) (E : Ext K) (ev : String → Option (List String)) (b : Bunch K)
    (v : String) (comp : K → K → Option Bool) (nsigma isGlobal : Bool) (c : K) (w : BWorld K) :
    Except Err Unit × BWorld K :=
  match cutValue L E ev w b v nsigma c with
  | .error e => (.error e, w)
  | .ok c' =>
    if dblCutNames.contains v then Bunchcore.cutDouble b.core v comp c' isGlobal w
    else
      match listGetVar L E ev w b v with
      | .error e => (.error e, w)
      | .ok xs => pyCutLoop E comp c' isGlobal (b.hits.zip xs) w

/-- models _bunch.py:814-838 (cut) -/
def cutVar (L : LinAlg K) (E : Ext K) (ev : String → Option (List String)) (b : Bunch K)
    (comp : K → K → Option Bool) (nsigma isGlobal : Bool) :
    List (String × K) → BWorld K → Except Err Unit × BWorld K
  | [], w => (.ok (), w)
  | (v, c) :: r, w =>
    match cutVar1 L E ev b v comp nsigma isGlobal c w with
    | (.error e, w') => (.error e, w')
    | (.ok _, w') => cutVar L E ev b comp nsigma isGlobal r w'

/-- models _bunch.py:628-641: the body of the loop of conditional_remove for value_is_nsigma_bool
False. -/
def removeVar1 (L : LinAlg K) (E : Ext K) (ev : String → Option (List String)) (w : BWorld K)
    (v : String) (comp : K → K → Option Bool) (c : K) (b : Bunch K) : Except Err Unit × Bunch K :=
  match listGetVar L E ev w b v with
  | .error e => (.error e, b)
  | .ok xs =>
    match keepLoop comp c (b.hits.zip xs) with
    | .error e => (.error e, b)
    | .ok l => (.ok (), { b with hits := l, core := refill l })

/-- models _bunch.py:613-641 (conditional_remove) for value_is_nsigma_bool False. -/
def removeVar (L : LinAlg K) (E : Ext K) (ev : String → Option (List String)) (w : BWorld K)
    (comp : K → K → Option Bool) : List (String × K) → Bunch K → Except Err Unit × Bunch K
  | [], b => (.ok (), b)
  | (v, c) :: r, b =>
    match removeVar1 L E ev w v comp c b with
    | (.error e, b') => (.error e, b')
    | (.ok _, b') => removeVar L E ev w comp r b'

end Xboa.Amp
