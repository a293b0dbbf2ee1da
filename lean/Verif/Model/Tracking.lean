import Verif.Model.HitTransform
/-
Model of xboa/tracking: TrackingBase (_tracking_base.py), MatrixTracking (_matrix_tracking.py) and
MultiTrack (_multitrack.py).
-/
namespace Xboa
variable {K : Type} [Field K] [LinearOrder K]

namespace Tracking

/-- An argument given for a matrix: a numpy.matrix or something else. -/
inductive MatArg (K : Type) where
  | mat (M : Mat K)
  | other

/-- The attributes of a MatrixTracking; a hit is given by its Hitcore. -/
structure MatrixTracking (K : Type) where
  tms : List (Mat K)
  offsets : List (Mat K)
  offsetIn : Mat K
  last : List (List (Core K))

/-- models the loops _matrix_tracking.py:50-63: every element is a matrix of the given shape. -/
def checkAll (rows cols : Nat) : List (MatArg K) → Except Err (List (Mat K))
  | [] => .ok []
  | .other :: _ => .error .TypeError
  | .mat M :: r =>
    if M.rows ≠ rows ∨ M.cols ≠ cols then .error .TypeError
    else
      match checkAll rows cols r with
      | .error e => .error e
      | .ok l => .ok (M :: l)

/-- models _matrix_tracking.py:36-66 (__init__), for lists of arguments. -/
def newMatrixTracking (tms offsets : List (MatArg K)) (offsetIn : MatArg K) :
    Except Err (MatrixTracking K) :=
  if offsets.length ≠ tms.length then .error .IndexError
  else
    match checkAll 1 6 (offsets ++ [offsetIn]) with
    | .error e => .error e
    | .ok offs =>
      match checkAll 6 6 tms with
      | .error e => .error e
      | .ok ms => .ok ⟨ms, offs.dropLast, offs.getLastD ⟨1, 6, fun _ _ => 0⟩, []⟩

/-- The variables of _matrix_tracking.py:80-86. -/
def keys : List String := ["x", "px", "y", "py", "t", "energy"]

/-- models _matrix_tracking.py:86-87 for the keys from number `i` on. -/
def assign (E : Ext K) (vec : Nat → K) : Nat → List String → PyM (HS K) Unit
  | _, [] => return ()
  | i, key :: r => do
    Hit.set E key (.flt (vec i))
    assign E vec (i + 1) r

/-- models _matrix_tracking.py:79-89, one output hit; `s` is the input hit and the weight context.
numpy's matrix operations on the shapes checked by the constructor do not fail. -/
def trackStep (E : Ext K) (tm off offIn : Mat K) : PyM (HS K) (Core K) := fun s =>
  match Hit.get_vector E keys [] s with
  | (.error e, s) => (.error e, s)
  | (.ok vec, s) =>
    let vin := fun j => vec.getD j 0 - offIn.entry 0 j
    let vout := fun i => (∑ j ∈ Finset.range 6, tm.entry i j * vin j) + off.entry 0 i
    match Hit.deepcopy E s with
    | (.error e, c) => (.error e, ⟨s.core, c.wc⟩)
    | (.ok (), c) =>
      match assign E vout 0 keys c with
      | (.error e, c) => (.error e, ⟨s.core, c.wc⟩)
      | (.ok (), c) =>
        match Hit.mass_shell_condition E "pz" c with
        | (.error e, c) => (.error e, ⟨s.core, c.wc⟩)
        | (.ok _, c) => (.ok c.core, ⟨s.core, c.wc⟩)

/-- models the loop _matrix_tracking.py:78-89. -/
def trackLoop (E : Ext K) (offIn : Mat K) : List (Mat K) → List (Mat K) → PyM (HS K) (List (Core K))
  | [], _ => return []
  | _ :: _, [] => PyM.raise .IndexError
  | tm :: tms, off :: offs => do
    let c ← trackStep E tm off offIn
    let l ← trackLoop E offIn tms offs
    return c :: l

/-- models _matrix_tracking.py:68-91 (track_one): the result, the tracking object, and the input hit
with the weight context. -/
def trackOne (E : Ext K) (T : MatrixTracking K) (s : HS K) :
    Except Err (List (Core K)) × MatrixTracking K × HS K :=
  match Hit.deepcopy E s with
  | (.error e, c) => (.error e, T, ⟨s.core, c.wc⟩)
  | (.ok (), c) =>
    match trackLoop E T.offsetIn T.tms T.offsets ⟨s.core, c.wc⟩ with
    | (.error e, s) => (.error e, T, s)
    | (.ok l, s) => (.ok (c.core :: l), { T with last := [c.core :: l] }, s)

/-- models the comprehension of _tracking_base.py:59: `hits` are the input hits (their Hitcores),
all different objects, the weight context is shared. -/
def trackManyLoop (E : Ext K) : MatrixTracking K → WC K → List (Core K) →
    Except Err (List (List (Core K))) × MatrixTracking K × WC K
  | T, wc, [] => (.ok [], T, wc)
  | T, wc, h :: r =>
    match trackOne E T ⟨h, wc⟩ with
    | (.error e, T, s) => (.error e, T, s.wc)
    | (.ok l, T, s) =>
      match trackManyLoop E T s.wc r with
      | (.error e, T, wc) => (.error e, T, wc)
      | (.ok ls, T, wc) => (.ok (l :: ls), T, wc)

/-- models _tracking_base.py:46-61 (track_many) as inherited by MatrixTracking. -/
def trackMany (E : Ext K) (T : MatrixTracking K) (wc : WC K) (hits : List (Core K)) :
    Except Err (List (List (Core K))) × MatrixTracking K × WC K :=
  match trackManyLoop E T wc hits with
  | (.error e, T, wc) => (.error e, T, wc)
  | (.ok ls, T, wc) => (.ok ls, { T with last := ls }, wc)

/-! ### MultiTrack -/

/-- Major version of the Python interpreter, as far as `/` is concerned. -/
inductive PyVer | py2 | py3
deriving DecidableEq

/-- `a / b` for two Python ints. -/
def pyIntDiv : PyVer → Int → Int → Except Err (PyVal ℚ)
  | v, a, b =>
    if b = 0 then .error .ZeroDivisionError
    else match v with
      | .py2 => .ok (.int (Int.fdiv a b))
      | .py3 => .ok (.flt ((a : ℚ) / (b : ℚ)))

/-- `x + 1` for a number. -/
def addOne : PyVal ℚ → PyVal ℚ
  | .int i => .int (i + 1)
  | .flt q => .flt (q + 1)
  | v => v

/-- A bound of a list slice must be an int (or None); negative ones count from the end. -/
def sliceBound (len : Nat) : PyVal ℚ → Except Err Nat
  | .int i => .ok (if i < 0 then (i + len).toNat else min i.toNat len)
  | _ => .error .TypeError

/-- `l[0:x]` -/
def sliceTo {α : Type} (l : List α) (x : PyVal ℚ) : Except Err (List α) :=
  match sliceBound l.length x with
  | .error e => .error e
  | .ok k => .ok (l.take k)

/-- `l[x:]` -/
def sliceFrom {α : Type} (l : List α) (x : PyVal ℚ) : Except Err (List α) :=
  match sliceBound l.length x with
  | .error e => .error e
  | .ok k => .ok (l.drop k)

/-- models the loop _multitrack.py:71-83 (the chunks given to the jobs); `n` is the number of rounds
left, `rem` the remainder.  Copying, new_out_dir, set_hit_list and start of a job are taken to
succeed, see `trackManyJobs`. -/
def chunkLoop {α : Type} (per : PyVal ℚ) : Nat → Int → List α → Except Err (List (List α))
  | 0, _, _ => .ok []
  | n + 1, rem, hits =>
    let x := if rem > 0 then addOne per else per
    match sliceTo hits x with
    | .error e => .error e
    | .ok this =>
      match sliceFrom hits x with
      | .error e => .error e
      | .ok rest =>
        match chunkLoop per n (if rem > 0 then rem - 1 else rem) rest with
        | .error e => .error e
        | .ok l => .ok (this :: l)

/-- models _multitrack.py:65-84 (track_many_async), the chunk of each job in job order.  The job
class is external: its methods are assumed to succeed. -/
def trackManyJobs {α : Type} (v : PyVer) (nProc : Int) (hits : List α) :
    Except Err (List (List α)) :=
  match pyIntDiv v hits.length nProc with
  | .error e => .error e
  | .ok per => chunkLoop per nProc.toNat (Int.fmod hits.length nProc) hits

/-- A started job: when it finishes (a time counted in calls of is_alive), and what get_return_value
then returns; none if the job left no return value. -/
structure Job (β : Type) where
  finish : Nat
  value : Option (List β)

/-- models one round of _multitrack.py:106-113: the jobs seen alive are kept; every is_alive call
takes one unit of time. -/
def pollRound {β : Type} : Nat → List (Job β) → List (Job β) × Nat
  | clock, [] => ([], clock)
  | clock, j :: r =>
    let t := pollRound (clock + 1) r
    if clock < j.finish then (j :: t.1, t.2) else t

/-- models the loop _multitrack.py:105-113, for a bounded number of rounds; none if there are
still jobs. -/
def poll {β : Type} : Nat → Nat → List (Job β) → Option Nat
  | _, clock, [] => some clock
  | 0, _, _ :: _ => none
  | n + 1, clock, jobs =>
    let t := pollRound clock jobs
    poll n t.2 t.1

/-- models _multitrack.py:116-128 (get_return_value) called at time `clock`; a job that is still
running or left no value raises RuntimeError, which is swallowed (tracking_process/_tracking_process.py:126-144). -/
def getReturnValue {β : Type} : Nat → List (Job β) → List β
  | _, [] => []
  | clock, j :: r =>
    let v := if clock < j.finish then [] else j.value.getD []
    v ++ getReturnValue (clock + 1) r

end Tracking
end Xboa
