import Mathlib.Data.List.Basic
/-
Model of BSubProcess (xboa/tracking/tracking_process/_bsub_process.py): a tracking job in a batch
queue.  The commands bsub, bjobs and bkill are outside of the model; what they print is a parameter.
Text is a list of characters.
-/
namespace Xboa.Batch

/-- What the calls can raise; `Command` is what subprocess raises when a command fails or is missing
(CalledProcessError, OSError). -/
inductive Exc
  | ImportError | TypeError | ValueError | RuntimeError | Command
deriving DecidableEq, Repr

/-- Where a text first occurs in another, none if it does not. -/
def firstAt (key : List Char) : List Char → Option Nat
  | [] => if key = [] then some 0 else none
  | c :: r => if key.isPrefixOf (c :: r) then some 0 else (firstAt key r).map (· + 1)

/-- `s.find(key)` -/
def find (s key : List Char) : Int :=
  match firstAt key s with
  | some n => n
  | none => -1

/-- A bound of a slice: negative ones count from the end. -/
def bound (len : Nat) (i : Int) : Nat := if i < 0 then (len + i).toNat else i.toNat

/-- `s[a:b]` -/
def slice (s : List Char) (a b : Int) : List Char := (s.take (bound s.length b)).drop (bound s.length a)

/-- The surroundings.  `python2`: whether text files take pickled objects and commands print str, as in
Python 2; in Python 3 pickle.dump into a file opened with "w" raises TypeError, and so does find with
a str in the bytes that check_output returns.  `hasBsub`: the command bsub exists.  `submit n`: the
n-th bsub (its job and what it prints).  `status j t`: what bjobs prints about job j when it is called
for the t-th time.  `int`: the number that a text stands for. -/
structure Env where
  python2 : Bool
  hasBsub : Bool
  submit : Nat → Except Exc (Int × List Char)
  status : Int → Nat → Except Exc (List Char)
  int : List Char → Option Int

/-- self.exitcode once it is set: the number 0, or a text. -/
inductive Exit
  | zero
  | text (s : List Char)
deriving DecidableEq, Repr

/-- The members pid and exitcode, the jobs submitted so far (oldest first), the jobs named to bkill and
the number of times bjobs was called. -/
structure St where
  pid : Option Int
  exitcode : Option Exit
  jobs : List Int
  killed : List Int
  asked : Nat
deriving DecidableEq, Repr

/-- models _bsub_process.py:37-51 (__init__) with _tracking_process.py:41-54; directories are not
modelled. -/
def new (V : Env) : Except Exc St :=
  if !V.hasBsub then .error .ImportError
  else if !V.python2 then .error .TypeError
  else .ok ⟨none, none, [], [], 0⟩

/-- models _bsub_process.py:106-118 (_get_substr). -/
def getSubstr (V : Env) (s start stop : List Char) : Except Exc (List Char) :=
  if !V.python2 then .error .TypeError
  else
    let startIndex := find s start
    if startIndex < 0 then .error .ValueError
    else
      let s := s.drop (startIndex.toNat + start.length)
      let endIndex := find s stop
      if endIndex < 0 then .error .ValueError
      else .ok (slice s 0 endIndex)

/-- models _bsub_process.py:81 -/
def aliveStates : List (List Char) := ["PEND".toList, "RUN".toList, "WAIT".toList]

/-- models _bsub_process.py:74-88 (is_alive). -/
def isAlive (V : Env) (s : St) : Except Exc Bool × St :=
  match s.pid with
  | none => (.ok false, s)
  | some j =>
    let s' := { s with asked := s.asked + 1 }
    match V.status j s.asked with
    | .error e => (.error e, s')
    | .ok r =>
      match getSubstr V r "Status <".toList ">".toList with
      | .error e => (.error e, s')
      | .ok state =>
        if state ∈ aliveStates then (.ok true, s')
        else
          match getSubstr V r "exit code ".toList ".".toList with
          | .ok c => (.ok false, { s' with exitcode := some (.text c) })
          | .error .ValueError => (.ok false, { s' with exitcode := some .zero })
          | .error e => (.error e, { s' with exitcode := some .zero })

/-- models _bsub_process.py:53-72 (start). -/
def start (V : Env) (s : St) : Except Exc Unit × St :=
  match isAlive V s with
  | (.error e, s') => (.error e, s')
  | (.ok true, s') => (.error .RuntimeError, s')
  | (.ok false, s') =>
    match V.submit s'.jobs.length with
    | .error e => (.error e, s')
    | .ok (j, r) =>
      let s'' := { s' with jobs := s'.jobs ++ [j] }
      if !V.python2 then (.error .TypeError, s'')
      else
        match V.int (slice r (find r "<".toList + 1) (find r ">".toList)) with
        | none => (.error .ValueError, s'')
        | some i => (.ok (), { s'' with pid := some i })

/-- models _bsub_process.py:90-104 (terminate, kill). -/
def kill (s : St) : Except Exc Unit × St :=
  match s.pid with
  | none => (.error .RuntimeError, s)
  | some j => (.ok (), { s with killed := s.killed ++ [j] })

/-- The calls of a user. -/
inductive Op
  | start
  | isAlive
  | kill

/-- The state after a call. -/
def step (V : Env) (s : St) : Op → St
  | .start => (start V s).2
  | .isAlive => (isAlive V s).2
  | .kill => (kill s).2

/-- The state after a sequence of calls. -/
def run (V : Env) (s : St) (ops : List Op) : St := ops.foldl (step V) s

end Xboa.Batch
