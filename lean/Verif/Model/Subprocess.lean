import Mathlib.Data.List.Basic
/-
Processes started with xboa.common.subprocess and stopped with kill_all_subprocesses
(common/_common.py:63, 765-802, 822-825; common/config.py:64-80).  The operating system is modelled by a
list of child processes (the position is the pid; pids are not used again) and the multiprocessing library
by the objects it returns.  Timing and exit codes are left out.
-/
namespace Xboa.Subprocess

/-- The exceptions that can show. -/
inductive Exn | ImportError | OSError | AttributeError | ValueError
deriving DecidableEq

/-- What became of a child process: still running, ended but not yet waited for, or waited for. -/
inductive Status | running | ended | gone
deriving DecidableEq

/-- A child process.  `stubborn` ignores SIGTERM.  `ours` is kept for the statements only: it was started
by a call of common.subprocess. -/
structure Proc where
  status : Status
  stubborn : Bool
  ours : Bool
deriving DecidableEq

/-- A multiprocessing.Process object in `__mp_subprocesses`. -/
inductive MpObj
  | started (pid : Nat)
  | unstarted
  | closed
deriving DecidableEq

/-- The children, the two lists of the module (_common.py:765-766), and the variable
`kill_subprocesses_at_exit` of xboa.common (`pkgFlag`, a copy made by `from ._common import *` of
common/__init__.py:25) and of xboa.common._common (`modFlag`, _common.py:63). -/
structure State where
  procs : List Proc
  mp : List MpObj
  fk : List Nat
  pkgFlag : Bool
  modFlag : Bool
deriving DecidableEq

/-- Just after import. -/
def start : State := ⟨[], [], [], true, true⟩

/-- config.PACKAGES (config.py:12-43). -/
structure Config where
  hasMultiprocessing : Bool
  hasRoot : Bool

/-- What `multiprocessing.Process(target=function, args=args)` and its `start()` do. -/
inductive MpOutcome | refused | startFails | runs
deriving DecidableEq

/-- What common.subprocess returns: the Process object (its place in the list) or a pid. -/
inductive Handle
  | object (i : Nat)
  | pid (p : Nat)
deriving DecidableEq

/-- A new child. -/
def State.spawn (s : State) (stubborn ours : Bool) : State :=
  { s with procs := s.procs ++ [⟨.running, stubborn, ours⟩] }

/-- models config.py:76-80 (has_root). -/
def hasRoot (c : Config) : Except Exn Unit := if c.hasRoot then .ok () else .error .ImportError

/-- models _common.py:784-791: fork, in the parent. -/
def fork (forks stubborn : Bool) (s : State) : Except Exn Handle × State :=
  if forks then
    (.ok (.pid s.procs.length), { s.spawn stubborn true with fk := s.fk ++ [s.procs.length] })
  else (.error .OSError, s)

/-- models _common.py:781-783: what the try block raises.  has_root raises without ROOT, and line 782
raises with ROOT. -/
def tryRoot (c : Config) : Exn :=
  match hasRoot c with
  | .ok () => .ImportError
  | .error e => e

/-- models the except branch _common.py:780-791: `except ImportError` of line 783 catches both. -/
def fallBack (c : Config) (forks stubborn : Bool) (s : State) : Except Exn Handle × State :=
  if tryRoot c = .ImportError then fork forks stubborn s else (.error (tryRoot c), s)

/-- models _common.py:767-791 (subprocess); `forks` is whether os.fork succeeds. -/
def call (c : Config) (o : MpOutcome) (forks stubborn : Bool) (s : State) : Except Exn Handle × State :=
  if c.hasMultiprocessing then
    match o with
    | .refused => fallBack c forks stubborn s
    | .startFails => fallBack c forks stubborn { s with mp := s.mp ++ [.unstarted] }
    | .runs =>
      (.ok (.object s.mp.length),
        { s.spawn stubborn true with mp := s.mp ++ [.started s.procs.length] })
  else fallBack c forks stubborn s

/-- SIGTERM: ends a running process that does not ignore it. -/
def Proc.term (p : Proc) : Proc :=
  if p.status = .running ∧ p.stubborn = false then { p with status := .ended } else p

/-- SIGKILL: ends a running process. -/
def Proc.kill (p : Proc) : Proc := if p.status = .running then { p with status := .ended } else p

/-- change one process -/
def State.update (s : State) (pid : Nat) (f : Proc → Proc) : State :=
  { s with procs := s.procs.modify pid f }

/-- models the loop _common.py:798-800.  `terminate` of an object that was never started is an
AttributeError, of a closed one a ValueError; of a process that ended it does nothing. -/
def killMp : List MpObj → State → Option Exn × State
  | [], s => (none, s)
  | .started p :: r, s => killMp r (s.update p Proc.term)
  | .unstarted :: _, s => (some .AttributeError, s)
  | .closed :: _, s => (some .ValueError, s)

/-- models the loop _common.py:801-802: os.kill of a pid that was waited for is a ProcessLookupError. -/
def killFk : List Nat → State → Option Exn × State
  | [], s => (none, s)
  | p :: r, s =>
    match s.procs[p]? with
    | none => (some .OSError, s)
    | some q => if q.status = .gone then (some .OSError, s) else killFk r (s.update p Proc.kill)

/-- models _common.py:793-802 (kill_all_subprocesses). -/
def killAll (s : State) : Option Exn × State :=
  match killMp s.mp s with
  | (some e, s') => (some e, s')
  | (none, s') => killFk s'.fk s'

/-- models _common.py:822-825 (__atexit). -/
def atExit (s : State) : Option Exn × State := if s.modFlag then killAll s else (none, s)

/-- What a program, its children and the system do. -/
inductive Op
  /-- common.subprocess -/
  | call (o : MpOutcome) (forks stubborn : Bool)
  /-- the program starts a child in another way -/
  | other (stubborn : Bool)
  /-- a child ends -/
  | ends (pid : Nat)
  /-- the program waits for a child that ended (os.waitpid) -/
  | wait (pid : Nat)
  /-- `close()` of a Process object returned before; refused while the child runs -/
  | close (i : Nat)
  /-- `xboa.common.kill_subprocesses_at_exit = b` -/
  | setPkgFlag (b : Bool)
  /-- `xboa.common._common.kill_subprocesses_at_exit = b` -/
  | setModFlag (b : Bool)
  /-- common.kill_all_subprocesses -/
  | killAll

/-- one step -/
def step (c : Config) (s : State) : Op → State
  | .call o forks stubborn => (call c o forks stubborn s).2
  | .other stubborn => s.spawn stubborn false
  | .ends p => s.update p (fun q => if q.status = .running then { q with status := .ended } else q)
  | .wait p => s.update p (fun q => if q.status = .ended then { q with status := .gone } else q)
  | .close i =>
    match s.mp[i]? with
    | some (.started p) =>
      match s.procs[p]? with
      | some q => if q.status = .running then s else { s with mp := s.mp.set i .closed }
      | none => s
    | some _ => { s with mp := s.mp.set i .closed }
    | none => s
  | .setPkgFlag b => { s with pkgFlag := b }
  | .setModFlag b => { s with modFlag := b }
  | .killAll => (killAll s).2

/-- a history -/
def run (c : Config) (s : State) (ops : List Op) : State := ops.foldl (step c) s

end Xboa.Subprocess
