import Verif.Model.Hitcore
/-
Model of TrackingProcess and ThisNodeProcess (xboa/tracking/tracking_process/_tracking_process.py and
_this_node_process.py) and of the program their children run (xboa_tracking_process.py).
One object, its output directory and its children; the children run at any time between two calls.
-/
namespace Xboa.Node
variable {H B : Type}

/-- pickle through files opened in text mode (`open(.., "w")`, `open(..)`): `dumpJar`, `loadJar` for the
process object (of which the child uses the hit list), `dumpHits`, `loadHits` for the results.
`empty` is a file that was opened for writing but not written. -/
structure Pickle (H B : Type) where
  dumpJar : List H → Except Err B
  loadJar : B → Except Err (List H)
  dumpHits : List (List H) → Except Err B
  loadHits : B → Except Err (List (List H))
  empty : B

/-- pickle.dump to a file opened in text mode raises in Python 3, whatever is dumped (TypeError, unless
the object itself cannot be pickled), and so does pickle.load from one. -/
structure Pickle.Python3 (P : Pickle H B) : Prop where
  jar : ∀ h, ∃ e, P.dumpJar h = .error e
  unjar : ∀ b, ∃ e, P.loadJar b = .error e
  hits : ∀ h, ∃ e, P.dumpHits h = .error e
  unhits : ∀ b, ∃ e, P.loadHits b = .error e

/-- What a child is doing: about to read the pickled process, holding a hit list, or at its end. -/
inductive Phase (H : Type)
  | fresh
  | loaded (h : List H)
  | done

/-- The members of the process object (_tracking_process.py:48-54, _this_node_process.py:44), the two
files in its output directory, and its children in the order they were started with the number of
times each was polled. -/
structure St (H B : Type) where
  hits : Option (List H)
  exitcode : Option Int
  proc : Option Nat
  jar : Option B
  sandwich : Option B
  phase : List (Phase H)
  polls : List Nat

/-- models _tracking_process.py:41-65, _this_node_process.py:37-44 (__init__, new_out_dir): a new
directory. -/
def St.new : St H B := ⟨none, none, none, none, none, [], []⟩

/-- The surroundings: what pickle does, what the tracking makes of a list of hits, whether the current
directory of the children is the output directory, and the answer to the n-th poll of a child (none:
still running). -/
structure Env (H B : Type) where
  pickle : Pickle H B
  track : List H → Except Err (List (List H))
  cwdIsOut : Bool
  exit : Nat → Nat → Option Int

/-- A child that has exited stays so. -/
def Env.Stable (V : Env H B) : Prop := ∀ k n c, V.exit k n = some c → V.exit k (n + 1) = some c

/-- models _tracking_process.py:67-73 (set_hit_list). -/
def setHits (V : Env H B) (h : List H) (s : St H B) : Except Err Unit × St H B :=
  match V.pickle.dumpJar h with
  | .ok b => (.ok (), { s with hits := some h, jar := some b })
  | .error e => (.error e, { s with hits := some h, jar := some V.pickle.empty })

/-- models `self.exitcode = self.proc.poll()`, _this_node_process.py:63 -/
def poll (V : Env H B) (k : Nat) (s : St H B) : Option Int × St H B :=
  let n := s.polls.getD k 0
  (V.exit k n, { s with exitcode := V.exit k n, polls := s.polls.set k (n + 1) })

/-- models _this_node_process.py:57-64 (is_alive). -/
def isAlive (V : Env H B) (s : St H B) : Bool × St H B :=
  match s.proc with
  | none => (false, s)
  | some k =>
    match poll V k s with
    | (r, s') => (r.isNone, s')

/-- models _this_node_process.py:46-55 (start). -/
def start (V : Env H B) (s : St H B) : Except Err Unit × St H B :=
  match isAlive V s with
  | (true, s') => (.error .RuntimeError, s')
  | (false, s') => (.ok (), { s' with proc := some s'.phase.length, phase := s'.phase ++ [.fresh],
                                      polls := s'.polls ++ [0] })

/-- models _tracking_process.py:114-124 (join).  `t` is the number of rounds until the timeout has
passed, none for no timeout; the loop need not end. -/
inductive Join (V : Env H B) : Option Nat → St H B → St H B → Prop
  | stop (t : Option Nat) (s s' : St H B) : isAlive V s = (false, s') → Join V t s s'
  | late (s s' : St H B) : isAlive V s = (true, s') → Join V (some 0) s s'
  | again (t : Option Nat) (s s' s'' : St H B) : isAlive V s = (true, s') → t ≠ some 0 →
      Join V (t.map (· - 1)) s' s'' → Join V t s s''

/-- models _this_node_process.py:66-86 (terminate, kill); what the signal does to the child shows in
the answers to later polls. -/
inductive Kill (V : Env H B) : Option Nat → St H B → Except Err Unit → St H B → Prop
  | early (t : Option Nat) (s : St H B) : s.proc = none → Kill V t s (.error .RuntimeError) s
  | ended (t : Option Nat) (s s' : St H B) (k : Nat) : s.proc = some k → Join V t s s' →
      Kill V t s (.ok ()) (poll V k s').2

/-- models _tracking_process.py:126-144 (get_return_value). -/
def getReturn (V : Env H B) (s : St H B) : Except Err (List (List H)) × St H B :=
  match isAlive V s with
  | (true, s') => (.error .RuntimeError, s')
  | (false, s') =>
    match s'.exitcode with
    | none => (.error .RuntimeError, s')
    | some _ =>
      match s'.sandwich with
      | none => (.error .RuntimeError, s')
      | some b => (V.pickle.loadHits b, s')

/-- models xboa_tracking_process.py:43-47: child `k` reads the process object and clears old results,
looking for them in the current directory. -/
def childReads (V : Env H B) (k : Nat) (s : St H B) : St H B :=
  match s.phase[k]?, s.jar with
  | some .fresh, some b =>
    match V.pickle.loadJar b with
    | .ok h => { s with phase := s.phase.set k (.loaded h),
                        sandwich := if V.cwdIsOut then none else s.sandwich }
    | .error _ => { s with phase := s.phase.set k .done }
  | some .fresh, none => { s with phase := s.phase.set k .done }
  | _, _ => s

/-- models xboa_tracking_process.py:48-51 (and run, _tracking_process.py:108-112): child `k` tracks and
writes its results. -/
def childWrites (V : Env H B) (k : Nat) (s : St H B) : St H B :=
  match s.phase[k]? with
  | some (.loaded h) =>
    match V.track h with
    | .error _ => { s with phase := s.phase.set k .done }
    | .ok r =>
      match V.pickle.dumpHits r with
      | .ok b => { s with phase := s.phase.set k .done, sandwich := some b }
      | .error _ => { s with phase := s.phase.set k .done, sandwich := some V.pickle.empty }
  | _ => s

/-- The calls of a user, and what the children do meanwhile. -/
inductive Op (H : Type)
  | setHits (h : List H)
  | start
  | isAlive
  | join (t : Option Nat)
  | kill (t : Option Nat)
  | getReturn
  | childReads (k : Nat)
  | childWrites (k : Nat)

/-- What a call returned. -/
inductive Out (H : Type)
  | unit (r : Except Err Unit)
  | bool (b : Bool)
  | hits (r : Except Err (List (List H)))

/-- One step. -/
inductive Step (V : Env H B) : St H B → Op H → Out H → St H B → Prop
  | setHits (s : St H B) (h : List H) : Step V s (.setHits h) (.unit (setHits V h s).1) (setHits V h s).2
  | start (s : St H B) : Step V s .start (.unit (start V s).1) (start V s).2
  | isAlive (s : St H B) : Step V s .isAlive (.bool (isAlive V s).1) (isAlive V s).2
  | join (t : Option Nat) (s s' : St H B) : Join V t s s' → Step V s (.join t) (.unit (.ok ())) s'
  | kill (t : Option Nat) (s s' : St H B) (r : Except Err Unit) : Kill V t s r s' →
      Step V s (.kill t) (.unit r) s'
  | getReturn (s : St H B) : Step V s .getReturn (.hits (getReturn V s).1) (getReturn V s).2
  | childReads (s : St H B) (k : Nat) : Step V s (.childReads k) (.unit (.ok ())) (childReads V k s)
  | childWrites (s : St H B) (k : Nat) : Step V s (.childWrites k) (.unit (.ok ())) (childWrites V k s)

/-- A history of a new process object: the calls with their results. -/
inductive Run (V : Env H B) : List (Op H × Out H) → St H B → Prop
  | new : Run V [] St.new
  | step (l : List (Op H × Out H)) (s s' : St H B) (o : Op H) (r : Out H) : Run V l s →
      Step V s o r s' → Run V (l ++ [(o, r)]) s'

end Xboa.Node
