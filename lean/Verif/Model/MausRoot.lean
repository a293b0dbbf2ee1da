import Verif.Model.MausTree
/-
Model of reading MAUS ROOT files: xboa/hit/factory/_maus_root_hit_factory.py,
_maus_root_recon_hit_factory.py and Bunch.read_maus_root_file (xboa/bunch/_bunch.py).

The ROOT file is a list of spills, with the data that the code asks for.  ROOT itself, `print` and the
list of bad pids are not modelled.  Lists of types hold only types the factories know.
-/
namespace Xboa
namespace Root
variable {K : Type} [Field K] [LinearOrder K]

/-- a three vector, as GetPosition() returns it -/
structure V3 (K : Type) where
  x : K
  y : K
  z : K

/-- MAUS::VirtualHit, as read in _maus_root_hit_factory.py:89-108 -/
structure Virtual (K : Type) where
  pos : V3 K
  mom : V3 K
  b : V3 K
  e : V3 K
  pid : Int
  station : Int
  track : Int
  time : K
  mass : K
  charge : K
  properTime : K
  pathLength : K

/-- MAUS::Step, as read in _maus_root_hit_factory.py:122-144 -/
structure Step (K : Type) where
  pos : V3 K
  time : K
  mom : V3 K
  b : V3 K
  e : V3 K
  spin : V3 K
  properTime : K
  pathLength : K

/-- MAUS::Track, as read in _maus_root_hit_factory.py:119-120, 139-140 -/
structure Track (K : Type) where
  pid : Int
  id : Int
  steps : List (Step K)

/-- MAUS::Primary, as read in _maus_root_hit_factory.py:156-167 -/
structure Primary (K : Type) where
  pos : V3 K
  mom : V3 K
  pid : Int
  energy : K
  time : K

/-- MAUS::MCEvent -/
structure MCEvent (K : Type) where
  virtuals : List (Virtual K)
  tracks : List (Track K)
  primary : Primary K

/-- MAUS::SciFiTrackPoint, as read in _maus_root_recon_hit_factory.py:110-128 -/
structure TrackPoint (K : Type) where
  tracker : Int
  station : Int
  plane : Int
  pos : V3 K
  mom : V3 K

/-- MAUS::SciFiTrack -/
structure SciFiTrack (K : Type) where
  pValue : K
  points : List (TrackPoint K)

/-- MAUS::ReconEvent: the tracks and the times in the TOF detectors (_maus_root_recon_hit_factory.py:
134-168) -/
structure ReconEvent (K : Type) where
  tracks : List (SciFiTrack K)
  tof0 : List K
  tof1 : List K
  tof0Slabs : List K
  tof1Slabs : List K
  tof0Digits : List K
  tof1Digits : List K

/-- MAUS::Spill -/
structure Spill (K : Type) where
  number : Int
  mcEvents : List (MCEvent K)
  reconEvents : List (ReconEvent K)

/-- A loop that makes hits and appends them: the hits made before the first exception. -/
def collect : List (Except Err (HS K)) → Except Err Unit × List (HS K)
  | [] => (.ok (), [])
  | .error e :: _ => (.error e, [])
  | .ok h :: r =>
    match collect r with
    | (x, hs) => (x, h :: hs)

/-- the assignments _maus_root_hit_factory.py:89-110. -/
def virtualVars (spill : Int) (event : Nat) (v : Virtual K) : List (String × PyVal K) :=
  [("x", .flt v.pos.x), ("y", .flt v.pos.y), ("z", .flt v.pos.z),
   ("px", .flt v.mom.x), ("py", .flt v.mom.y), ("pz", .flt v.mom.z),
   ("bx", .flt v.b.x), ("by", .flt v.b.y), ("bz", .flt v.b.z),
   ("ex", .flt v.e.x), ("ey", .flt v.e.y), ("ez", .flt v.e.z),
   ("pid", .int v.pid), ("station", .int v.station), ("particle_number", .int v.track),
   ("t", .flt v.time), ("mass", .flt v.mass), ("charge", .flt v.charge),
   ("proper_time", .flt v.properTime), ("path_length", .flt v.pathLength),
   ("spill", .int spill), ("event_number", .int event)]

/-- models one pass of _read_virtual_hits, _maus_root_hit_factory.py:88-112. -/
def virtualHit (E : Ext K) (wc : WC K) (spill : Int) (event : Nat) (v : Virtual K) :
    Except Err (HS K) :=
  Maus.newObject (do
    Hit.setAll E (virtualVars spill event v)
    let _ ← Hit.mass_shell_condition E "energy") ⟨Core.new, wc⟩

/-- models _read_virtual_hits, _maus_root_hit_factory.py:82-112. -/
def readVirtualHits (E : Ext K) (wc : WC K) (s : Spill K) : Except Err Unit × List (HS K) :=
  collect (s.mcEvents.zipIdx.flatMap fun ev => ev.1.virtuals.map (virtualHit E wc s.number ev.2))

/-- `common.pdg_pid_to_mass[abs(pid)]`, _maus_root_hit_factory.py:141, 169. -/
def massOf (pid : Val K) : Except Err (PyVal K) :=
  match pid with
  | .int n =>
    match Common.pdgPidToMass.lookup |n| with
    | some m => .ok (.flt ((m : K) / 1000000000))
    | none => .error .KeyError
  | _ => .error .Unmodelled

/-- `common.pdg_pid_to_charge[key]`, _maus_root_hit_factory.py:142, 174: a float finds the integer key
that is equal to it. -/
def chargeOf (key : Val K) : Except Err (PyVal K) :=
  match key with
  | .int n =>
    match Common.pdgPidToCharge.lookup n with
    | some q => .ok (.int q)
    | none => .error .KeyError
  | .flt c =>
    match Common.pdgPidToCharge.find? fun p => (p.1 : K) = c with
    | some p => .ok (.int p.2)
    | none => .error .KeyError
  | .none => .error .KeyError

/-- an expression that may raise, in a function that works on a hit -/
def lift {σ α : Type} (x : Except Err α) : PyM σ α := fun s => (x, s)

/-- `try: x = expr  except KeyError: x = 0.`, _maus_root_hit_factory.py:168-177 (bad_pid prints). -/
def orZero (x : Except Err (PyVal K)) : Except Err (PyVal K) :=
  match x with
  | .error .KeyError => .ok (.flt 0)
  | x => x

/-- the assignments _maus_root_hit_factory.py:122-140. -/
def stepVars (t : Track K) (i : Nat) (s : Step K) : List (String × PyVal K) :=
  [("x", .flt s.pos.x), ("y", .flt s.pos.y), ("z", .flt s.pos.z), ("t", .flt s.time),
   ("px", .flt s.mom.x), ("py", .flt s.mom.y), ("pz", .flt s.mom.z),
   ("bx", .flt s.b.x), ("by", .flt s.b.y), ("bz", .flt s.b.z),
   ("ex", .flt s.e.x), ("ey", .flt s.e.y), ("ez", .flt s.e.z),
   ("sx", .flt s.spin.x), ("sy", .flt s.spin.y), ("sz", .flt s.spin.z),
   ("station", .int i), ("pid", .int t.pid), ("particle_number", .int t.id)]

/-- models one pass of _read_steps, _maus_root_hit_factory.py:121-148. -/
def stepHit (E : Ext K) (wc : WC K) (spill : Int) (event : Nat) (t : Track K) (i : Nat) (s : Step K) :
    Except Err (HS K) :=
  Maus.newObject (do
    Hit.setAll E (stepVars t i s)
    let pid ← Hit.get E "pid"
    let m ← lift (massOf pid)
    Hit.set E "mass" m
    let pid ← Hit.get E "pid"
    let q ← lift (chargeOf pid)
    Hit.set E "charge" q
    Hit.setAll E [("proper_time", .flt s.properTime), ("path_length", .flt s.pathLength),
      ("spill", .int spill), ("event_number", .int event)]
    let _ ← Hit.mass_shell_condition E "energy") ⟨Core.new, wc⟩

/-- models _read_steps, _maus_root_hit_factory.py:114-148. -/
def readSteps (E : Ext K) (wc : WC K) (s : Spill K) : Except Err Unit × List (HS K) :=
  collect (s.mcEvents.zipIdx.flatMap fun ev => ev.1.tracks.flatMap fun t =>
    t.steps.zipIdx.map fun p => stepHit E wc s.number ev.2 t p.2 p.1)

/-- the assignments _maus_root_hit_factory.py:157-167. -/
def primaryVars (spill : Int) (event : Nat) (p : Primary K) : List (String × PyVal K) :=
  [("x", .flt p.pos.x), ("y", .flt p.pos.y), ("z", .flt p.pos.z),
   ("px", .flt p.mom.x), ("py", .flt p.mom.y), ("pz", .flt p.mom.z),
   ("pid", .int p.pid), ("energy", .flt p.energy), ("spill", .int spill),
   ("event_number", .int event), ("t", .flt p.time)]

/-- models one pass of _read_primaries, _maus_root_hit_factory.py:155-179. -/
def primaryHit (E : Ext K) (wc : WC K) (spill : Int) (event : Nat) (p : Primary K) :
    Except Err (HS K) :=
  Maus.newObject (do
    Hit.setAll E (primaryVars spill event p)
    let pid ← Hit.get E "pid"
    let m ← lift (orZero (massOf pid))
    Hit.set E "mass" m
    let charge ← Hit.get E "charge"
    let q ← lift (orZero (chargeOf charge))
    Hit.set E "charge" q
    let _ ← Hit.mass_shell_condition E "p") ⟨Core.new, wc⟩

/-- models _read_primaries, _maus_root_hit_factory.py:150-179. -/
def readPrimaries (E : Ext K) (wc : WC K) (s : Spill K) : Except Err Unit × List (HS K) :=
  collect (s.mcEvents.zipIdx.map fun ev => primaryHit E wc s.number ev.2 ev.1.primary)

/-! ### reconstructed data -/

/-- models _maus_root_recon_hit_factory.py:113-120, with the class members 182-185: the station number. -/
def stationOf (tracker station plane : Int) : Except Err Int :=
  if tracker > 10 ∨ tracker < 0 ∨ station > 10 ∨ station < 0 ∨ plane > 10 ∨ plane < 0 then
    .error .ValueError
  else .ok (90000 + tracker * 100 + station * 10 + plane * 1)

/-- models one pass of the inner loop of _read_scifi_trackpoints, _maus_root_recon_hit_factory.py:
110-131. -/
def pointHit (E : Ext K) (wc : WC K) (spill : Int) (i : Nat) (p : TrackPoint K) : Except Err (HS K) :=
  match stationOf p.tracker p.station p.plane with
  | .error e => .error e
  | .ok station =>
    Maus.newObject (Hit.setAll E
      [("station", .int station), ("x", .flt p.pos.x), ("y", .flt p.pos.y), ("z", .flt p.pos.z),
       ("px", .flt p.mom.x), ("py", .flt p.mom.y), ("pz", .flt p.mom.z),
       ("spill", .int spill), ("particle_number", .int i)]) ⟨Core.new, wc⟩

/-- models `[hit for hit in self._read_scifi_trackpoints(scifi_event)]`,
_maus_root_recon_hit_factory.py:80, 101-132, with the class member sf_p_value_cut (`cut`).  The generator
ends with `raise StopIteration`: since Python 3.7 (`pep479`) this is a RuntimeError, before it ended the
generator. -/
def trackPoints (pep479 : Bool) (E : Ext K) (wc : WC K) (cut : K) (spill : Int)
    (tracks : List (SciFiTrack K)) : Except Err (List (HS K)) :=
  match collect (tracks.zipIdx.flatMap fun t =>
      if 0 < cut ∧ t.1.pValue < cut then [] else t.1.points.map (pointHit E wc spill t.2)) with
  | (.error e, _) => .error e
  | (.ok _, hs) => if pep479 then .error .RuntimeError else .ok hs

/-- `sum(l)/len(l)` -/
def meanOf (l : List K) : K := l.foldl (· + ·) 0 / (l.length : K)

/-- models _read_tof_01_slab_hits and _read_tof_01_digits, _maus_root_recon_hit_factory.py:148-168. -/
def tofMeans (t0 t1 : List K) : List K :=
  if 0 < t0.length ∧ 0 < t1.length then [meanOf t1 - meanOf t0] else []

/-- models _read_tof_01_space_points, _maus_root_recon_hit_factory.py:134-146. -/
def tofPoints (t0 t1 : List K) : List K := t1.flatMap fun b => t0.map fun a => b - a

/-- models _maus_root_recon_hit_factory.py:89-93: the times of flight; the class members
fallback_on_slabs and fallback_on_digits are True (188-189). -/
def deltaT (r : ReconEvent K) : List K :=
  let d := tofPoints r.tof0 r.tof1
  let d := if d.length = 0 then tofMeans r.tof0Slabs r.tof1Slabs else d
  if d.length = 0 then tofMeans r.tof0Digits r.tof1Digits else d

/-- `for trackpoint in l: trackpoint[key] = value` -/
def setEach (E : Ext K) (key : String) (value : PyVal K) : List (HS K) → Except Err (List (HS K))
  | [] => .ok []
  | h :: r =>
    match Maus.newObject (Hit.set E key value) h with
    | .error e => .error e
    | .ok h' =>
      match setEach E key value r with
      | .error e => .error e
      | .ok l => .ok (h' :: l)

/-- models one pass of the loop of _read_maus_spill, _maus_root_recon_hit_factory.py:79-99: the hits that
are added. -/
def reconHits (pep479 : Bool) (E : Ext K) (wc : WC K) (cut : K) (tof : Bool) (spill : Int) (event : Nat)
    (r : ReconEvent K) : Except Err (List (HS K)) :=
  match trackPoints pep479 E wc cut spill r.tracks with
  | .error e => .error e
  | .ok points =>
    if points.length = 0 then .ok []
    else
      match setEach E "event_number" (.int event) points with
      | .error e => .error e
      | .ok points =>
        if tof = false then .ok points
        else
          match deltaT r with
          | [] => .ok []
          | t :: _ => setEach E "t" (.flt t) points

/-- models _read_maus_spill, _maus_root_recon_hit_factory.py:74-99. -/
def readRecon (pep479 : Bool) (E : Ext K) (wc : WC K) (cut : K) (tof : Bool) (spill : Int) :
    Nat → List (ReconEvent K) → Except Err Unit × List (HS K)
  | _, [] => (.ok (), [])
  | n, r :: rest =>
    match reconHits pep479 E wc cut tof spill n r with
    | .error e => (.error e, [])
    | .ok hs =>
      match readRecon pep479 E wc cut tof spill (n + 1) rest with
      | (x, hs') => (x, hs ++ hs')

/-! ### the file -/

/-- The types that the factories can read, _maus_root_hit_factory.py:181-189,
_maus_root_recon_hit_factory.py:170-175. -/
inductive Kind | virtualHit | primary | step | scifiTrackpoint | scifiAndTof
deriving DecidableEq

/-- models _read_maus_spill of the two factories, _maus_root_hit_factory.py:71-80,
_maus_root_recon_hit_factory.py:74-99. -/
def readSpill (pep479 : Bool) (E : Ext K) (wc : WC K) (cut : K) (k : Kind) (s : Spill K) :
    Except Err Unit × List (HS K) :=
  match k with
  | .virtualHit => readVirtualHits E wc s
  | .primary => readPrimaries E wc s
  | .step => readSteps E wc s
  | .scifiTrackpoint => readRecon pep479 E wc cut false s.number 0 s.reconEvents
  | .scifiAndTof => readRecon pep479 E wc cut true s.number 0 s.reconEvents

/-- models `self.hits = [hit for hit in self.hits if ...]`, _maus_root_hit_factory.py:56-57,
_maus_root_recon_hit_factory.py:59-60. -/
def passing (test : Option (HS K → Bool)) (hs : List (HS K)) : List (HS K) :=
  match test with
  | none => hs
  | some f => hs.filter f

/-- models the loop of Bunch.read_maus_root_file over one type, _bunch.py:429-433, with make_hit and
new_spill (_maus_root_hit_factory.py:47-69, _maus_root_recon_hit_factory.py:50-72): spills are read until
there are `number` hits or the file ends.  make_hit turns every IndexError into BadEventError, and
BadEventError ends the loop. -/
def readKind (read : Spill K → Except Err Unit × List (HS K)) (test : Option (HS K → Bool))
    (number : Int) : List (Spill K) → List (HS K) → Except Err (List (HS K))
  | [], acc => .ok acc
  | s :: r, acc =>
    if number < 0 ∨ (acc.length : Int) < number then
      match read s with
      | (.error .IndexError, _) => .ok acc
      | (.error e, _) => .error e
      | (.ok _, hs) =>
        readKind read test number r
          (if number < 0 then acc ++ passing test hs else (acc ++ passing test hs).take number.toNat)
    else .ok acc

/-- models the loop over the types, _bunch.py:424-433. -/
def readKinds (pep479 : Bool) (E : Ext K) (wc : WC K) (cut : K) (test : Option (HS K → Bool))
    (number : Int) (tree : List (Spill K)) : List Kind → List (HS K) → Except Err (List (HS K))
  | [], acc => .ok acc
  | k :: ks, acc =>
    match readKind (readSpill pep479 E wc cut k) test number tree acc with
    | .error e => .error e
    | .ok acc => readKinds pep479 E wc cut test number tree ks acc

/-- models Bunch.read_maus_root_file, _bunch.py:403-439. -/
def readMausRoot (pep479 : Bool) (E : Ext K) (wc : WC K) (cut : K) (kinds : Option (List Kind))
    (test : Option (HS K → Bool)) (number : Int) (tree : List (Spill K)) :
    Except Err (List (HS K)) :=
  readKinds pep479 E wc cut test number tree
    (kinds.getD [.virtualHit, .primary, .step, .scifiTrackpoint, .scifiAndTof]) []

end Root
end Xboa
