import Verif.Model.MausRoot
/-
Model of xboa/tracking/_maus_tracking.py (MAUSTracking).

The MAUS simulation is a parameter: a function of all earlier requests and the present one that returns
events or raises.  The json strings between the code and MAUS are not modelled: what is sent is `Doc`, what
comes back is a list of `Event`, with all the keys that the code asks for.  datacards and the birth of MAUS
are not modelled.
-/
namespace Xboa
namespace MausTracking
open Root
variable {K : Type} [Field K] [LinearOrder K]

/-- the primary that is sent to MAUS, _maus_tracking.py:159-168 -/
structure Doc (K : Type) where
  pos : V3 K
  mom : V3 K
  pid : Int
  energy : K
  time : K
  seed : Int

/-- a virtual hit that comes back, as read in _maus_tracking.py:120-132 -/
structure VHit (K : Type) where
  pos : V3 K
  mom : V3 K
  pid : Int
  time : K
  track : Int
  station : Int

/-- an event that comes back, as read in _maus_tracking.py:106-110; `virtuals` is none if there is no
key "virtual_hits" -/
structure Event (K : Type) where
  primary : Primary K
  virtuals : Option (List (VHit K))

/-- The members of MAUSTracking, _maus_tracking.py:61-63, and all that was sent to MAUS (`sent`). -/
structure State (K : Type) where
  seed : Int
  spill : Int
  last : List (List (HS K))
  sent : List (List (Doc K))

/-- models MAUSTracking.__init__, _maus_tracking.py:61-63. -/
def init (seed : Int) : State K := ⟨seed, 0, [], []⟩

/-- `hit[key]`, a float -/
def getFlt (E : Ext K) (h : HS K) (key : String) : Except Err K :=
  match (Hit.get E key h).1 with
  | .ok (.flt v) => .ok v
  | .ok _ => .error .Unmodelled
  | .error e => .error e

/-- `hit[key]`, an integer -/
def getInt (E : Ext K) (h : HS K) (key : String) : Except Err Int :=
  match (Hit.get E key h).1 with
  | .ok (.int v) => .ok v
  | .ok _ => .error .Unmodelled
  | .error e => .error e

/-- `{'x':hit[a], 'y':hit[b], 'z':hit[c]}` -/
def getV3 (E : Ext K) (h : HS K) (a b c : String) : Except Err (V3 K) := do
  let x ← getFlt E h a
  let y ← getFlt E h b
  let z ← getFlt E h c
  return ⟨x, y, z⟩

/-- the dictionary in _hit_to_primary, _maus_tracking.py:159-168. -/
def docOf (E : Ext K) (h : HS K) (seed : Int) : Except Err (Doc K) := do
  let pos ← getV3 E h "x" "y" "z"
  let mom ← getV3 E h "px" "py" "pz"
  let pid ← getInt E h "pid"
  let energy ← getFlt E h "energy"
  let time ← getFlt E h "t"
  return ⟨pos, mom, pid, energy, time, seed⟩

/-- models MAUSTracking._hit_to_primary, _maus_tracking.py:155-170. -/
def hitToPrimary (E : Ext K) (h : HS K) : PyM (State K) (Doc K) := fun s =>
  match docOf E h s.seed with
  | .error e => (.error e, s)
  | .ok d => (.ok d, { s with seed := s.seed + 1 })

/-- models `[self._hit_to_primary(hit) for hit in list_of_hits]`, _maus_tracking.py:93. -/
def primaries (E : Ext K) : List (HS K) → PyM (State K) (List (Doc K))
  | [] => return []
  | h :: r => do
    let d ← hitToPrimary E h
    let ds ← primaries E r
    return d :: ds

/-- models MAUSTracking._virtual_hit_to_xboa_hit, _maus_tracking.py:113-133. -/
def virtualToHit (E : Ext K) (wc : WC K) (spill : Int) (v : VHit K) (event : Nat) : Except Err (HS K) :=
  Maus.newObject (do
    Hit.setAll E [("x", .flt v.pos.x), ("px", .flt v.mom.x), ("y", .flt v.pos.y), ("py", .flt v.mom.y),
      ("z", .flt v.pos.z), ("pz", .flt v.mom.z), ("pid", .int v.pid), ("t", .flt v.time)]
    let m ← lift (massOf (.int v.pid))
    Hit.set E "mass" m
    let q ← lift (chargeOf (.int v.pid))
    Hit.set E "charge" q
    Hit.setAll E [("particle_number", .int v.track), ("event_number", .int event), ("spill", .int spill),
      ("station", .int v.station)]
    let _ ← Hit.mass_shell_condition E "energy") ⟨Core.new, wc⟩

/-- models MAUSTracking._primary_to_xboa_hit, _maus_tracking.py:135-153. -/
def primaryToHit (E : Ext K) (wc : WC K) (spill : Int) (p : Primary K) (event : Nat) (particle : Int) :
    Except Err (HS K) :=
  Maus.newObject (do
    Hit.setAll E [("x", .flt p.pos.x), ("px", .flt p.mom.x), ("y", .flt p.pos.y), ("py", .flt p.mom.y),
      ("z", .flt p.pos.z), ("pz", .flt p.mom.z), ("pid", .int p.pid), ("energy", .flt p.energy),
      ("t", .flt p.time)]
    let m ← lift (massOf (.int p.pid))
    Hit.set E "mass" m
    let q ← lift (chargeOf (.int p.pid))
    Hit.set E "charge" q
    Hit.setAll E [("particle_number", .int particle), ("event_number", .int event),
      ("spill", .int spill), ("station", .int (-1))]) ⟨Core.new, wc⟩

/-- a list comprehension whose items may raise -/
def build {α : Type} : List (Except Err α) → Except Err (List α)
  | [] => .ok []
  | .error e :: _ => .error e
  | .ok a :: r =>
    match build r with
    | .error e => .error e
    | .ok l => .ok (a :: l)

/-- models MAUSTracking._mc_event_to_hit_list, _maus_tracking.py:102-111. -/
def eventToHits (E : Ext K) (wc : WC K) (spill : Int) (e : Event K) (event : Nat) :
    Except Err (List (HS K)) :=
  match primaryToHit E wc spill e.primary event 1 with
  | .error err => .error err
  | .ok p =>
    match e.virtuals with
    | none => .ok [p]
    | some vs =>
      match build (vs.map fun v => virtualToHit E wc spill v event) with
      | .error err => .error err
      | .ok l => .ok ([p] ++ l)

/-- models MAUSTracking.track_many, _maus_tracking.py:80-100. -/
def trackMany (E : Ext K) (wc : WC K) (sim : List (List (Doc K)) → List (Doc K) → Except Err (List (Event K)))
    (hits : List (HS K)) : PyM (State K) (List (List (HS K))) := fun s =>
  match primaries E hits s with
  | (.error e, s) => (.error e, s)
  | (.ok docs, s) =>
    match sim s.sent docs with
    | .error e => (.error e, { s with sent := s.sent ++ [docs] })
    | .ok events =>
      match build (events.zipIdx.map fun p => eventToHits E wc s.spill p.1 p.2) with
      | .error e => (.error e, { s with sent := s.sent ++ [docs] })
      | .ok l => (.ok l, { s with sent := s.sent ++ [docs], last := l, spill := s.spill + 1 })

/-- models MAUSTracking.track_one, _maus_tracking.py:65-77. -/
def trackOne (E : Ext K) (wc : WC K) (sim : List (List (Doc K)) → List (Doc K) → Except Err (List (Event K)))
    (hit : HS K) : PyM (State K) (List (HS K)) := fun s =>
  match trackMany E wc sim [hit] s with
  | (.error e, s) => (.error e, s)
  | (.ok [], s) => (.error .IndexError, s)
  | (.ok (l :: _), s) => (.ok l, s)

/-- A call of one of the two methods. -/
inductive Call (K : Type)
  | one (hit : HS K)
  | many (hits : List (HS K))

/-- What a call returns; the list of track_one is put in a list. -/
def call (E : Ext K) (wc : WC K) (sim : List (List (Doc K)) → List (Doc K) → Except Err (List (Event K))) :
    Call K → PyM (State K) (List (List (HS K)))
  | .one hit => fun s =>
    match trackOne E wc sim hit s with
    | (.error e, s) => (.error e, s)
    | (.ok l, s) => (.ok [l], s)
  | .many hits => trackMany E wc sim hits

/-- A history: calls made one after the other on one object, whether they raise or not. -/
def run (E : Ext K) (wc : WC K) (sim : List (List (Doc K)) → List (Doc K) → Except Err (List (Event K))) :
    List (Call K) → State K → List (Except Err (List (List (HS K)))) × State K
  | [], s => ([], s)
  | c :: r, s =>
    match call E wc sim c s with
    | (x, s) =>
      match run E wc sim r s with
      | (xs, s) => (x :: xs, s)

end MausTracking
end Xboa
