import Verif.Model.Tune
import Verif.Model.FFTTune
import Verif.Model.Tracking
/-
Model of run_tracking of the tune finders: xboa/algorithms/tune/_dphi_tune.py:42-65 (DPhiTuneFinder)
and xboa/algorithms/tune/_fft_tune.py:106-125 (FFTTuneFinder).  The attributes axis1 and axis2 are
used for plotting only and left out.
-/
namespace Xboa
namespace RunTracking
variable {K : Type} [Field K] [LinearOrder K] (E : Ext K)

/-- track_one of a tracking object with attributes `T`, called with a hit: the hits returned, the
object and the input hit with the weight context afterwards. -/
abbrev TrackOne (K T : Type) := T → HS K → Except Err (List (Core K)) × T × HS K

/-- A tune finder with attributes `A`, the tracking object, and the reference hit with the weight
context. -/
structure St (K T A : Type) where
  finder : A
  tracking : T
  ref : HS K

/-- models `hit[axis] += delta`, _dphi_tune.py:58-59 and _fft_tune.py:120, for a float delta. -/
def displace (axis : String) (delta : K) : PyM (HS K) Unit := do
  let old ← Hit.get E axis
  let new ← PyM.lift (Hit.addVal (.flt delta) old)
  Hit.set E axis new

/-- models `[hit for i, hit in enumerate(hits_out) if i in use_hits]`, _dphi_tune.py:61-62 and
_fft_tune.py:122-123. -/
def select (use : Option (List Int)) (hits : List (Core K)) : List (Core K) :=
  match use with
  | none => hits
  | some l => (hits.zipIdx.filter fun p => decide ((p.2 : Int) ∈ l)).map Prod.fst

/-- models `[hit[axis] for hit in hits_out]`, _dphi_tune.py:64-65 and _fft_tune.py:124-125. -/
def column (axis : String) : List (Core K) → WC K → Except Err (List K) × WC K
  | [], wc => (.ok [], wc)
  | c :: r, wc =>
    match Hit.getNum E axis ⟨c, wc⟩ with
    | (.error e, s) => (.error e, s.wc)
    | (.ok a, s) =>
      match column axis r s.wc with
      | (.error e, wc) => (.error e, wc)
      | (.ok l, wc) => (.ok (a :: l), wc)

/-- models _dphi_tune.py:55-62 and _fft_tune.py:119-123: the reference hit is copied, the copy is
displaced and tracked. -/
def trackDisplaced {T : Type} (track : TrackOne K T) (move : PyM (HS K) Unit) (use : Option (List Int))
    (t : T) (ref : HS K) : Except Err (List (Core K)) × T × WC K :=
  match Hit.deepcopy E ref with
  | (.error e, c) => (.error e, t, c.wc)
  | (.ok (), c) =>
    match move c with
    | (.error e, c) => (.error e, t, c.wc)
    | (.ok (), c) =>
      match track t c with
      | (.error e, t, c) => (.error e, t, c.wc)
      | (.ok hits, t, c) => (.ok (select use hits), t, c.wc)

/-- models _dphi_tune.py:42-65 (DPhiTuneFinder.run_tracking) -/
def dphiRun {T : Type} (track : TrackOne K T) (axis1 axis2 : String) (delta1 delta2 : K)
    (use : Option (List Int)) : PyM (St K T (Tune.State K)) Unit := fun s =>
  match trackDisplaced E track (do displace E axis1 delta1; displace E axis2 delta2) use s.tracking
      s.ref with
  | (.error e, t, wc) => (.error e, ⟨s.finder, t, ⟨s.ref.core, wc⟩⟩)
  | (.ok hits, t, wc) =>
    match column E axis1 hits wc with
    | (.error e, wc) => (.error e, ⟨s.finder, t, ⟨s.ref.core, wc⟩⟩)
    | (.ok u, wc) =>
      match column E axis2 hits wc with
      | (.error e, wc) => (.error e, ⟨{ s.finder with u := some u }, t, ⟨s.ref.core, wc⟩⟩)
      | (.ok up, wc) => (.ok (), ⟨{ s.finder with u := some u, up := some up }, t, ⟨s.ref.core, wc⟩⟩)

/-- models _fft_tune.py:106-125 (FFTTuneFinder.run_tracking) -/
def fftRun {T : Type} (track : TrackOne K T) (axis : String) (delta : K) (use : Option (List Int)) :
    PyM (St K T (FFTTune.State K)) Unit := fun s =>
  match trackDisplaced E track (displace E axis delta) use s.tracking s.ref with
  | (.error e, t, wc) => (.error e, ⟨s.finder, t, ⟨s.ref.core, wc⟩⟩)
  | (.ok hits, t, wc) =>
    match column E axis hits wc with
    | (.error e, wc) => (.error e, ⟨s.finder, t, ⟨s.ref.core, wc⟩⟩)
    | (.ok u, wc) =>
      match column E ("p" ++ axis) hits wc with
      | (.error e, wc) => (.error e, ⟨{ s.finder with u := some u }, t, ⟨s.ref.core, wc⟩⟩)
      | (.ok up, wc) => (.ok (), ⟨{ s.finder with u := some u, up := some up }, t, ⟨s.ref.core, wc⟩⟩)

end RunTracking
end Xboa
