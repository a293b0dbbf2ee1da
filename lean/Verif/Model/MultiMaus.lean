import Verif.Model.MausTracking
import Verif.Model.Tracking
/-
Model of MultiTrack (xboa/tracking/_multitrack.py) when its jobs track with a MAUSTracking
(xboa/tracking/_maus_tracking.py).

A job is a deep copy of the job that MultiTrack was made with, _multitrack.py:79, and it is run in another
process on a pickled copy of itself, tracking_process/_tracking_process.py:70-71.  Both copies are made by
MAUSTracking.__getstate__ and __setstate__.  The random seed, the spill number and `last` of the object that
MultiTrack was made with are then not touched.  Every process has a MAUS of its own, so that nothing was sent
to it before; all of them are the same function `sim`.
-/
namespace Xboa
namespace MultiMaus
open Root MausTracking
variable {K : Type} [Field K] [LinearOrder K]

/-- The dictionary of _maus_tracking.py:172-180, without the datacards, which are not modelled. -/
structure Saved (K : Type) where
  seed : Int
  spill : Int
  last : List (List (HS K))

/-- models MAUSTracking.__getstate__, _maus_tracking.py:172-180. -/
def getState (s : State K) : Saved K := ⟨s.seed, s.spill, s.last⟩

/-- models MAUSTracking.__setstate__, _maus_tracking.py:182-189: __init__ and then two assignments. -/
def setState (d : Saved K) : State K := { init d.seed with spill := d.spill, last := d.last }

/-- copy.deepcopy of a MAUSTracking, or pickling and unpickling it. -/
def copied (s : State K) : State K := setState (getState s)

/-- models what is done in the process of a job, tracking_process/_tracking_process.py:108-112: track_many of
the unpickled deep copy of the tracking object. -/
def runJob (E : Ext K) (wc : WC K) (sim : List (List (Doc K)) → List (Doc K) → Except Err (List (Event K)))
    (s : State K) (chunk : List (HS K)) : Except Err (List (List (HS K))) × State K :=
  trackMany E wc sim chunk (copied (copied s))

/-- The job for `chunk` as MultiTrack sees it: if track_many raises in the process there is no return value,
tracking_process/_tracking_process.py:126-144. -/
def job (E : Ext K) (wc : WC K) (sim : List (List (Doc K)) → List (Doc K) → Except Err (List (Event K)))
    (s : State K) (finish : Nat) (chunk : List (HS K)) : Tracking.Job (List (HS K)) :=
  ⟨finish, match (runJob E wc sim s chunk).1 with
    | .ok l => some l
    | .error _ => none⟩

/-- models MultiTrack.track_many_async, _multitrack.py:65-84, with jobs that finish at the times `finish`. -/
def jobs (v : Tracking.PyVer) (E : Ext K) (wc : WC K)
    (sim : List (List (Doc K)) → List (Doc K) → Except Err (List (Event K))) (n : Int) (finish : Nat → Nat)
    (s : State K) (hits : List (HS K)) : Except Err (List (Tracking.Job (List (HS K)))) :=
  match Tracking.trackManyJobs v n hits with
  | .error e => .error e
  | .ok chunks => .ok (chunks.zipIdx.map fun c => job E wc sim s (finish c.2) c.1)

/-- All that is sent to the MAUS of each process by MultiTrack.track_many_async, _multitrack.py:65-84. -/
def sentBy (v : Tracking.PyVer) (E : Ext K) (wc : WC K)
    (sim : List (List (Doc K)) → List (Doc K) → Except Err (List (Event K))) (n : Int)
    (s : State K) (hits : List (HS K)) : Except Err (List (List (List (Doc K)))) :=
  match Tracking.trackManyJobs v n hits with
  | .error e => .error e
  | .ok chunks => .ok (chunks.map fun c => (runJob E wc sim s c).2.sent)

end MultiMaus
end Xboa
