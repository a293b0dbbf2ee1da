import Verif.Model.BunchWrite
/-
Model of a program that saves a bunch and reads it back again and again, in one run of Python:
Bunch.hit_write_builtin (xboa/bunch/_bunch.py:1363-1373) and Bunch.new_from_read_builtin (151-181), with the
unit of length of G4Beamline files that Hit.set_g4bl_unit (xboa/hit/_hit.py:684-696) keeps for all of the run.
-/
namespace Xboa
namespace Reload
open TextIO BunchRead BunchWrite
variable {K : Type} [Field K] [LinearOrder K] [FloorRing K] {W : Type}

/-- The bunch in hand, all hits, the unit of length set last, and the number of the next new hit. -/
structure Session (K : Type) where
  bunch : Bunch K
  world : BWorld K
  unit : String
  next : Nat

/-- The bunch is written, _bunch.py:1363-1373, and read from the file, _bunch.py:151-181; setup_file,
_bunch.py:465-487, sets the unit when it meets a line of the header that names one. -/
def reload (E : Ext K) (T : Text K W) (words : String → List W) (format : String) (c : Comment)
    (s : Session K) : Except Err (Session K) :=
  match hitWrite E T words s.unit format (some c) s.bunch s.world with
  | (.error e, _) => .error e
  | (.ok file, w) =>
    match newFromRead E T format (fun _ => true) [file] s.next w with
    | (.error e, _) => .error e
    | (.ok b, w) => .ok ⟨b, w, (setupFile format file s.unit).2, s.next + b.hits.length⟩

/-- Saved and read back once for each of the comments. -/
def reloads (E : Ext K) (T : Text K W) (words : String → List W) (format : String) :
    List Comment → Session K → Except Err (Session K)
  | [], s => .ok s
  | c :: r, s =>
    match reload E T words format c s with
    | .error e => .error e
    | .ok s => reloads E T words format r s

end Reload
end Xboa
