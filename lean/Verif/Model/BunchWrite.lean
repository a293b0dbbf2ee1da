import Verif.Model.BunchRead
/-
Model of Bunch.hit_write_builtin, hit_write_builtin_from_dict, hit_write_user
(xboa/bunch/_bunch.py:1363-1409) and
the headers of the files (Hit.open_filehandle_for_writing, file_header, xboa/hit/_hit.py:457-484)
for the text formats.  Files can be opened and written without errors.
-/
namespace Xboa
namespace BunchWrite
open TextIO
variable {K : Type} [Field K] [LinearOrder K] [FloorRing K] {W : Type}

/-- A comment: its first line and the lines after each newline in it. -/
structure Comment where
  first : String
  more : List String

/-- models _hit.py:901 (__default_user_string). -/
def defaultComment : Comment := ⟨"File generated by X_BOA", []⟩

/-- models _hit.py:889-900 (__file_headers) with `<user>` replaced by the comment: the lines.  (The
headers of the other formats are empty too.) -/
def headerOf (format : String) (c : Comment) : List String :=
  if format = "icool_for003" then c.first :: c.more ++ ["0. 0. 0. 0. 0. 0. 0. 0."]
  else if format = "icool_for009" then
    ("#" ++ c.first) :: c.more ++ ["#  units = [s] [m]  [GeV/c] [T] [V/m]",
      "evt par typ  flg   reg    time        x           y           z           Px          Py          Pz          Bx          By          Bz          wt          Ex          Ey          Ez          arclength   polX        polY        polZ"]
  else if format = "g4beamline_bl_track_file" ∨ format = "g4beamline_bl_track_file_2" then
    ("#BLTrackFile " ++ c.first) :: c.more ++ ["#x y z Px Py Pz t PDGid EvNum TrkId Parent weight"]
  else []

/-- models _hit.py:472-484 (file_header). -/
def fileHeader (format : String) (comment : Option Comment) : List String :=
  headerOf format (comment.getD defaultComment)

/-- The line of a file with this text; `words` is str.split. -/
def lineOfText (words : String → List W) (t : String) : Line W :=
  { hash := t.toList.head? == some '#'
    unit := if hasSub "cm cm cm" t then some "cm" else if hasSub "mm mm mm" t then some "mm" else none
    words := words t }

/-- models _hit.py:808 (__file_types), the text formats. -/
def fileTypes : List String :=
  ["icool_for009", "icool_for003", "g4beamline_bl_track_file", "g4beamline_bl_track_file_2", "mars_1"]

/-- models _hit.py:414-455 (write_list_builtin_formatted) with the header: the lines of the file and
the world after it. -/
def writeHits (E : Ext K) (T : Text K W) (words : String → List W) (g4 format : String)
    (comment : Option Comment) (hits : List Nat) (w : BWorld K) : List (Line W) × BWorld K :=
  let s := writeList E T g4 format hits ⟨w.hits, w.ctx w.hcur, ⟨[], [], 0, fun _ => true⟩⟩
  ((fileHeader format comment).map (lineOfText words) ++ s.file.lines.map fun ws => ⟨false, none, ws⟩,
   { w with hits := s.hits, ctx := fun c => if c = w.hcur then s.wc else w.ctx c })

/-- models _bunch.py:1363-1373 (hit_write_builtin). -/
def hitWrite (E : Ext K) (T : Text K W) (words : String → List W) (g4 format : String)
    (comment : Option Comment) (b : Bunch K) (w : BWorld K) : Except Err (List (Line W)) × BWorld K :=
  if format ∉ fileTypes then (.error .IOError, w)
  else
    match writeHits E T words g4 format comment b.hits w with
    | (file, w) => (.ok file, w)

/-- models _bunch.py:1375-1389 (hit_write_builtin_from_dict); the comment is not handed on. -/
def hitWriteFromDict (E : Ext K) (T : Text K W) (words : String → List W) (g4 format : String)
    (_comment : Option Comment) (d : List (Int × Bunch K)) (w : BWorld K) :
    Except Err (List (Line W)) × BWorld K :=
  if format ∉ fileTypes then (.error .IOError, w)
  else
    match writeHits E T words g4 format none (d.foldl (fun all p => all ++ p.2.hits) []) w with
    | (file, w) => (.ok file, w)

/-- models the loop _bunch.py:1408-1409: each hit is written in turn; an error ends it. -/
def userLoop (E : Ext K) (T : Text K W) (us : List (String × String)) (fmt : List String) :
    List Nat → PyM (WList K W) Unit
  | [] => fun s => (.ok (), s)
  | i :: r => fun s =>
    match writeUser E T us fmt (⟨s.hits i, s.wc⟩, s.file) with
    | (.error e, (h, f)) => (.error e, ⟨fun j => if j = i then h.core else s.hits j, h.wc, f⟩)
    | (.ok _, (h, f)) => userLoop E T us fmt r ⟨fun j => if j = i then h.core else s.hits j, h.wc, f⟩

/-- models _bunch.py:1391-1409 (hit_write_user) for a separator of white space; `comparator` says
whether one is given.  The argument of list.sort is keyword only, so `sort(comparator)` is a
TypeError. -/
def hitWriteUser (E : Ext K) (T : Text K W) (us : List (String × String)) (fmt : List String)
    (comparator : Bool) (b : Bunch K) : PyM (WList K W) Unit :=
  if comparator then PyM.raise .TypeError
  else userLoop E T us fmt b.hits

end BunchWrite
end Xboa
