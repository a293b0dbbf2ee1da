import Verif.Model.BunchList
import Verif.Model.Common
/-
Model of the text input and output: Hit.write_builtin_formatted, write_list_builtin_formatted
(xboa/hit/_hit.py), LineFactoryBase, BuiltinHitFactory, UserHitFactory (xboa/hit/factory) and
Bunch.setup_file, new_from_read_builtin, new_from_read_user (xboa/bunch/_bunch.py).

A line of a file is a list of words; how Python turns numbers into words and back is a parameter
`Text`.  All numbers are field elements, so v / unit * unit is v (rounding is not modelled).
-/
namespace Xboa
namespace TextIO

/-- Python's str(int), str(float), int(word), float(word); none stands for ValueError. -/
structure Text (K W : Type) where
  showInt : Int → W
  showFlt : K → W
  parseInt : W → Option Int
  parseFlt : W → Option K

/-- What is assumed of them: repr of a number reads back as that number (Python 3). -/
structure Text.Lawful {K W : Type} (T : Text K W) : Prop where
  int_round : ∀ n, T.parseInt (T.showInt n) = some n
  flt_round : ∀ v, T.parseFlt (T.showFlt v) = some v

variable {K W : Type} [Field K] [LinearOrder K]

/-- The values int and float of Hit._default_var_types. -/
inductive VType | int | flt
deriving DecidableEq

/-- models _hit.py:821-838 (Hit._default_var_types). -/
def varTypes : List (String × VType) :=
  [("x", .flt), ("y", .flt), ("z", .flt), ("t", .flt), ("px", .flt), ("py", .flt), ("pz", .flt),
   ("energy", .flt), ("bx", .flt), ("by", .flt), ("bz", .flt), ("ex", .flt), ("ey", .flt),
   ("ez", .flt), ("eventNumber", .int), ("event_number", .int), ("particleNumber", .int),
   ("particle_number", .int), ("pid", .int), ("status", .int), ("station", .int),
   ("local_weight", .flt), ("sx", .flt), ("sy", .flt), ("sz", .flt), ("mass", .flt),
   ("path_length", .flt), ("proper_time", .flt), ("e_dep", .flt), ("charge", .flt),
   ("p", .flt), ("r", .flt), ("phi", .flt), ("pt", .flt), ("pphi", .flt), ("x'", .flt),
   ("y'", .flt), ("t'", .flt), ("ct'", .flt), ("r'", .flt), ("spin", .flt), ("weight", .flt),
   ("ct", .flt), ("r_squared", .flt), ("z'", .flt), ("kinetic_energy", .flt), ("l_kin", .flt),
   ("", .flt)]

/-- models _common.py:95-107 (units), the rows with rational values.  (The rows for degrees and
Coulomb are left out; no built-in format uses them.) -/
def units : List (String × K) :=
  [("", 1), ("mum", 1 / 1000), ("mm", 1), ("cm", 10), ("m", 1000), ("km", 1000000),
   ("ns", 1), ("mus", 1000), ("ms", 1000000), ("s", 1000000000),
   ("eV", 1 / 1000000), ("keV", 1 / 1000), ("MeV", 1), ("GeV", 1000), ("TeV", 1000000),
   ("eV/c", 1 / 1000000), ("keV/c", 1 / 1000), ("MeV/c", 1), ("GeV/c", 1000), ("TeV/c", 1000000),
   ("eV/c2", 1 / 1000000), ("keV/c2", 1 / 1000), ("MeV/c2", 1), ("GeV/c2", 1000),
   ("TeV/c2", 1000000),
   ("Gauss", 1 / 10000000), ("mT", 1 / 1000000), ("T", 1 / 1000), ("kT", 1),
   ("V", 1 / 1000000), ("kV", 1 / 1000), ("MV", 1), ("GV", 1000),
   ("kHz", 1 / 1000000), ("MHz", 1 / 1000), ("GHz", 1), ("GV/m", 1), ("GV/mm", 1000),
   ("echarge", 1)]

/-- icool_for009, _hit.py:865-866 and _builtin_hit_factory.py:75-76. -/
def fmtFor009 : List String :=
  ["eventNumber", "particleNumber", "pid", "status", "station", "t", "x", "y", "z", "px", "py", "pz",
   "bx", "by", "bz", "local_weight", "ex", "ey", "ez", "", "sx", "sy", "sz"]
/-- icool_for003, _hit.py:867 and _builtin_hit_factory.py:77. -/
def fmtFor003 : List String :=
  ["eventNumber", "particleNumber", "pid", "status", "t", "local_weight", "x", "y", "z", "px", "py",
   "pz", "sx", "sy", "sz"]
/-- g4beamline_bl_track_file, _hit.py:868 and _builtin_hit_factory.py:78. -/
def fmtG4bl : List String :=
  ["x", "y", "z", "px", "py", "pz", "t", "pid", "eventNumber", "particleNumber", "", "local_weight"]
/-- g4beamline_bl_track_file_2, _hit.py:869 and _builtin_hit_factory.py:79. -/
def fmtG4bl2 : List String :=
  ["x", "y", "z", "px", "py", "pz", "t", "pid", "eventNumber", "particleNumber", "", "local_weight",
   "", "", ""]
/-- mars_1, _hit.py:873 and _builtin_hit_factory.py:80. -/
def fmtMars : List String :=
  ["eventNumber", "pid", "x", "y", "z", "px", "py", "pz", "energy", "ct", "local_weight"]

/-- _hit.py:876-878 and _builtin_hit_factory.py:84-86. -/
def unitsFor009 : List (String × String) :=
  [("eventNumber", ""), ("particleNumber", ""), ("pid", ""), ("status", ""), ("station", ""),
   ("t", "s"), ("x", "m"), ("y", "m"), ("z", "m"), ("px", "GeV/c"), ("py", "GeV/c"), ("pz", "GeV/c"),
   ("bx", "T"), ("by", "T"), ("bz", "T"), ("local_weight", ""), ("ex", "GV/m"), ("ey", "GV/m"),
   ("ez", "GV/m"), ("sx", ""), ("sy", ""), ("sz", ""), ("", "")]
/-- _hit.py:879 and _builtin_hit_factory.py:87. -/
def unitsFor003 : List (String × String) :=
  [("eventNumber", ""), ("particleNumber", ""), ("pid", ""), ("status", ""), ("t", "s"),
   ("local_weight", ""), ("x", "m"), ("y", "m"), ("z", "m"), ("px", "GeV/c"), ("py", "GeV/c"),
   ("pz", "GeV/c"), ("sx", ""), ("sy", ""), ("sz", "")]
/-- _hit.py:880-881 and _builtin_hit_factory.py:89-90; `u` is the unit of length. -/
def unitsG4bl (u : String) : List (String × String) :=
  [("x", u), ("y", u), ("z", u), ("px", "MeV/c"), ("py", "MeV/c"), ("pz", "MeV/c"), ("t", "ns"),
   ("pid", ""), ("eventNumber", ""), ("station", ""), ("local_weight", ""), ("particleNumber", "")]
/-- _hit.py:885 and _builtin_hit_factory.py:90. -/
def unitsMars : List (String × String) :=
  [("eventNumber", ""), ("pid", ""), ("x", "mm"), ("y", "mm"), ("z", "mm"), ("px", "GeV/c"),
   ("py", "GeV/c"), ("pz", "GeV/c"), ("energy", "GeV"), ("ct", "cm"), ("local_weight", "")]

/-- models Hit.__file_formats, _hit.py:864-874. -/
def hitFormats : List (String × List String) :=
  [("icool_for009", fmtFor009), ("icool_for003", fmtFor003), ("g4beamline_bl_track_file", fmtG4bl),
   ("g4beamline_bl_track_file_2", fmtG4bl2), ("ZGoubi", []), ("Turtle", []), ("MadX", []),
   ("mars_1", fmtMars)]
/-- models Hit.__file_units, _hit.py:875-888.  It is changed by Hit.set_g4bl_unit (684-696): `u` is
the unit set last, "mm" at the start. -/
def hitUnits (u : String) : List (String × List (String × String)) :=
  [("icool_for009", unitsFor009), ("icool_for003", unitsFor003),
   ("g4beamline_bl_track_file", unitsG4bl u), ("g4beamline_bl_track_file_2", unitsG4bl "mm"),
   ("ZGoubi", []), ("Turtle", []), ("MadX", []), ("mars_1", unitsMars),
   ("maus_json_virtual_hit", []), ("maus_json_primary", [])]
/-- models BuiltinHitFactory.file_formats, _builtin_hit_factory.py:74-81. -/
def factoryFormats : List (String × List String) :=
  [("icool_for009", fmtFor009), ("icool_for003", fmtFor003), ("g4beamline_bl_track_file", fmtG4bl),
   ("g4beamline_bl_track_file_2", fmtG4bl2), ("mars_1", fmtMars)]
/-- models BuiltinHitFactory.file_units, _builtin_hit_factory.py:83-91: a table of its own, which
set_g4bl_unit does not change. -/
def factoryUnits : List (String × List (String × String)) :=
  [("icool_for009", unitsFor009), ("icool_for003", unitsFor003),
   ("g4beamline_bl_track_file", unitsG4bl "mm"), ("g4beamline_bl_track_file_2", unitsG4bl "mm"),
   ("mars_1", unitsMars)]

/-- `format.find(p) > -1` -/
def hasSub (p : String) (format : String) : Bool :=
  format.toList.tails.any fun t => p.toList.isPrefixOf t

/-! ### writing -/

/-- A text file open for writing: the finished lines, the words of the unfinished one, the number of
write() calls so far, and which calls succeed. -/
structure OutFile (W : Type) where
  lines : List (List W)
  cur : List W
  calls : Nat
  ok : Nat → Bool

/-- `file_handle.write(str(value)+separator)` for a separator of white space. -/
def writeWord (w : W) : PyM (OutFile W) Unit := fun f =>
  if f.ok f.calls then (.ok (), { f with cur := f.cur ++ [w], calls := f.calls + 1 })
  else (.error .IOError, { f with calls := f.calls + 1 })

/-- `file_handle.write('\n')` -/
def writeNewline : PyM (OutFile W) Unit := fun f =>
  if f.ok f.calls then (.ok (), { f with lines := f.lines ++ [f.cur], cur := [], calls := f.calls + 1 })
  else (.error .IOError, { f with calls := f.calls + 1 })

/-- `d[k]` of a Python dict -/
def dictGet {α β : Type} [DecidableEq α] (d : List (α × β)) (k : α) : Except Err β :=
  match d.lookup k with
  | some v => .ok v
  | none => .error .KeyError

variable [FloorRing K]

/-- the value written for a key, _hit.py:719-721: `Hit._default_var_types[key](self.get(key)/unit)` -/
def formatValue (E : Ext K) (T : Text K W) (us : List (String × String)) (key : String) :
    PyM (HS K) W :=
  if key = "" then return T.showInt 0
  else do
    let t ← PyM.lift (dictGet varTypes key)
    let v ← Hit.getNum E key
    let name ← PyM.lift (dictGet us key)
    let u ← PyM.lift (dictGet (units : List (String × K)) name)
    match t with
    | .int => return T.showInt (Bunch.pyInt (v / u))
    | .flt => return T.showFlt (v / u)

/-- models _hit.py:717-722 (__write_formatted). -/
def writeFormatted (E : Ext K) (T : Text K W) (us : List (String × String)) :
    List String → PyM (HS K × OutFile W) Unit
  | [] => fun s =>
    match writeNewline s.2 with
    | (r, f) => (r, (s.1, f))
  | key :: rest => fun s =>
    match formatValue E T us key s.1 with
    | (.error e, h) => (.error e, (h, s.2))
    | (.ok w, h) =>
      match writeWord w s.2 with
      | (.error e, f) => (.error e, (h, f))
      | (.ok _, f) => writeFormatted E T us rest (h, f)

/-- Run a method of the hit. -/
def onHit {α : Type} (m : PyM (HS K) α) : PyM (HS K × OutFile W) α := fun s =>
  match m s.1 with
  | (r, h) => (r, (h, s.2))

/-- `self.set('pid', table[self.get('pid')])` -/
def convertPid (E : Ext K) (table : List (Int × Int)) : PyM (HS K) Unit := fun s =>
  match dictGet table (s.core.i .pid) with
  | .error e => (.error e, s)
  | .ok p => Hit.set E "pid" (.int p) s

/-- `if format.find(name) > -1: self.set('pid', table[self.get('pid')])` -/
def convertIf (E : Ext K) (name format : String) (table : List (Int × Int)) : PyM (HS K) Unit :=
  if hasSub name format then convertPid E table else return ()

/-- models _hit.py:392-411 (write_builtin_formatted); `g4` is the unit set by set_g4bl_unit. -/
def writeBuiltin (E : Ext K) (T : Text K W) (g4 : String) (format : String) :
    PyM (HS K × OutFile W) Unit :=
  if hasSub "maus" format then PyM.raise .IOError
  else do
    onHit (convertIf E "icool" format Common.pdgPidToIcool)
    onHit (convertIf E "mars" format Common.pdgPidToMars)
    let fmt ← PyM.lift (dictGet hitFormats format)
    let us ← PyM.lift (dictGet (hitUnits g4) format)
    writeFormatted E T us fmt
    onHit (convertIf E "icool" format Common.icoolPidToPdg)
    onHit (convertIf E "mars" format Common.marsPidToPdg)

/-- The hits (numbered), the weight context and the file. -/
structure WList (K W : Type) where
  hits : Nat → Core K
  wc : WC K
  file : OutFile W

/-- `try: hit_out.write_builtin_formatted(file_type_string, filehandle) except: ...`, _hit.py:445-446
and 450-453. -/
def tryWrite (E : Ext K) (T : Text K W) (g4 format : String) (s : WList K W) (i : Nat) : WList K W :=
  match writeBuiltin E T g4 format (⟨s.hits i, s.wc⟩, s.file) with
  | (_, (h, f)) => ⟨fun j => if j = i then h.core else s.hits j, h.wc, f⟩

/-- models _hit.py:440-453: the loop over the sorted hits, with old_hit and current_hits. -/
def groupLoop (E : Ext K) (T : Text K W) (g4 format : String) :
    List Nat → Option Nat → List Nat → WList K W → WList K W
  | [], _, current, s => current.foldl (tryWrite E T g4 format) s
  | i :: r, old, current, s =>
    if old.all (fun o => decide ((s.hits i).i .station = (s.hits o).i .station)) then
      groupLoop E T g4 format r (some i) (current ++ [i]) s
    else groupLoop E T g4 format r (some i) [i] (current.foldl (tryWrite E T g4 format) s)

/-- models _hit.py:414-455 (write_list_builtin_formatted) for a text format and a file on which the
header has been written (open_filehandle_for_writing, 457-469). -/
def writeList (E : Ext K) (T : Text K W) (g4 format : String) (hits : List Nat) (s : WList K W) :
    WList K W :=
  groupLoop E T g4 format
    (hits.mergeSort fun a b => decide ((s.hits a).i .station ≤ (s.hits b).i .station)) none [] s

/-! ### reading -/

/-- One word is read and assigned, _line_factory_base.py:56-68. -/
def readWord (E : Ext K) (T : Text K W) (us : List (String × String)) (key : String) (w : W) :
    PyM (HS K) Unit :=
  if key = "" then return ()
  else do
    let t ← PyM.lift (dictGet varTypes key)
    match t with
    | .int =>
      match T.parseInt w with
      | some n => Hit.set E key (.int n)
      | none =>
        match T.parseFlt w with
        | some v => Hit.set E key (.int (Bunch.pyInt v))
        | none => PyM.raise .ValueError
    | .flt =>
      match T.parseFlt w with
      | none => PyM.raise .ValueError
      | some v => do
        let name ← PyM.lift (dictGet us key)
        let u ← PyM.lift (dictGet (units : List (String × K)) name)
        Hit.set E key (.flt (v * u))

/-- models the loop _line_factory_base.py:56-68. -/
def readWords (E : Ext K) (T : Text K W) (us : List (String × String)) :
    List String → List W → PyM (HS K) Unit
  | key :: keys, w :: ws => do
    readWord E T us key w
    readWords E T us keys ws
  | _, _ => return ()

/-- models _line_factory_base.py:42-69 (_read_formatted) for a line that is there; the state is the
new hit, the one passed in is ignored. -/
def readFormatted (E : Ext K) (T : Text K W) (us : List (String × String)) (fmt : List String)
    (words : List W) : PyM (HS K) Unit :=
  if words.length ≠ fmt.length then PyM.raise .BadEventError
  else do
    Hit.fresh
    readWords E T us fmt words

/-- the mass from the table, in MeV/c^2 -/
def massOf (pid : Int) : Except Err K :=
  match dictGet Common.pdgPidToMass |pid| with
  | .ok m => .ok ((m : K) / 1000000000)
  | .error e => .error e

/-- models _builtin_hit_factory.py:46-55: mass and mass shell. -/
def setMass (E : Ext K) : PyM (HS K) Unit := fun s =>
  match massOf (s.core.i .pid) with
  | .ok m => setAnd (.flt m) s
  | .error _ => setAnd (.flt 0) s
where
  /-- set the mass, then the energy from the mass shell -/
  setAnd (m : PyVal K) : PyM (HS K) Unit := do
    Hit.set E "mass" m
    let _ ← Hit.mass_shell_condition E "energy"

/-- models _builtin_hit_factory.py:56-62: the charge (unchanged for an unknown pid). -/
def setCharge (E : Ext K) : PyM (HS K) Unit := fun s =>
  match dictGet Common.pdgPidToCharge (s.core.i .pid) with
  | .ok q => Hit.set E "charge" (.int q) s
  | .error _ => (.ok (), s)

/-- models _builtin_hit_factory.py:23-63 (__init__ and make_hit) for a line that is there.  The file
format names of the factory all have the mass shell variable 'energy' and none has a charge
column. -/
def makeHit (E : Ext K) (T : Text K W) (format : String) (words : List W) : PyM (HS K) Unit := do
  let fmt ← PyM.lift (dictGet factoryFormats format)
  let us ← PyM.lift (dictGet factoryUnits format)
  readFormatted E T us fmt words
  convertIf E "icool" format Common.icoolPidToPdg
  convertIf E "mars" format Common.marsPidToPdg
  setMass E
  setCharge E

/-- A line of a text file: whether it starts with '#', the unit it names ('cm cm cm' or 'mm mm mm'
stands in it) and its words. -/
structure Line (W : Type) where
  hash : Bool
  unit : Option String
  words : List W

/-- models Bunch.__number_of_header_lines, _bunch.py:1906. -/
def headerLines : List (String × Nat) :=
  [("icool_for009", 3), ("icool_for003", 2), ("g4beamline_bl_track_file", 0),
   ("g4beamline_bl_track_file_2", 0), ("zgoubi", 0), ("turtle", 0), ("madx", 0), ("mars_1", 0),
   ("maus_json_virtual_hit", 0), ("maus_json_primary", 0), ("opal_loss", 1)]

/-- models _bunch.py:465-487 (setup_file): the lines given to the reader and the unit set by
set_g4bl_unit.  Blank lines, which are dropped or skipped later, are kept. -/
def setupFile (format : String) (file : List (Line W)) (g4 : String) :
    Except Err (List (List W)) × String :=
  match dictGet headerLines format with
  | .error e => (.error e, g4)
  | .ok n =>
    let rest := file.drop n
    if format = "g4beamline_bl_track_file" ∨ format = "g4beamline_bl_track_file_2" then
      (.ok ((rest.filter fun l => !l.hash).map Line.words),
       rest.foldl (fun u l => if l.hash then l.unit.getD u else u) g4)
    else (.ok (rest.map Line.words), g4)

/-- models the loop _bunch.py:320-331 for one file (and 360-371): hits made by `mk` are appended to
`acc`. -/
def readLoop (mk : List W → PyM (HS K) Unit) (number : Int) (test : HS K → Bool) :
    List (List W) → List (Core K) → WC K → Except Err (List (Core K)) × WC K
  | lines, acc, wc =>
    if (acc.length : Int) < number ∨ number < 0 then
      match lines with
      | [] => (.ok acc, wc)
      | ws :: r =>
        match mk ws ⟨Core.new, wc⟩ with
        | (.error .BadEventError, s) => readLoop mk number test r acc s.wc
        | (.error e, s) => (.error e, s.wc)
        | (.ok _, s) => readLoop mk number test r (if test s then acc ++ [s.core] else acc) s.wc
    else (.ok acc, wc)

/-- models _bunch.py:275-340 (Bunch.new_from_read_builtin) for the text formats; `files` are the
files found, in the order of the list given by glob. -/
def readFiles (E : Ext K) (T : Text K W) (format : String) (number : Int) (test : HS K → Bool) :
    List (List (Line W)) → List (Core K) → WC K → Except Err (List (Core K)) × WC K
  | [], acc, wc => (.ok acc, wc)
  | file :: r, acc, wc =>
    match (setupFile format file "mm").1 with
    | .error e => (.error e, wc)
    | .ok lines =>
      match readLoop (makeHit E T format) number test lines acc wc with
      | (.error e, wc) => (.error e, wc)
      | (.ok acc, wc) => readFiles E T format number test r acc wc

/-! ### user formats -/

/-- models _hit.py:488-498 (write_user_formatted) for a separator of white space. -/
def writeUser (E : Ext K) (T : Text K W) (us : List (String × String)) (fmt : List String) :
    PyM (HS K × OutFile W) Unit := writeFormatted E T us fmt

/-- models Hit.set_variables(), _hit.py:554-557 and 842-849: the names of the core, then those of
Hit.__set_variables (820). -/
def userSetVariables : List String :=
  setNames ++ ["p", "x'", "y'", "t'", "ct", "kinetic_energy", ""]

/-- models _user_hit_factory.py:45-59 (the checks in UserHitFactory.__init__); a name with no entry
in Hit._default_var_types ('spill', 'global_weight') raises KeyError too. -/
def userInit (K : Type) [Field K] (us : List (String × String)) : List String → Except Err Unit
  | [] => .ok ()
  | key :: r =>
    if key ∉ userSetVariables then .error .KeyError
    else
      match dictGet varTypes key with
      | .error e => .error e
      | .ok t =>
        if t = .flt ∧ key ≠ "" then
          match dictGet us key with
          | .error e => .error e
          | .ok name =>
            match dictGet (units : List (String × K)) name with
            | .error e => .error e
            | .ok _ => userInit K us r
        else userInit K us r

/-- `if 'mass' not in self.format_list: hit.set('mass', common.pdg_pid_to_mass[abs(hit['pid'])])`,
_user_hit_factory.py:70-71. -/
def userMass (E : Ext K) (fmt : List String) : PyM (HS K) Unit := fun s =>
  if "mass" ∈ fmt then (.ok (), s)
  else
    match massOf (s.core.i .pid) with
    | .ok m => Hit.set E "mass" (.flt m) s
    | .error e => (.error e, s)

/-- `if 'charge' not in self.format_list: hit.set('charge', common.pdg_pid_to_charge[hit['pid']])`,
_user_hit_factory.py:73-74. -/
def userCharge (E : Ext K) (fmt : List String) : PyM (HS K) Unit := fun s =>
  if "charge" ∈ fmt then (.ok (), s)
  else
    match dictGet Common.pdgPidToCharge (s.core.i .pid) with
    | .ok q => Hit.set E "charge" (.int q) s
    | .error e => (.error e, s)

/-- models _user_hit_factory.py:29-75 (UserHitFactory) and _hit.py:173-189 (new_from_read_user) for a
line that is there; `shell` is mass_shell_condition. -/
def makeUserHit (E : Ext K) (T : Text K W) (us : List (String × String)) (fmt : List String)
    (shell : String) (words : List W) : PyM (HS K) Unit := do
  PyM.lift (userInit K us fmt)
  readFormatted E T us fmt words
  userMass E fmt
  let _ ← Hit.mass_shell_condition E shell
  userCharge E fmt

/-- models _bunch.py:342-376 (Bunch.new_from_read_user) for a format that passes the checks (a format
that does not raises KeyError as soon as a hit is asked for, even at the end of the file). -/
def readUser (E : Ext K) (T : Text K W) (us : List (String × String)) (fmt : List String)
    (skip : Nat) (number : Int) (test : HS K → Bool) (file : List (List W)) (wc : WC K) :
    Except Err (List (Core K)) × WC K :=
  readLoop (makeUserHit E T us fmt "") number test (file.drop skip) [] wc

end TextIO
end Xboa
