import Verif.Model.Tracking
import Verif.Model.Common
/-
Model of writing hits in the MAUS json formats: xboa/hit/_hit.py (get_maus_dict, get_maus_tree and
the private functions they use, the MAUS branch of write_list_builtin_formatted) and of reading them:
xboa/hit/factory/_maus_json_hit_factory.py.

json.dumps followed by json.loads is taken to give back the same document.
-/
namespace Xboa
namespace Maus
variable {K : Type} [Field K] [LinearOrder K]

/-- An entry of the dictionary made for a hit: a number, or a three vector (itself a dictionary). -/
inductive MVal (K : Type) | num (v : Val K) | vec (d : List (String × Val K))
deriving DecidableEq

/-- The json documents that are made: the dictionary of a hit, a list, or a dictionary with one
key. -/
inductive Tree (K : Type)
  | hit (d : List (String × MVal K))
  | list (l : List (Tree K))
  | dict (key : String) (t : Tree K)

/-- An element of a path: a string, or a list holding the name of a variable (_hit.py:851-854). -/
inductive Elem | key (s : String) | split (v : String)
deriving DecidableEq

/-- models Hit.__maus_three_vec_conversions, _hit.py:841-844. -/
def threeVec : List (String × List (String × String)) :=
  [("maus_json_virtual_hit", [("position", ""), ("momentum", "p"), ("b_field", "b"), ("e_field", "e")]),
   ("maus_json_primary", [("position", ""), ("momentum", "p")])]

/-- models Hit.__maus_variable_conversions, _hit.py:846-849. -/
def conversions : List (String × List (String × String)) :=
  [("maus_json_virtual_hit", [("station_id", "station"), ("particle_id", "pid"),
      ("track_id", "particle_number"), ("time", "t"), ("mass", "mass"), ("charge", "charge"),
      ("proper_time", "proper_time"), ("path_length", "path_length")]),
   ("maus_json_primary", [("particle_id", "pid"), ("time", "t"), ("energy", "energy")])]

/-- models Hit.__maus_paths, _hit.py:851-854. -/
def paths : List (String × List Elem) :=
  [("maus_json_virtual_hit", [.key "mc_events", .split "particle_number", .key "virtual_hits",
      .split "station"]),
   ("maus_json_primary", [.key "mc_events", .split "particle_number", .key "primary"])]

/-- `d[k]`, _hit.py:514 and others -/
def dictAt {β : Type} (d : List (String × β)) (k : String) : Except Err β :=
  match d.lookup k with
  | some v => .ok v
  | none => .error .KeyError

/-- `[f(x) for x in l]` with a function that may raise -/
def mapE {α β : Type} (f : α → Except Err β) : List α → Except Err (List β)
  | [] => .ok []
  | a :: r =>
    match f a with
    | .error e => .error e
    | .ok b =>
      match mapE f r with
      | .error e => .error e
      | .ok l => .ok (b :: l)

/-- `self[key]`, _hit.py:125-127 (__getitem__ is get); the hit is not changed -/
def item (E : Ext K) (h : HS K) (key : String) : Except Err (Val K) := (Hit.get E key h).1

/-- models _hit.py:516-519: one three vector. -/
def vecDict (E : Ext K) (h : HS K) (p : String × String) : Except Err (String × MVal K) :=
  match mapE (fun xyz =>
    match item E h (p.2 ++ xyz) with
    | .error e => .error e
    | .ok v => .ok (xyz, v)) ["x", "y", "z"] with
  | .error e => .error e
  | .ok d => .ok (p.1, .vec d)

/-- models _hit.py:520-521: one variable. -/
def numDict (E : Ext K) (h : HS K) (p : String × String) : Except Err (String × MVal K) :=
  match item E h p.2 with
  | .error e => .error e
  | .ok v => .ok (p.1, .num v)

/-- models _hit.py:505-524 (get_maus_dict), the dictionary only.  The dictionary of units of both
types is empty (885-886), so the loop over it does nothing. -/
def mausDict (E : Ext K) (type : String) (h : HS K) : Except Err (List (String × MVal K)) :=
  match dictAt threeVec type with
  | .error e => .error e
  | .ok tv =>
    match dictAt conversions type with
    | .error e => .error e
    | .ok vs =>
      match mapE (vecDict E h) tv with
      | .error e => .error e
      | .ok l =>
        match mapE (numDict E h) vs with
        | .error e => .error e
        | .ok l' => .ok (l ++ l')

/-- `if not value in a_dict: a_dict[value] = []` then `a_dict[value].append(item)`, _hit.py:795-796. -/
def groupInsert {α β : Type} [DecidableEq β] : List (β × List α) → β → α → List (β × List α)
  | [], k, a => [(k, [a])]
  | (k', g) :: r, k, a => if k = k' then (k', g ++ [a]) :: r else (k', g) :: groupInsert r k a

/-- models the loop _hit.py:793-796. -/
def splitLoop (E : Ext K) (v : String) :
    List (HS K) → List (Val K × List (HS K)) → Except Err (List (Val K × List (HS K)))
  | [], d => .ok d
  | h :: r, d =>
    match item E h v with
    | .error e => .error e
    | .ok x => splitLoop E v r (groupInsert d x h)

/-- models _hit.py:791-798 (__split_list_by_equality). -/
def splitByEquality (E : Ext K) (v : String) (hits : List (HS K)) :
    Except Err (List (List (HS K))) :=
  match splitLoop E v hits [] with
  | .error e => .error e
  | .ok d => .ok (d.map Prod.snd)

/-- `hit.get_maus_dict(format)[0]` as a document -/
def hitTree (E : Ext K) (type : String) (h : HS K) : Except Err (Tree K) :=
  match mausDict E type h with
  | .error e => .error e
  | .ok d => .ok (.hit d)

/-- models _hit.py:768-788 (__get_maus_tree_recursive); the printing of the hits is left out. -/
def treeRec (E : Ext K) (type : String) : List Elem → List (HS K) → Except Err (Tree K)
  | [], _ => .error .IndexError
  | .key k :: rest, hits =>
    match rest with
    | [] =>
      match hits with
      | [] => .error .IndexError
      | [h] =>
        match hitTree E type h with
        | .error e => .error e
        | .ok t => .ok (.dict k t)
      | _ => .error .IOError
    | e :: rest' =>
      match treeRec E type (e :: rest') hits with
      | .error e => .error e
      | .ok t => .ok (.dict k t)
  | .split v :: rest, hits =>
    match rest with
    | [] =>
      match mapE (hitTree E type) hits with
      | .error e => .error e
      | .ok l => .ok (.list l)
    | e :: rest' =>
      match splitByEquality E v hits with
      | .error e => .error e
      | .ok groups =>
        match mapE (treeRec E type (e :: rest')) groups with
        | .error e => .error e
        | .ok l => .ok (.list l)

/-- models _hit.py:527-540 (get_maus_tree). -/
def getMausTree (E : Ext K) (hits : List (HS K)) (type : String) : Except Err (Tree K) :=
  match dictAt paths type with
  | .error e => .error e
  | .ok p => treeRec E type (.split "event_number" :: p) hits

/-- A line of the file: its event type, spill number and the rest of the document. -/
structure Spill (K : Type) where
  eventType : String
  spillNumber : Nat
  body : Tree K

/-- models _hit.py:431-437: the lines written (the file has no header, _hit.py:898-899; a type without
a header or a path raises KeyError). -/
def writeMaus (E : Ext K) (hits : List (HS K)) (type : String) : Except Err (List (Spill K)) :=
  match getMausTree E hits type with
  | .error e => .error e
  | .ok (.list l) => .ok (l.zipIdx.map fun p => ⟨"Spill", p.2, p.1⟩)
  | .ok _ => .error .TypeError

/-! ### reading -/

/-- models MausJsonHitFactory._maus_three_vec_conversions, _maus_json_hit_factory.py:165-169. -/
def readThreeVec : List (String × List (String × String)) :=
  [("virtual_hit", [("position", ""), ("momentum", "p"), ("b_field", "b"), ("e_field", "e")]),
   ("special_virtual_hit", [("position", ""), ("momentum", "p")]),
   ("primary", [("position", ""), ("momentum", "p")])]

/-- models MausJsonHitFactory._maus_variable_conversions, _maus_json_hit_factory.py:171-175. -/
def readConversions : List (String × List (String × String)) :=
  [("virtual_hit", [("station_id", "station"), ("particle_id", "pid"),
      ("track_id", "particle_number"), ("time", "t"), ("mass", "mass"), ("charge", "charge"),
      ("proper_time", "proper_time"), ("path_length", "path_length")]),
   ("primary", [("particle_id", "pid"), ("time", "t"), ("energy", "energy")]),
   ("special_virtual_hit", [("particle_id", "pid"), ("track_id", "particle_number"), ("time", "t"),
      ("mass", "mass"), ("charge", "charge"), ("path_length", "path_length"),
      ("energy_deposited", "e_dep")])]

/-- models MausJsonHitFactory._file_mass_shell, _maus_json_hit_factory.py:178-182. -/
def readMassShell : List (String × String) :=
  [("virtual_hit", "energy"), ("special_virtual_hit", "energy"), ("primary", "p")]

/-- a number of a document as an argument of Hit.set -/
def toPy : Val K → PyVal K
  | .flt v => .flt v
  | .int n => .int n
  | .none => .other

/-- `xboa_dict[xboa_suffix+maus_xyz] = value` for a three vector, _maus_json_hit_factory.py:134-135.
A number in place of the vector has no iteritems. -/
def readVec (d : List (String × MVal K)) (p : String × String) :
    Except Err (List (String × PyVal K)) :=
  match dictAt d p.1 with
  | .error e => .error e
  | .ok (.num _) => .error .AttributeError
  | .ok (.vec l) => .ok (l.map fun q => (p.2 ++ q.1, toPy q.2))

/-- `xboa_dict[xboa_key] = maus_dict[maus_key]`, _maus_json_hit_factory.py:137. -/
def readNum (d : List (String × MVal K)) (p : String × String) : Except Err (String × PyVal K) :=
  match dictAt d p.1 with
  | .error e => .error e
  | .ok (.num v) => .ok (p.2, toPy v)
  | .ok (.vec _) => .ok (p.2, .other)

/-- `xboa_dict['pid']` -/
def pidOf (d : List (String × PyVal K)) : Option Int :=
  match d.lookup "pid" with
  | some (.int n) => some n
  | _ => none

/-- models _maus_json_hit_factory.py:139-144: the mass from the table, 0 if it is not there. -/
def addMass (d : List (String × PyVal K)) : List (String × PyVal K) :=
  if (d.lookup "mass").isSome then d
  else d ++ [("mass", .flt (match (pidOf d).bind fun n => Common.pdgPidToMass.lookup |n| with
    | some m => (m : K) / 1000000000
    | none => 0))]

/-- models _maus_json_hit_factory.py:145-150: the charge from the table, 0 if it is not there. -/
def addCharge (d : List (String × PyVal K)) : List (String × PyVal K) :=
  if (d.lookup "charge").isSome then d
  else d ++ [("charge", match (pidOf d).bind fun n => Common.pdgPidToCharge.lookup n with
    | some q => .int q
    | none => .flt 0)]

/-- models the body of MausJsonHitFactory.hit_from_maus_object, _maus_json_hit_factory.py:127-150: the
dictionary of variables of the new hit.  `dict.iteritems` does not exist in Python 3: after the two
look-ups of the format AttributeError is raised. -/
def hitVars (v : Tracking.PyVer) (format : String) (d : List (String × MVal K)) (event : Nat) :
    Except Err (List (String × PyVal K)) :=
  match dictAt readThreeVec format with
  | .error e => .error e
  | .ok tv =>
    match dictAt readConversions format with
    | .error e => .error e
    | .ok cs =>
      match v with
      | .py3 => .error .AttributeError
      | .py2 =>
        match mapE (readVec d) tv with
        | .error e => .error e
        | .ok vecs =>
          match mapE (readNum d) cs with
          | .error e => .error e
          | .ok nums =>
            .ok (addCharge (addMass (vecs.flatten ++ nums ++ [("event_number", .int event)])))

/-- the object after a statement, or its exception -/
def newObject (m : PyM (HS K) Unit) (s : HS K) : Except Err (HS K) :=
  match m s with
  | (.error e, _) => .error e
  | (.ok _, s') => .ok s'

/-- models `Hit.new_from_dict(xboa_dict, self._file_mass_shell[maus_format])`,
_maus_json_hit_factory.py:151-152, and `hit["spill"] = self.spill["spill_number"]` (103, 113, 122). -/
def hitFromVars (E : Ext K) (vars : List (String × PyVal K)) (shell : String) (spill : Nat)
    (wc : WC K) : Except Err (HS K) :=
  newObject (do
    Hit.new_from_dict E vars shell
    Hit.set E "spill" (.int spill)) ⟨Core.new, wc⟩

/-- models MausJsonHitFactory.hit_from_maus_object, _maus_json_hit_factory.py:125-152, and the line that
sets the spill number. -/
def hitFromMausObject (v : Tracking.PyVer) (E : Ext K) (format : String) (d : List (String × MVal K))
    (event spill : Nat) (wc : WC K) : Except Err (HS K) :=
  match hitVars v format d event with
  | .error e => .error e
  | .ok vars =>
    match dictAt readMassShell format with
    | .error e => .error e
    | .ok shell => hitFromVars E vars shell spill wc

/-- models the inner loop of _read_virtual_hits, _maus_json_hit_factory.py:101-104: the hits made before
the first error are kept. -/
def readHits (mk : List (String × MVal K) → Except Err (HS K)) :
    List (Tree K) → Except Err Unit × List (HS K)
  | [] => (.ok (), [])
  | .hit d :: r =>
    match mk d with
    | .error e => (.error e, [])
    | .ok h =>
      match readHits mk r with
      | (x, hs) => (x, h :: hs)
  | _ :: _ => (.error .KeyError, [])

/-- models the loops over the MC events, _maus_json_hit_factory.py:96-123: `mc_event["virtual_hits"]`,
`mc_event["primary"]`. -/
def readEvents (mk : Nat → List (String × MVal K) → Except Err (HS K)) (key : String) :
    Nat → List (Tree K) → Except Err Unit × List (HS K)
  | _, [] => (.ok (), [])
  | ev, .dict k t :: r =>
    if k = key then
      match readHits (mk ev) (match t with | .list l => l | t => [t]) with
      | (.error e, hs) => (.error e, hs)
      | (.ok _, hs) =>
        match readEvents mk key (ev + 1) r with
        | (x, hs') => (x, hs ++ hs')
    else (.error .KeyError, [])
  | _, _ :: _ => (.error .KeyError, [])

/-- the key of the hits in an MC event -/
def eventKey (format : String) : String :=
  if format = "virtual_hit" then "virtual_hits"
  else if format = "special_virtual_hit" then "special_virtual_hits" else "primary"

/-- models new_spill, _maus_json_hit_factory.py:50-70, for one document: the hits it gives.  A KeyError is
caught. -/
def spillHits (v : Tracking.PyVer) (E : Ext K) (format : String) (wc : WC K) (s : Spill K) :
    Except Err (List (HS K)) :=
  if s.eventType = "Spill" then
    match s.body with
    | .dict k (.list l) =>
      if k = "mc_events" then
        match readEvents (fun ev d => hitFromMausObject v E format d ev s.spillNumber wc)
            (eventKey format) 0 l with
        | (.ok _, hs) => .ok hs
        | (.error .KeyError, hs) => .ok hs
        | (.error e, _) => .error e
      else .ok []
    | _ => .ok []
  else .ok []

/-- models the loop of Bunch.read_maus_json_file over one type, _bunch.py:455-460, with make_hit
(_maus_json_hit_factory.py:72-83): documents are read until there are `number` hits or the file
ends.  The hits, and the lines of the file that are left. -/
def readType (v : Tracking.PyVer) (E : Ext K) (format : String) (number : Int) (wc : WC K) :
    List (Spill K) → List (HS K) → Except Err (List (HS K) × List (Spill K))
  | [], acc => .ok (acc, [])
  | s :: r, acc =>
    if number < 0 ∨ (acc.length : Int) < number then
      match spillHits v E format wc s with
      | .error e => .error e
      | .ok hs => readType v E format number wc r
          (if number < 0 then acc ++ hs else (acc ++ hs).take number.toNat)
    else .ok (acc, s :: r)

/-- models MausJsonHitFactory.__init__, _maus_json_hit_factory.py:37-43, with file_types and
deprecated_file_types (155-163): the format without its prefix. -/
def stripFormat (type : String) : Except Err String :=
  if type = "maus_json_virtual_hit" ∨ type = "maus_virtual_hit" then .ok "virtual_hit"
  else if type = "maus_json_special_virtual_hit" then
    .ok "special_virtual_hit"
  else if type = "maus_json_primary" ∨ type = "maus_primary" then .ok "primary"
  else .error .KeyError

/-- models the loop over the types of Bunch.read_maus_json_file, _bunch.py:454-460.  The file is opened
once, before the loop. -/
def readTypes (v : Tracking.PyVer) (E : Ext K) (number : Int) (wc : WC K) :
    List String → List (Spill K) → List (HS K) → Except Err (List (HS K))
  | [], _, acc => .ok acc
  | t :: ts, lines, acc =>
    match stripFormat t with
    | .error e => .error e
    | .ok format =>
      match readType v E format number wc lines acc with
      | .error e => .error e
      | .ok (acc, lines) => readTypes v E number wc ts lines acc

/-- models Bunch.read_maus_json_file, _bunch.py:441-463. -/
def readMausFile (v : Tracking.PyVer) (E : Ext K) (types : List String) (number : Int) (wc : WC K)
    (lines : List (Spill K)) : Except Err (List (HS K)) :=
  readTypes v E number wc types lines []

end Maus
end Xboa
