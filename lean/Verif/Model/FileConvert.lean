import Verif.Model.BunchWrite
import Verif.Model.BunchMore
/-
Model of the program xboa/examples/File_Convert.py, for text formats, assuming its imports succeed.
-/
namespace Xboa.FileConvert
open TextIO BunchRead BunchWrite
variable {K : Type} [Field K] [LinearOrder K] [FloorRing K] {W : Type}

/-- The words of `str.split()`: `cur` is the word begun. -/
def splitGo (cur : List Char) : List Char → List (List Char)
  | [] => if cur = [] then [] else [cur]
  | c :: r =>
    if c.isWhitespace then (if cur = [] then [] else [cur]) ++ splitGo [] r else splitGo (cur ++ [c]) r

/-- `str.split()` on characters, for blanks, tabs and ends of lines. -/
def splitBlank (s : List Char) : List (List Char) := splitGo [] s

/-- models File_Convert.py:179-183: a line of the control file without its comment, in words. -/
def controlLine (s : String) : List String :=
  (splitBlank ((s.toList.takeWhile (· ≠ '#')).takeWhile (· ≠ '!'))).map String.ofList

/-- models File_Convert.py:175-184 (read_control). -/
def readControl (file : List String) : List (List String) :=
  (file.map controlLine).filter fun l => !l.isEmpty

/-- `line[i]` -/
def word (l : List String) (i : Nat) : Except Err String :=
  match l[i]? with
  | some w => .ok w
  | none => .error .IndexError

/-- `float(line[i])` and `int(line[i])`; `parse` is none for a word that is no number. -/
def number {α : Type} (parse : String → Option α) (l : List String) (i : Nat) : Except Err α :=
  match word l i with
  | .error e => .error e
  | .ok s =>
    match parse s with
    | some x => .ok x
    | none => .error .ValueError

/-- models `for line in lines: if line[0] == key: x = f(line)`: the last such line holds. -/
def setting {α : Type} (key : String) (f : List String → Except Err α) :
    List (List String) → α → Except Err α
  | [], x => .ok x
  | l :: r, x =>
    if l.head? = some key then
      match f l with
      | .error e => .error e
      | .ok y => setting key f r y
    else setting key f r x

/-- The files of the computer, `glob` of a name. -/
abbrev Files (W : Type) := String → List (List (Line W))

/-- models Bunch.new_from_read_builtin, _bunch.py:292-298, in front of `newFromRead`. -/
def checkRead (format : String) (fs : List (List (Line W))) : Except Err Unit :=
  if hasSub "maus" format then .error .Unmodelled
  else if format ∉ fileTypes then .error .IOError
  else if fs.isEmpty then .error .IOError
  else .ok ()

/-- models File_Convert.py:186-201 (read_input), `pi` is int(); with the unit set by set_g4bl_unit while
reading (_bunch.py:478-479).  (The three settings are looked up in one loop; which of several
malformed lines raises first is not modelled.) -/
def readInput (E : Ext K) (T : Text K W) (pi : String → Option Int) (ctrl : List (List String))
    (files : Files W) (g4 : String) (first : Nat) (w : BWorld K) :
    Except Err (Bunch K × String) × BWorld K :=
  match setting "file_in" (word · 1) ctrl "", setting "format_in" (word · 1) ctrl "",
      setting "station_in" (fun l => (number pi l 1).map some) ctrl none with
  | .error e, _, _ => (.error e, w)
  | _, .error e, _ => (.error e, w)
  | _, _, .error e => (.error e, w)
  | .ok name, .ok format, .ok station =>
    match checkRead format (files name) with
    | .error e => (.error e, w)
    | .ok _ =>
      let g4' := (files name).foldl (fun g f => (setupFile format f g).2) g4
      match station with
      | none =>
        match newFromRead E T format (fun _ => true) (files name) first w with
        | (.error e, w') => (.error e, w')
        | (.ok b, w') => (.ok (b, g4'), w')
      | some st =>
        match newDictFromRead E T format "station" (fun _ => true) (files name) first w with
        | (.error e, w') => (.error e, w')
        | (.ok d, w') =>
          match d.lookup st with
          | none => (.error .KeyError, w')
          | some b => (.ok (b, g4'), w')

/-- models File_Convert.py:249-260 (plots).  root_histogram and root_scatter_graph return tuples, which
have no Print: every plot asked for raises, if not earlier. -/
def plots (plotErr : List String → Err) (doIn : Bool) : List (List String) → Except Err Unit
  | [] => .ok ()
  | l :: r =>
    if l.head? = some (if doIn then "histogram_in" else "histogram_out") ∨
        l.head? = some (if doIn then "scatter_in" else "scatter_out") then .error (plotErr l)
    else plots plotErr doIn r

/-- models the origin lines, File_Convert.py:218 -/
def originOf (pf : String → Option K) : List (List String) → List (String × K) →
    Except Err (List (String × K))
  | [], d => .ok d
  | l :: r, d =>
    if l.head? = some "origin" then
      match word l 1, number pf l 2 with
      | .ok v, .ok x => originOf pf r (Common.dictSet d v x)
      | .error e, _ => .error e
      | _, .error e => .error e
    else originOf pf r d

/-- models File_Convert.py:221-227: the target matrix -/
def targetOf (pf : String → Option K) (vars : List String) : List (List String) → (Nat → Nat → K) →
    Except Err (Nat → Nat → K)
  | [], m => .ok m
  | l :: r, m =>
    if l.head? = some "covariance" then
      match word l 1, word l 2, number pf l 3 with
      | .ok a, .ok b, .ok x =>
        if a ∈ vars ∧ b ∈ vars then
          let i := vars.idxOf a
          let j := vars.idxOf b
          targetOf pf vars r fun p q => if (p = i ∧ q = j) ∨ (p = j ∧ q = i) then x else m p q
        else .error .ValueError
      | .error e, _, _ => .error e
      | _, .error e, _ => .error e
      | _, _, .error e => .error e
    else targetOf pf vars r m

/-- models File_Convert.py:212-230 (rotate).  The third argument of transform_to is the translation. -/
def rotate (L : LinAlg K) (E : Ext K) (pf : String → Option K) (ctrl : List (List String))
    (b : Bunch K) (w : BWorld K) : Except Err Unit × BWorld K :=
  let vars := ctrl.flatMap fun l => if l.head? = some "rotate" then l.tail else []
  match originOf pf ctrl [] with
  | .error e => (.error e, w)
  | .ok origin =>
    if vars.length ≤ 1 then (.ok (), w)
    else
      match targetOf pf vars ctrl (fun _ _ => 0) with
      | .error e => (.error e, w)
      | .ok m =>
        match Bunch.transformTo L E b vars ⟨vars.length, vars.length, m⟩ origin [] "" w with
        | (.error e, w') => (.error e, w')
        | (.ok _, w') =>
          match Bunch.covarianceMatrix E w' b vars (origin.map fun p => (p.1, PyVal.flt p.2)) with
          | .error e => (.error e, w')
          | .ok _ => (.ok (), w')

/-- models File_Convert.py:236-237: the pairs of one line -/
def pairs (pf : String → Option K) : List String → List (String × K) → Except Err (List (String × K))
  | [], d => .ok d
  | [_], _ => .error .IndexError
  | v :: s :: r, d =>
    match pf s with
    | some x => pairs pf r (Common.dictSet d v x)
    | none => .error .ValueError

/-- models File_Convert.py:233-237 -/
def translationOf (pf : String → Option K) : List (List String) → List (String × K) →
    Except Err (List (String × K))
  | [], d => .ok d
  | l :: r, d =>
    if l.head? = some "translate" then
      match pairs pf l.tail d with
      | .error e => .error e
      | .ok d => translationOf pf r d
    else translationOf pf r d

/-- models File_Convert.py:232-239 (translate). -/
def translate (E : Ext K) (pf : String → Option K) (ctrl : List (List String)) (b : Bunch K)
    (w : BWorld K) : Except Err Unit × BWorld K :=
  match translationOf pf ctrl [] with
  | .error e => (.error e, w)
  | .ok d => Bunch.translate E (d.map fun p => (p.1, PyVal.flt p.2)) "" b.hits w

/-- models the loop of File_Convert.py:245-246 -/
def shellLoop (E : Ext K) (v : String) : List Nat → BWorld K → Except Err Unit × BWorld K
  | [], w => (.ok (), w)
  | i :: r, w =>
    match w.onHit i (Hit.mass_shell_condition E v) with
    | (.error e, w') => (.error e, w')
    | (.ok _, w') => shellLoop E v r w'

/-- models File_Convert.py:241-247 (mass_shell_condition): the first such line. -/
def massShell (E : Ext K) (ctrl : List (List String)) (b : Bunch K) (w : BWorld K) :
    Except Err Unit × BWorld K :=
  match ctrl.find? fun l => l.head? = some "mass_shell_condition" with
  | none => (.ok (), w)
  | some l =>
    match word l 1 with
    | .error e => (.error e, w)
    | .ok v => shellLoop E v b.hits w

/-- models File_Convert.py:203-210 (write_output): the name of the file and its lines. -/
def writeOutput (E : Ext K) (T : Text K W) (words : String → List W) (ctrl : List (List String))
    (g4 : String) (b : Bunch K) (w : BWorld K) : Except Err (String × List (Line W)) × BWorld K :=
  match setting "file_out" (word · 1) ctrl "", setting "format_out" (word · 1) ctrl "" with
  | .error e, _ => (.error e, w)
  | _, .error e => (.error e, w)
  | .ok name, .ok format =>
    match hitWrite E T words g4 format none b w with
    | (.error e, w') => (.error e, w')
    | (.ok file, w') => (.ok (name, file), w')

/-- What the program needs: external functions, and the numbers in control files. -/
structure Env (K W : Type) where
  E : Ext K
  L : LinAlg K
  T : Text K W
  words : String → List W
  pf : String → Option K
  pi : String → Option Int
  plotErr : List String → Err

/-- models File_Convert.py:165-173 (file_convert) on the lines of the control file: the file written
(main prints an exception and ends). -/
def convert (V : Env K W) (ctrl : List (List String)) (files : Files W) (g4 : String) (first : Nat)
    (w : BWorld K) : Except Err (String × List (Line W)) × BWorld K :=
  match readInput V.E V.T V.pi ctrl files g4 first w with
  | (.error e, w) => (.error e, w)
  | (.ok (b, g4), w) =>
    match plots V.plotErr true ctrl with
    | .error e => (.error e, w)
    | .ok _ =>
      match rotate V.L V.E V.pf ctrl b w with
      | (.error e, w) => (.error e, w)
      | (.ok _, w) =>
        match translate V.E V.pf ctrl b w with
        | (.error e, w) => (.error e, w)
        | (.ok _, w) =>
          match massShell V.E ctrl b w with
          | (.error e, w) => (.error e, w)
          | (.ok _, w) =>
            match plots V.plotErr false ctrl with
            | .error e => (.error e, w)
            | .ok _ => writeOutput V.E V.T V.words ctrl g4 b w

end Xboa.FileConvert
