import Verif.Model.TextIO
import Verif.Props.HitCopy
import Verif.Props.MassShell
import Verif.Props.MinMax
/-!
Lemmas about the text formats: single columns, lines, conversion of the pid.
-/
set_option linter.unusedSectionVars false
namespace Xboa
namespace TextIO
variable {K W : Type} [Field K] [LinearOrder K] [IsStrictOrderedRing K] [FloorRing K]

/-! ### single keys -/

/-- A stored member of a hit. -/
inductive Fld | d (v : DVar) | i (v : IVar)
deriving DecidableEq

/-- Copy one member of `s` to `c`. -/
def copyFld (s c : Core K) : Fld → Core K
  | .d v => c.setD v (s.d v)
  | .i v => c.setI v (s.i v)

/-- The member behind each column of the built-in formats. -/
def keyTable : List (String × Fld) :=
  [("x", .d .x), ("y", .d .y), ("z", .d .z), ("t", .d .t), ("px", .d .px), ("py", .d .py),
   ("pz", .d .pz), ("energy", .d .energy), ("bx", .d .bx), ("by", .d .by), ("bz", .d .bz),
   ("ex", .d .ex), ("ey", .d .ey), ("ez", .d .ez), ("sx", .d .sx), ("sy", .d .sy), ("sz", .d .sz),
   ("local_weight", .d .local_weight), ("ct", .d .t), ("eventNumber", .i .event),
   ("particleNumber", .i .particle), ("pid", .i .pid), ("status", .i .status),
   ("station", .i .station), ("mass", .d .mass), ("charge", .d .charge),
   ("path_length", .d .path_length), ("proper_time", .d .proper_time), ("e_dep", .d .e_dep),
   ("event_number", .i .event), ("particle_number", .i .particle)]

theorem pyInt_intCast (n : Int) : Bunch.pyInt (n : K) = n := by
  simp [Bunch.pyInt]

/-- A column that can be written can be read back in to the same member. -/
theorem key_round (E : Ext K) (hE : E.Lawful) (T : Text K W) (hT : T.Lawful)
    (us : List (String × String)) (key : String) (fld : Fld) (hk : (key, fld) ∈ keyTable)
    (name : String) (u : K) (hn : dictGet us key = .ok name)
    (hu : dictGet (units : List (String × K)) name = .ok u) (hu0 : u ≠ 0)
    (hi : ∀ v, fld = .i v → u = 1) (s : HS K) (hs : s.core.InRange) :
    ∃ w, formatValue E T us key s = (.ok w, s) ∧
      ∀ c : HS K, readWord E T us key w c = (.ok (), { c with core := copyFld s.core c.core fld }) := by
  have hc : E.cLight ≠ 0 := hE.cLight_pos.ne'
  have hr := hs
  simp only [keyTable, List.mem_cons, Prod.mk.injEq, List.not_mem_nil, or_false] at hk
  have hflt : ∀ (key : String) (a : K), key ≠ "" → dictGet varTypes key = .ok .flt →
      Hit.getNum E key s = (.ok a, s) → dictGet us key = .ok name →
      formatValue E T us key s = (.ok (T.showFlt (a / u)), s) ∧
      ∀ c : HS K, readWord E T us key (T.showFlt (a / u)) c = Hit.set E key (.flt a) c := by
    intro key a h0 ht hg hn
    constructor
    · simp [formatValue, h0, ht, hg, hn, hu]
    · intro c
      simp [readWord, h0, ht, hT.flt_round, hn, hu, div_mul_cancel₀ _ hu0]
  have hint : ∀ (key : String) (n : Int), key ≠ "" → u = 1 → dictGet varTypes key = .ok .int →
      Hit.getNum E key s = (.ok (n : K), s) → dictGet us key = .ok name →
      formatValue E T us key s = (.ok (T.showInt n), s) ∧
      ∀ c : HS K, readWord E T us key (T.showInt n) c = Hit.set E key (.int n) c := by
    intro key n h0 h1 ht hg hn
    constructor
    · simp [formatValue, h0, ht, hg, hn, hu, h1, pyInt_intCast]
    · intro c
      simp [readWord, h0, ht, hT.int_round]
  rcases hk with h | h | h | h | h | h | h | h | h | h | h | h | h | h | h | h | h | h | h | h | h |
    h | h | h | h | h | h | h | h | h | h
  all_goals
    obtain ⟨rfl, rfl⟩ := h
  case inr.inr.inr.inr.inr.inr.inr.inr.inr.inr.inr.inr.inr.inr.inr.inr.inr.inr.inl =>
    obtain ⟨h1, h2⟩ := hflt "ct" (s.core.d .t * E.cLight) (by decide) (by decide)
      (by simp [Hit.getNum]; rfl) hn
    refine ⟨_, h1, fun c => ?_⟩
    rw [h2]
    have : Hit.set E "ct" (.flt (s.core.d .t * E.cLight)) c =
      (.ok (), { c with core := c.core.setD .t (s.core.d .t * E.cLight / E.cLight) }) := rfl
    rw [this, mul_div_cancel_right₀ _ hc]; rfl
  all_goals first
    | (refine (fun h => ⟨_, h.1, fun c => (h.2 c).trans ?_⟩)
        (hflt _ _ (by decide) (by decide) rfl hn)
       rfl)
    | (refine (fun h => ⟨_, h.1, fun c => (h.2 c).trans ?_⟩)
        (hint _ _ (by decide) (hi _ rfl) (by decide) rfl hn)
       first
        | exact Hit.set_eventNumber E _ _ (hr _)
        | exact Hit.set_particleNumber E _ _ (hr _)
        | exact Hit.set_pid E _ _ (hr _)
        | exact Hit.set_status E _ _ (hr _)
        | exact Hit.set_station E _ _ (hr _))

/-! ### lines -/

theorem unit_ne_zero (name : String) (u : K) (h : dictGet (units : List (String × K)) name = .ok u) :
    u ≠ 0 := by
  have : ∀ p ∈ (units : List (String × K)), p.2 ≠ 0 := by
    simp [units]
  simp only [dictGet] at h
  split at h
  · rename_i v hv
    cases h
    exact this _ (lookup_mem_keys _ _ _ hv)
  · simp at h

/-- The names in the table of units. -/
def unitNames : List String :=
  ["", "mum", "mm", "cm", "m", "km", "ns", "mus", "ms", "s", "eV", "keV", "MeV", "GeV", "TeV",
   "eV/c", "keV/c", "MeV/c", "GeV/c", "TeV/c", "eV/c2", "keV/c2", "MeV/c2", "GeV/c2", "TeV/c2",
   "Gauss", "mT", "T", "kT", "V", "kV", "MV", "GV", "kHz", "MHz", "GHz", "GV/m", "GV/mm", "echarge"]

theorem unit_some (name : String) (h : name ∈ unitNames) :
    ∃ u, dictGet (units : List (String × K)) name = .ok u := by
  simp only [unitNames, List.mem_cons, List.not_mem_nil, or_false] at h
  rcases h with h | h | h | h | h | h | h | h | h | h | h | h | h | h | h | h | h | h | h | h | h | h |
    h | h | h | h | h | h | h | h | h | h | h | h | h | h | h | h | h <;>
  · subst h; exact ⟨_, rfl⟩

/-- Each column is a blank or one of the table with a unit; integers have no unit. -/
def FmtOk (us : List (String × String)) (fmt : List String) : Prop :=
  ∀ key ∈ fmt, key = "" ∨ ∃ fld ∈ keyTable.lookup key, ∃ name ∈ us.lookup key, name ∈ unitNames ∧
    (match fld with | .i _ => name = "" | .d _ => True)

instance (us : List (String × String)) (fmt : List String) : Decidable (FmtOk us fmt) := by
  unfold FmtOk
  refine @List.decidableBAll _ _ (fun key => ?_) _
  refine @instDecidableOr _ _ _ ?_
  cases keyTable.lookup key with
  | none => exact isFalse (by simp)
  | some fld =>
    cases us.lookup key with
    | none => exact isFalse (by simp)
    | some name =>
      cases fld with
      | i v => exact decidable_of_iff (name ∈ unitNames ∧ name = "") (by simp)
      | d v => exact decidable_of_iff (name ∈ unitNames ∧ True) (by simp)

/-- The members filled in from a line. -/
def fldsOf (fmt : List String) : List Fld :=
  fmt.filterMap fun key => if key = "" then none else keyTable.lookup key

theorem copyFlds_d (s : Core K) (flds : List Fld) (c : Core K) (v : DVar) :
    (flds.foldl (copyFld s) c).d v = if Fld.d v ∈ flds then s.d v else c.d v := by
  induction flds generalizing c with
  | nil => simp
  | cons f r ih =>
    rw [List.foldl_cons, ih]
    cases f with
    | i w => simp [copyFld]
    | d w =>
      by_cases h : v = w <;> simp [copyFld, h]

theorem copyFlds_i (s : Core K) (flds : List Fld) (c : Core K) (v : IVar) :
    (flds.foldl (copyFld s) c).i v = if Fld.i v ∈ flds then s.i v else c.i v := by
  induction flds generalizing c with
  | nil => simp
  | cons f r ih =>
    rw [List.foldl_cons, ih]
    cases f with
    | d w => simp [copyFld]
    | i w =>
      by_cases h : v = w <;> simp [copyFld, h]

/-- The file after a line has been finished without an error. -/
def OutFile.added (f : OutFile W) (ws : List W) : OutFile W :=
  { f with lines := f.lines ++ [f.cur ++ ws], cur := [], calls := f.calls + ws.length + 1 }

/-- Writing a line and reading it again. -/
theorem line_round (E : Ext K) (hE : E.Lawful) (T : Text K W) (hT : T.Lawful)
    (us : List (String × String)) (fmt : List String) (hf : FmtOk us fmt) (s : HS K)
    (hs : s.core.InRange) :
    ∃ ws : List W, ws.length = fmt.length ∧
      (∀ f : OutFile W, (∀ n, f.ok n = true) →
        writeFormatted E T us fmt (s, f) = (.ok (), (s, f.added ws))) ∧
      ∀ c : HS K, readWords E T us fmt ws c =
        (.ok (), { c with core := (fldsOf fmt).foldl (copyFld s.core) c.core }) := by
  induction fmt with
  | nil =>
    refine ⟨[], rfl, ?_, ?_⟩
    · intro f hok
      simp [writeFormatted, writeNewline, hok, OutFile.added]
    · intro c
      simp [readWords, fldsOf]
  | cons key rest ih =>
    obtain ⟨ws, hl, hw, hr⟩ := ih (fun k hk => hf k (List.mem_cons_of_mem _ hk))
    have hfst : ∃ w, formatValue E T us key s = (.ok w, s) ∧
        ∀ c : HS K, readWord E T us key w c =
          (.ok (), { c with core := (fldsOf [key]).foldl (copyFld s.core) c.core }) := by
      rcases hf key List.mem_cons_self with h0 | ⟨fld, hfld, name, hname, hnm, hint⟩
      · subst h0
        exact ⟨T.showInt 0, by simp [formatValue], fun c => by simp [readWord, fldsOf]⟩
      · obtain ⟨u, hu⟩ := unit_some (K := K) name hnm
        have hfld' : keyTable.lookup key = some fld := hfld
        have hname' : us.lookup key = some name := hname
        have hk0 : key ≠ "" := by
          intro h; subst h
          have : keyTable.lookup "" = none := by decide
          rw [this] at hfld'; simp at hfld'
        obtain ⟨w, h1, h2⟩ := key_round E hE T hT us key fld (lookup_mem_keys _ _ _ hfld') name u
          (by simp [dictGet, hname']) hu (unit_ne_zero _ _ hu)
          (by
            intro v hv; subst hv
            simp only at hint; subst hint
            have : dictGet (units : List (String × K)) "" = .ok 1 := rfl
            rw [this] at hu; cases hu; rfl) s hs
        exact ⟨w, h1, fun c => by rw [h2]; simp [fldsOf, hk0, hfld']⟩
    obtain ⟨w, h1, h2⟩ := hfst
    refine ⟨w :: ws, by simp [hl], ?_, ?_⟩
    · intro f hok
      have := hw { f with cur := f.cur ++ [w], calls := f.calls + 1 } hok
      simp only [writeFormatted, h1, writeWord, hok, if_true, this]
      simp [OutFile.added]; omega
    · intro c
      simp only [readWords, PyM.bind_apply, h2, hr]
      have : fldsOf (key :: rest) = fldsOf [key] ++ fldsOf rest := by
        simp only [fldsOf, ← List.filterMap_append]; rfl
      rw [this, List.foldl_append]

/-! ### whole hits -/

theorem formatValue_state (E : Ext K) (T : Text K W) (us : List (String × String)) (key : String)
    (s : HS K) : (formatValue E T us key s).2 = s := by
  unfold formatValue
  split
  · rfl
  · have hg := Hit.getNum_state E key s
    rcases hn : Hit.getNum E key s with ⟨r, s'⟩
    rw [hn] at hg
    simp only at hg
    subst hg
    simp only [PyM.bind_apply, PyM.lift_apply]
    cases dictGet varTypes key with
    | error e => rfl
    | ok t =>
      simp only [hn]
      cases r with
      | error e => rfl
      | ok v =>
        cases dictGet us key with
        | error e => rfl
        | ok name =>
          cases h : dictGet (units : List (String × K)) name with
          | error e => simp [h]
          | ok u => cases t <;> simp [h]

theorem writeFormatted_hit (E : Ext K) (T : Text K W) (us : List (String × String))
    (fmt : List String) (s : HS K) (f : OutFile W) :
    (writeFormatted E T us fmt (s, f)).2.1 = s := by
  induction fmt generalizing f with
  | nil => rfl
  | cons key rest ih =>
    have h := formatValue_state E T us key s
    simp only [writeFormatted]
    rcases hv : formatValue E T us key s with ⟨r, s'⟩
    rw [hv] at h
    simp only at h
    subst h
    cases r with
    | error e => rfl
    | ok w =>
      simp only
      rcases hw : writeWord w f with ⟨r, f'⟩
      cases r with
      | error e => rfl
      | ok _ => exact ih f'

/-- pid converted, line written, pid converted back. -/
def writeConv (E : Ext K) (T : Text K W) (out inn : List (Int × Int)) (us : List (String × String))
    (fmt : List String) : PyM (HS K × OutFile W) Unit := do
  onHit (convertPid E out)
  writeFormatted E T us fmt
  onHit (convertPid E inn)

/-- the tables of a format -/
def icoolLike (format : String) : Prop := hasSub "icool" format = true ∧ hasSub "mars" format = false
def marsLike (format : String) : Prop := hasSub "icool" format = false ∧ hasSub "mars" format = true
def plain (format : String) : Prop := hasSub "icool" format = false ∧ hasSub "mars" format = false

theorem writeBuiltin_icool (E : Ext K) (T : Text K W) (g4 format : String) (fmt us)
    (hm : hasSub "maus" format = false) (hi : icoolLike format)
    (hf : dictGet hitFormats format = .ok fmt) (hu : dictGet (hitUnits g4) format = .ok us)
    (s : HS K × OutFile W) :
    writeBuiltin E T g4 format s =
      writeConv E T Common.pdgPidToIcool Common.icoolPidToPdg us fmt s := by
  simp only [writeBuiltin, writeConv, hm, Bool.false_eq_true, if_false, PyM.bind_apply, onHit,
    convertIf, hi.1, hi.2, if_true, hf, hu, PyM.lift_apply, PyM.pure_apply]
  rcases convertPid E Common.pdgPidToIcool s.1 with ⟨_ | _, h⟩
  · rfl
  · simp only
    rcases writeFormatted E T us fmt (h, s.2) with ⟨_ | _, h, f⟩
    · rfl
    · simp only
      rcases convertPid E Common.icoolPidToPdg h with ⟨_ | _, h⟩ <;> rfl

theorem writeBuiltin_mars (E : Ext K) (T : Text K W) (g4 format : String) (fmt us)
    (hm : hasSub "maus" format = false) (hi : marsLike format)
    (hf : dictGet hitFormats format = .ok fmt) (hu : dictGet (hitUnits g4) format = .ok us)
    (s : HS K × OutFile W) :
    writeBuiltin E T g4 format s =
      writeConv E T Common.pdgPidToMars Common.marsPidToPdg us fmt s := by
  simp only [writeBuiltin, writeConv, hm, Bool.false_eq_true, if_false, PyM.bind_apply, onHit,
    convertIf, hi.1, hi.2, if_true, hf, hu, PyM.lift_apply, PyM.pure_apply]

theorem writeBuiltin_plain (E : Ext K) (T : Text K W) (g4 format : String) (fmt us)
    (hm : hasSub "maus" format = false) (hi : plain format)
    (hf : dictGet hitFormats format = .ok fmt) (hu : dictGet (hitUnits g4) format = .ok us)
    (s : HS K × OutFile W) :
    writeBuiltin E T g4 format s = writeFormatted E T us fmt s := by
  simp only [writeBuiltin, hm, Bool.false_eq_true, if_false, PyM.bind_apply, onHit,
    convertIf, hi.1, hi.2, hf, hu, PyM.lift_apply, PyM.pure_apply]
  rcases writeFormatted E T us fmt (s.1, s.2) with ⟨_ | _, h, f⟩ <;> rfl

/-- A pair of pid tables, the second undoing the first. -/
structure PidTables (out inn : List (Int × Int)) : Prop where
  undo : ∀ a b, out.lookup a = some b → inn.lookup b = some a
  small : ∀ a b, out.lookup a = some b → -2147483648 ≤ b ∧ b < 2147483648

theorem pidTables_icool : PidTables Common.pdgPidToIcool Common.icoolPidToPdg where
  undo a b h := (C37_icool a b).1 h
  small a b h := by
    have := (by decide +kernel : ∀ p ∈ Common.pdgPidToIcool, -2147483648 ≤ p.2 ∧ p.2 < 2147483648)
    exact this _ (lookup_mem_keys _ _ _ h)

theorem pidTables_mars : PidTables Common.pdgPidToMars Common.marsPidToPdg where
  undo a b h := (C37_mars a b).1 h
  small a b h := by
    have := (by decide +kernel : ∀ p ∈ Common.pdgPidToMars, -2147483648 ≤ p.2 ∧ p.2 < 2147483648)
    exact this _ (lookup_mem_keys _ _ _ h)

theorem setI_setI_self (c : Core K) (v : IVar) (a : Int) : (c.setI v a).setI v (c.i v) = c := by
  cases c
  simp only [Core.setI, Core.mk.injEq, true_and]
  funext w
  by_cases h : w = v <;> simp [h]

/-- What converting, writing and converting back does. -/
theorem writeConv_eq (E : Ext K) (T : Text K W) {out inn : List (Int × Int)}
    (ht : PidTables out inn) (us : List (String × String)) (fmt : List String) (s : HS K)
    (hs : s.core.InRange) (f : OutFile W) :
    writeConv E T out inn us fmt (s, f) =
      match out.lookup (s.core.i .pid) with
      | none => (.error .KeyError, (s, f))
      | some p =>
        match writeFormatted E T us fmt ({ s with core := s.core.setI .pid p }, f) with
        | (.error e, (_, f')) => (.error e, ({ s with core := s.core.setI .pid p }, f'))
        | (.ok _, (_, f')) => (.ok (), (s, f')) := by
  simp only [writeConv, PyM.bind_apply, onHit, convertPid, dictGet]
  cases hl : out.lookup (s.core.i .pid) with
  | none => rfl
  | some p =>
    simp only
    rw [Hit.set_pid E _ _ (ht.small _ _ hl)]
    simp only
    have hh := writeFormatted_hit E T us fmt { s with core := s.core.setI .pid p } f
    rcases hw : writeFormatted E T us fmt ({ s with core := s.core.setI .pid p }, f) with ⟨r, h, f'⟩
    rw [hw] at hh
    simp only at hh
    subst hh
    cases r with
    | error e => rfl
    | ok _ =>
      simp only [Core.setI_i, if_true, ht.undo _ _ hl]
      rw [Hit.set_pid E _ _ (hs .pid)]
      simp only [setI_setI_self]

end TextIO
end Xboa
