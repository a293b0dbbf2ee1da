import Verif.Lemmas.TextIO
/-!
C38 (write and read back), C39 (writing leaves the hit alone).
-/
set_option linter.unusedSectionVars false
namespace Xboa
open TextIO
variable {K W : Type} [Field K] [LinearOrder K] [IsStrictOrderedRing K] [FloorRing K]

/-! ### specification -/

/-- The built-in line formats and the variables each one carries (the energy is checked
separately). -/
def lineFormats : List (String × List String) :=
  [("icool_for009", ["eventNumber", "event_number", "particleNumber", "particle_number", "pid",
      "status", "station", "t", "ct", "x", "y", "z", "px", "py", "pz", "p", "bx", "by", "bz",
      "local_weight", "ex", "ey", "ez", "sx", "sy", "sz"]),
   ("icool_for003", ["eventNumber", "event_number", "particleNumber", "particle_number", "pid",
      "status", "t", "ct", "local_weight", "x", "y", "z", "px", "py", "pz", "p", "sx", "sy", "sz"]),
   ("g4beamline_bl_track_file", ["x", "y", "z", "px", "py", "pz", "p", "t", "ct", "pid",
      "eventNumber", "event_number", "particleNumber", "particle_number", "local_weight"]),
   ("g4beamline_bl_track_file_2", ["x", "y", "z", "px", "py", "pz", "p", "t", "ct", "pid",
      "eventNumber", "event_number", "particleNumber", "particle_number", "local_weight"]),
   ("mars_1", ["eventNumber", "event_number", "pid", "x", "y", "z", "px", "py", "pz", "p", "t", "ct",
      "local_weight"])]

/-- The particles a format can express: electrons, muons, charged pions and kaons, protons and their
antiparticles, and "no pid", in ICOOL files; the MARS list; anything in G4Beamline files. -/
def Expressible (format : String) (pid : Int) : Prop :=
  (format ∈ ["icool_for009", "icool_for003"] →
    pid ∈ [0, 11, -11, 13, -13, 211, -211, 321, -321, 2212, -2212]) ∧
  (format = "mars_1" →
    pid ∈ [0, 11, -11, 12, -12, 13, -13, 14, -14, 22, 111, 130, 211, -211, 310, 311, -311, 321, -321,
      2112, -2112, 2212, -2212, 3122, -3122, 1000010020, 1000010030, 1000020030, 1000020040])

instance (format : String) (pid : Int) : Decidable (Expressible format pid) := by
  unfold Expressible; infer_instance

/-- A file with no unfinished line on which every write succeeds. -/
def OutFile.Good (f : OutFile W) : Prop := f.cur = [] ∧ ∀ n, f.ok n = true

/-! ### C39 -/

/-- the formats of Hit.__file_formats -/
theorem hitFormats_cases (format : String) (fmt) (h : dictGet hitFormats format = .ok fmt) :
    format ∈ ["icool_for009", "icool_for003", "g4beamline_bl_track_file",
      "g4beamline_bl_track_file_2", "ZGoubi", "Turtle", "MadX", "mars_1"] := by
  simp only [dictGet] at h
  split at h
  · rename_i v hv
    have := lookup_mem_keys _ _ _ hv
    have h2 : format ∈ hitFormats.map Prod.fst := List.mem_map_of_mem (f := Prod.fst) this
    simpa [hitFormats] using h2
  · simp at h

/-- C39: a write that succeeds, in any format, to any file, leaves the hit as it was. -/
theorem C39_success (E : Ext K) (T : Text K W) (g4 format : String) (s : HS K)
    (hs : s.core.InRange) (f : OutFile W) (h : (writeBuiltin E T g4 format (s, f)).1 = .ok ()) :
    (writeBuiltin E T g4 format (s, f)).2.1 = s := by
  by_cases hm : hasSub "maus" format = true
  · simp [writeBuiltin, hm] at h
  have hm : hasSub "maus" format = false := by simpa using hm
  cases hf : dictGet hitFormats format with
  | error e =>
    exfalso
    simp only [writeBuiltin, hm, Bool.false_eq_true, if_false, PyM.bind_apply, PyM.lift_apply, hf] at h
    revert h
    rcases onHit (W := W) (convertIf E "icool" format Common.pdgPidToIcool) (s, f) with ⟨_ | _, h⟩
    · simp
    · simp only
      rcases onHit (W := W) (convertIf E "mars" format Common.pdgPidToMars) h with ⟨_ | _, h⟩ <;> simp
  | ok fmt =>
    have hc := hitFormats_cases format fmt hf
    have hu : ∃ us, dictGet (hitUnits g4) format = .ok us := by
      simp only [List.mem_cons, List.not_mem_nil, or_false] at hc
      rcases hc with h | h | h | h | h | h | h | h <;> subst h <;> exact ⟨_, rfl⟩
    obtain ⟨us, hu⟩ := hu
    have hk : icoolLike format ∨ marsLike format ∨ plain format := by
      simp only [List.mem_cons, List.not_mem_nil, or_false] at hc
      unfold icoolLike marsLike plain
      rcases hc with h | h | h | h | h | h | h | h <;> subst h <;> decide
    rcases hk with hk | hk | hk
    · rw [writeBuiltin_icool E T g4 format fmt us hm hk hf hu] at h ⊢
      rw [writeConv_eq E T pidTables_icool us fmt s hs f] at h ⊢
      revert h
      split
      · simp
      · split <;> simp
    · rw [writeBuiltin_mars E T g4 format fmt us hm hk hf hu] at h ⊢
      rw [writeConv_eq E T pidTables_mars us fmt s hs f] at h ⊢
      revert h
      split
      · simp
      · split <;> simp
    · rw [writeBuiltin_plain E T g4 format fmt us hm hk hf hu]
      exact writeFormatted_hit E T us fmt s f

/-- C39: a hit whose pid the format cannot express is refused; hit and file are left alone. -/
theorem C39_unknown_pid (E : Ext K) (T : Text K W) (g4 format : String) (vars : List String)
    (hfv : (format, vars) ∈ lineFormats) (s : HS K) (hs : s.core.InRange) (f : OutFile W)
    (hp : ¬ Expressible format (s.core.i .pid)) :
    writeBuiltin E T g4 format (s, f) = (.error .KeyError, (s, f)) := by
  simp only [lineFormats, List.mem_cons, Prod.mk.injEq, List.not_mem_nil, or_false] at hfv
  have hic : Common.pdgPidToIcool.map Prod.fst = [0, -11, -13, 211, 321, 2212, 11, 13, -211, -321, -2212] := by
    decide +kernel
  have key : ∀ (out inn : List (Int × Int)) (ht : PidTables out inn) fmt us,
      (∀ b, (s.core.i .pid, b) ∉ out) →
      writeConv E T out inn us fmt (s, f) = (.error .KeyError, (s, f)) := by
    intro out inn ht fmt us hn
    rw [writeConv_eq E T ht us fmt s hs f]
    cases hl : out.lookup (s.core.i .pid) with
    | none => rfl
    | some p => exact absurd (lookup_mem_keys _ _ _ hl) (hn p)
  rcases hfv with ⟨rfl, _⟩ | ⟨rfl, _⟩ | ⟨rfl, _⟩ | ⟨rfl, _⟩ | ⟨rfl, _⟩
  · rw [writeBuiltin_icool E T g4 _ _ _ (by decide) (by unfold icoolLike; decide) rfl rfl]
    refine key _ _ pidTables_icool _ _ fun b hb => hp ⟨fun _ => ?_, fun h => by simp at h⟩
    have := List.mem_map_of_mem (f := Prod.fst) hb
    rw [hic] at this
    simp only [List.mem_cons, List.not_mem_nil, or_false] at this ⊢
    omega
  · rw [writeBuiltin_icool E T g4 _ _ _ (by decide) (by unfold icoolLike; decide) rfl rfl]
    refine key _ _ pidTables_icool _ _ fun b hb => hp ⟨fun _ => ?_, fun h => by simp at h⟩
    have := List.mem_map_of_mem (f := Prod.fst) hb
    rw [hic] at this
    simp only [List.mem_cons, List.not_mem_nil, or_false] at this ⊢
    omega
  · exact absurd ⟨by simp, by simp⟩ hp
  · exact absurd ⟨by simp, by simp⟩ hp
  · rw [writeBuiltin_mars E T g4 _ _ _ (by decide) (by unfold marsLike; decide) rfl rfl]
    refine key _ _ pidTables_mars _ _ fun b hb => hp ⟨fun h => by simp at h, fun _ => ?_⟩
    have hall := (by decide +kernel : ∀ p ∈ Common.pdgPidToMars, p.1 ∈ [0, 11, -11, 12, -12, 13, -13, 14, -14, 22, 111, 130, 211, -211, 310, 311, -311, 321, -321,
      2112, -2112, 2212, -2212, 3122, -3122, 1000010020, 1000010030, 1000020030, 1000020040])
    exact hall _ hb

/-- C39 for the G4Beamline formats: whatever happens the hit is left alone. -/
theorem C39_g4beamline (E : Ext K) (T : Text K W) (g4 format : String)
    (hf : format ∈ ["g4beamline_bl_track_file", "g4beamline_bl_track_file_2"]) (s : HS K)
    (f : OutFile W) : (writeBuiltin E T g4 format (s, f)).2.1 = s := by
  simp only [List.mem_cons, List.not_mem_nil, or_false] at hf
  rcases hf with rfl | rfl <;>
  · rw [writeBuiltin_plain E T g4 _ _ _ (by decide) (by unfold plain; decide) rfl rfl]
    exact writeFormatted_hit E T _ _ s f

/-- C39, what is left when the write fails: nothing but the pid is changed. -/
theorem C39_partial (E : Ext K) (T : Text K W) (g4 format : String) (s : HS K) (f : OutFile W) :
    (writeBuiltin E T g4 format (s, f)).2.1.core.d = s.core.d ∧
    (∀ v, v ≠ .pid → (writeBuiltin E T g4 format (s, f)).2.1.core.i v = s.core.i v) ∧
    (writeBuiltin E T g4 format (s, f)).2.1.wc = s.wc := by
  let P : HS K × OutFile W → Prop := fun x =>
    x.1.core.d = s.core.d ∧ (∀ v, v ≠ .pid → x.1.core.i v = s.core.i v) ∧ x.1.wc = s.wc
  have hconv : ∀ name (table : List (Int × Int)), (∀ p ∈ table, -2147483648 ≤ p.2 ∧ p.2 < 2147483648) →
      PyM.Preserves P (onHit (convertIf E name format table)) := by
    intro name table hsm x hx
    simp only [onHit, convertIf]
    split
    · simp only [convertPid, dictGet]
      cases hl : table.lookup (x.1.core.i .pid) with
      | none => exact hx
      | some p =>
        simp only
        rw [Hit.set_pid E _ _ (hsm _ (lookup_mem_keys _ _ _ hl))]
        refine ⟨by simpa using hx.1, fun v hv => ?_, hx.2.2⟩
        simp only [Core.setI_i, hv, if_false]
        exact hx.2.1 v hv
    · exact hx
  have hw : ∀ us fmt, PyM.Preserves P (writeFormatted E T us fmt) := by
    intro us fmt x hx
    have := writeFormatted_hit E T us fmt x.1 x.2
    show P _
    simp only [P]
    rw [show x = (x.1, x.2) from rfl, this]
    exact hx
  have : PyM.Preserves P (writeBuiltin E T g4 format) := by
    unfold writeBuiltin
    split
    · intro x hx; exact hx
    refine PyM.Preserves.bind (hconv _ _ (by decide +kernel)) fun _ => ?_
    refine PyM.Preserves.bind (hconv _ _ (by decide +kernel)) fun _ => ?_
    refine PyM.Preserves.bind (fun x hx => hx) fun fmt => ?_
    refine PyM.Preserves.bind (fun x hx => hx) fun us => ?_
    refine PyM.Preserves.bind (hw us fmt) fun _ => ?_
    refine PyM.Preserves.bind (hconv _ _ (by decide +kernel)) fun _ => ?_
    exact hconv _ _ (by decide +kernel)
  exact this (s, f) ⟨rfl, fun _ _ => rfl, rfl⟩

/-- Words that are numbers, for examples. -/
def ratText : Text ℚ ℚ where
  showInt n := n
  showFlt v := v
  parseInt w := if w.den = 1 then some w.num else none
  parseFlt w := some w

theorem ratText_lawful : ratText.Lawful where
  int_round n := by simp [ratText]
  flt_round v := rfl

/-- C39 fails: when the file refuses a word (disk full, closed file), the hit is left with the ICOOL
code as its pid (a mu- becomes a particle with pid -2).  The same happens without any file error for
a format name that contains 'icool' but is not known. -/
theorem C39_false :
    (∃ (s : HS ℚ) (f : OutFile ℚ), s.core.InRange ∧ s.core.i .pid = 13 ∧
      (writeBuiltin ratExt ratText "mm" "icool_for003" (s, f)).1 = .error .IOError ∧
      (writeBuiltin ratExt ratText "mm" "icool_for003" (s, f)).2.1.core.i .pid = -2) ∧
    ∃ (s : HS ℚ) (f : OutFile ℚ), s.core.InRange ∧ s.core.i .pid = 13 ∧ OutFile.Good f ∧
      (writeBuiltin ratExt ratText "mm" "icool_for099" (s, f)).1 = .error .KeyError ∧
      (writeBuiltin ratExt ratText "mm" "icool_for099" (s, f)).2.1.core.i .pid = -2 := by
  have hr : (Core.new.setI .pid 13 : Core ℚ).InRange := by intro v; cases v <;> decide
  refine ⟨⟨⟨Core.new.setI .pid 13, WC.new⟩, ⟨[], [], 0, fun n => n < 4⟩, hr, rfl, ?_, ?_⟩,
    ⟨⟨Core.new.setI .pid 13, WC.new⟩, ⟨[], [], 0, fun _ => true⟩, hr, rfl, ⟨rfl, fun _ => rfl⟩, ?_, ?_⟩⟩
  all_goals decide +kernel


/-- Non-vacuity of C39_success, C39_unknown_pid: a mu- is written to an ICOOL file, a neutron is
refused. -/
example : (writeBuiltin ratExt ratText "mm" "icool_for009"
      (⟨Core.new.setI .pid 13, WC.new⟩, ⟨[], [], 0, fun _ => true⟩)).1 = .ok () ∧
    ¬ Expressible "icool_for009" 2112 := by
  constructor
  · decide +kernel
  · unfold Expressible; decide

/-! ### C38 -/

/-- The mass of a particle in MeV/c^2, by the table of masses; 0 if it is not there. -/
def tableMass (pid : Int) : K := ((Common.pdgPidToMass.lookup |pid|).getD 0 : Nat) / 1000000000
/-- The charge of a particle by the table of charges; 0 if it is not there. -/
def tableCharge (pid : Int) : K := ((Common.pdgPidToCharge.lookup pid).getD 0 : Int)

/-- mass and energy are set from the table -/
theorem setMass_eq (E : Ext K) (s : HS K) :
    setMass E s = (.ok (), HS.mk ((s.core.setD .mass (tableMass (s.core.i .pid))).setD .energy
      (E.sqrt (tableMass (s.core.i .pid) * tableMass (s.core.i .pid) + s.core.d .px * s.core.d .px +
        s.core.d .py * s.core.d .py + s.core.d .pz * s.core.d .pz))) s.wc) := by
  have hmass : ∀ m : K, setMass.setAnd E (.flt m) s = (.ok (), HS.mk
      ((s.core.setD .mass m).setD .energy (E.sqrt (m * m + s.core.d .px * s.core.d .px +
        s.core.d .py * s.core.d .py + s.core.d .pz * s.core.d .pz))) s.wc) := by
    intro m
    simp [setMass.setAnd, Hit.shell_energy]
  have h1 : setMass E s = setMass.setAnd E (.flt (tableMass (s.core.i .pid))) s := by
    simp only [setMass, massOf, dictGet, tableMass]
    cases Common.pdgPidToMass.lookup |s.core.i .pid| with
    | some m => simp
    | none => simp
  rw [h1, hmass]

/-- the charge is set from the table -/
theorem setCharge_eq (E : Ext K) (s : HS K) (h0 : s.core.d .charge = 0) :
    setCharge E s = (.ok (), HS.mk (s.core.setD .charge (tableCharge (s.core.i .pid))) s.wc) := by
  simp only [setCharge, dictGet, tableCharge]
  cases Common.pdgPidToCharge.lookup (s.core.i .pid) with
  | some q => rfl
  | none =>
    simp only [Option.getD_none, Int.cast_zero, ← h0]
    congr 1
    cases s with
    | mk c w =>
      cases c
      simp only [Core.setD, HS.mk.injEq, Core.mk.injEq, and_true]
      funext v
      by_cases h : v = DVar.charge <;> simp [h]

/-- The core read from the line written for a hit with members `s`. -/
def readCore (E : Ext K) (s : Core K) (fmt : List String) : Core K :=
  let c := (fldsOf fmt).foldl (copyFld s) Core.new
  ((c.setD .mass (tableMass (s.i .pid))).setD .energy
      (E.sqrt (tableMass (s.i .pid) * tableMass (s.i .pid) + c.d .px * c.d .px +
        c.d .py * c.d .py + c.d .pz * c.d .pz))).setD .charge (tableCharge (s.i .pid))

theorem core_ext {a b : Core K} (hd : ∀ v, a.d v = b.d v) (hi : ∀ v, a.i v = b.i v) : a = b := by
  cases a; cases b
  simp only [Core.mk.injEq]
  exact ⟨funext hd, funext hi⟩

/-- reading a line that was written with pid code `q` for the pid of `s` -/
theorem makeHit_round (E : Ext K) (T : Text K W) (format : String) (fmt us)
    (hfmt : dictGet factoryFormats format = .ok fmt) (hus : dictGet factoryUnits format = .ok us)
    (ws : List W) (hl : ws.length = fmt.length) (s : Core K) (q : Int)
    (hread : ∀ c : HS K, readWords E T us fmt ws c =
      (.ok (), { c with core := (fldsOf fmt).foldl (copyFld (s.setI .pid q)) c.core }))
    (hpid : Fld.i .pid ∈ fldsOf fmt) (hch : Fld.d .charge ∉ fldsOf fmt)
    (hconv : ∀ (c : HS K) (k : PyM (HS K) Unit), c.core.i .pid = q →
      (convertIf E "icool" format Common.icoolPidToPdg >>= fun _ =>
        convertIf E "mars" format Common.marsPidToPdg >>= fun _ => k) c =
        k { c with core := c.core.setI .pid (s.i .pid) }) (c0 : HS K) :
    makeHit E T format ws c0 = (.ok (), ⟨readCore E s fmt, c0.wc⟩) := by
  have hc : ((fldsOf fmt).foldl (copyFld (s.setI .pid q)) (Core.new : Core K)).setI .pid (s.i .pid) =
      (fldsOf fmt).foldl (copyFld s) Core.new := by
    have hd := fun v => copyFlds_d (s.setI .pid q) (fldsOf fmt) (Core.new : Core K) v
    have hi := fun v => copyFlds_i (s.setI .pid q) (fldsOf fmt) (Core.new : Core K) v
    have hd' := fun v => copyFlds_d s (fldsOf fmt) (Core.new : Core K) v
    have hi' := fun v => copyFlds_i s (fldsOf fmt) (Core.new : Core K) v
    refine core_ext (fun v => ?_) fun v => ?_
    · simp only [Core.setI_d, hd, hd']
    · by_cases hv : v = .pid
      · subst hv; simp [hi', hpid]
      · simp [hv, hi, hi']
  have hpc : ((fldsOf fmt).foldl (copyFld (s.setI .pid q)) (Core.new : Core K)).i .pid = q := by
    rw [copyFlds_i, if_pos hpid]; simp
  have h0 : ((fldsOf fmt).foldl (copyFld s) (Core.new : Core K)).d .charge = 0 := by
    rw [copyFlds_d, if_neg hch]; rfl
  have hp2 : ((fldsOf fmt).foldl (copyFld s) (Core.new : Core K)).i .pid = s.i .pid := by
    rw [copyFlds_i, if_pos hpid]
  have hm : makeHit E T format ws c0 =
      (convertIf E "icool" format Common.icoolPidToPdg >>= fun _ =>
        convertIf E "mars" format Common.marsPidToPdg >>= fun _ => setMass E >>= fun _ => setCharge E)
      ⟨(fldsOf fmt).foldl (copyFld (s.setI .pid q)) Core.new, c0.wc⟩ := by
    simp [makeHit, hfmt, hus, readFormatted, hl, Hit.fresh, hread]
  rw [hm, hconv _ _ hpc]
  simp only [hc, PyM.bind_apply, setMass_eq, hp2]
  rw [setCharge_eq _ _ (by simpa using h0)]
  simp only [Core.setD_i, hp2]
  rfl

/-- How each format is read: what the conversions do to a code `q` for `p`. -/
theorem conv_icool (E : Ext K) (format : String) (hi : icoolLike format) (p q : Int)
    (hpq : Common.pdgPidToIcool.lookup p = some q) (hp : -2147483648 ≤ p ∧ p < 2147483648)
    (c : HS K) (k : PyM (HS K) Unit) (hc : c.core.i .pid = q) :
      (convertIf E "icool" format Common.icoolPidToPdg >>= fun _ =>
        convertIf E "mars" format Common.marsPidToPdg >>= fun _ => k) c =
        k { c with core := c.core.setI .pid p } := by
  simp [convertIf, hi.1, hi.2, convertPid, dictGet, hc, pidTables_icool.undo _ _ hpq,
    Hit.set_pid E _ _ hp]

theorem conv_mars (E : Ext K) (format : String) (hi : marsLike format) (p q : Int)
    (hpq : Common.pdgPidToMars.lookup p = some q) (hp : -2147483648 ≤ p ∧ p < 2147483648)
    (c : HS K) (k : PyM (HS K) Unit) (hc : c.core.i .pid = q) :
      (convertIf E "icool" format Common.icoolPidToPdg >>= fun _ =>
        convertIf E "mars" format Common.marsPidToPdg >>= fun _ => k) c =
        k { c with core := c.core.setI .pid p } := by
  simp [convertIf, hi.1, hi.2, convertPid, dictGet, hc, pidTables_mars.undo _ _ hpq,
    Hit.set_pid E _ _ hp]

theorem setI_self (c : Core K) (v : IVar) : c.setI v (c.i v) = c := by
  cases c
  simp only [Core.setI, Core.mk.injEq, true_and]
  funext w
  by_cases h : w = v <;> simp [h]

theorem conv_plain (E : Ext K) (format : String) (hi : plain format) (p : Int)
    (c : HS K) (k : PyM (HS K) Unit) (hc : c.core.i .pid = p) :
      (convertIf E "icool" format Common.icoolPidToPdg >>= fun _ =>
        convertIf E "mars" format Common.marsPidToPdg >>= fun _ => k) c =
        k { c with core := c.core.setI .pid p } := by
  subst hc
  simp [convertIf, hi.1, hi.2, setI_self]

/-- Write then read, all formats: the words, the state of hit and file, the hit read. -/
theorem round_trip_core (E : Ext K) (hE : E.Lawful) (T : Text K W) (hT : T.Lawful) (g4 format : String)
    (fmt : List String) (hff : dictGet factoryFormats format = .ok fmt)
    (hg : format = "g4beamline_bl_track_file" → g4 = "mm") (s : HS K) (hs : s.core.InRange)
    (hw : Expressible format (s.core.i .pid)) :
    ∃ ws : List W,
      (∀ f : OutFile W, (∀ n, f.ok n = true) →
        writeBuiltin E T g4 format (s, f) = (.ok (), (s, f.added ws))) ∧
      ∀ c0 : HS K, makeHit E T format ws c0 = (.ok (), ⟨readCore E s.core fmt, c0.wc⟩) := by
  have hicool : ∀ p : Int, p ∈ [0, 11, -11, 13, -13, 211, -211, 321, -321, 2212, -2212] →
      (Common.pdgPidToIcool.lookup p).isSome := by decide +kernel
  have hmars : ∀ p : Int, p ∈ [0, 11, -11, 12, -12, 13, -13, 14, -14, 22, 111, 130, 211, -211, 310, 311,
      -311, 321, -321, 2112, -2112, 2212, -2212, 3122, -3122, 1000010020, 1000010030, 1000020030,
      1000020040] → (Common.pdgPidToMars.lookup p).isSome := by decide +kernel
  have hrange : ∀ q : Int, -2147483648 ≤ q ∧ q < 2147483648 → (s.core.setI .pid q).InRange := by
    intro q hq v
    by_cases hv : v = .pid
    · subst hv; simpa using hq
    · simpa [hv] using hs v
  have hcase : ∀ (out inn : List (Int × Int)) (ht : PidTables out inn) (us : List (String × String)),
      (∀ x, writeBuiltin E T g4 format x = writeConv E T out inn us fmt x) →
      dictGet factoryUnits format = .ok us → FmtOk us fmt → (out.lookup (s.core.i .pid)).isSome →
      Fld.i .pid ∈ fldsOf fmt → Fld.d .charge ∉ fldsOf fmt →
      (∀ q, out.lookup (s.core.i .pid) = some q → ∀ (c : HS K) (k : PyM (HS K) Unit),
        c.core.i .pid = q →
        (convertIf E "icool" format Common.icoolPidToPdg >>= fun _ =>
          convertIf E "mars" format Common.marsPidToPdg >>= fun _ => k) c =
          k { c with core := c.core.setI .pid (s.core.i .pid) }) →
      ∃ ws : List W,
        (∀ f : OutFile W, (∀ n, f.ok n = true) →
          writeBuiltin E T g4 format (s, f) = (.ok (), (s, f.added ws))) ∧
        ∀ c0 : HS K, makeHit E T format ws c0 = (.ok (), ⟨readCore E s.core fmt, c0.wc⟩) := by
    intro out inn ht us hwr hus hok hsome hp hc hconv
    obtain ⟨q, hq⟩ := Option.isSome_iff_exists.1 hsome
    obtain ⟨ws, hl, h1, h2⟩ := line_round E hE T hT us fmt hok { s with core := s.core.setI .pid q }
      (hrange q (ht.small _ _ hq))
    refine ⟨ws, ?_, ?_⟩
    · intro f hf
      rw [hwr, writeConv_eq E T ht us fmt s hs f, hq]
      simp only [h1 f hf]
    · exact makeHit_round E T format fmt us hff hus ws hl s.core q h2 hp hc (hconv q hq)
  have hplain : ∀ us : List (String × String),
      (∀ x, writeBuiltin E T g4 format x = writeFormatted E T us fmt x) → plain format →
      dictGet factoryUnits format = .ok us → FmtOk us fmt →
      Fld.i .pid ∈ fldsOf fmt → Fld.d .charge ∉ fldsOf fmt →
      ∃ ws : List W,
        (∀ f : OutFile W, (∀ n, f.ok n = true) →
          writeBuiltin E T g4 format (s, f) = (.ok (), (s, f.added ws))) ∧
        ∀ c0 : HS K, makeHit E T format ws c0 = (.ok (), ⟨readCore E s.core fmt, c0.wc⟩) := by
    intro us hwr hpl hus hok hp hc
    obtain ⟨ws, hl, h1, h2⟩ := line_round E hE T hT us fmt hok s hs
    refine ⟨ws, fun f hf => by rw [hwr, h1 f hf], ?_⟩
    refine makeHit_round E T format fmt us hff hus ws hl s.core (s.core.i .pid) ?_ hp hc
      (conv_plain E format hpl _)
    rw [setI_self]; exact h2
  have hmem : format ∈ factoryFormats.map Prod.fst := by
    simp only [dictGet] at hff
    split at hff
    · rename_i v hv
      exact List.mem_map_of_mem (f := Prod.fst) (lookup_mem_keys _ _ _ hv)
    · simp at hff
  simp only [factoryFormats, List.map_cons, List.map_nil, List.mem_cons, List.not_mem_nil,
    or_false] at hmem
  rcases hmem with rfl | rfl | rfl | rfl | rfl
  · obtain rfl : fmtFor009 = fmt := by
      have : dictGet factoryFormats "icool_for009" = .ok fmtFor009 := rfl
      rw [this] at hff; cases hff; rfl
    exact hcase _ _ pidTables_icool unitsFor009
      (writeBuiltin_icool E T g4 _ _ _ (by decide) (by unfold icoolLike; decide) rfl rfl) rfl
      (by decide) (hicool _ (hw.1 (by simp))) (by decide) (by decide)
      (fun q hq => conv_icool E _ (by unfold icoolLike; decide) _ q hq (hs .pid))
  · obtain rfl : fmtFor003 = fmt := by
      have : dictGet factoryFormats "icool_for003" = .ok fmtFor003 := rfl
      rw [this] at hff; cases hff; rfl
    exact hcase _ _ pidTables_icool unitsFor003
      (writeBuiltin_icool E T g4 _ _ _ (by decide) (by unfold icoolLike; decide) rfl rfl) rfl
      (by decide) (hicool _ (hw.1 (by simp))) (by decide) (by decide)
      (fun q hq => conv_icool E _ (by unfold icoolLike; decide) _ q hq (hs .pid))
  · obtain rfl : fmtG4bl = fmt := by
      have : dictGet factoryFormats "g4beamline_bl_track_file" = .ok fmtG4bl := rfl
      rw [this] at hff; cases hff; rfl
    obtain rfl := hg rfl
    exact hplain (unitsG4bl "mm")
      (writeBuiltin_plain E T "mm" _ _ _ (by decide) (by unfold plain; decide) rfl rfl)
      (by unfold plain; decide) rfl (by decide) (by decide) (by decide)
  · obtain rfl : fmtG4bl2 = fmt := by
      have : dictGet factoryFormats "g4beamline_bl_track_file_2" = .ok fmtG4bl2 := rfl
      rw [this] at hff; cases hff; rfl
    exact hplain (unitsG4bl "mm")
      (writeBuiltin_plain E T g4 _ _ _ (by decide) (by unfold plain; decide) rfl rfl)
      (by unfold plain; decide) rfl (by decide) (by decide) (by decide)
  · obtain rfl : fmtMars = fmt := by
      have : dictGet factoryFormats "mars_1" = .ok fmtMars := rfl
      rw [this] at hff; cases hff; rfl
    exact hcase _ _ pidTables_mars unitsMars
      (writeBuiltin_mars E T g4 _ _ _ (by decide) (by unfold marsLike; decide) rfl rfl) rfl
      (by decide) (hmars _ (hw.2 rfl)) (by decide) (by decide)
      (fun q hq => conv_mars E _ (by unfold marsLike; decide) _ q hq (hs .pid))

theorem Hit.get_ct_eq (E : Ext K) (s : HS K) :
    Hit.get E "ct" s = (.ok (.flt (s.core.d .t * E.cLight)), s) := rfl
theorem Hit.get_p_eq (E : Ext K) (s : HS K) :
    Hit.get E "p" s = (.ok (.flt (E.sqrt (s.core.d .px ^ 2 + s.core.d .py ^ 2 +
      s.core.d .pz ^ 2))), s) := by
  show Hit.ret (Hit.get_p E) s = _
  simp [Hit.ret, Hit.get_p]

/-- C38: for each built-in line format, a hit with a pid the format can express, written to a good
file and read back with the same format, gives a hit with the same value of every variable of the
format; mass and charge are those of the tables for the pid and the energy is the one on the mass
shell.  The station comes back as 0 from all formats but icool_for009.  (Length unit of the
G4Beamline track file: mm, as after import.) -/
theorem C38_partial (E : Ext K) (hE : E.Lawful) (T : Text K W) (hT : T.Lawful) (g4 format : String)
    (vars : List String) (hfv : (format, vars) ∈ lineFormats)
    (hg : format = "g4beamline_bl_track_file" → g4 = "mm") (s : HS K) (hs : s.core.InRange)
    (hw : Expressible format (s.core.i .pid)) (f : OutFile W) (hf : OutFile.Good f) :
    ∃ ws : List W,
      (∃ f' : OutFile W, writeBuiltin E T g4 format (s, f) = (.ok (), (s, f')) ∧
        f'.lines = f.lines ++ [ws] ∧ OutFile.Good f') ∧
      ∀ c0 : HS K, ∃ c : HS K, makeHit E T format ws c0 = (.ok (), c) ∧ c.wc = c0.wc ∧
        (∀ n ∈ vars, (Hit.get E n c).1 = (Hit.get E n s).1) ∧
        (format ≠ "icool_for009" → (Hit.get E "station" c).1 = .ok (.int 0)) ∧
        (Hit.get E "mass" c).1 = .ok (.flt (tableMass (s.core.i .pid))) ∧
        (Hit.get E "charge" c).1 = .ok (.flt (tableCharge (s.core.i .pid))) ∧
        ∃ e, (Hit.get E "energy" c).1 = .ok (.flt e) ∧ 0 ≤ e ∧
          e ^ 2 = tableMass (s.core.i .pid) ^ 2 + s.core.d .px ^ 2 + s.core.d .py ^ 2 +
            s.core.d .pz ^ 2 := by
  obtain ⟨fmt, hff, hst, hd, hi⟩ : ∃ fmt, dictGet factoryFormats format = .ok fmt ∧
      (format ≠ "icool_for009" → Fld.i .station ∉ fldsOf fmt) ∧
      (Fld.d .px ∈ fldsOf fmt ∧ Fld.d .py ∈ fldsOf fmt ∧ Fld.d .pz ∈ fldsOf fmt) ∧
      ∀ n ∈ vars, ∀ c : HS K, (∀ v, v ∉ [DVar.mass, .energy, .charge] → c.core.d v =
          if Fld.d v ∈ fldsOf fmt then s.core.d v else (Core.new : Core K).d v) →
        (∀ v, c.core.i v = if Fld.i v ∈ fldsOf fmt then s.core.i v else (Core.new : Core K).i v) →
        (Hit.get E n c).1 = (Hit.get E n s).1 := by
    simp only [lineFormats, List.mem_cons, Prod.mk.injEq, List.not_mem_nil, or_false] at hfv
    rcases hfv with ⟨rfl, rfl⟩ | ⟨rfl, rfl⟩ | ⟨rfl, rfl⟩ | ⟨rfl, rfl⟩ | ⟨rfl, rfl⟩
    · refine ⟨fmtFor009, rfl, by decide, by decide, fun n hn c hd hi => ?_⟩
      have h_t := hd .t (by decide); rw [if_pos (by decide)] at h_t
      have h_x := hd .x (by decide); rw [if_pos (by decide)] at h_x
      have h_y := hd .y (by decide); rw [if_pos (by decide)] at h_y
      have h_z := hd .z (by decide); rw [if_pos (by decide)] at h_z
      have h_px := hd .px (by decide); rw [if_pos (by decide)] at h_px
      have h_py := hd .py (by decide); rw [if_pos (by decide)] at h_py
      have h_pz := hd .pz (by decide); rw [if_pos (by decide)] at h_pz
      have h_bx := hd .bx (by decide); rw [if_pos (by decide)] at h_bx
      have h_by := hd .by (by decide); rw [if_pos (by decide)] at h_by
      have h_bz := hd .bz (by decide); rw [if_pos (by decide)] at h_bz
      have h_local_weight := hd .local_weight (by decide); rw [if_pos (by decide)] at h_local_weight
      have h_ex := hd .ex (by decide); rw [if_pos (by decide)] at h_ex
      have h_ey := hd .ey (by decide); rw [if_pos (by decide)] at h_ey
      have h_ez := hd .ez (by decide); rw [if_pos (by decide)] at h_ez
      have h_sx := hd .sx (by decide); rw [if_pos (by decide)] at h_sx
      have h_sy := hd .sy (by decide); rw [if_pos (by decide)] at h_sy
      have h_sz := hd .sz (by decide); rw [if_pos (by decide)] at h_sz
      have h_event := hi .event; rw [if_pos (by decide)] at h_event
      have h_particle := hi .particle; rw [if_pos (by decide)] at h_particle
      have h_pid := hi .pid; rw [if_pos (by decide)] at h_pid
      have h_status := hi .status; rw [if_pos (by decide)] at h_status
      have h_station := hi .station; rw [if_pos (by decide)] at h_station
      simp only [List.mem_cons, List.not_mem_nil, or_false] at hn
      rcases hn with h | h | h | h | h | h | h | h | h | h | h | h | h | h | h | h | h | h | h | h | h | h | h | h | h | h <;> subst h <;>
        simp [Hit.get_ct_eq, Hit.get_p_eq, h_t, h_x, h_y, h_z, h_px, h_py, h_pz, h_bx, h_by, h_bz, h_local_weight, h_ex, h_ey, h_ez, h_sx, h_sy, h_sz, h_event, h_particle, h_pid, h_status, h_station]
    · refine ⟨fmtFor003, rfl, by decide, by decide, fun n hn c hd hi => ?_⟩
      have h_t := hd .t (by decide); rw [if_pos (by decide)] at h_t
      have h_x := hd .x (by decide); rw [if_pos (by decide)] at h_x
      have h_y := hd .y (by decide); rw [if_pos (by decide)] at h_y
      have h_z := hd .z (by decide); rw [if_pos (by decide)] at h_z
      have h_px := hd .px (by decide); rw [if_pos (by decide)] at h_px
      have h_py := hd .py (by decide); rw [if_pos (by decide)] at h_py
      have h_pz := hd .pz (by decide); rw [if_pos (by decide)] at h_pz
      have h_local_weight := hd .local_weight (by decide); rw [if_pos (by decide)] at h_local_weight
      have h_sx := hd .sx (by decide); rw [if_pos (by decide)] at h_sx
      have h_sy := hd .sy (by decide); rw [if_pos (by decide)] at h_sy
      have h_sz := hd .sz (by decide); rw [if_pos (by decide)] at h_sz
      have h_event := hi .event; rw [if_pos (by decide)] at h_event
      have h_particle := hi .particle; rw [if_pos (by decide)] at h_particle
      have h_pid := hi .pid; rw [if_pos (by decide)] at h_pid
      have h_status := hi .status; rw [if_pos (by decide)] at h_status
      simp only [List.mem_cons, List.not_mem_nil, or_false] at hn
      rcases hn with h | h | h | h | h | h | h | h | h | h | h | h | h | h | h | h | h | h | h <;> subst h <;>
        simp [Hit.get_ct_eq, Hit.get_p_eq, h_t, h_x, h_y, h_z, h_px, h_py, h_pz, h_local_weight, h_sx, h_sy, h_sz, h_event, h_particle, h_pid, h_status]
    · refine ⟨fmtG4bl, rfl, by decide, by decide, fun n hn c hd hi => ?_⟩
      have h_t := hd .t (by decide); rw [if_pos (by decide)] at h_t
      have h_x := hd .x (by decide); rw [if_pos (by decide)] at h_x
      have h_y := hd .y (by decide); rw [if_pos (by decide)] at h_y
      have h_z := hd .z (by decide); rw [if_pos (by decide)] at h_z
      have h_px := hd .px (by decide); rw [if_pos (by decide)] at h_px
      have h_py := hd .py (by decide); rw [if_pos (by decide)] at h_py
      have h_pz := hd .pz (by decide); rw [if_pos (by decide)] at h_pz
      have h_local_weight := hd .local_weight (by decide); rw [if_pos (by decide)] at h_local_weight
      have h_event := hi .event; rw [if_pos (by decide)] at h_event
      have h_particle := hi .particle; rw [if_pos (by decide)] at h_particle
      have h_pid := hi .pid; rw [if_pos (by decide)] at h_pid
      simp only [List.mem_cons, List.not_mem_nil, or_false] at hn
      rcases hn with h | h | h | h | h | h | h | h | h | h | h | h | h | h | h <;> subst h <;>
        simp [Hit.get_ct_eq, Hit.get_p_eq, h_t, h_x, h_y, h_z, h_px, h_py, h_pz, h_local_weight, h_event, h_particle, h_pid]
    · refine ⟨fmtG4bl2, rfl, by decide, by decide, fun n hn c hd hi => ?_⟩
      have h_t := hd .t (by decide); rw [if_pos (by decide)] at h_t
      have h_x := hd .x (by decide); rw [if_pos (by decide)] at h_x
      have h_y := hd .y (by decide); rw [if_pos (by decide)] at h_y
      have h_z := hd .z (by decide); rw [if_pos (by decide)] at h_z
      have h_px := hd .px (by decide); rw [if_pos (by decide)] at h_px
      have h_py := hd .py (by decide); rw [if_pos (by decide)] at h_py
      have h_pz := hd .pz (by decide); rw [if_pos (by decide)] at h_pz
      have h_local_weight := hd .local_weight (by decide); rw [if_pos (by decide)] at h_local_weight
      have h_event := hi .event; rw [if_pos (by decide)] at h_event
      have h_particle := hi .particle; rw [if_pos (by decide)] at h_particle
      have h_pid := hi .pid; rw [if_pos (by decide)] at h_pid
      simp only [List.mem_cons, List.not_mem_nil, or_false] at hn
      rcases hn with h | h | h | h | h | h | h | h | h | h | h | h | h | h | h <;> subst h <;>
        simp [Hit.get_ct_eq, Hit.get_p_eq, h_t, h_x, h_y, h_z, h_px, h_py, h_pz, h_local_weight, h_event, h_particle, h_pid]
    · refine ⟨fmtMars, rfl, by decide, by decide, fun n hn c hd hi => ?_⟩
      have h_t := hd .t (by decide); rw [if_pos (by decide)] at h_t
      have h_x := hd .x (by decide); rw [if_pos (by decide)] at h_x
      have h_y := hd .y (by decide); rw [if_pos (by decide)] at h_y
      have h_z := hd .z (by decide); rw [if_pos (by decide)] at h_z
      have h_px := hd .px (by decide); rw [if_pos (by decide)] at h_px
      have h_py := hd .py (by decide); rw [if_pos (by decide)] at h_py
      have h_pz := hd .pz (by decide); rw [if_pos (by decide)] at h_pz
      have h_local_weight := hd .local_weight (by decide); rw [if_pos (by decide)] at h_local_weight
      have h_event := hi .event; rw [if_pos (by decide)] at h_event
      have h_pid := hi .pid; rw [if_pos (by decide)] at h_pid
      simp only [List.mem_cons, List.not_mem_nil, or_false] at hn
      rcases hn with h | h | h | h | h | h | h | h | h | h | h | h | h <;> subst h <;>
        simp [Hit.get_ct_eq, Hit.get_p_eq, h_t, h_x, h_y, h_z, h_px, h_py, h_pz, h_local_weight, h_event, h_pid]
  obtain ⟨ws, h1, h2⟩ := round_trip_core E hE T hT g4 format fmt hff hg s hs hw
  refine ⟨ws, ⟨_, h1 f hf.2, ?_, rfl, hf.2⟩, fun c0 => ⟨_, h2 c0, rfl, ?_, ?_, ?_, ?_, ?_⟩⟩
  · simp [OutFile.added, hf.1]
  · intro n hn
    refine hi n hn _ ?_ ?_
    · intro v hv
      simp only [List.mem_cons, List.not_mem_nil, or_false, not_or] at hv
      simp [readCore, hv, copyFlds_d]
    · intro v
      simp [readCore, copyFlds_i]
  · intro hne
    simp [readCore, copyFlds_i, hst hne, Core.new]
  · simp [readCore]
  · simp [readCore]
  · have hnn : 0 ≤ (tableMass (s.core.i .pid) * tableMass (s.core.i .pid) + s.core.d .px * s.core.d .px +
        s.core.d .py * s.core.d .py + s.core.d .pz * s.core.d .pz : K) := by
      have h1 := mul_self_nonneg (tableMass (s.core.i .pid) : K)
      have h2 := mul_self_nonneg (s.core.d .px)
      have h3 := mul_self_nonneg (s.core.d .py)
      have h4 := mul_self_nonneg (s.core.d .pz)
      linarith
    refine ⟨_, ?_, hE.sqrt_nonneg _ hnn, ?_⟩
    · simp [readCore, copyFlds_d, hd]
    · rw [pow_two, hE.sqrt_mul_self _ hnn]; ring

/-- C38 for a hit that is on its mass shell with the mass of its pid: mass and energy come back too. -/
theorem C38_on_shell (E : Ext K) (hE : E.Lawful) (T : Text K W) (hT : T.Lawful) (g4 format : String)
    (vars : List String) (hfv : (format, vars) ∈ lineFormats)
    (hg : format = "g4beamline_bl_track_file" → g4 = "mm") (s : HS K) (hs : s.core.InRange)
    (hw : Expressible format (s.core.i .pid)) (hsh : s.OnShell) (he : 0 ≤ s.core.d .energy)
    (hm : s.core.d .mass = tableMass (s.core.i .pid)) (f : OutFile W) (hf : OutFile.Good f) :
    ∃ f' : OutFile W, writeBuiltin E T g4 format (s, f) = (.ok (), (s, f')) ∧
      ∃ ws : List W, f'.lines = f.lines ++ [ws] ∧
        ∀ c0 : HS K, ∃ c : HS K, makeHit E T format ws c0 = (.ok (), c) ∧
          ∀ n, n ∈ "mass" :: "energy" :: vars → (Hit.get E n c).1 = (Hit.get E n s).1 := by
  obtain ⟨ws, ⟨f', h1, h2, _⟩, h3⟩ := C38_partial E hE T hT g4 format vars hfv hg s hs hw f hf
  refine ⟨f', h1, ws, h2, fun c0 => ?_⟩
  obtain ⟨c, hc, _, hv, _, hmass, _, e, hen, he0, hsq⟩ := h3 c0
  refine ⟨c, hc, fun n hn => ?_⟩
  rcases List.mem_cons.1 hn with rfl | hn
  · rw [hmass, ← hm]; simp
  rcases List.mem_cons.1 hn with rfl | hn
  · rw [hen]
    have : e = s.core.d .energy := by
      refine (sq_eq_sq₀ he0 he).1 ?_
      rw [hsq, ← hm]
      have := hsh
      simp only [HS.OnShell] at this
      linarith
    rw [this]; simp
  · exact hv n hn

/-- C38 fails after Hit.set_g4bl_unit('cm'), also called by reading a file with 'cm cm cm' in its
header: a track file written with x = 10 mm is read back with x = 1 mm, because the reader has a
table of units of its own. -/
theorem C38_false : ∃ (s : HS ℚ) (f : OutFile ℚ) (ws : List ℚ), s.core.InRange ∧ s.core.d .x = 10 ∧
    OutFile.Good f ∧
    (writeBuiltin ratExt ratText "cm" "g4beamline_bl_track_file" (s, f)).2.2.lines = [ws] ∧
    (makeHit ratExt ratText "g4beamline_bl_track_file" ws s).1 = .ok () ∧
    (makeHit ratExt ratText "g4beamline_bl_track_file" ws s).2.core.d .x = 1 ∧
    (setupFile (W := ℚ) "g4beamline_bl_track_file" [⟨true, some "cm", []⟩] "mm").2 = "cm" := by
  refine ⟨⟨(Core.new.setI .pid 13).setD .x 10, WC.new⟩, ⟨[], [], 0, fun _ => true⟩,
    [1, 0, 0, 0, 0, 0, 0, 13, 0, 0, 0, 1], ?_, rfl, ⟨rfl, fun _ => rfl⟩, ?_, ?_, ?_, ?_⟩
  · intro v; cases v <;> decide
  all_goals decide +kernel

/-- C38: the energy of a hit that is not on its mass shell does not come back, although MARS files
have an energy column. -/
theorem C38_mars_energy_false : ∃ (s : HS ℚ) (f : OutFile ℚ) (ws : List ℚ), s.core.InRange ∧
    s.core.d .energy = 5 ∧ OutFile.Good f ∧
    (writeBuiltin ratExt ratText "mm" "mars_1" (s, f)).2.2.lines = [ws] ∧
    (makeHit ratExt ratText "mars_1" ws s).1 = .ok () ∧
    (makeHit ratExt ratText "mars_1" ws s).2.core.d .energy = 0 := by
  refine ⟨⟨(Core.new.setI .pid 22).setD .energy 5, WC.new⟩, ⟨[], [], 0, fun _ => true⟩,
    [0, 9, 0, 0, 0, 0, 0, 0, 1 / 200, 0, 1], ?_, rfl, ⟨rfl, fun _ => rfl⟩, ?_, ?_, ?_⟩
  · intro v; cases v <;> decide
  all_goals decide +kernel

/-- Words for examples over the reals. -/
noncomputable def realText : Text ℝ (Int ⊕ ℝ) where
  showInt := .inl
  showFlt := .inr
  parseInt | .inl n => some n | .inr _ => none
  parseFlt | .inl n => some n | .inr v => some v

theorem realText_lawful : realText.Lawful := ⟨fun _ => rfl, fun _ => rfl⟩

/-- Non-vacuity of C38_partial and C38_on_shell: a photon with px = 3, pz = 4, E = 5. -/
example : ∃ (s : HS ℝ) (f : OutFile (Int ⊕ ℝ)), s.core.InRange ∧
    Expressible "mars_1" (s.core.i .pid) ∧ s.OnShell ∧ 0 ≤ s.core.d .energy ∧
    s.core.d .mass = tableMass (s.core.i .pid) ∧ OutFile.Good f ∧ s.core.d .px = 3 := by
  refine ⟨⟨(((Core.new.setI .pid 22).setD .energy 5).setD .px 3).setD .pz 4, WC.new⟩,
    ⟨[], [], 0, fun _ => true⟩, ?_, ?_, ?_, ?_, ?_, ⟨rfl, fun _ => rfl⟩, by simp⟩
  · intro v; cases v <;> simp [Core.new]
  · simp [Expressible]
  · simp [HS.OnShell, Core.new]; norm_num
  · simp
  · have : Common.pdgPidToMass.lookup |(22 : Int)| = some 0 := by decide +kernel
    simp only [Core.setD_i, Core.setI_i, if_true, tableMass, this]
    simp [Core.new]

end Xboa
