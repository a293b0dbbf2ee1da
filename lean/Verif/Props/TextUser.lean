import Verif.Props.TextFile
/-!
C67 (user defined formats: write and read back) and C41 for user defined formats.
-/
set_option linter.unusedSectionVars false
namespace Xboa
open TextIO
variable {K W : Type} [Field K] [LinearOrder K] [IsStrictOrderedRing K] [FloorRing K]

/-- The number valued columns of a user format that are stored variables (or ct). -/
def floatColumns : List String :=
  ["x", "y", "z", "t", "ct", "px", "py", "pz", "energy", "bx", "by", "bz", "ex", "ey", "ez", "sx", "sy",
   "sz", "local_weight", "mass", "charge", "path_length", "proper_time", "e_dep"]

/-- The names of units the model knows. -/
def knownUnits : List String :=
  ["", "mum", "mm", "cm", "m", "km", "ns", "mus", "ms", "s", "eV", "keV", "MeV", "GeV", "TeV",
   "eV/c", "keV/c", "MeV/c", "GeV/c", "TeV/c", "eV/c2", "keV/c2", "MeV/c2", "GeV/c2", "TeV/c2",
   "Gauss", "mT", "T", "kT", "V", "kV", "MV", "GV", "kHz", "MHz", "GHz", "GV/m", "GV/mm", "echarge"]

/-- A user format: each column is blank, a number with a known unit, or a whole number without
unit. -/
def UserFormat (us : List (String × String)) (fmt : List String) : Prop :=
  ∀ key ∈ fmt, key = "" ∨ (key ∈ floatColumns ∧ ∃ name ∈ knownUnits, us.lookup key = some name) ∨
    (key ∈ intColumns ∧ us.lookup key = some "")

/-- Mass and charge of the particle are in the tables, unless the format has columns for them. -/
def Tabulated (fmt : List String) (pid : Int) : Prop :=
  ("mass" ∉ fmt → ∃ m, (|pid|, m) ∈ Common.pdgPidToMass) ∧
  ("charge" ∉ fmt → ∃ q, (pid, q) ∈ Common.pdgPidToCharge)

theorem float_key (key : String) (h : key ∈ floatColumns) : ∃ v, keyTable.lookup key = some (.d v) := by
  simp only [floatColumns, List.mem_cons, List.not_mem_nil, or_false] at h
  rcases h with h | h | h | h | h | h | h | h | h | h | h | h | h | h | h | h | h | h | h | h | h | h |
    h | h <;>
  · subst h; exact ⟨_, rfl⟩

theorem int_key (key : String) (h : key ∈ intColumns) : ∃ v, keyTable.lookup key = some (.i v) := by
  simp only [intColumns, List.mem_cons, List.not_mem_nil, or_false] at h
  rcases h with h | h | h | h | h | h | h <;>
  · subst h; exact ⟨_, rfl⟩

theorem UserFormat.fmtOk {us : List (String × String)} {fmt : List String} (h : UserFormat us fmt) :
    FmtOk us fmt := by
  intro key hk
  rcases h key hk with h0 | ⟨hf, name, hn, hu⟩ | ⟨hi, hu⟩
  · exact Or.inl h0
  · obtain ⟨v, hv⟩ := float_key key hf
    exact Or.inr ⟨_, hv, name, hu, hn, trivial⟩
  · obtain ⟨v, hv⟩ := int_key key hi
    exact Or.inr ⟨_, hv, "", hu, by decide, rfl⟩

/-- reading needs units for the numbers only -/
def UserReadable (us : List (String × String)) (fmt : List String) : Prop :=
  ∀ key ∈ fmt, key = "" ∨ (key ∈ floatColumns ∧ ∃ name ∈ knownUnits, us.lookup key = some name) ∨
    key ∈ intColumns

theorem userInit_ok (us : List (String × String)) (fmt : List String) (h : UserReadable us fmt) :
    userInit K us fmt = .ok () := by
  induction fmt with
  | nil => rfl
  | cons key r ih =>
    have ih' := ih (fun k hk => h k (List.mem_cons_of_mem _ hk))
    have hset : ∀ p ∈ keyTable, p.1 ∈ userSetVariables ∧ dictGet varTypes p.1 =
        .ok (match p.2 with | .d _ => .flt | .i _ => .int) ∧ p.1 ≠ "" := by decide
    unfold userInit
    rcases h key List.mem_cons_self with h0 | ⟨hf, name, hn, hu⟩ | hi
    · subst h0
      rw [if_neg (by decide)]
      simp [show dictGet varTypes "" = .ok .flt from rfl, ih']
    · obtain ⟨v, hv⟩ := float_key key hf
      have := hset _ (lookup_mem_keys _ _ _ hv)
      obtain ⟨u, hu'⟩ := unit_some (K := K) name hn
      simp only at this
      rw [if_neg (by simpa using this.1)]
      have hu2 : dictGet us key = .ok name := by simp [dictGet, hu]
      simp [this.2.1, this.2.2, hu2, hu', ih']
    · obtain ⟨v, hv⟩ := int_key key hi
      have := hset _ (lookup_mem_keys _ _ _ hv)
      simp only at this
      rw [if_neg (by simpa using this.1)]
      simp [this.2.1, ih']

theorem UserFormat.readable {us : List (String × String)} {fmt : List String} (h : UserFormat us fmt) :
    UserReadable us fmt := by
  intro key hk
  rcases h key hk with h | h | h
  · exact Or.inl h
  · exact Or.inr (Or.inl h)
  · exact Or.inr (Or.inr h.1)

theorem userMass_ok (E : Ext K) (fmt : List String) (s : HS K)
    (h : "mass" ∉ fmt → ∃ m, (|s.core.i .pid|, m) ∈ Common.pdgPidToMass) :
    ∃ c : Core K, userMass E fmt s = (.ok (), ⟨c, s.wc⟩) ∧ c.i = s.core.i ∧
      (∀ v, v ≠ .mass → c.d v = s.core.d v) ∧ ("mass" ∈ fmt → c.d .mass = s.core.d .mass) ∧
      ("mass" ∉ fmt → c.d .mass = tableMass (s.core.i .pid)) := by
  by_cases hm : "mass" ∈ fmt
  · exact ⟨s.core, by simp [userMass, hm], rfl, fun _ _ => rfl, fun _ => rfl, fun h => absurd hm h⟩
  · obtain ⟨m, hmem⟩ := h hm
    have hall := (by decide +kernel : ∀ p ∈ Common.pdgPidToMass, Common.pdgPidToMass.lookup p.1 = some p.2)
    have hl := hall _ hmem
    simp only at hl
    refine ⟨s.core.setD .mass (tableMass (s.core.i .pid)), ?_, rfl, fun v hv => by simp [hv],
      fun h => absurd h hm, fun _ => by simp⟩
    simp [userMass, hm, massOf, dictGet, hl, tableMass]

theorem userCharge_ok (E : Ext K) (fmt : List String) (s : HS K)
    (h : "charge" ∉ fmt → ∃ q, (s.core.i .pid, q) ∈ Common.pdgPidToCharge) :
    ∃ c : Core K, userCharge E fmt s = (.ok (), ⟨c, s.wc⟩) ∧ c.i = s.core.i ∧
      (∀ v, v ≠ .charge → c.d v = s.core.d v) ∧ ("charge" ∈ fmt → c.d .charge = s.core.d .charge) ∧
      ("charge" ∉ fmt → c.d .charge = tableCharge (s.core.i .pid)) := by
  by_cases hm : "charge" ∈ fmt
  · exact ⟨s.core, by simp [userCharge, hm], rfl, fun _ _ => rfl, fun _ => rfl, fun h => absurd hm h⟩
  · obtain ⟨m, hmem⟩ := h hm
    have hall := (by decide +kernel : ∀ p ∈ Common.pdgPidToCharge, Common.pdgPidToCharge.lookup p.1 = some p.2)
    have hl := hall _ hmem
    simp only at hl
    refine ⟨s.core.setD .charge (tableCharge (s.core.i .pid)), ?_, rfl, fun v hv => by simp [hv],
      fun h => absurd h hm, fun _ => by simp⟩
    simp only [userCharge, hm, if_false, dictGet, hl, tableCharge, Option.getD_some]
    rfl

/-- what follows the reading of the words -/
theorem makeUserHit_after (E : Ext K) (T : Text K W) (us : List (String × String)) (fmt : List String)
    (hr : UserReadable us fmt) (ws : List W) (hl : ws.length = fmt.length) (c0 : HS K) (c1 : Core K)
    (hread : readWords E T us fmt ws ⟨Core.new, c0.wc⟩ = (.ok (), ⟨c1, c0.wc⟩))
    (ht : Tabulated fmt (c1.i .pid)) :
    ∃ c : Core K, makeUserHit E T us fmt "" ws c0 = (.ok (), ⟨c, c0.wc⟩) ∧ c.i = c1.i ∧
      (∀ v, v ≠ .mass → v ≠ .charge → c.d v = c1.d v) ∧
      ("mass" ∈ fmt → c.d .mass = c1.d .mass) ∧ ("charge" ∈ fmt → c.d .charge = c1.d .charge) ∧
      ("mass" ∉ fmt → c.d .mass = tableMass (c1.i .pid)) ∧
      ("charge" ∉ fmt → c.d .charge = tableCharge (c1.i .pid)) := by
  obtain ⟨c2, h1, h2, h3, h4, h5⟩ := userMass_ok E fmt ⟨c1, c0.wc⟩ ht.1
  obtain ⟨c3, g1, g2, g3, g4, g5⟩ := userCharge_ok E fmt ⟨c2, c0.wc⟩ (by rw [h2]; exact ht.2)
  refine ⟨c3, ?_, g2.trans h2, ?_, ?_, ?_, ?_, ?_⟩
  · simp only [makeUserHit, PyM.bind_apply, PyM.lift_apply, userInit_ok (K := K) us fmt hr, readFormatted,
      hl, ne_eq, not_true, if_false, Hit.fresh, hread, h1, Hit.shell_empty, g1]
  · intro v hv1 hv2
    rw [g3 v hv2]; exact h3 v hv1
  · intro hm; rw [g3 _ (by decide)]; exact h4 hm
  · intro hm; rw [g4 hm]; exact h3 _ (by decide)
  · intro hm; rw [g3 _ (by decide)]; exact h5 hm
  · intro hm; rw [g5 hm]; simp only [h2]

/-- C67: a hit written in a user format and read back with the same format and units has the same
value of every variable of the format.  Whole number columns must have the empty unit, mass and charge
must be columns or the pid be in the tables. -/
theorem C67_partial (E : Ext K) (hE : E.Lawful) (T : Text K W) (hT : T.Lawful)
    (us : List (String × String)) (fmt : List String) (hfmt : UserFormat us fmt) (s : HS K)
    (hs : s.core.InRange) (ht : Tabulated fmt (if "pid" ∈ fmt then s.core.i .pid else 0))
    (f : OutFile W) (hf : OutFile.Good f) :
    ∃ ws : List W,
      (∃ f' : OutFile W, writeUser E T us fmt (s, f) = (.ok (), (s, f')) ∧
        f'.lines = f.lines ++ [ws] ∧ OutFile.Good f') ∧
      ∀ c0 : HS K, ∃ c : HS K, makeUserHit E T us fmt "" ws c0 = (.ok (), c) ∧ c.wc = c0.wc ∧
        (∀ n ∈ fmt, n ≠ "" → (Hit.get E n c).1 = (Hit.get E n s).1) ∧
        (Hit.get E "pid" c).1 = .ok (.int (if "pid" ∈ fmt then s.core.i .pid else 0)) ∧
        ("mass" ∉ fmt → (Hit.get E "mass" c).1 =
          .ok (.flt (tableMass (if "pid" ∈ fmt then s.core.i .pid else 0)))) ∧
        ("charge" ∉ fmt → (Hit.get E "charge" c).1 =
          .ok (.flt (tableCharge (if "pid" ∈ fmt then s.core.i .pid else 0)))) := by
  obtain ⟨ws, hl, h1, h2⟩ := line_round E hE T hT us fmt hfmt.fmtOk s hs
  have hpid : ((fldsOf fmt).foldl (copyFld s.core) (Core.new : Core K)).i .pid =
      if "pid" ∈ fmt then s.core.i .pid else 0 := by
    rw [copyFlds_i]
    have : Fld.i .pid ∈ fldsOf fmt ↔ "pid" ∈ fmt := by
      have hk := (by decide : ∀ p ∈ keyTable, p.2 = Fld.i .pid → p.1 = "pid")
      simp only [fldsOf, List.mem_filterMap]
      constructor
      · rintro ⟨key, hkey, hh⟩
        split at hh
        · simp at hh
        · have := hk _ (lookup_mem_keys _ _ _ hh) rfl
          simp only at this
          exact this ▸ hkey
      · intro hp
        exact ⟨"pid", hp, by decide⟩
    simp only [this]
    rfl
  refine ⟨ws, ⟨_, h1 f hf.2, ?_, rfl, hf.2⟩, fun c0 => ?_⟩
  · simp [OutFile.added, hf.1]
  obtain ⟨c, hc, hi, hd, hm, hch, hm2, hch2⟩ := makeUserHit_after E T us fmt hfmt.readable ws hl c0 _
    (h2 ⟨Core.new, c0.wc⟩) (by rw [hpid]; exact ht)
  refine ⟨_, hc, rfl, ?_, ?_, ?_, ?_⟩
  · intro n hn hn0
    obtain ⟨fld, hfld, -⟩ := (hfmt.fmtOk n hn).resolve_left hn0
    have hfld' : keyTable.lookup n = some fld := hfld
    have hk := lookup_mem_keys _ _ _ hfld'
    have hin : fld ∈ fldsOf fmt := by
      simp only [fldsOf, List.mem_filterMap]
      exact ⟨n, hn, by simp [hn0, hfld']⟩
    rw [(get_key E n fld hk _).1, (get_key E n fld hk _).1]
    cases fld with
    | i v => simp only [hi, copyFlds_i, hin, if_true]
    | d v =>
      have hv : c.d v = s.core.d v := by
        have hmass := (by decide : ∀ p ∈ keyTable, (p.2 = Fld.d .mass → p.1 = "mass") ∧
          (p.2 = Fld.d .charge → p.1 = "charge"))
        have := hmass _ hk
        simp only at this
        by_cases h1 : v = .mass
        · subst h1
          have := this.1 rfl
          subst this
          rw [hm hn, copyFlds_d, if_pos hin]
        · by_cases h2 : v = .charge
          · subst h2
            have := this.2 rfl
            subst this
            rw [hch hn, copyFlds_d, if_pos hin]
          · rw [hd v h1 h2, copyFlds_d, if_pos hin]
      simp only [hv]
  · simp [hi, hpid]
  · intro h; simp [hm2 h, hpid]
  · intro h; simp [hch2 h, hpid]

/-! ### C41 for user formats -/

/-- What a unit is, as a power of ten of the unit the hit uses (mm, ns, MeV, MeV/c, MeV/c2, kT, MV,
GHz, MV/mm, the electron charge). -/
def unitExponents : List (String × Int) :=
  [("", 0), ("mum", -3), ("mm", 0), ("cm", 1), ("m", 3), ("km", 6),
   ("ns", 0), ("mus", 3), ("ms", 6), ("s", 9),
   ("eV", -6), ("keV", -3), ("MeV", 0), ("GeV", 3), ("TeV", 6),
   ("eV/c", -6), ("keV/c", -3), ("MeV/c", 0), ("GeV/c", 3), ("TeV/c", 6),
   ("eV/c2", -6), ("keV/c2", -3), ("MeV/c2", 0), ("GeV/c2", 3), ("TeV/c2", 6),
   ("Gauss", -7), ("mT", -6), ("T", -3), ("kT", 0), ("V", -6), ("kV", -3), ("MV", 0), ("GV", 3),
   ("kHz", -6), ("MHz", -3), ("GHz", 0), ("GV/m", 0), ("GV/mm", 3), ("echarge", 0)]

theorem units_eq : (units : List (String × K)) = unitExponents.map fun p => (p.1, 10 ^ p.2) := by
  simp only [units, unitExponents, List.map_cons, List.map_nil]
  norm_num

theorem lookup_map_snd {α β : Type} (f : α → β) (k : String) : ∀ l : List (String × α),
    (l.map fun p => (p.1, f p.2)).lookup k = (l.lookup k).map f
  | [] => rfl
  | p :: r => by
    simp only [List.map_cons, List.lookup]
    split
    · rfl
    · exact lookup_map_snd f k r

/-- The columns of a user format, with what one unit of the file is in units of the hit. -/
def UserColumns (us : List (String × String)) (cols : List (String × K)) : Prop :=
  ∀ p ∈ cols, p.1 = "" ∨ (p.1 ∈ floatColumns ∧ ∃ name ∈ knownUnits, us.lookup p.1 = some name ∧
    ∃ e, unitExponents.lookup name = some e ∧ p.2 = 10 ^ e) ∨ p.1 ∈ intColumns

/-- A well formed line: a number in each column, and a known particle. -/
def UserWellFormed (T : Text K W) (cols : List (String × K)) (ws : List W) : Prop :=
  List.Forall₂ (fun (p : String × K) w => WordOk T p.1 w ∧
    (p.1 = "pid" → ∀ n, WordInt T w n → Tabulated (cols.map Prod.fst) n)) cols ws

/-- `c` is what the line `ws` says. -/
structure UserHitOfLine (E : Ext K) (T : Text K W) (cols : List (String × K)) (ws : List W)
    (c : HS K) : Prop where
  columns : List.Forall₂ (fun (p : String × K) w => ColumnRead E T p.1 p.2 w c) cols ws
  pid : "pid" ∉ cols.map Prod.fst → c.core.i .pid = 0
  mass : "mass" ∉ cols.map Prod.fst → c.core.d .mass = tableMass (c.core.i .pid)
  charge : "charge" ∉ cols.map Prod.fst → c.core.d .charge = tableCharge (c.core.i .pid)

theorem pid_fld (fmt : List String) : Fld.i .pid ∈ fldsOf fmt ↔ "pid" ∈ fmt := by
  have hk := (by decide : ∀ p ∈ keyTable, p.2 = Fld.i .pid → p.1 = "pid")
  simp only [fldsOf, List.mem_filterMap]
  constructor
  · rintro ⟨key, hkey, hh⟩
    split at hh
    · simp at hh
    · have := hk _ (lookup_mem_keys _ _ _ hh) rfl
      simp only at this
      exact this ▸ hkey
  · intro hp
    exact ⟨"pid", hp, by decide⟩

theorem makeUserHit_line (E : Ext K) (hE : E.Lawful) (T : Text K W) (us : List (String × String))
    (cols : List (String × K)) (hc : UserColumns us cols)
    (hnd : (fldsOf (cols.map Prod.fst)).Nodup) (ws : List W) (hws : UserWellFormed T cols ws)
    (c0 : HS K) :
    ∃ c : HS K, makeUserHit E T us (cols.map Prod.fst) "" ws c0 = (.ok (), c) ∧ c.wc = c0.wc ∧
      UserHitOfLine E T cols ws c := by
  have hr : UserReadable us (cols.map Prod.fst) := by
    intro key hk
    obtain ⟨p, hp, rfl⟩ := List.mem_map.1 hk
    rcases hc p hp with h | ⟨h, name, hn, hu, _⟩ | h
    · exact Or.inl h
    · exact Or.inr (Or.inl ⟨h, name, hn, hu⟩)
    · exact Or.inr (Or.inr h)
  have hcols : ColsOk us cols := by
    intro p hp
    rcases hc p hp with h | ⟨h, name, hn, hu, e, he, hpe⟩ | h
    · exact Or.inl h
    · have hv : (units : List (String × K)).lookup name = some p.2 := by
        rw [units_eq, lookup_map_snd (fun e : Int => (10 : K) ^ e), he, hpe]; rfl
      obtain ⟨v, hv'⟩ := float_key p.1 h
      exact Or.inr ⟨_, hv', fun _ _ => ⟨name, by simp [dictGet, hu], by simp [dictGet, hv]⟩⟩
    · obtain ⟨v, hv'⟩ := int_key p.1 h
      exact Or.inr ⟨_, hv', fun _ h => by simp at h⟩
  obtain ⟨c1, h1, h2, h3, h4⟩ := readWords_spec E hE T us cols hcols hnd ws
    (hws.imp fun _ _ h => h.1) ⟨Core.new, c0.wc⟩
  have h5 := forall₂_and h4 hws
  have hp0 : "pid" ∉ cols.map Prod.fst → c1.i .pid = 0 := fun hp => by
    rw [h3 .pid (fun h => hp ((pid_fld _).1 h))]; rfl
  have ht : Tabulated (cols.map Prod.fst) (c1.i .pid) := by
    by_cases hp : "pid" ∈ cols.map Prod.fst
    · obtain ⟨⟨k, u⟩, hp', rfl⟩ := List.mem_map.1 hp
      obtain ⟨w, hw1, hw2⟩ := forall₂_mem h5 hp'
      rcases hw1 with h | ⟨_, n, hn, hg⟩ | ⟨h, _⟩
      · simp at h
      · have : c1.i .pid = n := by simpa using hg
        rw [this]; exact hw2.2 rfl n hn
      · exact absurd (by simp [intColumns]) h
    · rw [hp0 hp]
      exact ⟨fun _ => ⟨0, by decide⟩, fun _ => ⟨0, by decide⟩⟩
  obtain ⟨c, g1, g2, g3, g4, g5, g6, g7⟩ := makeUserHit_after E T us _ hr ws
    (by rw [List.length_map]; exact hws.length_eq.symm) c0 c1 h1 ht
  refine ⟨_, g1, rfl, ?_, ?_, ?_, ?_⟩
  · refine forall₂_mem_left h4 ?_
    rintro ⟨key, u⟩ hp w hcr
    rcases hcols _ hp with h | ⟨fld, hk, _⟩
    · exact Or.inl h
    have hin : key ∈ cols.map Prod.fst := List.mem_map_of_mem (f := Prod.fst) hp
    have hk' := lookup_mem_keys _ _ _ hk
    have hmass := (by decide : ∀ p ∈ keyTable, (p.2 = Fld.d .mass → p.1 = "mass") ∧
      (p.2 = Fld.d .charge → p.1 = "charge")) _ hk'
    simp only at hmass
    refine columnRead_congr E T key fld hk' u w _ _ ?_ ?_ hcr
    · rintro v rfl
      by_cases e1 : v = .mass
      · subst e1
        have := hmass.1 rfl
        subst this
        exact g4 hin
      · by_cases e2 : v = .charge
        · subst e2
          have := hmass.2 rfl
          subst this
          exact g5 hin
        · exact g3 v e1 e2
    · rintro v rfl
      simp only [g2]
  · intro h; simp only [g2]; exact hp0 h
  · intro h; simp only [g2]; exact g6 h
  · intro h; simp only [g2]; exact g7 h

theorem makeUserHit_bad (E : Ext K) (T : Text K W) (us : List (String × String)) (fmt : List String)
    (hr : UserReadable us fmt) (ws : List W) (hl : ws.length ≠ fmt.length) (c0 : HS K) :
    makeUserHit E T us fmt "" ws c0 = (.error .BadEventError, c0) := by
  simp [makeUserHit, userInit_ok (K := K) us fmt hr, readFormatted, hl]

/-- C41 for a user format whose columns are distinct members: after the skipped lines, every line with
as many words as there are columns gives one hit with the values of the columns, in order, those that
pass the test, and only the first `number` of them; lines with another number of words are skipped. -/
theorem C41_user (E : Ext K) (hE : E.Lawful) (T : Text K W) (us : List (String × String))
    (cols : List (String × K)) (hc : UserColumns us cols)
    (hnd : (fldsOf (cols.map Prod.fst)).Nodup) (skip : Nat) (number : Int) (test : HS K → Bool)
    (file : List (List W))
    (hl : ∀ ws ∈ file.drop skip, ws.length = cols.length → UserWellFormed T cols ws) (wc : WC K) :
    ∃ hs : List (Core K),
      List.Forall₂ (fun ws c => UserHitOfLine E T cols ws ⟨c, wc⟩)
        ((file.drop skip).filter fun ws => decide (ws.length = cols.length)) hs ∧
      readUser E T us (cols.map Prod.fst) skip number test file wc =
        (.ok (if number < 0 then hs.filter fun c => test ⟨c, wc⟩
          else (hs.filter fun c => test ⟨c, wc⟩).take number.toNat), wc) := by
  have hr : UserReadable us (cols.map Prod.fst) := by
    intro key hk
    obtain ⟨p, hp, rfl⟩ := List.mem_map.1 hk
    rcases hc p hp with h | ⟨h, name, hn, hu, _⟩ | h
    · exact Or.inl h
    · exact Or.inr (Or.inl ⟨h, name, hn, hu⟩)
    · exact Or.inr (Or.inr h)
  have hmk : MkOk (makeUserHit E T us (cols.map Prod.fst) "") wc cols.length
      (UserHitOfLine E T cols) (file.drop skip) := fun ws hws =>
    ⟨fun h => makeUserHit_bad E T us _ hr ws (by simpa using h) _, fun h =>
      makeUserHit_line E hE T us cols hc hnd ws (hl ws hws h) ⟨Core.new, wc⟩⟩
  refine ⟨_, hitOf_spec _ wc _ _ _ hmk, ?_⟩
  rw [readUser, readLoop_spec _ wc _ _ number test _ hmk []]
  simp [firstN]

/-- Non-vacuity of C67_partial and C41_user: five columns, in cm and GeV/c. -/
example : UserFormat [("x", "cm"), ("px", "GeV/c"), ("pid", ""), ("mass", "MeV/c2")]
      ["x", "px", "", "pid", "mass"] ∧ Tabulated ["x", "px", "", "pid", "mass"] 211 ∧
    UserColumns (K := ℚ) [("x", "cm"), ("px", "GeV/c"), ("mass", "MeV/c2")]
      [("x", 10), ("px", 1000), ("", 1), ("pid", 1), ("mass", 1)] ∧
    (fldsOf ["x", "px", "", "pid", "mass"]).Nodup := by
  refine ⟨?_, ⟨fun h => absurd (by decide) h, fun _ => ⟨1, by decide⟩⟩, ?_, by decide⟩
  · intro key hk
    simp only [List.mem_cons, List.not_mem_nil, or_false] at hk
    rcases hk with rfl | rfl | rfl | rfl | rfl
    · exact Or.inr (Or.inl ⟨by decide, "cm", by decide, rfl⟩)
    · exact Or.inr (Or.inl ⟨by decide, "GeV/c", by decide, rfl⟩)
    · exact Or.inl rfl
    · exact Or.inr (Or.inr ⟨by decide, rfl⟩)
    · exact Or.inr (Or.inl ⟨by decide, "MeV/c2", by decide, rfl⟩)
  · intro p hp
    simp only [List.mem_cons, List.not_mem_nil, or_false] at hp
    rcases hp with rfl | rfl | rfl | rfl | rfl
    · exact Or.inr (Or.inl ⟨by decide, "cm", by decide, rfl, by decide +kernel⟩)
    · exact Or.inr (Or.inl ⟨by decide, "GeV/c", by decide, rfl, by decide +kernel⟩)
    · exact Or.inl rfl
    · exact Or.inr (Or.inr (by decide))
    · exact Or.inr (Or.inl ⟨by decide, "MeV/c2", by decide, rfl, by decide +kernel⟩)

/-- C67 fails in full: a whole number column with a unit is divided by it on writing and not multiplied
by it on reading (station 1000 in "km" is not read back as 1000); and a format with 'spill', which is
a settable variable, can be neither written nor read. -/
theorem C67_false :
    (∃ (s : HS ℚ) (ws : List (Option ℚ)), s.core.InRange ∧ s.core.i .station = 1000 ∧
      (∃ f, writeUser ratExt wordText [("station", "km")] ["station"] (s, ⟨[], [], 0, fun _ => true⟩) =
        (.ok (), (s, f)) ∧ f.lines = [ws]) ∧
      ∃ c, makeUserHit ratExt wordText [("station", "km")] ["station"] "" ws s = (.ok (), c) ∧
        c.core.i .station ≠ 1000) ∧
    (∀ (s : HS ℚ) (ws : List (Option ℚ)),
      (writeUser ratExt wordText [("spill", "")] ["spill"] (s, ⟨[], [], 0, fun _ => true⟩)).1 =
        .error .KeyError ∧
      (makeUserHit ratExt wordText [("spill", "")] ["spill"] "" ws s).1 = .error .KeyError) := by
  refine ⟨⟨⟨Core.new.setI .station 1000, WC.new⟩, [some 0], ?_, rfl, ⟨_, rfl, ?_⟩, ⟨_, rfl, ?_⟩⟩,
    fun s ws => ⟨rfl, rfl⟩⟩
  · intro v; cases v <;> decide
  all_goals decide +kernel

end Xboa
