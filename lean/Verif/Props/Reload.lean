import Mathlib.Tactic.IntervalCases
import Verif.Model.Reload
import Verif.Props.BunchWrite
/-!
C120: saving a bunch as a G4Beamline track file and reading it back, many times.
-/
set_option linter.unusedSectionVars false
namespace Xboa
namespace Reload
open TextIO BunchRead BunchWrite
variable {K : Type} [Field K] [LinearOrder K] [IsStrictOrderedRing K] [FloorRing K] {W : Type}

/-! ### specification -/

/-- The phrase stands somewhere in the text. -/
def Contains (phrase text : String) : Prop :=
  ∃ a b : List Char, text.toList = a ++ phrase.toList ++ b

/-- The track files. -/
def track : String := "g4beamline_bl_track_file"

/-- The variables of a track file other than the position. -/
def otherVars : List String :=
  ["px", "py", "pz", "p", "t", "ct", "pid", "eventNumber", "event_number", "particleNumber", "particle_number",
    "local_weight"]

/-- The hits of `b'` in `w'` are those of `b` in `w` in the same order, with positions divided by `k`, and the
same values of the other variables. -/
def Shrunk (E : Ext K) (k : K) (w w' : BWorld K) (b b' : Bunch K) : Prop :=
  List.Forall₂ (fun i j =>
    (w'.hits j).d .x = (w.hits i).d .x / k ∧ (w'.hits j).d .y = (w.hits i).d .y / k ∧
    (w'.hits j).d .z = (w.hits i).d .z / k ∧
    ∀ n ∈ otherVars, (Hit.get E n (w'.hview j)).1 = (Hit.get E n (w.hview i)).1) b.hits b'.hits

/-- The hits of the bunch have integer members that C++ can hold, and no station (track files have no column for
it). -/
def Plain (s : Session K) : Prop :=
  ∀ i ∈ s.bunch.hits, (s.world.hits i).InRange ∧ (s.world.hits i).i .station = 0

/-! ### phrases -/

theorem hasSub_iff (p t : String) : hasSub p t = true ↔ Contains p t := by
  simp only [hasSub, List.any_eq_true, List.mem_tails, List.isPrefixOf_iff_prefix, Contains]
  constructor
  · rintro ⟨l, ⟨a, ha⟩, ⟨b, hb⟩⟩
    exact ⟨a, b, by rw [← ha, ← hb, List.append_assoc]⟩
  · rintro ⟨a, b, h⟩
    exact ⟨p.toList ++ b, ⟨a, by rw [h, List.append_assoc]⟩, ⟨b, rfl⟩⟩

/-- A phrase like 'cm cm cm' is not made by the word in front of the comment. -/
theorem contains_header (c t : String) (hc : c = "cm cm cm" ∨ c = "mm mm mm") :
    Contains c ("#BLTrackFile " ++ t) ↔ Contains c t := by
  have htl : ("#BLTrackFile " ++ t).toList = "#BLTrackFile ".toList ++ t.toList := String.toList_append
  constructor
  · rintro ⟨a, b, h⟩
    rw [htl] at h
    have hlen : "#BLTrackFile ".toList.length = 13 := by decide
    have ha : 13 ≤ a.length := by
      by_contra hlt
      push Not at hlt
      have h0 : ∀ j, j < 2 → ("#BLTrackFile ".toList ++ t.toList)[a.length + j]? = c.toList[j]? := by
        intro j hj
        rw [h, List.append_assoc, List.getElem?_append_right (by omega), Nat.add_sub_cancel_left,
          List.getElem?_append_left]
        rcases hc with rfl | rfl
        · exact lt_of_lt_of_le hj (by decide)
        · exact lt_of_lt_of_le hj (by decide)
      have h1 := h0 0 (by omega)
      have h2 := h0 1 (by omega)
      rw [Nat.add_zero, List.getElem?_append_left (by omega)] at h1
      generalize a.length = n at *
      have key : ∀ n : Fin 13, ("#BLTrackFile ".toList)[n.1]? = "cm cm cm".toList[0]? → n.1 = 6 := by decide
      have key2 : ∀ n : Fin 13, ("#BLTrackFile ".toList)[n.1]? ≠ "mm mm mm".toList[0]? := by decide
      rcases hc with rfl | rfl
      · have := key ⟨n, hlt⟩ h1
        simp only at this
        subst this
        rw [List.getElem?_append_left (by omega)] at h2
        revert h2
        decide
      · exact key2 ⟨n, hlt⟩ h1
    obtain ⟨a', rfl⟩ : ∃ a', a = "#BLTrackFile ".toList ++ a' := by
      refine ⟨a.drop 13, ?_⟩
      have := congrArg (List.take 13) h
      rw [List.append_assoc, List.take_append_of_le_length (by omega),
        List.take_append_of_le_length ha] at this
      conv_lhs => rw [← List.take_append_drop 13 a, ← this]
      rfl
    refine ⟨a', b, ?_⟩
    simpa only [List.append_assoc, List.append_cancel_left_eq] using h
  · rintro ⟨a, b, h⟩
    exact ⟨"#BLTrackFile ".toList ++ a, b, by rw [htl, h]; simp only [List.append_assoc]⟩

/-! ### one hit -/

/-- The hit with the position divided by `k`. -/
def scaled (k : K) (c : Core K) : Core K :=
  ((c.setD .x (c.d .x / k)).setD .y (c.d .y / k)).setD .z (c.d .z / k)

/-- the same words are written for two hits if every value is the same -/
theorem writeFormatted_same (E : Ext K) (T : Text K W) (us us' : List (String × String)) (s s' : HS K) :
    ∀ (fmt : List String), (∀ key ∈ fmt, (formatValue E T us key s).1 = (formatValue E T us' key s').1) →
      ∀ f : OutFile W, (writeFormatted E T us fmt (s, f)).1 = (writeFormatted E T us' fmt (s', f)).1 ∧
        (writeFormatted E T us fmt (s, f)).2.2 = (writeFormatted E T us' fmt (s', f)).2.2
  | [], _, f => ⟨rfl, rfl⟩
  | key :: rest, h, f => by
    have h1 := formatValue_state E T us key s
    have h2 := formatValue_state E T us' key s'
    have h3 := h key List.mem_cons_self
    have ih := writeFormatted_same E T us us' s s' rest fun k hk => h k (List.mem_cons_of_mem _ hk)
    simp only [writeFormatted]
    rcases hv : formatValue E T us key s with ⟨r, t⟩
    rcases hv' : formatValue E T us' key s' with ⟨r', t'⟩
    rw [hv, hv'] at h3
    rw [hv] at h1
    rw [hv'] at h2
    simp only at h1 h2 h3
    subst h1 h2 h3
    cases r with
    | error e => exact ⟨rfl, rfl⟩
    | ok w =>
      simp only
      rcases writeWord w f with ⟨x | x, f'⟩
      · exact ⟨rfl, rfl⟩
      · exact ih f'

theorem formatValue_scaled (E : Ext K) (T : Text K W) (u : String) (k : K)
    (hu : dictGet (units : List (String × K)) u = .ok k) (c : Core K) (wc : WC K) :
    ∀ key ∈ fmtG4bl, (formatValue E T (unitsG4bl u) key ⟨c, wc⟩).1 =
      (formatValue E T (unitsG4bl "mm") key ⟨scaled k c, wc⟩).1 := by
  have hmm : dictGet (units : List (String × K)) "mm" = .ok 1 := by simp [dictGet, units, List.lookup]
  have hns : dictGet (units : List (String × K)) "ns" = .ok 1 := by simp [dictGet, units, List.lookup]
  have hmev : dictGet (units : List (String × K)) "MeV/c" = .ok 1 := by simp [dictGet, units, List.lookup]
  have h0 : dictGet (units : List (String × K)) "" = .ok 1 := by simp [dictGet, units]
  intro key hkey
  simp only [fmtG4bl, List.mem_cons, List.not_mem_nil, or_false] at hkey
  rcases hkey with rfl | rfl | rfl | rfl | rfl | rfl | rfl | rfl | rfl | rfl | rfl | rfl <;>
    simp [formatValue, Hit.getNum, dictGet, varTypes, unitsG4bl, List.lookup, scaled] <;>
    simp_all [dictGet]

theorem line_scaled (E : Ext K) (hE : E.Lawful) (T : Text K W) (hT : T.Lawful) (u : String) (k : K)
    (hu : dictGet (units : List (String × K)) u = .ok k) (c : Core K) (hc : c.InRange) (wc : WC K) :
    ∃ ws, lineOf E T u track ⟨c, wc⟩ = some ws ∧
      ∀ c0 : HS K, makeHit E T track ws c0 = (.ok (), ⟨readCore E (scaled k c) fmtG4bl, c0.wc⟩) := by
  have hs : (scaled k c).InRange := by intro v; simpa [scaled] using hc v
  obtain ⟨ws, h1, h2⟩ := round_trip_core E hE T hT "mm" track fmtG4bl rfl (fun _ => rfl)
    ⟨scaled k c, wc⟩ hs (by simp [Expressible, track])
  refine ⟨ws, ?_, h2⟩
  have h3 := h1 ⟨[], [], 0, fun _ => true⟩ (fun _ => rfl)
  rw [writeBuiltin_plain E T "mm" track fmtG4bl (unitsG4bl "mm") (by decide) (by unfold plain; decide) rfl
    rfl] at h3
  obtain ⟨g1, g2⟩ := writeFormatted_same E T (unitsG4bl u) (unitsG4bl "mm") ⟨c, wc⟩ ⟨scaled k c, wc⟩ fmtG4bl
    (formatValue_scaled E T u k hu c wc) ⟨[], [], 0, fun _ => true⟩
  rw [h3] at g1 g2
  rw [lineOf, writeBuiltin_plain E T u track fmtG4bl (unitsG4bl u) (by decide) (by unfold plain; decide) rfl
    rfl]
  rcases hw : writeFormatted E T (unitsG4bl u) fmtG4bl (⟨c, wc⟩, ⟨[], [], 0, fun _ => true⟩) with ⟨r, h, f⟩
  rw [hw] at g1 g2
  simp only at g1 g2
  subst g1 g2
  simp [OutFile.added]

theorem readCore_spec (E : Ext K) (k : K) (c : Core K) (hc : c.InRange) (wc wc' : WC K) :
    let r := readCore E (scaled k c) fmtG4bl
    r.InRange ∧ r.i .station = 0 ∧ r.d .x = c.d .x / k ∧ r.d .y = c.d .y / k ∧ r.d .z = c.d .z / k ∧
      ∀ n ∈ otherVars, (Hit.get E n ⟨r, wc'⟩).1 = (Hit.get E n ⟨c, wc⟩).1 := by
  intro r
  have hi : ∀ v, r.i v = if Fld.i v ∈ fldsOf fmtG4bl then c.i v else (Core.new : Core K).i v := by
    intro v
    simp [r, readCore, copyFlds_i, scaled]
  have hd : ∀ v, v ∉ [DVar.mass, .energy, .charge] → r.d v =
      if Fld.d v ∈ fldsOf fmtG4bl then (scaled k c).d v else (Core.new : Core K).d v := by
    intro v hv
    simp only [List.mem_cons, List.not_mem_nil, or_false, not_or] at hv
    simp [r, readCore, hv, copyFlds_d]
  have h_t := hd .t (by decide); rw [if_pos (by decide)] at h_t
  have h_x := hd .x (by decide); rw [if_pos (by decide)] at h_x
  have h_y := hd .y (by decide); rw [if_pos (by decide)] at h_y
  have h_z := hd .z (by decide); rw [if_pos (by decide)] at h_z
  have h_px := hd .px (by decide); rw [if_pos (by decide)] at h_px
  have h_py := hd .py (by decide); rw [if_pos (by decide)] at h_py
  have h_pz := hd .pz (by decide); rw [if_pos (by decide)] at h_pz
  have h_local_weight := hd .local_weight (by decide); rw [if_pos (by decide)] at h_local_weight
  have h_event := hi .event; rw [if_pos (by decide)] at h_event
  have h_particle := hi .particle; rw [if_pos (by decide)] at h_particle
  have h_pid := hi .pid; rw [if_pos (by decide)] at h_pid
  simp [scaled] at h_t h_x h_y h_z h_px h_py h_pz h_local_weight
  refine ⟨?_, ?_, h_x, h_y, h_z, ?_⟩
  · intro v
    rw [hi v]
    split
    · exact hc v
    · cases v <;> simp [Core.new]
  · rw [hi, if_neg (by decide)]; simp [Core.new]
  · intro n hn
    simp only [otherVars, List.mem_cons, List.not_mem_nil, or_false] at hn
    rcases hn with h | h | h | h | h | h | h | h | h | h | h | h <;> subst h <;>
      simp [Hit.get_ct_eq, Hit.get_p_eq, h_t, h_px, h_py, h_pz, h_local_weight, h_event, h_particle, h_pid]

/-! ### one round -/

open Classical in
/-- The unit of length after a file with this comment was read. -/
noncomputable def unitAfter (c : Comment) (u : String) : String :=
  if Contains "cm cm cm" c.first then "cm" else if Contains "mm mm mm" c.first then "mm" else u

theorem unitAfter_names (c : Comment) (u : String) (h : u ∈ unitNames) : unitAfter c u ∈ unitNames := by
  rw [unitAfter]
  split
  · decide
  · split
    · decide
    · exact h

theorem header_unit (words : String → List W) (c : Comment) (hc : c.more = []) (lines : List (List W))
    (u : String) :
    (setupFile track ((fileHeader track (some c)).map (lineOfText words) ++
      lines.map fun ws => ⟨false, none, ws⟩) u).2 = unitAfter c u := by
  have hd : dictGet headerLines track = .ok 0 := rfl
  have hdata : ∀ (ls : List (List W)) (u : String),
      (ls.map fun ws => (⟨false, none, ws⟩ : Line W)).foldl
        (fun u l => if l.hash then l.unit.getD u else u) u = u := by
    intro ls
    induction ls with
    | nil => intro u; rfl
    | cons a r ih => intro u; simp only [List.map_cons, List.foldl_cons]; exact ih u
  have hhead : fileHeader track (some c) =
      ["#BLTrackFile " ++ c.first, "#x y z Px Py Pz t PDGid EvNum TrkId Parent weight"] := by
    simp [fileHeader, headerOf, track, hc]
  have h1 : (lineOfText words ("#BLTrackFile " ++ c.first)).hash = true := by
    simp [lineOfText, String.toList_append]
  have h2 : lineOfText words "#x y z Px Py Pz t PDGid EvNum TrkId Parent weight" =
      ⟨true, none, words "#x y z Px Py Pz t PDGid EvNum TrkId Parent weight"⟩ := by
    have e1 : hasSub "cm cm cm" "#x y z Px Py Pz t PDGid EvNum TrkId Parent weight" = false := by
      decide +kernel
    have e2 : hasSub "mm mm mm" "#x y z Px Py Pz t PDGid EvNum TrkId Parent weight" = false := by
      decide +kernel
    simp [lineOfText, e1, e2]
  have h3 : (lineOfText words ("#BLTrackFile " ++ c.first)).unit.getD u = unitAfter c u := by
    have g1 := (hasSub_iff "cm cm cm" ("#BLTrackFile " ++ c.first)).trans (contains_header _ _ (Or.inl rfl))
    have g2 := (hasSub_iff "mm mm mm" ("#BLTrackFile " ++ c.first)).trans (contains_header _ _ (Or.inr rfl))
    simp only [lineOfText, unitAfter]
    by_cases e1 : Contains "cm cm cm" c.first
    · rw [if_pos (g1.mpr e1), if_pos e1]; rfl
    · rw [if_neg (fun h => e1 (g1.mp h)), if_neg e1]
      by_cases e2 : Contains "mm mm mm" c.first
      · rw [if_pos (g2.mpr e2), if_pos e2]; rfl
      · rw [if_neg (fun h => e2 (g2.mp h)), if_neg e2]; rfl
  rw [setupFile, hd]
  simp only [List.drop_zero]
  rw [if_pos (show track = "g4beamline_bl_track_file" ∨ track = "g4beamline_bl_track_file_2" from Or.inl rfl), hhead]
  simp only [List.map_cons, List.map_nil, List.foldl_append, List.foldl_cons, List.foldl_nil, h1, if_true, h2,
    h3, hdata, Option.getD_none]

/-- The objects made before the round are as they were, and the new bunch is made of new objects. -/
def Keeps (s s' : Session K) : Prop :=
  s.next ≤ s'.next ∧ (∀ i, i < s.next → s'.world.hits i = s.world.hits i) ∧
    ∀ j ∈ s'.bunch.hits, s.next ≤ j ∧ j < s'.next

/-- C120, one round: a bunch that is saved with a comment of one line and read back has its positions divided
by the unit of length that was set last, in mm, and all else as before; afterwards the unit of length is cm or
mm if the comment says 'cm cm cm' or 'mm mm mm', otherwise what it was.  The hits that were there before are
left alone. -/
theorem C120_round_partial (E : Ext K) (hE : E.Lawful) (T : Text K W) (hT : T.Lawful)
    (words : String → List W) (c : Comment) (hc : c.more = []) (s : Session K) (hp : Plain s)
    (hun : s.unit ∈ unitNames) (k : K) (hu : dictGet (units : List (String × K)) s.unit = .ok k) :
    ∃ s', reload E T words track c s = .ok s' ∧ Plain s' ∧
      Shrunk E k s.world s'.world s.bunch s'.bunch ∧ s'.unit = unitAfter c s.unit ∧ Keeps s s' := by
  have hfv : (track, ["x", "y", "z", "px", "py", "pz", "p", "t", "ct", "pid", "eventNumber", "event_number",
      "particleNumber", "particle_number", "local_weight"]) ∈ lineFormats := by decide
  obtain ⟨order, o1, -, o3, o4, -, hh, hw⟩ := C40_list E hE T hT s.unit track hun _ hfv s.bunch.hits
    ⟨s.world.hits, s.world.ctx s.world.hcur, ⟨[], [], 0, fun _ => true⟩⟩ ⟨rfl, fun _ => rfl⟩
    fun i hi => (hp i hi).1
  obtain rfl : order = s.bunch.hits := by
    have h := o3 0
    rwa [List.filter_eq_self.mpr, List.filter_eq_self.mpr] at h
    · intro i hi; simpa using (hp i hi).2
    · intro i hi; simpa using (hp i (o1.mem_iff.mp hi)).2
  generalize hls : (writeList E T s.unit track s.bunch.hits
    ⟨s.world.hits, s.world.ctx s.world.hcur, ⟨[], [], 0, fun _ => true⟩⟩).file.lines = lines at o4
  simp only [List.nil_append] at o4
  have hwrite : hitWrite E T words s.unit track (some c) s.bunch s.world =
      (.ok ((fileHeader track (some c)).map (lineOfText words) ++ lines.map fun ws => ⟨false, none, ws⟩),
        s.world) := by
    rw [hitWrite, if_neg (by simp [fileTypes, track]), writeHits]
    simp only [hh, hw, hls, Prod.mk.injEq, true_and]
    rcases s with ⟨b, w, u, n⟩
    cases w
    simp only [BWorld.mk.injEq, true_and, and_true]
    funext c
    split
    · rename_i h; rw [h]
    · rfl
  have hhead : IsHeader track ((fileHeader track (some c)).map (lineOfText words)) :=
    header_ok words track c hc
  let cs := s.bunch.hits.map fun i => readCore E (scaled k (s.world.hits i)) fmtG4bl
  have hread : readFiles E T track (-1) (fun _ => true)
      [(fileHeader track (some c)).map (lineOfText words) ++ lines.map fun ws => ⟨false, none, ws⟩] []
      (s.world.ctx s.world.hcur) = (.ok cs, s.world.ctx s.world.hcur) := by
    simp only [readFiles, setupFile_lines track _ hfv, dataLines_header track _ hfv _ hhead]
    rw [readLoop_all E T track _ cs _ ?_]
    · simp
    · rw [o4]
      have : ∀ l : List Nat, (∀ i ∈ l, i ∈ s.bunch.hits) →
          List.Forall₂ (fun ws c => makeHit E T track ws ⟨Core.new, s.world.ctx s.world.hcur⟩ =
            (.ok (), ⟨c, s.world.ctx s.world.hcur⟩))
          (l.filterMap fun i => lineOf E T s.unit track ⟨s.world.hits i, s.world.ctx s.world.hcur⟩)
          (l.map fun i => readCore E (scaled k (s.world.hits i)) fmtG4bl) := by
        intro l
        induction l with
        | nil => intro _; exact .nil
        | cons i r ih =>
          intro h
          obtain ⟨ws, g1, g2⟩ := line_scaled E hE T hT s.unit k hu (s.world.hits i)
            (hp i (h i List.mem_cons_self)).1 (s.world.ctx s.world.hcur)
          rw [List.filterMap_cons_some (b := ws) (by exact g1), List.map_cons]
          exact .cons (g2 _) (ih fun j hj => h j (List.mem_cons_of_mem _ hj))
      exact this _ fun i hi => hi
  have hpl := place_placed cs s.next s.world
  have hhits : ((List.range' s.next cs.length).foldl (fun b h => b.append h) Bunch.new : Bunch K).hits =
      List.range' s.next cs.length := by
    rw [(foldl_append _ _ C24_new_partial).2]; simp [Bunch.new]
  have hnew : newFromRead E T track (fun _ => true)
      [(fileHeader track (some c)).map (lineOfText words) ++ lines.map fun ws => ⟨false, none, ws⟩] s.next
      s.world = (.ok ((List.range' s.next cs.length).foldl (fun b h => b.append h) Bunch.new),
        place cs (s.world.ctx s.world.hcur) s.next s.world) := by
    rw [newFromRead, hread]
  have hF : List.Forall₂ (fun i j => (place cs (s.world.ctx s.world.hcur) s.next s.world).hits j =
      readCore E (scaled k (s.world.hits i)) fmtG4bl) s.bunch.hits (List.range' s.next cs.length) := by
    refine forall₂_range' (R := fun i c => c = readCore E (scaled k (s.world.hits i)) fmtG4bl) ?_ s.next _
      hpl.new
    simp only [cs]
    rw [List.forall₂_map_right_iff]
    exact List.forall₂_same.mpr fun i _ => rfl
  refine ⟨_, by simp only [reload, hwrite, hnew]; rfl, ?_, ?_, header_unit words c hc lines s.unit, ?_⟩
  · intro j hj
    simp only [hhits] at hj
    obtain ⟨i, hi, h⟩ := forall₂_mem_right hF hj
    have := readCore_spec E k (s.world.hits i) (hp i hi).1 (s.world.ctx s.world.hcur)
      (s.world.ctx s.world.hcur)
    simp only [h]
    exact ⟨this.1, this.2.1⟩
  · simp only [Shrunk, hhits]
    have hF' : List.Forall₂ (fun i j => i ∈ s.bunch.hits ∧
        (place cs (s.world.ctx s.world.hcur) s.next s.world).hits j =
        readCore E (scaled k (s.world.hits i)) fmtG4bl) s.bunch.hits (List.range' s.next cs.length) := by
      rw [List.forall₂_and_left]
      exact ⟨fun _ h => h, hF⟩
    refine hF'.imp fun i j h => ?_
    obtain ⟨hi, h⟩ := h
    obtain ⟨-, -, hx, hy, hz, hv⟩ := readCore_spec E k (s.world.hits i) (hp i hi).1
      (s.world.ctx s.world.hcur) ((place cs (s.world.ctx s.world.hcur) s.next s.world).ctx
        (place cs (s.world.ctx s.world.hcur) s.next s.world).hcur)
    rw [h]
    refine ⟨hx, hy, hz, fun n hn => ?_⟩
    have := hv n hn
    rw [← h] at this
    exact this
  · refine ⟨Nat.le_add_right _ _, fun i hi => hpl.old i (Or.inl hi), fun j hj => ?_⟩
    simp only [hhits, List.length_range', List.mem_range'_1] at hj ⊢
    exact hj

/-! ### many rounds -/

theorem Shrunk.refl (E : Ext K) (w : BWorld K) (b : Bunch K) : Shrunk E 1 w w b b :=
  List.forall₂_same.mpr fun i _ => ⟨by simp, by simp, by simp, fun _ _ => rfl⟩

theorem Shrunk.trans {E : Ext K} {k k' : K} {w w' w'' : BWorld K} {b b' b'' : Bunch K}
    (h : Shrunk E k w w' b b') (h' : Shrunk E k' w' w'' b' b'') : Shrunk E (k * k') w w'' b b'' := by
  unfold Shrunk at *
  generalize b.hits = l at h
  generalize b'.hits = l' at h h'
  generalize b''.hits = l'' at h'
  induction h generalizing l'' with
  | nil => cases h'; exact .nil
  | cons a _ ih =>
    cases h' with
    | cons a' r =>
      refine .cons ?_ (ih _ r)
      obtain ⟨x, y, z, v⟩ := a
      obtain ⟨x', y', z', v'⟩ := a'
      refine ⟨by rw [x', x, div_div], by rw [y', y, div_div], by rw [z', z, div_div], fun n hn => ?_⟩
      rw [v' n hn, v n hn]

/-- C120_partial: a bunch can be saved as a track file and read back any number of times, with any comments of
one line in which 'cm cm cm' does not stand, without a change of any variable of the format or of any other hit, if the unit of
length is mm at the start, as it is when the package is imported.
Missing: comments that say 'cm cm cm' (false, C120_false); comments of many lines; hits of more than one
station, which are put in order of station and lose it (C96). -/
theorem C120_partial (E : Ext K) (hE : E.Lawful) (T : Text K W) (hT : T.Lawful) (words : String → List W) :
    ∀ (comments : List Comment), (∀ c ∈ comments, c.more = [] ∧ ¬ Contains "cm cm cm" c.first) →
    ∀ (s : Session K), Plain s → s.unit = "mm" →
    ∃ s', reloads E T words track comments s = .ok s' ∧ s'.unit = "mm" ∧ Plain s' ∧
      Shrunk E 1 s.world s'.world s.bunch s'.bunch ∧
      s.next ≤ s'.next ∧ ∀ i, i < s.next → s'.world.hits i = s.world.hits i
  | [], _, s, hp, hu => ⟨s, rfl, hu, hp, Shrunk.refl E _ _, Nat.le_refl _, fun _ _ => rfl⟩
  | c :: r, hc, s, hp, hu => by
    obtain ⟨s1, h1, h2, h3, h4, h5⟩ := C120_round_partial E hE T hT words c (hc c List.mem_cons_self).1 s hp
      (by rw [hu]; decide) 1 (by rw [hu]; simp [dictGet, units, List.lookup])
    have hu1 : s1.unit = "mm" := by
      rw [h4, unitAfter, if_neg (hc c List.mem_cons_self).2, hu, ite_self]
    obtain ⟨s2, g1, g2, g3, g4, g5, g6⟩ := C120_partial E hE T hT words r
      (fun c h => hc c (List.mem_cons_of_mem _ h)) s1 h2 hu1
    refine ⟨s2, by simp only [reloads, h1, g1], g2, g3, ?_, h5.1.trans g5, fun i hi => ?_⟩
    · have := h3.trans g4
      rwa [one_mul] at this
    · rw [g6 i (Nat.lt_of_lt_of_le hi h5.1), h5.2.1 i hi]

/-- C120 fails if a comment says 'cm cm cm': the first reading sets the unit of length for writing to cm, but
reading takes mm; the positions come back right once, and after that each time divided by ten. -/
theorem C120_false (E : Ext K) (hE : E.Lawful) (T : Text K W) (hT : T.Lawful) (words : String → List W)
    (c : Comment) (hc : c.more = []) (hcm : Contains "cm cm cm" c.first) (n : Nat) (s : Session K)
    (hp : Plain s) (hu : s.unit = "mm") :
    ∃ s', reloads E T words track (List.replicate (n + 1) c) s = .ok s' ∧ s'.unit = "cm" ∧
      Shrunk E (10 ^ n) s.world s'.world s.bunch s'.bunch := by
  have hcmk : dictGet (units : List (String × K)) "cm" = .ok 10 := by simp [dictGet, units, List.lookup]
  have key : ∀ (n : Nat) (s : Session K), Plain s → s.unit = "cm" →
      ∃ s', reloads E T words track (List.replicate n c) s = .ok s' ∧ s'.unit = "cm" ∧
        Shrunk E (10 ^ n) s.world s'.world s.bunch s'.bunch := by
    intro n
    induction n with
    | zero => intro s _ hu; exact ⟨s, rfl, hu, by rw [pow_zero]; exact Shrunk.refl E _ _⟩
    | succ n ih =>
      intro s hp hu
      obtain ⟨s1, h1, h2, h3, h4, -⟩ := C120_round_partial E hE T hT words c hc s hp (by rw [hu]; decide) 10
        (by rw [hu]; exact hcmk)
      obtain ⟨s2, g1, g2, g3⟩ := ih s1 h2 (by rw [h4, unitAfter, if_pos hcm])
      refine ⟨s2, by simp only [List.replicate_succ, reloads, h1, g1], g2, ?_⟩
      rw [pow_succ']
      exact h3.trans g3
  obtain ⟨s1, h1, h2, h3, h4, -⟩ := C120_round_partial E hE T hT words c hc s hp (by rw [hu]; decide) 1
    (by rw [hu]; simp [dictGet, units, List.lookup])
  obtain ⟨s2, g1, g2, g3⟩ := key n s1 h2 (by rw [h4, unitAfter, if_pos hcm])
  refine ⟨s2, by simp only [List.replicate_succ, reloads, h1, g1], g2, ?_⟩
  have := h3.trans g3
  rwa [one_mul] at this

/-! ### cases -/

/-- one muon at x = 100 mm -/
noncomputable def caseSession : Session ℝ :=
  ⟨Bunch.new.append 0, ⟨fun _ => (Core.new.setI .pid 13).setD .x 100, fun _ => WC.new, 0, 0, false⟩, "mm", 1⟩

theorem caseSession_plain : Plain caseSession := by
  intro i _
  refine ⟨?_, rfl⟩
  intro v
  cases v <;> simp [caseSession, Core.new]

/-- case for C120_round_partial, C120_partial and C120_false: saved three times with the comment
'beam, cm cm cm', a muon at x = 100 mm comes back at 1 mm; with other comments at 100 mm -/
example (words : String → List (Int ⊕ ℝ)) :
    (∃ s', reloads realExt realText words track (List.replicate 3 ⟨"beam, cm cm cm", []⟩) caseSession = .ok s' ∧
      s'.bunch.hits.map (fun i => (s'.world.hits i).d .x) = [1]) ∧
    ∃ s', reloads realExt realText words track [⟨"beam, mm mm mm", []⟩, ⟨"test", []⟩] caseSession = .ok s' ∧
      s'.bunch.hits.map (fun i => (s'.world.hits i).d .x) = [100] := by
  have hb : caseSession.bunch.hits = [0] := rfl
  have hx : (caseSession.world.hits 0).d .x = 100 := by simp [caseSession]
  constructor
  · obtain ⟨s', h1, _, h2⟩ := C120_false realExt realExt_lawful realText realText_lawful words
      ⟨"beam, cm cm cm", []⟩ rfl ⟨"beam, ".toList, [], by decide⟩ 2 caseSession caseSession_plain rfl
    refine ⟨s', h1, ?_⟩
    rw [Shrunk, hb] at h2
    generalize s'.bunch.hits = l at h2
    cases h2 with
    | cons a r =>
      cases r
      simp only [List.map_cons, List.map_nil, a.1, hx]
      norm_num
  · obtain ⟨s', h1, _, _, h2, _⟩ := C120_partial realExt realExt_lawful realText realText_lawful words
      [⟨"beam, mm mm mm", []⟩, ⟨"test", []⟩] (by
        intro c hc
        simp only [List.mem_cons, List.not_mem_nil, or_false] at hc
        rcases hc with rfl | rfl
        · refine ⟨rfl, ?_⟩
          rw [← hasSub_iff]; decide +kernel
        · refine ⟨rfl, ?_⟩
          rw [← hasSub_iff]; decide +kernel) caseSession caseSession_plain rfl
    refine ⟨s', h1, ?_⟩
    rw [Shrunk, hb] at h2
    generalize s'.bunch.hits = l at h2
    cases h2 with
    | cons a r =>
      cases r
      simp only [List.map_cons, List.map_nil, a.1, hx]
      norm_num

end Reload
end Xboa
