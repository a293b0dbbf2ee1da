import Verif.Model.BunchRead
import Verif.Props.BunchSplit
import Verif.Props.HitStorage
import Verif.Props.TextFile
/-
C89: reading a file into a dictionary or a sorted list of bunches.
-/
set_option linter.unusedSectionVars false
namespace Xboa
namespace BunchRead
open TextIO
variable {K : Type} [Field K] [LinearOrder K] [IsStrictOrderedRing K] [FloorRing K] {W : Type}

/-- `hit.get(v)` returns the integer `z`. -/
def IntValue (E : Ext K) (v : String) (s : HS K) (z : Int) : Prop := (Hit.get E v s).1 = .ok (.int z)

/-- The hits `cores` are the objects `first`, `first + 1`, ... and nothing else changed. -/
structure Placed (cores : List (Core K)) (first : Nat) (w w' : BWorld K) : Prop where
  new : ∀ j (hj : j < cores.length), w'.hits (first + j) = cores[j]
  old : ∀ i, i < first ∨ first + cores.length ≤ i → w'.hits i = w.hits i
  ctx : w'.ctx = w.ctx
  hcur : w'.hcur = w.hcur
  bcur : w'.bcur = w.bcur
  geo : w'.geo = w.geo

theorem place_placed (cores : List (Core K)) (first : Nat) (w : BWorld K) :
    Placed cores first w (place cores (w.ctx w.hcur) first w) := by
  refine ⟨?_, ?_, ?_, rfl, rfl, rfl⟩
  · intro j hj
    simp [place, hj]
  · intro i hi
    simp only [place]
    split
    · rename_i h
      rw [List.getElem?_eq_none (by omega)]
      rfl
    · rfl
  · funext c
    simp only [place]
    split
    · rename_i h; rw [h]
    · rfl

theorem foldl_append (l : List Nat) (b : Bunch K) (hb : b.Sync) :
    (l.foldl (fun b h => b.append h) b).Sync ∧ (l.foldl (fun b h => b.append h) b).hits = b.hits ++ l := by
  induction l generalizing b with
  | nil => exact ⟨hb, by simp⟩
  | cons h r ih =>
    obtain ⟨h1, h2⟩ := ih (b.append h) (hb.append h)
    refine ⟨h1, ?_⟩
    rw [List.foldl_cons, h2]
    simp [Bunch.append]

/-- the bunch that is read -/
theorem newFromRead_ok (E : Ext K) (hE : E.Lawful) (T : Text K W) (format : String)
    (vars : List String) (hfv : (format, vars) ∈ lineFormats) (test : HS K → Bool)
    (files : List (List (Line W)))
    (hl : ∀ file ∈ files, ∀ ws ∈ dataLines format file,
      ws.length = (columns format : List (String × K)).length → WellFormed (K := K) T format ws)
    (first : Nat) (w : BWorld K) :
    ∃ hs : List (Core K),
      List.Forall₂ (fun ws c => HitOfLine E T format ws ⟨c, w.ctx w.hcur⟩)
        ((files.flatMap (dataLines format)).filter fun ws =>
          decide (ws.length = (columns format : List (String × K)).length)) hs ∧
      ∃ b w', newFromRead E T format test files first w = (.ok b, w') ∧ b.Sync ∧
        b.hits = List.range' first (hs.filter fun c => test ⟨c, w.ctx w.hcur⟩).length ∧
        Placed (hs.filter fun c => test ⟨c, w.ctx w.hcur⟩) first w w' := by
  obtain ⟨hs, h1, h2⟩ := C41_partial E hE T format vars hfv (-1) test files hl (w.ctx w.hcur)
  rw [if_pos (by omega)] at h2
  refine ⟨hs, h1, _, _, by rw [newFromRead, h2], ?_, ?_, place_placed _ _ _⟩
  · exact (foldl_append _ _ C24_new_partial).1
  · rw [(foldl_append _ _ C24_new_partial).2]; simp [Bunch.new]

/-- C89, new_dict_from_read_builtin for any variable that every hit has: the hits of the well formed
lines that pass the test are grouped by the value without its decimals. -/
theorem C89_dict (E : Ext K) (hE : E.Lawful) (T : Text K W) (format : String)
    (vars : List String) (hfv : (format, vars) ∈ lineFormats) (v : String) (test : HS K → Bool)
    (files : List (List (Line W)))
    (hl : ∀ file ∈ files, ∀ ws ∈ dataLines format file,
      ws.length = (columns format : List (String × K)).length → WellFormed (K := K) T format ws)
    (first : Nat) (w : BWorld K) (val : Core K → K)
    (hv : ∀ c, (Hit.getNum E v ⟨c, w.ctx w.hcur⟩).1 = .ok (val c)) (key : Core K → Int)
    (hk : ∀ c, IsTrunc (val c) (key c)) :
    ∃ hs : List (Core K),
      List.Forall₂ (fun ws c => HitOfLine E T format ws ⟨c, w.ctx w.hcur⟩)
        ((files.flatMap (dataLines format)).filter fun ws =>
          decide (ws.length = (columns format : List (String × K)).length)) hs ∧
      ∃ d w', newDictFromRead E T format v test files first w = (.ok d, w') ∧
        Placed (hs.filter fun c => test ⟨c, w.ctx w.hcur⟩) first w w' ∧
        Groups (fun i => key (w'.hits i))
          (List.range' first (hs.filter fun c => test ⟨c, w.ctx w.hcur⟩).length) d := by
  obtain ⟨hs, h1, b, w', g1, _, g3, g4⟩ := newFromRead_ok E hE T format vars hfv test files hl first w
  obtain ⟨d, d1, d2⟩ := C28_groups_by_int E w' b v (fun i => val (w'.hits i)) (fun i => key (w'.hits i))
    (fun i _ => by
      rw [Bunch.hitNum, BWorld.hview, g4.ctx, g4.hcur]
      exact hv _) (fun i => hk _)
  refine ⟨hs, h1, d, w', ?_, g4, g3 ▸ d2⟩
  rw [newDictFromRead, g1]
  simp only [d1]

theorem lookup_of_mem {d : List (Int × Bunch K)} (hd : (d.map Prod.fst).Nodup) {k : Int}
    (hk : k ∈ d.map Prod.fst) : ∃ b, d.lookup k = some b ∧ (k, b) ∈ d := by
  induction d with
  | nil => simp at hk
  | cons p t ih =>
    obtain ⟨k', b'⟩ := p
    by_cases h : k = k'
    · subst h
      exact ⟨b', by simp [List.lookup], by simp⟩
    · simp only [List.map_cons, List.nodup_cons, List.mem_cons, h, false_or] at hd hk
      obtain ⟨b, h1, h2⟩ := ih hd.2 hk
      exact ⟨b, by simp [List.lookup, beq_eq_false_iff_ne.mpr h, h1], by simp [h2]⟩

theorem bunchesOf_ok {d : List (Int × Bunch K)} (hd : (d.map Prod.fst).Nodup) :
    ∀ keys : List Int, (∀ k ∈ keys, k ∈ d.map Prod.fst) →
      ∃ bs, bunchesOf d keys = .ok bs ∧ List.Forall₂ (fun k b => (k, b) ∈ d) keys bs
  | [], _ => ⟨[], rfl, .nil⟩
  | k :: r, h => by
    simp only [List.mem_cons, forall_eq_or_imp] at h
    obtain ⟨b, h1, h2⟩ := lookup_of_mem hd h.1
    obtain ⟨bs, h3, h4⟩ := bunchesOf_ok hd r h.2
    exact ⟨b :: bs, by simp [bunchesOf, h1, h3], .cons h2 h4⟩

/-- the integer variables have integer values -/
theorem intValue (E : Ext K) (v : String) (hv : v ∈ intNames) :
    ∃ iv : IVar, ∀ s : HS K, (Hit.get E v s).1 = .ok (.int (s.core.i iv)) ∧
      (Hit.getNum E v s).1 = .ok (s.core.i iv : K) := by
  obtain ⟨iv, _, _, h3⟩ := row_int v hv
  refine ⟨iv, fun s => ?_⟩
  have hg : Hitcore.get s v = .ok (.int (s.core.i iv)) := by rw [Hitcore.get_eq, h3]
  constructor
  · simp [Hit.get, hg]
  · simp [Hit.getNum, Hit.get, hg]

/-- C89_partial, new_list_from_read_builtin for an integer variable: one bunch for each value that a
hit has, in ascending order of the value; the bunch of value `z` holds exactly the hits with that
value, in the order of the files.  The hits are those of the well formed lines that pass the test.
No existing hit and no weight changes.
Missing: variables with values that are not integers (false, C89_false); files with malformed lines
(C41_false); the MAUS formats. -/
theorem C89_partial (E : Ext K) (hE : E.Lawful) (T : Text K W) (format : String)
    (vars : List String) (hfv : (format, vars) ∈ lineFormats) (v : String) (hv : v ∈ intNames)
    (test : HS K → Bool) (files : List (List (Line W)))
    (hl : ∀ file ∈ files, ∀ ws ∈ dataLines format file,
      ws.length = (columns format : List (String × K)).length → WellFormed (K := K) T format ws)
    (first : Nat) (w : BWorld K) :
    ∃ hs : List (Core K),
      List.Forall₂ (fun ws c => HitOfLine E T format ws ⟨c, w.ctx w.hcur⟩)
        ((files.flatMap (dataLines format)).filter fun ws =>
          decide (ws.length = (columns format : List (String × K)).length)) hs ∧
      ∃ (bs : List (Bunch K)) (w' : BWorld K) (keys : List Int),
        newListFromRead E T format v test files first w = (.ok bs, w') ∧
        Placed (hs.filter fun c => test ⟨c, w.ctx w.hcur⟩) first w w' ∧
        keys.Pairwise (· < ·) ∧
        List.Forall₂ (fun z b => b.Sync ∧ b.hits ≠ [] ∧ b.hits.Pairwise (· < ·) ∧
          ∀ i, i ∈ b.hits ↔ first ≤ i ∧
            i < first + (hs.filter fun c => test ⟨c, w.ctx w.hcur⟩).length ∧
            IntValue E v (w'.hview i) z) keys bs ∧
        ∀ i, first ≤ i → i < first + (hs.filter fun c => test ⟨c, w.ctx w.hcur⟩).length →
          ∃ z ∈ keys, IntValue E v (w'.hview i) z := by
  obtain ⟨iv, hiv⟩ := intValue E v hv
  obtain ⟨hs, h1, d, w', g1, g2, g3⟩ := C89_dict E hE T format vars hfv v test files hl first w
    (fun c => (c.i iv : K)) (fun c => (hiv _).2) (fun c => c.i iv)
    (fun c => by
      have := Bunch.pyInt_isTrunc (c.i iv : K)
      rwa [Bunch.pyInt_intCast] at this)
  obtain ⟨bs, b1, b2⟩ := bunchesOf_ok g3.nodup ((d.map Prod.fst).insertionSort (· ≤ ·))
    (fun k hk => (List.mem_insertionSort (· ≤ ·)).mp hk)
  refine ⟨hs, h1, bs, w', (d.map Prod.fst).insertionSort (· ≤ ·), ?_, g2, ?_, ?_, ?_⟩
  · rw [newListFromRead, g1]
    simp only [b1]
  · have hs := List.pairwise_insertionSort (r := (· ≤ · : Int → Int → Prop)) (d.map Prod.fst)
    have hn : ((d.map Prod.fst).insertionSort (· ≤ ·)).Nodup :=
      (List.perm_insertionSort _ _).nodup_iff.mpr g3.nodup
    exact (hs.and hn).imp fun h => lt_of_le_of_ne h.1 h.2
  · refine b2.imp fun z b hb => ⟨g3.sync _ hb, g3.nonempty _ hb, ?_, fun i => ?_⟩
    · rw [g3.hits _ hb]
      exact List.Pairwise.filter _ (List.pairwise_lt_range' (s := first))
    · rw [g3.hits _ hb, List.mem_filter, List.mem_range'_1, IntValue, (hiv _).1]
      simp only [decide_eq_true_eq, BWorld.hview, Except.ok.injEq, Val.int.injEq]
      tauto
  · intro i hi hi'
    refine ⟨(w'.hits i).i iv, ?_, (hiv _).1⟩
    exact (List.mem_insertionSort (· ≤ ·)).mpr (g3.covered i (List.mem_range'_1.mpr ⟨hi, hi'⟩))

/-- A line of an ICOOL beam file: event number, x in m, the rest fixed. -/
def beamLine (event x : ℚ) : Line (Option ℚ) :=
  ⟨false, none, [some event, some 1, some 2, some 0, some 0, some 1, some x, some 0, some 0, some 0,
    some 0, some 0, some 0, some 0, some 0]⟩

/-- The header of an ICOOL beam file. -/
def beamHeader : List (Line (Option ℚ)) := [⟨false, none, []⟩, ⟨false, none, []⟩]

/-- The members of the bunches of a result. -/
def membersOf (r : Except Err (List (Bunch ℚ)) × BWorld ℚ) : Option (List (List Nat)) :=
  r.1.toOption.map (List.map Bunch.hits)

/-- C89 is false for other variables: hits at x = 1/4 mm and x = -1/2 mm end in one bunch, although
each entry should contain only one value. -/
theorem C89_false :
    membersOf (newListFromRead ratExt wordText "icool_for003" "x" (fun _ => true)
      [beamHeader ++ [beamLine 1 (1 / 4000), beamLine 2 (-1 / 2000)]] 10 exWorld) = some [[10, 11]] ∧
    (let w' := (newListFromRead ratExt wordText "icool_for003" "x" (fun _ => true)
      [beamHeader ++ [beamLine 1 (1 / 4000), beamLine 2 (-1 / 2000)]] 10 exWorld).2
     Bunch.hitNum ratExt w' 10 "x" = .ok (1 / 4) ∧ Bunch.hitNum ratExt w' 11 "x" = .ok (-1 / 2)) := by
  decide +kernel

/-- Three lines in two files, sorted by event number. -/
example : membersOf (newListFromRead ratExt wordText "icool_for003" "event_number" (fun _ => true)
    [beamHeader ++ [beamLine 7 0, beamLine 3 1], beamHeader ++ [beamLine 7 2]] 10 exWorld) =
    some [[11], [10, 12]] := by decide +kernel

/-- Such a line is well formed. -/
theorem beamLine_wellFormed (event : Int) (he : -2147483648 ≤ event ∧ event < 2147483648) (x : ℚ) :
    WellFormed (K := ℚ) wordText "icool_for003" (beamLine event x).words := by
  have hi : ∀ n : Int, -2147483648 ≤ n ∧ n < 2147483648 → WordInt wordText (some (n : ℚ)) n :=
    fun n hn => ⟨Or.inl (by simp [wordText]), hn⟩
  have h1 := hi 1 (by decide)
  have h2 := hi 2 (by decide)
  have h0 := hi 0 (by decide)
  simp only [Int.cast_one, Int.cast_ofNat, Int.cast_zero] at h0 h1 h2
  have hf : ∀ v : ℚ, ∃ a, wordText.parseFlt (some v) = some a := fun v => ⟨v, rfl⟩
  simp only [beamLine, WellFormed, columns, reduceIte, String.reduceEq, List.forall₂_cons,
    List.forall₂_nil_right_iff, and_true]
  refine ⟨⟨Or.inr (Or.inl ⟨by decide, _, hi event he⟩), by simp⟩,
    ⟨Or.inr (Or.inl ⟨by decide, _, h1⟩), by simp⟩,
    ⟨Or.inr (Or.inl ⟨by decide, _, h2⟩), fun _ n hn => ⟨-13, ?_⟩⟩,
    ⟨Or.inr (Or.inl ⟨by decide, _, h0⟩), by simp⟩, ?_⟩
  · rcases hn.1 with h | ⟨h, _⟩
    · have : n = 2 := by simpa [wordText] using h.symm
      subst this
      show (2, -13) ∈ Common.icoolPidToPdg
      decide
    · simp [wordText] at h
  · simp [WordOk, intColumns, hf]

/-- Non-vacuity of C89_partial: files of such lines meet its hypotheses. -/
example : ∀ file ∈ [beamHeader ++ [beamLine 7 0, beamLine 3 1], beamHeader ++ [beamLine 7 2]],
    ∀ ws ∈ dataLines "icool_for003" file,
      ws.length = (columns "icool_for003" : List (String × ℚ)).length →
        WellFormed (K := ℚ) wordText "icool_for003" ws := by
  have h7 := beamLine_wellFormed 7 (by decide)
  have h3 := beamLine_wellFormed 3 (by decide) 1
  simp only [Int.cast_ofNat] at h3 h7
  simp [dataLines, beamHeader, h7, h3]

end BunchRead
end Xboa
