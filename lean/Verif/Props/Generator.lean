import Verif.Model.Generator
import Verif.Props.TextFile
/-
C107: HitFactoryBase.hit_generator.
-/
set_option linter.unusedSectionVars false
namespace Xboa
namespace Generator
open TextIO
variable {S H : Type}

/-- the exceptions that mean that there is no hit here -/
def NoHit (e : Err) : Prop := e = .EOFError ∨ e = .BadEventError

/-- C107_one_false: whatever the factory and its source, the generator gives one hit at most, and it gives
none only if it raises. -/
theorem C107_one_false (makeHit : PyM S H) (newSpill : PyM S Unit) (s : S) :
    (∃ h s', hitGenerator makeHit newSpill s = ([h], .ok (), s')) ∨
    (∃ e s', hitGenerator makeHit newSpill s = ([], .error e, s')) := by
  unfold hitGenerator
  split
  · exact .inl ⟨_, _, rfl⟩
  · split
    · split
      · exact .inr ⟨_, _, rfl⟩
      · split
        · exact .inl ⟨_, _, rfl⟩
        · split <;> exact .inr ⟨_, _, rfl⟩
    · exact .inr ⟨_, _, rfl⟩

/-- what the one hit is: the first that make_hit gives, before or after a new spill -/
theorem C107_hit (makeHit : PyM S H) (newSpill : PyM S Unit) (s : S) :
    (∀ h s', makeHit s = (.ok h, s') → hitGenerator makeHit newSpill s = ([h], .ok (), s')) ∧
    (∀ e s1, makeHit s = (.error e, s1) → ¬ NoHit e → hitGenerator makeHit newSpill s = ([], .error e, s1)) ∧
    (∀ e s1 s2, makeHit s = (.error e, s1) → NoHit e → newSpill s1 = (.ok (), s2) →
      (∀ h s3, makeHit s2 = (.ok h, s3) → hitGenerator makeHit newSpill s = ([h], .ok (), s3)) ∧
      (∀ e' s3, makeHit s2 = (.error e', s3) → NoHit e' →
        hitGenerator makeHit newSpill s = ([], .error .RuntimeError, s3))) ∧
    (∀ e e' s1 s2, makeHit s = (.error e, s1) → NoHit e → newSpill s1 = (.error e', s2) →
      hitGenerator makeHit newSpill s = ([], .error e', s2)) := by
  refine ⟨fun h s' h1 => by simp [hitGenerator, h1], fun e s1 h1 h2 => ?_, fun e s1 s2 h1 h2 h3 => ⟨?_, ?_⟩,
    fun e e' s1 s2 h1 h2 h3 => ?_⟩
  · have : ¬ (e = .EOFError ∨ e = .BadEventError) := h2
    simp only [hitGenerator, h1, if_neg this]
  · intro h s3 h4
    have : e = .EOFError ∨ e = .BadEventError := h2
    simp only [hitGenerator, h1, if_pos this, h3, h4]
  · intro e' s3 h4 h5
    have h2' : e = .EOFError ∨ e = .BadEventError := h2
    have h5' : e' = .EOFError ∨ e' = .BadEventError := h5
    simp only [hitGenerator, h1, if_pos h2', h3, h4, if_pos h5']
  · have : e = .EOFError ∨ e = .BadEventError := h2
    simp only [hitGenerator, h1, if_pos this, h3]

section
variable {K : Type} [Field K] [LinearOrder K] [IsStrictOrderedRing K] [FloorRing K] {W : Type}

theorem lineHit_ok (E : Ext K) (hE : E.Lawful) (T : Text K W) (format : String) (vars : List String)
    (hfv : (format, vars) ∈ lineFormats) (ws : List W) (hws : WellFormed (K := K) T format ws)
    (r : List (List W)) (wc : WC K) :
    ∃ c : Core K, HitOfLine E T format ws ⟨c, wc⟩ ∧
      lineHit E T format (ws :: r, wc) = (.ok c, (r, wc)) := by
  obtain ⟨c, h1, h2, h3⟩ := C41_line E hE T format vars hfv ws hws ⟨Core.new, wc⟩
  obtain ⟨c, wc'⟩ := c
  simp only at h2
  subst h2
  exact ⟨c, h3, by simp [lineHit, h1]⟩

/-- C107_partial: generators made one after the other on a text file without bad lines give its hits one by
one, in order, and leave the rest of the file unread; at the end of the file the next one raises
RuntimeError.  Missing: all hits from one generator, see `C107_one_false`. -/
theorem C107_partial (E : Ext K) (hE : E.Lawful) (T : Text K W) (format : String) (vars : List String)
    (hfv : (format, vars) ∈ lineFormats) (wc : WC K) :
    ∀ (lines rest : List (List W)), (∀ ws ∈ lines, WellFormed (K := K) T format ws) →
      ∃ hs : List (Core K), List.Forall₂ (fun ws c => HitOfLine E T format ws ⟨c, wc⟩) lines hs ∧
        collect E T format lines.length (lines ++ rest, wc) = (hs, .ok (), (rest, wc)) ∧
        (rest = [] → collect E T format (lines.length + 1) (lines, wc) =
          (hs, .error .RuntimeError, ([], wc)))
  | [], rest, _ => ⟨[], .nil, rfl, fun _ => rfl⟩
  | ws :: r, rest, h => by
    obtain ⟨hs, h1, h2, h3⟩ := C107_partial E hE T format vars hfv wc r rest fun w hw => h w (by simp [hw])
    obtain ⟨c, hc, hl⟩ := lineHit_ok E hE T format vars hfv ws (h ws (by simp)) (r ++ rest) wc
    have hg := (C107_hit (lineHit E T format) noSpill (ws :: (r ++ rest), wc)).1 _ _ hl
    refine ⟨c :: hs, .cons hc h1, ?_, ?_⟩
    · simp only [List.length_cons, collect, List.cons_append, hg, h2, List.nil_append]
    · intro hr
      subst hr
      simp only [List.append_nil] at hg
      rw [List.length_cons, collect]
      simp only [hg, h3 rfl, List.cons_append, List.nil_append]

/-- C107, bad lines: one line with the wrong number of words is skipped, two in a row make the generator
raise RuntimeError although there are hits behind them. -/
theorem C107_bad_lines (E : Ext K) (hE : E.Lawful) (T : Text K W) (format : String) (vars : List String)
    (hfv : (format, vars) ∈ lineFormats) (bad bad' ws : List W)
    (h1 : bad.length ≠ (columns format : List (String × K)).length)
    (h2 : bad'.length ≠ (columns format : List (String × K)).length)
    (h3 : WellFormed (K := K) T format ws) (r : List (List W)) (wc : WC K) :
    (∃ c : Core K, HitOfLine E T format ws ⟨c, wc⟩ ∧
      hitGenerator (lineHit E T format) noSpill (bad :: ws :: r, wc) = ([c], .ok (), (r, wc))) ∧
    hitGenerator (lineHit E T format) noSpill (bad :: bad' :: ws :: r, wc) =
      ([], .error .RuntimeError, (ws :: r, wc)) := by
  have hb : ∀ b : List W, b.length ≠ (columns format : List (String × K)).length → ∀ l,
      lineHit E T format (b :: l, wc) = (.error .BadEventError, (l, wc)) := by
    intro b hb l
    simp [lineHit, makeHit_bad E T format vars hfv b hb]
  obtain ⟨c, hc, hl⟩ := lineHit_ok E hE T format vars hfv ws h3 r wc
  exact ⟨⟨c, hc, ((C107_hit _ noSpill _).2.2.1 _ _ _ (hb bad h1 _) (.inr rfl) rfl).1 _ _ hl⟩,
    ((C107_hit _ noSpill _).2.2.1 _ _ _ (hb bad h1 _) (.inr rfl) rfl).2 _ _ (hb bad' h2 _) (.inr rfl)⟩
end

/-- C107_lists_false: Hit.new_list_from_maus_root and Hit.new_list_from_maus_json raise AttributeError,
whatever the file. -/
theorem C107_lists_false (root : Bool) (rest : Except Err (List H)) :
    newListFromMaus root rest = .error .AttributeError := by
  have : "factory" ∉ factoryNames root := by cases root <;> decide
  simp [newListFromMaus, this]

/-- a file of three hits of which one is seen, or all by three generators, and of the fourth an exception -/
example : ∃ (good bad : List (Option ℚ)),
    (hitGenerator (lineHit ratExt wordText "icool_for003") noSpill ([good, good, good], WC.new)).1.length = 1 ∧
    (collect ratExt wordText "icool_for003" 3 ([good, good, good], WC.new)).1.length = 3 ∧
    (collect ratExt wordText "icool_for003" 4 ([good, good, good], WC.new)).2.1 = .error .RuntimeError ∧
    (hitGenerator (lineHit ratExt wordText "icool_for003") noSpill ([bad, good, good], WC.new)).1.length = 1 ∧
    (hitGenerator (lineHit ratExt wordText "icool_for003") noSpill ([bad, bad, good], WC.new)).2.1 =
      .error .RuntimeError := by
  refine ⟨[some 1, some 1, some 2, some 0, some 0, some 1, some 5, some 0, some 0, some 0, some 0,
      some 0, some 0, some 0, some 0], [none], ?_⟩
  decide +kernel

end Generator
end Xboa
