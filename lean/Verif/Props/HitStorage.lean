import Verif.Props.Spec
import Verif.Lemmas.Preserves
import Mathlib.Algebra.Order.AbsoluteValue.Basic
import Mathlib.Algebra.Order.Field.Rat
import Mathlib.Tactic.NormNum
/-!
Properties C05 - C11 and C15: what a Hit stores, global weights, copies, equality.
-/
set_option linter.unusedSectionVars false
namespace Xboa
variable {K : Type} [Field K] [LinearOrder K]

/-- External functions for concrete rational witnesses (sqrt of perfect squares only
matter where the witness uses them; storage properties never call them). -/
def ratExt : Ext ℚ := ⟨fun a => a, fun a _ => a, 299792458 / 1000000⟩

/-- C++ int members hold 32 bit values. -/
def Core.InRange (c : Core K) : Prop := ∀ v, -2147483648 ≤ c.i v ∧ c.i v < 2147483648

/-! ## C05: hit weights and the context API

Full claim (false of the code, see `C05_false`):
`hit['global_weight'] = current_context.get_weight(hit['spill'], hit['event_number'], hit['particle_number'])`. -/

/-- The triple a user reads from a hit. -/
def HS.triple (s : HS K) : HitId := ⟨s.core.i .spill, s.core.i .event, s.core.i .particle⟩

/-- C05 is false: setting the weight of a hit with spill 0, event 1, particle 2 is not visible
in the context under (0, 1, 2), and a context write at (0, 1, 2) is not visible in the hit. -/
theorem C05_false :
    (¬ ∀ (s : HS ℚ) (v : ℚ), s.wc.WF →
      (Hit.set ratExt "global_weight" (.flt v) s).2.wc.getWeight s.triple = v) ∧
    (¬ ∀ (s : HS ℚ), Hit.get ratExt "global_weight" s = (.ok (.flt (s.wc.getWeight s.triple)), s)) := by
  let c : Core ℚ := ((Core.new.setI .event 1).setI .particle 2)
  constructor
  · intro h
    have := h ⟨c, WC.new⟩ 5 WC.WF.new
    revert this
    simp only [Hit.set_global_weight, HS.setGlobalWeight]
    decide
  · intro h
    have := h ⟨c, WC.new.setWeight ⟨0, 1, 2⟩ 7⟩
    revert this
    simp only [Hit.get_global_weight, Prod.mk.injEq, Except.ok.injEq, Val.flt.injEq, and_true]
    decide

/-- C05, what does hold, for all hits: the hit uses the context entry with event and particle
exchanged. -/
theorem C05_swapped (E : Ext K) (s : HS K) (v : K) (hwf : s.wc.WF) :
    Hit.get E "global_weight" s =
      (.ok (.flt (s.wc.getWeight ⟨s.core.i .spill, s.core.i .particle, s.core.i .event⟩)), s) ∧
    (Hit.set E "global_weight" (.flt v) s).2.wc.getWeight
      ⟨s.core.i .spill, s.core.i .particle, s.core.i .event⟩ = v := by
  refine ⟨rfl, ?_⟩
  simp [HS.setGlobalWeight, WC.getWeight_setWeight hwf, Core.weightId]

/-- C05_partial: the claim for hits whose event number equals their particle number.
Missing: all other hits (where it is false). -/
theorem C05_partial (E : Ext K) (s : HS K) (v : K) (hwf : s.wc.WF)
    (h : s.core.i .event = s.core.i .particle) :
    Hit.get E "global_weight" s = (.ok (.flt (s.wc.getWeight s.triple)), s) ∧
    (Hit.set E "global_weight" (.flt v) s).2.wc.getWeight s.triple = v := by
  have := C05_swapped E s v hwf
  simpa [HS.triple, h] using this

example : ∃ s : HS ℚ, s.wc.WF ∧ s.core.i .event = s.core.i .particle ∧ s.core.i .event = 3 :=
  ⟨⟨(Core.new.setI .event 3).setI .particle 3, WC.new.setWeight ⟨0, 3, 3⟩ 2⟩,
    (WC.WF.new).setWeight _ _, rfl, rfl⟩

/-! ## C06: the global weight is shared by track and only by track -/

/-- Two hits are on the same track if spill, event_number and particle_number agree. -/
def World.sameTrack (w : World K) (i j : Nat) : Prop :=
  (w.hits i).i .spill = (w.hits j).i .spill ∧ (w.hits i).i .event = (w.hits j).i .event ∧
  (w.hits i).i .particle = (w.hits j).i .particle

theorem World.weightId_eq_iff (w : World K) (i j : Nat) :
    (w.hits i).weightId = (w.hits j).weightId ↔ w.sameTrack i j := by
  unfold Core.weightId World.sameTrack
  simp only [HitId.mk.injEq]
  constructor
  · rintro ⟨a, b, c⟩; exact ⟨a, c, b⟩
  · rintro ⟨a, b, c⟩; exact ⟨a, c, b⟩

/-- C06, sharing: after any history, two hits on the same track report the same global
weight. -/
theorem C06_shared (E : Ext K) (ops : List (World.Op K)) (i j : Nat)
    (h : (World.run E World.init ops).sameTrack i j) :
    let w := World.run E World.init ops
    (Hit.get E "global_weight" (w.view i)).1 = (Hit.get E "global_weight" (w.view j)).1 := by
  intro w
  have : (w.hits i).weightId = (w.hits j).weightId := (w.weightId_eq_iff i j).2 h
  simp [World.view, HS.globalWeight, this]

/-- C06, exactness: assigning the global weight of hit `i` gives that weight to exactly the
hits on the same track and leaves the weight of all others, and every other variable of every
hit, unchanged. -/
theorem C06_exact (E : Ext K) (w : World K) (hwf : w.wc.WF) (i j : Nat) (v : K) :
    let w' := w.step E (.set i "global_weight" (.flt v))
    (Hit.get E "global_weight" (w'.view j)).1 =
      (if (w.hits i).i .spill = (w.hits j).i .spill ∧ (w.hits i).i .event = (w.hits j).i .event ∧
          (w.hits i).i .particle = (w.hits j).i .particle
        then .ok (.flt v) else (Hit.get E "global_weight" (w.view j)).1)
    ∧ w'.hits j = w.hits j := by
  intro w'
  have hh : w'.hits j = w.hits j := by
    show (if j = i then _ else _) = _
    by_cases e : j = i
    · subst e; rw [if_pos rfl]; rfl
    · simp [e]
  have hw : w'.wc = w.wc.setWeight (w.hits i).weightId v := rfl
  refine ⟨?_, hh⟩
  simp only [Hit.get_global_weight, HS.globalWeight, World.view, hh, hw,
    WC.getWeight_setWeight hwf]
  by_cases e : (w.hits j).weightId = (w.hits i).weightId
  · have := (w.weightId_eq_iff i j).1 e.symm
    unfold World.sameTrack at this
    rw [if_pos this, if_pos e]
  · have : ¬ w.sameTrack i j := fun t => e ((w.weightId_eq_iff i j).2 t).symm
    unfold World.sameTrack at this
    rw [if_neg this, if_neg e]

/-- Non-vacuity of C06: a history that puts two hits on one track and weights one of them. -/
example : (World.run ratExt World.init
    [.set 0 "event_number" (.int 4), .set 1 "event_number" (.int 4),
     .set 0 "global_weight" (.flt 3)]).sameTrack 0 1 := by
  refine ⟨?_, ?_, ?_⟩ <;> rfl

/-! ## C07: clearing global weights

Full claim (false when the current context's default is not 1): after
clear_global_weights() every hit reports 1. -/

/-- C07, exact law: every hit reports the default weight of the current context. -/
theorem C07_clear_resets_to_default (E : Ext K) (w : World K) (i : Nat) :
    (Hit.get E "global_weight" ((w.step E .clearGlobal).view i)).1 =
      .ok (.flt w.wc.getDefaultWeight) := rfl

/-- C07 is false: with a context of default weight 0 installed, clearing leaves weight 0. -/
theorem C07_false : ¬ ∀ (ops : List (World.Op ℚ)) (i : Nat),
    (Hit.get ratExt "global_weight"
      (((World.run ratExt World.init ops).step ratExt .clearGlobal).view i)).1 = .ok (.flt 1) := by
  intro h
  have := h [.setContext (WC.new.opNot)] 0
  rw [C07_clear_resets_to_default] at this
  simp [World.run, World.step, WC.opNot, WC.getDefaultWeight] at this

/-- C07_partial: if no other context was installed, clearing resets every hit to 1, whatever the
history.  Missing: histories that install a context whose default is not 1 (false there). -/
theorem C07_partial (E : Ext K) (ops : List (World.Op K)) (i : Nat)
    (hops : ∀ op ∈ ops, ∀ c, op ≠ .setContext c) :
    (Hit.get E "global_weight"
      (((World.run E World.init ops).step E .clearGlobal).view i)).1 = .ok (.flt 1) := by
  rw [C07_clear_resets_to_default]
  have := World.run_pres E (fun c => c.dflt = 1) (setClosed_dflt 1) (fun _ _ _ h => h)
    (fun _ h => h) ops (fun op hop c hc => absurd hc (hops op hop c)) World.init rfl
  rw [WC.getDefaultWeight, this]

example : ∀ op ∈ ([.set 0 "global_weight" (.flt 3), .ctxSet 4 ⟨1, 1, 1⟩] : List (World.Op ℚ)),
    ∀ c, op ≠ .setContext c := by simp

/-! ## C08: set/get round trip and frame -/

/-- C08, double variables: `hit.set(n, v)` succeeds, `hit.get(n)` then returns `v`, and every
other listed variable of that hit (doubles, ints, weights) is unchanged. -/
theorem C08_set_get_double (E : Ext K) (s : HS K) (hwf : s.wc.WF) (n : String)
    (hn : n ∈ dblNames) (v : K) :
    ∃ s', Hit.set E n (.flt v) s = (.ok (), s') ∧
      (Hit.get E n s').1 = .ok (.flt v) ∧
      ∀ m ∈ hitVariables, m ≠ n → (Hit.get E m s').1 = (Hit.get E m s).1 := by
  obtain ⟨r, hr, hrow⟩ := row_dbl n hn
  refine ⟨r.exec s v, ?_, ?_, ?_⟩
  · simp [Hit.set, Hitcore.set, hr, asDouble]
  · have hg : Hitcore.get (r.exec s v) n = .ok (.flt v) := by
      rw [Hitcore.get_eq, hrow]
      simp only
      rw [DSet.eval_exec s hwf r v r.toGet (by cases r <;> simp [DSet.toGet])]
      simp
    simp [Hit.get, hg]
  · intro m hm hmn
    have hd := row_distinct n (dblNames_sub n hn) m hm hmn
    have ht := row_not_total m hm
    have hg : Hitcore.get (r.exec s v) m = Hitcore.get s m := by
      rw [Hitcore.get_eq, Hitcore.get_eq]
      cases hrm : getRow m with
      | none => rfl
      | some row =>
        cases row with
        | inl g =>
          simp only
          rw [DSet.eval_exec s hwf r v g (by rintro rfl; exact ht.1 hrm)]
          have : g ≠ r.toGet := by rintro rfl; exact hd (by rw [hrm, hrow])
          simp [this]
        | inr iv => simp [DSet.exec_int]
    have hok : ∃ val, Hitcore.get s m = .ok val := by
      rw [Hitcore.get_eq]
      cases hrm : getRow m with
      | none => exact absurd hrm ht.2
      | some row => cases row <;> exact ⟨_, rfl⟩
    obtain ⟨val, hval⟩ := hok
    simp [Hit.get, hg, hval]

/-- The canonical spelling of an integer variable. -/
def canonical (n : String) : String :=
  if n = "eventNumber" then "event_number"
  else if n = "particleNumber" then "particle_number" else n

/-- C08, integer variables (32 bit values): `hit.set(n, k)` succeeds, both spellings return
`k`, and every other listed variable is unchanged; the global weight is excepted, it is looked
up by the ids. -/
theorem C08_set_get_int (E : Ext K) (s : HS K) (n : String) (hn : n ∈ intNames) (k : Int)
    (hk : -2147483648 ≤ k ∧ k < 2147483648) :
    ∃ s', Hit.set E n (.int k) s = (.ok (), s') ∧
      (∀ n' ∈ intNames, canonical n' = canonical n → (Hit.get E n' s').1 = .ok (.int k)) ∧
      (∀ m ∈ hitVariables, m ≠ canonical n → m ≠ "global_weight" →
        (Hit.get E m s').1 = (Hit.get E m s).1) := by
  obtain ⟨iv, h1, h2, h3⟩ := row_int n hn
  have hal : asLong (K := K) (.int k) = (k, false) := by
    simp only [asLong]; rw [if_pos]; omega
  refine ⟨{ s with core := s.core.setI iv k }, ?_, ?_, ?_⟩
  · simp [Hit.set, Hitcore.set, h1, h2, asDouble, hal, wrap32_id hk]
  · intro n' hn' hc
    obtain ⟨iv', _, _, h3'⟩ := row_int n' hn'
    have hsame : ∀ a ∈ intNames, ∀ b ∈ intNames, canonical a = canonical b → getRow a = getRow b := by
      decide +kernel
    have : iv' = iv := by
      have := hsame n' hn' n hn hc
      rw [h3, h3'] at this
      simpa using this
    subst this
    have hg : Hitcore.get { s with core := s.core.setI iv' k } n' = .ok (.int k) := by
      rw [Hitcore.get_eq, h3']; simp
    simp [Hit.get, hg]
  · intro m hm hmn hmg
    have hcan : ∀ a ∈ intNames, canonical a ∈ hitVariables ∧ getRow (canonical a) = getRow a := by
      decide +kernel
    have hd := row_distinct (canonical n) (hcan n hn).1 m hm hmn
    rw [(hcan n hn).2, h3] at hd
    have hglob : ∀ a ∈ hitVariables, a ≠ "global_weight" → getRow a ≠ some (.inl .global) := by
      decide +kernel
    have hm1 := hglob m hm hmg
    have ht := row_not_total m hm
    have hg : Hitcore.get { s with core := s.core.setI iv k } m = Hitcore.get s m := by
      rw [Hitcore.get_eq, Hitcore.get_eq]
      cases hrm : getRow m with
      | none => rfl
      | some row =>
        cases row with
        | inl g =>
          cases g with
          | field v => rfl
          | global => exact absurd hrm hm1
          | total => exact absurd hrm ht.1
        | inr iv' =>
          have : iv' ≠ iv := by rintro rfl; exact hd hrm
          simp [this]
    have hok : ∃ val, Hitcore.get s m = .ok val := by
      rw [Hitcore.get_eq]
      cases hrm : getRow m with
      | none => exact absurd hrm ht.2
      | some row => cases row <;> exact ⟨_, rfl⟩
    obtain ⟨val, hval⟩ := hok
    simp [Hit.get, hg, hval]

/-- C08, other hits: an assignment to hit `i` leaves every member of every other hit unchanged,
and the weight context too unless the variable is global_weight. -/
theorem C08_other_hits (E : Ext K) (w : World K) (i j : Nat) (hij : j ≠ i) (n : String)
    (hn : n ∈ dblNames ∨ n ∈ intNames) (v : PyVal K) :
    (w.step E (.set i n v)).hits j = w.hits j ∧
    (n ≠ "global_weight" → (w.step E (.set i n v)).wc = w.wc) := by
  refine ⟨by simp [World.step, World.onHit, World.put, hij], ?_⟩
  intro hg
  have hwc : (Hitcore.set (w.view i) n v).2.wc = w.wc := by
    unfold Hitcore.set
    split
    · rename_i r hr
      cases r with
      | field f => rfl
      | global =>
        have hrow : ∀ a ∈ dblNames ++ intNames, a ≠ "global_weight" →
            setDblMap.lookup a ≠ some .global := by decide +kernel
        exact absurd hr (hrow n (by simpa using hn) hg)
    · split <;> rfl
  have hnot : ∀ a ∈ dblNames ++ intNames, a ∉ ["p", "x'", "y'", "t'", "ct", "kinetic_energy", ""] := by
    decide +kernel
  have hl : (Hit.setVariables E).lookup n = none := by
    cases hl : (Hit.setVariables E).lookup n with
    | none => rfl
    | some f =>
      have := Hit.mem_of_lookup hl
      have hn' := hnot n (by simpa using hn)
      simp only [Hit.setVariables, List.mem_cons, Prod.mk.injEq, List.not_mem_nil, or_false] at this
      simp only [List.mem_cons, List.not_mem_nil, or_false, not_or] at hn'
      obtain ⟨a, b, c, d, e, f, g⟩ := hn'
      simp [a, b, c, d, e, f, g] at this
  show ((Hit.set E n v) (w.view i)).2.wc = w.wc
  unfold Hit.set
  cases hr : Hitcore.set (w.view i) n v with
  | mk r s' =>
    rw [hr] at hwc
    cases r with
    | ok _ => exact hwc
    | error _ => simp only [hl]; exact hwc

/-- C08, the total weight is always local_weight * global_weight. -/
theorem C08_total_weight (E : Ext K) (s : HS K) :
    ∃ l g, (Hit.get E "local_weight" s).1 = .ok (.flt l) ∧
      (Hit.get E "global_weight" s).1 = .ok (.flt g) ∧
      (Hit.get E "weight" s).1 = .ok (.flt (l * g)) := ⟨_, _, rfl, rfl, rfl⟩

/-- C08 for integers outside 32 bits is false: 2^32 is silently stored as 0. -/
theorem C08_int_wraps_false : ¬ ∀ (s : HS ℚ) (k : Int) (s' : HS ℚ),
    Hit.set ratExt "station" (.int k) s = (.ok (), s') →
      (Hit.get ratExt "station" s').1 = .ok (.int k) := by
  intro h
  have := h ⟨Core.new, WC.new⟩ 4294967296 _ rfl
  revert this; decide

example : "pz" ∈ dblNames ∧ "eventNumber" ∈ intNames ∧
    (WC.new.setWeight ⟨0, 0, 0⟩ 2 : WC ℚ).WF :=
  ⟨by decide, by decide, (WC.WF.new).setWeight _ _⟩
end Xboa
