import Verif.Props.HitStorage
import Mathlib.Tactic.Positivity
import Mathlib.Tactic.Linarith
/-!
Properties C09 (rejected assignments), C10, C11 (copies), C15 (equality).
-/
set_option linter.unusedSectionVars false
namespace Xboa
variable {K : Type} [Field K] [LinearOrder K]

/-! ## C09: a rejected assignment leaves the hit unchanged

Full claim: `Hit.set E n v s = (.error e, s') → s' = s`.  False, see `C09_false`. -/

/-- C09 is false.  (1) A non numeric value for `x` raises IndexError and leaves x = -1.
(2) A float for `pid` raises and leaves pid = -1.  (3) `t'` raises FloatingPointError after
having changed the energy. -/
theorem C09_false :
    (∃ s' : HS ℚ, Hit.set ratExt "x" .other ⟨Core.new, WC.new⟩ = (.error .IndexError, s') ∧
      s'.core.d .x = -1 ∧ (Core.new : Core ℚ).d .x = 0) ∧
    (∃ s' : HS ℚ, Hit.set ratExt "pid" (.flt 13) ⟨Core.new, WC.new⟩ = (.error .IndexError, s') ∧
      s'.core.i .pid = -1 ∧ (Core.new : Core ℚ).i .pid = 0) ∧
    (∃ s' : HS ℚ, Hit.set ratExt "t'" (.flt 5) ⟨Core.new.setD .pz 1, WC.new⟩
        = (.error .FloatingPointError, s') ∧
      s'.core.d .energy = -5 ∧ (Core.new.setD .pz 1 : Core ℚ).d .energy = 0) := by
  refine ⟨⟨_, rfl, ?_, rfl⟩, ⟨_, rfl, ?_, rfl⟩, ?_⟩
  · show ((-1 : Int) : ℚ) = -1
    norm_num
  · rfl
  · have h1 : ¬ Hit.pzTiny (1 : ℚ) := by unfold Hit.pzTiny; norm_num
    refine ⟨⟨(Core.new.setD .pz 1).setD .energy (-5 * 1), WC.new⟩, ?_, ?_, ?_⟩
    · show Hit.set_tP (.flt 5) _ = _
      simp [Hit.set_tP, h1, PyVal.arith, Core.new]
      rfl
    · simp
    · simp [Core.new]

variable [IsStrictOrderedRing K]

theorem Hit.sqrt_ne_zero {E : Ext K} (hE : E.Lawful) {a : K} (ha : 0 < a) : E.sqrt a ≠ 0 := by
  intro h
  have := hE.sqrt_mul_self a ha.le
  rw [h, mul_zero] at this
  exact absurd this ha.ne

/-- set_p on a number: never raises; scales the momentum (a particle at rest first gets
pz = 1). -/
theorem Hit.set_p_eq {E : Ext K} (hE : E.Lawful) (s : HS K) (v : K) :
    let p := E.sqrt (s.core.d .px ^ 2 + s.core.d .py ^ 2 + s.core.d .pz ^ 2)
    let c0 := if p = 0 then s.core.setD .pz 1 else s.core
    let p' := E.sqrt (c0.d .px ^ 2 + c0.d .py ^ 2 + c0.d .pz ^ 2)
    p' ≠ 0 ∧
    Hit.set_p E (.flt v) s = (.ok (),
      (⟨((c0.setD .px (c0.d .px * (v / p'))).setD .py (c0.d .py * (v / p'))).setD .pz
        (c0.d .pz * (v / p')), s.wc⟩ : HS K)) := by
  intro p c0 p'
  have hp' : p' ≠ 0 := by
    by_cases h : p = 0
    · have hc : c0 = s.core.setD .pz 1 := if_pos h
      have : p' = E.sqrt (s.core.d .px ^ 2 + s.core.d .py ^ 2 + 1) := by
        simp [p', hc]
      rw [this]
      exact Hit.sqrt_ne_zero hE (by positivity)
    · have hc : c0 = s.core := if_neg h
      have : p' = p := by simp [p', hc, p]
      rw [this]; exact h
  refine ⟨hp', ?_⟩
  by_cases h : p = 0
  · have hc : c0 = s.core.setD .pz 1 := if_pos h
    have hp2 : E.sqrt (s.core.d .px ^ 2 + s.core.d .py ^ 2 + 1 ^ 2) ≠ 0 := by
      have : p' = E.sqrt (s.core.d .px ^ 2 + s.core.d .py ^ 2 + 1 ^ 2) := by simp [p', hc]
      rw [← this]; exact hp'
    have hpp : p' = E.sqrt (s.core.d .px ^ 2 + s.core.d .py ^ 2 + 1 ^ 2) := by simp [p', hc]
    rw [hpp, hc]
    have h' : E.sqrt (s.core.d .px ^ 2 + s.core.d .py ^ 2 + s.core.d .pz ^ 2) = 0 := h
    simp only [one_pow] at hp2
    simp [Hit.set_p, Hit.get_p, h', hp2, PyVal.arith]
  · have hc : c0 = s.core := if_neg h
    have hpp : p' = E.sqrt (s.core.d .px ^ 2 + s.core.d .py ^ 2 + s.core.d .pz ^ 2) := by simp [p', hc]
    rw [hpp, hc]
    have h' : ¬ E.sqrt (s.core.d .px ^ 2 + s.core.d .py ^ 2 + s.core.d .pz ^ 2) = 0 := h
    simp [Hit.set_p, Hit.get_p, h', PyVal.arith]

/-- A Python int or float. -/
def PyVal.IsNumber : PyVal K → Prop
  | .flt _ => True
  | .int _ => True
  | _ => False

/-- A Python int that fits a C long. -/
def PyVal.IsLong : PyVal K → Prop
  | .int n => -9223372036854775808 ≤ n ∧ n < 9223372036854775808
  | _ => False

theorem PyVal.arith_int (f : K → K) (n : Int) :
    (PyVal.int n : PyVal K).arith f = (PyVal.flt (n : K)).arith f := rfl

/-- C09_partial: for a number (int or float) and any variable except `t'`, integer variables
receiving ints: a raised exception means nothing changed.  Missing: non numbers, floats for
integer variables, `t'` (all false). -/
theorem C09_partial {E : Ext K} (hE : E.Lawful) (n : String) (v : PyVal K) (s s' : HS K) (e : Err)
    (hv : v.IsNumber) (hn : n ≠ "t'") (hi : n ∈ intNames → v.IsLong)
    (h : Hit.set E n v s = (.error e, s')) : s' = s := by
  have hd : (asDouble v).2 = false := by cases v <;> simp_all [PyVal.IsNumber, asDouble]
  unfold Hit.set Hitcore.set at h
  cases h1 : setDblMap.lookup n with
  | some r => simp [h1, hd] at h
  | none =>
    cases h2 : setIntMap.lookup n with
    | some iv =>
      have hn' : n ∈ intNames := by
        have := Hit.mem_of_lookup h2
        simp only [setIntMap, List.mem_cons, Prod.mk.injEq, List.not_mem_nil, or_false] at this
        rcases this with h | h | h | h | h | h | h | h <;> simp [h.1, intNames]
      have hl := hi hn'
      cases v with
      | int k =>
        have hal : asLong (K := K) (.int k) = (k, false) := if_pos hl
        simp [h1, h2, asDouble, hal] at h
      | flt _ => exact absurd hl (by simp [PyVal.IsLong])
      | cplx => exact absurd hl (by simp [PyVal.IsLong])
      | other => exact absurd hl (by simp [PyVal.IsLong])
    | none =>
      simp only [h1, h2] at h
      cases h3 : (Hit.setVariables E).lookup n with
      | none => simp only [h3, Prod.mk.injEq] at h; exact h.2.symm
      | some f =>
        simp only [h3] at h
        have hm := Hit.mem_of_lookup h3
        obtain ⟨a, ha⟩ : ∃ a : K, ∀ g : K → K, v.arith g = .ok (.flt (g a)) := by
          cases v with
          | flt a => exact ⟨a, fun _ => rfl⟩
          | int k => exact ⟨(k : K), fun _ => rfl⟩
          | cplx => exact absurd hv (by simp [PyVal.IsNumber])
          | other => exact absurd hv (by simp [PyVal.IsNumber])
        simp only [Hit.setVariables, List.mem_cons, Prod.mk.injEq, List.not_mem_nil, or_false] at hm
        rcases hm with ⟨_, rfl⟩ | ⟨_, rfl⟩ | ⟨_, rfl⟩ | ⟨rfl, _⟩ | ⟨_, rfl⟩ | ⟨_, rfl⟩ | ⟨_, rfl⟩
        · exfalso
          have hp := (Hit.set_p_eq hE s a).2
          have : Hit.set_p E v s = Hit.set_p E (.flt a) s := by
            have : ∀ g : K → K, v.arith g = (PyVal.flt a).arith g := ha
            simp only [Hit.set_p, this]
          rw [this, hp] at h
          simp at h
        · by_cases hz : Hit.pzTiny (s.core.d .pz)
          · simp [Hit.set_xP, hz] at h; exact h.2.symm
          · simp [Hit.set_xP, hz, ha] at h
        · by_cases hz : Hit.pzTiny (s.core.d .pz)
          · simp [Hit.set_yP, hz] at h; exact h.2.symm
          · simp [Hit.set_yP, hz, ha] at h
        · exact absurd rfl hn
        · simp [Hit.set_ct, ha] at h
        · simp [Hit.set_ek, ha] at h
        · simp at h

/-- Non-vacuity: setting x' while pz = 0 raises and changes nothing; so does an unknown name. -/
example : (∃ e s', Hit.set ratExt "x'" (.flt 5) ⟨Core.new, WC.new⟩ = (.error e, s')) ∧
    (∃ e s', Hit.set ratExt "nonsense" (.flt 5) ⟨Core.new, WC.new⟩ = (.error e, s')) := by
  refine ⟨⟨.FloatingPointError, ⟨Core.new, WC.new⟩, ?_⟩, ⟨_, _, rfl⟩⟩
  have h1 : Hit.pzTiny (0 : ℚ) := by unfold Hit.pzTiny; norm_num
  show Hit.set_xP (.flt 5) _ = _
  simp [Hit.set_xP, Core.new, h1]

/-! ## C10: copies are equal -/

theorem Core.ext' {a b : Core K} (hd : ∀ v, a.d v = b.d v) (hi : ∀ v, a.i v = b.i v) : a = b := by
  obtain ⟨d, i⟩ := a
  obtain ⟨d', i'⟩ := b
  simp only [Core.mk.injEq]
  exact ⟨funext hd, funext hi⟩

/-- new_from_dict of the dictionary of a hit, evaluated in any state. -/
theorem Hit.new_from_copy (E : Ext K) (s s0 : HS K) (hr : s.core.InRange) :
    Hit.new_from_dict E (Hit.dict_from_hit s) "" s0 =
      (.ok (), ⟨s.core, s0.wc.setWeight ⟨0, 0, 0⟩ s.globalWeight⟩) := by
  have r := fun v => hr v
  simp only [Hit.new_from_dict, Hit.fresh, Hit.dict_from_hit, setNames, List.cons_append,
    List.nil_append, List.map_cons, List.map_nil, Hit.setAll, PyM.bind_apply, Val.toPy,
    Hitcore.get_bx, Hitcore.get_by, Hitcore.get_bz, Hitcore.get_charge, Hitcore.get_e_dep,
    Hitcore.get_energy, Hitcore.get_ex, Hitcore.get_ey, Hitcore.get_ez, Hitcore.get_global_weight,
    Hitcore.get_local_weight, Hitcore.get_mass, Hitcore.get_path_length, Hitcore.get_proper_time,
    Hitcore.get_px, Hitcore.get_py, Hitcore.get_pz, Hitcore.get_sx, Hitcore.get_sy, Hitcore.get_sz,
    Hitcore.get_t, Hitcore.get_x, Hitcore.get_y, Hitcore.get_z, Hitcore.get_eventNumber,
    Hitcore.get_event_number, Hitcore.get_particleNumber, Hitcore.get_particle_number,
    Hitcore.get_pid, Hitcore.get_spill, Hitcore.get_station, Hitcore.get_status,
    Hit.set_bx, Hit.set_by, Hit.set_bz, Hit.set_charge, Hit.set_e_dep, Hit.set_energy, Hit.set_ex,
    Hit.set_ey, Hit.set_ez, Hit.set_global_weight, Hit.set_local_weight, Hit.set_mass,
    Hit.set_path_length, Hit.set_proper_time, Hit.set_px, Hit.set_py, Hit.set_pz, Hit.set_sx,
    Hit.set_sy, Hit.set_sz, Hit.set_t, Hit.set_x, Hit.set_y, Hit.set_z,
    Hit.set_eventNumber E _ _ (r _), Hit.set_event_number E _ _ (r _),
    Hit.set_particleNumber E _ _ (r _), Hit.set_particle_number E _ _ (r _),
    Hit.set_pid E _ _ (r _), Hit.set_spill E _ _ (r _), Hit.set_station E _ _ (r _),
    Hit.set_status E _ _ (r _), HS.setGlobalWeight, PyM.pure_apply, ne_eq, not_true_eq_false,
    if_false, Prod.mk.injEq, true_and, HS.mk.injEq]
  refine ⟨?_, rfl⟩
  apply Core.ext'
  · intro v; cases v <;> rfl
  · intro v; cases v <;> rfl

/-- What a copy does: the new object has the same members; the shared context receives the
hit's global weight under the id (0,0,0). -/
theorem Hit.deepcopy_eq (E : Ext K) (s : HS K) (hr : s.core.InRange) :
    Hit.deepcopy E s = (.ok (), ⟨s.core, s.wc.setWeight ⟨0, 0, 0⟩ s.globalWeight⟩) :=
  Hit.new_from_copy E s s hr

/-- C10. deepcopy (hence new_from_dict(dict_from_hit(hit)) and unpickling) succeeds and the copy
reports the same result as the original for every name, stored or derived or unknown. -/
theorem C10_copy_equal (E : Ext K) (s : HS K) (hr : s.core.InRange) (hwf : s.wc.WF) :
    ∃ s', Hit.deepcopy E s = (.ok (), s') ∧ s'.core = s.core ∧
      ∀ n ∈ hitVariables, (Hit.get E n s').1 = (Hit.get E n s).1 := by
  refine ⟨_, Hit.deepcopy_eq E s hr, rfl, ?_⟩
  have hgw : (⟨s.core, s.wc.setWeight ⟨0, 0, 0⟩ s.globalWeight⟩ : HS K).globalWeight = s.globalWeight := by
    simp only [HS.globalWeight, WC.getWeight_setWeight hwf]
    split
    · rename_i h; rfl
    · rfl
  intro n hn
  have hg : Hitcore.get (⟨s.core, s.wc.setWeight ⟨0, 0, 0⟩ s.globalWeight⟩ : HS K) n = Hitcore.get s n := by
    rw [Hitcore.get_eq, Hitcore.get_eq]
    cases hrm : getRow n with
    | none => rfl
    | some row =>
      cases row with
      | inl g =>
        cases g with
        | field v => rfl
        | global => simp [DGet.eval, hgw]
        | total => exact absurd hrm (row_not_total n hn).1
      | inr iv => rfl
  have hok : ∃ val, Hitcore.get s n = .ok val := by
    rw [Hitcore.get_eq]
    cases hrm : getRow n with
    | none => exact absurd hrm (row_not_total n hn).2
    | some row => cases row <;> exact ⟨_, rfl⟩
  obtain ⟨val, hval⟩ := hok
  simp [Hit.get, hg, hval]

/-- Non-vacuity: a hit with non trivial members and a non trivial global weight. -/
example : ∃ s : HS ℚ, s.core.InRange ∧ s.wc.WF ∧ s.core.d .px = 7 ∧ s.globalWeight = 3 := by
  refine ⟨⟨(Core.new.setD .px 7).setI .event 4, WC.new.setWeight ⟨0, 0, 4⟩ 3⟩, ?_,
    (WC.WF.new).setWeight _ _, rfl, rfl⟩
  intro v; cases v <;> decide

/-! ## C11: copying does not disturb other hits

Full claim: for `j ≠ k`, `copyTo i k` leaves every variable of hit `j` unchanged.  False. -/

/-- C11 is false: copying a hit of weight 0 changes the global weight of an unrelated hit with
(spill, event, particle) = (0,0,0) from 1 to 0. -/
theorem C11_false : ∃ (w : World ℚ) (i j k : Nat), w.wc.WF ∧ (w.hits i).InRange ∧ j ≠ k ∧ j ≠ i ∧
    (Hit.get ratExt "global_weight" (w.view j)).1 = .ok (.flt 1) ∧
    (Hit.get ratExt "global_weight" ((w.step ratExt (.copyTo i k)).view j)).1 = .ok (.flt 0) := by
  let w : World ℚ := ⟨fun n => if n = 0 then Core.new.setI .event 5 else Core.new,
    WC.new.setWeight ⟨0, 0, 5⟩ 0⟩
  have hr : (w.hits 0).InRange := by intro v; cases v <;> decide
  refine ⟨w, 0, 1, 2, (WC.WF.new).setWeight _ _, hr, by decide, by decide, rfl, ?_⟩
  have := Hit.deepcopy_eq ratExt (w.view 0) hr
  simp only [World.step, this]
  rfl

/-- C11_partial: copying hit `i` to a new object `k` leaves all members of every other hit
unchanged, and its global weight too unless its (spill, event, particle) is (0,0,0).
Missing: hits with id (0,0,0) (false there). -/
theorem C11_partial (E : Ext K) (w : World K) (hwf : w.wc.WF) (i j k : Nat) (hjk : j ≠ k)
    (hr : (w.hits i).InRange)
    (hid : ¬ ((w.hits j).i .spill = 0 ∧ (w.hits j).i .event = 0 ∧ (w.hits j).i .particle = 0)) :
    ((w.step E (.copyTo i k)).hits j = w.hits j) ∧
    (Hit.get E "global_weight" ((w.step E (.copyTo i k)).view j)).1 =
      (Hit.get E "global_weight" (w.view j)).1 := by
  have h := Hit.deepcopy_eq E (w.view i) hr
  have h1 : (w.step E (.copyTo i k)).hits j = w.hits j := by
    simp [World.step, World.put, hjk]
  refine ⟨h1, ?_⟩
  have h2 : (w.step E (.copyTo i k)).wc = w.wc.setWeight ⟨0, 0, 0⟩ (w.view i).globalWeight := by
    simp only [World.step, h]; rfl
  simp only [Hit.get_global_weight, HS.globalWeight, World.view, h1, h2,
    WC.getWeight_setWeight hwf]
  rw [if_neg]
  intro hc
  apply hid
  simp only [Core.weightId, HitId.mk.injEq] at hc
  exact ⟨hc.1, hc.2.2, hc.2.1⟩

example : ∃ (w : World ℚ), w.wc.WF ∧ (w.hits 0).InRange ∧
    ¬ ((w.hits 1).i .spill = 0 ∧ (w.hits 1).i .event = 0 ∧ (w.hits 1).i .particle = 0) :=
  ⟨⟨fun _ => Core.new.setI .event 5, WC.new⟩, WC.WF.new, by intro v; cases v <;> decide, by decide⟩

/-! ## C15: hit equality -/

/-- The number a user reads for a listed variable. -/
def HS.num (s : HS K) (n : String) : K :=
  match Hitcore.get s n with
  | .ok v => v.num
  | .error _ => 0

/-- C15. `a == b` iff every listed variable differs by at most the tolerance. -/
theorem C15_eq_iff (wc : WC K) (a b : Core K) (tol : K) :
    Hit.eq wc a b tol = true ↔ ∀ n ∈ hitVariables, |HS.num ⟨a, wc⟩ n - HS.num ⟨b, wc⟩ n| ≤ tol := by
  simp only [Hit.eq, List.all_eq_true]
  refine forall₂_congr fun n hn => ?_
  have hok : ∀ s : HS K, ∃ val, Hitcore.get s n = .ok val := by
    intro s
    rw [Hitcore.get_eq]
    cases hrm : getRow n with
    | none => exact absurd hrm (row_not_total n hn).2
    | some row => cases row <;> exact ⟨_, rfl⟩
  obtain ⟨u, hu⟩ := hok ⟨a, wc⟩
  obtain ⟨v, hv⟩ := hok ⟨b, wc⟩
  simp [HS.num, hu, hv]

/-- C15, reflexivity and symmetry. -/
theorem C15_refl_symm (wc : WC K) (a b : Core K) (tol : K) (htol : 0 ≤ tol) :
    Hit.eq wc a a tol = true ∧ Hit.eq wc a b tol = Hit.eq wc b a tol := by
  constructor
  · rw [C15_eq_iff]; intro n _; simp [htol]
  · rw [Bool.eq_iff_iff, C15_eq_iff, C15_eq_iff]
    refine forall₂_congr fun n _ => ?_
    rw [abs_sub_comm]

/-- C15, separation: hits that differ by more than the tolerance in any stored double or int
member compare unequal. -/
theorem C15_separates (wc : WC K) (a b : Core K) (tol : K) :
    (∀ v, tol < |a.d v - b.d v| → Hit.eq wc a b tol = false) ∧
    (∀ v, tol < |(a.i v : K) - (b.i v : K)| → Hit.eq wc a b tol = false) := by
  have key : ∀ n ∈ hitVariables, tol < |HS.num ⟨a, wc⟩ n - HS.num ⟨b, wc⟩ n| → Hit.eq wc a b tol = false := by
    intro n hn h
    rw [Bool.eq_false_iff, Ne, C15_eq_iff]
    intro hall
    exact absurd (hall n hn) (not_le.2 h)
  constructor
  · intro v h
    cases v <;>
      first
      | exact key "x" (by decide) h
      | exact key "y" (by decide) h
      | exact key "z" (by decide) h
      | exact key "t" (by decide) h
      | exact key "px" (by decide) h
      | exact key "py" (by decide) h
      | exact key "pz" (by decide) h
      | exact key "energy" (by decide) h
      | exact key "bx" (by decide) h
      | exact key "by" (by decide) h
      | exact key "bz" (by decide) h
      | exact key "ex" (by decide) h
      | exact key "ey" (by decide) h
      | exact key "ez" (by decide) h
      | exact key "sx" (by decide) h
      | exact key "sy" (by decide) h
      | exact key "sz" (by decide) h
      | exact key "path_length" (by decide) h
      | exact key "proper_time" (by decide) h
      | exact key "e_dep" (by decide) h
      | exact key "charge" (by decide) h
      | exact key "mass" (by decide) h
      | exact key "local_weight" (by decide) h
  · intro v h
    cases v <;>
      first
      | exact key "spill" (by decide) h
      | exact key "event_number" (by decide) h
      | exact key "particle_number" (by decide) h
      | exact key "station" (by decide) h
      | exact key "status" (by decide) h
      | exact key "pid" (by decide) h

example : Hit.eq (WC.new : WC ℚ) Core.new (Core.new.setD .x 1) (1/1000000000) = false :=
  (C15_separates (WC.new : WC ℚ) Core.new (Core.new.setD .x 1) (1/1000000000)).1 .x (by
    simp [Core.new]; norm_num)

end Xboa
