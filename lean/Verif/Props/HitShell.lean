import Verif.Model.HitShell
import Verif.Props.Grid
import Verif.Props.HitTransform
import Verif.Props.BunchList
import Verif.Props.Multipole
import Mathlib.Tactic.LinearCombination
/-!
C87: Bunch.new_hit_shell makes one hit for every point of the shell, with the point added to the
default values, numbered from 0 and put on the mass shell.
-/
set_option linter.unusedSectionVars false
namespace Xboa
namespace HitShell
variable {K : Type} [Field K] [LinearOrder K] [IsStrictOrderedRing K]

/-! ### specification -/

/-- Hit `k` of a shell: `s0` is the hit with the default values only, `vec` the shell point. -/
structure IsShellHit (E : Ext K) (vars : List String) (massVar : String) (s0 : HS K) (k : Nat)
    (vec : List K) (s : HS K) : Prop where
  /-- the hits are numbered -/
  event : (Hit.get E "event_number" s).1 = .ok (.int k)
  /-- the point is added to the default values -/
  coords : ∀ i (hi : i < vars.length), ∀ a, Reads E s0 vars[i] a → Reads E s vars[i] (a + vec.getD i 0)
  /-- everything else has the default value; the global weight belongs to the event number -/
  rest : SameExcept E (vars ++ shellTouches massVar ++ ["event_number", "global_weight"]) s0 s
  /-- on the mass shell -/
  energy : massVar = "energy" → s.OnShell ∧ 0 ≤ s.core.d .energy
  /-- on the mass shell, unless there is not enough energy; then the component is 0 -/
  momentum : massVar ∈ ["px", "py", "pz"] → ∃ r, Reads E s massVar r ∧
    ((s.OnShell ∧ 0 < r) ∨ (r = 0 ∧ s.core.d .energy ^ 2 ≤ s.core.d .px ^ 2 + s.core.d .py ^ 2 +
      s.core.d .pz ^ 2 + s.core.d .mass ^ 2 + 1 / 1000000))
  /-- on the mass shell, with the direction of the default momentum -/
  modulus : massVar = "p" → s.OnShell ∧ (s0.core.d .px ^ 2 + s0.core.d .py ^ 2 + s0.core.d .pz ^ 2 ≠ 0 →
    ∃ q, 0 ≤ q ∧ s.core.d .px = s0.core.d .px * q ∧ s.core.d .py = s0.core.d .py * q ∧
      s.core.d .pz = s0.core.d .pz * q)

/-- Mass shell variables that can be used with these shell variables and default values: not one of the shell
variables, and for 'p' a momentum and an energy that the shell leaves alone and enough energy. -/
def Usable (m : String) (vars : List String) (c0 : Core K) : Prop :=
  (m ∈ ["", "px", "py", "pz", "energy"] ∧ m ∉ vars) ∨
    (m = "p" ∧ (∀ n ∈ ["px", "py", "pz", "energy", "mass"], n ∉ vars) ∧ c0.d .mass ^ 2 ≤ c0.d .energy ^ 2)

/-! ### one hit -/

theorem plain_set (E : Ext K) {v : String} (h : v ∈ plainNames) :
    v ∈ dblNames ∧ v ≠ "global_weight" ∧ ∃ d : DVar, ∀ (s : HS K) (a : K),
      Hit.set E v (.flt a) s = (.ok (), { s with core := s.core.setD d a }) ∧
      Hit.get E v s = (.ok (.flt (s.core.d d)), s) := by
  simp only [plainNames, List.mem_cons, List.not_mem_nil, or_false] at h
  rcases h with rfl | rfl | rfl | rfl | rfl | rfl | rfl | rfl | rfl | rfl | rfl | rfl | rfl | rfl |
    rfl | rfl | rfl | rfl | rfl | rfl | rfl | rfl
  all_goals exact ⟨by decide, by decide, _, fun s a => ⟨rfl, rfl⟩⟩

/-- the coordinates are added -/
theorem addVars_ok (E : Ext K) (vec : List K) : ∀ (vars : List String) (i : Nat)
    (_ : ∀ v ∈ vars, v ∈ plainNames) (_ : vars.Nodup) (_ : i + vars.length ≤ vec.length) (s : HS K),
    ∃ c, addVars E vec i vars s = (.ok (), ⟨c, s.wc⟩) ∧ c.i = s.core.i ∧
      SameExcept E vars s ⟨c, s.wc⟩ ∧
      ∀ j (hj : j < vars.length) a, Reads E s vars[j] a →
        Reads E ⟨c, s.wc⟩ vars[j] (a + vec.getD (i + j) 0)
  | [], _, _, _, _, s => ⟨s.core, rfl, rfl, SameExcept.refl E _ s, by simp⟩
  | v :: r, i, hp, hn, hl, s => by
    simp only [List.mem_cons, forall_eq_or_imp] at hp
    rw [List.nodup_cons] at hn
    simp only [List.length_cons] at hl
    obtain ⟨h1, h2, d, h3⟩ := plain_set E hp.1
    have hi : i < vec.length := by omega
    have hset := (h3 s (vec[i] + s.core.d d)).1
    obtain ⟨c, h4, h5, h6, h7⟩ := addVars_ok E vec r (i + 1) hp.2 hn.2 (by omega)
      { s with core := s.core.setD d (vec[i] + s.core.d d) }
    have hse := SameExcept.of_set (s := s) v (vec[i] + s.core.d d) ⟨h1, h2⟩ hset
    refine ⟨c, ?_, h5, ?_, ?_⟩
    · rw [addVars, PyM.bind_apply, (h3 s 0).2]
      simp only [List.getElem?_eq_getElem hi, PyM.bind_apply, PyM.lift_apply, Hit.addVal, hset]
      exact h4
    · exact (hse.trans h6).mono (by simp)
    · intro j hj a ha
      match j with
      | 0 =>
        simp only [List.getElem_cons_zero, Nat.add_zero] at ha ⊢
        rw [h6.reads h1 hn.1]
        unfold Reads at ha ⊢
        rw [(h3 _ 0).2] at ha ⊢
        simp only [Core.setD_d, if_true, Except.ok.injEq, Val.flt.injEq] at ha ⊢
        rw [List.getD_eq_getElem?_getD, List.getElem?_eq_getElem hi, Option.getD_some, ← ha, add_comm]
      | j + 1 =>
        simp only [List.getElem_cons_succ] at ha ⊢
        have hj' : j < r.length := by simpa using hj
        have := h7 j hj' a ((hse.reads (plain_set E (hp.2 _ (List.getElem_mem hj'))).1 (by
          simp only [List.mem_singleton]
          rintro h
          exact hn.1 (h ▸ List.getElem_mem hj'))).2 ha)
        rwa [show i + (j + 1) = i + 1 + j by omega]

/-- numbering a hit -/
theorem sameExcept_event (E : Ext K) (s : HS K) (k : Int) :
    SameExcept E ["event_number", "global_weight"] s { s with core := s.core.setI .event k } := by
  intro n hn hne
  simp only [List.mem_cons, List.not_mem_nil, or_false, not_or] at hne
  simp only [hitVariables, List.mem_cons, List.not_mem_nil, or_false] at hn
  rcases hn with rfl | rfl | rfl | rfl | rfl | rfl | rfl | rfl | rfl | rfl | rfl | rfl | rfl | rfl |
    rfl | rfl | rfl | rfl | rfl | rfl | rfl | rfl | rfl | rfl | rfl | rfl | rfl | rfl | rfl | rfl
  all_goals first | rfl | exact absurd rfl hne.1 | exact absurd rfl hne.2

/-- mass_shell_condition never raises for these variables -/
theorem shell_ok {E : Ext K} (hE : E.Lawful) {m : String} (hm : m ∈ ["", "px", "py", "pz", "energy"])
    (s : HS K) : ∃ r c, Hit.mass_shell_condition E m s = (.ok r, ⟨c, s.wc⟩) ∧
      SameExcept E [m] s ⟨c, s.wc⟩ ∧
      (m = "energy" → HS.OnShell ⟨c, s.wc⟩ ∧ 0 ≤ c.d .energy) ∧
      (m ∈ ["px", "py", "pz"] → ∃ r, Reads E ⟨c, s.wc⟩ m r ∧
        ((HS.OnShell ⟨c, s.wc⟩ ∧ 0 < r) ∨ (r = 0 ∧ c.d .energy ^ 2 ≤ c.d .px ^ 2 + c.d .py ^ 2 +
          c.d .pz ^ 2 + c.d .mass ^ 2 + 1 / 1000000))) := by
  have hpos : ∀ a : K, Hit.shellTol < a → 0 < Hit.pow15Over E a := by
    intro a ha
    have h0 : 0 < a := Hit.shellTol_pos.trans ha
    have h1 := Hit.pow15Over_sq hE h0
    have h2 : 0 ≤ Hit.pow15Over E a := by
      unfold Hit.pow15Over
      exact div_nonneg (mul_nonneg (abs_nonneg _) (hE.sqrt_nonneg _ (abs_nonneg _))) h0.le
    rcases h2.lt_or_eq with h | h
    · exact h
    · rw [← h] at h1
      norm_num at h1
      exact absurd h1.symm h0.ne'
  have hsq : ∀ a : K, Hit.shellTol < a → Hit.pow15Over E a ^ 2 = a := fun a ha =>
    Hit.pow15Over_sq hE (Hit.shellTol_pos.trans ha)
  simp only [List.mem_cons, List.not_mem_nil, or_false] at hm
  rcases hm with rfl | rfl | rfl | rfl | rfl
  · exact ⟨none, s.core, Hit.shell_empty E s, SameExcept.refl E _ s, by simp, by simp⟩
  · rw [Hit.shell_px]
    split_ifs with h
    · refine ⟨_, _, rfl, SameExcept.of_set "px" _ ⟨by decide, by decide⟩ (Hit.set_px E s _), by simp,
        fun _ => ⟨_, rfl, .inl ⟨?_, hpos _ h⟩⟩⟩
      have := hsq _ h
      simp only [HS.OnShell, Core.setD_d, if_true, reduceCtorEq, if_false, this]
      ring
    · refine ⟨_, _, rfl, SameExcept.of_set "px" _ ⟨by decide, by decide⟩ (Hit.set_px E s _), by simp,
        fun _ => ⟨_, rfl, .inr ⟨rfl, ?_⟩⟩⟩
      simp only [Core.setD_d, if_true, reduceCtorEq, if_false]
      rw [gt_iff_lt, not_lt, Hit.shellTol] at h
      linear_combination h
  · rw [Hit.shell_py]
    split_ifs with h
    · refine ⟨_, _, rfl, SameExcept.of_set "py" _ ⟨by decide, by decide⟩ (Hit.set_py E s _), by simp,
        fun _ => ⟨_, rfl, .inl ⟨?_, hpos _ h⟩⟩⟩
      have := hsq _ h
      simp only [HS.OnShell, Core.setD_d, if_true, reduceCtorEq, if_false, this]
      ring
    · refine ⟨_, _, rfl, SameExcept.of_set "py" _ ⟨by decide, by decide⟩ (Hit.set_py E s _), by simp,
        fun _ => ⟨_, rfl, .inr ⟨rfl, ?_⟩⟩⟩
      simp only [Core.setD_d, if_true, reduceCtorEq, if_false]
      rw [gt_iff_lt, not_lt, Hit.shellTol] at h
      linear_combination h
  · rw [Hit.shell_pz]
    split_ifs with h
    · refine ⟨_, _, rfl, SameExcept.of_set "pz" _ ⟨by decide, by decide⟩ (Hit.set_pz E s _), by simp,
        fun _ => ⟨_, rfl, .inl ⟨?_, hpos _ h⟩⟩⟩
      have := hsq _ h
      simp only [HS.OnShell, Core.setD_d, if_true, reduceCtorEq, if_false, this]
      ring
    · refine ⟨_, _, rfl, SameExcept.of_set "pz" _ ⟨by decide, by decide⟩ (Hit.set_pz E s _), by simp,
        fun _ => ⟨_, rfl, .inr ⟨rfl, ?_⟩⟩⟩
      simp only [Core.setD_d, if_true, reduceCtorEq, if_false]
      rw [gt_iff_lt, not_lt, Hit.shellTol] at h
      linear_combination h
  · have h := C12_true hE s _ "energy" (Hit.shell_energy E s)
    refine ⟨_, _, Hit.shell_energy E s, h.2.1, fun _ => ⟨h.1, ?_⟩, by simp⟩
    simp only [Core.setD_d, if_true]
    refine hE.sqrt_nonneg _ ?_
    nlinarith [mul_self_nonneg (s.core.d .mass), mul_self_nonneg (s.core.d .px),
      mul_self_nonneg (s.core.d .py), mul_self_nonneg (s.core.d .pz)]

/-- the object new_from_dict starts from does not matter -/
theorem new_from_dict_core (E : Ext K) (d : List (String × PyVal K)) (m : String) (c c' : Core K)
    (wc : WC K) : Hit.new_from_dict E d m ⟨c, wc⟩ = Hit.new_from_dict E d m ⟨c', wc⟩ := by
  rw [Hit.new_from_dict, PyM.bind_apply, PyM.bind_apply]
  rfl

theorem get_event (E : Ext K) (c : Core K) (wc : WC K) (k : Int) :
    (Hit.get E "event_number" ⟨c.setI .event k, wc⟩).1 = .ok (.int k) := rfl

theorem plain_ne {v : String} (hp : v ∈ plainNames) : v ∉ ["event_number", "global_weight"] := by
  intro h
  simp only [List.mem_cons, List.not_mem_nil, or_false] at h
  rcases h with rfl | rfl <;> revert hp <;> decide

theorem bind_ok {S α β : Type} {m : PyM S α} {f : α → PyM S β} {s s' : S} {a : α}
    (h : m s = (.ok a, s')) : (m >>= f) s = f a s' := by
  rw [PyM.bind_apply, h]

/-- the mass shell condition on a hit that has been moved by the shell point -/
theorem usable_ok {E : Ext K} (hE : E.Lawful) {m : String} {vars : List String} {s0 s : HS K}
    (hu : Usable m vars s0.core) (hs : SameExcept E (vars ++ ["event_number", "global_weight"]) s0 s) :
    ∃ r c, Hit.mass_shell_condition E m s = (.ok r, ⟨c, s.wc⟩) ∧
      SameExcept E (shellTouches m) s ⟨c, s.wc⟩ ∧
      (m = "energy" → HS.OnShell ⟨c, s.wc⟩ ∧ 0 ≤ c.d .energy) ∧
      (m ∈ ["px", "py", "pz"] → ∃ r, Reads E ⟨c, s.wc⟩ m r ∧
        ((HS.OnShell ⟨c, s.wc⟩ ∧ 0 < r) ∨ (r = 0 ∧ c.d .energy ^ 2 ≤ c.d .px ^ 2 + c.d .py ^ 2 +
          c.d .pz ^ 2 + c.d .mass ^ 2 + 1 / 1000000))) ∧
      (m = "p" → HS.OnShell ⟨c, s.wc⟩ ∧ (s0.core.d .px ^ 2 + s0.core.d .py ^ 2 + s0.core.d .pz ^ 2 ≠ 0 →
        ∃ q, 0 ≤ q ∧ c.d .px = s0.core.d .px * q ∧ c.d .py = s0.core.d .py * q ∧
          c.d .pz = s0.core.d .pz * q)) := by
  rcases hu with ⟨hm, _⟩ | ⟨rfl, hv, hle⟩
  · obtain ⟨r, c, h1, h2, h3, h4⟩ := shell_ok hE hm s
    have ht : shellTouches m = [m] := by
      simp only [List.mem_cons, List.not_mem_nil, or_false] at hm
      rcases hm with rfl | rfl | rfl | rfl | rfl <;> rfl
    refine ⟨r, c, h1, ht ▸ h2, h3, h4, ?_⟩
    rintro rfl; simp at hm
  · have rd : ∀ (n : String) (dv : DVar), n ∈ ["px", "py", "pz", "energy", "mass"] →
        (∀ t : HS K, (Hit.get E n t).1 = .ok (.flt (t.core.d dv))) → s.core.d dv = s0.core.d dv := by
      intro n dv hn hg
      have hnv := hv n hn
      have hn' : n ∈ hitVariables ∧ n ∉ ["event_number", "global_weight"] := by
        simp only [List.mem_cons, List.not_mem_nil, or_false] at hn
        rcases hn with rfl | rfl | rfl | rfl | rfl <;> decide
      have := hs n hn'.1 (by
        rw [List.mem_append, not_or]
        exact ⟨hnv, hn'.2⟩)
      rw [hg, hg] at this
      simpa using this
    have e1 := rd "px" .px (by decide) fun _ => rfl
    have e2 := rd "py" .py (by decide) fun _ => rfl
    have e3 := rd "pz" .pz (by decide) fun _ => rfl
    have e4 := rd "energy" .energy (by decide) fun _ => rfl
    have e5 := rd "mass" .mass (by decide) fun _ => rfl
    have hneg : ¬ (s.core.d .energy - s.core.d .mass) * (s.core.d .energy + s.core.d .mass) < 0 := by
      rw [e4, e5]
      have : (s0.core.d .energy - s0.core.d .mass) * (s0.core.d .energy + s0.core.d .mass) =
        s0.core.d .energy ^ 2 - s0.core.d .mass ^ 2 := by ring
      rw [this]; linarith
    obtain ⟨k, pz0, hset, _⟩ := Hit.set_p_cases hE s (E.sqrt ((s.core.d .energy -
        s.core.d .mass) * (s.core.d .energy + s.core.d .mass)))
    have hp := Hit.shell_p_pos E s _ hneg hset
    obtain ⟨g1, g2, _, g4⟩ := C12_true hE s _ "p" hp
    refine ⟨_, _, hp, g2, by simp, by simp, fun _ => ⟨g1, fun h0 => ?_⟩⟩
    rw [← e1, ← e2, ← e3] at h0 ⊢
    exact g4 rfl h0

/-- one hit of the shell -/
theorem shellHit_ok {E : Ext K} (hE : E.Lawful) {vars : List String} (hv : ∀ v ∈ vars, v ∈ plainNames)
    (hn : vars.Nodup) {m : String}
    {defaults : List (String × PyVal K)} {wc : WC K} {c0 : Core K} (hm : Usable m vars c0)
    (hd : Hit.new_from_dict E defaults "" ⟨Core.new, wc⟩ = (.ok (), ⟨c0, wc⟩))
    {vec : List K} (hl : vars.length ≤ vec.length) {k : Nat} (hk : k < 2147483648) (c : Core K) :
    ∃ c', shellHit E vars m defaults k vec ⟨c, wc⟩ = (.ok (), ⟨c', wc⟩) ∧
      IsShellHit E vars m ⟨c0, wc⟩ k vec ⟨c', wc⟩ := by
  have hd' : Hit.new_from_dict E defaults "" ⟨c, wc⟩ = (.ok (), ⟨c0, wc⟩) := by
    rw [new_from_dict_core E defaults "" c Core.new wc, hd]
  obtain ⟨c1, h1, h2, h3, h4⟩ := addVars_ok E vec vars 0 hv hn (by omega) ⟨c0, wc⟩
  have h5 := Hit.set_event_number E ⟨c1, wc⟩ k (by omega)
  have h6 := sameExcept_event E ⟨c1, wc⟩ k
  obtain ⟨r, c', h7, h8, h9, h10, h11⟩ := usable_ok (s0 := ⟨c0, wc⟩) hE hm (h3.trans h6)
  have hmn : ∀ n ∈ shellTouches m, n ∉ vars ∧ n ≠ "event_number" := by
    rcases hm with ⟨hm, hmv⟩ | ⟨rfl, hmv, _⟩
    · have ht : shellTouches m = [m] := by
        simp only [List.mem_cons, List.not_mem_nil, or_false] at hm
        rcases hm with rfl | rfl | rfl | rfl | rfl <;> rfl
      intro n hn
      rw [ht, List.mem_singleton] at hn
      subst hn
      refine ⟨hmv, ?_⟩
      rintro rfl; simp at hm
    · intro n hn
      have ht : shellTouches "p" = ["px", "py", "pz"] := rfl
      rw [ht] at hn
      simp only [List.mem_cons, List.not_mem_nil, or_false] at hn
      rcases hn with rfl | rfl | rfl
      · exact ⟨hmv _ (by decide), by decide⟩
      · exact ⟨hmv _ (by decide), by decide⟩
      · exact ⟨hmv _ (by decide), by decide⟩
  have hne : ∀ v ∈ vars, v ∈ dblNames ∧ v ∉ ["event_number", "global_weight"] ∧ v ∉ shellTouches m := by
    intro v hvm
    have hp := hv v hvm
    exact ⟨(plain_set E hp).1, plain_ne hp, fun h => (hmn v h).1 hvm⟩
  refine ⟨c', ?_, ?_, ?_, ?_, h9, h10, h11⟩
  · rw [shellHit, bind_ok hd', bind_ok h1, bind_ok h5, bind_ok h7]
    rfl
  · rw [h8 "event_number" (by decide) fun h => (hmn _ h).2 rfl]
    exact get_event E c1 wc k
  · intro i hi a ha
    obtain ⟨g1, g2, g3⟩ := hne _ (List.getElem_mem hi)
    rw [h8.reads g1 g3, h6.reads g1 g2]
    simpa using h4 i hi a ha
  · exact ((h3.trans h6).trans h8).mono (by
      intro n
      simp only [List.mem_append, List.mem_cons, List.not_mem_nil, or_false]
      rintro ((h | h | h) | h)
      · exact .inl (.inl h)
      · exact .inr (.inl h)
      · exact .inr (.inr h)
      · exact .inl (.inr h))

/-! ### the loop -/

/-- the whole bunch -/
theorem fill_ok {E : Ext K} (hE : E.Lawful) {vars : List String} (hv : ∀ v ∈ vars, v ∈ plainNames)
    (hn : vars.Nodup) {m : String}
    {defaults : List (String × PyVal K)} {c0 : Core K} (hm : Usable m vars c0) {first : Nat} :
    ∀ (grid : List (List K)) (ev : Nat) (b : Bunch K) (w : BWorld K)
      (_ : Hit.new_from_dict E defaults "" ⟨Core.new, w.ctx w.hcur⟩ = (.ok (), ⟨c0, w.ctx w.hcur⟩))
      (_ : ∀ vec ∈ grid, vars.length ≤ vec.length) (_ : ev + grid.length ≤ 2147483648) (_ : b.Sync),
    ∃ b' w', fill E vars m defaults first ev grid b w = (.ok b', w') ∧ b'.Sync ∧
      b'.hits = b.hits ++ (List.range' (first + ev) grid.length) ∧
      w'.ctx = w.ctx ∧ w'.hcur = w.hcur ∧ w'.bcur = w.bcur ∧ w'.geo = w.geo ∧
      (∀ i, (i < first + ev ∨ first + ev + grid.length ≤ i) → w'.hits i = w.hits i) ∧
      ∀ j (hj : j < grid.length), IsShellHit E vars m ⟨c0, w.ctx w.hcur⟩ (ev + j) grid[j]
        (w'.hview (first + ev + j))
  | [], ev, b, w, _, _, _, hb => ⟨b, w, rfl, hb, by simp, rfl, rfl, rfl, rfl, fun _ _ => rfl, by simp⟩
  | vec :: r, ev, b, w, hd, hg, hl, hb => by
    simp only [List.mem_cons, forall_eq_or_imp] at hg
    simp only [List.length_cons] at hl
    obtain ⟨c', h1, h2⟩ := shellHit_ok hE hv hn hm hd hg.1 (k := ev) (by omega) (w.hits (first + ev))
    have hctx : (w.hput (first + ev) ⟨c', w.ctx w.hcur⟩).ctx = w.ctx := by
      funext c
      simp only [BWorld.hput]
      split_ifs with h
      · rw [h]
      · rfl
    have hw : w.onHit (first + ev) (shellHit E vars m defaults ev vec) =
        (.ok (), w.hput (first + ev) ⟨c', w.ctx w.hcur⟩) := by
      rw [BWorld.onHit, BWorld.hview, h1]
    obtain ⟨b', w', g1, g2, g3, g4, g5, g6, g7, g8, g9⟩ := fill_ok hE hv hn hm r (ev + 1)
      (b.append (first + ev)) (w.hput (first + ev) ⟨c', w.ctx w.hcur⟩) (by
        rw [hctx]; exact hd) hg.2 (by omega) (hb.append _)
    refine ⟨b', w', ?_, g2, ?_, g4.trans hctx, g5, g6, g7, ?_, ?_⟩
    · rw [fill, hw]
      exact g1
    · rw [g3, (Bunch.append_covs b (first + ev)).1, List.length_cons, List.range'_succ, List.append_assoc]
      rfl
    · intro i hi
      rw [g8 i (by simp only [List.length_cons] at hi; omega)]
      simp only [BWorld.hput]
      rw [if_neg]
      simp only [List.length_cons] at hi
      omega
    · intro j hj
      match j with
      | 0 =>
        have : w'.hview (first + ev + 0) = ⟨c', w.ctx w.hcur⟩ := by
          rw [BWorld.hview, g4, g5, hctx, Nat.add_zero, g8 _ (by omega)]
          simp [BWorld.hput]
        rw [this]
        simpa using h2
      | j + 1 =>
        have hj' : j < r.length := by simpa using hj
        have := g9 j hj'
        rw [hctx] at this
        simp only [List.getElem_cons_succ]
        rw [show ev + (j + 1) = ev + 1 + j by omega, show first + ev + (j + 1) = first + (ev + 1) + j by omega]
        exact this

/-! ### C87 -/

/-- C87_partial.  For a positive definite ellipse, 2 <= n <= 31623 points per dimension, distinct
stored variables, one for each dimension, a mass shell variable that can be used with them, and defaults
that do not set weights, new_hit_shell returns one hit for every point of make_shell (C35_partial):
n^d hits if n is even and n^d - 1 if n is odd, the offsets of their coordinates from the default
values lie on the ellipsoid, the event numbers are 0, 1, ..., all other variables have their default
values and the hits are on the mass shell.  No other hit and no weight is changed.
Missing: the number of hits in the documentation is n^d (false for odd n); a default global_weight
(false, C87_weight_false); less energy than mass (false, C87_shell_false; 'p' raises IndexError then, C13_false). -/
theorem C87_partial {L : LinAlg K} (hL : L.Lawful) {E : Ext K} (hE : E.Lawful) (n : Nat) (A : Mat K)
    (hsq : A.rows = A.cols) (hd : 0 < A.rows) (hA : PosDef A) (hn : 2 ≤ n) (hn' : n ≤ 31623)
    (hmany : n ^ A.rows ≤ 2147483648)
    (vars : List String) (hv : ∀ v ∈ vars, v ∈ plainNames) (hnd : vars.Nodup)
    (hlen : vars.length = A.rows)
    (m : String) (defaults : List (String × PyVal K)) (w : BWorld K) (c0 : Core K) (hm : Usable m vars c0)
    (hdef : Hit.new_from_dict E defaults "" ⟨Core.new, w.ctx w.hcur⟩ = (.ok (), ⟨c0, w.ctx w.hcur⟩))
    (first : Nat) :
    ∃ N out b w', L.inv A = some N ∧
      List.Forall₂ (OnShell N (List.replicate A.rows 0))
        ((Common.makeGrid A.rows n).filter fun v => decide (∃ x ∈ v, x ≠ 0)) out ∧
      out.length = (if n % 2 = 0 then n ^ A.rows else n ^ A.rows - 1) ∧
      newHitShell E L n A vars m defaults first w = (.ok b, w') ∧ b.Sync ∧
      b.hits = List.range' first out.length ∧
      w'.ctx = w.ctx ∧ w'.hcur = w.hcur ∧ w'.bcur = w.bcur ∧ w'.geo = w.geo ∧
      (∀ i, (i < first ∨ first + out.length ≤ i) → w'.hits i = w.hits i) ∧
      ∀ k (hk : k < out.length), IsShellHit E vars m ⟨c0, w.ctx w.hcur⟩ k out[k] (w'.hview (first + k)) := by
  obtain ⟨N, out, h1, h2, h3, h4⟩ := C35_partial hL hE n A hsq hd hA none (by simp) hn hn'
  have hol : ∀ o ∈ out, vars.length ≤ o.length := by
    intro o ho
    obtain ⟨i, hi, rfl⟩ := List.getElem_of_mem ho
    have hi' : i < ((Common.makeGrid A.rows n).filter fun v : List K => decide (∃ x ∈ v, x ≠ 0)).length := by
      rw [h3.length_eq]; exact hi
    obtain ⟨s, _, e, _⟩ := List.Forall₂.get h3 hi' hi
    have hg := List.getElem_mem hi'
    rw [List.mem_filter] at hg
    have hl := ((C35_grid (K := K) A.rows n hn).2.2 _).mp hg.1
    simp only [List.get_eq_getElem] at e
    rw [e, List.length_zipWith, List.length_map, hl.1]
    simp [hlen]
  obtain ⟨b, w', g1, g2, g3, g4, g5, g6, g7, g8, g9⟩ := fill_ok (first := first) hE hv hnd hm out 0
    Bunch.new w hdef hol (by
      have : n ^ A.rows - 1 ≤ n ^ A.rows := Nat.sub_le _ _
      split_ifs at h4 <;> omega) rfl
  refine ⟨N, out, b, w', h1, by simpa using h3, h4, ?_, g2, by simpa [Bunch.new] using g3, g4, g5, g6, g7,
    by simpa using g8, fun k hk => by simpa using g9 k hk⟩
  rw [newHitShell, h2]
  exact g1

/-- A world without hits of interest. -/
def exWorld0 : BWorld ℚ := { hits := fun _ => Core.new, ctx := fun _ => WC.new, hcur := 0, bcur := 0, geo := false }

/-- The unit ellipse in one dimension. -/
def one1 : Mat ℚ := ⟨1, 1, fun _ _ => 1⟩

/-- only the inverse of the ellipse matters -/
theorem newHitShell_lin (L L' : LinAlg ℚ) (h : L.inv one1 = L'.inv one1) (n : Nat) (vars : List String)
    (m : String) (d : List (String × PyVal ℚ)) (w : BWorld ℚ) :
    newHitShell ratExt L n one1 vars m d 0 w = newHitShell ratExt L' n one1 vars m d 0 w := by
  rw [newHitShell, newHitShell, Common.makeShell, Common.makeShell, h]

/-- C87 is false for the number of hits: with n = 3 in one dimension there are two hits, not 3^1.
(All square roots taken here and below are those of 0 and 1, where `ratExt` is right.) -/
theorem C87_count_false (L : LinAlg ℚ) (hL : L.inv one1 = some one1) :
    (newHitShell ratExt L 3 one1 ["x"] "energy" [] 0 exWorld0).1.toOption.map
      (fun b => b.hits) = some [0, 1] := by
  rw [newHitShell_lin L ⟨fun M => some M, fun _ x => x, fun M => (fun _ => 0, M)⟩ hL]
  decide +kernel

/-- C87 is false for a default global weight: it is stored for event number 0 (and read from there
by hit 0 alone), the other hits have the weight of their own events. -/
theorem C87_weight_false (L : LinAlg ℚ) (hL : L.inv one1 = some one1) :
    let r := newHitShell ratExt L 2 one1 ["x"] "energy" [("global_weight", .flt (1 / 2))] 0 exWorld0
    r.1.toOption.map (fun b => b.hits) = some [0, 1] ∧
      (Hit.get ratExt "global_weight" (r.2.hview 0)).1.toOption = some (.flt (1 / 2)) ∧
      (Hit.get ratExt "global_weight" (r.2.hview 1)).1.toOption = some (.flt 1) := by
  rw [newHitShell_lin L ⟨fun M => some M, fun _ x => x, fun M => (fun _ => 0, M)⟩ hL]
  decide +kernel

/-- C87 is false for the mass shell: with a momentum as the mass shell variable and too little energy
the hits are returned off the mass shell, without any exception. -/
theorem C87_shell_false (L : LinAlg ℚ) (hL : L.inv one1 = some one1) :
    let r := newHitShell ratExt L 2 one1 ["x"] "pz" [("energy", .flt 1), ("mass", .flt 2)] 0 exWorld0
    r.1.toOption.map (fun b => b.hits) = some [0, 1] ∧ ¬ (r.2.hview 1).OnShell := by
  rw [newHitShell_lin L ⟨fun M => some M, fun _ x => x, fun M => (fun _ => 0, M)⟩ hL]
  unfold HS.OnShell
  decide +kernel

/-! ### cases -/

/-- muons of 200 MeV/c on an interval in x -/
example : ∃ N out b w', realLin.inv ⟨1, 1, fun _ _ => 4⟩ = some N ∧
    List.Forall₂ (OnShell N [0]) ((Common.makeGrid 1 3).filter fun v => decide (∃ x ∈ v, x ≠ 0)) out ∧
    out.length = 2 ∧
    newHitShell realExt realLin 3 ⟨1, 1, fun _ _ => 4⟩ ["x"] "energy"
      [("pid", .int (-13)), ("mass", .flt 105), ("pz", .flt 200)] 7
      { hits := fun _ => Core.new, ctx := fun _ => WC.new, hcur := 0, bcur := 0, geo := false } = (.ok b, w') ∧
    b.hits = [7, 8] ∧ (w'.hview 8).OnShell ∧ Reads realExt (w'.hview 8) "pz" 200 ∧
    Reads realExt (w'.hview 8) "x" (0 + (out.getD 1 []).getD 0 0) := by
  obtain ⟨N, out, b, w', h1, h2, h3, h4, h5, h6, _, _, _, _, _, h7⟩ := C87_partial realLin_lawful
    realExt_lawful 3 ⟨1, 1, fun _ _ => 4⟩ rfl one_pos exPosDef (by norm_num) (by norm_num) (by norm_num)
    ["x"] (by simp [plainNames]) (by simp) rfl "energy"
    [("pid", .int (-13)), ("mass", .flt 105), ("pz", .flt 200)]
    { hits := fun _ => Core.new, ctx := fun _ => WC.new, hcur := 0, bcur := 0, geo := false }
    (((Core.new.setI .pid (-13)).setD .mass 105).setD .pz 200) (.inl ⟨by simp, by simp⟩) rfl 7
  norm_num at h3
  have h8 := h7 1 (by omega)
  refine ⟨N, out, b, w', h1, h2, h3, h4, by rw [h6, h3]; rfl, (h8.energy rfl).1, ?_, ?_⟩
  · exact (h8.rest.reads (by decide) (by decide)).2 rfl
  · have := h8.coords 0 (by simp) 0 rfl
    have e : out.getD 1 [] = out[1]'(by omega) := Multipole.getD_lt _
    rw [e]
    exact this

/-- 'p' can be used for muons of 200 MeV -/
example : Usable "p" ["x", "y"] ((((Core.new : Core ℝ).setD .mass 105).setD .energy 200).setD .pz 1) :=
  .inr ⟨rfl, by decide, by simp [Core.setD_d]; norm_num⟩

example : ∃ L : LinAlg ℚ, L.inv one1 = some one1 :=
  ⟨⟨fun M => some M, fun _ x => x, fun M => (fun _ => 0, M)⟩, rfl⟩

end HitShell
end Xboa
