import Verif.Props.FFTTuneSignal
import Verif.Props.HitShell
import Verif.Props.MausRead
import Mathlib.Tactic.FieldSimp
/-
Further parts of C68 (special virtual hits), C79 (the frequencies that are searched) and C87 (more
variables than dimensions).
-/
set_option linter.unusedSectionVars false
namespace Xboa
variable {K : Type} [Field K] [LinearOrder K] [IsStrictOrderedRing K]

/-! ### C87 -/
namespace HitShell

theorem addVars_short (E : Ext K) (vec : List K) : ∀ (vars : List String) (i : Nat)
    (_ : ∀ v ∈ vars, v ∈ plainNames) (_ : vec.length < i + vars.length) (_ : vars ≠ []) (s : HS K),
    (addVars E vec i vars s).1 = .error .IndexError
  | [], _, _, _, h, _ => absurd rfl h
  | v :: r, i, hp, hl, _, s => by
    simp only [List.mem_cons, forall_eq_or_imp] at hp
    simp only [List.length_cons] at hl
    obtain ⟨-, -, d, h3⟩ := plain_set E hp.1
    rw [addVars, PyM.bind_apply, (h3 s 0).2]
    by_cases hi : i < vec.length
    · simp only [List.getElem?_eq_getElem hi, PyM.bind_apply, PyM.lift_apply, Hit.addVal, (h3 s _).1]
      exact addVars_short E vec r (i + 1) hp.2 (by omega) (by rintro rfl; simp at hl; omega) _
    · have : vec[i]? = none := by simp; omega
      simp only [this, PyM.raise_apply]

/-- C87: with more variables than the ellipse has dimensions new_hit_shell raises IndexError. -/
theorem C87_variables {L : LinAlg K} (hL : L.Lawful) {E : Ext K} (hE : E.Lawful) (n : Nat) (A : Mat K)
    (hsq : A.rows = A.cols) (hd : 0 < A.rows) (hA : PosDef A) (hn : 2 ≤ n) (hn' : n ≤ 31623)
    (vars : List String) (hv : ∀ v ∈ vars, v ∈ plainNames) (hlen : A.rows < vars.length)
    (m : String) (defaults : List (String × PyVal K)) (w : BWorld K) (c0 : Core K)
    (hdef : Hit.new_from_dict E defaults "" ⟨Core.new, w.ctx w.hcur⟩ = (.ok (), ⟨c0, w.ctx w.hcur⟩))
    (first : Nat) :
    (newHitShell E L n A vars m defaults first w).1 = .error .IndexError := by
  obtain ⟨N, out, h1, h2, h3, h4⟩ := C35_partial hL hE n A hsq hd hA none (by simp) hn hn'
  have hpow : 1 < n ^ A.rows := Nat.one_lt_pow hd.ne' (by omega)
  cases hout : out with
  | nil =>
    rw [hout] at h4
    simp only [List.length_nil] at h4
    split at h4 <;> omega
  | cons o r =>
    have ho : o.length ≤ A.rows := by
      have hi : 0 < out.length := by rw [hout]; simp
      have hi' : 0 < ((Common.makeGrid A.rows n).filter fun v : List K => decide (∃ x ∈ v, x ≠ 0)).length := by
        rw [h3.length_eq]; exact hi
      obtain ⟨s, _, e, _⟩ := List.Forall₂.get h3 hi' hi
      have hg := List.getElem_mem hi'
      rw [List.mem_filter] at hg
      have hl := ((C35_grid (K := K) A.rows n hn).2.2 _).mp hg.1
      simp only [List.get_eq_getElem] at e
      have e0 : out[0] = o := by simp [hout]
      rw [← e0, e, List.length_zipWith, List.length_map, hl.1]
      simp
    rw [newHitShell, h2, hout]
    have hs : ∀ c, (shellHit E vars m defaults 0 o ⟨c, w.ctx w.hcur⟩).1 = .error .IndexError := by
      intro c
      have hd' : Hit.new_from_dict E defaults "" ⟨c, w.ctx w.hcur⟩ = (.ok (), ⟨c0, w.ctx w.hcur⟩) := by
        rw [new_from_dict_core E defaults "" c Core.new (w.ctx w.hcur), hdef]
      have ha := addVars_short E o vars 0 hv (by omega) (by rintro rfl; simp at hlen)
        ⟨c0, w.ctx w.hcur⟩
      cases hr : addVars E o 0 vars ⟨c0, w.ctx w.hcur⟩ with
      | mk x s' =>
        rw [hr] at ha
        simp only at ha
        subst ha
        simp only [shellHit, PyM.bind_apply, hd', hr]
    have hw : (w.onHit (first + 0) (shellHit E vars m defaults 0 o)).1 = .error .IndexError := by
      have := hs (w.hits (first + 0))
      unfold BWorld.onHit BWorld.hview
      exact this
    cases hr : w.onHit (first + 0) (shellHit E vars m defaults 0 o) with
    | mk x w' =>
      rw [hr] at hw
      simp only at hw
      subst hw
      simp only [fill, hr]

/-- Two variables for an ellipse of one dimension. -/
example : (newHitShell realExt realLin 3 ⟨1, 1, fun _ _ => 4⟩ ["x", "px"] "energy"
      [("pid", .int (-13)), ("mass", .flt 105), ("pz", .flt 200)] 7
      { hits := fun _ => Core.new, ctx := fun _ => WC.new, hcur := 0, bcur := 0, geo := false }).1 =
    .error .IndexError :=
  C87_variables realLin_lawful realExt_lawful 3 ⟨1, 1, fun _ _ => 4⟩ rfl one_pos exPosDef (by norm_num)
    (by norm_num) ["x", "px"] (by simp [plainNames]) (by simp) "energy" _ _
    (((Core.new.setI .pid (-13)).setD .mass 105).setD .pz 200) rfl 7

end HitShell

/-! ### C79 -/
namespace FFTTune

theorem findPeaks_keeps (pf : List K → Except Err (List Nat)) (s : State K) :
    (findPeaks pf s).2.kx = s.kx ∧ (findPeaks pf s).2.ky = s.ky := by
  unfold findPeaks
  split
  · exact ⟨rfl, rfl⟩
  · split
    · exact ⟨rfl, rfl⟩
    · simp only
      split
      · exact ⟨rfl, rfl⟩
      · split <;> exact ⟨rfl, rfl⟩

/-- C79: _sft_find_peaks looks at the frequencies 0, interval, 2 interval, ..., one interval or more below
1/2 and as many as there are, with the strengths that the slow transform has there. -/
theorem C79_sft_grid (F : Fourier K) (E : Ext K) (pf : List K → Except Err (List Nat)) (interval : K)
    (hi : 0 < interval) (hF : ∀ x : K, 0 ≤ x → (F.trunc x : K) ≤ x ∧ x < (F.trunc x : K) + 1)
    (s : State K) :
    let s' := (sftFindPeaks F E pf interval s).2
    (∀ i (h : i < s'.kx.length), s'.kx[i] = (i : K) * interval ∧ s'.kx[i] + interval ≤ 1 / 2) ∧
    1 / 2 < ((s'.kx.length : K) + 1) * interval ∧
    s'.ky = s'.kx.map (sft F E s.hanning (s.u.getD [])) := by
  intro s'
  obtain ⟨h1, h2⟩ := findPeaks_keeps pf { s with
    kx := (List.range (F.trunc (1 / interval / 2)).toNat).map fun (i : Nat) => (i : K) * interval,
    ky := ((List.range (F.trunc (1 / interval / 2)).toNat).map fun (i : Nat) =>
      (i : K) * interval).map (sft F E s.hanning (s.u.getD [])) }
  have hk : s'.kx = (List.range (F.trunc (1 / interval / 2)).toNat).map
      fun (i : Nat) => (i : K) * interval := h1
  have hy : s'.ky = ((List.range (F.trunc (1 / interval / 2)).toNat).map fun (i : Nat) =>
      (i : K) * interval).map (sft F E s.hanning (s.u.getD [])) := h2
  have hx : (0 : K) ≤ 1 / interval / 2 := by positivity
  obtain ⟨l, u⟩ := hF _ hx
  have e : 1 / interval / 2 * interval = 1 / 2 := by field_simp
  have hpos : 0 ≤ F.trunc (1 / interval / 2) := by
    by_contra hneg
    have : F.trunc (1 / interval / 2) + 1 ≤ 0 := by omega
    have : ((F.trunc (1 / interval / 2) : K) + 1) ≤ 0 := by exact_mod_cast this
    linarith
  have hc : (((F.trunc (1 / interval / 2)).toNat : K)) = (F.trunc (1 / interval / 2) : K) := by
    have : (((F.trunc (1 / interval / 2)).toNat : Int)) = F.trunc (1 / interval / 2) :=
      Int.toNat_of_nonneg hpos
    exact_mod_cast congrArg (fun z : Int => (z : K)) this
  refine ⟨?_, ?_, by rw [hy, hk]⟩
  · rw [hk]
    intro i h
    have hi' : i < (F.trunc (1 / interval / 2)).toNat := by simpa using h
    have hi1 : ((i : K) + 1) ≤ (F.trunc (1 / interval / 2) : K) := by
      rw [← hc]; exact_mod_cast hi'
    refine ⟨by simp, ?_⟩
    simp only [List.getElem_map, List.getElem_range]
    have := mul_le_mul_of_nonneg_right (hi1.trans l) hi.le
    rw [e] at this
    linarith
  · rw [hk]
    simp only [List.length_map, List.length_range, hc]
    have := mul_lt_mul_of_pos_right u hi
    rw [e] at this
    exact this

/-- The truncation of the reals is one. -/
example : ∀ x : ℝ, 0 ≤ x → (realFourier.trunc x : ℝ) ≤ x ∧ x < (realFourier.trunc x : ℝ) + 1 := by
  intro x hx
  simp only [realFourier, if_pos hx]
  exact ⟨Int.floor_le x, Int.lt_floor_add_one x⟩

end FFTTune

/-! ### C68 -/
section special
open Maus

/-- A special virtual hit in a MAUS document, with the values in the hit `h`. -/
def specialDict (h : HS K) : List (String × MVal K) :=
  [("position", .vec [("x", .flt (h.core.d .x)), ("y", .flt (h.core.d .y)), ("z", .flt (h.core.d .z))]),
   ("momentum", .vec [("x", .flt (h.core.d .px)), ("y", .flt (h.core.d .py)), ("z", .flt (h.core.d .pz))]),
   ("particle_id", .num (.int (h.core.i .pid))), ("track_id", .num (.int (h.core.i .particle))),
   ("time", .num (.flt (h.core.d .t))), ("mass", .num (.flt (h.core.d .mass))),
   ("charge", .num (.flt (h.core.d .charge))), ("path_length", .num (.flt (h.core.d .path_length))),
   ("energy_deposited", .num (.flt (h.core.d .e_dep)))]

/-- the variables of a special virtual hit, as read -/
def specialVars (h : HS K) (ev : Nat) : List (String × PyVal K) :=
  [("x", .flt (h.core.d .x)), ("y", .flt (h.core.d .y)), ("z", .flt (h.core.d .z)),
   ("px", .flt (h.core.d .px)), ("py", .flt (h.core.d .py)), ("pz", .flt (h.core.d .pz)),
   ("pid", .int (h.core.i .pid)), ("particle_number", .int (h.core.i .particle)),
   ("t", .flt (h.core.d .t)), ("mass", .flt (h.core.d .mass)), ("charge", .flt (h.core.d .charge)),
   ("path_length", .flt (h.core.d .path_length)), ("e_dep", .flt (h.core.d .e_dep)),
   ("event_number", .int ev)]

theorem hitVars_special (h : HS K) (ev : Nat) :
    hitVars .py2 "special_virtual_hit" (specialDict h) ev = .ok (specialVars h ev) := by
  simp only [hitVars, dictAt, readThreeVec, readConversions, List.lookup,
    String.reduceBEq, mapE, readVec, readNum, specialDict, List.map_cons,
    List.map_nil, List.flatten_cons, List.flatten_nil, List.cons_append, List.nil_append, toPy,
    addMass, addCharge, Option.isSome_some, if_true, String.reduceAppend, List.append_nil,
    specialVars]

/-- C68_special_partial: with Python 2 a special virtual hit of a document is read as the hit with its
position, momentum, time, particle, track, mass, charge, path length and energy loss, the energy of the
mass shell, and the numbers of its event and spill; everything else is as in a new hit.  Missing:
Python 3 (false, C68_false). -/
theorem C68_special_partial (E : Ext K) (h : HS K) (hr : h.core.InRange) (ev sp : Nat)
    (hev : ev < 2147483648) (hsp : sp < 2147483648) (wc : WC K) :
    ∃ h', hitFromMausObject .py2 E "special_virtual_hit" (specialDict h) ev sp wc = .ok h' ∧
      (∀ v ∈ [DVar.x, .y, .z, .t, .px, .py, .pz, .mass, .charge, .path_length, .e_dep],
        h'.core.d v = h.core.d v) ∧
      (∀ v ∈ [IVar.pid, .particle], h'.core.i v = h.core.i v) ∧
      h'.core.i .event = ev ∧ h'.core.i .spill = sp ∧
      h'.core.d .energy = E.sqrt (h.core.d .mass * h.core.d .mass + h.core.d .px * h.core.d .px +
        h.core.d .py * h.core.d .py + h.core.d .pz * h.core.d .pz) ∧
      h'.core.d .local_weight = 1 ∧ h'.core.i .station = 0 ∧ h'.core.i .status = 0 ∧
      ∀ v ∈ [DVar.bx, .by, .bz, .ex, .ey, .ez, .sx, .sy, .sz, .proper_time], h'.core.d v = 0 := by
  have hev' : -2147483648 ≤ (ev : Int) ∧ (ev : Int) < 2147483648 := by omega
  have hsp' : -2147483648 ≤ (sp : Int) ∧ (sp : Int) < 2147483648 := by omega
  have hs : dictAt readMassShell "special_virtual_hit" = .ok "energy" := by
    simp only [dictAt, readMassShell, List.lookup, String.reduceBEq]
  have key : ∃ c : Core K, Hit.setAll E (specialVars h ev) ⟨Core.new, wc⟩ = (.ok (), ⟨c, wc⟩) ∧
      (∀ v ∈ [DVar.x, .y, .z, .t, .px, .py, .pz, .mass, .charge, .path_length, .e_dep],
        c.d v = h.core.d v) ∧ (∀ v ∈ [IVar.pid, .particle], c.i v = h.core.i v) ∧ c.i .event = ev ∧
      c.d .local_weight = 1 ∧ c.i .station = 0 ∧ c.i .status = 0 ∧
      ∀ v ∈ [DVar.bx, .by, .bz, .ex, .ey, .ez, .sx, .sy, .sz, .proper_time], c.d v = 0 := by
    refine ⟨?c, ?eq, ?rest⟩
    case eq =>
      unfold specialVars
      refine (setAll_d fun s => Hit.set_x E s (h.core.d .x)).trans ?_
      refine (setAll_d fun s => Hit.set_y E s (h.core.d .y)).trans ?_
      refine (setAll_d fun s => Hit.set_z E s (h.core.d .z)).trans ?_
      refine (setAll_d fun s => Hit.set_px E s (h.core.d .px)).trans ?_
      refine (setAll_d fun s => Hit.set_py E s (h.core.d .py)).trans ?_
      refine (setAll_d fun s => Hit.set_pz E s (h.core.d .pz)).trans ?_
      refine (setAll_i fun s => Hit.set_pid E s _ (hr .pid)).trans ?_
      refine (setAll_i fun s => Hit.set_particle_number E s _ (hr .particle)).trans ?_
      refine (setAll_d fun s => Hit.set_t E s (h.core.d .t)).trans ?_
      refine (setAll_d fun s => Hit.set_mass E s (h.core.d .mass)).trans ?_
      refine (setAll_d fun s => Hit.set_charge E s (h.core.d .charge)).trans ?_
      refine (setAll_d fun s => Hit.set_path_length E s (h.core.d .path_length)).trans ?_
      refine (setAll_d fun s => Hit.set_e_dep E s (h.core.d .e_dep)).trans ?_
      refine (setAll_i fun s => Hit.set_event_number E s _ hev').trans ?_
      rfl
    refine ⟨?_, ?_, rfl, rfl, rfl, rfl, ?_⟩
    · intro v hv
      simp only [List.mem_cons, List.not_mem_nil, or_false] at hv
      rcases hv with rfl | rfl | rfl | rfl | rfl | rfl | rfl | rfl | rfl | rfl | rfl <;> rfl
    · intro v hv
      simp only [List.mem_cons, List.not_mem_nil, or_false] at hv
      rcases hv with rfl | rfl <;> rfl
    · intro v hv
      simp only [List.mem_cons, List.not_mem_nil, or_false] at hv
      rcases hv with rfl | rfl | rfl | rfl | rfl | rfl | rfl | rfl | rfl | rfl <;> rfl
  obtain ⟨c, hc, h1, h2, h3, h4, h5, h6, h7⟩ := key
  have hn : Hit.new_from_dict E (specialVars h ev) "energy" ⟨Core.new, wc⟩ =
      (.ok (), ⟨c.setD .energy (E.sqrt (c.d .mass * c.d .mass + c.d .px * c.d .px +
        c.d .py * c.d .py + c.d .pz * c.d .pz)), wc⟩) := by
    simp only [Hit.new_from_dict, Hit.fresh, PyM.bind_apply, hc, ne_eq, String.reduceEq,
      not_false_eq_true, if_true, Hit.shell_energy, PyM.pure_apply]
  refine ⟨⟨(c.setD .energy (E.sqrt (c.d .mass * c.d .mass + c.d .px * c.d .px +
        c.d .py * c.d .py + c.d .pz * c.d .pz))).setI .spill sp, wc⟩,
    hitFromMaus_ok (hitVars_special h ev) hs hn (Hit.set_spill E _ _ hsp'), ?_, ?_, h3, rfl, ?_, h4, h5, h6, ?_⟩
  · intro v hv
    rw [← h1 v hv]
    simp only [List.mem_cons, List.not_mem_nil, or_false] at hv
    rcases hv with rfl | rfl | rfl | rfl | rfl | rfl | rfl | rfl | rfl | rfl | rfl <;> rfl
  · intro v hv
    rw [← h2 v hv]
    simp only [List.mem_cons, List.not_mem_nil, or_false] at hv
    rcases hv with rfl | rfl <;> rfl
  · rw [← h1 .mass (by simp), ← h1 .px (by simp), ← h1 .py (by simp), ← h1 .pz (by simp)]
    rfl
  · intro v hv
    rw [← h7 v hv]
    simp only [List.mem_cons, List.not_mem_nil, or_false] at hv
    rcases hv with rfl | rfl | rfl | rfl | rfl | rfl | rfl | rfl | rfl | rfl <;> rfl

/-- A hit meeting the hypothesis. -/
example : ∃ h : HS ℚ, h.core.InRange ∧ h.core.d .e_dep = 3 ∧ h.core.i .pid = 13 := by
  refine ⟨⟨((Core.new).setI .pid 13).setD .e_dep 3, WC.new⟩, ?_, rfl, rfl⟩
  intro v
  cases v <;> decide +kernel

end special
end Xboa
