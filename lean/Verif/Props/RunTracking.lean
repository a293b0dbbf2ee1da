import Verif.Model.RunTracking
import Verif.Props.TuneExact
import Verif.Props.Tracking
import Verif.Props.HitShell
/-!
C91: run_tracking of the tune finders records the orbit of the displaced reference particle.
-/
set_option linter.unusedSectionVars false
namespace Xboa
namespace RunTracking
variable {K : Type} [Field K] [LinearOrder K] [IsStrictOrderedRing K]

/-! ### specification -/

/-- `h` is the reference particle with `moves` added to the variables, everything else being equal. -/
structure Displaced (E : Ext K) (moves : List (String × K)) (ref h : HS K) : Prop where
  moved : ∀ m ∈ moves, ∀ a, Reads E ref m.1 a → Reads E h m.1 (a + m.2)
  rest : SameExcept E (moves.map Prod.fst) ref h
  ints : h.core.i = ref.core.i

/-- The elements at the positions that are listed, in the order of the list; all if there is no
list. -/
def Picked {α : Type} (use : Option (List Int)) (l out : List α) : Prop :=
  match use with
  | none => out = l
  | some ix => ∃ pos : List Nat, pos.Pairwise (· < ·) ∧ (∀ i, i ∈ pos ↔ i < l.length ∧ (i : Int) ∈ ix) ∧
      out.map some = pos.map fun i => l[i]?

/-- The values of a variable of a list of hits. -/
def Values (E : Ext K) (wc : WC K) (axis : String) (hits : List (Core K)) (vals : List K) : Prop :=
  List.Forall₂ (fun c a => Reads E ⟨c, wc⟩ axis a) hits vals

/-! ### lemmas -/

theorem picked_none {α : Type} (l out : List α) : Picked none l out ↔ out = l := Iff.rfl

theorem zipIdx_pos {α : Type} (p : Nat → Bool) : ∀ (l : List α) (k : Nat),
    ((l.zipIdx k).filter fun q => p q.2).map (fun q => some q.1) =
      ((List.range' k l.length).filter p).map fun i => l[i - k]?
  | [], k => by simp
  | a :: r, k => by
    have ih := zipIdx_pos p r (k + 1)
    rw [List.zipIdx_cons, List.length_cons, List.range'_succ, List.filter_cons, List.filter_cons]
    have e : ((List.range' (k + 1) r.length).filter p).map (fun i => (a :: r)[i - k]?) =
        ((List.range' (k + 1) r.length).filter p).map fun i => r[i - (k + 1)]? := by
      apply List.map_congr_left
      intro i hi
      have hi := (List.mem_range'_1.mp (List.mem_of_mem_filter hi)).1
      rw [show i - k = (i - (k + 1)) + 1 by omega, List.getElem?_cons_succ]
    by_cases h : p k = true
    · simp only [h, if_true, List.map_cons, ih, e]
      simp
    · simp only [h, Bool.false_eq_true, if_false, ih, e]

theorem select_picked (use : Option (List Int)) (hits : List (Core K)) :
    Picked use hits (select use hits) := by
  cases use with
  | none => rfl
  | some ix =>
    refine ⟨(List.range' 0 hits.length).filter fun i => decide ((i : Int) ∈ ix), ?_, ?_, ?_⟩
    · exact (List.pairwise_lt_range' (s := 0) (n := hits.length)).filter _
    · intro i
      simp [List.mem_range'_1]
    · have := zipIdx_pos (fun i => decide ((i : Int) ∈ ix)) hits 0
      simp only [select, List.map_map, Function.comp_def]
      rw [this]
      simp

theorem column_ok (E : Ext K) {axis : String} (h : axis ∈ dblNames) (wc : WC K) :
    ∀ hits : List (Core K), ∃ vals, column E axis hits wc = (.ok vals, wc) ∧ Values E wc axis hits vals
  | [] => ⟨[], rfl, .nil⟩
  | c :: r => by
    obtain ⟨vals, h1, h2⟩ := column_ok E h wc r
    obtain ⟨a, ha⟩ := Hit.get_dbl E ⟨c, wc⟩ axis h
    refine ⟨a :: vals, ?_, .cons (by simp [Reads, ha]) h2⟩
    simp [column, Hit.getNum, ha, h1]

theorem displace_eq (E : Ext K) (a : String) (d : K) : displace E a d = HitShell.addVars E [d] 0 [a] := by
  funext s
  simp only [displace, HitShell.addVars, PyM.bind_apply]
  cases Hit.get E a s with
  | mk x s1 =>
    cases x with
    | error e => rfl
    | ok v =>
      simp only [List.getElem?_cons_zero, PyM.bind_apply, PyM.lift_apply]
      cases Hit.addVal (.flt d) v with
      | error e => rfl
      | ok n =>
        simp only
        cases Hit.set E a n s1 with
        | mk y s2 => cases y <;> rfl

theorem displace2_eq (E : Ext K) (a1 a2 : String) (d1 d2 : K) :
    (do displace E a1 d1; displace E a2 d2) = HitShell.addVars E [d1, d2] 0 [a1, a2] := by
  funext s
  have h2 := displace_eq E a2 d2
  have e : ∀ s, HitShell.addVars E [d2] 0 [a2] s = HitShell.addVars E [d1, d2] 1 [a2] s := fun _ => rfl
  rw [h2]
  simp only [displace, HitShell.addVars.eq_def E [d1, d2] 0 [a1, a2], PyM.bind_apply]
  cases Hit.get E a1 s with
  | mk x s1 =>
    cases x with
    | error e => rfl
    | ok v =>
      simp only [List.getElem?_cons_zero, PyM.bind_apply, PyM.lift_apply]
      cases Hit.addVal (.flt d1) v with
      | error e => rfl
      | ok n =>
        simp only
        cases Hit.set E a1 n s1 with
        | mk y s2 =>
          cases y with
          | error e => rfl
          | ok _ => exact e s2

/-- the displaced copy of the reference particle -/
theorem displaced_ok (E : Ext K) (vars : List String) (ds : List K) (hl : ds.length = vars.length)
    (hp : ∀ v ∈ vars, v ∈ plainNames) (hn : vars.Nodup) (ref : HS K) (hr : ref.core.InRange)
    (hwf : ref.wc.WF) :
    ∃ h : HS K, HitShell.addVars E ds 0 vars ⟨ref.core, afterCopy ref⟩ = (.ok (), h) ∧
      h.wc.WF ∧ Displaced E (vars.zip ds) ref h := by
  obtain ⟨c, h1, h2, h3, h4⟩ := HitShell.addVars_ok E ds vars 0 hp hn (by omega)
    ⟨ref.core, afterCopy ref⟩
  obtain ⟨hw, hs⟩ := afterCopy_spec E ref hr hwf
  have hs' : SameExcept E [] ref ⟨ref.core, afterCopy ref⟩ := fun n hn _ => hs n hn
  refine ⟨⟨c, afterCopy ref⟩, h1, hw, ?_, ?_, h2⟩
  · intro m hm a ha
    obtain ⟨i, hi, rfl⟩ := List.getElem_of_mem hm
    rw [List.length_zip] at hi
    have hv : i < vars.length := by omega
    have hd : i < ds.length := by omega
    have h5 := h4 i hv a ((hs'.reads (HitShell.plain_set E (hp _ (List.getElem_mem hv))).1
      (by simp) (a := a)).mpr (by simpa using ha))
    rw [List.getElem_zip]
    simpa [List.getD_eq_getElem?_getD, List.getElem?_eq_getElem hd] using h5
  · rw [List.map_fst_zip (by omega)]
    exact (hs'.trans h3).mono (by simp)

/-- what trackDisplaced does -/
theorem trackDisplaced_ok {T : Type} (E : Ext K) (track : TrackOne K T) (vars : List String)
    (ds : List K) (use : Option (List Int)) (t : T) (ref h : HS K) (hr : ref.core.InRange)
    (hh : HitShell.addVars E ds 0 vars ⟨ref.core, afterCopy ref⟩ = (.ok (), h)) :
    (∀ e t' c, track t h = (.error e, t', c) →
      trackDisplaced E track (HitShell.addVars E ds 0 vars) use t ref = (.error e, t', c.wc)) ∧
    (∀ hits t' c, track t h = (.ok hits, t', c) →
      trackDisplaced E track (HitShell.addVars E ds 0 vars) use t ref =
        (.ok (select use hits), t', c.wc)) := by
  have hh' : HitShell.addVars E ds 0 vars ⟨ref.core, ref.wc.setWeight ⟨0, 0, 0⟩ ref.globalWeight⟩ =
    (.ok (), h) := hh
  constructor
  · intro e t' c ht
    simp only [trackDisplaced, Hit.deepcopy_eq E ref hr, hh', ht]
  · intro hits t' c ht
    simp only [trackDisplaced, Hit.deepcopy_eq E ref hr, hh', ht]

end RunTracking
open RunTracking
variable {K : Type} [Field K] [LinearOrder K] [IsStrictOrderedRing K]

/-- C91, DPhiTuneFinder: for two stored coordinates, run_tracking tracks the reference particle
displaced by the given amounts.  If the tracking raises an error, so does run_tracking, with the
data as before.  Otherwise the data are the two coordinates of the hits that the tracking returns, in
order, restricted to the positions in use_hits; nothing else of the tune finder and nothing of the
reference hit changes. -/
theorem C91_dphi {T : Type} (E : Ext K) (track : TrackOne K T) (a1 a2 : String)
    (h1 : a1 ∈ plainNames) (h2 : a2 ∈ plainNames) (h12 : a1 ≠ a2) (d1 d2 : K)
    (use : Option (List Int)) (s : St K T (Tune.State K)) (hr : s.ref.core.InRange)
    (hwf : s.ref.wc.WF) :
    ∃ h : HS K, Displaced E [(a1, d1), (a2, d2)] s.ref h ∧ h.wc.WF ∧
      (∀ e t c, track s.tracking h = (.error e, t, c) →
        dphiRun E track a1 a2 d1 d2 use s = (.error e, ⟨s.finder, t, ⟨s.ref.core, c.wc⟩⟩)) ∧
      (∀ hits t c, track s.tracking h = (.ok hits, t, c) →
        ∃ out u up, Picked use hits out ∧ Values E c.wc a1 out u ∧ Values E c.wc a2 out up ∧
          dphiRun E track a1 a2 d1 d2 use s =
            (.ok (), ⟨{ s.finder with u := some u, up := some up }, t, ⟨s.ref.core, c.wc⟩⟩)) := by
  obtain ⟨h, g1, gw, g2⟩ := displaced_ok E [a1, a2] [d1, d2] rfl
    (by simp [h1, h2]) (by simp [h12]) s.ref hr hwf
  obtain ⟨k1, k2⟩ := trackDisplaced_ok E track [a1, a2] [d1, d2] use s.tracking s.ref h hr g1
  refine ⟨h, g2, gw, ?_, ?_⟩
  · intro e t c ht
    simp only [dphiRun, displace2_eq, k1 e t c ht]
  · intro hits t c ht
    obtain ⟨u, c1, v1⟩ := column_ok E (HitShell.plain_set E h1).1 c.wc (select use hits)
    obtain ⟨up, c2, v2⟩ := column_ok E (HitShell.plain_set E h2).1 c.wc (select use hits)
    refine ⟨select use hits, u, up, select_picked use hits, v1, v2, ?_⟩
    simp only [dphiRun, displace2_eq, k2 hits t c ht, c1, c2]

/-- C91, FFTTuneFinder, for the positions x, y and z: the data are the position and the momentum
belonging to it. -/
theorem C91_fft_partial {T : Type} (E : Ext K) (track : TrackOne K T) (axis mom : String)
    (hx : (axis, mom) ∈ [("x", "px"), ("y", "py"), ("z", "pz")]) (d : K)
    (use : Option (List Int)) (s : St K T (FFTTune.State K)) (hr : s.ref.core.InRange)
    (hwf : s.ref.wc.WF) :
    ∃ h : HS K, Displaced E [(axis, d)] s.ref h ∧
      (∀ e t c, track s.tracking h = (.error e, t, c) →
        fftRun E track axis d use s = (.error e, ⟨s.finder, t, ⟨s.ref.core, c.wc⟩⟩)) ∧
      (∀ hits t c, track s.tracking h = (.ok hits, t, c) →
        ∃ out u up, Picked use hits out ∧ Values E c.wc axis out u ∧ Values E c.wc mom out up ∧
          fftRun E track axis d use s =
            (.ok (), ⟨{ s.finder with u := some u, up := some up }, t, ⟨s.ref.core, c.wc⟩⟩)) := by
  have hm : axis ∈ plainNames ∧ mom ∈ dblNames ∧ "p" ++ axis = mom := by
    simp only [List.mem_cons, Prod.mk.injEq, List.not_mem_nil, or_false] at hx
    rcases hx with ⟨rfl, rfl⟩ | ⟨rfl, rfl⟩ | ⟨rfl, rfl⟩ <;> decide
  obtain ⟨h, g1, _, g2⟩ := displaced_ok E [axis] [d] rfl (by simp [hm.1]) (by simp) s.ref hr hwf
  obtain ⟨k1, k2⟩ := trackDisplaced_ok E track [axis] [d] use s.tracking s.ref h hr g1
  refine ⟨h, g2, ?_, ?_⟩
  · intro e t c ht
    simp only [fftRun, displace_eq, k1 e t c ht]
  · intro hits t c ht
    obtain ⟨u, c1, v1⟩ := column_ok E (HitShell.plain_set E hm.1).1 c.wc (select use hits)
    obtain ⟨up, c2, v2⟩ := column_ok E hm.2.1 c.wc (select use hits)
    refine ⟨select use hits, u, up, select_picked use hits, v1, v2, ?_⟩
    simp only [fftRun, displace_eq, hm.2.2, k2 hits t c ht, c1, c2]

/-- C91 for FFTTuneFinder is false for the other coordinates but t: there is no variable "p" + axis, so
run_tracking raises IndexError as soon as the tracking returns a hit, and leaves new values of `u`
beside the old values of `up`. -/
theorem C91_fft_false {T : Type} (E : Ext K) (track : TrackOne K T) (axis : String)
    (h1 : axis ∈ plainNames) (h2 : axis ∉ ["x", "y", "z", "t"]) (d : K)
    (s : St K T (FFTTune.State K)) (hr : s.ref.core.InRange) (hwf : s.ref.wc.WF) :
    ∃ h : HS K, Displaced E [(axis, d)] s.ref h ∧
      (∀ hits t c, track s.tracking h = (.ok hits, t, c) → hits ≠ [] →
        ∃ u, Values E c.wc axis hits u ∧
          fftRun E track axis d none s =
            (.error .IndexError, ⟨{ s.finder with u := some u }, t, ⟨s.ref.core, c.wc⟩⟩)) := by
  obtain ⟨h, g1, _, g2⟩ := displaced_ok E [axis] [d] rfl (by simp [h1]) (by simp) s.ref hr hwf
  obtain ⟨k1, k2⟩ := trackDisplaced_ok E track [axis] [d] none s.tracking s.ref h hr g1
  refine ⟨h, g2, ?_⟩
  intro hits t c ht hne
  obtain ⟨u, c1, v1⟩ := column_ok E (HitShell.plain_set E h1).1 c.wc hits
  refine ⟨u, v1, ?_⟩
  obtain ⟨c0, r, rfl⟩ := List.exists_cons_of_ne_nil hne
  have hbad : column E ("p" ++ axis) (c0 :: r) c.wc = (.error .IndexError, c.wc) := by
    have : Hit.getNum E ("p" ++ axis) ⟨c0, c.wc⟩ = (.error .IndexError, ⟨c0, c.wc⟩) := by
      simp only [plainNames, List.mem_cons, List.not_mem_nil, or_false] at h1
      rcases h1 with rfl | rfl | rfl | rfl | rfl | rfl | rfl | rfl | rfl | rfl | rfl | rfl | rfl | rfl |
        rfl | rfl | rfl | rfl | rfl | rfl | rfl | rfl
      all_goals first
        | exact absurd h2 (by decide)
        | rfl
    simp only [column, this]
  simp only [fftRun, displace_eq, k2 _ t c ht, select, c1, hbad]

/-- C91 for FFTTuneFinder is false for t: the second list of data is the transverse momentum, not the
energy. -/
theorem C91_fft_t_false {T : Type} {E : Ext K} (hE : E.Lawful) (track : TrackOne K T) (d : K)
    (s : St K T (FFTTune.State K)) (hr : s.ref.core.InRange) (hwf : s.ref.wc.WF) :
    ∃ h : HS K, Displaced E [("t", d)] s.ref h ∧
      (∀ hits t c, track s.tracking h = (.ok hits, t, c) →
        ∃ u up, Values E c.wc "t" hits u ∧
          List.Forall₂ (fun (k : Core K) a => 0 ≤ a ∧ a ^ 2 = k.d .px ^ 2 + k.d .py ^ 2) hits up ∧
          fftRun E track "t" d none s =
            (.ok (), ⟨{ s.finder with u := some u, up := some up }, t, ⟨s.ref.core, c.wc⟩⟩)) := by
  obtain ⟨h, g1, _, g2⟩ := displaced_ok E ["t"] [d] rfl (by decide) (by simp) s.ref hr hwf
  obtain ⟨k1, k2⟩ := trackDisplaced_ok E track ["t"] [d] none s.tracking s.ref h hr g1
  refine ⟨h, g2, ?_⟩
  intro hits t c ht
  obtain ⟨u, c1, v1⟩ := column_ok E (axis := "t") (by decide) c.wc hits
  have hcol : ∀ l : List (Core K), ∃ up, column E "pt" l c.wc = (.ok up, c.wc) ∧
      List.Forall₂ (fun (k : Core K) a => 0 ≤ a ∧ a ^ 2 = k.d .px ^ 2 + k.d .py ^ 2) l up := by
    intro l
    induction l with
    | nil => exact ⟨[], rfl, .nil⟩
    | cons k r ih =>
      obtain ⟨up, i1, i2⟩ := ih
      have hg : Hit.getNum E "pt" ⟨k, c.wc⟩ = (.ok (E.sqrt (k.d .px ^ 2 + k.d .py ^ 2)), ⟨k, c.wc⟩) := rfl
      have h0 : 0 ≤ k.d .px ^ 2 + k.d .py ^ 2 := by positivity
      refine ⟨_, by simp only [column, hg, i1], .cons ⟨hE.sqrt_nonneg _ h0, ?_⟩ i2⟩
      rw [sq]; exact hE.sqrt_mul_self _ h0
  obtain ⟨up, c2, v2⟩ := hcol hits
  refine ⟨u, up, v1, v2, ?_⟩
  simp only [fftRun, displace_eq, k2 _ t c ht, select, c1, show ("p" : String) ++ "t" = "pt" by decide, c2]

namespace RunTracking

/-- a tracking that records the hits it is given and returns none -/
def recorder : TrackOne K (List (HS K)) := fun t h => (.ok [], t ++ [h], h)

end RunTracking

/-- C91, the mass shell: the particle that is tracked is not put back on the mass shell.  If the
reference particle is on it, the particle displaced in px by `d` is not, unless it is the reference
particle or its mirror image. -/
theorem C91_shell_false (E : Ext K) (d : K) (s : St K (List (HS K)) (Tune.State K))
    (hr : s.ref.core.InRange) (hwf : s.ref.wc.WF) (hs : s.ref.OnShell) (hd : d ≠ 0)
    (hm : s.ref.core.d .px + d ≠ -s.ref.core.d .px) :
    ∃ h : HS K, ¬ h.OnShell ∧
      (dphiRun E recorder "x" "px" 0 d none s).2.tracking = s.tracking ++ [h] := by
  obtain ⟨h, g1, _, _, g3⟩ := C91_dphi E recorder "x" "px" (by decide) (by decide) (by decide) 0 d none s
    hr hwf
  obtain ⟨out, u, up, _, _, _, e⟩ := g3 [] (s.tracking ++ [h]) h rfl
  refine ⟨h, ?_, by rw [e]⟩
  have hpx : h.core.d .px = s.ref.core.d .px + d := by
    have := g1.moved ("px", d) (by simp) (s.ref.core.d .px) rfl
    have : Except.ok (Val.flt (h.core.d .px)) = Except.ok (Val.flt (s.ref.core.d .px + d)) := this
    injection this with this
    injection this
  have hn : ∀ (n : String) (v : DVar), n ∈ hitVariables → n ∉ ["x", "px"] →
      (∀ s' : HS K, (Hit.get E n s').1 = .ok (.flt (s'.core.d v))) → h.core.d v = s.ref.core.d v := by
    intro n v h1 h2 h3
    have := g1.rest n h1 h2
    rw [h3, h3] at this
    injection this with this
    injection this
  have he := hn "energy" .energy (by decide) (by decide) fun _ => rfl
  have hpy := hn "py" .py (by decide) (by decide) fun _ => rfl
  have hpz := hn "pz" .pz (by decide) (by decide) fun _ => rfl
  have hma := hn "mass" .mass (by decide) (by decide) fun _ => rfl
  intro hon
  unfold HS.OnShell at hon hs
  rw [he, hpx, hpy, hpz, hma, hs] at hon
  have h0 : d * (2 * s.ref.core.d .px + d) = 0 := by linear_combination -hon
  rcases mul_eq_zero.mp h0 with h0 | h0
  · exact hd h0
  · exact hm (by linear_combination h0)

/-! ### together with MatrixTracking and get_tune -/

namespace RunTracking
open TuneExact

/-- the names of the coordinates of a plane -/
def planeNames : Fin 3 → String × String
  | 0 => ("x", "px") | 1 => ("y", "py") | 2 => ("t", "energy")

/-- the position of its first coordinate in the phase space vector -/
def planeFst : Fin 3 → Fin 6 | 0 => 0 | 1 => 2 | 2 => 4
/-- the position of its second coordinate -/
def planeSnd : Fin 3 → Fin 6 | 0 => 1 | 1 => 3 | 2 => 5

/-- In this plane `M` is the matrix of phase advance `φ` with Courant-Snyder parameters α, β, γ. -/
structure Turns (p : Fin 3) (φ α β γ : ℝ) (M : Mat ℝ) : Prop where
  m00 : M.entry (planeFst p) (planeFst p) = Real.cos φ + α * Real.sin φ
  m01 : M.entry (planeFst p) (planeSnd p) = β * Real.sin φ
  m10 : M.entry (planeSnd p) (planeFst p) = -γ * Real.sin φ
  m11 : M.entry (planeSnd p) (planeSnd p) = Real.cos φ - α * Real.sin φ

/-- only the coordinates of the plane count if nothing else is displaced -/
theorem image_plane {p : Fin 3} {M v vin : Mat ℝ} {h c : Core ℝ} (hi : Image M v vin h c) (d1 d2 : ℝ)
    (h1 : h.d (psVar (planeFst p)) = vin.entry 0 (planeFst p) + d1)
    (h2 : h.d (psVar (planeSnd p)) = vin.entry 0 (planeSnd p) + d2)
    (h3 : ∀ i : Fin 6, i ≠ planeFst p → i ≠ planeSnd p → h.d (psVar i) = vin.entry 0 i) (i : Fin 6) :
    c.d (psVar i) = M.entry i (planeFst p) * d1 + M.entry i (planeSnd p) * d2 + v.entry 0 i := by
  rw [hi.vec i, Fin.sum_univ_six]
  have z : ∀ j : Fin 6, j ≠ planeFst p → j ≠ planeSnd p →
      M.entry i j * (h.d (psVar j) - vin.entry 0 j) = 0 := by
    intro j a b; rw [h3 j a b]; ring
  have e1 : M.entry i (planeFst p) * (h.d (psVar (planeFst p)) - vin.entry 0 (planeFst p)) =
      M.entry i (planeFst p) * d1 := by rw [h1]; ring
  have e2 : M.entry i (planeSnd p) * (h.d (psVar (planeSnd p)) - vin.entry 0 (planeSnd p)) =
      M.entry i (planeSnd p) * d2 := by rw [h2]; ring
  fin_cases p
  · rw [z 2 (by decide) (by decide), z 3 (by decide) (by decide), z 4 (by decide) (by decide),
      z 5 (by decide) (by decide)]
    simp only [planeFst, planeSnd] at e1 e2 ⊢
    linear_combination e1 + e2
  · rw [z 0 (by decide) (by decide), z 1 (by decide) (by decide), z 4 (by decide) (by decide),
      z 5 (by decide) (by decide)]
    simp only [planeFst, planeSnd] at e1 e2 ⊢
    linear_combination e1 + e2
  · rw [z 0 (by decide) (by decide), z 1 (by decide) (by decide), z 2 (by decide) (by decide),
      z 3 (by decide) (by decide)]
    simp only [planeFst, planeSnd] at e1 e2 ⊢
    linear_combination e1 + e2

theorem plane_reads (E : Ext ℝ) (p : Fin 3) (s : HS ℝ) :
    (∀ a, Reads E s (planeNames p).1 a ↔ s.core.d (psVar (planeFst p)) = a) ∧
    (∀ a, Reads E s (planeNames p).2 a ↔ s.core.d (psVar (planeSnd p)) = a) := by
  have aux : ∀ x a : ℝ, (Except.ok (Val.flt x) : Except Err (Val ℝ)) = .ok (.flt a) ↔ x = a := by
    intro x a
    constructor
    · intro h; injection h with h; injection h
    · rintro rfl; rfl
  fin_cases p <;> exact ⟨fun a => aux _ a, fun a => aux _ a⟩

/-- the coordinates outside the plane -/
theorem plane_rest {E : Ext ℝ} {p : Fin 3} {s h : HS ℝ}
    (hs : SameExcept E [(planeNames p).1, (planeNames p).2] s h) (i : Fin 6) (h1 : i ≠ planeFst p)
    (h2 : i ≠ planeSnd p) : h.core.d (psVar i) = s.core.d (psVar i) := by
  have hn : ∀ (n : String) (v : DVar), n ∈ hitVariables → n ∉ [(planeNames p).1, (planeNames p).2] →
      (∀ s' : HS ℝ, (Hit.get E n s').1 = .ok (.flt (s'.core.d v))) → h.core.d v = s.core.d v := by
    intro n v h1 h2 h3
    have := hs n h1 h2
    rw [h3, h3] at this
    injection this with this
    injection this
  fin_cases p <;> fin_cases i <;> first
    | exact absurd rfl h1
    | exact absurd rfl h2
    | exact hn "x" .x (by decide) (by decide) fun _ => rfl
    | exact hn "px" .px (by decide) (by decide) fun _ => rfl
    | exact hn "y" .y (by decide) (by decide) fun _ => rfl
    | exact hn "py" .py (by decide) (by decide) fun _ => rfl
    | exact hn "t" .t (by decide) (by decide) fun _ => rfl
    | exact hn "energy" .energy (by decide) (by decide) fun _ => rfl

end RunTracking
open TuneExact

/-- C91_tune: run_tracking with a MatrixTracking that gives the particle after 0, 1, ..., N - 1 turns,
then get_tune on a tune finder without earlier data.  In the plane of x, of y or of t the matrices
have Courant-Snyder form with phase advance m/N of a turn (not a whole or half turn) per turn; the
reference particle is on the closed orbit.  Then the tune is m/N modulo 1, whatever the
Courant-Snyder parameters, the closed orbit, the other elements of the matrices and the displacement
(of amplitude below 1e9). -/
theorem C91_tune {L : LinAlg ℝ} (hL : L.Lawful) {chol : Mat ℝ → Option (Mat ℝ)} (hch : CholLaw chol)
    (p : Fin 3) (N : ℕ) (hN : 0 < N) (m : ℤ) (hm : ¬ (N : ℤ) ∣ 2 * m)
    (α β γ : ℝ) (hCS : β * γ = 1 + α ^ 2) (hβ : 0 < β) (d1 d2 : ℝ) (hne : d1 ≠ 0 ∨ d2 ≠ 0)
    (hcut : amplitude α β γ d1 d2 < 1000000000)
    (s : St ℝ (Tracking.MatrixTracking ℝ) (Tune.State ℝ)) (hr : s.ref.core.InRange) (hwf : s.ref.wc.WF)
    (hnew : s.finder.dphi = [])
    (htl : s.tracking.tms.length = N - 1) (hol : s.tracking.offsets.length = N - 1)
    (horb : ∀ v ∈ s.tracking.offsets, ∀ i : Fin 6, v.entry 0 i = s.tracking.offsetIn.entry 0 i)
    (hturn : ∀ j (hj : j < s.tracking.tms.length),
      Turns p (((j + 1 : ℕ) : ℝ) * (2 * Real.pi * m / N)) α β γ s.tracking.tms[j])
    (href : ∀ i : Fin 6, s.ref.core.d (psVar i) = s.tracking.offsetIn.entry 0 i) :
    ∃ s1, dphiRun realExt (Tracking.trackOne realExt) (planeNames p).1 (planeNames p).2 d1 d2 none s =
        (.ok (), s1) ∧
      (Tune.getTune L realExt Real.pi chol s1.finder).1 = .ok (some (Int.fract (m / N : ℝ))) := by
  set μ : ℝ := 2 * Real.pi * m / N with hμ
  have hpl : (planeNames p).1 ∈ plainNames ∧ (planeNames p).2 ∈ plainNames ∧
      (planeNames p).1 ≠ (planeNames p).2 := by
    fin_cases p <;> decide
  obtain ⟨h, g1, gw, _, g3⟩ := C91_dphi realExt (Tracking.trackOne realExt) _ _ hpl.1 hpl.2.1 hpl.2.2 d1 d2
    none s hr hwf
  -- the displaced particle
  have e1 : h.core.d (psVar (planeFst p)) = s.tracking.offsetIn.entry 0 (planeFst p) + d1 := by
    have := g1.moved ((planeNames p).1, d1) (by simp) _ (((plane_reads realExt p s.ref).1 _).mpr rfl)
    rw [← href]
    exact ((plane_reads realExt p h).1 _).mp this
  have e2 : h.core.d (psVar (planeSnd p)) = s.tracking.offsetIn.entry 0 (planeSnd p) + d2 := by
    have := g1.moved ((planeNames p).2, d2) (by simp) _ (((plane_reads realExt p s.ref).2 _).mpr rfl)
    rw [← href]
    exact ((plane_reads realExt p h).2 _).mp this
  have e3 : ∀ i : Fin 6, i ≠ planeFst p → i ≠ planeSnd p →
      h.core.d (psVar i) = s.tracking.offsetIn.entry 0 i := by
    intro i a b
    rw [← href]
    exact plane_rest g1.rest i a b
  -- the hits that the tracking returns
  obtain ⟨out, s', t1, ⟨cs, hout, himg⟩, t2, _⟩ := C48_track_one realExt_lawful s.tracking
    (by rw [htl, hol]) h (by rw [Core.InRange, g1.ints]; exact hr) gw
  obtain ⟨out', u, up, hp, hu, hup, hrun⟩ := g3 out _ s' t1
  rw [picked_none] at hp
  subst hp
  subst hout
  refine ⟨_, hrun, ?_⟩
  have hlen : (h.core :: cs).length = N := by rw [t2, htl]; omega
  have hcs : ∀ j (hj : j < cs.length) (hk : j < s.tracking.tms.length) (i : Fin 6),
      cs[j].d (psVar i) = s.tracking.tms[j].entry i (planeFst p) * d1 +
        s.tracking.tms[j].entry i (planeSnd p) * d2 + s.tracking.offsetIn.entry 0 i := by
    intro j hj hk i
    have hj2 : j < (s.tracking.tms.zip s.tracking.offsets).length := by
      rw [himg.length_eq]; exact hj
    have := List.forall₂_iff_get.mp himg |>.2 j hj2 hj
    simp only [List.get_eq_getElem, List.getElem_zip] at this
    rw [image_plane this d1 d2 e1 e2 e3 i]
    rw [horb _ (List.getElem_mem _) i]
  -- the data
  have hdata : ∀ (n : String) (q : Fin 6) (vals : List ℝ) (a b : ℝ),
      Values realExt s'.wc n (h.core :: cs) vals →
      (∀ c a, Reads realExt ⟨c, s'.wc⟩ n a ↔ c.d (psVar q) = a) →
      h.core.d (psVar q) = s.tracking.offsetIn.entry 0 q + a →
      (∀ j (hj : j < s.tracking.tms.length), s.tracking.tms[j].entry q (planeFst p) * d1 +
        s.tracking.tms[j].entry q (planeSnd p) * d2 =
        a * Real.cos (((j + 1 : ℕ) : ℝ) * μ) + b * -Real.sin (((j + 1 : ℕ) : ℝ) * μ)) →
      vals = (List.range N).map (ptX (s.tracking.offsetIn.entry 0 q) a b
        (fun j => Real.cos (0 + j * μ)) (fun j => -Real.sin (0 + j * μ))) := by
    intro n q vals a b hv hrd h0 hj
    have hl := hv.length_eq
    apply List.ext_getElem
    · rw [List.length_map, List.length_range, ← hl, hlen]
    · intro i h1 h2
      have h3 := (List.forall₂_iff_get.mp hv).2 i (by omega) h1
      simp only [List.get_eq_getElem] at h3
      rw [hrd] at h3
      rw [← h3, List.getElem_map, List.getElem_range, ptX]
      match i with
      | 0 => rw [List.getElem_cons_zero, h0]; simp
      | i + 1 =>
        have hi : i < cs.length := by simp at hl hlen; omega
        rw [List.getElem_cons_succ, hcs i hi (by simp at hlen; omega) q]
        have := hj i (by simp at hlen; omega)
        rw [zero_add]
        linear_combination this
  have hu' := hdata _ (planeFst p) u d1 (-(α * d1 + β * d2)) hu
    (fun c a => (plane_reads realExt p ⟨c, s'.wc⟩).1 a) e1 (by
      intro j hj
      rw [(hturn j hj).m00, (hturn j hj).m01]; ring)
  have hup' := hdata _ (planeSnd p) up d2 (γ * d1 + α * d2) hup
    (fun c a => (plane_reads realExt p ⟨c, s'.wc⟩).2 a) e2 (by
      intro j hj
      rw [(hturn j hj).m10, (hturn j hj).m11]; ring)
  have hW : d1 * (γ * d1 + α * d2) - -(α * d1 + β * d2) * d2 = amplitude α β γ d1 d2 := by
    rw [amplitude]; ring
  obtain ⟨s2, q1, q2⟩ := tune_affine hL hch N hN m hm 0 (s.tracking.offsetIn.entry 0 (planeFst p))
    (s.tracking.offsetIn.entry 0 (planeSnd p)) d1 (-(α * d1 + β * d2)) d2 (γ * d1 + α * d2)
    (by rw [hW]; exact amplitude_pos hCS hβ hne) (by rw [hW]; exact hcut)
    { s.finder with u := some u, up := some up } (by rw [hu']) (by rw [hup'])
  rw [q1, q2]
  simp only [hnew, List.nil_append]
  rw [average_replicate]
  have : N ≠ 1 := by rintro rfl; exact hm (one_dvd _)
  omega

/-- the hypotheses of C91_tune hold: a ring of a third of a turn in the plane of y, with alpha = 1,
beta = 2, gamma = 1, and a reference particle with y = 7, displaced by 1/2 in y -/
noncomputable def exTurn (φ : ℝ) : Mat ℝ := ⟨6, 6, fun i j =>
  if i = 2 ∧ j = 2 then Real.cos φ + 1 * Real.sin φ else if i = 2 ∧ j = 3 then 2 * Real.sin φ
  else if i = 3 ∧ j = 2 then -1 * Real.sin φ else if i = 3 ∧ j = 3 then Real.cos φ - 1 * Real.sin φ
  else if i = j then 1 else 4⟩
/-- its closed orbit -/
noncomputable def exOrbit : Mat ℝ := ⟨1, 6, fun _ j => if j = 2 then 7 else 0⟩

noncomputable def exRing : St ℝ (Tracking.MatrixTracking ℝ) (Tune.State ℝ) :=
  ⟨Tune.new none none,
   ⟨[exTurn (((0 + 1 : ℕ) : ℝ) * (2 * Real.pi * (1 : ℤ) / (3 : ℕ))),
     exTurn (((1 + 1 : ℕ) : ℝ) * (2 * Real.pi * (1 : ℤ) / (3 : ℕ)))], [exOrbit, exOrbit], exOrbit, []⟩,
   ⟨Core.new.setD .y 7, WC.new⟩⟩

example : ∃ s1, dphiRun realExt (Tracking.trackOne realExt) "y" "py" (1 / 2) 0 none exRing =
        (.ok (), s1) ∧
      (Tune.getTune realLin realExt Real.pi realChol s1.finder).1 = .ok (some (1 / 3)) := by
  have hf : Int.fract (((1 : ℤ) : ℝ) / ((3 : ℕ) : ℝ)) = 1 / 3 := by
    rw [Int.fract_eq_self.mpr ⟨by norm_num, by norm_num⟩]; norm_num
  rw [← hf]
  refine C91_tune realLin_lawful realChol_law 1 3 (by norm_num) 1 (by decide) 1 2 1 (by norm_num)
    (by norm_num) (1 / 2) 0 (Or.inl (by norm_num)) (by rw [amplitude]; norm_num) exRing
    (by intro v; cases v <;> decide) WC.WF.new rfl rfl rfl ?_ ?_ ?_
  · intro v hv i
    simp only [exRing, List.mem_cons, List.not_mem_nil, or_false, or_self] at hv
    rw [hv]; rfl
  · intro j hj
    have hj' : j = 0 ∨ j = 1 := by
      have : j < 2 := hj
      omega
    rcases hj' with rfl | rfl
    · exact ⟨rfl, rfl, rfl, rfl⟩
    · exact ⟨rfl, rfl, rfl, rfl⟩
  · intro i
    fin_cases i <;> simp [exRing, exOrbit, psVar, Core.new]

/-- the hypotheses of C91_dphi, C91_fft_partial, C91_fft_false and C91_shell_false hold -/
example : ∃ h : HS ℚ, Displaced ratExt [("x", 3), ("px", 1)] ⟨Core.new.setD .x 2, WC.new⟩ h := by
  obtain ⟨h, h1, _⟩ := C91_dphi ratExt recorder "x" "px" (by decide) (by decide) (by decide) 3 1
    (some [0, 2]) ⟨Tune.new none none, [], ⟨Core.new.setD .x 2, WC.new⟩⟩ (by intro v; cases v <;> decide)
    WC.WF.new
  exact ⟨h, h1⟩

/-- case for C91_fft_partial and C91_fft_false: with a tracking that returns the hit twice -/
def exTwice : TrackOne ℚ Unit := fun t h => (.ok [h.core, h.core], t, h)

/-- in x the data are the two positions and momenta -/
example : (fftRun ratExt exTwice "x" 3 (some [1]) ⟨FFTTune.new none none false, (),
    ⟨(Core.new.setD .x 2).setD .px 5, WC.new⟩⟩).2.finder.u = some [5] ∧
    (fftRun ratExt exTwice "x" 3 (some [1]) ⟨FFTTune.new none none false, (),
    ⟨(Core.new.setD .x 2).setD .px 5, WC.new⟩⟩).2.finder.up = some [5] := by decide +kernel

/-- in px the call fails half way: new values of `u`, old values of `up` -/
example : (fftRun ratExt exTwice "px" 3 none ⟨FFTTune.new (some [1]) (some [1]) false, (),
    ⟨(Core.new.setD .x 2).setD .px 5, WC.new⟩⟩).1 = .error .IndexError ∧
    (fftRun ratExt exTwice "px" 3 none ⟨FFTTune.new (some [1]) (some [1]) false, (),
    ⟨(Core.new.setD .x 2).setD .px 5, WC.new⟩⟩).2.finder.u = some [8, 8] ∧
    (fftRun ratExt exTwice "px" 3 none ⟨FFTTune.new (some [1]) (some [1]) false, (),
    ⟨(Core.new.setD .x 2).setD .px 5, WC.new⟩⟩).2.finder.up = some [1] := by decide +kernel

/-- case for C91_shell_false: mass 4, pz = 3, energy 5 -/
example : ∃ h : HS ℚ, ¬ h.OnShell ∧ (dphiRun ratExt recorder "x" "px" 0 2 none ⟨Tune.new none none, [],
    ⟨((Core.new.setD .mass 4).setD .pz 3).setD .energy 5, WC.new⟩⟩).2.tracking = [] ++ [h] :=
  C91_shell_false ratExt 2 _ (by intro v; cases v <;> decide) WC.WF.new
    (by simp [HS.OnShell, Core.new]; norm_num) (by norm_num) (by simp [Core.new])

end Xboa
