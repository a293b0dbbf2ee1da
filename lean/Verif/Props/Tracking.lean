import Verif.Model.Tracking
import Verif.Props.HitTransform
import Verif.Props.HitCopy
import Mathlib.Algebra.BigOperators.Fin
/-
C48 (MatrixTracking), C49 (MultiTrack).
-/
set_option linter.unusedSectionVars false
namespace Xboa
variable {K : Type} [Field K] [LinearOrder K] [IsStrictOrderedRing K]

/-! ### C48 -/

/-- the phase space variables, in the order of the vectors -/
def psVar : Fin 6 → DVar
  | 0 => .x | 1 => .px | 2 => .y | 3 => .py | 4 => .t | 5 => .energy

/-- `c` is the image of the hit `h` under u = M (u_in - v_in) + v, with pz on the mass shell if
possible and 0 otherwise; all other stored variables are those of `h` -/
structure Image (M v vin : Mat K) (h c : Core K) : Prop where
  vec : ∀ i : Fin 6, c.d (psVar i) =
    (∑ j : Fin 6, M.entry i j * (h.d (psVar j) - vin.entry 0 j)) + v.entry 0 i
  other : ∀ w, w ≠ .pz → (∀ i, w ≠ psVar i) → c.d w = h.d w
  ints : c.i = h.i
  pz_nonneg : 0 ≤ c.d .pz
  shell : 1 / 1000000 < c.d .energy ^ 2 - c.d .mass ^ 2 - c.d .px ^ 2 - c.d .py ^ 2 →
    c.d .energy ^ 2 = c.d .px ^ 2 + c.d .py ^ 2 + c.d .pz ^ 2 + c.d .mass ^ 2
  off : c.d .energy ^ 2 - c.d .mass ^ 2 - c.d .px ^ 2 - c.d .py ^ 2 ≤ 1 / 1000000 → c.d .pz = 0

/-- the weight context after copying a hit -/
def afterCopy (s : HS K) : WC K := s.wc.setWeight ⟨0, 0, 0⟩ s.globalWeight

theorem trackStep_spec {E : Ext K} (hE : E.Lawful) (M v vin : Mat K) (s : HS K)
    (hr : s.core.InRange) :
    ∃ c, Tracking.trackStep E M v vin s = (.ok c, ⟨s.core, afterCopy s⟩) ∧
      Image M v vin s.core c := by
  have hv : Hit.get_vector E Tracking.keys [] s = (.ok [s.core.d .x, s.core.d .px, s.core.d .y,
      s.core.d .py, s.core.d .t, s.core.d .energy], s) := by
    have := get_vector_dbl E s (fun n => if n = "x" then s.core.d .x else if n = "px" then s.core.d .px
      else if n = "y" then s.core.d .y else if n = "py" then s.core.d .py else if n = "t" then
      s.core.d .t else s.core.d .energy) Tracking.keys (by
        intro n hn
        simp only [Tracking.keys, List.mem_cons, List.not_mem_nil, or_false] at hn
        rcases hn with rfl | rfl | rfl | rfl | rfl | rfl <;> exact ⟨by decide, rfl⟩)
    rw [this]
    rfl
  unfold Tracking.trackStep
  rw [hv]
  simp only [Hit.deepcopy_eq E s hr]
  simp only [Tracking.keys, Tracking.assign, PyM.bind_apply, Hit.set_x, Hit.set_px, Hit.set_y,
    Hit.set_py, Hit.set_t, Hit.set_energy, PyM.pure_apply]
  rw [Hit.shell_pz]
  set vout := (fun i => (∑ j ∈ Finset.range 6, M.entry i j * (([s.core.d .x, s.core.d .px,
    s.core.d .y, s.core.d .py, s.core.d .t, s.core.d .energy] : List K).getD j 0 - vin.entry 0 j)) +
    v.entry 0 i) with hvout
  have hvo : ∀ i : Fin 6, vout i =
      (∑ j : Fin 6, M.entry i j * (s.core.d (psVar j) - vin.entry 0 j)) + v.entry 0 i := by
    intro i
    rw [hvout]
    simp only [Finset.sum_range, Fin.sum_univ_six]
    rfl
  set b := (((((s.core.setD .x (vout 0)).setD .px (vout (0 + 1))).setD .y (vout (0 + 1 + 1))).setD .py
    (vout (0 + 1 + 1 + 1))).setD .t (vout (0 + 1 + 1 + 1 + 1))).setD .energy
    (vout (0 + 1 + 1 + 1 + 1 + 1)) with hb
  have hvec : ∀ i : Fin 6, b.d (psVar i) = vout i := by
    intro i
    fin_cases i <;> simp [hb, psVar]
  have hoth : ∀ w, w ≠ .pz → (∀ i, w ≠ psVar i) → b.d w = s.core.d w := by
    intro w _ hw
    have := hw 0; have := hw 1; have := hw 2; have := hw 3; have := hw 4; have := hw 5
    simp only [psVar] at *
    simp [hb, *]
  have hints : b.i = s.core.i := by simp [hb]
  have hne : ∀ i, psVar i ≠ .pz := by intro i; fin_cases i <;> simp [psVar]
  have hfin : ∀ a : K, 0 ≤ a →
      (1 / 1000000 < b.d .energy ^ 2 - b.d .mass ^ 2 - b.d .px ^ 2 - b.d .py ^ 2 → a ^ 2 =
        b.d .energy ^ 2 - b.d .mass ^ 2 - b.d .px ^ 2 - b.d .py ^ 2) →
      (b.d .energy ^ 2 - b.d .mass ^ 2 - b.d .px ^ 2 - b.d .py ^ 2 ≤ 1 / 1000000 → a = 0) →
      Image M v vin s.core (b.setD .pz a) := by
    intro a ha h1 h2
    refine ⟨fun i => ?_, fun w hw hwi => ?_, ?_, ?_, ?_, ?_⟩
    · rw [Core.setD_d, if_neg (hne i), hvec, hvo]
    · rw [Core.setD_d, if_neg hw, hoth w hw hwi]
    · simpa using hints
    · simpa using ha
    · simp only [Core.setD_d, reduceCtorEq, if_false, if_true]
      intro h; rw [h1 h]; ring
    · simp only [Core.setD_d, reduceCtorEq, if_false, if_true]
      exact h2
  have hsq : b.d .energy * b.d .energy - b.d .mass * b.d .mass - b.d .px * b.d .px -
      b.d .py * b.d .py = b.d .energy ^ 2 - b.d .mass ^ 2 - b.d .px ^ 2 - b.d .py ^ 2 := by ring
  by_cases hval : b.d .energy * b.d .energy - b.d .mass * b.d .mass - b.d .px * b.d .px -
      b.d .py * b.d .py > Hit.shellTol
  · rw [if_pos hval]
    refine ⟨_, rfl, hfin _ ?_ ?_ ?_⟩
    · have hpos := lt_trans Hit.shellTol_pos hval
      exact div_nonneg (mul_nonneg (abs_nonneg _) (hE.sqrt_nonneg _ (abs_nonneg _))) hpos.le
    · intro _
      rw [Hit.pow15Over_sq hE (lt_trans Hit.shellTol_pos hval), hsq]
    · intro h
      rw [hsq] at hval
      exact absurd hval (not_lt.mpr h)
  · rw [if_neg hval]
    refine ⟨_, rfl, hfin _ le_rfl ?_ fun _ => rfl⟩
    intro h
    rw [hsq] at hval
    exact absurd h hval

/-- reads of hit `h` do not see the difference between the contexts -/
def SameReads (E : Ext K) (h : Core K) (wc wc' : WC K) : Prop :=
  ∀ n ∈ hitVariables, (Hit.get E n ⟨h, wc'⟩).1 = (Hit.get E n ⟨h, wc⟩).1

theorem afterCopy_spec (E : Ext K) (s : HS K) (hr : s.core.InRange) (hwf : s.wc.WF) :
    (afterCopy s).WF ∧ SameReads E s.core s.wc (afterCopy s) := by
  refine ⟨hwf.setWeight _ _, ?_⟩
  obtain ⟨s', h1, h2, h3⟩ := C10_copy_equal E s hr hwf
  rw [Hit.deepcopy_eq E s hr] at h1
  have : s' = ⟨s.core, afterCopy s⟩ := (congrArg Prod.snd h1).symm
  rw [this] at h3
  exact h3

theorem trackLoop_spec {E : Ext K} (hE : E.Lawful) (vin : Mat K) (h : Core K) (hr : h.InRange) :
    ∀ (tms offs : List (Mat K)) (_ : tms.length = offs.length) (wc : WC K) (_ : wc.WF),
      ∃ cs wc', Tracking.trackLoop E vin tms offs ⟨h, wc⟩ = (.ok cs, ⟨h, wc'⟩) ∧ wc'.WF ∧
        SameReads E h wc wc' ∧
        List.Forall₂ (fun p c => Image p.1 p.2 vin h c) (tms.zip offs) cs
  | [], [], _, wc, hwf => ⟨[], wc, rfl, hwf, fun _ _ => rfl, .nil⟩
  | M :: tms, v :: offs, hl, wc, hwf => by
    obtain ⟨c, h1, h2⟩ := trackStep_spec hE M v vin ⟨h, wc⟩ hr
    obtain ⟨w1, w2⟩ := afterCopy_spec E ⟨h, wc⟩ hr hwf
    obtain ⟨cs, wc', g1, g2, g3, g4⟩ := trackLoop_spec hE vin h hr tms offs (by simpa using hl)
      (afterCopy ⟨h, wc⟩) w1
    refine ⟨c :: cs, wc', ?_, g2, fun n hn => (g3 n hn).trans (w2 n hn), .cons h2 g4⟩
    simp only [Tracking.trackLoop, PyM.bind_apply, h1]
    rw [g1]
    rfl

/-- what track_one has to return for the hit `h`: a copy of it, then its image for each matrix -/
def Tracked (T : Tracking.MatrixTracking K) (h : Core K) (out : List (Core K)) : Prop :=
  ∃ cs, out = h :: cs ∧
    List.Forall₂ (fun p c => Image p.1 p.2 T.offsetIn h c) (T.tms.zip T.offsets) cs

/-- C48, track_one: the result is a copy of the input followed by one hit for each matrix, with
u = M_i (u_in - v_in) + v_i of the input hit; `last` is a list of this list; the matrices and all
readings of the input hit are unchanged. -/
theorem C48_track_one {E : Ext K} (hE : E.Lawful) (T : Tracking.MatrixTracking K)
    (hT : T.tms.length = T.offsets.length) (s : HS K) (hr : s.core.InRange) (hwf : s.wc.WF) :
    ∃ out s', Tracking.trackOne E T s = (.ok out, { T with last := [out] }, s') ∧
      Tracked T s.core out ∧ out.length = T.tms.length + 1 ∧
      s'.core = s.core ∧ s'.wc.WF ∧ ∀ n ∈ hitVariables, (Hit.get E n s').1 = (Hit.get E n s).1 := by
  obtain ⟨w1, w2⟩ := afterCopy_spec E s hr hwf
  obtain ⟨cs, wc', g1, g2, g3, g4⟩ := trackLoop_spec hE T.offsetIn s.core hr T.tms T.offsets hT
    (afterCopy s) w1
  refine ⟨s.core :: cs, ⟨s.core, wc'⟩, ?_, ⟨cs, rfl, g4⟩, ?_, rfl, g2,
    fun n hn => (g3 n hn).trans (w2 n hn)⟩
  · unfold Tracking.trackOne
    rw [Hit.deepcopy_eq E s hr]
    simp only
    have g1' : Tracking.trackLoop E T.offsetIn T.tms T.offsets
      ⟨s.core, s.wc.setWeight ⟨0, 0, 0⟩ s.globalWeight⟩ = (.ok cs, ⟨s.core, wc'⟩) := g1
    rw [g1']
  · have := g4.length_eq
    simp only [List.length_zip, hT, min_self] at this
    simp [← this, hT]

theorem trackManyLoop_spec {E : Ext K} (hE : E.Lawful) :
    ∀ (hits : List (Core K)) (T : Tracking.MatrixTracking K)
      (_ : T.tms.length = T.offsets.length) (wc : WC K) (_ : wc.WF)
      (_ : ∀ h ∈ hits, h.InRange),
      ∃ outs l wc', Tracking.trackManyLoop E T wc hits = (.ok outs, { T with last := l }, wc') ∧
        List.Forall₂ (Tracked T) hits outs
  | [], T, _, wc, _, _ => ⟨[], T.last, wc, rfl, .nil⟩
  | h :: r, T, hT, wc, hwf, hr => by
    obtain ⟨out, s', h1, h2, _, h3, h4, _⟩ := C48_track_one hE T hT ⟨h, wc⟩ (hr h (by simp)) hwf
    obtain ⟨outs, l, wc', g1, g2⟩ := trackManyLoop_spec hE r { T with last := [out] } hT s'.wc h4
      (fun k hk => hr k (by simp [hk]))
    refine ⟨out :: outs, l, wc', ?_, .cons h2 g2⟩
    simp only [Tracking.trackManyLoop, h1, g1]

/-- C48, track_many: the result has one element for each input hit, in order, each being what
track_one returns for it; `last` is this list. -/
theorem C48_track_many {E : Ext K} (hE : E.Lawful) (T : Tracking.MatrixTracking K)
    (hT : T.tms.length = T.offsets.length) (wc : WC K) (hwf : wc.WF) (hits : List (Core K))
    (hr : ∀ h ∈ hits, h.InRange) :
    ∃ outs wc', Tracking.trackMany E T wc hits = (.ok outs, { T with last := outs }, wc') ∧
      List.Forall₂ (Tracked T) hits outs := by
  obtain ⟨outs, l, wc', h1, h2⟩ := trackManyLoop_spec hE hits T hT wc hwf hr
  exact ⟨outs, wc', by simp only [Tracking.trackMany, h1], h2⟩

theorem Image.unique {M v vin : Mat K} {h c c' : Core K} (a : Image M v vin h c)
    (b : Image M v vin h c') : c = c' := by
  have hv : ∀ i, c.d (psVar i) = c'.d (psVar i) := fun i => (a.vec i).trans (b.vec i).symm
  have hpz : ∀ w, w ≠ .pz → c.d w = c'.d w := by
    intro w hw
    by_cases hi : ∃ i, w = psVar i
    · obtain ⟨i, rfl⟩ := hi
      exact hv i
    · have hi' : ∀ i, w ≠ psVar i := fun i h => hi ⟨i, h⟩
      rw [a.other w hw hi', b.other w hw hi']
  have e := hpz .energy (by simp)
  have m := hpz .mass (by simp)
  have x := hpz .px (by simp)
  have y := hpz .py (by simp)
  have hz : c.d .pz = c'.d .pz := by
    by_cases h0 : 1 / 1000000 < c.d .energy ^ 2 - c.d .mass ^ 2 - c.d .px ^ 2 - c.d .py ^ 2
    · have h1 := a.shell h0
      rw [e, m, x, y] at h0
      have h2 := b.shell h0
      rw [e, m, x, y] at h1
      have hsq : c.d .pz ^ 2 = c'.d .pz ^ 2 := by linarith
      exact (sq_eq_sq₀ a.pz_nonneg b.pz_nonneg).mp hsq
    · have h0' := not_lt.mp h0
      rw [a.off h0']
      rw [e, m, x, y] at h0'
      rw [b.off h0']
  have hd : c.d = c'.d := by
    funext w
    by_cases hw : w = .pz
    · rw [hw, hz]
    · exact hpz w hw
  have hi : c.i = c'.i := by rw [a.ints, b.ints]
  cases c; cases c'
  simp_all

/-- C48: the output is determined by the matrices and the input hit alone, not by the weight context
or earlier calls. -/
theorem C48_determined (T : Tracking.MatrixTracking K) (h : Core K) (o o' : List (Core K))
    (ho : Tracked T h o) (ho' : Tracked T h o') : o = o' := by
  obtain ⟨cs, rfl, h1⟩ := ho
  obtain ⟨cs', rfl, h2⟩ := ho'
  congr 1
  generalize T.tms.zip T.offsets = ps at h1 h2
  induction h1 generalizing cs' with
  | nil => cases h2; rfl
  | cons ha _ ih =>
    cases h2 with
    | cons hb hr => rw [ha.unique hb, ih _ hr]

theorem checkAll_spec (rows cols : Nat) : ∀ l : List (Tracking.MatArg K),
    (∀ ms, Tracking.checkAll rows cols l = .ok ms ↔
      l = ms.map .mat ∧ ∀ M ∈ ms, M.rows = rows ∧ M.cols = cols) ∧
    (∀ e, Tracking.checkAll rows cols l = .error e → e = .TypeError)
  | [] => by
    refine ⟨fun ms => ?_, by simp [Tracking.checkAll]⟩
    cases ms <;> simp [Tracking.checkAll]
  | .other :: r => by
    refine ⟨fun ms => ?_, by simp [Tracking.checkAll, eq_comm]⟩
    cases ms <;> simp [Tracking.checkAll]
  | .mat M :: r => by
    obtain ⟨h1, h2⟩ := checkAll_spec rows cols r
    by_cases hs : M.rows ≠ rows ∨ M.cols ≠ cols
    · refine ⟨fun ms => ?_, by
        intro e he
        simp only [Tracking.checkAll, if_pos hs, Except.error.injEq] at he
        exact he.symm⟩
      simp only [Tracking.checkAll, if_pos hs, reduceCtorEq, false_iff]
      rintro ⟨h3, h4⟩
      cases ms with
      | nil => cases h3
      | cons N ns =>
        simp only [List.map_cons, List.cons.injEq, Tracking.MatArg.mat.injEq] at h3
        have := h4 N (by simp)
        rw [← h3.1] at this
        tauto
    · have hs' : M.rows = rows ∧ M.cols = cols := by tauto
      cases hc : Tracking.checkAll rows cols r with
      | error e =>
        refine ⟨fun ms => ?_, ?_⟩
        · simp only [Tracking.checkAll, if_neg hs, hc, reduceCtorEq, false_iff]
          rintro ⟨h3, h4⟩
          cases ms with
          | nil => cases h3
          | cons N ns =>
            simp only [List.map_cons, List.cons.injEq] at h3
            have := (h1 ns).mpr ⟨h3.2, fun M hM => h4 M (by simp [hM])⟩
            rw [hc] at this
            cases this
        · intro e' he
          simp only [Tracking.checkAll, if_neg hs, hc, Except.error.injEq] at he
          rw [← he]
          exact h2 e hc
      | ok l =>
        refine ⟨fun ms => ?_, by simp [Tracking.checkAll, hs', hc]⟩
        simp only [Tracking.checkAll, if_neg hs, hc, Except.ok.injEq]
        have hl := (h1 l).mp hc
        constructor
        · rintro rfl
          refine ⟨by rw [List.map_cons, ← hl.1], ?_⟩
          intro N hN
          rcases List.mem_cons.mp hN with rfl | hN
          · exact hs'
          · exact hl.2 N hN
        · rintro ⟨h3, h4⟩
          cases ms with
          | nil => cases h3
          | cons N ns =>
            simp only [List.map_cons, List.cons.injEq, Tracking.MatArg.mat.injEq] at h3
            have := (h1 ns).mpr ⟨h3.2, fun M hM => h4 M (by simp [hM])⟩
            rw [hc] at this
            injection this with this
            rw [h3.1, this]

/-- C48, construction: MatrixTracking is constructed exactly from as many 6 x 6 matrices as 1 x 6
offsets and a 1 x 6 input offset; IndexError is raised for different numbers, TypeError for other
types or shapes. -/
theorem C48_new (tms offs : List (Tracking.MatArg K)) (vin : Tracking.MatArg K) :
    (∀ T, Tracking.newMatrixTracking tms offs vin = .ok T →
      T.tms.length = T.offsets.length ∧ tms = T.tms.map .mat ∧ offs = T.offsets.map .mat ∧
      vin = .mat T.offsetIn ∧ T.last = []) ∧
    ((∃ T, Tracking.newMatrixTracking tms offs vin = .ok T) ↔
      offs.length = tms.length ∧
      (∀ a ∈ tms, ∃ M, a = .mat M ∧ M.rows = 6 ∧ M.cols = 6) ∧
      (∀ a ∈ offs ++ [vin], ∃ M, a = .mat M ∧ M.rows = 1 ∧ M.cols = 6)) ∧
    (Tracking.newMatrixTracking tms offs vin = .error .IndexError ↔ offs.length ≠ tms.length) ∧
    (∀ e, Tracking.newMatrixTracking tms offs vin = .error e → e = .IndexError ∨ e = .TypeError) := by
  have hmap : ∀ (rows cols : Nat) (l : List (Tracking.MatArg K)),
      (∃ ms, Tracking.checkAll rows cols l = .ok ms) ↔
      ∀ a ∈ l, ∃ M, a = .mat M ∧ M.rows = rows ∧ M.cols = cols := by
    intro rows cols l
    constructor
    · rintro ⟨ms, h⟩ a ha
      obtain ⟨h1, h2⟩ := ((checkAll_spec rows cols l).1 ms).mp h
      rw [h1] at ha
      obtain ⟨M, hM, rfl⟩ := List.mem_map.mp ha
      exact ⟨M, rfl, h2 M hM⟩
    · intro h
      induction l with
      | nil => exact ⟨[], rfl⟩
      | cons a r ih =>
        obtain ⟨M, rfl, h1, h2⟩ := h a (by simp)
        obtain ⟨ms, hm⟩ := ih (fun a ha => h a (by simp [ha]))
        exact ⟨M :: ms, by simp [Tracking.checkAll, h1, h2, hm]⟩
  unfold Tracking.newMatrixTracking
  by_cases hl : offs.length = tms.length
  swap
  · simp [hl]
  simp only [hl, ne_eq, not_true_eq_false, if_false, true_and, iff_false]
  cases h1 : Tracking.checkAll 1 6 (offs ++ [vin]) with
  | error e =>
    have he := (checkAll_spec 1 6 (offs ++ [vin])).2 e h1
    have hno := (hmap 1 6 (offs ++ [vin])).not.mp (by rintro ⟨ms, h⟩; rw [h1] at h; cases h)
    simp only [reduceCtorEq, false_implies, implies_true, exists_false, false_iff, true_and]
    refine ⟨fun h => hno h.2, by rw [he]; simp, ?_⟩
    rintro e' ⟨⟩
    exact Or.inr he
  | ok os =>
    obtain ⟨o1, o2⟩ := ((checkAll_spec 1 6 (offs ++ [vin])).1 os).mp h1
    have hyes := (hmap 1 6 (offs ++ [vin])).mp ⟨os, h1⟩
    cases h2 : Tracking.checkAll 6 6 tms with
    | error e =>
      have he := (checkAll_spec 6 6 tms).2 e h2
      have hno := (hmap 6 6 tms).not.mp (by rintro ⟨ms, h⟩; rw [h2] at h; cases h)
      simp only [reduceCtorEq, false_implies, implies_true, exists_false, false_iff, true_and]
      refine ⟨fun h => hno h.1, by rw [he]; simp, ?_⟩
      rintro e' ⟨⟩
      exact Or.inr he
    | ok ms =>
      obtain ⟨m1, m2⟩ := ((checkAll_spec 6 6 tms).1 ms).mp h2
      have hyes2 := (hmap 6 6 tms).mp ⟨ms, h2⟩
      obtain ⟨os', o, rfl⟩ : ∃ os' o, os = os' ++ [o] := by
        have hne : os ≠ [] := by rintro rfl; simp at o1
        exact ⟨os.dropLast, os.getLast hne, (List.dropLast_append_getLast hne).symm⟩
      rw [List.map_append, List.map_cons, List.map_nil] at o1
      obtain ⟨p1, p2⟩ := List.append_inj' o1 rfl
      simp only [reduceCtorEq, not_false_eq_true, false_implies, implies_true, and_true]
      refine ⟨?_, ⟨fun _ => ⟨hyes2, hyes⟩, fun _ => ⟨_, rfl⟩⟩⟩
      rintro T ⟨⟩
      simp only [List.dropLast_concat, List.getLastD_concat, and_true]
      refine ⟨?_, m1, p1, by simpa using p2⟩
      have e1 := congrArg List.length m1
      have e2 := congrArg List.length p1
      simp only [List.length_map] at e1 e2
      omega

/-- case for C48: drift like map of two hits -/
noncomputable def exMT : Tracking.MatrixTracking ℝ :=
  ⟨[⟨6, 6, fun i j => if i = j then 1 else if i = 0 ∧ j = 1 then 3 else 0⟩],
   [⟨1, 6, fun _ j => if j = 4 then 10 else 0⟩], ⟨1, 6, fun _ _ => 0⟩, []⟩

example : ∃ out s', Tracking.trackOne realExt exMT
      ⟨((Core.new.setD .px 2).setD .energy 5).setD .mass 1, WC.new⟩ =
      (.ok out, { exMT with last := [out] }, s') ∧ out.length = 2 := by
  obtain ⟨out, s', h1, _, h2, _⟩ := C48_track_one realExt_lawful exMT rfl
    ⟨((Core.new.setD .px 2).setD .energy 5).setD .mass 1, WC.new⟩
    (by intro v; cases v <;> decide) WC.WF.new
  exact ⟨out, s', h1, h2⟩

/-! ### C49 -/

/-- C49 is false for Python 3: whatever the hits, track_many_async of MultiTrack raises TypeError for
every number of processes >= 1 (a list slice with a float bound), ZeroDivisionError for 0, and for a
negative number starts no job, so that all hits are lost. -/
theorem C49_false {α : Type} (hits : List α) (n : Int) :
    (1 ≤ n → Tracking.trackManyJobs .py3 n hits = .error .TypeError) ∧
    (n = 0 → Tracking.trackManyJobs .py3 n hits = .error .ZeroDivisionError) ∧
    (n < 0 → Tracking.trackManyJobs .py3 n hits = .ok []) := by
  refine ⟨fun h => ?_, fun h => by simp [Tracking.trackManyJobs, Tracking.pyIntDiv, h], fun h => ?_⟩
  · obtain ⟨k, hk⟩ : ∃ k, n.toNat = k + 1 := ⟨n.toNat - 1, by omega⟩
    have h0 : n ≠ 0 := by omega
    simp only [Tracking.trackManyJobs, Tracking.pyIntDiv, h0, if_false, hk, Tracking.chunkLoop]
    have hx : Tracking.sliceTo hits (if (hits.length : Int).fmod n > 0 then
        Tracking.addOne (.flt (((hits.length : Int) : ℚ) / (n : ℚ)))
        else .flt (((hits.length : Int) : ℚ) / (n : ℚ))) = .error .TypeError := by
      split <;> simp [Tracking.sliceTo, Tracking.sliceBound, Tracking.addOne]
    rw [hx]
  · have h0 : n ≠ 0 := by omega
    have : n.toNat = 0 := by omega
    simp [Tracking.trackManyJobs, Tracking.pyIntDiv, h0, this, Tracking.chunkLoop]

/-- sizes of the chunks: `per + 1` for the first `rem` ones, then `per` -/
theorem chunkLoop_spec {α : Type} (per : Nat) : ∀ (n rem : Nat) (hits : List α), rem ≤ n →
    hits.length = n * per + rem →
    ∃ chunks, Tracking.chunkLoop (.int per) n rem hits = .ok chunks ∧ chunks.length = n ∧
      chunks.flatten = hits ∧ ∀ c ∈ chunks, c.length = per ∨ c.length = per + 1
  | 0, rem, hits, hr, hl => by
    have : hits = [] := List.eq_nil_of_length_eq_zero (by omega)
    exact ⟨[], rfl, rfl, by simp [this], by simp⟩
  | n + 1, rem, hits, hr, hl => by
    have hmul : (n + 1) * per = n * per + per := by ring
    by_cases h0 : 0 < rem
    · have hle : per + 1 ≤ hits.length := by
        have : 0 ≤ n * per := Nat.zero_le _
        omega
      obtain ⟨cs, h1, h2, h3, h4⟩ := chunkLoop_spec per n (rem - 1) (hits.drop (per + 1)) (by omega)
        (by rw [List.length_drop]; omega)
      refine ⟨hits.take (per + 1) :: cs, ?_, by simp [h2], by simp [h3], ?_⟩
      · have e : ((rem - 1 : Nat) : Int) = (rem : Int) - 1 := by omega
        rw [e] at h1
        have hneg : ¬ ((per : Int) + 1 < 0) := by omega
        have htn : ((per : Int) + 1).toNat = per + 1 := by omega
        have hpos : (rem : Int) > 0 := by omega
        simp only [Tracking.chunkLoop, if_pos hpos, Tracking.addOne, Tracking.sliceTo,
          Tracking.sliceFrom, Tracking.sliceBound, if_neg hneg, htn, min_eq_left hle, h1]
      · intro c hc
        rcases List.mem_cons.mp hc with rfl | hc
        · right; simp; omega
        · exact h4 c hc
    · have hr0 : rem = 0 := by omega
      subst hr0
      have hle : per ≤ hits.length := by
        have : 0 ≤ n * per := Nat.zero_le _
        omega
      obtain ⟨cs, h1, h2, h3, h4⟩ := chunkLoop_spec per n 0 (hits.drop per) (by omega)
        (by rw [List.length_drop]; omega)
      refine ⟨hits.take per :: cs, ?_, by simp [h2], by simp [h3], ?_⟩
      · have hneg : ¬ ((per : Int) < 0) := by omega
        have htn : ((per : Int)).toNat = per := by omega
        have hpos : ¬ (((0 : Nat) : Int) > 0) := by omega
        simp only [Tracking.chunkLoop, if_neg hpos, Tracking.sliceTo,
          Tracking.sliceFrom, Tracking.sliceBound, if_neg hneg, htn, min_eq_left hle, h1]
      · intro c hc
        rcases List.mem_cons.mp hc with rfl | hc
        · left; simp; omega
        · exact h4 c hc

/-- C49_partial, splitting: with the integer division of Python 2 every hit is given to exactly one
job, in order, and the jobs get as many hits as each other up to one.
Missing: Python 3, the version the package asks for (false there, see C49_false). -/
theorem C49_split_partial {α : Type} (hits : List α) (n : Nat) (hn : 1 ≤ n) :
    ∃ chunks, Tracking.trackManyJobs .py2 n hits = .ok chunks ∧ chunks.length = n ∧
      chunks.flatten = hits ∧
      ∀ c ∈ chunks, c.length = hits.length / n ∨ c.length = hits.length / n + 1 := by
  obtain ⟨cs, h1, h2⟩ := chunkLoop_spec (hits.length / n) n (hits.length % n) hits
    (Nat.mod_lt _ hn).le (by rw [Nat.div_add_mod])
  refine ⟨cs, ?_, h2⟩
  have h0 : (n : Int) ≠ 0 := by omega
  have hd : Int.fdiv (hits.length : Int) (n : Int) = ((hits.length / n : Nat) : Int) := by
    rw [Int.fdiv_eq_ediv_of_nonneg _ (by omega)]
    simp
  have hm : Int.fmod (hits.length : Int) (n : Int) = ((hits.length % n : Nat) : Int) := by
    rw [Int.fmod_eq_emod_of_nonneg _ (by omega)]
    simp
  simp only [Tracking.trackManyJobs, Tracking.pyIntDiv, h0, if_false, hd, hm, Int.toNat_natCast]
  exact h1

theorem pollRound_spec {β : Type} : ∀ (jobs : List (Tracking.Job β)) (clock : Nat),
    (Tracking.pollRound clock jobs).2 = clock + jobs.length ∧
    (∀ j ∈ (Tracking.pollRound clock jobs).1, j ∈ jobs) ∧
    ∀ j ∈ jobs, j ∉ (Tracking.pollRound clock jobs).1 → j.finish ≤ clock + jobs.length
  | [], clock => by simp [Tracking.pollRound]
  | j :: r, clock => by
    obtain ⟨h1, h2, h3⟩ := pollRound_spec r (clock + 1)
    unfold Tracking.pollRound
    simp only
    split
    · refine ⟨by simp only [List.length_cons]; omega, ?_, ?_⟩
      · intro k hk
        rcases List.mem_cons.mp hk with rfl | hk
        · simp
        · simp [h2 k hk]
      · intro k hk hk'
        simp only [List.mem_cons, not_or] at hk'
        rcases List.mem_cons.mp hk with rfl | hk
        · exact absurd rfl hk'.1
        · have := h3 k hk hk'.2
          simp only [List.length_cons]; omega
    · rename_i hj
      refine ⟨by simp only [List.length_cons]; omega, fun k hk => by simp [h2 k hk], ?_⟩
      intro k hk hk'
      simp only [List.length_cons]
      by_cases hkr : k ∈ r
      · have := h3 k hkr hk'; omega
      · rcases List.mem_cons.mp hk with rfl | hk
        · omega
        · exact absurd hk hkr

theorem pollRound_late {β : Type} : ∀ (jobs : List (Tracking.Job β)) (clock : Nat),
    (∀ j ∈ jobs, j.finish ≤ clock) → (Tracking.pollRound clock jobs).1 = []
  | [], _, _ => rfl
  | j :: r, clock, h => by
    have ih := pollRound_late r (clock + 1) (fun k hk => by
      have := h k (by simp [hk]); omega)
    have hj : ¬ clock < j.finish := by have := h j (by simp); omega
    simp only [Tracking.pollRound, if_neg hj, ih]

theorem poll_spec {β : Type} : ∀ (fuel clock t : Nat) (jobs : List (Tracking.Job β)),
    Tracking.poll fuel clock jobs = some t → clock ≤ t ∧ ∀ j ∈ jobs, j.finish ≤ t
  | _, clock, t, [], h => by
    cases ‹Nat› <;> simp only [Tracking.poll, Option.some.injEq] at h <;> simp [h]
  | 0, clock, t, j :: r, h => by simp [Tracking.poll] at h
  | fuel + 1, clock, t, j :: r, h => by
    simp only [Tracking.poll] at h
    obtain ⟨h1, h2⟩ := poll_spec fuel _ t _ h
    obtain ⟨g1, g2, g3⟩ := pollRound_spec (j :: r) clock
    rw [g1] at h1
    refine ⟨by omega, fun k hk => ?_⟩
    by_cases hk' : k ∈ (Tracking.pollRound clock (j :: r)).1
    · exact h2 k hk'
    · have := g3 k hk hk'; omega

theorem poll_terminates {β : Type} : ∀ (fuel clock : Nat) (jobs : List (Tracking.Job β)),
    (∀ j ∈ jobs, j.finish ≤ clock + fuel) → ∃ t, Tracking.poll (fuel + 1) clock jobs = some t
  | _, clock, [], _ => ⟨clock, rfl⟩
  | 0, clock, j :: r, h => by
    have := pollRound_late (j :: r) clock (fun k hk => by simpa using h k hk)
    exact ⟨_, by simp only [Tracking.poll, this]; rfl⟩
  | fuel + 1, clock, j :: r, h => by
    obtain ⟨g1, g2, _⟩ := pollRound_spec (j :: r) clock
    obtain ⟨t, ht⟩ := poll_terminates fuel (Tracking.pollRound clock (j :: r)).2
      (Tracking.pollRound clock (j :: r)).1 (fun k hk => by
        have := h k (g2 k hk)
        rw [g1]; simp only [List.length_cons]; omega)
    exact ⟨t, by rw [Tracking.poll]; exacts [ht, by simp]⟩

theorem getReturnValue_done {β : Type} : ∀ (jobs : List (Tracking.Job β)) (clock : Nat),
    (∀ j ∈ jobs, j.finish ≤ clock) →
    Tracking.getReturnValue clock jobs = jobs.flatMap (fun j => j.value.getD [])
  | [], _, _ => rfl
  | j :: r, clock, h => by
    have hj : ¬ clock < j.finish := by have := h j (by simp); omega
    simp only [Tracking.getReturnValue, if_neg hj, List.flatMap_cons]
    rw [getReturnValue_done r (clock + 1) (fun k hk => by have := h k (by simp [hk]); omega)]

/-- C49, order: whenever each job finishes, the polling loop of track_many ends, and then the
return values of the jobs are concatenated in the order of the jobs, whatever the finishing times. -/
theorem C49_order {β : Type} (jobs : List (Tracking.Job β)) :
    (∃ fuel t, Tracking.poll fuel 0 jobs = some t) ∧
    ∀ fuel t, Tracking.poll fuel 0 jobs = some t →
      Tracking.getReturnValue t jobs = jobs.flatMap (fun j => j.value.getD []) := by
  constructor
  · obtain ⟨m, hm⟩ : ∃ m, ∀ j ∈ jobs, j.finish ≤ m := by
      induction jobs with
      | nil => exact ⟨0, by simp⟩
      | cons j r ih =>
        obtain ⟨m, hm⟩ := ih
        refine ⟨max m j.finish, fun k hk => ?_⟩
        rcases List.mem_cons.mp hk with rfl | hk
        · exact le_max_right _ _
        · exact (hm k hk).trans (le_max_left _ _)
    obtain ⟨t, ht⟩ := poll_terminates m 0 jobs (by simpa using hm)
    exact ⟨m + 1, t, ht⟩
  · intro fuel t h
    exact getReturnValue_done jobs t (poll_spec fuel 0 t jobs h).2

/-- C49_partial, whole: with integer division, and jobs that return track_one's result for each of
their hits, the result has the results of the hits in the order of the hits. -/
theorem C49_partial {α β : Type} (hits : List α) (n : Nat) (hn : 1 ≤ n) (track : α → β)
    (finish : Nat → Nat) :
    ∃ chunks, Tracking.trackManyJobs .py2 n hits = .ok chunks ∧
      let jobs := chunks.zipIdx.map fun c => (⟨finish c.2, some (c.1.map track)⟩ : Tracking.Job β)
      ∃ fuel t, Tracking.poll fuel 0 jobs = some t ∧
        Tracking.getReturnValue t jobs = hits.map track := by
  obtain ⟨cs, h1, _, h3, _⟩ := C49_split_partial hits n hn
  refine ⟨cs, h1, ?_⟩
  obtain ⟨⟨fuel, t, h4⟩, h5⟩ := C49_order (cs.zipIdx.map fun c =>
    (⟨finish c.2, some (c.1.map track)⟩ : Tracking.Job β))
  refine ⟨fuel, t, h4, ?_⟩
  rw [h5 fuel t h4, List.flatMap_map, ← h3]
  simp only [Option.getD_some, List.map_flatten]
  rw [List.flatMap_def]
  congr 1
  have : (cs.zipIdx.map fun c => c.1.map track) = (cs.zipIdx.map Prod.fst).map (List.map track) := by
    rw [List.map_map]; rfl
  rw [this, List.zipIdx_map_fst]

/-- case for C49_partial: five hits, two jobs, the second finishing first -/
example : Tracking.trackManyJobs .py2 2 [10, 20, 30, 40, 50] = .ok [[10, 20, 30], [40, 50]] ∧
    Tracking.poll 9 0 [⟨7, some [1, 2, 3]⟩, ⟨2, some [4, 5]⟩] = some 8 ∧
    Tracking.getReturnValue 8 [⟨7, some [1, 2, 3]⟩, ⟨2, some [4, 5]⟩] = [1, 2, 3, 4, 5] := by
  decide +kernel

end Xboa
