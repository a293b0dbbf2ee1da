import Verif.Props.BunchMoments
import Verif.Props.IndexByPower
import Mathlib.Algebra.BigOperators.Ring.Finset
import Mathlib.Algebra.Order.BigOperators.Ring.Finset
/-
C21 (covariance matrix) and C22 (moment tensor).
-/
set_option linter.unusedSectionVars false
open Finset
namespace Xboa
variable {K : Type} [Field K] [LinearOrder K] [IsStrictOrderedRing K]

/-! ### C21: C++ core -/

theorem Bunchcore.covFold (gs : List DGet) (ms : List K) (W : K) (hs : List (HS K))
    (M : Nat → Nat → K) (j k : Nat) (hj : j < gs.length) (hk : k < gs.length) :
    hs.foldl (Bunchcore.covStep gs ms W) M j k = M j k + (hs.map (fun h =>
      h.userWeight / W * (((gs.getD j .total).eval h - ms.getD j 0) *
        ((gs.getD k .total).eval h - ms.getD k 0)))).sum := by
  induction hs generalizing M with
  | nil => simp
  | cons h t ih =>
    rw [List.foldl_cons, ih]
    simp only [Bunchcore.covStep, hj, hk, and_self, if_true, List.map_cons, List.sum_cons,
      HS.totalWeight_eq]
    ring

theorem Bunchcore.resolve_length {vars : List String} {gs : List DGet}
    (h : Bunchcore.resolve vars = some gs) : gs.length = vars.length :=
  (Bunchcore.resolve_forall h).length_eq.symm

theorem Bunchcore.resolve_get {vars : List String} {gs : List DGet}
    (h : Bunchcore.resolve vars = some gs) (j : Nat) (hj : j < vars.length) :
    getDblMap.lookup (vars.getD j "") = some (gs.getD j .total) := by
  have hf := Bunchcore.resolve_forall h
  have hj' : j < gs.length := by rw [Bunchcore.resolve_length h]; exact hj
  have := hf.get hj hj'
  simpa [List.getD_eq_getElem?_getD, hj, hj'] using this

/-- C21, C++ core: entry (j,k) of covariance_matrix is moment([axis_j, axis_k]) about the same
means. -/
theorem C21_core_entries (hs : List (HS K)) (axes : List String) (means : List (String × K))
    (M : Mat K) (h : Bunchcore.covarianceMatrix hs axes means = some (.fin M)) (j k : Nat)
    (hj : j < axes.length) (hk : k < axes.length) :
    Bunchcore.getMoment hs [axes.getD j "", axes.getD k ""] means = some (.fin (M.entry j k)) ∧
    M.rows = axes.length ∧ M.cols = axes.length := by
  unfold Bunchcore.covarianceMatrix at h
  cases hr : Bunchcore.resolve axes with
  | none => rw [hr] at h; cases h
  | some gs =>
    rw [hr] at h
    simp only at h
    by_cases hz : Bunchcore.bunchWeight hs = 0 ∧ hs ≠ []
    · rw [if_pos hz] at h; injection h with h; cases h
    · rw [if_neg hz] at h
      injection h with h; injection h with h
      subst h
      refine ⟨?_, rfl, rfl⟩
      have hl := Bunchcore.resolve_length hr
      have rj := Bunchcore.resolve_get hr j hj
      have rk := Bunchcore.resolve_get hr k hk
      have hr2 : Bunchcore.resolve [axes.getD j "", axes.getD k ""] =
          some [gs.getD j .total, gs.getD k .total] := by
        simp only [Bunchcore.resolve, rj, rk]
      have mj : ∀ i, i < axes.length → (Bunchcore.meanVec axes means).getD i 0 =
          (means.lookup (axes.getD i "")).getD 0 := by
        intro i hi
        simp [Bunchcore.meanVec, List.getD_eq_getElem?_getD, hi]
      unfold Bunchcore.getMoment
      rw [hr2]
      simp only
      rw [if_neg hz, foldl_add_eq_sum, Bunchcore.covFold _ _ _ _ _ _ _ (by omega) (by omega)]
      congr 3
      · apply congrArg
        apply List.map_congr_left
        intro h _
        rw [Bunchcore.hitTerm_eq, mj j hj, mj k hk]
        simp [Bunchcore.meanVec]

/-- C21, C++ core: the matrix is symmetric. -/
theorem C21_core_symmetric (hs : List (HS K)) (axes : List String) (means : List (String × K))
    (M : Mat K) (h : Bunchcore.covarianceMatrix hs axes means = some (.fin M)) (j k : Nat)
    (hj : j < axes.length) (hk : k < axes.length) : M.entry j k = M.entry k j := by
  unfold Bunchcore.covarianceMatrix at h
  cases hr : Bunchcore.resolve axes with
  | none => rw [hr] at h; cases h
  | some gs =>
    rw [hr] at h
    simp only at h
    by_cases hz : Bunchcore.bunchWeight hs = 0 ∧ hs ≠ []
    · rw [if_pos hz] at h; injection h with h; cases h
    · rw [if_neg hz] at h
      injection h with h; injection h with h
      subst h
      have hl := Bunchcore.resolve_length hr
      simp only
      rw [Bunchcore.covFold _ _ _ _ _ _ _ (by omega) (by omega),
        Bunchcore.covFold _ _ _ _ _ _ _ (by omega) (by omega)]
      congr 2
      apply List.map_congr_left
      intro h _
      ring

/-- weighted sums of squares -/
theorem quad_form_nonneg {ι : Type} (l : List ι) (wt : ι → K) (hw : ∀ i ∈ l, 0 ≤ wt i)
    (n : Nat) (f : Nat → ι → K) (v : Nat → K) :
    0 ≤ ∑ j ∈ range n, ∑ k ∈ range n, v j * ((l.map (fun i => wt i * (f j i * f k i))).sum) * v k := by
  induction l with
  | nil => simp
  | cons i t ih =>
    have h1 : ∑ j ∈ range n, ∑ k ∈ range n,
        v j * (((i :: t).map (fun i => wt i * (f j i * f k i))).sum) * v k =
        wt i * (∑ j ∈ range n, v j * f j i) ^ 2 + ∑ j ∈ range n, ∑ k ∈ range n,
        v j * ((t.map (fun i => wt i * (f j i * f k i))).sum) * v k := by
      rw [sq, Finset.sum_mul_sum, Finset.mul_sum, ← Finset.sum_add_distrib]
      apply Finset.sum_congr rfl
      intro j _
      rw [Finset.mul_sum, ← Finset.sum_add_distrib]
      apply Finset.sum_congr rfl
      intro k _
      simp only [List.map_cons, List.sum_cons]
      ring
    rw [h1]
    have := ih (fun a ha => hw a (by simp [ha]))
    have := hw i (by simp)
    positivity

/-- C21, C++ core: positive semidefinite for non-negative weights. -/
theorem C21_core_psd (hs : List (HS K)) (axes : List String) (means : List (String × K))
    (M : Mat K) (h : Bunchcore.covarianceMatrix hs axes means = some (.fin M))
    (hw : ∀ s ∈ hs, 0 ≤ s.userWeight) (v : Nat → K) :
    0 ≤ ∑ j ∈ range axes.length, ∑ k ∈ range axes.length, v j * M.entry j k * v k := by
  unfold Bunchcore.covarianceMatrix at h
  cases hr : Bunchcore.resolve axes with
  | none => rw [hr] at h; cases h
  | some gs =>
    rw [hr] at h
    simp only at h
    by_cases hz : Bunchcore.bunchWeight hs = 0 ∧ hs ≠ []
    · rw [if_pos hz] at h; injection h with h; cases h
    · rw [if_neg hz] at h
      injection h with h; injection h with h
      subst h
      have hl := Bunchcore.resolve_length hr
      have hW : 0 ≤ Bunchcore.bunchWeight hs := by
        rw [Bunchcore.bunchWeight_eq]
        apply List.sum_nonneg
        intro x hx
        obtain ⟨s, hs', rfl⟩ := List.mem_map.mp hx
        exact hw s hs'
      have := quad_form_nonneg hs (fun s => s.userWeight / Bunchcore.bunchWeight hs)
        (fun s h => div_nonneg (hw s h) hW) axes.length
        (fun j s => (gs.getD j .total).eval s - (Bunchcore.meanVec axes means).getD j 0) v
      refine le_of_le_of_eq this ?_
      apply Finset.sum_congr rfl
      intro j hj
      apply Finset.sum_congr rfl
      intro k hk
      rw [Finset.mem_range] at hj hk
      simp only
      rw [Bunchcore.covFold _ _ _ _ _ _ _ (by omega) (by omega), zero_add]

/-! ### C21: Bunch.covariance_matrix -/

theorem Bunch.mem_upperPairs (dim i j : Nat) :
    (i, j) ∈ Bunch.upperPairs dim ↔ i ≤ j ∧ j < dim := by
  simp only [Bunch.upperPairs, List.mem_flatMap, List.mem_range, List.mem_map, List.mem_range'_1,
    Prod.mk.injEq]
  constructor
  · rintro ⟨a, h1, b, h2, rfl, rfl⟩; omega
  · rintro ⟨h1, h2⟩; exact ⟨i, by omega, j, by omega, rfl, rfl⟩

theorem Bunch.covLoop_ok (E : Ext K) (w : BWorld K) (b : Bunch K) (vars : List String)
    (d : List (String × PyVal K)) (f : Nat → Nat → K) (hf : ∀ i j, f i j = f j i)
    (r : List (Nat × Nat)) (hr : ∀ p ∈ r,
      Bunch.moment E w b [vars.getD p.1 "", vars.getD p.2 ""] d = .ok (f p.1 p.2)) (m : Mat K) :
    ∃ m', Bunch.covLoop E w b vars d r m = .ok m' ∧ m'.rows = m.rows ∧ m'.cols = m.cols ∧
      ∀ a c, m'.entry a c = if (a, c) ∈ r ∨ (c, a) ∈ r then f a c else m.entry a c := by
  induction r generalizing m with
  | nil => exact ⟨m, rfl, rfl, rfl, by simp⟩
  | cons p r ih =>
    obtain ⟨i, j⟩ := p
    have h0 := hr (i, j) (by simp)
    simp only at h0
    rw [Bunch.covLoop, h0]
    simp only
    obtain ⟨m', h1, h2, h3, h4⟩ := ih (fun p hp => hr p (by simp [hp]))
      (Bunch.matSet (Bunch.matSet m i j (f i j)) j i (f i j))
    refine ⟨m', h1, h2, h3, ?_⟩
    intro a c
    rw [h4]
    by_cases hin : (a, c) ∈ r ∨ (c, a) ∈ r
    · rw [if_pos hin, if_pos]
      rcases hin with h | h
      · exact .inl (by simp [h])
      · exact .inr (by simp [h])
    · rw [if_neg hin]
      simp only [Bunch.matSet, List.mem_cons, Prod.mk.injEq]
      rw [not_or] at hin
      by_cases e1 : a = j ∧ c = i
      · obtain ⟨rfl, rfl⟩ := e1
        simp [hf a c]
      · by_cases e2 : a = i ∧ c = j
        · obtain ⟨rfl, rfl⟩ := e2
          simp [e1]
        · have e1' : ¬ (c = i ∧ a = j) := fun h => e1 ⟨h.2, h.1⟩
          simp [e1, e2, e1', hin.1, hin.2]

theorem wmoment_pair {ι : Type} (l : List ι) (wt : ι → K) (f g : ι → K) :
    wmoment l wt [f, g] = (l.map (fun i => wt i * (f i * g i))).sum / (l.map wt).sum := by
  simp [wmoment]

theorem Bunch.originLoop_ok (E : Ext K) (w : BWorld K) (b : Bunch K) (hb : b.Normal w)
    (hmeans : b.means = []) (hW : ¬ Bunch.weightTiny (Bunch.bunchWeight w b))
    (vals : String → Nat → K) (o : String → K) (vars : List String)
    (hv : ∀ i ∈ b.hits, ∀ v ∈ vars, Bunch.hitNum E w i v = .ok (vals v i)) :
    ∀ d : List (String × PyVal K),
      (∀ v ∈ vars, ∀ p, d.lookup v = some p → p.num? = some (o v)) →
      (∀ v ∈ vars, d.lookup v = none → o v = wmean b.hits w.weight (vals v)) →
      ∃ d', Bunch.originLoop E w b vars d = .ok d' ∧
        (∀ v, (v ∈ vars → ∃ p, d'.lookup v = some p ∧ p.num? = some (o v)) ∧
          (∀ p, d.lookup v = some p → d'.lookup v = some p)) := by
  induction vars with
  | nil => intro d _ _; exact ⟨d, rfl, fun v => ⟨by simp, fun p h => h⟩⟩
  | cons v r ih =>
    intro d h1 h2
    have ih' := ih (fun i hi u hu => hv i hi u (by simp [hu]))
    rw [Bunch.originLoop]
    cases hl : d.lookup v with
    | some p =>
      obtain ⟨d', e1, e2⟩ := ih' d (fun u hu => h1 u (by simp [hu])) (fun u hu => h2 u (by simp [hu]))
      refine ⟨d', e1, fun u => ⟨?_, (e2 u).2⟩⟩
      intro hu
      rcases List.mem_cons.mp hu with rfl | hu
      · exact ⟨p, (e2 u).2 p hl, h1 u (by simp) p hl⟩
      · exact (e2 u).1 hu
    | none =>
      obtain ⟨dm, m1, m2, m3⟩ := Bunch.meanLoop_ok E w b hb hmeans hW vals [v]
        (fun i hi u hu => hv i hi u (by simp at hu; simp [hu])) [] (by simp)
      rw [← Bunch.mean] at m1
      simp only [m1]
      have hmv : dm.lookup v = some (.flt (wmean b.hits w.weight (vals v))) := by
        cases hq : dm.lookup v with
        | none => exact absurd hq (m3 v (.inl (by simp)))
        | some q => rw [m2 v q hq]
      rw [hmv]
      simp only [Option.getD_some]
      have hov : o v = wmean b.hits w.weight (vals v) := h2 v (by simp) hl
      have look : ∀ u, (d ++ [(v, PyVal.flt (wmean b.hits w.weight (vals v)))]).lookup u =
          match d.lookup u with
          | some p => some p
          | none => if u = v then some (.flt (wmean b.hits w.weight (vals v))) else none := by
        intro u
        cases hu : d.lookup u with
        | some p => exact List.lookup_append_some _ _ _ _ hu
        | none => exact List.lookup_append_none _ _ _ _ hu
      obtain ⟨d', e1, e2⟩ := ih' (d ++ [(v, .flt (wmean b.hits w.weight (vals v)))]) (by
          intro u hu p hp
          rw [look] at hp
          cases hq : d.lookup u with
          | some q => rw [hq] at hp; cases hp; exact h1 u (by simp [hu]) _ hq
          | none =>
            rw [hq] at hp
            simp only at hp
            by_cases e : u = v
            · rw [if_pos e] at hp; cases hp; rw [e, hov]; rfl
            · rw [if_neg e] at hp; cases hp) (by
          intro u hu hq
          rw [look] at hq
          cases hq' : d.lookup u with
          | some q => rw [hq'] at hq; cases hq
          | none => exact h2 u (by simp [hu]) hq')
      refine ⟨d', e1, fun u => ⟨?_, ?_⟩⟩
      · intro hu
        rcases List.mem_cons.mp hu with rfl | hu
        · refine ⟨_, (e2 u).2 (.flt (wmean b.hits w.weight (vals u))) ?_, ?_⟩
          · rw [look, hl]; simp
          · rw [hov]; rfl
        · exact (e2 u).1 hu
      · intro p hp
        apply (e2 u).2
        rw [look, hp]

/-- C21: `bunch.covariance_matrix(vars, origin)` succeeds, and entry (i,j) is the weighted moment
of variables i and j about the given origin, or about the bunch mean for variables absent from
the origin dictionary. -/
theorem C21_bunch_entries (E : Ext K) (w : BWorld K) (b : Bunch K) (hb : b.Normal w)
    (hmeans : b.means = []) (hW : ¬ |(b.hits.map w.weight).sum| < 1 / 1000000000)
    (vars : List String) (origin : List (String × PyVal K)) (vals : String → Nat → K)
    (hv : ∀ i ∈ b.hits, ∀ v ∈ vars, Bunch.hitNum E w i v = .ok (vals v i))
    (hnum : ∀ v ∈ vars, ∀ p, origin.lookup v = some p → p.num? ≠ none) :
    ∃ M, Bunch.covarianceMatrix E w b vars origin = .ok M ∧ M.rows = vars.length ∧
      M.cols = vars.length ∧ ∀ i j, i < vars.length → j < vars.length →
        M.entry i j = wmoment b.hits w.weight
          [fun h => vals (vars.getD i "") h - DocumentedMean b w vals origin (vars.getD i ""),
           fun h => vals (vars.getD j "") h - DocumentedMean b w vals origin (vars.getD j "")] := by
  have hW' : ¬ Bunch.weightTiny (Bunch.bunchWeight w b) := by
    rw [Bunch.bunchWeight_eq]; exact hW
  obtain ⟨d, hd1, hd2⟩ := Bunch.originLoop_ok E w b hb hmeans hW' vals
    (DocumentedMean b w vals origin) vars hv origin (by
      intro v hvm p hp
      rw [DocumentedMean, hp]
      cases h : p.num? with
      | none => exact absurd h (hnum v hvm p hp)
      | some x => simp [h]) (by
      intro v _ hl
      rw [DocumentedMean, hl])
  have hmem : ∀ i, i < vars.length → vars.getD i "" ∈ vars := by
    intro i hi
    simp [List.getD_eq_getElem?_getD, hi]
  let f : Nat → Nat → K := fun i j => wmoment b.hits w.weight
    [fun h => vals (vars.getD i "") h - DocumentedMean b w vals origin (vars.getD i ""),
     fun h => vals (vars.getD j "") h - DocumentedMean b w vals origin (vars.getD j "")]
  have hsym : ∀ i j, f i j = f j i := by
    intro i j
    exact (wmoment_order_and_zero_weight b.hits [] w.weight _ _).2.1 (List.Perm.swap _ _ _)
  obtain ⟨M, h1, h2, h3, h4⟩ := Bunch.covLoop_ok E w b vars d f hsym
    (Bunch.upperPairs vars.length) (by
      rintro ⟨i, j⟩ hp
      rw [Bunch.mem_upperPairs] at hp
      have hi := hmem i (by omega)
      have hj := hmem j hp.2
      rw [C19_moment E w b hb hW _ d vals (DocumentedMean b w vals origin) (by
          intro a ha u hu
          simp only [List.mem_cons, List.not_mem_nil, or_false] at hu
          rcases hu with rfl | rfl
          · exact hv a ha _ hi
          · exact hv a ha _ hj) (by
          intro u hu
          simp only [List.mem_cons, List.not_mem_nil, or_false] at hu
          rcases hu with rfl | rfl
          · exact (hd2 _).1 hi
          · exact (hd2 _).1 hj)]
      rfl) ⟨vars.length, vars.length, fun _ _ => 0⟩
  refine ⟨M, ?_, h2, h3, ?_⟩
  · rw [Bunch.covarianceMatrix, hd1]; exact h1
  · intro i j hi hj
    rw [h4]
    rw [if_pos]
    rw [Bunch.mem_upperPairs, Bunch.mem_upperPairs]
    omega

/-- C21: the Bunch level covariance matrix is symmetric, and for non-negative weights
v^T C v >= 0 for every vector v. -/
theorem C21_bunch_symmetric_psd (E : Ext K) (w : BWorld K) (b : Bunch K) (hb : b.Normal w)
    (hmeans : b.means = []) (hW : ¬ |(b.hits.map w.weight).sum| < 1 / 1000000000)
    (vars : List String) (origin : List (String × PyVal K)) (vals : String → Nat → K)
    (hv : ∀ i ∈ b.hits, ∀ v ∈ vars, Bunch.hitNum E w i v = .ok (vals v i))
    (hnum : ∀ v ∈ vars, ∀ p, origin.lookup v = some p → p.num? ≠ none)
    (hw : ∀ i ∈ b.hits, 0 ≤ w.weight i) :
    ∃ M, Bunch.covarianceMatrix E w b vars origin = .ok M ∧
      (∀ i j, i < vars.length → j < vars.length → M.entry i j = M.entry j i) ∧
      ∀ v : Nat → K,
        0 ≤ ∑ j ∈ range vars.length, ∑ k ∈ range vars.length, v j * M.entry j k * v k := by
  obtain ⟨M, h1, _, _, h4⟩ := C21_bunch_entries E w b hb hmeans hW vars origin vals hv hnum
  refine ⟨M, h1, ?_, ?_⟩
  · intro i j hi hj
    rw [h4 i j hi hj, h4 j i hj hi]
    exact (wmoment_order_and_zero_weight b.hits [] w.weight _ _).2.1 (List.Perm.swap _ _ _)
  · intro v
    have hS : 0 ≤ (b.hits.map w.weight).sum := by
      apply List.sum_nonneg
      intro x hx
      obtain ⟨s, hs', rfl⟩ := List.mem_map.mp hx
      exact hw s hs'
    have := quad_form_nonneg b.hits (fun i => w.weight i / (b.hits.map w.weight).sum)
      (fun i h => div_nonneg (hw i h) hS) vars.length
      (fun j h => vals (vars.getD j "") h - DocumentedMean b w vals origin (vars.getD j "")) v
    refine le_of_le_of_eq this ?_
    apply Finset.sum_congr rfl
    intro j hj
    apply Finset.sum_congr rfl
    intro k hk
    rw [Finset.mem_range] at hj hk
    rw [h4 j k hj hk, wmoment_pair, sum_div_mul]

/-- non-vacuity: a 2 x 2 covariance matrix -/
example : (Bunch.covarianceMatrix ratExt exWorld exBunch ["x", "px"] []).toOption.map
    (fun M => (M.entry 0 0, M.entry 0 1, M.entry 1 0, M.entry 1 1)) =
    some (2 / 9, 4 / 9, 4 / 9, 8 / 9) := by decide +kernel

/-! ### C22 -/

theorem Bunchcore.powers_eq (v : K) (k : Nat) : Bunchcore.powers v k = v ^ k := by
  induction k with
  | zero => simp [Bunchcore.powers]
  | succ k ih => rw [Bunchcore.powers, ih, pow_succ']

/-- the tensor, with the getters the code finds -/
theorem Bunchcore.momentTensor_spec (hs : List (HS K)) (axes : List String) (n : Nat) (gs : List DGet)
    (hax : axes ≠ []) (hn : 1 ≤ n)
    (hg : List.Forall₂ (fun a g => ∀ s : HS K, Hitcore.get s a = .ok (.flt (DGet.eval s g))) axes gs)
    (hdbl : ∀ a ∈ axes, (getDblMap.lookup a).isSome)
    (hW : ¬ |(hs.map HS.userWeight).sum| < 1 / 1000000000000000) :
    Bunchcore.pyMomentTensor hs axes n = .ok ((indexByPower n axes.length).map (fun idx =>
      wmoment hs HS.userWeight ((gs.zip idx).map (fun p h => (p.1.eval h) ^ p.2)))) := by
  have hW0 : (hs.map HS.userWeight).sum ≠ 0 := by
    intro e; apply hW; rw [e, abs_zero]; positivity
  have hres : ∃ gs', Bunchcore.resolve axes = some gs' ∧
      List.Forall₂ (fun g g' => ∀ s : HS K, DGet.eval s g = DGet.eval s g') gs gs' := by
    clear hax
    induction hg with
    | nil => exact ⟨[], rfl, .nil⟩
    | @cons a g as gs hag _ ih =>
      obtain ⟨gs', h1, h2⟩ := ih (fun u hu => hdbl u (by simp [hu]))
      have := hdbl a (by simp)
      cases hl : getDblMap.lookup a with
      | none => rw [hl] at this; cases this
      | some g' =>
        refine ⟨g' :: gs', by simp [Bunchcore.resolve, hl, h1], .cons ?_ h2⟩
        intro s
        have := hag s
        simp only [Hitcore.get, hl, Except.ok.injEq, Val.flt.injEq] at this
        exact this.symm
  obtain ⟨gs', hr, heq⟩ := hres
  unfold Bunchcore.pyMomentTensor Bunchcore.momentTensor
  rw [if_neg (by omega), if_neg (by
    rintro (h | h)
    · exact hax (List.length_eq_zero_iff.mp h)
    · simp only [Int.toNat_natCast] at h; omega), hr]
  simp only [Bunchcore.bunchWeight_eq]
  rw [if_neg hW]
  simp only [Except.ok.injEq, Int.toNat_natCast]
  apply List.map_congr_left
  intro idx hidx
  clear hidx
  rw [foldl_add_eq_sum, zero_add]
  have hterm : (Bunchcore.tensorTerm gs' (hs.map HS.userWeight).sum idx) = fun h =>
      h.userWeight / (hs.map HS.userWeight).sum *
        ((gs.zip idx).map (fun p => (p.1.eval h) ^ p.2)).prod := by
    funext h
    rw [Bunchcore.tensorTerm, foldl_mul_eq_prod, HS.totalWeight_eq]
    have : ((gs'.zip idx).map (fun p => Bunchcore.powers (DGet.eval h p.1) p.2)) =
        ((gs.zip idx).map (fun p => (DGet.eval h p.1) ^ p.2)) := by
      clear hg hr
      induction heq generalizing idx with
      | nil => simp
      | cons hgg _ ih =>
        cases idx with
        | nil => simp
        | cons i t =>
          simp only [List.zip_cons_cons, List.map_cons]
          rw [ih, Bunchcore.powers_eq, hgg h]
    rw [this]
    ring
  rw [hterm, sum_div_mul, wmoment]
  simp only [List.map_map, Function.comp_def]

/-- C22: for non-empty axes of real valued variables (`val a s` is what hit `s` gives for `a`), n >= 1
and a total weight that is not tiny, moment_tensor returns one number for each multi-index of
index_by_power(n, len(axes)), in the same order, and that number is the weighted raw moment of
prod_k h[axis_k]^(index_k). -/
theorem C22_moment_tensor (hs : List (HS K)) (axes : List String) (n : Nat)
    (val : String → HS K → K) (hax : axes ≠ []) (hn : 1 ≤ n)
    (hv : ∀ a ∈ axes, ∀ s, Hitcore.get s a = .ok (.flt (val a s)))
    (hW : ¬ |(hs.map HS.userWeight).sum| < 1 / 1000000000000000) :
    Bunchcore.pyMomentTensor hs axes n = .ok ((indexByPower n axes.length).map (fun idx =>
      wmoment hs HS.userWeight ((axes.zip idx).map (fun p h => val p.1 h ^ p.2)))) := by
  have hdbl : ∀ a ∈ axes, ∃ g, getDblMap.lookup a = some g ∧ ∀ s, DGet.eval s g = val a s := by
    intro a ha
    cases hl : getDblMap.lookup a with
    | some g =>
      refine ⟨g, rfl, fun s => ?_⟩
      have := hv a ha s
      simp only [Hitcore.get, hl, Except.ok.injEq, Val.flt.injEq] at this
      exact this
    | none =>
      have := hv a ha ⟨Core.new, WC.new⟩
      simp only [Hitcore.get, hl] at this
      split at this <;> cases this
  have hg : ∃ gs, List.Forall₂ (fun a g => ∀ s : HS K, DGet.eval s g = val a s) axes gs := by
    clear hax hv
    induction axes with
    | nil => exact ⟨[], .nil⟩
    | cons a r ih =>
      obtain ⟨g, _, h⟩ := hdbl a (by simp)
      obtain ⟨gs, h'⟩ := ih (fun u hu => hdbl u (by simp [hu]))
      exact ⟨g :: gs, .cons h h'⟩
  obtain ⟨gs, hgs⟩ := hg
  have hget : List.Forall₂ (fun a g => ∀ s : HS K, Hitcore.get s a = .ok (.flt (DGet.eval s g)))
      axes gs := by
    have h2 := List.forall₂_iff_zip.1 hgs
    exact List.forall₂_iff_zip.2 ⟨h2.1, fun {a g} hm s => by
      rw [h2.2 hm s]; exact hv a (List.of_mem_zip hm).1 s⟩
  rw [Bunchcore.momentTensor_spec hs axes n gs hax hn hget (fun a ha => by
    obtain ⟨g, h, _⟩ := hdbl a ha; rw [h]; rfl) hW]
  congr 2
  funext idx
  congr 1
  clear hax hv hdbl hget
  induction hgs generalizing idx with
  | nil => simp
  | cons h _ ih =>
    cases idx with
    | nil => simp
    | cons i t =>
      simp only [List.zip_cons_cons, List.map_cons, ih]
      congr 1
      funext s
      rw [h s]

/-- the hypothesis holds for x and px -/
example : ∀ a ∈ ["x", "px"], ∀ s : HS ℚ,
    Hitcore.get s a = .ok (.flt (if a = "x" then s.core.d .x else s.core.d .px)) := by
  intro a ha s
  simp only [List.mem_cons, List.not_mem_nil, or_false] at ha
  rcases ha with rfl | rfl <;> rfl

/-- C22: the first entry of the tensor is 1. -/
theorem C22_first_is_one (hs : List (HS K)) (axes : List String) (n : Nat) (l : List K)
    (h : Bunchcore.pyMomentTensor hs axes n = .ok l) : l.head? = some 1 := by
  unfold Bunchcore.pyMomentTensor at h
  rw [if_neg (by omega)] at h
  unfold Bunchcore.momentTensor at h
  simp only [Int.toNat_natCast] at h
  by_cases h1 : axes.length = 0 ∨ n = 0
  · rw [if_pos h1] at h; cases h
  · rw [if_neg h1] at h
    cases hr : Bunchcore.resolve axes with
    | none => rw [hr] at h; cases h
    | some gs =>
      rw [hr] at h
      simp only at h
      by_cases hW : |Bunchcore.bunchWeight hs| < 1 / 1000000000000000
      · rw [if_pos hW] at h; cases h
      · rw [if_neg hW] at h
        have hW0 : (hs.map HS.userWeight).sum ≠ 0 := by
          rw [← Bunchcore.bunchWeight_eq]
          intro e; apply hW; rw [e, abs_zero]; positivity
        injection h with h
        subst h
        rw [indexByPower, List.map_cons, List.head?_cons, foldl_add_eq_sum]
        have hterm : (Bunchcore.tensorTerm gs (Bunchcore.bunchWeight hs)
            (List.replicate axes.length 0)) = fun h : HS K =>
            h.userWeight / (hs.map HS.userWeight).sum * 1 := by
          funext s
          rw [Bunchcore.tensorTerm, foldl_mul_eq_prod, Bunchcore.bunchWeight_eq, HS.totalWeight_eq]
          have : ∀ (n : Nat) (gs : List DGet), ((gs.zip (List.replicate n 0)).map
              (fun p => Bunchcore.powers (DGet.eval s p.1) p.2)).prod = 1 := by
            intro n
            induction n with
            | zero => simp
            | succ n ih =>
              intro gs
              cases gs with
              | nil => simp
              | cons g r => simp [List.replicate_succ, ih, Bunchcore.powers]
          rw [this]
          ring
        rw [hterm, sum_div_mul]
        simp only [mul_one, zero_add]
        exact congrArg some (div_self hW0)

/-- non-vacuity -/
example : Bunchcore.pyMomentTensor [exWorld.hview 0, exWorld.hview 1] ["x", "px"] 2 =
    .ok [1, 4 / 3, 8 / 3, 4 / 3, 2 / 3, 2 / 3] := by decide +kernel
example : List.Forall₂ (fun a g => ∀ s : HS ℚ, Hitcore.get s a = .ok (.flt (DGet.eval s g)))
    ["x", "px"] [.field .x, .field .px] :=
  .cons (fun _ => rfl) (.cons (fun _ => rfl) .nil)

end Xboa
