import Verif.Model.Voronoi
import Verif.Props.GaussianDensity
import Verif.Props.HullContent
import Verif.Props.BoundingEllipse
import Verif.Props.Multipole
import Verif.Props.FitEllipse
import Verif.Props.MassShell
import Verif.Props.Optics
/-
C85: VoronoiWeighting sets the weights to the content of the Voronoi tiles times a Gaussian.
-/
set_option linter.unusedSectionVars false
namespace Xboa
namespace Voronoi
open Tracking (PyVer)
open Multipole (Apart OnlyWeights forHits)
variable {K : Type} [Field K] [LinearOrder K] [IsStrictOrderedRing K]

/-! ### Specification -/

/-- the local or the global weight of a hit -/
def weightOf (w : BWorld K) (isGlobal : Bool) (i : Nat) : K :=
  if isGlobal then (w.ctx w.hcur).getWeight (w.hits i).weightId else (w.hits i).d .local_weight

/-- the value of the Gaussian of covariance inverse `N`, determinant `det` and mean `mean` at `p` -/
def density (G : Gauss K) (E : Ext K) (N : Mat K) (det : K) (mean p : List K) : K :=
  G.exp (-(1 / 2) * ∑ j ∈ Finset.range mean.length, ∑ k ∈ Finset.range mean.length,
    (p.getD j 0 - mean.getD j 0) * N.entry j k * (p.getD k 0 - mean.getD k 0)) /
    E.sqrt ((2 * G.pi) ^ mean.length * det)

/-- on or inside of the bound, if there is one -/
def Inside (bound : Option (BoundingEllipse K)) (p : List K) : Prop :=
  ∀ B, bound = some B → InBound B.inv B.mean p

/-- the points that are added to the hits for the tesselation -/
def extra (bound : Option (BoundingEllipse K)) : List (List K) :=
  match bound with
  | some B => B.boundingPoints
  | none => []

/-- the content of a tile with given region and vertices: that of its simplices -/
def tile (delaunay : List (List K) → List (List Nat)) (J : List Int × List (List K)) : K :=
  if -1 ∈ J.1 ∨ J.1 = [] then 0
  else ((delaunay J.2).map fun s =>
    HullContent.simplexContent (HullContent.corners J.2 (J.2.getD 0 []).length s)).sum

/-! ### Lemmas -/

theorem inside_none (p : List K) : Inside none p := fun _ h => by cases h
theorem inside_some (B : BoundingEllipse K) (p : List K) : Inside (some B) p ↔ InBound B.inv B.mean p :=
  ⟨fun h => h B rfl, fun h _ e => by cases e; exact h⟩

noncomputable instance (bound : Option (BoundingEllipse K)) (p : List K) : Decidable (Inside bound p) :=
  Classical.dec _

theorem quad_delta_eq (N : Mat K) (mean p : List K) (h : p.length = mean.length) :
    Bunch.quad N (List.zipWith (· - ·) p mean) =
      ∑ j ∈ Finset.range mean.length, ∑ k ∈ Finset.range mean.length,
        (p.getD j 0 - mean.getD j 0) * N.entry j k * (p.getD k 0 - mean.getD k 0) := by
  have hg : ∀ j, j < mean.length →
      (List.zipWith (· - ·) p mean).getD j 0 = p.getD j 0 - mean.getD j 0 := by
    intro j hj
    have hp : j < p.length := by omega
    simp [List.getD_eq_getElem?_getD, List.getElem?_zipWith, List.getElem?_eq_getElem hp,
      List.getElem?_eq_getElem hj]
  unfold Bunch.quad
  simp only [List.length_zipWith, h, min_self]
  rw [Finset.sum_congr rfl fun j hj => Finset.sum_congr rfl fun k hk => by
    rw [hg j (Finset.mem_range.mp hj), hg k (Finset.mem_range.mp hk)]]

theorem getPdf_eq (G : Gauss K) (E : Ext K) (m : VW K) (p : List K) (hG : 0 < G.pi) (hdet : 0 < m.det)
    (h : p.length = m.mean.length) :
    getPdf G E m p = .ok (density G E m.inv m.det m.mean p) := by
  unfold getPdf density
  have : ¬ (2 * G.pi) ^ p.length * m.det ≤ 0 := by
    rw [not_le]
    exact mul_pos (pow_pos (by linarith) _) hdet
  simp only
  rw [if_neg this, quad_delta_eq _ _ _ h, h]

theorem getD_range_map (l : List Nat) : (List.range l.length).map (fun j => l.getD j 0) = l := by
  apply List.ext_getElem
  · simp
  · intro i h1 h2
    simp [List.getElem?_eq_getElem h2]

theorem filter_positions (l : List Nat) (P : Nat → Bool) :
    ((List.range l.length).filter fun j => P (l.getD j 0)).map (fun j => l.getD j 0) = l.filter P := by
  conv_rhs => rw [← getD_range_map l]
  rw [List.filter_map]
  rfl

theorem onHit_set (E : Ext K) (g : Bool) (w : BWorld K) (i : Nat) (a : K)
    (hwf : g = true → (w.ctx w.hcur).WF) :
    ∃ w', w.onHit i (Hit.set E (Bunch.wtName g) (.flt a)) = (.ok (), w') ∧ OnlyWeights w w' ∧
      (g = true → (w'.ctx w'.hcur).WF) ∧ weightOf w' g i = a ∧
      (∀ j, Apart w g i j → weightOf w' g j = weightOf w g j) ∧
      ∀ j, weightOf w' (!g) j = weightOf w (!g) j := by
  cases g with
  | false =>
    refine ⟨w.hput i { w.hview i with core := (w.hview i).core.setD .local_weight a }, rfl,
      ⟨?_, ?_, rfl, rfl⟩, (fun h => by cases h), ?_, ?_, ?_⟩
    · intro j v hv
      by_cases h : j = i
      · subst h; simp [BWorld.hput, BWorld.hview, Core.setD, hv]
      · simp [BWorld.hput, h]
    · intro j
      by_cases h : j = i
      · subst h; simp [BWorld.hput, BWorld.hview, Core.setD]
      · simp [BWorld.hput, h]
    · simp [weightOf, BWorld.hput, Core.setD]
    · intro j hj
      have hj' : ¬ j = i := fun e => hj e.symm
      simp [weightOf, BWorld.hput, hj']
    · intro j
      simp only [weightOf, Bool.not_false, if_true]
      by_cases h : j = i
      · subst h; simp [BWorld.hput, BWorld.hview, Core.setD, Core.weightId]
      · simp [BWorld.hput, h, BWorld.hview]
  | true =>
    have hwf := hwf rfl
    refine ⟨w.hput i ((w.hview i).setGlobalWeight a), rfl, ⟨?_, ?_, rfl, rfl⟩, ?_, ?_, ?_, ?_⟩
    · intro j v hv
      by_cases h : j = i
      · subst h; simp [BWorld.hput, BWorld.hview, HS.setGlobalWeight]
      · simp [BWorld.hput, h]
    · intro j
      by_cases h : j = i
      · subst h; simp [BWorld.hput, BWorld.hview, HS.setGlobalWeight]
      · simp [BWorld.hput, h]
    · intro _
      simpa [BWorld.hput, BWorld.hview, HS.setGlobalWeight] using WC.WF.setWeight hwf _ _
    · simp only [weightOf, BWorld.hput, BWorld.hview, HS.setGlobalWeight, if_true,
        WC.getWeight_setWeight hwf]
    · intro j hj
      have hj' : ¬ (w.hits j).weightId = (w.hits i).weightId := fun e => hj e.symm
      have hji : ¬ j = i := by rintro rfl; exact hj' rfl
      simp only [weightOf, BWorld.hput, BWorld.hview, HS.setGlobalWeight, if_true, hji, if_false,
        WC.getWeight_setWeight hwf, hj']
    · intro j
      simp only [weightOf, Bool.not_true, Bool.false_eq_true, if_false]
      by_cases h : j = i
      · subst h; simp [BWorld.hput, BWorld.hview, HS.setGlobalWeight]
      · simp [BWorld.hput, h]

theorem apart_symm {w : BWorld K} {g : Bool} {i j : Nat} (h : Apart w g i j) : Apart w g j i := by
  unfold Apart at h ⊢
  cases g
  · simpa using (by simpa using h : ¬ i = j) ∘ Eq.symm
  · simpa using (by simpa using h : ¬ (w.hits i).weightId = (w.hits j).weightId) ∘ Eq.symm

theorem forHits_set (E : Ext K) (g : Bool) : ∀ (l : List (Nat × K)) (w : BWorld K),
    (g = true → (w.ctx w.hcur).WF) → l.Pairwise (fun p q => Apart w g p.1 q.1) →
    ∃ w', forHits (fun x : K => Hit.set E (Bunch.wtName g) (.flt x)) l w = (.ok (), w') ∧
      OnlyWeights w w' ∧ (g = true → (w'.ctx w'.hcur).WF) ∧
      (∀ p ∈ l, weightOf w' g p.1 = p.2) ∧
      (∀ j, (∀ p ∈ l, Apart w g p.1 j) → weightOf w' g j = weightOf w g j) ∧
      ∀ j, weightOf w' (!g) j = weightOf w (!g) j
  | [], w, hwf, _ => ⟨w, rfl, ⟨fun _ _ _ => rfl, fun _ => rfl, rfl, rfl⟩, hwf, by simp, fun _ _ => rfl,
      fun _ => rfl⟩
  | (i, a) :: r, w, hwf, hp => by
    have hp' := List.pairwise_cons.1 hp
    obtain ⟨w1, e1, o1, wf1, s1, u1, n1⟩ := onHit_set E g w i a hwf
    obtain ⟨w2, e2, o2, wf2, s2, u2, n2⟩ := forHits_set E g r w1 wf1
      (hp'.2.imp (fun h => (o1.apart g _ _).2 h))
    refine ⟨w2, ?_, o1.trans o2, wf2, ?_, ?_, fun j => (n2 j).trans (n1 j)⟩
    · rw [forHits, e1]; exact e2
    · intro q hq
      rcases List.mem_cons.1 hq with rfl | hq
      · rw [u2 i, s1]
        intro q hq
        exact (o1.apart g _ _).2 (apart_symm (hp'.1 q hq))
      · exact s2 q hq
    · intro j hj
      rw [u2 j (fun q hq => (o1.apart g _ _).2 (hj q (by simp [hq]))), u1 j (hj (i, a) (by simp))]

theorem kept_eq (m : VW K) (points : List (List K)) (hl : ∀ p ∈ points, p.length = m.vars.length)
    (hb : ∀ B, m.bound = some B → B.mean.length = m.vars.length) :
    (kept m points).1 = points.filter (fun p => decide (Inside m.bound p)) ∧
    (kept m points).2.1 = points.filter (fun p => decide (Inside m.bound p)) ++ extra m.bound ∧
    (kept m points).2.2 = (List.range points.length).filter
      (fun i => decide (Inside m.bound (points.getD i []))) := by
  unfold kept extra
  cases hm : m.bound with
  | none => simp [inside_none]
  | some B =>
    obtain ⟨h1, h2⟩ := C47_cut B points (fun p hp => by rw [hl p hp, hb B hm])
    have hd : ∀ p, decide (Inside (some B) p) = decide (InBound B.inv B.mean p) := fun p => by
      rw [decide_eq_decide]
      exact inside_some B p
    simp only [hd]
    exact ⟨h1, by rw [h1], h2⟩

/-- what apply_weights does to the weights -/
theorem apply_run {E : Ext K} (hE : E.Lawful) (G : Gauss K) (hG : 0 < G.pi)
    (voronoi : List (List K) → Except Err (HullContent.Tesselation K))
    (delaunay : List (List K) → List (List Nat)) (m : VW K) (b : Bunch K) (isGlobal : Bool) (w : BWorld K)
    (hdet : 0 < m.det) (hmean : m.mean.length = m.vars.length)
    (hbound : ∀ B, m.bound = some B → B.mean.length = m.vars.length)
    (hne : b.hits ≠ []) (val : String → Nat → K)
    (hval : ∀ i ∈ b.hits, ∀ v ∈ m.vars, Bunch.hitNum E w i v = .ok (val v i))
    (inside : List Nat)
    (hin : inside = b.hits.filter fun i => decide (Inside m.bound (m.vars.map fun v => val v i)))
    (t : HullContent.Tesselation K)
    (ht : voronoi ((inside.map fun i => m.vars.map fun v => val v i) ++ extra m.bound) = .ok t)
    (J : Nat → List Int × List (List K))
    (hJ : ∀ k < inside.length, HullContent.IsTile t k (J k).1 (J k).2) :
    applyWeights .py2 G E voronoi delaunay m b isGlobal w =
      match forHits (fun x : K => Hit.set E (Bunch.wtName isGlobal) (.flt x))
        (inside.zip (List.zipWith (· * ·)
          (inside.map fun i => density G E m.inv m.det m.mean (m.vars.map fun v => val v i))
          ((List.range inside.length).map fun k : Nat => tile delaunay (J k)))) w with
      | (.error e, w') => (.error e, w')
      | (.ok _, w') => forHits (fun x : K => Hit.set E (Bunch.wtName isGlobal) (.flt x))
          ((b.hits.filter fun i => !decide (Inside m.bound (m.vars.map fun v => val v i))).map
            fun i => (i, 0)) w' := by
  set pt : Nat → List K := fun i => m.vars.map fun v => val v i with hpt
  have hcol := Multipole.collect_map (fun v => Bunch.listGet E w v b.hits) (fun v => b.hits.map (val v)) m.vars
    (fun v hv => Bunch.listGet_ok E w v (val v) b.hits (fun i hi => hval i hi v hv))
  have hpoints : ((List.range b.hits.length).map fun i : Nat =>
      (m.vars.map fun v => b.hits.map (val v)).map fun col => col.getD i 0) = b.hits.map pt := by
    apply List.ext_getElem
    · simp
    · intro i h1 h2
      have hi : i < b.hits.length := by simpa using h2
      simp only [List.getElem_map, List.getElem_range, List.map_map, hpt]
      apply List.map_congr_left
      intro v _
      simp [List.getElem?_eq_getElem hi]
  have hlen : ∀ p ∈ b.hits.map pt, p.length = m.vars.length := by
    intro p hp
    obtain ⟨i, _, rfl⟩ := List.mem_map.mp hp
    simp [hpt]
  obtain ⟨k1, k2, k3⟩ := kept_eq m (b.hits.map pt) hlen hbound
  have hfil : (b.hits.map pt).filter (fun p => decide (Inside m.bound p)) = inside.map pt := by
    rw [List.filter_map, hin]
    rfl
  rw [hfil] at k1 k2
  have hk3 : (kept m (b.hits.map pt)).2.2 =
      (List.range b.hits.length).filter fun j => decide (Inside m.bound (pt (b.hits.getD j 0))) := by
    rw [k3, List.length_map]
    apply List.filter_congr
    intro j hj
    have hj' := List.mem_range.mp hj
    simp [List.getElem?_eq_getElem hj']
  have hpos1 : (kept m (b.hits.map pt)).2.2.map (fun j => b.hits.getD j 0) = inside := by
    rw [hk3, hin, filter_positions b.hits (fun i => decide (Inside m.bound (pt i)))]
  have hpos2 : ((List.range b.hits.length).filter fun j : Nat =>
        decide (j ∉ (kept m (b.hits.map pt)).2.2)).map (fun j => (b.hits.getD j 0, (0 : K))) =
      (b.hits.filter fun i => !decide (Inside m.bound (pt i))).map fun i => (i, 0) := by
    rw [← filter_positions b.hits (fun i => !decide (Inside m.bound (pt i))), List.map_map]
    congr 1
    apply List.filter_congr
    intro j hj
    rw [hk3]
    simp only [List.mem_filter, hj, true_and]
    by_cases h : Inside m.bound (pt (b.hits.getD j 0)) <;> simp
  have hrec := (HullContent.C84_partial hE delaunay t J (List.range inside.length)
    (fun i hi => hJ i (List.mem_range.mp hi))).1 (by rw [List.length_range])
  rw [List.length_range] at hrec
  have hpdf : FFTTune.mapErr (getPdf G E m) (inside.map pt) =
      .ok (inside.map fun i => density G E m.inv m.det m.mean (pt i)) := by
    rw [FFTTune.mapErr_ok, List.forall₂_map_left_iff, List.forall₂_map_right_iff, List.forall₂_same]
    intro i _
    exact getPdf_eq G E m (pt i) hG hdet (by rw [hmean]; simp [hpt])
  unfold applyWeights
  rw [hcol]
  simp only [reduceCtorEq, if_false, if_neg hne]
  rw [hpoints, k2, ht]
  simp only
  rw [k1, List.length_map, hrec]
  simp only
  rw [hpdf]
  simp only
  rw [hpos1, hpos2]
  unfold tile
  rfl

/-- without assumptions on where the weights are stored -/
theorem forHits_any (E : Ext K) (g : Bool) : ∀ (l : List (Nat × K)) (w : BWorld K),
    (g = true → (w.ctx w.hcur).WF) →
    ∃ w', forHits (fun x : K => Hit.set E (Bunch.wtName g) (.flt x)) l w = (.ok (), w') ∧
      OnlyWeights w w' ∧ (g = true → (w'.ctx w'.hcur).WF) ∧
      (∀ j, (∀ p ∈ l, Apart w g p.1 j) → weightOf w' g j = weightOf w g j) ∧
      (∀ l1 l2 i a, l = l1 ++ (i, a) :: l2 → (∀ p ∈ l2, Apart w g p.1 i) → weightOf w' g i = a) ∧
      ∀ j, weightOf w' (!g) j = weightOf w (!g) j
  | [], w, hwf => ⟨w, rfl, ⟨fun _ _ _ => rfl, fun _ => rfl, rfl, rfl⟩, hwf, fun _ _ => rfl,
      (fun l1 l2 i a h => by simp at h), fun _ => rfl⟩
  | (i, a) :: r, w, hwf => by
    obtain ⟨w1, e1, o1, wf1, s1, u1, n1⟩ := onHit_set E g w i a hwf
    obtain ⟨w2, e2, o2, wf2, u2, s2, n2⟩ := forHits_any E g r w1 wf1
    refine ⟨w2, ?_, o1.trans o2, wf2, ?_, ?_, fun j => (n2 j).trans (n1 j)⟩
    · rw [forHits, e1]; exact e2
    · intro j hj
      rw [u2 j (fun q hq => (o1.apart g _ _).2 (hj q (by simp [hq]))), u1 j (hj (i, a) (by simp))]
    · intro l1 l2 k c h hap
      cases l1 with
      | nil =>
        simp only [List.nil_append, List.cons.injEq, Prod.mk.injEq] at h
        obtain ⟨⟨rfl, rfl⟩, rfl⟩ := h
        rw [u2 i (fun q hq => (o1.apart g _ _).2 (hap q hq)), s1]
      | cons x l1 =>
        simp only [List.cons_append, List.cons.injEq] at h
        exact s2 l1 l2 k c h.2 (fun q hq => (o1.apart g _ _).2 (hap q hq))

/-! ### The property -/

/-- C85, partial (Python 2).  For all bunches of hits whose weights are stored in different places, all
ellipses of positive determinant, with and without bound: apply_weights makes the weight of every hit on or
inside of the bound the content of its Voronoi tile times the Gaussian at the hit, that of every other hit
0, and changes nothing else.  (`t` is the tesselation of the hits that are kept with the points of the
bound; `J k` is the tile of the k-th of these hits.)  Missing: Python 3, which raises (C85_py3_false), and
global weights of hits of the same track (C85_track_false). -/
theorem C85_partial {E : Ext K} (hE : E.Lawful) (G : Gauss K) (hG : 0 < G.pi)
    (voronoi : List (List K) → Except Err (HullContent.Tesselation K))
    (delaunay : List (List K) → List (List Nat)) (m : VW K) (b : Bunch K) (isGlobal : Bool) (w : BWorld K)
    (hdet : 0 < m.det) (hmean : m.mean.length = m.vars.length)
    (hbound : ∀ B, m.bound = some B → B.mean.length = m.vars.length)
    (hne : b.hits ≠ []) (hsep : SeparateWeights w b isGlobal) (val : String → Nat → K)
    (hval : ∀ i ∈ b.hits, ∀ v ∈ m.vars, Bunch.hitNum E w i v = .ok (val v i))
    (inside : List Nat)
    (hin : inside = b.hits.filter fun i => decide (Inside m.bound (m.vars.map fun v => val v i)))
    (t : HullContent.Tesselation K)
    (ht : voronoi ((inside.map fun i => m.vars.map fun v => val v i) ++ extra m.bound) = .ok t)
    (J : Nat → List Int × List (List K))
    (hJ : ∀ k < inside.length, HullContent.IsTile t k (J k).1 (J k).2) :
    ∃ w', applyWeights .py2 G E voronoi delaunay m b isGlobal w = (.ok (), w') ∧
      (∀ k (hk : k < inside.length), weightOf w' isGlobal inside[k] =
        tile delaunay (J k) * density G E m.inv m.det m.mean (m.vars.map fun v => val v inside[k])) ∧
      (∀ i ∈ b.hits, ¬ Inside m.bound (m.vars.map fun v => val v i) → weightOf w' isGlobal i = 0) ∧
      (∀ j, (∀ i ∈ b.hits, Apart w isGlobal i j) → weightOf w' isGlobal j = weightOf w isGlobal j) ∧
      (∀ j, weightOf w' (!isGlobal) j = weightOf w (!isGlobal) j) ∧ OnlyWeights w w' := by
  have hrun := apply_run hE G hG voronoi delaunay m b isGlobal w hdet hmean hbound hne val hval inside hin
    t ht J hJ
  set pt : Nat → List K := fun i => m.vars.map fun v => val v i with hpt
  have hap := hsep.apart
  set weights := List.zipWith (· * ·) (inside.map fun i => density G E m.inv m.det m.mean (pt i))
    ((List.range inside.length).map fun k : Nat => tile delaunay (J k)) with hw
  have hsub : inside.Sublist b.hits := by rw [hin]; exact List.filter_sublist
  have hwl : weights.length = inside.length := by simp [hw]
  obtain ⟨w1, e1, o1, wf1, s1, u1, n1⟩ := forHits_set E isGlobal (inside.zip weights) w hsep.wf (by
    have : ((inside.zip weights).map Prod.fst).Pairwise (Apart w isGlobal) := by
      rw [List.map_fst_zip (by omega)]
      exact hap.sublist hsub
    rwa [List.pairwise_map] at this)
  obtain ⟨w2, e2, o2, wf2, s2, u2, n2⟩ := forHits_set E isGlobal
    ((b.hits.filter fun i => !decide (Inside m.bound (pt i))).map fun i => (i, 0)) w1 wf1 (by
      rw [List.pairwise_map]
      exact (hap.sublist List.filter_sublist).imp (fun h => (o1.apart isGlobal _ _).2 h))
  have hmem1 : ∀ p ∈ inside.zip weights, p.1 ∈ b.hits := fun p hp =>
    hsub.subset (List.of_mem_zip hp).1
  have hapart : ∀ i ∈ b.hits, ∀ j ∈ b.hits, i ≠ j → Apart w isGlobal i j := by
    intro i hi j hj hij
    have : Std.Symm (Apart w isGlobal) := ⟨fun _ _ h => apart_symm h⟩
    exact hap.forall hi hj hij
  refine ⟨w2, ?_, ?_, ?_, ?_, fun j => (n2 j).trans (n1 j), o1.trans o2⟩
  · rw [hrun, e1]
    exact e2
  · intro k hk
    have hin' : inside[k] ∈ inside := List.getElem_mem hk
    have hins : Inside m.bound (pt inside[k]) := by
      have : ∀ i ∈ inside, Inside m.bound (pt i) := by
        rw [hin]
        intro i hi
        simpa using (List.mem_filter.mp hi).2
      exact this _ hin'
    rw [u2]
    · have hmem : (inside[k], weights[k]'(by omega)) ∈ inside.zip weights := by
        rw [List.mem_iff_getElem]
        exact ⟨k, by simp; omega, by simp⟩
      rw [s1 _ hmem]
      simp only [hw, List.getElem_zipWith, List.getElem_map, List.getElem_range]
      ring
    · intro p hp
      obtain ⟨i, hi, rfl⟩ := List.mem_map.mp hp
      obtain ⟨hi1, hi2⟩ := List.mem_filter.mp hi
      rw [o1.apart]
      apply hapart i hi1 _ (hsub.subset hin')
      rintro rfl
      simp [hins] at hi2
  · intro i hi hni
    exact s2 (i, 0) (List.mem_map.mpr ⟨i, List.mem_filter.mpr ⟨hi, by simpa using hni⟩, rfl⟩)
  · intro j hj
    rw [u2 j, u1 j]
    · exact fun p hp => hj p.1 (hmem1 p hp)
    · intro p hp
      obtain ⟨i, hi, rfl⟩ := List.mem_map.mp hp
      rw [o1.apart]
      exact hj i (List.mem_filter.mp hi).1

/-- C85 is false of global weights if hits belong to the same track, which has one global weight (Python 2,
for all bunches).  A hit inside of the bound gets the weight of the last hit inside of the bound on its
track; it gets 0 if some hit of its track is outside of the bound. -/
theorem C85_track_false {E : Ext K} (hE : E.Lawful) (G : Gauss K) (hG : 0 < G.pi)
    (voronoi : List (List K) → Except Err (HullContent.Tesselation K))
    (delaunay : List (List K) → List (List Nat)) (m : VW K) (b : Bunch K) (w : BWorld K)
    (hdet : 0 < m.det) (hmean : m.mean.length = m.vars.length)
    (hbound : ∀ B, m.bound = some B → B.mean.length = m.vars.length)
    (hne : b.hits ≠ []) (hwf : (w.ctx w.hcur).WF) (val : String → Nat → K)
    (hval : ∀ i ∈ b.hits, ∀ v ∈ m.vars, Bunch.hitNum E w i v = .ok (val v i))
    (inside : List Nat)
    (hin : inside = b.hits.filter fun i => decide (Inside m.bound (m.vars.map fun v => val v i)))
    (t : HullContent.Tesselation K)
    (ht : voronoi ((inside.map fun i => m.vars.map fun v => val v i) ++ extra m.bound) = .ok t)
    (J : Nat → List Int × List (List K))
    (hJ : ∀ k < inside.length, HullContent.IsTile t k (J k).1 (J k).2) :
    ∃ w', applyWeights .py2 G E voronoi delaunay m b true w = (.ok (), w') ∧
      (∀ i ∈ b.hits, ∀ j ∈ b.hits, (w.hits i).weightId = (w.hits j).weightId →
        ¬ Inside m.bound (m.vars.map fun v => val v j) → weightOf w' true i = 0) ∧
      (∀ i ∈ b.hits, ∀ k (hk : k < inside.length), (w.hits i).weightId = (w.hits inside[k]).weightId →
        (∀ j ∈ b.hits, (w.hits i).weightId = (w.hits j).weightId →
          Inside m.bound (m.vars.map fun v => val v j)) →
        (∀ l (hl : l < inside.length), k < l → (w.hits i).weightId ≠ (w.hits inside[l]).weightId) →
        weightOf w' true i =
          tile delaunay (J k) * density G E m.inv m.det m.mean (m.vars.map fun v => val v inside[k])) := by
  have hrun := apply_run hE G hG voronoi delaunay m b true w hdet hmean hbound hne val hval inside hin
    t ht J hJ
  set pt : Nat → List K := fun i => m.vars.map fun v => val v i with hpt
  set weights := List.zipWith (· * ·) (inside.map fun i => density G E m.inv m.det m.mean (pt i))
    ((List.range inside.length).map fun k : Nat => tile delaunay (J k)) with hw
  have hwl : weights.length = inside.length := by simp [hw]
  obtain ⟨w1, e1, o1, wf1, u1, s1, -⟩ := forHits_any E true (inside.zip weights) w (fun _ => hwf)
  obtain ⟨w2, e2, o2, wf2, u2, s2, -⟩ := forHits_any E true
    ((b.hits.filter fun i => !decide (Inside m.bound (pt i))).map fun i => (i, 0)) w1 wf1
  have hid : ∀ i, (w2.hits i).weightId = (w.hits i).weightId := fun i => by rw [o2.id, o1.id]
  have hsame : ∀ i j, (w.hits i).weightId = (w.hits j).weightId → weightOf w2 true i = weightOf w2 true j := by
    intro i j h
    simp only [weightOf, if_true, hid, h]
  refine ⟨w2, by rw [hrun, e1]; exact e2, ?_, ?_⟩
  · intro i hi j hj hij hout
    have hmem : (j, (0 : K)) ∈ (b.hits.filter fun i => !decide (Inside m.bound (pt i))).map
        fun i => (i, (0 : K)) :=
      List.mem_map.mpr ⟨j, List.mem_filter.mpr ⟨hj, by simpa using hout⟩, rfl⟩
    -- the last of the hits of the track in the list
    obtain ⟨l, hl⟩ : ∃ l, (b.hits.filter fun i => !decide (Inside m.bound (pt i))).map
        (fun i => (i, (0 : K))) = l := ⟨_, rfl⟩
    have hz : ∀ p ∈ l, p.2 = 0 := by
      rw [← hl]
      intro p hp
      obtain ⟨x, _, rfl⟩ := List.mem_map.mp hp
      rfl
    rw [hl] at hmem s2
    have hlast : ∀ l : List (Nat × K), (∃ p ∈ l, (w.hits p.1).weightId = (w.hits i).weightId) →
        ∃ l1 q l2, l = l1 ++ q :: l2 ∧ (w.hits q.1).weightId = (w.hits i).weightId ∧
          ∀ p ∈ l2, (w.hits p.1).weightId ≠ (w.hits i).weightId := by
      intro l
      induction l with
      | nil => rintro ⟨p, hp, _⟩; cases hp
      | cons x r ih =>
        rintro ⟨p, hp, hpi⟩
        by_cases h : ∃ p ∈ r, (w.hits p.1).weightId = (w.hits i).weightId
        · obtain ⟨l1, q, l2, h1, h2, h3⟩ := ih h
          exact ⟨x :: l1, q, l2, by rw [h1]; rfl, h2, h3⟩
        · refine ⟨[], x, r, rfl, ?_, fun p hp hc => h ⟨p, hp, hc⟩⟩
          rcases List.mem_cons.mp hp with rfl | hp
          · exact hpi
          · exact absurd ⟨p, hp, hpi⟩ h
    obtain ⟨l1, q, l2, h1, h2, h3⟩ := hlast l ⟨_, hmem, hij.symm⟩
    have hq0 : q.2 = 0 := hz q (by rw [h1]; simp)
    rw [hsame i q.1 h2.symm, s2 l1 l2 q.1 q.2 h1, hq0]
    intro p hp
    simp only [Apart, if_true, o1.id]
    rw [h2]
    exact h3 p hp
  · intro i hi k hk hik hall hlater
    rw [hsame i inside[k] hik, u2]
    · refine s1 ((inside.zip weights).take k) ((inside.zip weights).drop (k + 1)) inside[k] _ ?_ ?_
      · have hk' : k < (inside.zip weights).length := by simp; omega
        have := (List.take_append_drop k (inside.zip weights)).symm
        rw [List.drop_eq_getElem_cons hk'] at this
        rw [List.getElem_zip] at this
        simp only [hw, List.getElem_zipWith, List.getElem_map, List.getElem_range] at this
        rw [mul_comm]
        exact this
      · intro p hp
        obtain ⟨n, hn, rfl⟩ := List.mem_iff_getElem.mp hp
        rw [List.length_drop, List.length_zip] at hn
        rw [List.getElem_drop, List.getElem_zip]
        simp only [Apart, if_true]
        rw [← hik]
        exact Ne.symm (hlater (k + 1 + n) (by omega) (by omega))
    · intro p hp
      obtain ⟨j, hj, rfl⟩ := List.mem_map.mp hp
      obtain ⟨hj1, hj2⟩ := List.mem_filter.mp hj
      simp only [Apart, if_true, o1.id]
      rw [← hik]
      intro h
      have := hall j hj1 h.symm
      simp only [hpt, this, decide_true, Bool.not_true] at hj2
      cases hj2

/-- C85 is false of Python 3, which the package requires: apply_weights raises TypeError for all bunches
whose variables can be read, and the constructor refuses every mean of two or more variables. -/
theorem C85_py3_false (G : Gauss K) (E : Ext K)
    (voronoi : List (List K) → Except Err (HullContent.Tesselation K))
    (delaunay : List (List K) → List (List Nat)) (m : VW K) (b : Bunch K) (isGlobal : Bool) (w : BWorld K)
    (val : String → Nat → K)
    (hval : ∀ i ∈ b.hits, ∀ v ∈ m.vars, Bunch.hitNum E w i v = .ok (val v i))
    (L : LinAlg K) (vars : List String) (ellipse : Mat K) (mean : List K)
    (bound : Option (BoundingEllipse K)) (hm : 2 ≤ mean.length) :
    applyWeights .py3 G E voronoi delaunay m b isGlobal w = (.error .TypeError, w) ∧
    new .py3 L vars ellipse (some mean) bound = .error .ValueError := by
  constructor
  · unfold applyWeights
    rw [Multipole.collect_map (fun v => Bunch.listGet E w v b.hits) (fun v => b.hits.map (val v)) m.vars
      (fun v hv => Bunch.listGet_ok E w v (val v) b.hits (fun i hi => hval i hi v hv))]
    rfl
  · unfold new
    simp only
    rw [if_pos ⟨trivial, hm⟩]

/-- C85: what the constructor accepts in Python 2, and in Python 3 without mean; it refuses the rest with
ValueError. -/
theorem C85_new (v : PyVer) (L : LinAlg K) (hL : L.InvLaw) (vars : List String) (ellipse : Mat K)
    (mean : Option (List K)) (bound : Option (BoundingEllipse K)) (hv : v = .py2 ∨ mean = none) :
    (ellipse.rows = vars.length → ellipse.cols = vars.length → ellipse.det ≠ 0 →
      (∀ x, mean = some x → x.length = vars.length) → (∀ B, bound = some B → B.dim = vars.length) →
      ∃ m, new v L vars ellipse mean bound = .ok m ∧ m.vars = vars ∧ m.bound = bound ∧
        m.det = ellipse.det ∧ L.inv ellipse = some m.inv ∧
        m.mean = mean.getD (List.replicate vars.length 0)) ∧
    (ellipse.rows ≠ vars.length ∨ ellipse.cols ≠ vars.length ∨
      (∃ x, mean = some x ∧ x.length ≠ vars.length) ∨ (∃ B, bound = some B ∧ B.dim ≠ vars.length) →
      new v L vars ellipse mean bound = .error .ValueError) := by
  have h0 : ¬ (v = .py3 ∧ 2 ≤ (mean.getD []).length) := by
    rintro ⟨h1, h2⟩
    rcases hv with h | h
    · rw [h] at h1; cases h1
    · rw [h] at h2; simp at h2
  constructor
  · intro h1 h2 h3 h4 h5
    obtain ⟨N, hN⟩ := hL.inv_ok ellipse (by omega) h3
    refine ⟨⟨vars, bound, N, ellipse.det, mean.getD (List.replicate vars.length 0)⟩, ?_, rfl, rfl, rfl,
      hN, rfl⟩
    unfold new
    simp only
    rw [if_neg h0, if_neg, if_neg, if_neg, hN]
    · cases hb : bound with
      | none => simp
      | some B => simp [h5 B hb]
    · omega
    · cases hm : mean with
      | none => simp
      | some x => simp [h4 x hm]
  · intro h
    unfold new
    simp only
    rw [if_neg h0]
    split
    · rfl
    rename_i hm
    split
    · rfl
    rename_i he
    split
    · rfl
    rename_i hb
    exfalso
    rcases h with h | h | ⟨x, rfl, hx⟩ | ⟨B, rfl, hB⟩
    · exact he (.inl h)
    · exact he (.inr h)
    · exact hm (by simpa using hx)
    · exact hb (by simpa using hB)

/-! ### The Gaussian -/

/-- the functions of the real numbers -/
noncomputable def realGauss : Gauss ℝ := ⟨Real.exp, Real.pi⟩

open MeasureTheory ProbabilityTheory WithLp in
/-- C85, for all dimensions, all positive definite ellipses and all means (None stands for 0): get_pdf is
the density of the Gaussian distribution that has the mean and the covariance matrix given to the
constructor. -/
theorem C85_density {n : Nat} (v : PyVer) (L : LinAlg ℝ) (hL : L.InvLaw) (vars : List String)
    (hn : vars.length = n) (ellipse : Mat ℝ) (S : Matrix (Fin n) (Fin n) ℝ)
    (hS : ∀ i j : Fin n, ellipse.entry i j = S i j) (hpos : S.PosDef) (mu : Fin n → ℝ)
    (mean : Option (List ℝ)) (hmean : mean = some (List.ofFn mu) ∨ mean = none ∧ mu = 0)
    (bound : Option (BoundingEllipse ℝ)) (m : VW ℝ) (h : new v L vars ellipse mean bound = .ok m) :
    ∃ f : EuclideanSpace ℝ (Fin n) → ℝ,
      (∀ x : Fin n → ℝ, getPdf realGauss realExt m (List.ofFn x) = .ok (f (toLp 2 x))) ∧
      multivariateGaussian (toLp 2 mu) S =
        (volume : Measure (EuclideanSpace ℝ (Fin n))).withDensity fun x => ENNReal.ofReal (f x) := by
  unfold new at h
  simp only at h
  split at h
  · cases h
  split at h
  · cases h
  split at h
  · cases h
  rename_i hsh
  split at h
  · cases h
  cases hinv : L.inv ellipse with
  | none => rw [hinv] at h; cases h
  | some N =>
    rw [hinv] at h
    simp only [Except.ok.injEq] at h
    subst h
    have hr : ellipse.rows = n := by omega
    have hc : ellipse.cols = n := by omega
    have hmu : mean.getD (List.replicate vars.length 0) = List.ofFn mu := by
      rcases hmean with rfl | ⟨rfl, rfl⟩
      · rfl
      · rw [Option.getD_none, hn]
        apply List.ext_getElem
        · simp
        · intro i h1 h2
          simp
    have hdet : ellipse.det = S.det := by
      rw [Mat.det_eq ellipse n hr]
      congr 1
      ext i j
      exact hS i j
    have hNS : (Matrix.of fun a c : Fin n => N.entry a c) = S⁻¹ := by
      obtain ⟨h1, h2, h3⟩ := hL.inv_mul ellipse N (by omega) hinv
      symm
      apply Matrix.inv_eq_left_inv
      ext a c
      have := h3 a c (by omega) (by omega)
      simp only [Mat.mul, h2, hr] at this
      rw [Matrix.mul_apply]
      simp only [Matrix.of_apply]
      rw [Matrix.one_apply, ← if_congr (Fin.ext_iff (a := a) (b := c)).symm rfl rfl, ← this, Finset.sum_range]
      refine Finset.sum_congr rfl fun k _ => ?_
      rw [hS]
    refine ⟨fun x => gaussianDensity mu S (ofLp x), ?_, multivariateGaussian_density hpos mu⟩
    intro x
    rw [getPdf_eq realGauss realExt _ _ Real.pi_pos (by rw [hdet]; exact hpos.det_pos) (by
      simp only [hmu, List.length_ofFn])]
    unfold density gaussianDensity
    simp only [hmu, hdet, List.length_ofFn]
    congr 2
    simp only [realGauss]
    congr 2
    rw [Finset.sum_range]
    simp only [Matrix.mulVec, dotProduct, Finset.mul_sum]
    refine Finset.sum_congr rfl fun i _ => ?_
    rw [Finset.sum_range]
    refine Finset.sum_congr rfl fun j _ => ?_
    rw [← hNS]
    simp
    ring

/-! ### Examples -/

/-- two hits at (1, 1) and (-1, 2), of two events or of one -/
noncomputable def twoHits (oneTrack : Bool) : BWorld ℝ :=
  { hits := fun i => ⟨fun v => match v with
      | .x => if i = 0 then 1 else -1 | .y => (i : ℝ) + 1 | .local_weight => 1 | _ => 0, fun v => match v with
      | .event => if oneTrack then 0 else (i : Int) | _ => 0⟩
    ctx := fun _ => WC.new, hcur := 0, bcur := 0, geo := false }

/-- the first tile is the triangle (0,0), (3,0), (0,4), the second is open -/
def realTiles : HullContent.Tesselation ℝ := ⟨[1, 0], [[-1, 0, 1], [0, 1, 2]], [[0, 0], [3, 0], [0, 4]]⟩

/-- variables x and y, covariance 1, mean (1, 1), no bound -/
noncomputable def unitVW : VW ℝ := ⟨["x", "y"], none, ⟨2, 2, fun i j => if i = j then 1 else 0⟩, 1, [1, 1]⟩

/-- C85_partial: with both local and global weights the first hit gets the weight 6 / (2 pi) -/
example (isGlobal : Bool) : ∃ w', applyWeights .py2 realGauss realExt (fun _ => .ok realTiles)
      (fun _ => [[0, 1, 2]]) unitVW ⟨[0, 1], [some 0, some 1], none, []⟩ isGlobal (twoHits false) = (.ok (), w') ∧
    weightOf w' isGlobal 0 = 6 / Real.sqrt ((2 * Real.pi) ^ 2) ∧ weightOf w' isGlobal 1 = 0 := by
  have hin : ([0, 1] : List Nat) = ([0, 1] : List Nat).filter fun i : Nat => decide (Inside (K := ℝ) none
      (["x", "y"].map fun v => if v = "x" then (if i = 0 then 1 else -1) else (i : ℝ) + 1)) := by
    simp [inside_none]
  obtain ⟨w', h1, h2, -⟩ := C85_partial realExt_lawful realGauss Real.pi_pos (fun _ => .ok realTiles)
    (fun _ => [[0, 1, 2]]) unitVW ⟨[0, 1], [some 0, some 1], none, []⟩ isGlobal (twoHits false)
    (by norm_num [unitVW]) rfl (fun B h => by cases h) (by simp)
    ⟨by simp, fun _ => by simp [twoHits, Core.weightId], fun _ => by simp [WC.WF, twoHits, WC.new, WMap.WF]⟩
    (fun v i => if v = "x" then (if i = 0 then 1 else -1) else (i : ℝ) + 1)
    (by
      intro i hi v hv
      simp only [unitVW, List.mem_cons, List.not_mem_nil, or_false] at hv
      rcases hv with rfl | rfl <;> rfl)
    [0, 1] hin realTiles rfl
    (fun k => if k = 0 then ([0, 1, 2], [[0, 0], [3, 0], [0, 4]]) else ([-1, 0, 1], [[0, 4], [0, 0], [3, 0]]))
    (by
      intro k hk
      have : k = 0 ∨ k = 1 := by simp at hk; omega
      rcases this with rfl | rfl
      · exact ⟨1, rfl, rfl, .cons (.inl ⟨by decide, rfl⟩) (.cons (.inl ⟨by decide, rfl⟩)
          (.cons (.inl ⟨by decide, rfl⟩) .nil))⟩
      · exact ⟨0, rfl, rfl, .cons (.inr ⟨rfl, rfl⟩) (.cons (.inl ⟨by decide, rfl⟩)
          (.cons (.inl ⟨by decide, rfl⟩) .nil))⟩)
  refine ⟨w', h1, ?_, ?_⟩
  · have := h2 0 (by simp)
    simp only [List.getElem_cons_zero] at this
    rw [this]
    have ht : tile (K := ℝ) (fun _ => [[0, 1, 2]]) ([0, 1, 2], [[0, 0], [3, 0], [0, 4]]) = 6 := by
      unfold tile
      rw [if_neg (by decide)]
      simp only [List.map_cons, List.map_nil, List.sum_cons, List.sum_nil, add_zero]
      show HullContent.simplexContent (HullContent.corners _ 2 _) = 6
      rw [HullContent.simplexContent, Matrix.det_fin_two]
      norm_num [HullContent.corners, Nat.factorial]
    simp only [if_true]
    rw [ht, density]
    simp [unitVW, realGauss, realExt]
    ring
  · have := h2 1 (by simp)
    simp only [List.getElem_cons_succ, List.getElem_cons_zero] at this
    rw [this]
    simp [tile]

/-- C85_density: the unit matrix in two dimensions -/
example : ∃ m, new .py2 realLin ["x", "y"] ⟨2, 2, fun i j => if i = j then 1 else 0⟩ (some [1, 1]) none = .ok m ∧
    ∃ f : EuclideanSpace ℝ (Fin 2) → ℝ, ∀ x : Fin 2 → ℝ,
      getPdf realGauss realExt m (List.ofFn x) = .ok (f (WithLp.toLp 2 x)) := by
  have hdet : Mat.det (⟨2, 2, fun i j => if i = j then 1 else 0⟩ : Mat ℝ) ≠ 0 := by
    rw [Mat.det_eq _ 2 rfl, Matrix.det_fin_two]
    norm_num
  obtain ⟨m, hm, -⟩ := (C85_new .py2 realLin realLin_lawful.invLaw ["x", "y"]
    ⟨2, 2, fun i j => if i = j then 1 else 0⟩ (some [1, 1]) none (.inl rfl)).1 rfl rfl hdet
    (by rintro x h; cases h; rfl) (by rintro B h; cases h)
  refine ⟨m, hm, ?_⟩
  obtain ⟨f, hf, -⟩ := C85_density (n := 2) .py2 realLin realLin_lawful.invLaw ["x", "y"] rfl
    ⟨2, 2, fun i j => if i = j then 1 else 0⟩ 1 (by
      intro i j
      rw [Matrix.one_apply]
      simp only [Fin.ext_iff]) Matrix.PosDef.one (fun _ => 1) (some [1, 1]) (.inl rfl) none m hm
  exact ⟨f, hf⟩

/-- C85_track_false: the two hits have the same global weight after apply_weights -/
example : (((twoHits true).hits 0).weightId = ((twoHits true).hits 1).weightId) ∧
    ((twoHits true).ctx (twoHits true).hcur).WF :=
  ⟨rfl, by simp [WC.WF, twoHits, WC.new, WMap.WF]⟩

end Voronoi
end Xboa
