import Verif.Model.BoundingEllipse
import Verif.Props.Grid
/-
C47 (BoundingEllipse).
-/
set_option linter.unusedSectionVars false
namespace Xboa
variable {K : Type} [Field K] [LinearOrder K] [IsStrictOrderedRing K]

/-- the point `p` lies on or inside the ellipse of matrix inverse `N` about `mean`:
(p - mean)^T N (p - mean) <= 1 -/
def InBound (N : Mat K) (mean p : List K) : Prop :=
  ∑ j ∈ Finset.range mean.length, ∑ k ∈ Finset.range mean.length,
    (p.getD j 0 - mean.getD j 0) * N.entry j k * (p.getD k 0 - mean.getD k 0) ≤ 1

instance (N : Mat K) (mean p : List K) : Decidable (InBound N mean p) :=
  inferInstanceAs (Decidable (_ ≤ _))

theorem quad_delta (N : Mat K) (mean p : List K) (h : p.length = mean.length) :
    ¬ Bunch.quad N (List.zipWith (· - ·) p mean) > 1 ↔ InBound N mean p := by
  have hg : ∀ j, j < mean.length →
      (List.zipWith (· - ·) p mean).getD j 0 = p.getD j 0 - mean.getD j 0 := by
    intro j hj
    have hp : j < p.length := by omega
    simp [List.getD_eq_getElem?_getD, List.getElem?_zipWith, List.getElem?_eq_getElem hp,
      List.getElem?_eq_getElem hj]
  unfold Bunch.quad InBound
  simp only [List.length_zipWith, h, min_self, not_lt, gt_iff_lt]
  rw [Finset.sum_congr rfl fun j hj => Finset.sum_congr rfl fun k hk => by
    rw [hg j (Finset.mem_range.mp hj), hg k (Finset.mem_range.mp hk)]]

theorem cutLoop_spec (b : BoundingEllipse K) :
    ∀ (rest kept : List (List K)) (index : Nat) (notCut : List Nat),
      (∀ p ∈ rest, p.length = b.mean.length) →
      b.cutLoop rest.length (kept ++ rest) kept.length index notCut =
        (kept ++ rest.filter (fun p => decide (InBound b.inv b.mean p)),
         notCut ++ ((rest.zipIdx index).filter
          (fun q => decide (InBound b.inv b.mean q.1))).map Prod.snd)
  | [], kept, index, notCut, _ => by simp [BoundingEllipse.cutLoop]
  | p :: rest, kept, index, notCut, h => by
    have hp : (kept ++ p :: rest).getD kept.length [] = p := by simp [List.getD_eq_getElem?_getD]
    have hq := quad_delta b.inv b.mean p (h p (by simp))
    rw [List.length_cons, BoundingEllipse.cutLoop, if_pos (by simp)]
    simp only [hp, List.zipIdx_cons]
    by_cases hin : InBound b.inv b.mean p
    · rw [if_neg (hq.mpr hin)]
      have ih := cutLoop_spec b rest (kept ++ [p]) (index + 1) (notCut ++ [index])
        (fun q hq => h q (by simp [hq]))
      simp only [List.length_append, List.length_cons, List.length_nil, Nat.zero_add,
        List.append_assoc, List.cons_append, List.nil_append] at ih
      rw [ih]
      simp [hin]
    · rw [if_pos (by by_contra hc; exact hin (hq.mp hc))]
      have he : (kept ++ p :: rest).eraseIdx kept.length = kept ++ rest := by
        rw [List.eraseIdx_append_of_length_le (by omega)]
        simp
      rw [he, cutLoop_spec b rest kept (index + 1) notCut (fun q hq => h q (by simp [hq]))]
      simp [hin]

/-- C47: cut_on_bound returns exactly the points on or inside the ellipse, in their order, and the
list of their positions in the input. -/
theorem C47_cut (b : BoundingEllipse K) (points : List (List K))
    (h : ∀ p ∈ points, p.length = b.mean.length) :
    (b.cutOnBound points).1 = points.filter (fun p => decide (InBound b.inv b.mean p)) ∧
    (b.cutOnBound points).2 = (List.range points.length).filter
      (fun i => decide (InBound b.inv b.mean (points.getD i []))) := by
  have := cutLoop_spec b points [] 0 [] h
  simp only [List.nil_append, List.length_nil] at this
  unfold BoundingEllipse.cutOnBound
  rw [this]
  refine ⟨rfl, ?_⟩
  simp only
  have hz : points.zipIdx = (List.range points.length).map fun i => (points.getD i [], i) := by
    apply List.ext_getElem
    · simp
    · intro i h1 h2
      have : i < points.length := by simpa using h1
      simp [List.getElem?_eq_getElem this]
  rw [hz, List.filter_map, List.map_map]
  simp [Function.comp_def]

/-- C47, consistency of the two results: the points returned are those at the indices returned. -/
theorem C47_indices (b : BoundingEllipse K) (points : List (List K))
    (h : ∀ p ∈ points, p.length = b.mean.length) :
    (b.cutOnBound points).1 = (b.cutOnBound points).2.map (fun i => points.getD i []) := by
  obtain ⟨h1, h2⟩ := C47_cut b points h
  rw [h1, h2]
  have : points = (List.range points.length).map fun i => points.getD i [] := by
    apply List.ext_getElem
    · simp
    · intro i h3 h4
      simp [List.getElem?_eq_getElem h3]
  conv_lhs => rw [this]
  rw [List.filter_map]
  rfl

/-- C47, construction: for a positive definite ellipse, a mean of the same dimension and at least one
point per dimension the ellipse is constructed with the inverse matrix and the given mean; otherwise
ValueError is raised for bad arguments. -/
theorem C47_new {L : LinAlg K} (hL : L.Lawful) {E : Ext K} (hE : E.Lawful) (A : Mat K)
    (mean : List K) (n : Int) :
    (n < 1 ∨ A.cols ≠ A.rows ∨ mean.length ≠ A.rows →
      BoundingEllipse.new L E A mean n = .error .ValueError) ∧
    (1 ≤ n → A.rows = A.cols → 0 < A.rows → mean.length = A.rows → PosDef A →
      ∃ b, BoundingEllipse.new L E A mean n = .ok b ∧ L.inv A = some b.inv ∧ b.mean = mean ∧
        b.boundingPoints ≠ [] ∧
        ∀ p ∈ b.boundingPoints, p.length = mean.length ∧
          ∑ j ∈ Finset.range mean.length, ∑ k ∈ Finset.range mean.length,
            (p.getD j 0 - mean.getD j 0) * b.inv.entry j k * (p.getD k 0 - mean.getD k 0) = 1) := by
  constructor
  · intro h
    unfold BoundingEllipse.new
    by_cases h1 : n < 1
    · simp [h1]
    · by_cases h2 : A.cols = A.rows
      · have h3 : mean.length ≠ A.rows := by tauto
        simp [h1, h2, h3]
      · simp [h1, h2]
  · intro h1 hsq hd hm hA
    obtain ⟨N, hinv, hpos⟩ := posDef_inv hL A hsq hA
    have hgl : ∀ v ∈ (Common.makeGrid A.rows n.toNat : List (List K)), v.length = A.rows := by
      intro v hv
      by_cases hn : 2 ≤ n.toNat
      · exact ((C35_grid A.rows n.toNat hn).2.2 v |>.mp hv).1
      · rw [C35_single A.rows n.toNat (by omega)] at hv
        rw [List.mem_singleton.mp hv]
        simp
    have hcorner : List.replicate A.rows (-1 : K) ∈
        (Common.makeGrid A.rows n.toNat : List (List K)) := by
      by_cases hn : 2 ≤ n.toNat
      · exact (C35_cube A.rows n.toNat hn).1 _ (by simp) (fun x hx =>
          Or.inl (List.eq_of_mem_replicate hx))
      · rw [C35_single A.rows n.toNat (by omega)]; simp
    obtain ⟨out, e1, e2⟩ := shellLoop_spec hE N (List.replicate A.rows 0)
      (Common.makeGrid A.rows n.toNat) (fun v hv hx => hpos v (hgl v hv) hx)
    have hms : Common.makeShell L E n.toNat A none = .ok out := by
      simp [Common.makeShell, hsq.symm, hinv, e1]
    refine ⟨⟨A.rows, out.map fun row => (List.range A.rows).map fun j =>
      row.getD j 0 + mean.getD j 0, N, mean⟩, ?_, hinv, rfl, ?_, ?_⟩
    · unfold BoundingEllipse.new
      have : ¬ n < 1 := by omega
      simp [this, hsq.symm, hm, hms, hinv]
    · simp only [ne_eq, List.map_eq_nil_iff]
      intro h0
      rw [h0] at e2
      have e3 := List.forall₂_nil_right_iff.mp e2
      have : List.replicate A.rows (-1 : K) ∈ ((Common.makeGrid A.rows n.toNat).filter
          fun v : List K => decide (1 / 1000000000 < normSq v)) := by
        rw [List.mem_filter]
        refine ⟨hcorner, ?_⟩
        have hone : (1 : K) ≤ (A.rows : K) := by exact_mod_cast hd
        have : normSq (List.replicate A.rows (-1 : K)) = (A.rows : K) := by simp [normSq]
        rw [decide_eq_true_iff, this]
        refine lt_of_lt_of_le ?_ hone
        norm_num
      rw [e3] at this
      simp at this
    · intro p hp
      obtain ⟨row, hrow, rfl⟩ := List.mem_map.mp hp
      refine ⟨by simp [hm], ?_⟩
      obtain ⟨v, hv, s, hs, hr, hq⟩ : ∃ v ∈ (Common.makeGrid A.rows n.toNat : List (List K)),
          OnShell N (List.replicate A.rows 0) v row := by
        obtain ⟨i, hi, rfl⟩ := List.getElem_of_mem hrow
        have hl := e2.length_eq
        have := (List.forall₂_iff_get.mp e2).2 i (by omega) hi
        exact ⟨_, (List.mem_filter.mp (List.getElem_mem _)).1, this⟩
      have hvl := hgl v hv
      have hrv : ∀ j, j < A.rows → row.getD j 0 = (v.map (· * s)).getD j 0 := by
        intro j hj
        have : j < v.length := by omega
        rw [hr]
        simp [List.getD_eq_getElem?_getD, List.getElem?_zipWith, List.getElem?_eq_getElem this, hj]
      rw [← hq]
      unfold quadForm
      simp only [List.length_map, hvl, hm]
      refine Finset.sum_congr rfl fun j hj => Finset.sum_congr rfl fun k hk => ?_
      have hj' := Finset.mem_range.mp hj
      have hk' := Finset.mem_range.mp hk
      have e : ∀ i, i < A.rows → ((List.range A.rows).map fun j =>
          row.getD j 0 + mean.getD j 0).getD i 0 - mean.getD i 0 = (v.map (· * s)).getD i 0 := by
        intro i hi
        rw [← hrv i hi]
        simp [List.getD_eq_getElem?_getD, hi]
      rw [e j hj', e k hk']

/-- case for C47: an ellipse with semi axes 2 and 1 about (1, 0); the second point is outside -/
example : (⟨2, [], ⟨2, 2, fun i j => if i = j then (if i = 0 then 1 / 4 else 1) else 0⟩, [1, 0]⟩ :
    BoundingEllipse ℚ).cutOnBound [[3, 0], [3, 1], [1, -1]] = ([[3, 0], [1, -1]], [0, 2]) := by
  decide +kernel

end Xboa
