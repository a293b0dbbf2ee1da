import Verif.Model.HullContent
import Verif.Props.FFTTune
import Mathlib.LinearAlgebra.Matrix.Determinant.Basic
import Mathlib.Tactic.LinearCombination
import Mathlib.Tactic.FieldSimp
/-
C84: HullContent gives the contents of Voronoi tiles.
-/
set_option linter.unusedSectionVars false
namespace Xboa
namespace HullContent
variable {K : Type} [Field K] [LinearOrder K] [IsStrictOrderedRing K]

/-! ### Specification -/

/-- The content of the simplex with the corners P 0, ..., P d: the determinant of the edges from P 0,
divided by d!. -/
def simplexContent {d : Nat} (P : Fin (d + 1) → Fin d → K) : K :=
  |Matrix.det (Matrix.of fun (i j : Fin d) => P i.succ j - P 0 j)| / (Nat.factorial d : K)

/-- the corners of a simplex, given by indices of points -/
def corners (points : List (List K)) (d : Nat) (simplex : List Nat) : Fin (d + 1) → Fin d → K :=
  fun i j => (points.getD (simplex.getD i 0) []).getD j 0

/-! ### The Cayley-Menger determinant -/

/-- rows (1, P i) -/
def ones {d : Nat} (P : Fin (d + 1) → Fin d → K) : Matrix (Fin (d + 1)) (Fin (d + 1)) K :=
  Matrix.of fun i => Fin.cons 1 (P i)

theorem det_ones {d : Nat} (P : Fin (d + 1) → Fin d → K) :
    (ones P).det = Matrix.det (Matrix.of fun (i j : Fin d) => P i.succ j - P 0 j) := by
  rw [Matrix.det_eq_of_forall_row_eq_smul_add_const (A := ones P)
    (B := Matrix.of fun i j => if i = 0 then ones P 0 j else ones P i j - ones P 0 j)
    (fun i => if i = 0 then 0 else 1) 0 (by simp) (by
      intro i j
      by_cases h : i = 0
      · simp [h]
      · simp [h])]
  rw [Matrix.det_succ_column_zero, Fin.sum_univ_succ]
  rw [Finset.sum_eq_zero (by
    intro i _
    simp [ones, Fin.succ_ne_zero])]
  simp only [ones, Matrix.of_apply, Fin.cons_zero]
  simp
  congr 1

/-- rows (1, 0, 0) and (|P i|^2, 1, P i) -/
def left {d : Nat} (P : Fin (d + 1) → Fin d → K) (n : Fin (d + 1) → K) :
    Matrix (Fin (d + 2)) (Fin (d + 2)) K :=
  Matrix.of (Fin.cons (Fin.cons 1 0) fun i => Fin.cons (n i) (ones P i))

theorem det_left {d : Nat} (P : Fin (d + 1) → Fin d → K) (n : Fin (d + 1) → K) :
    (left P n).det = (ones P).det := by
  rw [Matrix.det_succ_row_zero, Fin.sum_univ_succ, Finset.sum_eq_zero (by
    intro i _
    simp [left])]
  simp [left]
  congr 1

/-- the matrix of the determinant -/
def cm {d : Nat} (P : Fin (d + 1) → Fin d → K) : Matrix (Fin (d + 2)) (Fin (d + 2)) K :=
  Matrix.of (Fin.cons (Fin.cons 0 fun _ => 1) fun i => Fin.cons 1 fun j => ∑ k, (P i k - P j k) ^ 2)

theorem cm_eq {d : Nat} (P : Fin (d + 1) → Fin d → K) :
    cm P = left P (fun i => ∑ k, P i k ^ 2) *
      ((left (fun i k => -2 * P i k) (fun i => ∑ k, P i k ^ 2)).submatrix id (Equiv.swap 0 1)).transpose := by
  ext a b
  rw [Matrix.mul_apply, Fin.sum_univ_succ, Fin.sum_univ_succ]
  have hs : ∀ k : Fin d, Equiv.swap (0 : Fin (d + 2)) 1 k.succ.succ = k.succ.succ := fun k =>
    Equiv.swap_apply_of_ne_of_ne (Fin.succ_ne_zero _) (by
      rw [← Fin.succ_zero_eq_one]
      intro h
      exact Fin.succ_ne_zero _ (Fin.succ_injective _ h))
  have h1 : Equiv.swap (0 : Fin (d + 2)) 1 (Fin.succ 0) = 0 := by
    rw [Fin.succ_zero_eq_one, Equiv.swap_apply_right]
  simp only [Matrix.transpose_apply, Matrix.submatrix_apply, id, Equiv.swap_apply_left, h1, hs]
  refine Fin.cases ?_ (fun i => ?_) a <;> refine Fin.cases ?_ (fun j => ?_) b
  · simp [cm, left]
  · simp [cm, left, ones]
  · simp [cm, left, ones]
  · simp only [cm, left, ones, Matrix.of_apply, Fin.cons_succ, Fin.cons_zero]
    rw [show (1 : Fin (d + 2)) = Fin.succ 0 from rfl]
    show ∑ k, (P i k - P j k) ^ 2 =
      (∑ k, P i k ^ 2) * 1 + (1 * ∑ k, P j k ^ 2 + ∑ x, P i x * (-2 * P j x))
    rw [mul_one, one_mul, ← Finset.sum_add_distrib, ← Finset.sum_add_distrib]
    apply Finset.sum_congr rfl
    intro k _
    ring

theorem det_cm {d : Nat} (P : Fin (d + 1) → Fin d → K) :
    (cm P).det = -(-2) ^ d * (ones P).det ^ 2 := by
  rw [cm_eq, Matrix.det_mul, Matrix.det_transpose, Matrix.det_permute', Equiv.Perm.sign_swap (by simp),
    det_left, det_left]
  have h : ones (fun i k => -2 * P i k) = Matrix.of fun i j =>
      (Fin.cons 1 (fun _ => -2) : Fin (d + 1) → K) j * ones P i j := by
    ext i j
    refine Fin.cases ?_ (fun k => ?_) j <;> simp [ones]
  rw [h, Matrix.det_mul_row, Fin.prod_univ_succ]
  simp
  ring

theorem cmMatrix_det (points : List (List K)) (d : Nat) (simplex : List Nat) (M : Mat K)
    (h : cmMatrix .py2 points d simplex = .ok M) : M.det = (cm (corners points d simplex)).det := by
  rw [cmMatrix, if_neg (by simp)] at h
  injection h with h
  subst h
  unfold Mat.det
  congr 1
  ext a b
  simp only [Matrix.of_apply]
  refine Fin.cases ?_ (fun i => ?_) a <;> refine Fin.cases ?_ (fun j => ?_) b
  · simp [cm]
  · simp [cm]
  · simp [cm]
  · simp only [cm, Matrix.of_apply, Fin.cons_succ, Fin.val_succ, Nat.add_eq_zero_iff, one_ne_zero,
      and_false, or_self, if_false, Nat.add_right_cancel_iff, Nat.add_sub_cancel]
    by_cases h : i = j
    · subst h
      simp
    · rw [if_neg (by rw [Fin.val_inj]; exact h)]
      unfold lengthSq corners
      exact Finset.sum_range (fun k => ((points.getD (simplex.getD i 0) []).getD k 0 -
        (points.getD (simplex.getD j 0) []).getD k 0) ^ 2)

/-- C84, for all dimensions and all corners: the Cayley-Menger determinant with its coefficient is the
square of the content of the simplex. -/
theorem C84_simplex (points : List (List K)) (d : Nat) (simplex : List Nat) (M : Mat K)
    (h : cmMatrix .py2 points d simplex = .ok M) :
    coefficient d * M.det = simplexContent (corners points d simplex) ^ 2 := by
  rw [cmMatrix_det points d simplex M h, det_cm, det_ones, simplexContent, coefficient, div_pow, sq_abs]
  have h2 : ((-1 : K) ^ (d + 1)) * (-(-2) ^ d) = 2 ^ d := by
    rw [show (-2 : K) = (-1) * 2 by ring, mul_pow, pow_succ]
    have : ((-1 : K) ^ d) * (-1) ^ d = 1 := by rw [← mul_pow]; norm_num
    linear_combination (2 : K) ^ d * this
  have hf : (Nat.factorial d : K) ≠ 0 := Nat.cast_ne_zero.mpr (Nat.factorial_ne_zero d)
  field_simp
  linear_combination
    (Matrix.of fun i j => corners points d simplex i.succ j - corners points d simplex 0 j).det ^ 2 * h2

theorem simplexContent_nonneg {d : Nat} (P : Fin (d + 1) → Fin d → K) : 0 ≤ simplexContent P :=
  div_nonneg (abs_nonneg _) (Nat.cast_nonneg _)

theorem sqrt_sq {E : Ext K} (hE : E.Lawful) {a : K} (ha : 0 ≤ a) : E.sqrt (a ^ 2) = a := by
  have h1 := hE.sqrt_nonneg (a ^ 2) (sq_nonneg a)
  have h2 := hE.sqrt_mul_self (a ^ 2) (sq_nonneg a)
  nlinarith

theorem addContents_py2 {E : Ext K} (hE : E.Lawful) (points : List (List K)) (d : Nat) :
    ∀ (l : List (List Nat)) (c : K), addContents .py2 E points d l c =
      .ok (c + (l.map fun s => simplexContent (corners points d s)).sum)
  | [], c => by simp [addContents]
  | s :: r, c => by
    unfold addContents
    obtain ⟨M, hM⟩ : ∃ M, cmMatrix .py2 points d s = .ok M := by
      rw [cmMatrix, if_neg (by simp)]
      exact ⟨_, rfl⟩
    rw [hM]
    simp only
    rw [addContents_py2 hE points d r, C84_simplex points d s M hM,
      sqrt_sq hE (simplexContent_nonneg _), List.map_cons, List.sum_cons, add_assoc]

/-- C84 (Python 2), for all regions, points and triangulations: the content of a tile is the sum of the
contents of the simplices; it is 0 if the tile has a vertex at infinity or none. -/
theorem C84_content {E : Ext K} (hE : E.Lawful) (delaunay : List (List K) → List (List Nat))
    (region : List Int) (points : List (List K)) :
    tileContent .py2 E delaunay region points =
      .ok (if -1 ∈ region ∨ region = [] then 0
        else ((delaunay points).map fun s =>
          simplexContent (corners points (points.getD 0 []).length s)).sum) := by
  unfold tileContent
  have : (region.contains (-1) ∨ region.length = 0) ↔ (-1 ∈ region ∨ region = []) := by
    simp
  by_cases h : -1 ∈ region ∨ region = []
  · rw [if_pos (this.mpr h), if_pos h]
  · rw [if_neg (fun h' => h (this.mp h')), if_neg h, addContents_py2 hE, zero_add]

/-- C84 is false of Python 3, which the package requires: NameError for every closed tile. -/
theorem C84_py3_false (E : Ext K) (delaunay : List (List K) → List (List Nat)) (region : List Int)
    (points : List (List K)) (h1 : -1 ∉ region) (h2 : region ≠ []) (s : List Nat) (r : List (List Nat))
    (hd : delaunay points = s :: r) (hs : 2 ≤ s.length) :
    tileContent .py3 E delaunay region points = .error .NameError := by
  unfold tileContent
  rw [if_neg (by simp [h1, h2]), hd]
  unfold addContents
  rw [cmMatrix, if_pos ⟨rfl, hs⟩]

/-! ### The list of contents -/

theorem fillJobs_ok (t : Tesselation K) (J : Nat → List Int × List (List K)) :
    ∀ (l : List Nat) (jobs : List (Option (List Int × List (List K)))),
    (∀ i ∈ l, job t i = .ok (J i)) →
    ((∃ i ∈ l, jobs.length ≤ i) → fillJobs t l jobs = .error .IndexError) ∧
    ((∀ i ∈ l, i < jobs.length) → ∃ jobs', fillJobs t l jobs = .ok jobs' ∧ jobs'.length = jobs.length ∧
      ∀ k : Nat, k < jobs.length → jobs'[k]? = if k ∈ l then some (some (J k)) else jobs[k]?)
  | [], jobs, _ => by
    refine ⟨by simp, fun _ => ⟨jobs, rfl, rfl, by simp⟩⟩
  | i :: r, jobs, h => by
    have hi := h i (by simp)
    unfold fillJobs
    rw [hi]
    simp only
    obtain ⟨ih1, ih2⟩ := fillJobs_ok t J r (jobs.set i (some (J i))) (fun k hk => h k (by simp [hk]))
    rw [List.length_set] at ih1 ih2
    constructor
    · rintro ⟨k, hk, hle⟩
      split
      · rename_i hlt
        apply ih1
        rcases List.mem_cons.mp hk with rfl | hk
        · omega
        · exact ⟨k, hk, hle⟩
      · rfl
    · intro hall
      rw [if_pos (hall i (by simp))]
      obtain ⟨jobs', e1, e2, e3⟩ := ih2 (fun k hk => hall k (by simp [hk]))
      refine ⟨jobs', e1, e2, fun k hk => ?_⟩
      rw [e3 k hk]
      by_cases hkr : k ∈ r
      · simp [hkr]
      · rw [if_neg hkr]
        by_cases hki : k = i
        · subst hki
          rw [List.getElem?_set_self hk]
          simp
        · rw [List.getElem?_set_ne (Ne.symm hki), if_neg (by simp [hki, hkr])]

theorem forall₂_mem {α β : Type} {R : α → β → Prop} : ∀ {l : List α} {bs : List β},
    List.Forall₂ R l bs → ∀ {a}, a ∈ l → ∃ b, R a b
  | _, _, .cons h t, a, ha => by
    rcases List.mem_cons.mp ha with rfl | ha
    · exact ⟨_, h⟩
    · exact forall₂_mem t ha

/-- the tile of the point `i`: the region of the point and its vertices, with -1 for the last vertex (it
stands for a vertex at infinity) -/
def IsTile (t : Tesselation K) (i : Nat) (region : List Int) (points : List (List K)) : Prop :=
  ∃ k, t.pointRegion[i]? = some k ∧ t.regions[k]? = some region ∧
    List.Forall₂ (fun (j : Int) p => (0 ≤ j ∧ t.vertices[j.toNat]? = some p) ∨
      (j = -1 ∧ t.vertices.getLast? = some p)) region points

theorem job_tile {t : Tesselation K} {i : Nat} {region : List Int} {points : List (List K)}
    (h : IsTile t i region points) : job t i = .ok (region, points) := by
  obtain ⟨k, h1, h2, h3⟩ := h
  unfold job
  rw [h1]
  simp only
  rw [h2]
  simp only
  have : FFTTune.mapErr (vertex t) region = .ok points := by
    rw [FFTTune.mapErr_ok]
    refine h3.imp ?_
    rintro j p (⟨hj, hp⟩ | ⟨rfl, hp⟩)
    · unfold vertex
      rw [if_neg (show ¬ j < 0 by omega), hp]
      simp only
      rw [if_neg (by omega)]
    · unfold vertex
      rw [if_pos (by norm_num)]
      rw [List.getLast?_eq_getElem?] at hp
      have hn : t.vertices.length - 1 < t.vertices.length := (List.getElem?_eq_some_iff.mp hp).1
      rw [show ((-1 : Int) + (t.vertices.length : Int)).toNat = t.vertices.length - 1 by omega, hp]
      simp only
      rw [if_neg (by omega)]
  rw [this]

/-- C84 (Python 2), for all tesselations and lists of points: if the list holds the points 0, ..., n-1,
each once and in any order, tile_content_list has the content of the tile of point k at k.  (`J i` is
the region of point i with its vertices.)  Partial, because any other list fails: IndexError if there is
a point number not below the length of the list, TypeError otherwise. -/
theorem C84_partial {E : Ext K} (hE : E.Lawful) (delaunay : List (List K) → List (List Nat))
    (t : Tesselation K) (J : Nat → List Int × List (List K)) (l : List Nat)
    (hJ : ∀ i ∈ l, IsTile t i (J i).1 (J i).2) :
    (l.Perm (List.range l.length) →
      recalculate .py2 E delaunay t l = .ok ((List.range l.length).map fun k : Nat =>
        if -1 ∈ (J k).1 ∨ (J k).1 = [] then 0
        else ((delaunay (J k).2).map fun s =>
          simplexContent (corners (J k).2 ((J k).2.getD 0 []).length s)).sum)) ∧
    ((∃ i ∈ l, l.length ≤ i) → recalculate .py2 E delaunay t l = .error .IndexError) ∧
    ((∀ i ∈ l, i < l.length) → ¬ l.Perm (List.range l.length) →
      recalculate .py2 E delaunay t l = .error .TypeError) := by
  obtain ⟨h1, h2⟩ := fillJobs_ok t J l (List.replicate l.length none)
    (fun i hi => job_tile (hJ i hi))
  rw [List.length_replicate] at h1 h2
  refine ⟨?_, ?_, ?_⟩
  · intro hp
    have hall : ∀ i ∈ l, i < l.length := fun i hi => List.mem_range.mp (hp.mem_iff.mp hi)
    obtain ⟨jobs', e1, e2, e3⟩ := h2 hall
    unfold recalculate
    rw [e1]
    simp only
    have : jobs' = (List.range l.length).map fun k : Nat => some (J k) := by
      apply List.ext_getElem?
      intro k
      by_cases hk : k < l.length
      · rw [e3 k hk, if_pos (hp.mem_iff.mpr (List.mem_range.mpr hk)), List.getElem?_map,
          List.getElem?_range hk]
        rfl
      · rw [List.getElem?_eq_none (by omega), List.getElem?_eq_none (by simp; omega)]
    rw [this, FFTTune.mapErr_ok]
    rw [List.forall₂_map_left_iff, List.forall₂_map_right_iff, List.forall₂_same]
    intro k _
    exact C84_content hE delaunay (J k).1 (J k).2
  · intro h
    unfold recalculate
    rw [h1 h]
  · intro hall hp
    obtain ⟨jobs', e1, e2, e3⟩ := h2 hall
    have hmiss : ∃ k < l.length, k ∉ l := by
      by_contra hno
      push Not at hno
      apply hp
      have hsub : List.range l.length ⊆ l := fun k hk => hno k (List.mem_range.mp hk)
      exact ((List.subperm_of_subset List.nodup_range hsub).perm_of_length_le (by simp)).symm
    obtain ⟨k, hk, hkl⟩ := hmiss
    unfold recalculate
    rw [e1]
    simp only
    have hnone : none ∈ jobs' := by
      have := e3 k hk
      rw [if_neg hkl, List.getElem?_replicate_of_lt hk] at this
      exact List.mem_of_getElem? this
    cases hm : FFTTune.mapErr (fun
      | none => .error .TypeError
      | some (region, points) => tileContent .py2 E delaunay region points) jobs' with
    | ok bs =>
      exfalso
      obtain ⟨b, hb⟩ := forall₂_mem (FFTTune.mapErr_ok.mp hm) hnone
      cases hb
    | error e =>
      obtain ⟨a, ha, hf⟩ := FFTTune.mapErr_err hm
      cases a with
      | none =>
        cases hf
        rfl
      | some rp =>
        obtain ⟨region, points⟩ := rp
        simp only at hf
        rw [C84_content hE] at hf
        cases hf

/-! ### Examples -/

/-- C84_simplex: the triangle (0,0), (3,0), (0,4) has the area 6 -/
example : simplexContent (corners [[0, 0], [3, 0], [0, (4 : ℚ)]] 2 [0, 1, 2]) = 6 := by
  rw [simplexContent, Matrix.det_fin_two]
  norm_num [corners, Nat.factorial]

example : ∃ M, cmMatrix .py2 [[0, 0], [3, 0], [0, (4 : ℚ)]] 2 [0, 1, 2] = .ok M ∧
    coefficient 2 * M.det = 36 := by
  refine ⟨_, rfl, ?_⟩
  rw [C84_simplex _ _ _ _ rfl, simplexContent, Matrix.det_fin_two]
  norm_num [corners, Nat.factorial]

/-- two points, the tile of the first is the triangle and that of the second is open -/
def twoTiles : Tesselation ℚ := ⟨[1, 0], [[-1, 0, 1], [0, 1, 2]], [[0, 0], [3, 0], [0, 4]]⟩

/-- the hypotheses of C84_partial -/
example : ∀ i ∈ [0, 1], IsTile twoTiles i (if i = 0 then [0, 1, 2] else [-1, 0, 1])
    (if i = 0 then [[0, 0], [3, 0], [0, 4]] else [[0, 4], [0, 0], [3, 0]]) := by
  intro i hi
  simp only [List.mem_cons, List.not_mem_nil, or_false] at hi
  rcases hi with rfl | rfl
  · exact ⟨1, rfl, rfl, .cons (.inl ⟨by decide, rfl⟩) (.cons (.inl ⟨by decide, rfl⟩)
      (.cons (.inl ⟨by decide, rfl⟩) .nil))⟩
  · exact ⟨0, rfl, rfl, .cons (.inr ⟨rfl, rfl⟩) (.cons (.inl ⟨by decide, rfl⟩)
      (.cons (.inl ⟨by decide, rfl⟩) .nil))⟩

/-- the points of a list that starts at 1 -/
example (E : Ext ℚ) : recalculate .py2 E (fun _ => [[0, 1, 2]]) twoTiles [1] = .error .IndexError := rfl

example (E : Ext ℚ) : tileContent .py3 E (fun _ => [[0, 1, 2]]) [0, 1, 2] [[0, 0], [3, 0], [0, 4]] =
    .error .NameError := rfl

end HullContent
end Xboa
