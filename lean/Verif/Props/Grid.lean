import Verif.Model.Grid
import Verif.Props.Optics
import Mathlib.Data.List.Nodup
import Mathlib.Tactic.Linarith
import Mathlib.LinearAlgebra.Matrix.ToLinearEquiv
/-
C35 (make_grid, make_shell).
-/
set_option linter.unusedSectionVars false
namespace Xboa
variable {K : Type} [Field K] [LinearOrder K] [IsStrictOrderedRing K]

/-- position `j` of `n` evenly spaced positions from -1 to 1 -/
def gridPos (n j : Nat) : K := 2 * (j : K) / ((n - 1 : Nat) : K) - 1

theorem gridPos_inj (n : Nat) (hn : 2 ≤ n) (i j : Nat) (h : (gridPos n i : K) = gridPos n j) :
    i = j := by
  unfold gridPos at h
  have h0 : ((n - 1 : Nat) : K) ≠ 0 := by
    have : n - 1 ≠ 0 := by omega
    exact_mod_cast this
  have h1 : 2 * (i : K) / ((n - 1 : Nat) : K) = 2 * (j : K) / ((n - 1 : Nat) : K) := by linarith
  rw [div_left_inj' h0] at h1
  have h2 : (i : K) = j := by linarith
  exact_mod_cast h2

/-- grid points of which the coordinates below `k` are set -/
def GridPt (d n k : Nat) (v : List K) : Prop :=
  v.length = d ∧ (∀ i, i < k → i < d → ∃ j, j < n ∧ v.getD i 0 = gridPos n j) ∧
    ∀ i, k ≤ i → i < d → v.getD i 0 = -1

theorem getD_set (v : List K) (i j : Nat) (x : K) (hi : i < v.length) :
    (v.set i x).getD j 0 = if j = i then x else v.getD j 0 := by
  rw [List.getD_eq_getElem?_getD, List.getElem?_set, List.getD_eq_getElem?_getD]
  by_cases h : i = j
  · subst h; simp [hi]
  · rw [if_neg h, if_neg (Ne.symm h)]

theorem ext_getD (u v : List K) (h : u.length = v.length)
    (he : ∀ i, i < u.length → u.getD i 0 = v.getD i 0) : u = v := by
  apply List.ext_getElem h
  intro i h1 h2
  have := he i h1
  simpa [List.getD_eq_getElem?_getD, h1, h2] using this

theorem gridStep_spec (d n k : Nat) (hn : 2 ≤ n) (hk : k < d) (acc : List (List K))
    (hmem : ∀ v, v ∈ acc ↔ GridPt d n k v) (hnd : acc.Nodup) :
    (∀ v, v ∈ Common.gridStep n acc k ↔ GridPt d n (k + 1) v) ∧ (Common.gridStep n acc k).Nodup ∧
    (Common.gridStep n acc k).length = n * acc.length := by
  have hpos : ∀ j : Nat, (2 * ((j + 1 : Nat) : K) / ((n - 1 : Nat) : K) - 1) = gridPos n (j + 1) :=
    fun j => rfl
  have hzero : (gridPos n 0 : K) = -1 := by simp [gridPos]
  have hacc : ∀ v ∈ acc, v.length = d ∧ v.getD k 0 = -1 := by
    intro v hv
    have := (hmem v).mp hv
    exact ⟨this.1, this.2.2 k le_rfl hk⟩
  refine ⟨?_, ?_, ?_⟩
  · intro v
    simp only [Common.gridStep, List.mem_append, List.mem_flatMap, List.mem_range, List.mem_map, hpos]
    constructor
    · rintro (hv | ⟨j, hj, u, hu, rfl⟩)
      · obtain ⟨h1, h2, h3⟩ := (hmem v).mp hv
        refine ⟨h1, fun i hi hid => ?_, fun i hi hid => h3 i (by omega) hid⟩
        by_cases hik : i < k
        · exact h2 i hik hid
        · exact ⟨0, by omega, by rw [h3 i (by omega) hid, hzero]⟩
      · obtain ⟨h1, h2, h3⟩ := (hmem u).mp hu
        refine ⟨by simp [h1], fun i hi hid => ?_, fun i hi hid => ?_⟩
        · rw [getD_set u k i _ (by omega)]
          by_cases hik : i = k
          · rw [if_pos hik]; exact ⟨j + 1, by omega, rfl⟩
          · rw [if_neg hik]; exact h2 i (by omega) hid
        · rw [getD_set u k i _ (by omega), if_neg (by omega)]
          exact h3 i (by omega) hid
    · rintro ⟨h1, h2, h3⟩
      obtain ⟨j, hj, hvj⟩ := h2 k (by omega) hk
      cases j with
      | zero =>
        left
        rw [hmem]
        refine ⟨h1, fun i hi hid => h2 i (by omega) hid, fun i hi hid => ?_⟩
        by_cases hik : i = k
        · rw [hik, hvj, hzero]
        · exact h3 i (by omega) hid
      | succ j =>
        right
        refine ⟨j, by omega, v.set k (-1), ?_, ?_⟩
        · rw [hmem]
          refine ⟨by simp [h1], fun i hi hid => ?_, fun i hi hid => ?_⟩
          · rw [getD_set v k i _ (by omega), if_neg (by omega)]
            exact h2 i (by omega) hid
          · rw [getD_set v k i _ (by omega)]
            by_cases hik : i = k
            · rw [if_pos hik]
            · rw [if_neg hik]; exact h3 i (by omega) hid
        · apply ext_getD
          · simp
          · intro i hi
            rw [getD_set _ k i _ (by simp; omega), getD_set v k i _ (by omega)]
            by_cases hik : i = k
            · rw [if_pos hik, hik, hvj]
            · rw [if_neg hik, if_neg hik]
  · simp only [Common.gridStep, hpos]
    rw [List.nodup_append]
    refine ⟨hnd, ?_, ?_⟩
    · rw [List.nodup_flatMap]
      constructor
      · intro j hj
        apply List.Nodup.map_on _ hnd
        intro u hu v hv huv
        apply ext_getD
        · rw [(hacc u hu).1, (hacc v hv).1]
        · intro i hi
          by_cases hik : i = k
          · rw [hik, (hacc u hu).2, (hacc v hv).2]
          · have := congrArg (fun l => List.getD l i 0) huv
            rwa [getD_set u k i _ (by rw [(hacc u hu).1]; exact hk),
              getD_set v k i _ (by rw [(hacc v hv).1]; exact hk), if_neg hik, if_neg hik] at this
      · apply List.Pairwise.imp _ List.nodup_range
        intro a b hab
        simp only [Function.onFun]
        rw [List.disjoint_iff_ne]
        rintro x hx y hy rfl
        simp only [List.mem_map] at hx hy
        obtain ⟨u, hu, hxu⟩ := hx
        obtain ⟨v, hv, hxv⟩ := hy
        have e1 := congrArg (fun l => List.getD l k 0) hxu
        have e2 := congrArg (fun l => List.getD l k 0) hxv
        rw [getD_set u k k _ (by rw [(hacc u hu).1]; exact hk), if_pos rfl] at e1
        rw [getD_set v k k _ (by rw [(hacc v hv).1]; exact hk), if_pos rfl] at e2
        rw [← e2] at e1
        have := gridPos_inj n hn _ _ e1
        omega
    · rintro x hx y hy rfl
      simp only [List.mem_flatMap, List.mem_map] at hy
      obtain ⟨j, _, u, hu, hxu⟩ := hy
      have e1 := congrArg (fun l => List.getD l k 0) hxu
      rw [getD_set u k k _ (by rw [(hacc u hu).1]; exact hk), if_pos rfl, (hacc x hx).2, ← hzero] at e1
      have := gridPos_inj n hn _ _ e1
      omega
  · simp only [Common.gridStep, List.length_append, List.length_flatMap, List.length_map]
    rw [List.map_const', List.sum_replicate, List.length_range]
    obtain ⟨m, rfl⟩ : ∃ m, n = m + 1 := ⟨n - 1, by omega⟩
    simp only [Nat.add_sub_cancel, smul_eq_mul]
    ring

/-- C35, grid: for n >= 2 the grid consists of n^d pairwise distinct points, exactly the vectors of
length d all of whose coordinates are among the n evenly spaced positions. -/
theorem C35_grid (d n : Nat) (hn : 2 ≤ n) :
    (Common.makeGrid d n : List (List K)).length = n ^ d ∧
    (Common.makeGrid d n : List (List K)).Nodup ∧
    ∀ v : List K, v ∈ Common.makeGrid d n ↔
      v.length = d ∧ ∀ x ∈ v, ∃ j, j < n ∧ x = gridPos n j := by
  have h : ∀ k, k ≤ d →
      (∀ v : List K, v ∈ (List.range k).foldl (Common.gridStep n) [List.replicate d (-1)] ↔
        GridPt d n k v) ∧
      ((List.range k).foldl (Common.gridStep n) [List.replicate d (-1 : K)]).Nodup ∧
      ((List.range k).foldl (Common.gridStep n) [List.replicate d (-1 : K)]).length = n ^ k := by
    intro k
    induction k with
    | zero =>
      intro _
      refine ⟨fun v => ?_, by simp, by simp⟩
      simp only [List.range_zero, List.foldl_nil, List.mem_singleton, GridPt]
      constructor
      · rintro rfl
        refine ⟨by simp, by intro i hi; omega, fun i _ hi => ?_⟩
        simp [List.getD_eq_getElem?_getD, hi]
      · rintro ⟨h1, _, h3⟩
        apply ext_getD
        · simp [h1]
        · intro i hi
          rw [h3 i (by omega) (by omega)]
          simp [List.getD_eq_getElem?_getD, (show i < d by omega)]
    | succ k ih =>
      intro hk
      obtain ⟨h1, h2, h3⟩ := ih (by omega)
      rw [List.range_succ, List.foldl_append, List.foldl_cons, List.foldl_nil]
      obtain ⟨g1, g2, g3⟩ := gridStep_spec d n k hn (by omega) _ h1 h2
      exact ⟨g1, g2, by rw [g3, h3, pow_succ]; ring⟩
  obtain ⟨h1, h2, h3⟩ := h d le_rfl
  refine ⟨h3, h2, fun v => ?_⟩
  rw [Common.makeGrid, h1]
  constructor
  · rintro ⟨e1, e2, _⟩
    refine ⟨e1, fun x hx => ?_⟩
    obtain ⟨i, hi, rfl⟩ := List.getElem_of_mem hx
    have := e2 i (by omega) (by omega)
    simpa [List.getD_eq_getElem?_getD, hi] using this
  · rintro ⟨e1, e2⟩
    refine ⟨e1, fun i _ hi => ?_, fun i hi hi' => by omega⟩
    have := e2 v[i] (List.getElem_mem _)
    simpa [List.getD_eq_getElem?_getD, (show i < v.length by omega)] using this

/-- C35: the corners (all coordinates -1 or 1) belong to the grid, and the grid is in the cube. -/
theorem C35_cube (d n : Nat) (hn : 2 ≤ n) :
    (∀ v : List K, v.length = d → (∀ x ∈ v, x = -1 ∨ x = 1) → v ∈ Common.makeGrid d n) ∧
    ∀ v : List K, v ∈ Common.makeGrid d n → ∀ x ∈ v, -1 ≤ x ∧ x ≤ 1 := by
  have h0 : (0 : K) < ((n - 1 : Nat) : K) := by
    have : 0 < n - 1 := by omega
    exact_mod_cast this
  constructor
  · intro v hv hx
    rw [(C35_grid d n hn).2.2]
    refine ⟨hv, fun x hxv => ?_⟩
    rcases hx x hxv with rfl | rfl
    · exact ⟨0, by omega, by simp [gridPos]⟩
    · refine ⟨n - 1, by omega, ?_⟩
      unfold gridPos
      rw [mul_div_assoc, div_self h0.ne']
      norm_num
  · intro v hv x hx
    obtain ⟨j, hj, rfl⟩ := ((C35_grid d n hn).2.2 v).mp hv |>.2 x hx
    unfold gridPos
    have h1 : (0 : K) ≤ 2 * (j : K) / ((n - 1 : Nat) : K) := by positivity
    have h2 : 2 * (j : K) / ((n - 1 : Nat) : K) ≤ 2 := by
      rw [div_le_iff₀ h0]
      have : (j : K) ≤ ((n - 1 : Nat) : K) := by
        have : j ≤ n - 1 := by omega
        exact_mod_cast this
      linarith
    exact ⟨by linarith, by linarith⟩

/-- C35, few points: for n <= 1 the grid is the single corner (-1, ..., -1), also for n = 0. -/
theorem C35_single (d n : Nat) (hn : n ≤ 1) :
    (Common.makeGrid d n : List (List K)) = [List.replicate d (-1)] := by
  have hs : ∀ (acc : List (List K)) i, Common.gridStep n acc i = acc := by
    intro acc i
    have : n - 1 = 0 := by omega
    simp [Common.gridStep, this]
  unfold Common.makeGrid
  generalize [List.replicate d (-1 : K)] = acc
  induction (List.range d) generalizing acc with
  | nil => rfl
  | cons i r ih => rw [List.foldl_cons, hs, ih]

/-! #### make_shell -/

/-- sum of squares -/
def normSq (v : List K) : K := (v.map (fun x => x * x)).sum

theorem normSq_ge {v : List K} {x : K} (h : x ∈ v) : x * x ≤ normSq v := by
  induction v with
  | nil => simp at h
  | cons y r ih =>
    have hr : 0 ≤ normSq r := by
      clear ih h
      induction r with
      | nil => simp [normSq]
      | cons z r ih =>
        simp only [normSq, List.map_cons, List.sum_cons] at ih ⊢
        nlinarith [mul_self_nonneg z]
    simp only [normSq, List.map_cons, List.sum_cons] at ih hr ⊢
    rcases List.mem_cons.mp h with rfl | h
    · linarith
    · have := ih h
      nlinarith [mul_self_nonneg y]

theorem normSq_pos_iff (v : List K) : normSq v ≠ 0 ↔ ∃ x ∈ v, x ≠ 0 := by
  constructor
  · intro h
    by_contra hcon
    push Not at hcon
    apply h
    unfold normSq
    rw [List.map_congr_left (g := fun _ => (0 : K)) (fun x hx => by rw [hcon x hx, mul_zero])]
    simp
  · rintro ⟨x, hx, hx0⟩ h
    have := normSq_ge hx
    rw [h] at this
    have := mul_self_pos.mpr hx0
    linarith

theorem quad_smul (N : Mat K) (v : List K) (s : K) :
    Bunch.quad N (v.map (· * s)) = s * s * Bunch.quad N v := by
  unfold Bunch.quad
  simp only [List.length_map, Finset.mul_sum]
  apply Finset.sum_congr rfl
  intro j hj
  apply Finset.sum_congr rfl
  intro k hk
  rw [Finset.mem_range] at hj hk
  simp only [List.getD_eq_getElem?_getD, List.getElem?_map, List.getElem?_eq_getElem hj,
    List.getElem?_eq_getElem hk, Option.map_some, Option.getD_some]
  ring

/-- v^T M v -/
def quadForm (M : Mat K) (v : List K) : K :=
  ∑ j ∈ Finset.range v.length, ∑ k ∈ Finset.range v.length, v.getD j 0 * M.entry j k * v.getD k 0

/-- `o` is the point `v` scaled on to the ellipsoid of the matrix inverse `N` about `mean` -/
def OnShell (N : Mat K) (mean v o : List K) : Prop :=
  ∃ s, 0 < s ∧ o = List.zipWith (· + ·) (v.map (· * s)) mean ∧ quadForm N (v.map (· * s)) = 1

theorem shellLoop_spec {E : Ext K} (hE : E.Lawful) (N : Mat K) (mean : List K) :
    ∀ grid : List (List K), (∀ v ∈ grid, (∃ x ∈ v, x ≠ 0) → 0 < Bunch.quad N v) →
      ∃ out, Common.shellLoop E N mean grid = .ok out ∧
        List.Forall₂ (OnShell N mean)
          (grid.filter fun v => decide (1 / 1000000000 < normSq v)) out
  | [], _ => ⟨[], rfl, .nil⟩
  | v :: r, h => by
    obtain ⟨out, h1, h2⟩ := shellLoop_spec hE N mean r (fun u hu => h u (by simp [hu]))
    by_cases hv : 1 / 1000000000 < normSq v
    · have hq : 0 < Bunch.quad N v := by
        apply h v (by simp)
        rw [← normSq_pos_iff]
        have : (0 : K) < 1 / 1000000000 := by norm_num
        exact (this.trans hv).ne'
      have hs0 := hE.sqrt_nonneg _ hq.le
      have hs := hE.sqrt_mul_self _ hq.le
      have hsp : 0 < E.sqrt (Bunch.quad N v) := by
        rcases hs0.lt_or_eq with h | h
        · exact h
        · rw [← h] at hs; simp at hs; exact absurd hs hq.ne
      refine ⟨List.zipWith (· + ·) (v.map (· * (1 / E.sqrt (Bunch.quad N v)))) mean :: out, ?_, ?_⟩
      · have hv' : (v.map (fun x => x * x)).sum > 1 / 1000000000 := hv
        simp only [Common.shellLoop, hv', if_true, Common.normaliseVector, not_lt.mpr hq.le, hq.ne',
          if_false, h1]
      · rw [List.filter_cons_of_pos (by simpa using hv)]
        refine .cons ⟨_, one_div_pos.mpr hsp, rfl, ?_⟩ h2
        show Bunch.quad N _ = 1
        rw [quad_smul]
        have : 1 / E.sqrt (Bunch.quad N v) * (1 / E.sqrt (Bunch.quad N v)) =
            1 / (E.sqrt (Bunch.quad N v) * E.sqrt (Bunch.quad N v)) := by field_simp
        rw [this, hs]
        field_simp
    · refine ⟨out, ?_, ?_⟩
      · have hv' : ¬ (v.map (fun x => x * x)).sum > 1 / 1000000000 := hv
        simp only [Common.shellLoop, hv', if_false, h1]
      · rw [List.filter_cons_of_neg (by simpa using hv)]
        exact h2

/-- make_shell returns one point for every grid point with |v|^2 > 1e-9, in order. -/
theorem makeShell_spec {L : LinAlg K} {E : Ext K} (hE : E.Lawful) (n : Nat) (A N : Mat K)
    (hsq : A.rows = A.cols) (hinv : L.inv A = some N)
    (hpos : ∀ v : List K, v.length = A.rows → (∃ x ∈ v, x ≠ 0) → 0 < Bunch.quad N v)
    (mean : Option (List K)) (hmean : ∀ m, mean = some m → m.length = A.rows) (hn : 2 ≤ n) :
    ∃ out, Common.makeShell L E n A mean = .ok out ∧
      List.Forall₂ (OnShell N (mean.getD (List.replicate A.rows 0)))
        ((Common.makeGrid A.rows n).filter fun v => decide (1 / 1000000000 < normSq v)) out := by
  obtain ⟨out, h1, h2⟩ := shellLoop_spec hE N (mean.getD (List.replicate A.rows 0))
    (Common.makeGrid A.rows n) (fun v hv hx =>
      hpos v ((C35_grid A.rows n hn).2.2 v |>.mp hv).1 hx)
  refine ⟨out, ?_, h2⟩
  have hm : (mean.getD (List.replicate A.rows 0)).length = A.rows := by
    cases hmm : mean with
    | none => simp
    | some m => simpa using hmean m hmm
  simp only [Common.makeShell, hsq.symm, ne_eq, not_true_eq_false, if_false, hinv, hm, h1]

/-- the quadratic form v^T A v is positive except for v = 0 -/
def PosDef (A : Mat K) : Prop :=
  ∀ v : List K, v.length = A.rows → (∃ x ∈ v, x ≠ 0) → 0 < quadForm A v

theorem quad_ofFn (A : Mat K) (d : Nat) (u : Fin d → K) :
    Bunch.quad A (List.ofFn u) = ∑ i : Fin d, ∑ j : Fin d, u i * A.entry i j * u j := by
  have h : ∀ i : Fin d, (List.ofFn u).getD i 0 = u i := by
    intro i
    rw [List.getD_eq_getElem?_getD, List.getElem?_ofFn]
    simp
  unfold Bunch.quad
  simp only [List.length_ofFn]
  rw [Finset.sum_range]
  apply Finset.sum_congr rfl
  intro i _
  rw [Finset.sum_range]
  apply Finset.sum_congr rfl
  intro j _
  rw [h i, h j]

theorem posDef_inv {L : LinAlg K} (hL : L.Lawful) (A : Mat K) (hsq : A.rows = A.cols)
    (hA : PosDef A) : ∃ N, L.inv A = some N ∧
      ∀ v : List K, v.length = A.rows → (∃ x ∈ v, x ≠ 0) → 0 < Bunch.quad N v := by
  have hA' : ∀ u : Fin A.rows → K, u ≠ 0 →
      0 < ∑ i, u i * (Matrix.of fun i j : Fin A.rows => A.entry i j).mulVec u i := by
    intro u hu
    obtain ⟨i, hi⟩ := Function.ne_iff.mp hu
    have : 0 < Bunch.quad A (List.ofFn u) := hA (List.ofFn u) (by simp) ⟨u i, by simp, hi⟩
    rw [quad_ofFn] at this
    refine this.trans_eq (Finset.sum_congr rfl fun i _ => ?_)
    simp only [Matrix.mulVec, dotProduct, Finset.mul_sum, Matrix.of_apply]
    exact Finset.sum_congr rfl fun j _ => by ring
  have hdet : A.det ≠ 0 := by
    intro h0
    obtain ⟨u, hu, h1⟩ := Matrix.exists_mulVec_eq_zero_iff.mpr h0
    have := hA' u hu
    rw [h1] at this
    simp at this
  obtain ⟨N, hN⟩ := hL.inv_ok A hsq hdet
  obtain ⟨hr, hc, hmul⟩ := hL.inv_mul A N hsq hN
  refine ⟨N, hN, fun v hv hx => ?_⟩
  obtain ⟨u, rfl⟩ : ∃ u : Fin A.rows → K, v = List.ofFn u := by
    refine ⟨fun i => v[i.1]'(by rw [hv]; exact i.2), ?_⟩
    apply List.ext_getElem (by simp [hv])
    intro i h1 h2
    simp
  have hu : u ≠ 0 := by
    rintro rfl
    obtain ⟨x, hx, hx0⟩ := hx
    simp only [List.mem_ofFn] at hx
    obtain ⟨i, rfl⟩ := hx
    exact hx0 rfl
  have hNA : (Matrix.of fun i j : Fin A.rows => N.entry i j) *
      (Matrix.of fun i j : Fin A.rows => A.entry i j) = 1 := by
    ext i j
    have := hmul i j i.2 j.2
    simp only [Mat.mul, hc, Finset.sum_range] at this
    rw [Matrix.mul_apply, Matrix.one_apply]
    simp only [Matrix.of_apply, this, Fin.ext_iff]
  have hAN := mul_eq_one_comm.mp hNA
  let w := (Matrix.of fun i j : Fin A.rows => N.entry i j).mulVec u
  have hw : (Matrix.of fun i j : Fin A.rows => A.entry i j).mulVec w = u := by
    simp only [w]
    rw [Matrix.mulVec_mulVec, hAN, Matrix.one_mulVec]
  have hw0 : w ≠ 0 := by
    intro h
    rw [h, Matrix.mulVec_zero] at hw
    exact hu hw.symm
  have := hA' w hw0
  rw [hw] at this
  rw [quad_ofFn]
  refine this.trans_eq (Finset.sum_congr rfl fun i _ => ?_)
  simp only [w, Matrix.mulVec, dotProduct, Finset.sum_mul, Matrix.of_apply]
  exact Finset.sum_congr rfl fun j _ => by ring

/-- C35_partial, shell: for a positive definite ellipse and 2 <= n <= 31623 points per dimension,
make_shell returns exactly one point for every non-central grid point, in order, scaled on to the
ellipsoid (and shifted by the mean): n^d points if n is even, n^d - 1 if n is odd.
Missing: larger n (false there, see C35_false). -/
theorem C35_partial {L : LinAlg K} (hL : L.Lawful) {E : Ext K} (hE : E.Lawful) (n : Nat) (A : Mat K)
    (hsq : A.rows = A.cols) (hd : 0 < A.rows) (hA : PosDef A)
    (mean : Option (List K)) (hmean : ∀ m, mean = some m → m.length = A.rows)
    (hn : 2 ≤ n) (hn' : n ≤ 31623) :
    ∃ N out, L.inv A = some N ∧ Common.makeShell L E n A mean = .ok out ∧
      List.Forall₂ (OnShell N (mean.getD (List.replicate A.rows 0)))
        ((Common.makeGrid A.rows n).filter fun v => decide (∃ x ∈ v, x ≠ 0)) out ∧
      out.length = if n % 2 = 0 then n ^ A.rows else n ^ A.rows - 1 := by
  obtain ⟨N, hinv, hpos⟩ := posDef_inv hL A hsq hA
  obtain ⟨out, h1, h2⟩ := makeShell_spec hE n A N hsq hinv hpos mean hmean hn
  obtain ⟨g1, g2, g3⟩ := C35_grid (K := K) A.rows n hn
  have h0 : (0 : K) < ((n - 1 : Nat) : K) := by
    have : 0 < n - 1 := by omega
    exact_mod_cast this
  have hfil : ((Common.makeGrid A.rows n).filter fun v : List K => decide (1 / 1000000000 < normSq v)) =
      (Common.makeGrid A.rows n).filter fun v => decide (∃ x ∈ v, x ≠ 0) := by
    apply List.filter_congr
    intro v hv
    rw [decide_eq_decide]
    constructor
    · intro h
      rw [← normSq_pos_iff]
      have : (0 : K) < 1 / 1000000000 := by norm_num
      exact (this.trans h).ne'
    · rintro ⟨x, hx, hx0⟩
      refine lt_of_lt_of_le ?_ (normSq_ge hx)
      obtain ⟨j, hj, rfl⟩ := ((g3 v).mp hv).2 x hx
      have hx1 : (gridPos n j : K) = ((2 * (j : ℤ) - ((n - 1 : Nat) : ℤ) : ℤ) : K) /
          ((n - 1 : Nat) : K) := by
        unfold gridPos
        push_cast
        field_simp
      rw [hx1] at hx0 ⊢
      generalize hz : (2 * (j : ℤ) - ((n - 1 : Nat) : ℤ) : ℤ) = z at *
      have hz0 : z ≠ 0 := by rintro rfl; simp at hx0
      have hz1 : (1 : K) ≤ (z : K) * z := by
        have : (1 : ℤ) ≤ z * z := by nlinarith [mul_self_pos.mpr hz0]
        exact_mod_cast this
      have hb : (((n - 1 : Nat) : K)) * ((n - 1 : Nat) : K) < 1000000000 := by
        have : (n - 1) * (n - 1) < 1000000000 := by
          have : n - 1 ≤ 31622 := by omega
          nlinarith
        exact_mod_cast this
      rw [div_mul_div_comm, div_lt_div_iff₀ (by norm_num) (mul_pos h0 h0)]
      linarith
  rw [hfil] at h2
  refine ⟨N, out, hinv, h1, h2, ?_⟩
  rw [← h2.length_eq]
  have hcentre : ∀ v : List K, v ∈ Common.makeGrid A.rows n → ((¬ ∃ x ∈ v, x ≠ 0) ↔
      v = List.replicate A.rows 0) := by
    intro v hv
    have hl := ((g3 v).mp hv).1
    rw [List.eq_replicate_iff]
    push Not
    simp [hl]
  by_cases hpar : n % 2 = 0
  · rw [if_pos hpar, ← g1, List.filter_eq_self.mpr]
    intro v hv
    simp only [decide_eq_true_eq]
    by_contra hcon
    rw [hcentre v hv] at hcon
    obtain ⟨j, hj, hj0⟩ := ((g3 v).mp hv).2 0 (by rw [hcon]; simp [List.mem_replicate]; omega)
    have h2 : 2 * (j : K) = ((n - 1 : Nat) : K) := by
      unfold gridPos at hj0
      field_simp at hj0
      linarith
    have : 2 * j = n - 1 := by exact_mod_cast h2
    omega
  · rw [if_neg hpar, ← g1]
    have hmem : List.replicate A.rows (0 : K) ∈ Common.makeGrid A.rows n := by
      rw [g3]
      refine ⟨by simp, fun x hx => ⟨(n - 1) / 2, by omega, ?_⟩⟩
      rw [(List.mem_replicate.mp hx).2]
      unfold gridPos
      have : 2 * (((n - 1) / 2 : Nat) : K) = ((n - 1 : Nat) : K) := by
        have : 2 * ((n - 1) / 2) = n - 1 := by omega
        exact_mod_cast this
      rw [this, div_self h0.ne', sub_self]
    have hf : ((Common.makeGrid A.rows n).filter fun v : List K => decide (∃ x ∈ v, x ≠ 0)) =
        (Common.makeGrid A.rows n).filter (fun v => v != List.replicate A.rows 0) := by
      apply List.filter_congr
      intro v hv
      have := hcentre v hv
      by_cases hc : ∃ x ∈ v, x ≠ 0
      · rw [decide_eq_true hc]
        have : v ≠ List.replicate A.rows 0 := fun e => (this.mpr e) hc
        simp [this]
      · rw [decide_eq_false hc]
        simp [this.mp hc]
    rw [hf, ← g2.erase_eq_filter, List.length_erase_of_mem hmem]

/-- C35_false: with more points the squared distance of the innermost points is below the tolerance
1e-9 and they are dropped although they are not central.  In one dimension with 31624 points (an
even number), fewer than 31624 points are returned, for every positive definite ellipse. -/
theorem C35_false {L : LinAlg K} (hL : L.Lawful) {E : Ext K} (hE : E.Lawful) (A : Mat K)
    (hsq : A.rows = A.cols) (hd : A.rows = 1) (hA : PosDef A) :
    ∃ out, Common.makeShell L E 31624 A none = .ok out ∧ out.length < 31624 ^ A.rows := by
  obtain ⟨N, hinv, hpos⟩ := posDef_inv hL A hsq hA
  obtain ⟨out, h1, h2⟩ := makeShell_spec hE 31624 A N hsq hinv hpos none (by simp) (by norm_num)
  obtain ⟨g1, g2, g3⟩ := C35_grid (K := K) A.rows 31624 (by norm_num)
  refine ⟨out, h1, ?_⟩
  rw [← h2.length_eq, ← g1, List.length_filter_lt_length_iff_exists]
  refine ⟨[gridPos 31624 15812], ?_, ?_⟩
  · rw [g3]
    refine ⟨by simp [hd], fun x hx => ⟨15812, by norm_num, by simpa using hx⟩⟩
  · have : normSq [(gridPos 31624 15812 : K)] ≤ 1 / 1000000000 := by
      simp only [normSq, gridPos, List.map_cons, List.map_nil, List.sum_cons, List.sum_nil]
      norm_num
    simpa using this

/-- case for C35_partial and C35_false: the ellipse (4) in one dimension -/
theorem exPosDef : PosDef (⟨1, 1, fun _ _ => 4⟩ : Mat ℝ) := by
  intro v hv hx
  match v, hv with
  | [a], _ =>
    have ha : a ≠ 0 := by simpa using hx
    simp only [quadForm, List.length_singleton, Finset.sum_range_one, List.getD_cons_zero]
    have := mul_self_pos.mpr ha
    linarith

example : ∃ N out, realLin.inv ⟨1, 1, fun _ _ => 4⟩ = some N ∧
    Common.makeShell realLin realExt 3 ⟨1, 1, fun _ _ => 4⟩ (some [5]) = .ok out ∧
    List.Forall₂ (OnShell N [5])
      ((Common.makeGrid 1 3).filter fun v => decide (∃ x ∈ v, x ≠ 0)) out ∧ out.length = 2 := by
  simpa using C35_partial realLin_lawful realExt_lawful 3 ⟨1, 1, fun _ _ => 4⟩ rfl one_pos exPosDef
    (some [5]) (by simp) (by norm_num) (by norm_num)

example : (Common.makeGrid 2 3 : List (List ℚ)) =
    [[-1, -1], [0, -1], [1, -1], [-1, 0], [0, 0], [1, 0], [-1, 1], [0, 1], [1, 1]] := by
  decide +kernel

end Xboa
