import Verif.Model.Smoothing
import Mathlib.Algebra.Order.BigOperators.Ring.Finset
import Mathlib.Algebra.BigOperators.Field
import Mathlib.Algebra.Order.Field.Basic
import Mathlib.Tactic.Linarith
import Mathlib.Tactic.Ring
import Mathlib.Tactic.FieldSimp
import Mathlib.Analysis.SpecialFunctions.Exp
/-
C45 (GaussianSmoothing), C65 (CutSmoothing).
-/
set_option linter.unusedSectionVars false
namespace Xboa
variable {K : Type} [Field K] [LinearOrder K] [IsStrictOrderedRing K]

theorem gaussian_length (exp : K → K) (sigma : K) (r : Nat) (adjust : Bool) (x : List K) :
    (Smoothing.gaussian exp sigma r adjust x).length = x.length := by
  simp [Smoothing.gaussian]

theorem gaussian_getD (exp : K → K) (sigma : K) (r : Nat) (adjust : Bool) (x : List K) (i : Nat)
    (hi : i < x.length) : (Smoothing.gaussian exp sigma r adjust x).getD i 0 =
      Smoothing.smoothOne (Smoothing.gaussWeight exp sigma r) r
        (Smoothing.gaussNorm (Smoothing.gaussWeight exp sigma r) r adjust) x i := by
  simp [Smoothing.gaussian, List.getD_eq_getElem?_getD, hi]

/-- C45, shape: the smoothed signal is a weighted mean, with Gaussian weights
exp(-(s-i)^2 / (2 sigma^2)), of the data at most range_ away from i. -/
theorem C45_weighted_mean (exp : K → K) (hexp : ∀ a, 0 < exp a) (sigma : K) (r : Nat) (x : List K)
    (i : Nat) (hi : i < x.length) :
    (Smoothing.gaussian exp sigma r true x).length = x.length ∧
    (Smoothing.gaussian exp sigma r true x).getD i 0 *
      (∑ s ∈ (Finset.range x.length).filter (fun s => s ≤ i + r ∧ i ≤ s + r),
        exp (-((s : K) - i) ^ 2 / (2 * sigma ^ 2))) =
      ∑ s ∈ (Finset.range x.length).filter (fun s => s ≤ i + r ∧ i ≤ s + r),
        exp (-((s : K) - i) ^ 2 / (2 * sigma ^ 2)) * x.getD s 0 := by
  refine ⟨gaussian_length _ _ _ _ _, ?_⟩
  have hset : (Finset.range x.length).filter (fun s => s ≤ i + r ∧ i ≤ s + r) =
      Finset.Ico (i - r) (min x.length (i + r + 1)) := by
    ext s
    simp only [Finset.mem_filter, Finset.mem_range, Finset.mem_Ico]
    omega
  have hw : ∀ s ∈ Finset.Ico (i - r) (min x.length (i + r + 1)),
      Smoothing.gaussWeight exp sigma r (s + r - i) =
        exp (-((s : K) - i) ^ 2 / (2 * sigma ^ 2)) := by
    intro s hs
    rw [Finset.mem_Ico] at hs
    unfold Smoothing.gaussWeight
    rw [Nat.cast_sub (by omega)]
    push_cast
    congr 2
    ring
  rw [hset, gaussian_getD _ _ _ _ _ _ hi]
  simp only [Smoothing.smoothOne, Smoothing.gaussNorm, if_true]
  rw [← Finset.sum_congr rfl hw,
    ← Finset.sum_congr rfl (fun s hs => by rw [hw s hs] :
      ∀ s ∈ Finset.Ico (i - r) (min x.length (i + r + 1)),
        Smoothing.gaussWeight exp sigma r (s + r - i) * x.getD s 0 =
          exp (-((s : K) - i) ^ 2 / (2 * sigma ^ 2)) * x.getD s 0)]
  rw [← Finset.sum_div, div_mul_cancel₀]
  apply ne_of_gt
  apply Finset.sum_pos (fun s _ => hexp _)
  exact ⟨i, by rw [Finset.mem_Ico]; omega⟩

/-- C45, bounds: no smoothed value is outside the range of the data it is made of. -/
theorem C45_bounds (exp : K → K) (hexp : ∀ a, 0 < exp a) (sigma : K) (r : Nat) (x : List K)
    (lo hi : K) (h : ∀ v ∈ x, lo ≤ v ∧ v ≤ hi) :
    ∀ v ∈ Smoothing.gaussian exp sigma r true x, lo ≤ v ∧ v ≤ hi := by
  intro v hv
  obtain ⟨i, hil, rfl⟩ := List.getElem_of_mem hv
  have hi' : i < x.length := by rwa [gaussian_length] at hil
  obtain ⟨_, hm⟩ := C45_weighted_mean exp hexp sigma r x i hi'
  rw [List.getD_eq_getElem?_getD, List.getElem?_eq_getElem hil, Option.getD_some] at hm
  set S := (Finset.range x.length).filter (fun s => s ≤ i + r ∧ i ≤ s + r) with hS
  have hWpos : 0 < ∑ s ∈ S, exp (-((s : K) - i) ^ 2 / (2 * sigma ^ 2)) := by
    apply Finset.sum_pos (fun s _ => hexp _)
    exact ⟨i, by rw [hS, Finset.mem_filter, Finset.mem_range]; omega⟩
  have hx : ∀ s ∈ S, lo ≤ x.getD s 0 ∧ x.getD s 0 ≤ hi := by
    intro s hs
    rw [hS, Finset.mem_filter, Finset.mem_range] at hs
    rw [List.getD_eq_getElem?_getD, List.getElem?_eq_getElem hs.1, Option.getD_some]
    exact h _ (List.getElem_mem _)
  constructor
  · rw [← mul_le_mul_iff_left₀ hWpos, hm, Finset.mul_sum]
    apply Finset.sum_le_sum
    intro s hs
    rw [mul_comm]
    exact mul_le_mul_of_nonneg_left (hx s hs).1 (hexp _).le
  · rw [← mul_le_mul_iff_left₀ hWpos, hm, Finset.mul_sum]
    apply Finset.sum_le_sum
    intro s hs
    rw [mul_comm hi]
    exact mul_le_mul_of_nonneg_left (hx s hs).2 (hexp _).le

/-- C45, constants: a constant signal is not changed. -/
theorem C45_constant (exp : K → K) (hexp : ∀ a, 0 < exp a) (sigma : K) (r n : Nat) (c : K) :
    Smoothing.gaussian exp sigma r true (List.replicate n c) = List.replicate n c := by
  rw [List.eq_replicate_iff]
  refine ⟨by simp [gaussian_length], fun v hv => ?_⟩
  have := C45_bounds exp hexp sigma r (List.replicate n c) c c
    (fun u hu => by rw [(List.mem_replicate.mp hu).2]; exact ⟨le_rfl, le_rfl⟩) v hv
  exact le_antisymm this.2 this.1

/-- C45, linearity, with and without boundary adjustment. -/
theorem C45_linear (exp : K → K) (sigma : K) (r : Nat) (adjust : Bool) (x y : List K)
    (hxy : x.length = y.length) (a b : K) :
    Smoothing.gaussian exp sigma r adjust (List.zipWith (fun u v => a * u + b * v) x y) =
      List.zipWith (fun u v => a * u + b * v) (Smoothing.gaussian exp sigma r adjust x)
        (Smoothing.gaussian exp sigma r adjust y) := by
  apply List.ext_getElem
  · simp [gaussian_length]
  · intro i h1 h2
    have hi : i < x.length := by
      rw [gaussian_length] at h1
      simp at h1
      omega
    simp only [Smoothing.gaussian, List.getElem_map, List.getElem_range, List.getElem_zipWith,
      Smoothing.smoothOne, List.length_zipWith, hxy, min_self]
    generalize Smoothing.gaussNorm (Smoothing.gaussWeight exp sigma r) r adjust = nm
    generalize (match nm with
      | none => ∑ s ∈ Finset.Ico (i - r) (min y.length (i + r + 1)),
          Smoothing.gaussWeight exp sigma r (s + r - i)
      | some n => n) = N
    rw [Finset.mul_sum, Finset.mul_sum, ← Finset.sum_add_distrib]
    apply Finset.sum_congr rfl
    intro s hs
    rw [Finset.mem_Ico] at hs
    have hsx : s < x.length := by omega
    have hsy : s < y.length := by omega
    simp only [List.getD_eq_getElem?_getD, List.getElem?_zipWith, List.getElem?_eq_getElem hsx,
      List.getElem?_eq_getElem hsy, Option.getD_some]
    ring

/-- C45, interior: at least range_ away from both ends the option makes no difference. -/
theorem C45_interior (exp : K → K) (sigma : K) (r : Nat) (x : List K) (i : Nat) (h1 : r ≤ i)
    (h2 : i + r < x.length) :
    (Smoothing.gaussian exp sigma r false x).getD i 0 =
      (Smoothing.gaussian exp sigma r true x).getD i 0 := by
  rw [gaussian_getD _ _ _ _ _ _ (by omega), gaussian_getD _ _ _ _ _ _ (by omega)]
  have hN : (∑ w ∈ Finset.range (2 * r + 1), Smoothing.gaussWeight exp sigma r w) =
      ∑ s ∈ Finset.Ico (i - r) (min x.length (i + r + 1)),
        Smoothing.gaussWeight exp sigma r (s + r - i) := by
    rw [show min x.length (i + r + 1) = (i - r) + (2 * r + 1) by omega,
      Finset.sum_Ico_eq_sum_range]
    rw [show (i - r) + (2 * r + 1) - (i - r) = 2 * r + 1 by omega]
    apply Finset.sum_congr rfl
    intro w _
    congr 1
    omega
  simp only [Smoothing.smoothOne, Smoothing.gaussNorm, if_true, Bool.false_eq_true, if_false, hN]

/-- C45: without boundary adjustment the outputs near the ends are smaller: a constant signal is not
kept there (the documented behaviour of the option). -/
example : (Smoothing.gaussian (fun _ => (1 : ℚ)) 1 1 false [3, 3, 3]) = [2, 3, 2] := by
  decide +kernel

/-- the hypothesis of C45 is met by the exponential function -/
example : ∀ v ∈ Smoothing.gaussian Real.exp 2 1 true [1, 5, 2], 1 ≤ v ∧ v ≤ 5 :=
  C45_bounds Real.exp Real.exp_pos 2 1 [1, 5, 2] 1 5 (by norm_num)

/-! ### C65 -/

/-- C65 is false: CutSmoothing.smooth returns nothing for any signal, it always raises (an integer
division was meant). -/
theorem C65_false (step : Int) (signal : List K) :
    Smoothing.cutSmooth step signal =
      .error (if step = 0 then .ZeroDivisionError else .TypeError) := by
  unfold Smoothing.cutSmooth Smoothing.cutSmoothTable
  by_cases h : step = 0 <;> simp [h]

/-- C65_partial, what remains: a table whose columns differ in length is refused with IndexError, and
no table is returned at all. -/
theorem C65_partial (step : Int) (table : List (List K)) (target : Nat) :
    (∀ out, Smoothing.cutSmoothTable step table target ≠ .ok out) ∧
    ((∃ c ∈ table, ∃ c' ∈ table, c.length ≠ c'.length) →
      Smoothing.cutSmoothTable step table target = .error .IndexError) := by
  unfold Smoothing.cutSmoothTable
  constructor
  · intro out
    split
    · simp
    · split
      · simp
      · split <;> simp
  · rintro ⟨c, hc, c', hc', hne⟩
    split
    · rfl
    · rename_i signal _
      have : (table.any fun c => c.length != signal.length) = true := by
        rw [List.any_eq_true]
        by_cases h : c.length = signal.length
        · exact ⟨c', hc', by simpa using fun h' => hne (h.trans h'.symm)⟩
        · exact ⟨c, hc, by simpa using h⟩
      rw [if_pos this]

example : Smoothing.cutSmooth 2 [(1 : ℚ), 2, 3, 4] = .error .TypeError := by decide +kernel

/-! ### C65 in Python 2 -/

section
open Smoothing

/-- The window of position `j` of a signal with at least `step` values: the complete window that it is
in, or the last `step` values if it is behind the last complete window. -/
def windowOf (step : Nat) (x : List K) (j : Nat) : List K :=
  if j < x.length / step * step then (x.drop (j / step * step)).take step else x.drop (x.length - step)

/-- The value at `j` is not further than `cut` from the mean of the list `l`. -/
def CloseToWindow (cut : K) (x l : List K) (j : Nat) : Prop := |x.getD j 0 - l.sum / (l.length : K)| ≤ cut

open Classical in
/-- The values of a column at the positions with `P`, in order. -/
noncomputable def atPositions (P : Nat → Prop) (c : List K) : List K :=
  ((List.range c.length).filter fun j => decide (P j)).map fun j => c.getD j 0

theorem markWindow_length (x : List K) (m cut : K) (lo len : Nat) (marks : List Bool) :
    (markWindow x m cut lo len marks).length = marks.length := by
  unfold markWindow
  induction len generalizing lo marks with
  | zero => rfl
  | succ k ih => rw [List.range'_succ, List.foldl_cons, ih]; simp

theorem markWindow_getD (x : List K) (m cut : K) (lo len : Nat) (marks : List Bool) (j : Nat) :
    (markWindow x m cut lo len marks).getD j false =
      if lo ≤ j ∧ j < lo + len ∧ j < marks.length then decide (|x.getD j 0 - m| > cut)
      else marks.getD j false := by
  induction len generalizing lo marks with
  | zero =>
    rw [if_neg (by omega)]; rfl
  | succ k ih =>
    have : markWindow x m cut lo (k + 1) marks =
        markWindow x m cut (lo + 1) k (marks.set lo (decide (|x.getD lo 0 - m| > cut))) := by
      unfold markWindow; rw [List.range'_succ, List.foldl_cons]
    rw [this, ih]
    simp only [List.length_set]
    by_cases hj : j = lo
    · subst hj
      rw [if_neg (by omega)]
      by_cases hl : j < marks.length
      · rw [if_pos ⟨le_rfl, by omega, hl⟩]
        simp [List.getD_eq_getElem?_getD, hl]
      · rw [if_neg (fun h => hl h.2.2), List.set_eq_of_length_le (by omega)]
    · have e : (marks.set lo (decide (|x.getD lo 0 - m| > cut))).getD j false = marks.getD j false := by
        simp only [List.getD_eq_getElem?_getD]
        rw [List.getElem?_set_ne (Ne.symm hj)]
      rw [e]
      by_cases h : lo ≤ j ∧ j < lo + (k + 1) ∧ j < marks.length
      · rw [if_pos h, if_pos ⟨by omega, by omega, h.2.2⟩]
      · rw [if_neg h, if_neg (by omega)]

/-- the marks of the complete windows -/
theorem windows_getD (x : List K) (cut : K) (step : Nat) (hs : 0 < step) (k : Nat)
    (hk : k * step ≤ x.length) :
    let marks := (List.range k).foldl
      (fun marks i => markWindow x (mean ((x.drop (i * step)).take ((i + 1) * step - i * step))) cut
        (i * step) ((i + 1) * step - i * step) marks) (List.replicate x.length false)
    marks.length = x.length ∧ ∀ j, marks.getD j false =
      if j < k * step then decide (|x.getD j 0 - mean ((x.drop (j / step * step)).take step)| > cut)
      else false := by
  induction k with
  | zero =>
    refine ⟨by simp, fun j => ?_⟩
    simp [List.getD_eq_getElem?_getD, List.getElem?_replicate]
    split <;> rfl
  | succ k ih =>
    have e : (k + 1) * step = k * step + step := Nat.succ_mul k step
    obtain ⟨h1, h2⟩ := ih (by omega)
    simp only [List.range_succ, List.foldl_append, List.foldl_cons, List.foldl_nil]
    refine ⟨by rw [markWindow_length]; exact h1, fun j => ?_⟩
    rw [markWindow_getD, h2 j, h1, e, Nat.add_sub_cancel_left]
    by_cases hj : k * step ≤ j ∧ j < k * step + step
    · have hd : j / step = k := by
        apply Nat.div_eq_of_lt_le
        · rw [Nat.mul_comm] at hj; rw [Nat.mul_comm]; exact hj.1
        · rw [e]; exact hj.2
      rw [if_pos ⟨hj.1, hj.2, by omega⟩, if_pos hj.2, hd]
    · rw [if_neg (fun h => hj ⟨h.1, h.2.1⟩)]
      by_cases h' : j < k * step
      · rw [if_pos h', if_pos (by omega)]
      · rw [if_neg h', if_neg (by omega)]

theorem willCut_getD (x : List K) (cut : K) (step : Nat) (hs : 0 < step) :
    (willCut cut step x).length = x.length ∧ ∀ j, j < x.length → (willCut cut step x).getD j false =
      decide (|x.getD j 0 - (if j < x.length / step * step then mean ((x.drop (j / step * step)).take step)
        else mean (lastSlice x step))| > cut) := by
  have hle := Nat.div_mul_le_self x.length step
  obtain ⟨h1, h2⟩ := windows_getD x cut step hs (x.length / step) hle
  unfold willCut
  refine ⟨by rw [markWindow_length]; exact h1, fun j hj => ?_⟩
  rw [markWindow_getD, h2 j, h1]
  by_cases h : j < x.length / step * step
  · rw [if_neg (by omega), if_pos h, if_pos h]
  · rw [if_pos ⟨by omega, by omega, hj⟩, if_neg h]

/-- deleting the marked positions one by one leaves the others -/
theorem deleteMarked_eq (marks : List Bool) (c : List K) (h : c.length = marks.length) :
    deleteMarked marks c =
      ((List.range c.length).filter fun j => !marks.getD j false).map fun j => c.getD j 0 := by
  have key : ∀ k, k ≤ c.length →
      let p := (List.range k).foldl
        (fun (p : List K × Nat) i => if marks.getD i false then (p.1.eraseIdx (i - p.2), p.2 + 1) else p) (c, 0)
      let kept := ((List.range k).filter fun j => !marks.getD j false).map fun j => c.getD j 0
      p.1 = kept ++ c.drop k ∧ p.2 + kept.length = k := by
    intro k
    induction k with
    | zero => intro _; simp
    | succ k ih =>
      intro hk
      obtain ⟨g1, g2⟩ := ih (by omega)
      simp only [List.range_succ, List.foldl_append, List.foldl_cons, List.foldl_nil, List.filter_append,
        List.map_append]
      have hdrop : c.drop k = c.getD k 0 :: c.drop (k + 1) := by
        rw [List.drop_eq_getElem_cons (by omega)]
        simp [List.getD_eq_getElem?_getD, show k < c.length by omega]
      by_cases hm : marks.getD k false = true
      · rw [if_pos hm]
        simp only [hm, List.filter_cons, List.filter_nil, Bool.not_true, Bool.false_eq_true, if_false,
          List.map_nil, List.append_nil]
        refine ⟨?_, by omega⟩
        rw [g1, show k - _ = _ from by rw [Nat.sub_eq_iff_eq_add' (by omega)]; exact g2.symm,
          List.eraseIdx_append_of_length_le (by omega), Nat.sub_self, hdrop]
        rfl
      · rw [if_neg hm]
        rw [Bool.not_eq_true] at hm
        simp only [hm, List.filter_cons, List.filter_nil, Bool.not_false, if_true,
          List.map_cons, List.map_nil]
        refine ⟨?_, by rw [List.length_append, List.length_singleton]; omega⟩
        rw [g1, hdrop]
        simp
  have := (key c.length le_rfl).1
  unfold deleteMarked
  rw [← h, this]
  simp

/-- what smooth_table returns in Python 2 -/
theorem cutSmoothTable2_ok (cut : K) (step : Nat) (hs : 0 < step) (table : List (List K)) (target : Nat)
    (x : List K) (hx : table[target]? = some x) (hlen : ∀ c ∈ table, c.length = x.length) :
    cutSmoothTable2 cut step table target = .ok (table.map (atPositions fun j =>
      CloseToWindow cut x (if j < x.length / step * step then (x.drop (j / step * step)).take step
        else lastSlice x step) j)) := by
  unfold cutSmoothTable2
  rw [hx]
  have h1 : (table.any fun c => c.length != x.length) = false := by
    rw [List.any_eq_false]; intro c hc; simpa using hlen c hc
  simp only [h1, Bool.false_eq_true, if_false, Nat.pos_iff_ne_zero.mp hs]
  congr 1
  apply List.map_congr_left
  intro c hc
  obtain ⟨m1, m2⟩ := willCut_getD x cut step hs
  rw [deleteMarked_eq _ _ (by rw [m1, hlen c hc])]
  unfold atPositions
  congr 1
  apply List.filter_congr
  intro j hj
  rw [m2 j (by rw [← hlen c hc]; simpa using hj)]
  unfold CloseToWindow Smoothing.mean
  beta_reduce
  have e : ∀ y : K, (!decide (y > cut)) = decide (y ≤ cut) := by
    intro y
    by_cases hy : y ≤ cut
    · simp [hy]
    · simp [hy, lt_of_not_ge hy]
  by_cases h : j < x.length / step * step
  · simp only [if_pos h, e]
  · simp only [if_neg h, e]

/-- **C65 in Python 2**, for signals with at least `step` values: smooth_table returns, of every column,
the values at the positions where the target column is not further than cut_range from the mean of its
window, in order. -/
theorem C65_python2_partial (cut : K) (step : Nat) (hs : 0 < step) (table : List (List K)) (target : Nat)
    (x : List K) (hx : table[target]? = some x) (hlen : ∀ c ∈ table, c.length = x.length)
    (hn : step ≤ x.length) :
    cutSmoothTable2 cut step table target =
      .ok (table.map (atPositions fun j => CloseToWindow cut x (windowOf step x j) j)) := by
  rw [cutSmoothTable2_ok cut step hs table target x hx hlen]
  simp only [windowOf, lastSlice, if_pos hn]

/-- C65 in Python 2: smooth of a signal -/
theorem C65_signal_partial (cut : K) (step : Nat) (hs : 0 < step) (x : List K) (hn : step ≤ x.length) :
    cutSmooth2 cut step x = .ok (atPositions (fun j => CloseToWindow cut x (windowOf step x j) j) x) := by
  unfold cutSmooth2
  rw [C65_python2_partial cut step hs [x] 0 x rfl (by simp) hn]
  rfl

/-- C65 in Python 2: nothing is cut from a constant signal -/
theorem C65_constant (cut a : K) (hc : 0 ≤ cut) (step n : Nat) (hs : 0 < step) (hn : step ≤ n) :
    cutSmooth2 cut step (List.replicate n a) = .ok (List.replicate n a) := by
  have hmean : ∀ k, 0 < k → (List.replicate k a).sum / ((List.replicate k a).length : K) = a := by
    intro k hk
    have : (k : K) ≠ 0 := Nat.cast_ne_zero.mpr (by omega)
    simp [List.sum_replicate]
    field_simp
  rw [C65_signal_partial cut step hs _ (by simpa using hn)]
  congr 1
  unfold atPositions
  have hall : ∀ j ∈ List.range (List.replicate n a).length,
      CloseToWindow cut (List.replicate n a) (windowOf step (List.replicate n a) j) j := by
    intro j hj
    have hj' : j < n := by simpa using hj
    have hg : (List.replicate n a).getD j 0 = a := by
      simp [List.getD_eq_getElem?_getD, hj']
    unfold CloseToWindow windowOf
    rw [hg]
    have e : ∀ k, 0 < k → |a - (List.replicate k a).sum / ((List.replicate k a).length : K)| ≤ cut := by
      intro k hk; rw [hmean k hk]; simpa using hc
    split
    · rename_i h
      rw [List.length_replicate] at h
      rw [List.drop_replicate, List.take_replicate]
      apply e
      have : j / step * step ≤ j := Nat.div_mul_le_self j step
      omega
    · rw [List.drop_replicate, List.length_replicate]
      apply e
      omega
  rw [List.filter_eq_self.mpr (fun j hj => by simpa using hall j hj)]
  apply List.ext_getElem
  · simp
  · intro i h1 h2
    simp [List.getD_eq_getElem?_getD]
    have : i < n := by simpa using h2
    simp [this]

/-- C65 is false in Python 2 as well when the window is longer than the signal: with five values and
step 7 all values are within 2 of the mean, but the mean is taken over the last two values, and the
others are cut. -/
theorem C65_short_false : cutSmooth2 (2 : ℚ) 7 [0, 0, 0, 3, 3] = .ok [3, 3] ∧
    ∀ j, j < 5 → CloseToWindow (2 : ℚ) [0, 0, 0, 3, 3] [0, 0, 0, 3, 3] j := by
  constructor
  · decide +kernel
  · intro j hj
    have h : j = 0 ∨ j = 1 ∨ j = 2 ∨ j = 3 ∨ j = 4 := by omega
    unfold CloseToWindow
    rcases h with rfl | rfl | rfl | rfl | rfl <;> decide +kernel

/-- two windows of three values and a remainder of one; the second column follows the first -/
example : cutSmoothTable2 (3 : ℚ) 3 [[0, 0, 9, 1, 1, 1, 100], [1, 2, 3, 4, 5, 6, 7]] 0 =
    .ok [[0, 0, 1, 1, 1], [1, 2, 4, 5, 6]] := by decide +kernel

example : cutSmoothTable2 (3 : ℚ) 3 [[0, 0, 9, 1, 1, 1, 100], [1, 2, 3, 4, 5, 6, 7]] 0 = .ok
    ([[0, 0, 9, 1, 1, 1, 100], [1, 2, 3, 4, 5, 6, 7]].map (atPositions fun j => CloseToWindow (3 : ℚ)
      [0, 0, 9, 1, 1, 1, 100] (windowOf 3 [0, 0, 9, 1, 1, 1, 100] j) j)) :=
  C65_python2_partial 3 3 (by simp) _ 0 _ rfl (by simp) (by simp)

end

end Xboa
