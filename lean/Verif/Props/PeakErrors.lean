import Verif.Model.PeakErrors
import Verif.Props.PeakFinder
import Mathlib.Tactic.LinearCombination
import Mathlib.Tactic.FieldSimp
import Mathlib.Tactic.NormNum
import Mathlib.Tactic.Ring
import Mathlib.Tactic.Positivity
import Mathlib.Tactic.IntervalCases
import Mathlib.Tactic.Set
import Mathlib.Data.List.Nodup
import Mathlib.Algebra.Order.BigOperators.Group.List
import Mathlib.Algebra.BigOperators.Ring.List
/-
C106: UphillDownhillPeakFinder.find_peak_errors_derivative.
-/
set_option linter.unusedSectionVars false
namespace Xboa
namespace PeakErrors
variable {K : Type} [Field K] [LinearOrder K] [IsStrictOrderedRing K]

/-! ### Specification -/

/-- the positions no further than `delta` from the peak that have a successor -/
def near (data : List K) (delta peak : Nat) : List Nat :=
  (List.range data.length).filter fun i : Nat => decide (i + 1 < data.length ∧ |(i : Int) - peak| ≤ delta)

/-- the increase of the data at a position -/
def rise (data : List K) (i : Nat) : K := data.getD (i + 1) 0 - data.getD i 0

/-- the graph fitted: positions over the increase -/
def graph (data : List K) (delta peak : Nat) : List (K × K) :=
  (near data delta peak).map fun i : Nat => (rise data i, (i : K))

/-- the sum of the squares of the residuals of the line x = c + m y -/
def residuals (pts : List (K × K)) (p : K × K) : K := (pts.map fun q => (q.2 - (p.1 + p.2 * q.1)) ^ 2).sum

/-- the fit is a least squares fit -/
def LeastSquares (F : LineFitter K) : Prop := ∀ pts p, pts ≠ [] → residuals pts (F.fit pts) ≤ residuals pts p

/-- the data rise differently at two positions near the peak -/
def Bends (data : List K) (delta peak : Nat) : Prop :=
  ∃ i ∈ near data delta peak, ∃ j ∈ near data delta peak, rise data i ≠ rise data j

/-! ### Lemmas -/

theorem derivative_length (data : List K) : (PeakFinder.derivative data).length = data.length - 1 := by
  simp [PeakFinder.derivative]

theorem derivative_getD (data : List K) {i : Nat} (h : i + 1 < data.length) :
    (PeakFinder.derivative data).getD i 0 = rise data i := by
  have : i < data.length - 1 := by omega
  simp [PeakFinder.derivative, rise, List.getD_eq_getElem?_getD, this]

theorem points_eq (data : List K) (delta peak : Nat) : points data delta peak = graph data delta peak := by
  have h : near data delta peak =
      (List.range (min (peak + delta + 1) (data.length - 1) - (peak - delta))).map
        (fun i => peak - delta + i) := by
    refine List.Perm.eq_of_pairwise (le := (· < ·)) ?_ ?_ ?_ ?_
    · intro a b _ _ h1 h2; omega
    · exact List.Pairwise.filter _ List.pairwise_lt_range
    · rw [List.pairwise_map]
      exact List.pairwise_lt_range.imp (by intros; omega)
    · refine (List.perm_ext_iff_of_nodup (List.nodup_range.filter _) ?_).2 ?_
      · exact List.nodup_range.map (fun a b h => by simpa using h)
      · intro a
        simp only [List.mem_filter, List.mem_range, List.mem_map, decide_eq_true_eq, abs_le]
        constructor
        · rintro ⟨h1, h2, h3, h4⟩
          exact ⟨a - (peak - delta), by omega, by omega⟩
        · rintro ⟨i, h1, rfl⟩
          exact ⟨by omega, by omega, by omega, by omega⟩
  simp only [points, graph]
  rw [h, List.map_map, derivative_length]
  refine List.map_congr_left fun i hi => ?_
  rw [List.mem_range] at hi
  rw [derivative_getD data (by omega)]
  rfl

theorem graph_ne (data : List K) {delta peak : Nat} (h : near data delta peak ≠ []) :
    graph data delta peak ≠ [] := by
  simpa [graph] using h

theorem sq_sum_zero {α : Type} {l : List α} {f : α → K} (h : (l.map fun a => f a ^ 2).sum ≤ 0) :
    ∀ a ∈ l, f a = 0 := by
  induction l with
  | nil => simp
  | cons a r ih =>
    have hn : 0 ≤ (r.map fun a => f a ^ 2).sum :=
      List.sum_nonneg (by simp only [List.mem_map]; rintro _ ⟨b, _, rfl⟩; exact sq_nonneg _)
    simp only [List.map_cons, List.sum_cons] at h
    have h0 := sq_nonneg (f a)
    intro b hb
    rcases List.mem_cons.1 hb with rfl | hb
    · exact pow_eq_zero_iff (two_ne_zero) |>.1 (by linarith)
    · exact ih (by linarith) b hb

/-- the residuals of the mean of two lines -/
theorem residuals_mid (pts : List (K × K)) (p q : K × K) :
    4 * residuals pts ((p.1 + q.1) / 2, (p.2 + q.2) / 2) +
      (pts.map fun s => ((p.1 - q.1) + (p.2 - q.2) * s.1) ^ 2).sum = 2 * residuals pts p + 2 * residuals pts q := by
  unfold residuals
  induction pts with
  | nil => simp
  | cons s r ih =>
    simp only [List.map_cons, List.sum_cons]
    linear_combination ih

/-- two best lines agree if the points do not all have the same abscissa -/
theorem best_unique {pts : List (K × K)} {p q : K × K} (hp : ∀ r, residuals pts p ≤ residuals pts r)
    (hq : ∀ r, residuals pts q ≤ residuals pts r) (hd : ∃ s ∈ pts, ∃ t ∈ pts, s.1 ≠ t.1) : p = q := by
  have h := residuals_mid pts p q
  have h1 := hp ((p.1 + q.1) / 2, (p.2 + q.2) / 2)
  have h2 := hq ((p.1 + q.1) / 2, (p.2 + q.2) / 2)
  have h3 := sq_sum_zero (l := pts) (f := fun s => (p.1 - q.1) + (p.2 - q.2) * s.1) (by linarith)
  obtain ⟨s, hs, t, ht, hst⟩ := hd
  have a := h3 s hs
  have b := h3 t ht
  have h4 : (p.2 - q.2) * (s.1 - t.1) = 0 := by linear_combination a - b
  have h5 : p.2 - q.2 = 0 := (mul_eq_zero.1 h4).resolve_right (sub_ne_zero.2 hst)
  have h6 : p.1 - q.1 = 0 := by linear_combination a - s.1 * h5
  exact Prod.ext (sub_eq_zero.1 h6) (sub_eq_zero.1 h5)

/-! ### C106 -/

/-- C106_partial: without drawing, one pair for each peak of the list, in its order: the value at increase
0 of the best line through the positions near the peak over the increase of the data, and its error.
Nothing depends on the other peaks.  A peak without a position near it that has a successor gives
ValueError.  Missing: that this is where the peak is, see `C106_false`. -/
theorem C106_partial (F : LineFitter K) (hF : LeastSquares F) (data : List K) (delta : Nat) (peaks : List Nat) :
    ((∀ p ∈ peaks, near data delta p ≠ []) →
      ∃ m : Nat → K, findPeakErrorsDerivative F false data delta peaks =
        .ok (peaks.map fun p => ((F.fit (graph data delta p)).1, F.err (graph data delta p))) ∧
        ∀ p ∈ peaks, ∀ line, residuals (graph data delta p) ((F.fit (graph data delta p)).1, m p) ≤
          residuals (graph data delta p) line) ∧
    ((∃ p ∈ peaks, near data delta p = []) →
      findPeakErrorsDerivative F false data delta peaks = .error .ValueError) := by
  constructor
  · intro h
    refine ⟨fun p => (F.fit (graph data delta p)).2, ?_, fun p hp line => hF _ _ (graph_ne data (h p hp))⟩
    induction peaks with
    | nil => rfl
    | cons p r ih =>
      have := graph_ne data (h p (by simp))
      simp only [findPeakErrorsDerivative, onePeak, points_eq, if_neg this,
        ih fun q hq => h q (by simp [hq]), List.map_cons, Bool.false_eq_true, if_false]
  · rintro ⟨p, hp, h⟩
    induction peaks with
    | nil => simp at hp
    | cons q r ih =>
      by_cases hq : near data delta q = []
      · simp [findPeakErrorsDerivative, onePeak, points_eq, graph, hq]
      · rcases List.mem_cons.1 hp with rfl | hp
        · exact absurd h hq
        · simp [findPeakErrorsDerivative, onePeak, points_eq, graph, hq, ih hp]

/-- C106, peaks of find_peaks never raise. -/
theorem C106_found (F : LineFitter K) (hF : LeastSquares F) (data : List K) (delta : Nat) :
    ∃ l, findPeakErrorsDerivative F false data delta (PeakFinder.uphill data) = .ok l ∧
      l.length = (PeakFinder.uphill data).length := by
  obtain ⟨_, h, _⟩ := (C106_partial F hF data delta (PeakFinder.uphill data)).1 (by
    intro p hp
    have := ((C43_uphill data).2 p).1 hp
    have hm : p ∈ near data delta p := by
      simp only [near, List.mem_filter, List.mem_range, decide_eq_true_eq]
      refine ⟨by omega, by omega, by simp⟩
    exact List.ne_nil_of_mem hm)
  exact ⟨_, h, by simp⟩

/-- C106, units: data scaled and shifted give the same position, if the data bend near the peak. -/
theorem C106_scale (F : LineFitter K) (hF : LeastSquares F) (data : List K) (delta peak : Nat) (a b : K)
    (ha : a ≠ 0) (hb : Bends data delta peak) :
    (F.fit (graph (data.map fun y => a * y + b) delta peak)).1 = (F.fit (graph data delta peak)).1 := by
  have hn : near (data.map fun y => a * y + b) delta peak = near data delta peak := by
    simp [near]
  have hg : graph (data.map fun y => a * y + b) delta peak =
      (graph data delta peak).map fun s => (a * s.1, s.2) := by
    unfold graph
    rw [hn, List.map_map]
    refine List.map_congr_left fun i hi => ?_
    simp only [near, List.mem_filter, List.mem_range, decide_eq_true_eq] at hi
    have h1 : i + 1 < data.length := hi.2.1
    simp only [rise, List.getD_eq_getElem?_getD, List.getElem?_map, List.getElem?_eq_getElem h1,
      List.getElem?_eq_getElem hi.1, Option.map_some, Option.getD_some, Function.comp_apply]
    congr 1
    ring
  obtain ⟨i, hi, j, hj, hij⟩ := hb
  have hne : graph data delta peak ≠ [] := graph_ne data (List.ne_nil_of_mem hi)
  have hr : ∀ p : K × K, residuals ((graph data delta peak).map fun s => (a * s.1, s.2)) p =
      residuals (graph data delta peak) (p.1, a * p.2) := by
    intro p
    unfold residuals
    rw [List.map_map]
    refine congrArg List.sum (List.map_congr_left fun s _ => ?_)
    simp only [Function.comp_apply]
    ring
  rw [hg]
  set p := F.fit ((graph data delta peak).map fun s => (a * s.1, s.2)) with hp
  have hbest : ∀ r, residuals (graph data delta peak) (p.1, a * p.2) ≤ residuals (graph data delta peak) r := by
    intro r
    have := hF _ (r.1, r.2 / a) (by simpa using hne : (graph data delta peak).map (fun s => (a * s.1, s.2)) ≠ [])
    rw [← hp, hr, hr] at this
    simpa [mul_div_cancel₀ _ ha] using this
  have := best_unique hbest (fun r => hF _ r hne)
    ⟨_, List.mem_map_of_mem hi, _, List.mem_map_of_mem hj, hij⟩
  rw [← this]

/-- what the code gives for data on a parabola: half a position below the vertex, always. -/
theorem C106_parabola_partial (F : LineFitter K) (hF : LeastSquares F) (data : List K) (delta peak : Nat)
    (a v c : K) (ha : a ≠ 0) (h2 : 2 ≤ (near data delta peak).length)
    (hd : ∀ i, i < data.length → data.getD i 0 = a * ((i : K) - v) ^ 2 + c) :
    ∃ e, findPeakErrorsDerivative F false data delta [peak] = .ok [(v - 1 / 2, e)] := by
  have hne : near data delta peak ≠ [] := by
    intro h; rw [h] at h2; simp at h2
  obtain ⟨_, h, _⟩ := (C106_partial F hF data delta [peak]).1 (by simpa using hne)
  have hrise : ∀ i ∈ near data delta peak, rise data i = 2 * a * ((i : K) - (v - 1 / 2)) := by
    intro i hi
    simp only [near, List.mem_filter, List.mem_range, decide_eq_true_eq] at hi
    rw [rise, hd _ hi.2.1, hd _ hi.1]
    push_cast
    ring
  have hz : residuals (graph data delta peak) (v - 1 / 2, 1 / (2 * a)) = 0 := by
    refine List.sum_eq_zero ?_
    simp only [List.mem_map, graph]
    rintro _ ⟨_, ⟨i, hi, rfl⟩, rfl⟩
    simp only [hrise i hi]
    field_simp
    ring
  have hm := hF (graph data delta peak) (v - 1 / 2, 1 / (2 * a)) (graph_ne data hne)
  rw [hz] at hm
  have hon := sq_sum_zero hm
  set p := F.fit (graph data delta peak) with hp
  obtain ⟨i, j, r, hl⟩ : ∃ i j r, near data delta peak = i :: j :: r := by
    match hq : near data delta peak, h2 with
    | i :: j :: r, _ => exact ⟨i, j, r, rfl⟩
  have hij : i ≠ j := by
    have := (List.nodup_range (n := data.length)).filter
      (fun i : Nat => decide (i + 1 < data.length ∧ |(i : Int) - peak| ≤ delta))
    change (near data delta peak).Nodup at this
    rw [hl] at this
    simp only [List.nodup_cons, List.mem_cons, not_or] at this
    exact this.1.1
  have hi := hon _ (List.mem_map_of_mem (a := i) (by rw [hl]; simp))
  have hj := hon _ (List.mem_map_of_mem (a := j) (by rw [hl]; simp))
  simp only at hi hj
  rw [hrise i (by rw [hl]; simp)] at hi
  rw [hrise j (by rw [hl]; simp)] at hj
  have hij' : (i : K) - j ≠ 0 := sub_ne_zero.2 (by exact_mod_cast hij)
  have h4 : ((i : K) - j) * (1 - p.2 * (2 * a)) = 0 := by linear_combination hi - hj
  have h5 := (mul_eq_zero.1 h4).resolve_left hij'
  have h6 : p.1 = v - 1 / 2 := by linear_combination -hi + ((i : K) - (v - 1 / 2)) * h5
  exact ⟨F.err (graph data delta peak), by rw [h]; simp [h6, ← hp]⟩

/-! ### a least squares fit exists -/

/-- the best line by the textbook formula -/
def textbook (pts : List (K × K)) : K × K :=
  let n : K := pts.length
  let sy := (pts.map (·.1)).sum
  let sx := (pts.map (·.2)).sum
  let syy := (pts.map fun q => q.1 ^ 2).sum
  let sxy := (pts.map fun q => q.1 * q.2).sum
  let m := if n * syy - sy ^ 2 = 0 then 0 else (n * sxy - sy * sx) / (n * syy - sy ^ 2)
  ((sx - m * sy) / n, m)

/-- ROOT's fit, if it gave the textbook formula -/
def textbookFit : LineFitter K := ⟨textbook, fun _ => 0⟩

theorem residuals_poly (pts : List (K × K)) (p : K × K) : residuals pts p =
    (pts.map fun q => q.2 ^ 2).sum + pts.length * p.1 ^ 2 + p.2 ^ 2 * (pts.map fun q => q.1 ^ 2).sum -
      2 * p.1 * (pts.map (·.2)).sum - 2 * p.2 * (pts.map fun q => q.1 * q.2).sum +
      2 * p.1 * p.2 * (pts.map (·.1)).sum := by
  unfold residuals
  induction pts with
  | nil => simp
  | cons s r ih =>
    simp only [List.map_cons, List.sum_cons, List.length_cons, Nat.cast_add, Nat.cast_one]
    linear_combination ih

/-- the spread of the abscissas -/
theorem spread (pts : List (K × K)) (b : K) :
    (pts.map fun q => (q.1 - b) ^ 2).sum =
      (pts.map fun q => q.1 ^ 2).sum - 2 * b * (pts.map (·.1)).sum + pts.length * b ^ 2 := by
  induction pts with
  | nil => simp
  | cons s r ih =>
    simp only [List.map_cons, List.sum_cons, List.length_cons, Nat.cast_add, Nat.cast_one]
    linear_combination ih

theorem textbook_least : LeastSquares (textbookFit : LineFitter K) := by
  intro pts p hne
  have hn : (0 : K) < pts.length := by
    have : 0 < pts.length := List.length_pos_of_ne_nil hne
    exact_mod_cast this
  have hs := spread pts ((pts.map (·.1)).sum / pts.length)
  have hs0 : 0 ≤ (pts.map fun q => (q.1 - (pts.map (·.1)).sum / pts.length) ^ 2).sum :=
    List.sum_nonneg (by simp only [List.mem_map]; rintro _ ⟨b, _, rfl⟩; exact sq_nonneg _)
  have hcov : (pts.map fun q => (q.1 - (pts.map (·.1)).sum / pts.length) ^ 2).sum = 0 →
      pts.length * (pts.map fun q => q.1 * q.2).sum - (pts.map (·.1)).sum * (pts.map (·.2)).sum = 0 := by
    intro h0
    have hz := sq_sum_zero h0.le
    have h1 : (pts.map fun q => q.1 * q.2).sum = (pts.map (·.1)).sum / pts.length * (pts.map (·.2)).sum := by
      rw [← List.sum_map_mul_left]
      refine congrArg List.sum (List.map_congr_left fun q hq => ?_)
      rw [sub_eq_zero.1 (hz q hq)]
    rw [h1]
    field_simp
    ring
  change residuals pts (textbook pts) ≤ _
  rw [residuals_poly, residuals_poly]
  simp only [textbook]
  set n : K := (pts.length : K)
  set sy := (pts.map (·.1)).sum
  set sx := (pts.map (·.2)).sum
  set syy := (pts.map fun q => q.1 ^ 2).sum
  set sxy := (pts.map fun q => q.1 * q.2).sum
  set sxx := (pts.map fun q => q.2 ^ 2).sum
  have hD : (pts.map fun q => (q.1 - sy / n) ^ 2).sum * n = n * syy - sy ^ 2 := by
    rw [hs]; field_simp; ring
  have hD0 : 0 ≤ n * syy - sy ^ 2 := by rw [← hD]; positivity
  obtain ⟨p0, p1⟩ := p
  simp only
  split
  · next h0 =>
    have hc := hcov ((mul_eq_zero.1 (hD.trans h0)).resolve_right hn.ne')
    have h1 : n * (sxx + n * p0 ^ 2 + p1 ^ 2 * syy - 2 * p0 * sx - 2 * p1 * sxy + 2 * p0 * p1 * sy -
        (sxx + n * ((sx - 0 * sy) / n) ^ 2 + 0 ^ 2 * syy - 2 * ((sx - 0 * sy) / n) * sx - 2 * 0 * sxy +
          2 * ((sx - 0 * sy) / n) * 0 * sy)) = (n * p0 + p1 * sy - sx) ^ 2 := by
      field_simp
      linear_combination p1 ^ 2 * h0 - 2 * p1 * hc
    have h2 := sq_nonneg (n * p0 + p1 * sy - sx)
    rw [← h1] at h2
    have := nonneg_of_mul_nonneg_right h2 hn
    linarith
  · next h0 =>
    have hDp : 0 < n * syy - sy ^ 2 := lt_of_le_of_ne hD0 (Ne.symm h0)
    set D := n * syy - sy ^ 2 with hDdef
    set m := (n * sxy - sy * sx) / D with hm
    have hmD : m * D = n * sxy - sy * sx := by rw [hm]; field_simp
    have h1 : n * (sxx + n * p0 ^ 2 + p1 ^ 2 * syy - 2 * p0 * sx - 2 * p1 * sxy + 2 * p0 * p1 * sy -
        (sxx + n * ((sx - m * sy) / n) ^ 2 + m ^ 2 * syy - 2 * ((sx - m * sy) / n) * sx - 2 * m * sxy +
          2 * ((sx - m * sy) / n) * m * sy)) = (n * p0 + p1 * sy - sx) ^ 2 + (p1 - m) ^ 2 * D := by
      field_simp
      linear_combination (2 * p1 - 2 * m) * hmD + (- (p1 - m) ^ 2 + p1 ^ 2 - m ^ 2 + 2 * m ^ 2 - 2 * m * p1) * hDdef
    have h2 : 0 ≤ (n * p0 + p1 * sy - sx) ^ 2 + (p1 - m) ^ 2 * D := by positivity
    rw [← h1] at h2
    have := nonneg_of_mul_nonneg_right h2 hn
    linarith

/-! ### C106 is false -/

/-- data with its only peak, the vertex of a parabola, at position 3 -/
def exData : List ℚ := [-9, -4, -1, 0, -1, -4, -9]

/-- C106_false: find_peaks finds the vertex of this parabola and find_peak_errors_derivative moves it by
half a position, with every least squares fit. -/
theorem C106_false (F : LineFitter ℚ) (hF : LeastSquares F) :
    PeakFinder.uphill exData = [3] ∧
    ∃ e, findPeakErrorsDerivative F false exData 2 (PeakFinder.uphill exData) = .ok [(5 / 2, e)] := by
  have h : PeakFinder.uphill exData = [3] := by decide +kernel
  refine ⟨h, ?_⟩
  rw [h]
  obtain ⟨e, he⟩ := C106_parabola_partial F hF exData 2 3 (-1) 3 0 (by norm_num) (by decide +kernel) (by
    intro i hi
    change i < 7 at hi
    interval_cases i <;> norm_num [exData])
  exact ⟨e, by rw [he]; norm_num⟩

/-- C106, drawing: every peak that could be fitted gives TypeError if draw is set. -/
theorem C106_draw_false (F : LineFitter K) (data : List K) (delta peak : Nat) (r : List Nat)
    (h : near data delta peak ≠ []) :
    findPeakErrorsDerivative F true data delta (peak :: r) = .error .TypeError := by
  simp [findPeakErrorsDerivative, onePeak, points_eq, graph, h]

/-- the hypotheses of C106_partial, C106_scale and C106_parabola_partial can be met -/
example : LeastSquares (textbookFit : LineFitter ℚ) ∧ Bends exData 2 3 ∧ near exData 2 3 = [1, 2, 3, 4, 5] ∧
    findPeakErrorsDerivative textbookFit false exData 2 [3, 3] = .ok [(5 / 2, 0), (5 / 2, 0)] ∧
    findPeakErrorsDerivative textbookFit false exData 2 [3, 9] = .error .ValueError :=
  ⟨textbook_least, ⟨1, by decide +kernel, 2, by decide +kernel, by decide +kernel⟩, by decide +kernel,
    by decide +kernel, by decide +kernel⟩

end PeakErrors
end Xboa
