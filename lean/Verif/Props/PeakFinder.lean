import Verif.Model.PeakFinder
import Mathlib.Data.List.Range
import Mathlib.Tactic.Linarith
import Mathlib.Algebra.Order.Field.Basic
import Mathlib.Algebra.Order.Ring.Rat
/-
C43 (UphillDownhillPeakFinder), C44 (WindowPeakFinder).
-/
set_option linter.unusedSectionVars false
namespace Xboa
variable {K : Type} [Field K] [LinearOrder K] [IsStrictOrderedRing K]

/-! ### C43 -/

/-- C43: the peaks are exactly the interior positions that are higher than both neighbours, in
increasing order (so without repetition). -/
theorem C43_uphill (data : List K) :
    (PeakFinder.uphill data).Pairwise (· < ·) ∧
    ∀ i, i ∈ PeakFinder.uphill data ↔ 0 < i ∧ i + 1 < data.length ∧
      data.getD (i - 1) 0 < data.getD i 0 ∧ data.getD (i + 1) 0 < data.getD i 0 := by
  have hd : ∀ i, i < data.length - 1 → (PeakFinder.derivative data).getD i 0 =
      data.getD (i + 1) 0 - data.getD i 0 := by
    intro i hi
    simp [PeakFinder.derivative, List.getD_eq_getElem?_getD, hi]
  have hl : (PeakFinder.derivative data).length = data.length - 1 := by
    simp [PeakFinder.derivative]
  constructor
  · unfold PeakFinder.uphill
    rw [List.pairwise_map]
    apply List.Pairwise.filter
    exact List.pairwise_lt_range.imp (fun h => by omega)
  · intro i
    simp only [PeakFinder.uphill, List.mem_map, List.mem_filter, List.mem_range, hl,
      Bool.and_eq_true, decide_eq_true_eq, gt_iff_lt]
    constructor
    · rintro ⟨j, ⟨h1, h2, h3⟩, rfl⟩
      rw [hd j (by omega)] at h2
      rw [hd (j + 1) (by omega)] at h3
      exact ⟨by omega, by omega, by simpa using h2, by linarith⟩
    · rintro ⟨h1, h2, h3, h4⟩
      refine ⟨i - 1, ⟨by omega, ?_, ?_⟩, by omega⟩
      · rw [hd (i - 1) (by omega), Nat.sub_add_cancel h1]
        linarith
      · rw [Nat.sub_add_cancel h1, hd i (by omega)]
        linarith

example : PeakFinder.uphill [(1 : ℚ), 3, 2, 2, 5, 4, 6] = [1, 4] := by decide +kernel

/-! ### C44 -/

/-- position `j` holds the first greatest value of the `w` values that begin at position `i` -/
def WindowMax (data : List K) (i w j : Nat) : Prop :=
  i ≤ j ∧ j < i + w ∧ (∀ k, i ≤ k → k < i + w → data.getD k 0 ≤ data.getD j 0) ∧
    ∀ k, i ≤ k → k < j → data.getD k 0 < data.getD j 0

/-- `i` is the start of a window that is examined, and position `j` holds its maximum, not at an end
of the window (except at the ends of the data) -/
def WindowPeak (data : List K) (w step i j : Nat) : Prop :=
  i + w ≤ data.length ∧ i % step = 0 ∧ WindowMax data i w j ∧
    (i ≠ 0 → j ≠ i) ∧ (i ≠ data.length - w → j ≠ i + (w - 1))

/-- the value at `j` exceeds the mean of the window at `i` by more than `threshold` times
sqrt(sum of squares - mean^2) / w, which is what the finder asks for when the threshold is >= 1 -/
def OverThreshold (E : Ext K) (data : List K) (w : Nat) (threshold : K) (i j : Nat) : Prop :=
  let win := (data.drop i).take w
  let mean := win.sum / (w : K)
  E.sqrt ((win.map fun x => x ^ 2).sum - mean ^ 2) / (w : K) * threshold < data.getD j 0 - mean

theorem maxIndex_spec : ∀ (r : List K) (a : K),
    (PeakFinder.maxIndex a r).2 < (a :: r).length ∧
    (a :: r).getD (PeakFinder.maxIndex a r).2 0 = (PeakFinder.maxIndex a r).1 ∧
    (∀ k, k < (a :: r).length → (a :: r).getD k 0 ≤ (PeakFinder.maxIndex a r).1) ∧
    ∀ k, k < (PeakFinder.maxIndex a r).2 → (a :: r).getD k 0 < (PeakFinder.maxIndex a r).1
  | [], a => by simp [PeakFinder.maxIndex]
  | b :: r, a => by
    obtain ⟨h1, h2, h3, h4⟩ := maxIndex_spec r b
    by_cases h : a < (PeakFinder.maxIndex b r).1
    · simp only [PeakFinder.maxIndex, h, if_true]
      refine ⟨by simp at h1 ⊢; omega, by simpa using h2, ?_, ?_⟩
      · intro k hk
        cases k with
        | zero => simpa using h.le
        | succ k => simpa using h3 k (by simp at hk ⊢; omega)
      · intro k hk
        cases k with
        | zero => simpa using h
        | succ k => simpa using h4 k (by omega)
    · simp only [PeakFinder.maxIndex, h, if_false]
      refine ⟨by simp, by simp, ?_, by intro k hk; omega⟩
      intro k hk
      cases k with
      | zero => simp
      | succ k =>
        have := h3 k (by simp at hk ⊢; omega)
        simp only [List.getD_cons_succ]
        exact this.trans (not_lt.mp h)

theorem getD_window (data : List K) (i w k : Nat) (hk : k < w) :
    ((data.drop i).take w).getD k 0 = data.getD (i + k) 0 := by
  simp [List.getD_eq_getElem?_getD, List.getElem?_take, hk]

theorem WindowMax.unique {data : List K} {i w j j' : Nat} (h : WindowMax data i w j)
    (h' : WindowMax data i w j') : j = j' := by
  by_contra hne
  rcases Nat.lt_or_gt_of_ne hne with hlt | hlt
  · exact absurd (h'.2.2.2 j h.1 hlt) (not_lt.mpr (h.2.2.1 j' h'.1 h'.2.1))
  · exact absurd (h.2.2.2 j' h'.1 hlt) (not_lt.mpr (h'.2.2.1 j h.1 h.2.1))

/-- one step of the loop: either nothing changes, or the peak of this window is added -/
theorem windowStep_spec (E : Ext K) (data : List K) (w : Nat) (hw : 0 < w) (threshold : K)
    (step : Nat) (peaks : List Nat) (i : Nat) (hi : i + w ≤ data.length) (hs : i % step = 0) :
    ∃ p, PeakFinder.windowStep E data w threshold peaks i = .ok p ∧
      (p = peaks ∨ ∃ j, j ∉ peaks ∧ p = peaks ++ [j] ∧ WindowPeak data w step i j ∧
        (1 ≤ threshold → OverThreshold E data w threshold i j)) ∧
      (∀ j, WindowPeak data w step i j → (1 ≤ threshold → OverThreshold E data w threshold i j) →
        j ∈ p) := by
  have hlen : ((data.drop i).take w).length = w := by simp; omega
  cases hwin : (data.drop i).take w with
  | nil => rw [hwin] at hlen; simp at hlen; omega
  | cons a r =>
    obtain ⟨m1, m2, m3, m4⟩ := maxIndex_spec r a
    rw [← hwin] at m1 m2 m3 m4
    rw [hlen] at m1 m3
    generalize hm : PeakFinder.maxIndex a r = m at m1 m2 m3 m4
    have e : data.getD (m.2 + i) 0 = m.1 := by
      rw [Nat.add_comm, ← getD_window data i w m.2 m1]; exact m2
    have hmax : WindowMax data i w (m.2 + i) := by
      refine ⟨by omega, by omega, ?_, ?_⟩
      · intro k h1 h2
        have := m3 (k - i) (by omega)
        rw [getD_window data i w _ (by omega), show i + (k - i) = k by omega] at this
        rw [e]; exact this
      · intro k h1 h2
        have := m4 (k - i) (by omega)
        rw [getD_window data i w _ (by omega), show i + (k - i) = k by omega] at this
        rw [e]; exact this
    have hstep : PeakFinder.windowStep E data w threshold peaks i =
        if (i ≠ 0 ∧ m.2 = 0) ∨ (i ≠ data.length - w ∧ m.2 = w - 1) then .ok peaks
        else if m.2 + i ∈ peaks then .ok peaks
        else if threshold < 1 then .ok (peaks ++ [m.2 + i])
        else if m.1 - (a :: r).sum / (w : K) >
            E.sqrt (((a :: r).map fun x => x ^ 2).sum - ((a :: r).sum / (w : K)) ^ 2) / (w : K) *
              threshold then .ok (peaks ++ [m.2 + i]) else .ok peaks := by
      simp only [PeakFinder.windowStep, hwin, hm]
    by_cases hb : (i ≠ 0 ∧ m.2 = 0) ∨ (i ≠ data.length - w ∧ m.2 = w - 1)
    · rw [if_pos hb] at hstep
      refine ⟨peaks, hstep, .inl rfl, fun j hj _ => ?_⟩
      exfalso
      obtain ⟨_, _, g3, g4, g5⟩ := hj
      have := g3.unique hmax
      rcases hb with ⟨h1, h2⟩ | ⟨h1, h2⟩
      · exact g4 h1 (by omega)
      · exact g5 h1 (by omega)
    · rw [if_neg hb] at hstep
      have hpk : WindowPeak data w step i (m.2 + i) := by
        refine ⟨hi, hs, hmax, fun h0 he => hb (.inl ⟨h0, by omega⟩), fun h0 he => hb (.inr ⟨h0, by omega⟩)⟩
      by_cases hmem : m.2 + i ∈ peaks
      · rw [if_pos hmem] at hstep
        refine ⟨peaks, hstep, .inl rfl, fun j hj _ => ?_⟩
        rw [hj.2.2.1.unique hmax]
        exact hmem
      · rw [if_neg hmem] at hstep
        by_cases ht : threshold < 1
        · rw [if_pos ht] at hstep
          refine ⟨_, hstep, .inr ⟨_, hmem, rfl, hpk, fun h => absurd ht (not_lt.mpr h)⟩,
            fun j hj _ => ?_⟩
          rw [hj.2.2.1.unique hmax]
          simp
        · rw [if_neg ht] at hstep
          have hov : OverThreshold E data w threshold i (m.2 + i) ↔
              m.1 - (a :: r).sum / (w : K) >
                E.sqrt (((a :: r).map fun x => x ^ 2).sum - ((a :: r).sum / (w : K)) ^ 2) /
                  (w : K) * threshold := by
            simp only [OverThreshold, hwin, e]
          split at hstep
          · rename_i ho
            refine ⟨_, hstep, .inr ⟨_, hmem, rfl, hpk, fun _ => hov.mpr ho⟩, fun j hj _ => ?_⟩
            rw [hj.2.2.1.unique hmax]
            simp
          · rename_i ho
            refine ⟨_, hstep, .inl rfl, fun j hj hjo => ?_⟩
            rw [hj.2.2.1.unique hmax] at hjo
            exact absurd (hov.mp (hjo (not_lt.mp ht))) ho

theorem windowLoop_spec (E : Ext K) (data : List K) (w : Nat) (hw : 0 < w) (threshold : K)
    (step : Nat) : ∀ (starts : List Nat) (peaks : List Nat),
    (∀ i ∈ starts, i + w ≤ data.length ∧ i % step = 0) → peaks.Nodup →
    ∃ p, PeakFinder.windowLoop E data w threshold starts peaks = .ok p ∧ p.Nodup ∧
      (∀ j ∈ p, j ∈ peaks ∨ ∃ i ∈ starts, WindowPeak data w step i j ∧
        (1 ≤ threshold → OverThreshold E data w threshold i j)) ∧ (∀ j ∈ peaks, j ∈ p) ∧
      (∀ i ∈ starts, ∀ j, WindowPeak data w step i j →
        (1 ≤ threshold → OverThreshold E data w threshold i j) → j ∈ p)
  | [], peaks, _, hnd => ⟨peaks, rfl, hnd, fun j hj => .inl hj, fun j hj => hj, by simp⟩
  | i :: r, peaks, hst, hnd => by
    obtain ⟨p, h1, h2, h3⟩ := windowStep_spec E data w hw threshold step peaks i
      (hst i (by simp)).1 (hst i (by simp)).2
    have hnd' : p.Nodup := by
      rcases h2 with rfl | ⟨j, hj, rfl, _⟩
      · exact hnd
      · rw [List.nodup_append]
        exact ⟨hnd, by simp, by rintro x hx y hy rfl; simp at hy; exact hj (hy ▸ hx)⟩
    have hsub : ∀ j ∈ peaks, j ∈ p := by
      rcases h2 with rfl | ⟨j, hj, rfl, _⟩
      · exact fun j hj => hj
      · intro k hk; simp [hk]
    obtain ⟨q, g1, g2, g3, g4, g5⟩ := windowLoop_spec E data w hw threshold step r p
      (fun k hk => hst k (by simp [hk])) hnd'
    refine ⟨q, by simp only [PeakFinder.windowLoop, h1, g1], g2, ?_, fun j hj => g4 j (hsub j hj), ?_⟩
    · intro j hj
      rcases g3 j hj with hj | ⟨k, hk, hkj⟩
      · rcases h2 with rfl | ⟨j', hj', rfl, hpk⟩
        · exact .inl hj
        · rcases List.mem_append.mp hj with hj | hj
          · exact .inl hj
          · rw [List.mem_singleton] at hj
            subst hj
            exact .inr ⟨i, by simp, hpk⟩
      · exact .inr ⟨k, by simp [hk], hkj⟩
    · intro k hk j hj ho
      rcases List.mem_cons.mp hk with rfl | hk
      · exact g4 j (h3 j hj ho)
      · exact g5 k hk j hj ho

/-- C44, soundness: for every non-empty data list, window size and step the finder returns, without
repetition, positions that hold the maximum of a window that is examined. -/
theorem C44_sound (E : Ext K) (windowSize : Nat) (hw : 0 < windowSize) (threshold : K) (step : Nat)
    (hs : 0 < step) (data : List K) (hne : data ≠ []) :
    ∃ peaks, PeakFinder.window E windowSize threshold step data = .ok peaks ∧ peaks.Nodup ∧
      ∀ j ∈ peaks, j < data.length ∧
        ∃ i, WindowPeak data (min data.length windowSize) step i j := by
  have hlen : 0 < data.length := List.length_pos_iff.mpr hne
  have hwe : (if data.length < windowSize then data.length else windowSize) =
      min data.length windowSize := by split <;> omega
  obtain ⟨p, h1, h2, h3, _, _⟩ := windowLoop_spec E data (min data.length windowSize) (by omega)
    threshold step (PeakFinder.rangeStep (data.length - min data.length windowSize + 1) step) []
    (by intro i hi; simp [PeakFinder.rangeStep] at hi; omega) List.nodup_nil
  refine ⟨p, ?_, h2, ?_⟩
  · simp only [PeakFinder.window, hwe, Nat.pos_iff_ne_zero.mp hs, if_false, h1]
  · intro j hj
    rcases h3 j hj with h | ⟨i, _, hi⟩
    · simp at h
    · have := hi.1.2.2.1.2.1
      have := hi.1.1
      exact ⟨by omega, i, hi.1⟩

/-- C44, exact law: a position is returned if and only if it holds the maximum of an examined window,
is not at an end of it (except at the ends of the data) and is over the threshold there (for
thresholds >= 1; smaller ones are ignored). -/
theorem C44_exact (E : Ext K) (windowSize : Nat) (hw : 0 < windowSize) (threshold : K)
    (step : Nat) (hs : 0 < step) (data : List K) (hne : data ≠ []) :
    ∃ peaks, PeakFinder.window E windowSize threshold step data = .ok peaks ∧
      ∀ j, j ∈ peaks ↔ ∃ i, WindowPeak data (min data.length windowSize) step i j ∧
        (1 ≤ threshold → OverThreshold E data (min data.length windowSize) threshold i j) := by
  have hlen : 0 < data.length := List.length_pos_iff.mpr hne
  have hwe : (if data.length < windowSize then data.length else windowSize) =
      min data.length windowSize := by split <;> omega
  obtain ⟨p, h1, h2, h3, _, h5⟩ := windowLoop_spec E data (min data.length windowSize) (by omega)
    threshold step (PeakFinder.rangeStep (data.length - min data.length windowSize + 1) step) []
    (by intro i hi; simp [PeakFinder.rangeStep] at hi; omega) List.nodup_nil
  refine ⟨p, ?_, ?_⟩
  · simp only [PeakFinder.window, hwe, Nat.pos_iff_ne_zero.mp hs, if_false, h1]
  · intro j
    constructor
    · intro hj
      rcases h3 j hj with h | ⟨i, _, hi⟩
      · simp at h
      · exact ⟨i, hi⟩
    · rintro ⟨i, hi, ho⟩
      refine h5 i ?_ j hi ho
      have := hi.1
      have := hi.2.1
      simp [PeakFinder.rangeStep]
      omega

/-- C44_partial, completeness: with window_step 1 and windows of at least three values, a position
that is higher than everything less than a window away is returned (threshold disabled).
Missing: windows of one or two values (false, see C44_false). -/
theorem C44_partial (E : Ext K) (windowSize : Nat) (threshold : K)
    (ht : threshold < 1) (data : List K) (hw : 3 ≤ min data.length windowSize)
    (j : Nat) (hj : j < data.length)
    (hmax : ∀ k, k < data.length → k ≠ j → k < j + windowSize → j < k + windowSize →
      data.getD k 0 < data.getD j 0) :
    ∃ peaks, PeakFinder.window E windowSize threshold 1 data = .ok peaks ∧ j ∈ peaks := by
  have hne : data ≠ [] := by rintro rfl; simp at hj
  obtain ⟨p, h1, h2⟩ := C44_exact E windowSize (by omega) threshold 1 one_pos data hne
  refine ⟨p, h1, (h2 j).mpr ?_⟩
  refine ⟨min (j - 1) (data.length - min data.length windowSize), ⟨by omega, by omega,
    ⟨by omega, by omega, ?_, ?_⟩, by omega, by omega⟩, fun h => absurd ht (not_lt.mpr h)⟩
  · intro k hk1 hk2
    by_cases hkj : k = j
    · rw [hkj]
    · exact (hmax k (by omega) hkj (by omega) (by omega)).le
  · intro k hk1 hk2
    exact hmax k (by omega) (by omega) (by omega) (by omega)

/-- C44 as stated (any window size) is false: with windows of two values the maximum is always at an
end of the window, so the peak in the middle is missed. -/
theorem C44_false (E : Ext K) :
    PeakFinder.window E 2 0 1 [(0 : K), 1, 0] = .ok [] := by
  have h0 : (0 : K) < 1 := one_pos
  have h1 : ¬ (1 : K) < 0 := not_lt.mpr h0.le
  simp [PeakFinder.window, PeakFinder.rangeStep, List.range_succ, PeakFinder.windowLoop,
    PeakFinder.windowStep, PeakFinder.maxIndex, h0, h1]

example (E : Ext ℚ) : ∃ peaks, PeakFinder.window E 3 0 1 [0, 1, 0, 0, 2, 0] = .ok peaks ∧ 4 ∈ peaks :=
  C44_partial E 3 0 (by norm_num) _ (by decide) 4 (by decide) (by decide +kernel)

end Xboa
