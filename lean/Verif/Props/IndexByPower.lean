import Verif.Model.IndexByPower
import Mathlib.Data.Nat.Choose.Sum
import Mathlib.Algebra.BigOperators.Group.List.Lemmas
import Mathlib.Data.List.Nodup
import Mathlib.Tactic.Ring
/-
C18: index_by_power lists every multi-index of bounded total power exactly once.
-/
namespace Xboa

/-- The tails appended to a fixed prefix (proof device: the same enumeration by recursion on the
number of free axes and the remaining power). -/
def powTails : Nat → Nat → List (List Nat)
  | 0, _ => []
  | k + 1, m => (List.range (m + 1)).flatMap fun i =>
      (powTails k (m - i)).map (i :: ·) ++ (if 0 < i then [i :: List.replicate k 0] else [])

theorem indexByPowerRecurse_eq (n k : Nat) : ∀ pre : List Nat, pre.sum ≤ n →
    indexByPowerRecurse n pre.length (pre ++ List.replicate k 0) =
      (powTails k (n - pre.sum)).map (pre ++ ·) := by
  induction k with
  | zero =>
    intro pre _
    rw [indexByPowerRecurse]
    simp [powTails]
  | succ k ih =>
    intro pre hpre
    rw [indexByPowerRecurse]
    have hlt : pre.length < (pre ++ List.replicate (k + 1) 0).length := by simp
    rw [if_pos hlt]
    have hs : (pre ++ List.replicate (k + 1) 0).getD 0 0 +
        (((pre ++ List.replicate (k + 1) 0).take pre.length).drop 1).sum = pre.sum := by
      cases pre with
      | nil => simp
      | cons a r => simp
    simp only [hs, powTails, List.map_flatMap]
    have hr : n + 1 - pre.sum = n - pre.sum + 1 := by omega
    rw [hr]
    apply List.flatMap_congr
    intro i hi
    rw [List.mem_range] at hi
    have hset : (pre ++ List.replicate (k + 1) 0).set pre.length i
        = (pre ++ [i]) ++ List.replicate k 0 := by
      simp [List.replicate_succ]
    rw [hset]
    have := ih (pre ++ [i]) (by simp; omega)
    rw [List.length_append, List.length_singleton] at this
    rw [this]
    have e : n - (pre ++ [i]).sum = n - pre.sum - i := by simp; omega
    rw [e]
    by_cases h0 : 0 < i
    · simp [h0, Function.comp_def]
    · simp [h0, Function.comp_def]

theorem mem_powTails (k : Nat) : ∀ (m : Nat) (l : List Nat),
    l ∈ powTails k m ↔ l.length = k ∧ l.sum ≤ m ∧ l ≠ List.replicate k 0 := by
  induction k with
  | zero =>
    intro m l
    simp only [powTails, List.not_mem_nil, List.replicate_zero, false_iff, not_and, not_not]
    intro h _
    exact List.length_eq_zero_iff.mp h
  | succ k ih =>
    intro m l
    simp only [powTails, List.mem_flatMap, List.mem_range, List.mem_append, List.mem_map, ih]
    constructor
    · rintro ⟨i, hi, (⟨t, ⟨h1, h2, h3⟩, rfl⟩ | h)⟩
      · refine ⟨by simp [h1], by simp; omega, ?_⟩
        intro e
        rw [List.replicate_succ] at e
        injection e with _ e2
        exact h3 e2
      · by_cases h0 : 0 < i
        · rw [if_pos h0, List.mem_singleton] at h
          subst h
          refine ⟨by simp, by simp; omega, ?_⟩
          intro e
          rw [List.replicate_succ] at e
          injection e with e1 _
          omega
        · rw [if_neg h0] at h; cases h
    · rintro ⟨h1, h2, h3⟩
      cases l with
      | nil => simp at h1
      | cons i t =>
        simp only [List.length_cons, Nat.add_right_cancel_iff, List.sum_cons] at h1 h2
        refine ⟨i, by omega, ?_⟩
        by_cases ht : t = List.replicate k 0
        · right
          have h0 : 0 < i := by
            rcases Nat.eq_zero_or_pos i with h | h
            · exfalso; apply h3; rw [h, ht, List.replicate_succ]
            · exact h
          rw [if_pos h0, ht]; exact List.mem_singleton.mpr rfl
        · left
          exact ⟨t, ⟨h1, by omega, ht⟩, rfl⟩

theorem nodup_powTails (k : Nat) : ∀ m : Nat, (powTails k m).Nodup := by
  induction k with
  | zero => intro m; simp [powTails]
  | succ k ih =>
    intro m
    rw [powTails, List.nodup_flatMap]
    refine ⟨?_, ?_⟩
    · intro i _
      have h1 : ((powTails k (m - i)).map (i :: ·)).Nodup :=
        (ih _).map (fun a b h => by injection h)
      by_cases h0 : 0 < i
      · rw [if_pos h0]
        refine List.Nodup.append h1 (List.nodup_singleton _) ?_
        intro l hl hl'
        rw [List.mem_singleton] at hl'
        rw [List.mem_map] at hl
        obtain ⟨t, ht, rfl⟩ := hl
        injection hl' with _ e
        exact ((mem_powTails k _ _).mp ht).2.2 e
      · rw [if_neg h0, List.append_nil]; exact h1
    · refine List.Pairwise.imp_of_mem ?_ (List.nodup_range (n := m + 1))
      intro i j _ _ hij
      have head : ∀ (i : Nat) (l : List Nat), l ∈ (powTails k (m - i)).map (i :: ·) ++
          (if 0 < i then [i :: List.replicate k 0] else []) → l.head? = some i := by
        intro i l hl
        rw [List.mem_append, List.mem_map] at hl
        rcases hl with ⟨t, _, rfl⟩ | hl
        · rfl
        · by_cases h0 : 0 < i
          · rw [if_pos h0, List.mem_singleton] at hl; subst hl; rfl
          · rw [if_neg h0] at hl; cases hl
      intro l hl hl'
      have h1 := head i l hl
      have h2 := head j l hl'
      rw [h1] at h2
      injection h2 with h2
      exact hij h2

theorem sum_range_choose_aux (k m : Nat) :
    ((List.range (m + 1)).map fun i => (m - i + k).choose k).sum = (m + (k + 1)).choose (k + 1) := by
  induction m with
  | zero => simp
  | succ m ih =>
    rw [List.range_succ_eq_map, List.map_cons, List.sum_cons, List.map_map]
    have : ((fun i => (m + 1 - i + k).choose k) ∘ Nat.succ) = fun i => (m - i + k).choose k := by
      funext i
      simp
    rw [this, ih]
    have e : m + 1 + (k + 1) = (m + (k + 1)) + 1 := by ring
    rw [e, Nat.choose_succ_succ]
    congr 1
    congr 1
    omega

theorem length_powTails (k : Nat) : ∀ m : Nat, (powTails k m).length + 1 = (m + k).choose k := by
  induction k with
  | zero => intro m; simp [powTails]
  | succ k ih =>
    intro m
    rw [powTails, List.length_flatMap, ← sum_range_choose_aux, List.range_succ_eq_map]
    simp only [List.map_cons, List.sum_cons, List.map_map, List.length_append, List.length_map]
    rw [← ih (m - 0)]
    have : ((fun i => (powTails k (m - i)).length +
        (if 0 < i then [i :: List.replicate k 0] else []).length) ∘ Nat.succ)
        = ((fun i => (m - i + k).choose k) ∘ Nat.succ) := by
      funext i
      simp only [Function.comp]
      rw [← ih (m - i.succ), if_pos (Nat.succ_pos i)]
      rfl
    rw [this]
    simp
    omega

/-- C18: for every maximal power n and every number of axes d, index_by_power(n, d) lists exactly
the d-tuples of non-negative integers with sum at most n, without repetition. -/
theorem C18_exactly_once (n d : Nat) :
    (indexByPower n d).Nodup ∧
    ∀ l : List Nat, l ∈ indexByPower n d ↔ l.length = d ∧ l.sum ≤ n := by
  have e := indexByPowerRecurse_eq n d [] (Nat.zero_le _)
  simp only [List.length_nil, List.nil_append, List.sum_nil, Nat.sub_zero, List.map_id'] at e
  refine ⟨?_, ?_⟩
  · rw [indexByPower, e, List.nodup_cons]
    exact ⟨fun h => ((mem_powTails d n _).mp h).2.2 rfl, nodup_powTails d n⟩
  · intro l
    rw [indexByPower, e, List.mem_cons, mem_powTails]
    constructor
    · rintro (rfl | ⟨h1, h2, _⟩)
      · simp
      · exact ⟨h1, h2⟩
    · rintro ⟨h1, h2⟩
      by_cases h : l = List.replicate d 0
      · exact .inl h
      · exact .inr ⟨h1, h2, h⟩

/-- C18: the all-zero tuple comes first and the number of tuples is binomial(n+d, d). -/
theorem C18_first_and_length (n d : Nat) :
    (indexByPower n d).head? = some (List.replicate d 0) ∧
    (indexByPower n d).length = (n + d).choose d := by
  have e := indexByPowerRecurse_eq n d [] (Nat.zero_le _)
  simp only [List.length_nil, List.nil_append, List.sum_nil, Nat.sub_zero, List.map_id'] at e
  refine ⟨rfl, ?_⟩
  rw [indexByPower, e, List.length_cons, length_powTails]

/-- C18: the Python wrapper accepts exactly n >= 0, d >= 1 and returns that list; everything
else is a ValueError. -/
theorem C18_python (n d : Int) :
    (0 ≤ n ∧ 1 ≤ d → pyIndexByPower n d = .ok (indexByPower n.toNat d.toNat)) ∧
    (¬ (0 ≤ n ∧ 1 ≤ d) → pyIndexByPower n d = .error .ValueError) := by
  refine ⟨?_, ?_⟩
  · rintro ⟨h1, h2⟩
    unfold pyIndexByPower
    rw [if_neg (by omega), if_neg (by omega)]
  · intro h
    unfold pyIndexByPower
    by_cases h1 : n < 0
    · rw [if_pos h1]
    · rw [if_neg h1, if_pos (by omega)]

/-- the enumeration for two axes and power two, in the order of the C++ code -/
example : indexByPower 2 2 = [[0, 0], [0, 1], [0, 2], [1, 1], [1, 0], [2, 0]] := by
  decide +kernel
example : (pyIndexByPower 3 4).toOption.map List.length = some 35 := by decide +kernel

end Xboa
