import Verif.Model.Scan
import Mathlib.Algebra.Order.Field.Basic
import Mathlib.Algebra.Order.Archimedean.Basic
import Mathlib.Algebra.Order.Ring.Rat
import Mathlib.Tactic.Linarith
import Mathlib.Tactic.Ring
/-
C46 (scan_generator).
-/
set_option linter.unusedSectionVars false
namespace Xboa
variable {K : Type} [Field K] [LinearOrder K] [IsStrictOrderedRing K]

/-! ### Specification -/

/-- the variable takes `m` values before it reaches its end -/
def Scan.Var.Count (v : Scan.Var K) (m : Nat) : Prop :=
  (∀ k, k < m → v.start + k * v.size < v.stop) ∧ v.stop ≤ v.start + m * v.size

/-- the `m` values of a variable -/
def Scan.Var.values (v : Scan.Var K) (m : Nat) : List K :=
  (List.range m).map fun (k : Nat) => v.start + k * v.size

/-- all combinations in odometer order, the last variable running fastest -/
def odometer : List (List K) → List (List K)
  | [] => [[]]
  | c :: cs => c.flatMap fun x => (odometer cs).map (x :: ·)

/-! ### Proofs -/

/-- odometer with the fastest variable first, each combination listed fastest first -/
def odometerRev : List (List K) → List (List K)
  | [] => [[]]
  | c :: cs => (odometerRev cs).flatMap fun y => c.map (· :: y)

theorem odometer_snoc (l : List (List K)) (c : List K) :
    odometer (l ++ [c]) = (odometer l).flatMap fun y => c.map fun x => y ++ [x] := by
  induction l with
  | nil =>
    simp only [List.nil_append, odometer, List.map_cons, List.map_nil, List.flatMap_cons,
      List.flatMap_nil, List.append_nil]
    exact (List.map_eq_flatMap ..).symm
  | cons d l ih =>
    simp only [List.cons_append, odometer, ih, List.flatMap_assoc]
    congr 1
    funext x
    simp [List.map_flatMap, List.flatMap_map]
    congr 1

theorem odometerRev_eq (l : List (List K)) :
    (odometerRev l).map List.reverse = odometer l.reverse := by
  induction l with
  | nil => rfl
  | cons c l ih =>
    rw [List.reverse_cons, odometer_snoc, ← ih]
    simp [odometerRev, List.map_flatMap, List.flatMap_map]
    congr 1
    funext a
    apply List.map_congr_left
    intro x _
    simp

theorem range_mul_map {β : Type} (f : Nat → Nat → β) (m : Nat) (hm : 0 < m) : ∀ n : Nat,
    (List.range (n * m)).map (fun k => f (k / m) (k % m)) =
      (List.range n).flatMap fun q => (List.range m).map (f q)
  | 0 => by simp
  | n + 1 => by
    rw [Nat.succ_mul, List.range_add, List.map_append, range_mul_map f m hm n, List.range_succ,
      List.flatMap_append, List.map_map]
    congr 1
    simp only [List.flatMap_cons, List.flatMap_nil, List.append_nil]
    apply List.map_congr_left
    intro k hk
    rw [List.mem_range] at hk
    simp only [Function.comp_apply]
    rw [Nat.add_comm, Nat.add_mul_div_right _ _ hm, Nat.add_mul_mod_self_right,
      Nat.div_eq_of_lt hk, Nat.mod_eq_of_lt hk, Nat.zero_add]

/-- the value of a variable is never exactly at its end -/
def Scan.Var.Misses (v : Scan.Var K) : Prop := ∀ k : Nat, v.start + k * v.size ≠ v.stop

theorem Scan.state_cons (v : Scan.Var K) (vs : List (Scan.Var K)) (hvs : vs ≠ []) (m : Nat)
    (hm : v.Count m) (hpos : 0 < m) (hmiss : v.Misses) (n : Nat) :
    Scan.state (v :: vs) n = (v.start + ((n % m : Nat) : K) * v.size) :: Scan.state vs (n / m) := by
  induction n with
  | zero => simp [Scan.state]
  | succ n ih =>
    rw [Scan.state, ih, Scan.advance]
    have hmod := Nat.mod_lt n hpos
    have e : v.start + ((n % m : Nat) : K) * v.size + v.size =
        v.start + ((n % m + 1 : Nat) : K) * v.size := by push_cast; ring
    simp only [e]
    by_cases h : n % m + 1 = m
    · have hgt : v.start + ((n % m + 1 : Nat) : K) * v.size > v.stop := by
        rw [h]
        exact lt_of_le_of_ne hm.2 (Ne.symm (hmiss m))
      rw [if_pos ⟨hgt, hvs⟩]
      have hdiv : (n + 1) / m = n / m + 1 := by
        have := Nat.div_add_mod n m
        rw [show n + 1 = m * (n / m + 1) by rw [Nat.mul_add]; omega]
        exact Nat.mul_div_cancel_left _ hpos
      have hmod' : (n + 1) % m = 0 := by
        have := Nat.div_add_mod n m
        rw [show n + 1 = m * (n / m + 1) by rw [Nat.mul_add]; omega]
        exact Nat.mul_mod_right _ _
      rw [hdiv, hmod', Scan.state]
      simp
    · have hlt := hm.1 (n % m + 1) (by omega)
      rw [if_neg (fun hh => absurd hh.1 (not_lt.mpr hlt.le))]
      have hdiv : (n + 1) / m = n / m := by
        have := Nat.div_add_mod n m
        rw [show n + 1 = (n % m + 1) + m * (n / m) by omega, Nat.add_mul_div_left _ _ hpos,
          Nat.div_eq_of_lt (by omega), Nat.zero_add]
      have hmod' : (n + 1) % m = n % m + 1 := by
        have := Nat.div_add_mod n m
        rw [show n + 1 = (n % m + 1) + m * (n / m) by omega, Nat.add_mul_mod_self_left,
          Nat.mod_eq_of_lt (by omega)]
      rw [hdiv, hmod']

theorem Scan.state_single (v : Scan.Var K) (n : Nat) :
    Scan.state [v] n = [v.start + (n : K) * v.size] := by
  induction n with
  | zero => simp [Scan.state]
  | succ n ih =>
    rw [Scan.state, ih]
    simp [Scan.advance]
    ring

/-- the scan with the fastest variable first -/
theorem Scan.run_rev : ∀ (vars : List (Scan.Var K)) (ms : List Nat), vars ≠ [] →
    List.Forall₂ Scan.Var.Count vars ms → (∀ m ∈ ms, 0 < m) →
    (∀ v ∈ vars.dropLast, v.Misses) →
    ∃ n, (∀ k, k < n → Scan.ended vars (Scan.state vars k) = false) ∧
      Scan.ended vars (Scan.state vars n) = true ∧
      (List.range n).map (Scan.state vars) = odometerRev (List.zipWith Scan.Var.values vars ms)
  | [], _, h, _, _, _ => absurd rfl h
  | [v], ms, _, hc, _, _ => by
    obtain ⟨m, rfl⟩ : ∃ m, ms = [m] := by
      match ms, hc with
      | [m], _ => exact ⟨m, rfl⟩
    have hm : v.Count m := by simpa using hc
    refine ⟨m, ?_, ?_, ?_⟩
    · intro k hk
      rw [Scan.state_single]
      simp [Scan.ended, hm.1 k hk]
    · rw [Scan.state_single]
      simp [Scan.ended, hm.2]
    · simp [odometerRev, Scan.Var.values, Scan.state_single]
  | v :: u :: vs, ms, _, hc, hpos, hmiss => by
    obtain ⟨m, ms, rfl⟩ : ∃ m r, ms = m :: r := by
      match ms, hc with
      | m :: r, _ => exact ⟨m, r, rfl⟩
    rw [List.forall₂_cons] at hc
    have hm0 : 0 < m := hpos m (by simp)
    obtain ⟨n, h1, h2, h3⟩ := Scan.run_rev (u :: vs) ms (by simp) hc.2
      (fun k hk => hpos k (by simp [hk])) (fun x hx => hmiss x (by simp [hx]))
    have hst := Scan.state_cons v (u :: vs) (by simp) m hc.1 hm0 (hmiss v (by simp))
    have hend : ∀ k, Scan.ended (v :: u :: vs) (Scan.state (v :: u :: vs) k) =
        Scan.ended (u :: vs) (Scan.state (u :: vs) (k / m)) := by
      intro k
      rw [hst k, Scan.ended]
      have := hc.1.1 (k % m) (Nat.mod_lt k hm0)
      rw [decide_eq_false (by exact not_le.mpr this), Bool.false_or]
    refine ⟨n * m, ?_, ?_, ?_⟩
    · intro k hk
      rw [hend]
      exact h1 _ ((Nat.div_lt_iff_lt_mul hm0).mpr hk)
    · rw [hend, Nat.mul_div_cancel _ hm0]
      exact h2
    · rw [List.zipWith_cons_cons, odometerRev, ← h3, List.flatMap_map]
      have := range_mul_map (fun q r => (v.start + ((r : Nat) : K) * v.size) :: Scan.state (u :: vs) q)
        m hm0 n
      rw [List.map_congr_left (fun k _ => hst k), this]
      simp [Scan.Var.values, Function.comp_def]

/-- C46_partial: if no variable but the first hits its end exactly, the scan visits every combination
of the values start + k * size below the end, each once, in odometer order (keys in sorted order,
the last running fastest), and then ends; the end is a RuntimeError.
`vars` lists the variables in sorted order, `ms` their numbers of values.
Missing: variables that hit their end exactly, and a normal end (both false, see C46_false). -/
theorem C46_partial (vars : List (Scan.Var K)) (ms : List Nat) (hne : vars ≠ [])
    (hc : List.Forall₂ Scan.Var.Count vars ms) (hpos : ∀ m ∈ ms, 0 < m)
    (hmiss : ∀ v ∈ vars.tail, v.Misses) (out : List (List K)) (e : Scan.End) :
    Scan.Run vars.reverse out e ↔
      out.map List.reverse = odometer (List.zipWith Scan.Var.values vars ms) ∧
        e = .raise .RuntimeError := by
  have hlen := hc.length_eq
  obtain ⟨n, h1, h2, h3⟩ := Scan.run_rev vars.reverse ms.reverse (by simpa using hne)
    (by rw [List.forall₂_reverse_iff]; exact hc) (by simpa using hpos)
    (by simpa using hmiss)
  have hz : List.zipWith Scan.Var.values vars.reverse ms.reverse =
      (List.zipWith Scan.Var.values vars ms).reverse := by
    rw [List.reverse_zipWith hlen]
  rw [hz] at h3
  have h4 := odometerRev_eq (List.zipWith Scan.Var.values vars ms).reverse
  rw [List.reverse_reverse, ← h3] at h4
  constructor
  · rintro ⟨k, g1, g2, rfl, rfl⟩
    have hk : k = n := by
      rcases Nat.lt_trichotomy k n with h | h | h
      · rw [h1 k h] at g2; cases g2
      · exact h
      · rw [g1 n h] at h2; cases h2
    subst hk
    exact ⟨h4, rfl⟩
  · rintro ⟨ho, rfl⟩
    refine ⟨n, h1, h2, ?_, rfl⟩
    rw [← h4] at ho
    exact List.map_injective_iff.mpr List.reverse_injective ho

/-- the numbers of values exist whenever the steps are positive -/
theorem C46_counts [Archimedean K] (v : Scan.Var K) (h1 : v.start < v.stop) (h2 : 0 < v.size) :
    ∃ m, 0 < m ∧ v.Count m := by
  classical
  have hex : ∃ m : Nat, v.stop ≤ v.start + m * v.size := by
    obtain ⟨m, hm⟩ := exists_nat_ge ((v.stop - v.start) / v.size)
    refine ⟨m, ?_⟩
    rw [div_le_iff₀ h2] at hm
    linarith
  refine ⟨Nat.find hex, ?_, fun k hk => not_le.mp (Nat.find_min hex hk), Nat.find_spec hex⟩
  rw [Nat.find_pos]
  simpa using h1

/-- C46 as stated is false: for x and y from 0 to 2 in steps of 1 the scan should visit four points,
but it ends after (0, 0) and (0, 1), because y hits its end exactly; and no scan at all ends
normally. -/
theorem C46_false :
    Scan.Run ([⟨0, 2, 1⟩, ⟨0, 2, 1⟩] : List (Scan.Var ℚ)).reverse [[0, 0], [1, 0]]
      (.raise .RuntimeError) ∧
    odometer [Scan.Var.values (⟨0, 2, 1⟩ : Scan.Var ℚ) 2, Scan.Var.values ⟨0, 2, 1⟩ 2] =
      [[0, 0], [0, 1], [1, 0], [1, 1]] ∧
    ∀ (vars : List (Scan.Var K)) out, ¬ Scan.Run vars out .stop := by
  refine ⟨⟨2, by decide +kernel, by decide +kernel, by decide +kernel, rfl⟩, by decide +kernel, ?_⟩
  rintro vars out ⟨_, _, _, _, h⟩
  cases h

/-- the hypotheses of C46_partial can be met with two variables -/
example : Scan.Run ([⟨0, 2, 1⟩, ⟨0, 3 / 2, 1⟩] : List (Scan.Var ℚ)).reverse
    [[0, 0], [1, 0], [0, 1], [1, 1]] (.raise .RuntimeError) := by
  refine (C46_partial [⟨0, 2, 1⟩, ⟨0, 3 / 2, 1⟩] [2, 2] (by simp) ?_ (by simp) ?_ _ _).mpr
    ⟨by decide +kernel, rfl⟩
  · simp only [List.forall₂_cons, List.forall₂_nil_left_iff, and_true]
    refine ⟨⟨?_, by norm_num⟩, ⟨?_, by norm_num⟩⟩ <;> decide +kernel
  · simp only [List.tail_cons, List.mem_singleton, forall_eq]
    intro k h
    simp only [zero_add, mul_one] at h
    have h2 : ((2 * k : Nat) : ℚ) = ((3 : Nat) : ℚ) := by push_cast; rw [h]; norm_num
    have := Nat.cast_injective h2
    omega

end Xboa
