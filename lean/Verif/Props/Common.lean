import Verif.Model.Common
import Mathlib.Algebra.BigOperators.Group.Finset.Basic
import Mathlib.Algebra.BigOperators.Group.Finset.Piecewise
import Mathlib.Algebra.Order.Ring.Rat
import Mathlib.Data.List.Sort
import Mathlib.Tactic.Linarith
import Mathlib.Tactic.Ring
import Mathlib.Tactic.FieldSimp
import Mathlib.Tactic.Positivity
/-
C31 (multisort), C32 (histogram), C33 (get_bin_edges), C34 (min_max), C37 (pid tables).
-/
set_option linter.unusedSectionVars false
namespace Xboa
open Finset
variable {K : Type} [Field K] [LinearOrder K] [IsStrictOrderedRing K]

/-! ### C31 -/

/-- row `i` of a list of columns -/
def rowAt (cols : List (List K)) (i : Nat) : List K := cols.map fun c => c.getD i 0
/-- the first `n` rows of a list of columns -/
def rowsOf (cols : List (List K)) (n : Nat) : List (List K) := (List.range n).map (rowAt cols)

theorem stable_of_mergeSort {α : Type} (le : α → α → Bool)
    (trans : ∀ a b c, le a b → le b c → le a c) (total : ∀ a b, le a b || le b a)
    (l : List α) (p : α → Bool) (hp : ∀ a b, p a → p b → le a b) :
    (l.mergeSort le).filter p = l.filter p := by
  have h1 : (l.filter p).Sublist (l.mergeSort le) := by
    apply List.sublist_mergeSort trans total
    · rw [List.pairwise_iff_getElem]
      intro i j hi hj _
      exact hp _ _ (List.mem_filter.mp (List.getElem_mem hi)).2
        (List.mem_filter.mp (List.getElem_mem hj)).2
    · exact List.filter_sublist
  have h2 : (l.filter p).Sublist ((l.mergeSort le).filter p) := by
    have := h1.filter p
    rwa [List.filter_filter, show (fun a => p a && p a) = p by funext a; simp] at this
  exact (h2.eq_of_length ((List.mergeSort_perm l le).filter p).length_eq.symm).symm

/-- C31: for columns at least as long as the first one, multisort succeeds; writing n for the length
of the first column, the first column becomes non-decreasing, the rows with any given first entry
are the same in the same order (so the rows are permuted, stably), the shape is kept and what is
beyond n in longer columns is untouched. -/
theorem C31_multisort (c0 : List K) (rest : List (List K))
    (hlen : ∀ c ∈ rest, c0.length ≤ c.length) :
    ∃ o0 orest, Common.multisort (c0 :: rest) = .ok (o0 :: orest) ∧
      o0.length = c0.length ∧ o0.Pairwise (· ≤ ·) ∧
      (o0 :: orest).map List.length = (c0 :: rest).map List.length ∧
      (o0 :: orest).map (List.drop c0.length) = (c0 :: rest).map (List.drop c0.length) ∧
      (rowsOf (o0 :: orest) c0.length).Perm (rowsOf (c0 :: rest) c0.length) ∧
      ∀ k, (rowsOf (o0 :: orest) c0.length).filter (fun r => decide (r.head? = some k)) =
        (rowsOf (c0 :: rest) c0.length).filter (fun r => decide (r.head? = some k)) := by
  generalize hn : c0.length = n at *
  let le : List K → List K → Bool := fun a b => decide (a.getD 0 0 ≤ b.getD 0 0)
  have htr : ∀ a b c, le a b → le b c → le a c := by
    intro a b c h1 h2
    simp only [le, decide_eq_true_eq] at *
    exact h1.trans h2
  have hto : ∀ a b, le a b || le b a := by
    intro a b
    simp only [le, Bool.or_eq_true, decide_eq_true_eq]
    exact _root_.le_total _ _
  let rows := rowsOf (c0 :: rest) n
  let sorted := rows.mergeSort le
  have hperm : sorted.Perm rows := List.mergeSort_perm rows le
  have hslen : sorted.length = n := by rw [hperm.length_eq]; simp [rows, rowsOf]
  have hrow : ∀ r ∈ sorted, r.length = rest.length + 1 := by
    intro r hr
    have := hperm.mem_iff.mp hr
    simp only [rows, rowsOf, List.mem_map] at this
    obtain ⟨i, _, rfl⟩ := this
    simp [rowAt]
  let out := (c0 :: rest).mapIdx fun i c => (sorted.map fun r => r.getD i 0) ++ c.drop n
  have hany : ((c0 :: rest).any fun c => decide (c.length < c0.length)) = false := by
    rw [List.any_eq_false]
    intro c hc
    rcases List.mem_cons.mp hc with rfl | hc
    · simp
    · have := hlen c hc
      simp only [decide_eq_true_eq]; omega
  have hms : Common.multisort (c0 :: rest) = .ok out := by
    subst hn
    simp only [Common.multisort, hany, Bool.false_eq_true, if_false]
    rfl
  have hrows : rowsOf out n = sorted := by
    apply List.ext_getElem
    · simp [rowsOf, hslen]
    · intro j hj1 hj2
      have hj : j < n := by rw [← hslen]; exact hj2
      simp only [rowsOf, List.getElem_map, List.getElem_range, rowAt]
      have hr := hrow sorted[j] (List.getElem_mem hj2)
      apply List.ext_getElem
      · simp [out, hr]
      · intro i hi1 hi2
        have hi : i < rest.length + 1 := by rw [← hr]; exact hi2
        simp only [List.getElem_map, out, List.getElem_mapIdx, List.getD_eq_getElem?_getD]
        rw [List.getElem?_append_left (by simp [hslen, hj]), List.getElem?_map,
          List.getElem?_eq_getElem hj2]
        simp [List.getElem?_eq_getElem hi2]
  have hsorted : sorted.Pairwise (fun a b => a.getD 0 0 ≤ b.getD 0 0) := by
    have := List.pairwise_mergeSort htr hto rows
    exact this.imp (fun h => by simpa [le] using h)
  refine ⟨(sorted.map fun r => r.getD 0 0) ++ c0.drop n,
    rest.mapIdx fun i c => (sorted.map fun r => r.getD (i + 1) 0) ++ c.drop n, ?_, ?_, ?_, ?_, ?_, ?_⟩
  · rw [hms]; simp only [out, List.mapIdx_cons]
  · simp [hslen, hn]
  · rw [List.drop_eq_nil_of_le (by omega), List.append_nil, List.pairwise_map]
    exact hsorted
  · simp only [List.map_cons, List.length_append, List.length_map, hslen, List.length_drop, hn]
    congr 1
    · omega
    · apply List.ext_getElem
      · simp
      · intro i h1 h2
        simp only [List.length_map] at h2
        have := hlen rest[i] (List.getElem_mem h2)
        simp only [List.getElem_map, List.getElem_mapIdx, List.length_append, List.length_map, hslen,
          List.length_drop]
        omega
  · simp only [List.map_cons]
    congr 1
    · rw [List.drop_append, List.drop_eq_nil_of_le (by simp [hslen])]
      simp [hslen]
    · apply List.ext_getElem
      · simp
      · intro i h1 h2
        simp only [List.getElem_map, List.getElem_mapIdx]
        rw [List.drop_append, List.drop_eq_nil_of_le (by simp [hslen])]
        simp [hslen]
  · have hout : ((sorted.map fun r => r.getD 0 0) ++ c0.drop n) ::
        (rest.mapIdx fun i c => (sorted.map fun r => r.getD (i + 1) 0) ++ c.drop n) = out := by
      simp only [out, List.mapIdx_cons]
    rw [hout, hrows]
    refine ⟨hperm, fun k => ?_⟩
    apply stable_of_mergeSort le htr hto
    intro a b ha hb
    simp only [decide_eq_true_eq] at ha hb
    cases a with
    | nil => simp at ha
    | cons x a =>
      cases b with
      | nil => simp at hb
      | cons y b =>
        simp only [List.head?_cons, Option.some.injEq] at ha hb
        simp [le, ha, hb]

/-- case: three rows, two with the same key -/
example : Common.multisort [[(2 : ℚ), 1, 1], [5, 7, 6]] = .ok [[1, 1, 2], [7, 6, 5]] := by
  simp [Common.multisort, List.range_succ, List.mergeSort, List.MergeSort.Internal.splitInTwo,
    List.merge]

/-- C31, errors: without columns, or with a column shorter than the first, multisort raises
IndexError (before anything is changed). -/
theorem C31_errors : Common.multisort ([] : List (List K)) = .error .IndexError ∧
    ∀ (c0 : List K) (rest : List (List K)) (c : List K), c ∈ rest → c.length < c0.length →
      Common.multisort (c0 :: rest) = .error .IndexError := by
  refine ⟨rfl, ?_⟩
  intro c0 rest c hc hl
  have hany : ((c0 :: rest).any fun c => decide (c.length < c0.length)) = true := by
    rw [List.any_eq_true]
    exact ⟨c, by simp [hc], by simpa using hl⟩
  simp only [Common.multisort, hany, if_true]

/-! ### C32 -/

/-- `x` lies in the half open bin `p` of the edges -/
def InBin (bins : List K) (p : Nat) (x : K) : Prop :=
  p + 1 < bins.length ∧ bins.getD p 0 ≤ x ∧ x < bins.getD (p + 1) 0

instance (bins : List K) (p : Nat) (x : K) : Decidable (InBin bins p x) := by
  unfold InBin; infer_instance

/-- `x` lies between the first and the last edge -/
def InsideEdges (bins : List K) (x : K) : Prop :=
  ∃ a b, bins.head? = some a ∧ bins.getLast? = some b ∧ a ≤ x ∧ x < b

noncomputable instance (bins : List K) (x : K) : Decidable (InsideEdges bins x) :=
  Classical.propDecidable _

theorem getD_mono {a : List K} (ha : a.Pairwise (· ≤ ·)) {i j : Nat} (hij : i ≤ j)
    (hj : j < a.length) : a.getD i 0 ≤ a.getD j 0 := by
  rcases Nat.lt_or_eq_of_le hij with h | h
  · have := List.pairwise_iff_getElem.mp ha i j (by omega) hj h
    simpa [List.getD_eq_getElem?_getD, hj, (show i < a.length by omega)] using this
  · rw [h]

theorem bisectRightAux_spec (a : List K) (x : K) (ha : a.Pairwise (· ≤ ·)) (lo hi : Nat)
    (hlh : lo ≤ hi) (hhi : hi ≤ a.length) (h1 : ∀ i, i < lo → a.getD i 0 ≤ x)
    (h2 : ∀ i, hi ≤ i → i < a.length → x < a.getD i 0) :
    let b := Common.bisectRightAux a x lo hi
    b ≤ a.length ∧ (∀ i, i < b → a.getD i 0 ≤ x) ∧ (∀ i, b ≤ i → i < a.length → x < a.getD i 0) := by
  fun_induction Common.bisectRightAux a x lo hi with
  | case1 lo hi hlt mid hx ih =>
    apply ih (by omega) (by omega) h1
    intro i hi' hil
    exact lt_of_lt_of_le hx (getD_mono ha hi' hil)
  | case2 lo hi hlt mid hx ih =>
    apply ih (by omega) (by omega) _ h2
    intro i hi'
    exact le_trans (getD_mono ha (by omega) (by omega)) (not_lt.mp hx)
  | case3 lo hi hlt =>
    have : lo = hi := by omega
    subst this
    exact ⟨hhi, h1, h2⟩

theorem bisectRight_spec (a : List K) (x : K) (ha : a.Pairwise (· ≤ ·)) :
    Common.bisectRight a x ≤ a.length ∧ (∀ i, i < Common.bisectRight a x → a.getD i 0 ≤ x) ∧
    (∀ i, Common.bisectRight a x ≤ i → i < a.length → x < a.getD i 0) :=
  bisectRightAux_spec a x ha 0 a.length (by omega) (by omega) (by intro i h; omega)
    (by intro i h h'; omega)

theorem binOf_iff (bins : List K) (hb : bins.Pairwise (· ≤ ·)) (x : K) (p : Nat) :
    Common.binOf bins x = some p ↔ InBin bins p x := by
  obtain ⟨h1, h2, h3⟩ := bisectRight_spec bins x hb
  unfold Common.binOf InBin
  generalize Common.bisectRight bins x = b at *
  simp only
  constructor
  · intro h
    split at h
    · rename_i hc
      cases h
      refine ⟨hc.2, h2 _ (by omega), h3 _ (by omega) hc.2⟩
    · cases h
  · rintro ⟨hp, hle, hlt⟩
    have hb1 : p < b := by
      by_contra hcon
      exact absurd hle (not_le.mpr (h3 p (by omega) (by omega)))
    have hb2 : b ≤ p + 1 := by
      by_contra hcon
      exact absurd hlt (not_lt.mpr (h2 (p + 1) (by omega)))
    have : b = p + 1 := by omega
    subst this
    rw [if_pos ⟨by omega, by omega⟩]
    simp

theorem insideEdges_iff (bins : List K) (hb : bins.Pairwise (· ≤ ·)) (x : K) :
    InsideEdges bins x ↔ ∃ p, Common.binOf bins x = some p := by
  obtain ⟨h1, h2, h3⟩ := bisectRight_spec bins x hb
  constructor
  · rintro ⟨a, b, ha, hbl, hax, hxb⟩
    cases bins with
    | nil => simp at ha
    | cons c r =>
      simp only [List.head?_cons, Option.some.injEq] at ha
      subst ha
      have hlast : (c :: r).getD r.length 0 = b := by
        rw [List.getLast?_eq_getElem?] at hbl
        simp only [List.length_cons, Nat.add_sub_cancel] at hbl
        rw [List.getD_eq_getElem?_getD, hbl]; rfl
      simp only [List.length_cons] at h1 h3
      unfold Common.binOf
      generalize Common.bisectRight (c :: r) x = k at *
      have hk1 : 1 ≤ k := by
        by_contra hcon
        have := h3 0 (by omega) (by omega)
        simp only [List.getD_cons_zero] at this
        exact absurd hax (not_le.mpr this)
      have hk2 : k ≤ r.length := by
        by_contra hcon
        have := h2 r.length (by omega)
        rw [hlast] at this
        exact absurd hxb (not_lt.mpr this)
      simp only [List.length_cons]
      rw [if_pos ⟨hk1, by omega⟩]
      exact ⟨_, rfl⟩
  · rintro ⟨p, hp⟩
    rw [binOf_iff bins hb] at hp
    obtain ⟨h, hle, hlt⟩ := hp
    cases bins with
    | nil => simp at h
    | cons c r =>
      refine ⟨c, (c :: r).getD r.length 0, rfl, ?_, ?_, ?_⟩
      · rw [List.getLast?_eq_getElem?, List.getD_eq_getElem?_getD]
        simp
      · have := getD_mono hb (Nat.zero_le p) (by omega)
        simp only [List.getD_cons_zero] at this
        exact this.trans hle
      · simp only [List.length_cons] at h
        exact lt_of_lt_of_le hlt (getD_mono hb (by omega) (by simp))

theorem fill_spec (xb yb ys ws : List K) (hx : xb.Pairwise (· ≤ ·)) (hy : yb.Pairwise (· ≤ ·)) :
    ∀ (xs : List K) (i : Nat) (c : Nat → Nat → K), i + xs.length ≤ ys.length →
      i + xs.length ≤ ws.length →
      ∃ c', Common.fill xb yb ys ws i xs c = .ok c' ∧ ∀ p q, c' p q = c p q +
        ∑ j ∈ range xs.length, if InBin xb p (xs.getD j 0) ∧ InBin yb q (ys.getD (i + j) 0)
          then ws.getD (i + j) 0 else 0
  | [], i, c, _, _ => ⟨c, rfl, by simp⟩
  | x :: r, i, c, h1, h2 => by
    simp only [List.length_cons] at h1 h2
    have hyi : ys[i]? = some (ys.getD i 0) := by
      rw [List.getD_eq_getElem?_getD, List.getElem?_eq_getElem (by omega)]; rfl
    have hwi : ws[i]? = some (ws.getD i 0) := by
      rw [List.getD_eq_getElem?_getD, List.getElem?_eq_getElem (by omega)]; rfl
    have hstep : ∃ c1, Common.fill xb yb ys ws i (x :: r) c = Common.fill xb yb ys ws (i + 1) r c1 ∧
        ∀ p q, c1 p q = c p q +
          if InBin xb p x ∧ InBin yb q (ys.getD i 0) then ws.getD i 0 else 0 := by
      simp only [Common.fill, hyi]
      cases hp : Common.binOf xb x with
      | none =>
        refine ⟨c, rfl, fun p q => ?_⟩
        have : ¬ InBin xb p x := by rw [← binOf_iff xb hx, hp]; simp
        simp [this]
      | some p' =>
        cases hq : Common.binOf yb (ys.getD i 0) with
        | none =>
          refine ⟨c, rfl, fun p q => ?_⟩
          have : ¬ InBin yb q (ys.getD i 0) := by rw [← binOf_iff yb hy, hq]; simp
          rw [if_neg (fun h => this h.2), add_zero]
        | some q' =>
          simp only [hwi]
          refine ⟨_, rfl, fun p q => ?_⟩
          simp only [← binOf_iff xb hx, ← binOf_iff yb hy, hp, hq, Option.some.injEq]
          by_cases hc : p = p' ∧ q = q'
          · obtain ⟨rfl, rfl⟩ := hc; simp
          · rw [if_neg hc, if_neg (fun h => hc ⟨h.1.symm, h.2.symm⟩), add_zero]
    obtain ⟨c1, e1, e2⟩ := hstep
    obtain ⟨c', h3, h4⟩ := fill_spec xb yb ys ws hx hy r (i + 1) c1 (by omega) (by omega)
    refine ⟨c', e1.trans h3, fun p q => ?_⟩
    rw [h4, e2, List.length_cons, sum_range_succ', add_assoc]
    congr 1
    rw [add_comm]
    simp only [List.getD_cons_succ, List.getD_cons_zero, Nat.add_zero]
    congr 1
    apply sum_congr rfl
    intro j _
    rw [show i + 1 + j = i + (j + 1) by ring]

theorem total_spec (xb yb : List K) (hx : xb.Pairwise (· ≤ ·)) (hy : yb.Pairwise (· ≤ ·))
    (n : Nat) (xs ys ws : Nat → K) :
    (∑ p ∈ range (xb.length - 1), ∑ q ∈ range (yb.length - 1), ∑ j ∈ range n,
      if InBin xb p (xs j) ∧ InBin yb q (ys j) then ws j else 0) =
    ∑ j ∈ range n, if InsideEdges xb (xs j) ∧ InsideEdges yb (ys j) then ws j else 0 := by
  classical
  have h1 : (∑ p ∈ range (xb.length - 1), ∑ q ∈ range (yb.length - 1), ∑ j ∈ range n,
      if InBin xb p (xs j) ∧ InBin yb q (ys j) then ws j else 0) =
      ∑ j ∈ range n, ∑ p ∈ range (xb.length - 1), ∑ q ∈ range (yb.length - 1),
        if InBin xb p (xs j) ∧ InBin yb q (ys j) then ws j else 0 := by
    rw [sum_comm]
    rw [sum_congr rfl (fun q _ => sum_comm)]
    rw [sum_comm]
    apply sum_congr rfl
    intro j _
    rw [sum_comm]
  rw [h1]
  apply sum_congr rfl
  intro j _
  rw [if_congr (and_congr (insideEdges_iff xb hx _) (insideEdges_iff yb hy _)) rfl rfl]
  have hb : ∀ (b : List K) (hb : b.Pairwise (· ≤ ·)) x p, Common.binOf b x = some p →
      p ∈ range (b.length - 1) := by
    intro b hb x p hp
    rw [binOf_iff b hb] at hp
    have := hp.1
    rw [mem_range]; omega
  simp only [← binOf_iff xb hx, ← binOf_iff yb hy]
  cases hp : Common.binOf xb (xs j) with
  | none => simp
  | some p =>
    cases hq : Common.binOf yb (ys j) with
    | none => simp
    | some q =>
      rw [sum_eq_single_of_mem p (hb xb hx _ _ hp), sum_eq_single_of_mem q (hb yb hy _ _ hq)]
      · simp
      · intro q' _ hne
        rw [if_neg]
        rintro ⟨_, h⟩
        cases h; exact hne rfl
      · intro p' _ hne
        apply sum_eq_zero
        intro q' _
        rw [if_neg]
        rintro ⟨h, _⟩
        cases h; exact hne rfl

/-- C32, two dimensional: with sorted edges, every bin holds the sum of the weights of the points in
it and all bins together hold the weight of the points inside the edges. -/
theorem C32_histogram_2d (xs ys ws xb yb : List K) (hxb : xb ≠ []) (hyb : yb ≠ [])
    (hx : xb.Pairwise (· ≤ ·)) (hy : yb.Pairwise (· ≤ ·)) (hys : ys.length = xs.length)
    (hws : ws.length = xs.length) :
    ∃ c, Common.histogram xs xb (some ys) (some yb) (some ws) = .ok (c, xb, yb) ∧
      (∀ p q, c p q = ∑ i ∈ range xs.length,
        if InBin xb p (xs.getD i 0) ∧ InBin yb q (ys.getD i 0) then ws.getD i 0 else 0) ∧
      (∑ p ∈ range (xb.length - 1), ∑ q ∈ range (yb.length - 1), c p q) =
        ∑ i ∈ range xs.length, if InsideEdges xb (xs.getD i 0) ∧ InsideEdges yb (ys.getD i 0) then ws.getD i 0 else 0 := by
  obtain ⟨c, h1, h2⟩ := fill_spec xb yb ys ws hx hy xs 0 (fun _ _ => 0) (by omega) (by omega)
  have h2' : ∀ p q, c p q = ∑ i ∈ range xs.length,
      if InBin xb p (xs.getD i 0) ∧ InBin yb q (ys.getD i 0) then ws.getD i 0 else 0 := by
    intro p q; rw [h2]; simp only [Nat.zero_add, zero_add]
  refine ⟨c, ?_, h2', ?_⟩
  · have e1 : xb.length ≠ 0 := by simpa using hxb
    have e2 : yb.length ≠ 0 := by simpa using hyb
    simp only [Common.histogram, e1, e2, or_self, if_false, Option.getD_some, h1]
  · simp only [h2']
    exact total_spec xb yb hx hy xs.length (fun i => xs.getD i 0) (fun i => ys.getD i 0)
      (fun i => ws.getD i 0)

/-- the weight of point `i`; weights None means unit weights -/
def weightAt (ws : Option (List K)) (i : Nat) : K :=
  match ws with
  | none => 1
  | some l => l.getD i 0

/-- C32, one dimensional. -/
theorem C32_histogram_1d (xs xb : List K) (ws : Option (List K)) (hxb : xb ≠ [])
    (hx : xb.Pairwise (· ≤ ·)) (hws : ∀ l, ws = some l → l.length = xs.length) :
    ∃ c, Common.histogram xs xb none none ws = .ok (c, xb, []) ∧
      (∀ p, c p 0 = ∑ i ∈ range xs.length, if InBin xb p (xs.getD i 0) then weightAt ws i else 0) ∧
      (∑ p ∈ range (xb.length - 1), c p 0) = ∑ i ∈ range xs.length, if InsideEdges xb (xs.getD i 0) then weightAt ws i else 0 := by
  have hy : ([-1, 1] : List K).Pairwise (· ≤ ·) := by
    simp only [List.pairwise_cons, List.mem_singleton, forall_eq, List.not_mem_nil,
      IsEmpty.forall_iff, implies_true, List.Pairwise.nil, and_self, and_true]
    linarith [zero_lt_one (α := K)]
  let wl := ws.getD (List.replicate xs.length 1)
  have hwl : wl.length = xs.length := by
    cases hw : ws with
    | none => simp [wl, hw]
    | some l => simp [wl, hw, hws l hw]
  have hwv : ∀ i, i < xs.length → wl.getD i 0 = weightAt ws i := by
    intro i hi
    cases hw : ws with
    | none => simp [wl, hw, hi, List.getD_eq_getElem?_getD, weightAt]
    | some l => simp [wl, hw, weightAt]
  obtain ⟨c, h1, h2⟩ := fill_spec xb [-1, 1] (List.replicate xs.length 0) wl hx hy xs 0
    (fun _ _ => 0) (by simp) (by omega)
  have hrep : ∀ i, i < xs.length → (List.replicate xs.length (0 : K)).getD i 0 = 0 := by
    intro i hi; simp [hi, List.getD_eq_getElem?_getD]
  have hin : InBin ([-1, 1] : List K) 0 0 := by
    refine ⟨by simp, ?_, ?_⟩ <;> simp
  have h2' : ∀ p, c p 0 = ∑ i ∈ range xs.length,
      if InBin xb p (xs.getD i 0) then weightAt ws i else 0 := by
    intro p
    rw [h2]
    simp only [Nat.zero_add, zero_add]
    apply sum_congr rfl
    intro i hi
    rw [mem_range] at hi
    rw [hrep i hi, hwv i hi]
    simp [hin]
  refine ⟨c, ?_, h2', ?_⟩
  · have e1 : xb.length ≠ 0 := by simpa using hxb
    simp only [Common.histogram, e1, if_false]
    rw [show ws.getD (List.replicate xs.length 1) = wl from rfl, h1]
  · have h := total_spec xb [-1, 1] hx hy xs.length (fun i => xs.getD i 0) (fun _ => 0) (weightAt ws)
    have hin' : InsideEdges ([-1, 1] : List K) 0 := by
      refine ⟨-1, 1, rfl, rfl, ?_, ?_⟩ <;> simp
    simp only [hin', and_true] at h
    refine Eq.trans ?_ h
    apply sum_congr rfl
    intro p _
    rw [show ([-1, 1] : List K).length - 1 = 1 from rfl, sum_range_one, h2']
    simp [hin]

example : (match Common.histogram [(1 : ℚ), 2, 5, 7] [0, 2, 6] none none (some [1, 2, 3, 4]) with
    | .ok (c, _, _) => (c 0 0, c 1 0)
    | _ => (0, 0)) = (1, 5) := by decide +kernel

end Xboa
