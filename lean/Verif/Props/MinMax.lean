import Verif.Props.Common
import Mathlib.Tactic.NormNum
/-
C33 (get_bin_edges), C34 (min_max), C37 (pid tables).
-/
set_option linter.unusedSectionVars false
namespace Xboa
open Finset
variable {K : Type} [Field K] [LinearOrder K] [IsStrictOrderedRing K]

/-! ### C34 -/

theorem pyMin_spec : ∀ (l : List K) (a : K), Common.pyMin a l ∈ a :: l ∧
    ∀ x ∈ a :: l, Common.pyMin a l ≤ x
  | [], a => by simp [Common.pyMin]
  | b :: r, a => by
    have h := pyMin_spec r (if b < a then b else a)
    simp only [Common.pyMin, List.foldl_cons] at h ⊢
    generalize List.foldl (fun m x => if x < m then x else m) (if b < a then b else a) r = m at *
    obtain ⟨h1, h2⟩ := h
    constructor
    · rcases List.mem_cons.mp h1 with h | h
      · split at h <;> simp [h]
      · simp [h]
    · intro x hx
      have h0 := h2 _ (List.mem_cons_self)
      rcases List.mem_cons.mp hx with rfl | hx
      · refine h0.trans ?_; split
        · exact le_of_lt ‹_›
        · exact le_rfl
      · rcases List.mem_cons.mp hx with rfl | hx
        · refine h0.trans ?_; split
          · exact le_rfl
          · exact not_lt.mp ‹_›
        · exact h2 x (List.mem_cons_of_mem _ hx)

theorem pyMax_spec : ∀ (l : List K) (a : K), Common.pyMax a l ∈ a :: l ∧
    ∀ x ∈ a :: l, x ≤ Common.pyMax a l
  | [], a => by simp [Common.pyMax]
  | b :: r, a => by
    have h := pyMax_spec r (if a < b then b else a)
    simp only [Common.pyMax, List.foldl_cons] at h ⊢
    generalize List.foldl (fun m x => if m < x then x else m) (if a < b then b else a) r = m at *
    obtain ⟨h1, h2⟩ := h
    constructor
    · rcases List.mem_cons.mp h1 with h | h
      · split at h <;> simp [h]
      · simp [h]
    · intro x hx
      have h0 := h2 _ (List.mem_cons_self)
      rcases List.mem_cons.mp hx with rfl | hx
      · refine le_trans ?_ h0; split
        · exact le_of_lt ‹_›
        · exact le_rfl
      · rcases List.mem_cons.mp hx with rfl | hx
        · refine le_trans ?_ h0; split
          · exact le_rfl
          · exact not_lt.mp ‹_›
        · exact h2 x (List.mem_cons_of_mem _ hx)

/-- the interval returned for a list of points -/
structure Encloses (lo hi : K) (pts : List K) (margin : K) : Prop where
  mem : ∀ x ∈ pts, lo ≤ x ∧ x ≤ hi
  wide : 1 / 1000000000 ≤ hi - lo
  /-- the ends are exactly the extreme points plus margin, unless the range is tiny -/
  exact : ∀ a b, a ∈ pts → b ∈ pts → (∀ x ∈ pts, a ≤ x ∧ x ≤ b) →
    (1 / 1000000000 ≤ (b - a) * (1 + 2 * margin) →
      lo = a - (b - a) * margin ∧ hi = b + (b - a) * margin)
  /-- a tiny range is widened by one on both sides -/
  narrow : ∀ a b, a ∈ pts → b ∈ pts → (∀ x ∈ pts, a ≤ x ∧ x ≤ b) →
    ((b - a) * (1 + 2 * margin) < 1 / 1000000000 →
      lo = a - (b - a) * margin - 1 ∧ hi = b + (b - a) * margin + 1)

theorem limits_encloses (pts : List K) (margin : K) (hm : 0 ≤ margin) :
    Encloses (Common.limits pts margin none none).1 (Common.limits pts margin none none).2 pts
      margin := by
  unfold Common.limits
  cases pts with
  | nil =>
    refine ⟨by simp, ?_, by simp, by simp⟩
    have : (0 + (0 - 0) * margin : K) - (0 - (0 - 0) * margin) < 1 / 1000000000 := by
      simp
    simp only [this, if_true, Option.getD_none]
    norm_num
  | cons c r =>
    obtain ⟨m1, m2⟩ := pyMin_spec r c
    obtain ⟨x1, x2⟩ := pyMax_spec r c
    simp only [Option.getD_none]
    generalize Common.pyMin c r = mn at *
    generalize Common.pyMax c r = mx at *
    have hle : mn ≤ mx := m2 mx x1
    have hd : 0 ≤ (mx - mn) * margin := mul_nonneg (sub_nonneg.mpr hle) hm
    split
    · rename_i ht
      refine ⟨fun x hx => ⟨?_, ?_⟩, ?_, ?_, ?_⟩
      · have := m2 x hx; linarith
      · have := x2 x hx; linarith
      · have : (1 : K) / 1000000000 ≤ 1 := by norm_num
        linarith
      · intro a b ha hb hab hw
        have e1 : a = mn := le_antisymm ((hab mn m1).1) (m2 a ha)
        have e2 : b = mx := le_antisymm (x2 b hb) ((hab mx x1).2)
        subst e1 e2
        exfalso
        have : (b - a) * (1 + 2 * margin) = b + (b - a) * margin - (a - (b - a) * margin) := by ring
        linarith
      · intro a b ha hb hab _
        have e1 : a = mn := le_antisymm ((hab mn m1).1) (m2 a ha)
        have e2 : b = mx := le_antisymm (x2 b hb) ((hab mx x1).2)
        subst e1 e2
        exact ⟨rfl, rfl⟩
    · rename_i ht
      refine ⟨fun x hx => ⟨?_, ?_⟩, not_lt.mp ht, ?_, ?_⟩
      · have := m2 x hx; linarith
      · have := x2 x hx; linarith
      · intro a b ha hb hab _
        have e1 : a = mn := le_antisymm ((hab mn m1).1) (m2 a ha)
        have e2 : b = mx := le_antisymm (x2 b hb) ((hab mx x1).2)
        subst e1 e2
        exact ⟨rfl, rfl⟩
      · intro a b ha hb hab hw
        have e1 : a = mn := le_antisymm ((hab mn m1).1) (m2 a ha)
        have e2 : b = mx := le_antisymm (x2 b hb) ((hab mx x1).2)
        subst e1 e2
        exfalso
        have : (b - a) * (1 + 2 * margin) = b + (b - a) * margin - (a - (b - a) * margin) := by ring
        exact ht (by linarith)

theorem heavy_mem : ∀ (ws xs : List K), ws.length = xs.length → ∀ x,
    (x ∈ Common.heavy ws xs ↔ ∃ i : Nat, xs[i]? = some x ∧ ∃ w, ws[i]? = some w ∧ 1 / 1000000 < w)
  | [], [], _, x => by simp [Common.heavy]
  | [], _ :: _, h, _ => by simp at h
  | _ :: _, [], h, _ => by simp at h
  | w :: ws, a :: xs, h, x => by
    have ih := heavy_mem ws xs (by simpa using h) x
    simp only [Common.heavy]
    constructor
    · intro hx
      have : (1 / 1000000 < w ∧ x = a) ∨ x ∈ Common.heavy ws xs := by
        split at hx
        · rcases List.mem_cons.mp hx with e | e
          · exact .inl ⟨‹_›, e⟩
          · exact .inr e
        · exact .inr hx
      rcases this with ⟨hw, rfl⟩ | hx
      · exact ⟨0, rfl, w, rfl, hw⟩
      · obtain ⟨i, h1, v, h2, h3⟩ := ih.mp hx
        exact ⟨i + 1, h1, v, h2, h3⟩
    · rintro ⟨i, h1, v, h2, h3⟩
      cases i with
      | zero =>
        simp only [List.getElem?_cons_zero, Option.some.injEq] at h1 h2
        subst h1 h2
        rw [if_pos h3]
        simp
      | succ i =>
        have := ih.mpr ⟨i, h1, v, h2, h3⟩
        split
        · exact List.mem_cons_of_mem _ this
        · exact this

/-- the points of weight above 1e-6; all of them if no weights are given -/
def WeightedPoint (ws xs : List K) (x : K) : Prop :=
  if ws = [] then x ∈ xs else ∃ i : Nat, xs[i]? = some x ∧ ∃ w, ws[i]? = some w ∧ 1 / 1000000 < w

/-- C34, positive part: without weights, or with one weight per point, and margin >= 0, min_max
leaves the list alone; the result (no explicit limits) encloses the points of weight above 1e-6,
is exactly their range plus the margin unless that is below 1e-9, and is never shorter than 1e-9;
explicit limits replace the ends.
Missing: weight lists of another length and negative margins (false, see C34_false). -/
theorem C34_partial (ws xs : List K) (margin : K) (hm : 0 ≤ margin)
    (hw : ws = [] ∨ ws.length = xs.length) :
    ∃ lo hi pts, (∀ x, x ∈ pts ↔ WeightedPoint ws xs x) ∧ Encloses lo hi pts margin ∧
      ∀ xmin xmax, Common.minMax ws margin xmin xmax xs = (.ok (xmin.getD lo, xmax.getD hi), xs) := by
  by_cases hl : ws.length = xs.length
  · refine ⟨_, _, Common.heavy ws xs, ?_, limits_encloses _ margin hm, ?_⟩
    · intro x
      rw [heavy_mem ws xs hl]
      unfold WeightedPoint
      split
      · rename_i h
        subst h
        have : xs = [] := List.length_eq_zero_iff.mp (by simpa using hl.symm)
        subst this
        simp
      · rfl
    · intro xmin xmax
      simp only [Common.minMax, hl, if_true]
      rfl
  · have h0 : ws = [] := hw.resolve_right hl
    subst h0
    refine ⟨_, _, xs, ?_, limits_encloses _ margin hm, ?_⟩
    · intro x; simp [WeightedPoint]
    · intro xmin xmax
      simp only [Common.minMax, hl, if_false, Common.appendHeavy]
      rfl

/-- C34 is false: (1) with fewer weights than points the caller's list grows; (2) with more weights
than points IndexError is raised although such weights are documented to be ignored; (3) with a
negative margin the interval leaves out points. -/
theorem C34_false :
    (Common.minMax [(1 : ℚ)] (1 / 10) none none [1, 2]).2 = [1, 2, 1] ∧
    (Common.minMax [(0 : ℚ), 1] (1 / 10) none none [1]).1 = .error .IndexError ∧
    (Common.minMax ([] : List ℚ) (-1 / 4) none none [0, 1]).1 = .ok (1 / 4, 3 / 4) := by
  decide +kernel

theorem appendHeavy_short : ∀ (ws : List K) (ind : Nat) (x : List K), ind + ws.length ≤ x.length →
    ∃ more, (∀ v ∈ more, v ∈ x) ∧ Common.appendHeavy ind ws x = (.ok (), x ++ more)
  | [], ind, x, _ => ⟨[], by simp, by simp [Common.appendHeavy]⟩
  | w :: ws, ind, x, h => by
    simp only [List.length_cons] at h
    simp only [Common.appendHeavy]
    split
    · rw [List.getElem?_eq_getElem (by omega)]
      simp only
      obtain ⟨more, h1, h2⟩ := appendHeavy_short ws (ind + 1) (x ++ [x[ind]]) (by simp; omega)
      refine ⟨x[ind] :: more, ?_, by rw [h2]; simp⟩
      intro v hv
      rcases List.mem_cons.mp hv with rfl | hv
      · exact List.getElem_mem _
      · have := h1 v hv
        simp only [List.mem_append, List.mem_singleton] at this
        rcases this with h | rfl
        · exact h
        · exact List.getElem_mem _
    · exact appendHeavy_short ws (ind + 1) x (by omega)

/-- C34, what holds with fewer weights than points: the result still encloses all the points (the
weights are ignored as documented), but the list may have grown by copies of its elements. -/
theorem C34_short_weights (ws xs : List K) (margin : K) (hm : 0 ≤ margin)
    (hw : ws.length < xs.length) :
    ∃ lo hi more, Common.minMax ws margin none none xs = (.ok (lo, hi), xs ++ more) ∧
      (∀ v ∈ more, v ∈ xs) ∧ ∀ x ∈ xs, lo ≤ x ∧ x ≤ hi := by
  obtain ⟨more, h1, h2⟩ := appendHeavy_short ws 0 xs (by omega)
  have he := limits_encloses (xs ++ more) margin hm
  refine ⟨_, _, more, ?_, h1, fun x hx => he.mem x (by simp [hx])⟩
  simp only [Common.minMax, h2, if_neg (Nat.ne_of_lt hw)]

example : Common.minMax [(1 : ℚ), 0, 1] (1 / 2) none none [1, 9, 3] = (.ok (0, 4), [1, 9, 3]) := by
  decide +kernel

/-! ### C33 -/

/-- The edges for a positive number of bins: equally spaced, strictly increasing, from the least
value to the greatest (or one below and one above if their distance is below 1e-9). -/
theorem binEdges_spec (vars : List K) (n : Nat) (hn : 0 < n) :
    ∃ lo hi, lo < hi ∧ Encloses lo hi vars 0 ∧
      Common.getBinEdges vars n none none =
        .ok ((List.range (n + 1)).map fun (i : Nat) => lo + (hi - lo) / n * i) := by
  have he := limits_encloses vars 0 le_rfl
  refine ⟨_, _, ?_, he, ?_⟩
  · have := he.wide
    have h0 : (0 : K) < 1 / 1000000000 := by norm_num
    linarith
  · have hmm : ((Common.minMax [] 0 none none vars).1 : Except Err (K × K)) =
        .ok (Common.limits vars 0 none none) := by
      simp only [Common.minMax]
      split
      · rename_i h
        have : vars = [] := List.length_eq_zero_iff.mp (by simpa using h.symm)
        subst this; rfl
      · rfl
    have hn' : (n : Int) ≠ 0 := by omega
    simp only [Common.getBinEdges, hmm, Option.getD_none, hn', if_false]
    rw [show ((n : Int) + 1).toNat = n + 1 by omega]
    simp

/-- C33 is false: the greatest value lies on the last edge and is not histogrammed. -/
theorem C33_false : ∃ edges, Common.getBinEdges [(0 : ℚ), 1] 1 none none = .ok edges ∧
    (match Common.histogram [(0 : ℚ), 1] edges none none none with
      | .ok (c, _, _) => c 0 0
      | .error _ => 0) = 1 := ⟨[0, 1], by decide +kernel, by decide +kernel⟩

/-- C33_partial: for any data and any positive number of bins the edges exist, histogramming the
data in them succeeds, and the total contents is the number of values that are not the greatest
one, or of all values if they agree to 1e-9.
Missing: the greatest value (false in general, see C33_false). -/
theorem C33_partial (vars : List K) (n : Nat) (hn : 0 < n) (mn mx : K) (hmn : mn ∈ vars)
    (hmx : mx ∈ vars) (hb : ∀ x ∈ vars, mn ≤ x ∧ x ≤ mx) :
    ∃ edges c, Common.getBinEdges vars n none none = .ok edges ∧ edges.length = n + 1 ∧
      Common.histogram vars edges none none none = .ok (c, edges, []) ∧
      (∑ p ∈ range n, c p 0) = ∑ i ∈ range vars.length,
        if vars.getD i 0 < mx ∨ mx - mn < 1 / 1000000000 then 1 else 0 := by
  obtain ⟨lo, hi, hlt, he, hedges⟩ := binEdges_spec vars n hn
  let edges := (List.range (n + 1)).map fun (i : Nat) => lo + (hi - lo) / n * i
  have hnK : (0 : K) < n := by exact_mod_cast hn
  have hstep : 0 < (hi - lo) / n := div_pos (sub_pos.mpr hlt) hnK
  have hsort : edges.Pairwise (· ≤ ·) := by
    simp only [edges, List.pairwise_map]
    apply List.Pairwise.imp _ List.pairwise_lt_range
    intro a b hab
    have : (a : K) ≤ b := by exact_mod_cast hab.le
    nlinarith
  have hlen : edges.length = n + 1 := by simp [edges]
  have hne : edges ≠ [] := by intro h; rw [h] at hlen; simp at hlen
  obtain ⟨c, h1, _, h3⟩ := C32_histogram_1d vars edges none hne hsort (by simp)
  refine ⟨edges, c, hedges, hlen, h1, ?_⟩
  rw [hlen, Nat.add_sub_cancel] at h3
  rw [h3]
  apply sum_congr rfl
  intro i hi'
  rw [mem_range] at hi'
  have hmem : vars.getD i 0 ∈ vars := by
    rw [List.getD_eq_getElem?_getD, List.getElem?_eq_getElem hi']
    exact List.getElem_mem hi'
  simp only [weightAt]
  apply if_congr _ rfl rfl
  generalize vars.getD i 0 = x at *
  have hhead : edges.head? = some lo := by
    simp [edges, List.range_succ_eq_map]
  have hlast : edges.getLast? = some hi := by
    simp only [edges, List.range_succ, List.map_append, List.map_cons, List.map_nil,
      List.getLast?_append, List.getLast?_singleton, Option.some_or, Option.some.injEq]
    field_simp
    ring
  have hxm := he.mem x hmem
  constructor
  · rintro ⟨a, b, ha, hbb, _, hxb⟩
    rw [hlast] at hbb
    cases hbb
    by_cases hw : (1 : K) / 1000000000 ≤ mx - mn
    · left
      have := (he.exact mn mx hmn hmx hb (by simpa using hw)).2
      simp only [mul_zero, add_zero] at this
      rw [← this]; exact hxb
    · exact .inr (not_le.mp hw)
  · intro h
    refine ⟨lo, hi, hhead, hlast, hxm.1, ?_⟩
    rcases h with h | h
    · exact lt_of_lt_of_le h (he.mem mx hmx).2
    · have := (he.narrow mn mx hmn hmx hb (by simpa using h)).2
      have := (hb x hmem).2
      simp only [mul_zero, add_zero] at *
      linarith

example : ∃ edges c, Common.getBinEdges [(0 : ℚ), 1, 2] (2 : ℕ) none none = .ok edges ∧
    edges.length = 2 + 1 ∧ Common.histogram [0, 1, 2] edges none none none = .ok (c, edges, []) ∧
    (∑ p ∈ range 2, c p 0) = ∑ i ∈ range [(0 : ℚ), 1, 2].length,
      if [(0 : ℚ), 1, 2].getD i 0 < 2 ∨ (2 : ℚ) - 0 < 1 / 1000000000 then 1 else 0 :=
  C33_partial [0, 1, 2] 2 (by norm_num) 0 2 (by simp) (by simp) (by
    intro x hx
    simp only [List.mem_cons, List.not_mem_nil, or_false] at hx
    rcases hx with rfl | rfl | rfl <;> norm_num)

/-! ### C37

The tables are finite, so the claims for every integer reduce to the table entries. -/

theorem lookup_mem_keys {α β : Type} [DecidableEq α] (d : List (α × β)) (k : α) (v : β)
    (h : d.lookup k = some v) : (k, v) ∈ d := by
  induction d with
  | nil => simp at h
  | cons e r ih =>
    obtain ⟨a, b⟩ := e
    rw [List.lookup_cons] at h
    by_cases hk : k = a
    · subst hk; simp at h; simp [h]
    · have : (k == a) = false := by simpa using hk
      rw [this] at h
      exact List.mem_cons_of_mem _ (ih h)

/-- C37, ICOOL: translating any pdg pid that has an ICOOL code and back gives the pid, and the other
way round. -/
theorem C37_icool (a b : Int) :
    (Common.pdgPidToIcool.lookup a = some b → Common.icoolPidToPdg.lookup b = some a) ∧
    (Common.icoolPidToPdg.lookup a = some b → Common.pdgPidToIcool.lookup b = some a) := by
  constructor
  · intro h
    have hm := lookup_mem_keys _ _ _ h
    have := (by decide +kernel : ∀ p ∈ Common.pdgPidToIcool,
      Common.icoolPidToPdg.lookup p.2 = some p.1)
    exact this _ hm
  · intro h
    have hm := lookup_mem_keys _ _ _ h
    have := (by decide +kernel : ∀ p ∈ Common.icoolPidToPdg,
      Common.pdgPidToIcool.lookup p.2 = some p.1)
    exact this _ hm

/-- C37, MARS: translating any pdg pid that has a MARS code and back gives the pid; a MARS code that
stands for a known pid (not 0) comes back too. -/
theorem C37_mars (a b : Int) :
    (Common.pdgPidToMars.lookup a = some b → Common.marsPidToPdg.lookup b = some a) ∧
    (Common.marsPidToPdg.lookup a = some b → b ≠ 0 → Common.pdgPidToMars.lookup b = some a) := by
  constructor
  · intro h
    have hm := lookup_mem_keys _ _ _ h
    have := (by decide +kernel : ∀ p ∈ Common.pdgPidToMars,
      Common.marsPidToPdg.lookup p.2 = some p.1)
    exact this _ hm
  · intro h hb
    have hm := lookup_mem_keys _ _ _ h
    have := (by decide +kernel : ∀ p ∈ Common.marsPidToPdg,
      p.2 ≠ 0 → Common.pdgPidToMars.lookup p.2 = some p.1)
    exact this _ hm hb

/-- C37, charge: the charges of a particle and its antiparticle, where both are listed, are
opposite; a negative pid is only listed together with its particle; every listed particle has a
mass under the absolute value of its pid, as the readers look it up. -/
theorem C37_charge (a c : Int) (h : Common.pdgPidToCharge.lookup a = some c) :
    (∀ c', Common.pdgPidToCharge.lookup (-a) = some c' → c' = -c) ∧
    (a < 0 → ∃ c', Common.pdgPidToCharge.lookup (-a) = some c') ∧
    ∃ m, Common.pdgPidToMass.lookup |a| = some m := by
  have hm := lookup_mem_keys _ _ _ h
  have := (by decide +kernel : ∀ p ∈ Common.pdgPidToCharge,
    (∀ c' ∈ Common.pdgPidToCharge.lookup (-p.1), c' = -p.2) ∧
    (p.1 < 0 → (Common.pdgPidToCharge.lookup (-p.1)).isSome) ∧
    (Common.pdgPidToMass.lookup |p.1|).isSome)
  obtain ⟨h1, h2, h3⟩ := this _ hm
  exact ⟨fun c' hc' => h1 c' hc', fun ha => Option.isSome_iff_exists.mp (h2 ha),
    Option.isSome_iff_exists.mp h3⟩

example : Common.pdgPidToMars.lookup (-13) = some 7 ∧ Common.marsPidToPdg.lookup 7 = some (-13) ∧
    Common.pdgPidToCharge.lookup (-13) = some 1 := by decide +kernel

end Xboa
