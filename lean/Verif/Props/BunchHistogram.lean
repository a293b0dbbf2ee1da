import Verif.Props.Optics
import Verif.Model.BunchMore
import Verif.Props.BunchCut
import Verif.Props.MinMax
import Verif.Props.HitCopy
import Mathlib.Data.Rat.Floor
/-!
C60 (histograms of a bunch) and C77 (tables of bunch variables).
-/
set_option linter.unusedSectionVars false
namespace Xboa
open Finset
variable {K : Type} [Field K] [LinearOrder K] [IsStrictOrderedRing K]

/-! ### C60 -/

/-- The weight of the hits of the bunch that satisfy P -/
noncomputable def weightWhere (b : Bunch K) (w : BWorld K) (P : Nat → Prop) : K :=
  open Classical in ((b.hits.filter fun i => decide (P i)).map w.weight).sum

theorem sum_range_weight (P : K → Prop) [DecidablePred P] (x wt : Nat → K) : ∀ l : List Nat,
    (∑ k ∈ range (l.map x).length, if P ((l.map x).getD k 0) then (l.map wt).getD k 0 else 0) =
      ((l.filter fun i => decide (P (x i))).map wt).sum
  | [] => by simp
  | i :: r => by
    have ih := sum_range_weight P x wt r
    simp only [List.map_cons, List.length_cons, sum_range_succ', List.getD_cons_succ, List.getD_cons_zero,
      List.filter_cons]
    rw [ih]
    by_cases h : P (x i) <;> simp [h, add_comm]

theorem sum_range_weight2 (P Q : K → Prop) [DecidablePred P] [DecidablePred Q] (x y wt : Nat → K) :
    ∀ l : List Nat, (∑ k ∈ range (l.map x).length, if P ((l.map x).getD k 0) ∧ Q ((l.map y).getD k 0) then
      (l.map wt).getD k 0 else 0) = ((l.filter fun i => decide (P (x i) ∧ Q (y i))).map wt).sum
  | [] => by simp
  | i :: r => by
    have ih := sum_range_weight2 P Q x y wt r
    simp only [List.map_cons, List.length_cons, sum_range_succ', List.getD_cons_succ, List.getD_cons_zero,
      List.filter_cons]
    rw [ih]
    by_cases h : P (x i) ∧ Q (y i) <;> simp [h, add_comm]

theorem Bunch.listGet_weight (E : Ext K) (w : BWorld K) (l : List Nat) :
    Bunch.listGet E w "weight" l = .ok (l.map w.weight) :=
  Bunch.listGet_ok E w "weight" w.weight l fun _ _ => rfl

theorem Bunch.listGetUnits_ok (E : Ext K) (w : BWorld K) (b : Bunch K) (v : String) (u : K) (val : Nat → K)
    (h : ∀ i ∈ b.hits, Bunch.hitNum E w i v = .ok (val i)) :
    Bunch.listGetUnits E w b v u = .ok (b.hits.map fun i => val i / u) := by
  rw [Bunch.listGetUnits, Bunch.listGet_ok E w v val b.hits h]
  simp [List.map_map, Function.comp_def]

section
variable (E : Ext K) (w : BWorld K) (b : Bunch K) (x : String) (ux : K) (valx : Nat → K)
  (hx : ∀ i ∈ b.hits, Bunch.hitNum E w i x = .ok (valx i))
include hx

/-- C60: `histogram_var_bins(x, x_bins, x_units)`: bin p of the contents is the weight of the hits with
x in units between edges p and p + 1, and all the bins together are the weight of the hits with x
between the first and the last edge. -/
theorem C60_var_bins (xb : List K) (hxb : xb ≠ []) (hs : xb.Pairwise (· ≤ ·)) :
    ∃ c, Bunch.histogramVarBins E w b x xb ux none = .ok (c, xb, []) ∧
      (∀ p, c p 0 = weightWhere b w fun i => InBin xb p (valx i / ux)) ∧
      (∑ p ∈ range (xb.length - 1), c p 0) = weightWhere b w fun i => InsideEdges xb (valx i / ux) := by
  classical
  obtain ⟨c, h1, h2, h3⟩ := C32_histogram_1d (b.hits.map fun i => valx i / ux) xb (some (b.hits.map w.weight))
    hxb hs (by intro l hl; cases hl; simp)
  refine ⟨c, ?_, ?_, ?_⟩
  · simp only [Bunch.histogramVarBins, Bunch.listGet_weight, Bunch.listGetUnits_ok E w b x ux valx hx, bind,
      Except.bind]
    exact h1
  · intro p
    rw [h2 p]
    refine (sum_range_weight (fun a => InBin xb p a) (fun i => valx i / ux) w.weight b.hits).trans ?_
    unfold weightWhere
    congr 2
    exact List.filter_congr fun i _ => by simp
  · rw [h3]
    refine (sum_range_weight (fun a => InsideEdges xb a) (fun i => valx i / ux) w.weight b.hits).trans ?_
    unfold weightWhere
    congr 2

/-- C60: the same in two dimensions. -/
theorem C60_var_bins_2d (y : String) (uy : K) (valy : Nat → K)
    (hy : ∀ i ∈ b.hits, Bunch.hitNum E w i y = .ok (valy i)) (xb yb : List K) (hxb : xb ≠ []) (hyb : yb ≠ [])
    (hsx : xb.Pairwise (· ≤ ·)) (hsy : yb.Pairwise (· ≤ ·)) :
    ∃ c, Bunch.histogramVarBins E w b x xb ux (some (y, yb, uy)) = .ok (c, xb, yb) ∧
      (∀ p q, c p q = weightWhere b w fun i => InBin xb p (valx i / ux) ∧ InBin yb q (valy i / uy)) ∧
      (∑ p ∈ range (xb.length - 1), ∑ q ∈ range (yb.length - 1), c p q) =
        weightWhere b w fun i => InsideEdges xb (valx i / ux) ∧ InsideEdges yb (valy i / uy) := by
  classical
  obtain ⟨c, h1, h2, h3⟩ := C32_histogram_2d (b.hits.map fun i => valx i / ux) (b.hits.map fun i => valy i / uy)
    (b.hits.map w.weight) xb yb hxb hyb hsx hsy (by simp) (by simp)
  refine ⟨c, ?_, ?_, ?_⟩
  · simp only [Bunch.histogramVarBins, Bunch.listGet_weight, Bunch.listGetUnits_ok E w b x ux valx hx,
      Bunch.listGetUnits_ok E w b y uy valy hy, bind, Except.bind]
    exact h1
  · intro p q
    rw [h2 p q]
    refine (sum_range_weight2 (fun a => InBin xb p a) (fun a => InBin yb q a) (fun i => valx i / ux)
      (fun i => valy i / uy) w.weight b.hits).trans ?_
    unfold weightWhere
    congr 2
    exact List.filter_congr fun i _ => by simp
  · rw [h3]
    refine (sum_range_weight2 (fun a => InsideEdges xb a) (fun a => InsideEdges yb a) (fun i => valx i / ux)
      (fun i => valy i / uy) w.weight b.hits).trans ?_
    unfold weightWhere
    congr 2
    exact List.filter_congr fun i _ => by simp

variable [FloorRing K]

/-- The number of bins of a one dimensional histogram: as asked for, or one for ten hits and one more -/
def autoBins (n : Nat) (nx : Option Nat) : Nat := nx.getD (n / 10 + 1)

omit hx in
theorem nBins_auto (n : Nat) (nx : Option Nat) :
    (Bunch.nBins (K := K) n (nx.map Int.ofNat) (some 1) none).1 = (autoBins n nx : Int) := by
  cases nx with
  | some k => simp [Bunch.nBins, autoBins]
  | none =>
    have : ⌊(n : K) / 10⌋ = ((n / 10 : Nat) : Int) := by
      have h10 : (0 : K) < 10 := by norm_num
      rw [Int.floor_eq_iff, le_div_iff₀ h10, div_lt_iff₀ h10]
      have h1 : n / 10 * 10 ≤ n := by omega
      have h2 : n < (n / 10 + 1) * 10 := by omega
      exact ⟨by exact_mod_cast h1, by exact_mod_cast h2⟩
    simp [Bunch.nBins, autoBins, this]

/-- C60_partial: `histogram(x, x_units, nx_bins=n, xmin, xmax)` with limits xmin < xmax and a unit of 1
has the edges xmin, xmin + (xmax - xmin)/n, ..., xmax, and bin p is the weight of the hits with x
between edges p and p + 1.  Missing: other units with limits, and the greatest hit without limits
(both false). -/
theorem C60_partial (nx : Option Nat) (hn : 0 < autoBins b.hits.length nx) (lo hi : K) (hlh : lo < hi) :
    let n := autoBins b.hits.length nx
    ∃ c edges, Bunch.histogram1 E w b x 1 (nx.map Int.ofNat) (some lo) (some hi) = .ok (c, edges, []) ∧
      edges.length = n + 1 ∧ (∀ k, k ≤ n → edges[k]? = some (lo + (hi - lo) * k / n)) ∧
      (∀ p, c p 0 = weightWhere b w fun i => p < n ∧ lo + (hi - lo) * p / n ≤ valx i ∧
        valx i < lo + (hi - lo) * (p + 1) / n) ∧
      (∑ p ∈ range n, c p 0) = weightWhere b w fun i => lo ≤ valx i ∧ valx i < hi := by
  intro n
  have hnK : (0 : K) < n := by exact_mod_cast hn
  have hstep : 0 < (hi - lo) / n := div_pos (sub_pos.mpr hlh) hnK
  let edges := (List.range (n + 1)).map fun (i : Nat) => lo + (hi - lo) / n * i
  have hlen : edges.length = n + 1 := by simp [edges]
  have hget : ∀ k, k ≤ n → edges[k]? = some (lo + (hi - lo) * k / n) := by
    intro k hk
    simp only [edges, List.getElem?_map, List.getElem?_range (show k < n + 1 by omega), Option.map_some]
    congr 2
    ring
  have hsort : edges.Pairwise (· ≤ ·) := by
    simp only [edges, List.pairwise_map]
    apply List.Pairwise.imp _ List.pairwise_lt_range
    intro a b hab
    have : (a : K) ≤ b := by exact_mod_cast hab.le
    nlinarith
  have hne : edges ≠ [] := by intro h; rw [h] at hlen; simp at hlen
  obtain ⟨c, h1, h2, h3⟩ := C60_var_bins E w b x 1 valx hx edges hne hsort
  have hedges : Common.getBinEdges (b.hits.map fun i => valx i / 1) (n : Int) (some lo) (some hi) = .ok edges := by
    obtain ⟨lo', hi', pts, _, _, hm⟩ := C34_partial [] (b.hits.map fun i => valx i / 1) 0 le_rfl (.inl rfl)
    simp only [Common.getBinEdges, hm none none]
    rw [if_neg (by omega)]
    simp only [Option.getD_some, edges]
    rw [show ((n : Int) + 1).toNat = n + 1 by omega]
    simp
  refine ⟨c, edges, ?_, hlen, hget, ?_, ?_⟩
  · simp only [Bunch.histogram1, Bunch.listGetUnits_ok E w b x 1 valx hx, bind, Except.bind, List.length_map,
      nBins_auto, Option.map_some, mul_one]
    rw [hedges]
    exact h1
  · intro p
    rw [h2 p]
    unfold weightWhere
    congr 2
    apply List.filter_congr
    intro i _
    apply decide_eq_decide.2
    simp only [InBin, hlen, div_one]
    by_cases hp : p < n
    · have e1 := hget p hp.le
      have e2 := hget (p + 1) (by omega)
      simp only [List.getD_eq_getElem?_getD, e1, e2, Option.getD_some, Nat.cast_add, Nat.cast_one]
      constructor
      · rintro ⟨_, h⟩; exact ⟨hp, h⟩
      · rintro ⟨_, h⟩; exact ⟨by omega, h⟩
    · constructor
      · rintro ⟨h, _⟩; omega
      · rintro ⟨h, _⟩; omega
  · rw [hlen, Nat.add_sub_cancel] at h3
    rw [h3]
    unfold weightWhere
    congr 2
    apply List.filter_congr
    intro i _
    apply decide_eq_decide.2
    have e0 : edges.head? = some lo := by simp [edges, List.range_succ_eq_map]
    have e1 : edges.getLast? = some hi := by
      rw [List.getLast?_eq_getElem?, hlen, Nat.add_sub_cancel, hget n le_rfl]
      congr 1
      field_simp
      ring
    simp only [div_one]
    constructor
    · rintro ⟨a, b, ha, hb, h⟩
      rw [e0] at ha; rw [e1] at hb; cases ha; cases hb; exact h
    · rintro h; exact ⟨lo, hi, e0, e1, h⟩

/-- C60: without limits the hits with the greatest x are left out of the histogram, unless all agree to
1e-9: the contents add up to the weight of the others. -/
theorem C60_maximum_left_out (hu : ux = 1) (nx : Option Nat) (hn : 0 < autoBins b.hits.length nx) (mn mx : K)
    (hmn : ∃ i ∈ b.hits, valx i = mn) (hmx : ∃ i ∈ b.hits, valx i = mx)
    (hb : ∀ i ∈ b.hits, mn ≤ valx i ∧ valx i ≤ mx) (hsp : 1 / 1000000000 ≤ mx - mn) :
    ∃ c edges, Bunch.histogram1 E w b x ux (nx.map Int.ofNat) none none = .ok (c, edges, []) ∧
      (∑ p ∈ range (autoBins b.hits.length nx), c p 0) = weightWhere b w fun i => valx i < mx := by
  subst hu
  have hlim : Common.minMax [] 0 none none (b.hits.map fun i => valx i / 1) =
      (.ok (mn, mx), b.hits.map fun i => valx i / 1) := by
    obtain ⟨lo, hi, pts, hp, he, hm⟩ := C34_partial [] (b.hits.map fun i => valx i / 1) 0 le_rfl (.inl rfl)
    have hmem : ∀ a, a ∈ pts ↔ ∃ i ∈ b.hits, valx i = a := by
      intro a; rw [hp]; simp [WeightedPoint]
    have := he.exact mn mx ((hmem _).2 hmn) ((hmem _).2 hmx)
      (by intro a ha; obtain ⟨i, hi, rfl⟩ := (hmem a).1 ha; exact hb i hi) (by simpa using hsp)
    rw [hm none none]
    simp only [Option.getD_none]
    have h1 : lo = mn := by simpa using this.1
    have h2 : hi = mx := by simpa using this.2
    rw [h1, h2]
  have hlt : mn < mx := by
    have : (0 : K) < 1 / 1000000000 := by norm_num
    linarith
  obtain ⟨c, edges, h1, h2, h3, h4, h5⟩ := C60_partial E w b x valx hx nx hn mn mx hlt
  refine ⟨c, edges, ?_, ?_⟩
  · rw [← h1]
    simp only [Bunch.histogram1, Bunch.listGetUnits_ok E w b x 1 valx hx, bind, Except.bind, Common.getBinEdges,
      hlim, Option.map_some, Option.map_none, mul_one, Option.getD_none, Option.getD_some]
  · rw [h5]
    unfold weightWhere
    congr 2
    apply List.filter_congr
    intro i hi
    simp [(hb i hi).1]

/-- C60: with a y axis and without ny_bins `histogram` always raises ZeroDivisionError. -/
theorem C60_2d_default_false (y : String) (uy : K) (valy : Nat → K)
    (hy : ∀ i ∈ b.hits, Bunch.hitNum E w i y = .ok (valy i)) (nx : Option Int) (xmin xmax ymin ymax : Option K) :
    Bunch.histogram2 E w b x ux y uy nx none xmin xmax ymin ymax = .error .ZeroDivisionError := by
  obtain ⟨lo, hi, pts, _, _, hm⟩ := C34_partial [] (b.hits.map fun i => valy i / uy) 0 le_rfl (.inl rfl)
  simp only [Bunch.histogram2, Bunch.listGetUnits_ok E w b x ux valx hx, Bunch.listGetUnits_ok E w b y uy valy hy,
    bind, Except.bind, Common.getBinEdges, hm none none, Bunch.nBins, Option.getD_none, if_true]
end

/-- the contents of bin p of a one dimensional histogram -/
def contents (r : Except Err ((Nat → Nat → ℚ) × List ℚ × List ℚ)) (p : Nat) : Option ℚ :=
  match r with
  | .ok (c, _, _) => some (c p 0)
  | .error _ => none

/-- the edges returned with a one dimensional histogram -/
def edgesOf (r : Except Err ((Nat → Nat → ℚ) × List ℚ × List ℚ)) : Option (List ℚ) :=
  match r with
  | .ok (_, e, _) => some e
  | .error _ => none

/-- C60_false: (1) limits are not in the units asked for: hits at x = 0 and 1 mm histogrammed in metres
from 0 to 0.004 in two bins should have the edges 0, 0.002 and 0.004, but the edges are 0, 2 and 4; (2) without limits the hit with the greatest x is in no bin. -/
theorem C60_false :
    edgesOf (Bunch.histogram1 ratExt exWorld exBunch "x" 1000 (some 2) (some 0) (some (1 / 250))) =
      some [0, 2, 4] ∧
    contents (Bunch.histogram1 ratExt exWorld exBunch "x" 1 (some 1) none none) 0 ≠
      some ((exBunch.hits.map exWorld.weight).sum) := by
  refine ⟨by decide +kernel, by decide +kernel⟩

example : let r := Bunch.histogram1 ratExt exWorld exBunch "x" 1 (some 2) (some 0) (some 2)
    edgesOf r = some [0, 1, 2] ∧ contents r 0 = some 1 ∧ contents r 1 = some 2 := by decide +kernel

/-! ### C77 -/

theorem column_ok (L : LinAlg K) (E : Ext K) (w : BWorld K) (name : String) (vars : List String)
    (val : Bunch K → K) : ∀ bs : List (Bunch K), (∀ b ∈ bs, Bunch.get L E w b name vars = .ok (val b)) →
      Bunch.column L E w name vars bs = .ok (bs.map val)
  | [], _ => rfl
  | b :: r, h => by
    rw [Bunch.column, h b (by simp), column_ok L E w name vars val r fun c hc => h c (by simp [hc])]
    rfl

theorem columns_ok (L : LinAlg K) (E : Ext K) (w : BWorld K) (bs : List (Bunch K))
    (val : String × List String → Bunch K → K) : ∀ reqs : List (String × List String),
      (∀ q ∈ reqs, ∀ b ∈ bs, Bunch.get L E w b q.1 q.2 = .ok (val q b)) →
      Bunch.columns L E w bs reqs = .ok (reqs.map fun q => bs.map (val q))
  | [], _ => rfl
  | (n, v) :: r, h => by
    rw [Bunch.columns, column_ok L E w n v (val (n, v)) bs (fun b hb => h (n, v) (by simp) b hb)]
    simp only [columns_ok L E w bs val r fun q hq => h q (by simp [hq])]
    rfl

theorem rowsOf_table (bs : List (Bunch K)) (val : String × List String → Bunch K → K)
    (reqs : List (String × List String)) :
    rowsOf (reqs.map fun q => bs.map (val q)) bs.length = bs.map fun b => reqs.map fun q => val q b := by
  apply List.ext_getElem
  · simp [rowsOf]
  · intro k h1 h2
    simp only [List.length_map] at h2
    simp [rowsOf, rowAt, List.getD_eq_getElem?_getD, h2, Function.comp_def]

/-- C77: `Bunch.list_get(dict, names, lists)` is a table with a column for each variable, whose rows are
the values of the bunches, in order of the first variable: every row is that of a bunch, each bunch
has a row, and bunches with the same first variable stay in the order of the dict. -/
theorem C77_list_get (L : LinAlg K) (E : Ext K) (w : BWorld K) (bs : List (Bunch K))
    (q0 : String × List String) (reqs : List (String × List String)) (val : String × List String → Bunch K → K)
    (h : ∀ q ∈ q0 :: reqs, ∀ b ∈ bs, Bunch.get L E w b q.1 q.2 = .ok (val q b)) :
    ∃ table, Bunch.listGetTable L E w bs (q0 :: reqs) = .ok table ∧ table.length = reqs.length + 1 ∧
      (∀ c ∈ table, c.length = bs.length) ∧
      (∃ order : List (Bunch K), order.Perm bs ∧
        order.Pairwise (fun a b => val q0 a ≤ val q0 b) ∧
        (∀ k, order.filter (fun b => decide (val q0 b = k)) = bs.filter (fun b => decide (val q0 b = k))) ∧
        table = (q0 :: reqs).map fun q => order.map (val q)) := by
  let le : Bunch K → Bunch K → Bool := fun a b => decide (val q0 a ≤ val q0 b)
  have htr : ∀ a b c, le a b → le b c → le a c := by
    intro a b c h1 h2
    simp only [le, decide_eq_true_eq] at *
    exact h1.trans h2
  have hto : ∀ a b, le a b || le b a := by
    intro a b
    simp only [le, Bool.or_eq_true, decide_eq_true_eq]
    exact _root_.le_total _ _
  let order := bs.mergeSort le
  have hperm : order.Perm bs := List.mergeSort_perm bs le
  have hrows := rowsOf_table bs val (q0 :: reqs)
  have hsort : (bs.map fun b => (q0 :: reqs).map fun q => val q b).mergeSort
      (fun a b => decide (a.getD 0 0 ≤ b.getD 0 0)) = order.map fun b => (q0 :: reqs).map fun q => val q b := by
    symm
    apply List.map_mergeSort
    intro a _ b _
    simp [le]
  have hany : (((q0 :: reqs).map fun q => bs.map (val q)).any fun c =>
      decide (c.length < (bs.map (val q0)).length)) = false := by
    rw [List.any_eq_false]
    intro c hc
    obtain ⟨q, _, rfl⟩ := List.mem_map.1 hc
    simp
  refine ⟨(q0 :: reqs).map fun q => order.map (val q), ?_, by simp, ?_, order, hperm, ?_, ?_, rfl⟩
  · rw [Bunch.listGetTable, columns_ok L E w bs val (q0 :: reqs) h]
    have e : (List.map (fun q => bs.map (val q)) (q0 :: reqs)) = bs.map (val q0) ::
      reqs.map (fun q => bs.map (val q)) := rfl
    simp only [Common.multisort]
    rw [e] at hany ⊢
    simp only [hany, Bool.false_eq_true, if_false]
    rw [← e]
    have hr2 : (List.range (bs.map (val q0)).length).map (fun i =>
        ((q0 :: reqs).map fun q => bs.map (val q)).map fun c => c.getD i 0) =
        bs.map fun b => (q0 :: reqs).map fun q => val q b := by
      rw [List.length_map]; exact hrows
    rw [hr2, hsort]
    congr 1
    apply List.ext_getElem
    · simp
    · intro k h1 h2
      simp only [List.length_map] at h2
      simp only [List.getElem_mapIdx, List.map_map, List.getElem_map, List.length_map]
      rw [List.drop_eq_nil_of_le (by simp), List.append_nil]
      apply List.map_congr_left
      intro b _
      simp only [Function.comp_apply, List.getD_eq_getElem?_getD, List.getElem?_map,
        List.getElem?_eq_getElem h2, Option.map_some, Option.getD_some]
  · intro c hc
    obtain ⟨q, _, rfl⟩ := List.mem_map.1 hc
    rw [List.length_map, hperm.length_eq]
  · exact (List.pairwise_mergeSort htr hto bs).imp (fun h => by simpa [le] using h)
  · intro k
    apply stable_of_mergeSort le htr hto
    intro a b ha hb
    simp only [decide_eq_true_eq] at ha hb
    simp [le, ha, hb]

/-- C77: which value belongs to a name: the sum of the weights for bunch_weight, the weighted mean of the
first variable for mean, the weighted central moment of all variables for moment; the other names
call the function of that name (dispersion functions and standard_deviation on the first variable). -/
theorem C77_get (L : LinAlg K) (E : Ext K) (w : BWorld K) (b : Bunch K) (hb : b.Normal w)
    (hmeans : b.means = []) (hW : ¬ |(b.hits.map w.weight).sum| < 1 / 1000000000)
    (v : String) (r : List String) (vals : String → Nat → K)
    (hv : ∀ i ∈ b.hits, ∀ u ∈ v :: r, Bunch.hitNum E w i u = .ok (vals u i)) :
    Bunch.get L E w b "bunch_weight" (v :: r) = .ok (b.hits.map w.weight).sum ∧
    Bunch.get L E w b "mean" (v :: r) = .ok (wmean b.hits w.weight (vals v)) ∧
    Bunch.get L E w b "moment" (v :: r) = .ok (wmoment b.hits w.weight
        ((v :: r).map (fun v i => vals v i - wmean b.hits w.weight (vals v)))) ∧
    Bunch.get L E w b "standard_deviation" (v :: r) = Bunch.standardDeviation E w b v (.dict []) ∧
    Bunch.get L E w b "dispersion" (v :: r) = Bunch.getDispersion E w b v ∧
    Bunch.get L E w b "dispersion_prime" (v :: r) = Bunch.getDispersionPrime E w b v false ∧
    Bunch.get L E w b "emittance" (v :: r) = Bunch.getEmittance L E w b (v :: r) none ∧
    Bunch.get L E w b "beta" (v :: r) = Bunch.getBeta L E w b (v :: r) w.geo ∧
    Bunch.get L E w b "alpha" (v :: r) = Bunch.getAlpha L E w b (v :: r) w.geo ∧
    Bunch.get L E w b "gamma" (v :: r) = Bunch.getGamma L E w b (v :: r) w.geo := by
  refine ⟨?_, ?_, ?_, rfl, rfl, rfl, rfl, rfl, rfl, rfl⟩
  · rw [← Bunch.bunchWeight_eq]; rfl
  · obtain ⟨d, h1, h2⟩ := Bunch.mean_ok E w b hb hmeans hW vals (v :: r) hv
    have h3 := h2 v (by simp)
    simp only [Bunch.get, String.reduceEq, if_false, if_true, h1, h3]
  · exact (rfl : _ = Bunch.moment E w b (v :: r) []).trans
      (C19_moment_default E w b hb hmeans hW (v :: r) vals hv)

/-- C77: an unknown variable is a KeyError, no variable at all an IndexError. -/
theorem C77_errors (L : LinAlg K) (E : Ext K) (w : BWorld K) (b : Bunch K) (name : String) (vars : List String)
    (h : name ∉ ["angular_momentum", "emittance", "dispersion", "dispersion_prime", "beta", "alpha", "gamma",
      "moment", "mean", "bunch_weight", "standard_deviation"]) (bs : List (Bunch K)) :
    Bunch.get L E w b name vars = .error .KeyError ∧ Bunch.listGetTable L E w bs [] = .error .IndexError := by
  simp only [List.mem_cons, List.not_mem_nil, or_false, not_or] at h
  obtain ⟨h1, h2, h3, h4, h5, h6, h7, h8, h9, h10, h11⟩ := h
  exact ⟨by simp [Bunch.get, h1, h2, h3, h4, h5, h6, h7, h8, h9, h10, h11], rfl⟩

/-- some linear algebra, not used by the example -/
def anyLin : LinAlg ℚ := ⟨fun _ => none, fun _ _ => 0, fun M => (fun _ => 0, M)⟩

/-- mean and moment of hits 0 and 1 -/
example : Bunch.get anyLin ratExt exWorld exBunch "mean" ["px", "x"] = .ok (4 / 3) ∧
    Bunch.get anyLin ratExt exWorld exBunch "moment" ["px", "x"] = .ok (4 / 9) := by
  obtain ⟨_, h1, h2, _⟩ := C77_get anyLin ratExt exWorld exBunch exBunch_normal rfl exBunch_weight "px" ["x"]
    (fun v i => if v = "x" then i else 2 * i) (fun i _ u hu => by
      simp only [List.mem_cons, List.not_mem_nil, or_false] at hu
      rcases hu with rfl | rfl <;> rfl)
  rw [h1, h2]
  constructor <;> decide +kernel

/-- hits 1 and 2 in one bunch, 0 and 1 in another: mean x and bunch weight, sorted by mean x -/
example : ∃ table, Bunch.listGetTable anyLin ratExt exWorld [⟨[1, 2], [some 1, some 2], none, []⟩, exBunch]
    [("mean", ["x"]), ("bunch_weight", [])] = .ok table ∧ table.length = 2 := by
  obtain ⟨t, h1, h2, _⟩ := C77_list_get anyLin ratExt exWorld [⟨[1, 2], [some 1, some 2], none, []⟩, exBunch]
    ("mean", ["x"]) [("bunch_weight", [])]
    (fun q b => if q.1 = "mean" then (if b.hits = [0, 1] then 2 / 3 else 8 / 5) else
      (if b.hits = [0, 1] then 3 else 5)) (by decide +kernel)
  exact ⟨t, h1, h2⟩

end Xboa
