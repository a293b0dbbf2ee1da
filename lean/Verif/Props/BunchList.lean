import Verif.Model.BunchList
import Verif.Props.BunchCut
import Verif.Props.HitCopy
import Mathlib.Data.Rat.Floor
/-
C24 (list and core in step), C25 (negative indices), C27 (conditional_remove), C28 (split),
C56 (equality).
-/
set_option linter.unusedSectionVars false
namespace Xboa
variable {K : Type} [Field K] [LinearOrder K] [IsStrictOrderedRing K]

/-! ### C25 -/

/-- The element a Python user expects at index `i` (negative: from the end); none is IndexError. -/
def pyElement {α : Type} (l : List α) (i : Int) : Option α :=
  if 0 ≤ i then l[i.toNat]? else if -(l.length : Int) ≤ i then l[(i + l.length).toNat]? else none

/-- C25 is false: in a core of two hits, item -1 is the first one. -/
theorem C25_false : Bunchcore.pyGetItem [some 10, some 20] (-1) = .ok (some 10) ∧
    pyElement [some 10, some 20] (-1) = some (some 20) := by decide

/-- C25, what the code does: index i >= 0 is element i, index -k is element k - 1 from the
*start*; an index is rejected exactly when it is outside [-len, len). -/
theorem C25_exact (l : Bunchcore.Items) (i : Int) :
    (0 ≤ i → i < l.length → Bunchcore.pyGetItem l i = .ok (l.getD i.toNat none)) ∧
    (∀ k : Nat, i = -(k + 1 : Int) → k < l.length →
      Bunchcore.pyGetItem l i = .ok (l.getD k none)) ∧
    (Bunchcore.pyGetItem l i = .error .IndexError ↔ ¬ (-(l.length : Int) ≤ i ∧ i < l.length)) := by
  have hidx : ∀ k : Nat, i = -(k + 1 : Int) → Bunchcore.pyIndex i = k := by
    intro k h
    unfold Bunchcore.pyIndex
    rw [if_pos (by omega)]
    omega
  refine ⟨?_, ?_, ?_⟩
  · intro h1 h2
    have : Bunchcore.pyIndex i = i.toNat := by unfold Bunchcore.pyIndex; rw [if_neg (by omega)]
    simp only [Bunchcore.pyGetItem, Bunchcore.pyIndexLen, this]
    rw [if_neg (by omega)]
  · intro k h1 h2
    simp only [Bunchcore.pyGetItem, Bunchcore.pyIndexLen, hidx k h1]
    rw [if_neg (by omega)]
  · have hi : (i < 0 ∧ Bunchcore.pyIndex i = (i + 1).natAbs) ∨
        (¬ i < 0 ∧ Bunchcore.pyIndex i = i.toNat) := by
      unfold Bunchcore.pyIndex
      by_cases h : i < 0
      · exact .inl ⟨h, if_pos h⟩
      · exact .inr ⟨h, if_neg h⟩
    simp only [Bunchcore.pyGetItem, Bunchcore.pyIndexLen]
    by_cases h2 : l.length ≤ Bunchcore.pyIndex i
    · rw [if_pos h2]; simp only [true_iff]; omega
    · rw [if_neg h2]; simp only [reduceCtorEq, false_iff, not_not]; omega

/-- C25_partial: non-negative indices, out of range indices, and the one negative index where both
conventions meet (the middle of an odd-length core) behave as in Python.
Missing: all other negative indices (false). -/
theorem C25_partial (l : Bunchcore.Items) (i : Int)
    (h : 0 ≤ i ∨ i < -(l.length : Int) ∨ 2 * i + 1 = -(l.length : Int)) :
    Bunchcore.pyGetItem l i = match pyElement l i with
      | some x => .ok x
      | none => .error .IndexError := by
  obtain ⟨h1, h2, h3⟩ := C25_exact l i
  by_cases hr : -(l.length : Int) ≤ i ∧ i < l.length
  · by_cases h0 : 0 ≤ i
    · rw [h1 h0 hr.2]
      have : i.toNat < l.length := by omega
      simp [pyElement, h0, List.getD_eq_getElem?_getD, List.getElem?_eq_getElem this]
    · have hi : 2 * i + 1 = -(l.length : Int) := by omega
      rw [h2 (i + l.length).toNat (by omega) (by omega)]
      have : (i + l.length).toNat < l.length := by omega
      simp [pyElement, h0, hr.1, List.getD_eq_getElem?_getD, List.getElem?_eq_getElem this]
  · rw [h3.mpr hr]
    have : pyElement l i = none := by
      unfold pyElement
      by_cases h0 : 0 ≤ i
      · rw [if_pos h0]; apply List.getElem?_eq_none; omega
      · rw [if_neg h0, if_neg (by omega)]
    rw [this]

example : pyElement [some 10, some 20, some 30] (-2) = some (some 20) := by decide

/-! ### C24 -/

/-- List and core hold the same hits. -/
def Bunch.Sync (b : Bunch K) : Prop := b.core = b.hits.map some

theorem Bunchcore.pySetItem_end (l : Bunchcore.Items) (h : Nat) :
    Bunchcore.pySetItem l h (l.length : Int) = l ++ [some h] := by
  have h1 : Bunchcore.pyIndex (l.length : Int) = l.length := by
    unfold Bunchcore.pyIndex; rw [if_neg (by omega)]; omega
  rw [Bunchcore.pySetItem, h1, Bunchcore.setItem, if_pos le_rfl]
  have : l.length + 1 - l.length = 1 := by omega
  rw [this]
  simp [List.replicate]

theorem Bunch.Sync.append {b : Bunch K} (hb : b.Sync) (h : Nat) : (b.append h).Sync := by
  unfold Bunch.Sync at hb ⊢
  have : (b.hits.length : Int) = (b.core.length : Int) := by rw [hb]; simp
  simp only [Bunch.append]
  rw [this, Bunchcore.pySetItem_end, hb, List.map_append]
  rfl

theorem Bunch.append_covs (b : Bunch K) (h : Nat) :
    (b.append h).hits = b.hits ++ [h] ∧ (b.append h).covs = b.covs ∧ (b.append h).means = b.means :=
  ⟨rfl, rfl, rfl⟩

theorem Bunch.foldl_append (l : List Nat) (b : Bunch K) (hb : b.Sync) :
    (l.foldl (fun b h => b.append h) b).Sync ∧
    (l.foldl (fun b h => b.append h) b).hits = b.hits ++ l := by
  induction l generalizing b with
  | nil => exact ⟨hb, by simp⟩
  | cons h r ih =>
    obtain ⟨h1, h2⟩ := ih (b.append h) (hb.append h)
    exact ⟨h1, by rw [List.foldl_cons, h2]; simp [Bunch.append]⟩

theorem Bunch.newFromHits_sync (l : List Nat) (covs : Option (Mat K)) (means : List (String × PyVal K)) :
    (Bunch.newFromHits l covs means).Sync ∧ (Bunch.newFromHits l covs means).hits = l := by
  obtain ⟨h1, h2⟩ := Bunch.foldl_append l (Bunch.new : Bunch K) rfl
  exact ⟨h1, by rw [Bunch.newFromHits]; simp only [h2]; rfl⟩

theorem Bunch.refill_eq (l : List Nat) : Bunch.refill l = l.map some := by
  have : ∀ (l : List Nat) (acc : Bunchcore.Items),
      (l.zipIdx acc.length).foldl (fun l p => Bunchcore.pySetItem l p.1 (p.2 : Int)) acc
        = acc ++ l.map some := by
    intro l
    induction l with
    | nil => simp
    | cons h r ih =>
      intro acc
      rw [List.zipIdx_cons, List.foldl_cons, Bunchcore.pySetItem_end]
      have : acc.length + 1 = (acc ++ [some h]).length := by simp
      rw [this, ih]
      simp
  exact this l []

/-- Operations that keep list and core in step on a bunch of `n` hits. -/
def LOpSafe (n : Nat) : Bunch.LOp K → Prop
  | .append _ => True
  | .setItem i _ => 0 ≤ i ∨ i < -(n : Int) ∨ 2 * i + 1 = -(n : Int)
  | .delItem i => ¬ (-(n : Int) ≤ i ∧ i < n)
  | .remove _ _ _ => True
  | .copy _ => True

/-- Every operation of the history is safe at the moment it is executed. -/
def HistorySafe (E : Ext K) : Bunch K → List (BWorld K × Bunch.LOp K) → Prop
  | _, [] => True
  | b, p :: r => LOpSafe b.hits.length p.2 ∧ HistorySafe E (Bunch.lstep E b p.1 p.2) r

theorem Bunch.conditionalRemove1_sync (E : Ext K) (w : BWorld K) (v : String)
    (comp : K → K → Option Bool) (c : K) (b : Bunch K) (hb : b.Sync) :
    (Bunch.conditionalRemove E w comp [(v, c)] b).2.Sync := by
  simp only [Bunch.conditionalRemove, Bunch.conditionalRemove1]
  cases h1 : Bunch.listGet E w v b.hits with
  | error e => exact hb
  | ok xs =>
    simp only
    cases h2 : Bunch.keepLoop comp c (b.hits.zip xs) with
    | error e => exact hb
    | ok l => exact Bunch.refill_eq l

theorem Bunch.lstep_sync (E : Ext K) (w : BWorld K) (b : Bunch K) (hb : b.Sync) (op : Bunch.LOp K)
    (hop : LOpSafe b.hits.length op) : (Bunch.lstep E b w op).Sync := by
  cases op with
  | append h => exact hb.append h
  | setItem i h =>
    simp only [LOpSafe] at hop
    simp only [Bunch.lstep, Bunch.setItem, Bunch.listIndex]
    by_cases hr : 0 ≤ (if i < 0 then i + (b.hits.length : Int) else i) ∧
        (if i < 0 then i + (b.hits.length : Int) else i) < b.hits.length
    · rw [if_pos hr]
      simp only [Bunch.Sync] at hb ⊢
      rw [hb, Bunchcore.pySetItem, Bunchcore.setItem]
      have hidx : Bunchcore.pyIndex i = (if i < 0 then i + (b.hits.length : Int) else i).toNat := by
        unfold Bunchcore.pyIndex
        by_cases h0 : i < 0
        · simp only [h0, if_true] at hr ⊢; omega
        · simp only [h0, if_false]
      have hlt : Bunchcore.pyIndex i < (b.hits.map some).length := by
        rw [hidx, List.length_map]; omega
      rw [if_neg (by omega), hidx, List.map_set]
    · rw [if_neg hr]; exact hb
  | delItem i =>
    simp only [LOpSafe] at hop
    simp only [Bunch.lstep, Bunch.delItem, Bunch.listIndex]
    rw [if_neg]
    · exact hb
    · by_cases h0 : i < 0
      · simp only [h0, if_true]; omega
      · simp only [h0, if_false]; omega
  | remove v comp c => exact Bunch.conditionalRemove1_sync E w v comp c b hb
  | copy hits => exact (Bunch.newFromHits_sync hits b.covs b.means).1

/-- C24_partial: list and core stay in step through any history of append, conditional_remove,
copying, item assignment at indices where the two index conventions agree (all non-negative ones)
and deletions that are rejected with IndexError.
Missing: successful `del bunch[i]` and other negative indices (false). -/
theorem C24_partial (E : Ext K) (ops : List (BWorld K × Bunch.LOp K)) :
    ∀ b : Bunch K, b.Sync → HistorySafe E b ops → (Bunch.lrun E b ops).Sync := by
  induction ops with
  | nil => intro b hb _; exact hb
  | cons p r ih =>
    intro b hb h
    exact ih _ (Bunch.lstep_sync E p.1 b hb p.2 h.1) h.2

/-- A new bunch is in step. -/
theorem C24_new_partial : (Bunch.new : Bunch K).Sync := rfl

/-- C24 is false: deleting an item (which raises AttributeError) leaves the hit in the core, and
assigning item -1 of a bunch of two replaces item 0 of the core. -/
theorem C24_false :
    (∃ (b : Bunch ℚ) (i : Int), b.Sync ∧ (b.delItem i).1 = .error .AttributeError ∧
      ¬ (b.delItem i).2.Sync ∧ (b.delItem i).2.core.length ≠ (b.delItem i).2.hits.length) ∧
    (∃ (b : Bunch ℚ) (i : Int) (h : Nat), b.Sync ∧ (b.setItem i h).1 = .ok () ∧
      (b.setItem i h).2.hits = [0, h] ∧ (b.setItem i h).2.core = [some h, some 1]) := by
  refine ⟨⟨⟨[0, 1], [some 0, some 1], none, []⟩, 0, rfl, rfl, ?_, ?_⟩,
    ⟨⟨[0, 1], [some 0, some 1], none, []⟩, -1, 5, rfl, rfl, rfl, rfl⟩⟩
  · unfold Bunch.Sync; decide
  · decide

/-- non-vacuity: a history of all safe kinds -/
example : HistorySafe ratExt (Bunch.new : Bunch ℚ)
    [(exWorld, .append 0), (exWorld, .append 1), (exWorld, .setItem 1 2), (exWorld, .append 3),
     (exWorld, .setItem (-2) 5), (exWorld, .remove "x" (okComp (fun a b => decide (b < a))) 1),
     (exWorld, .delItem 7)] := by
  refine ⟨trivial, trivial, .inl (by decide), trivial, .inr (.inr (by decide)), trivial, ?_, trivial⟩
  unfold LOpSafe
  decide +kernel

/-! ### C27 -/

theorem Bunch.keepLoop_ok (comp : K → K → Bool) (c : K) (val : Nat → K) (l : List Nat) :
    Bunch.keepLoop (okComp comp) c (l.zip (l.map val)) =
      .ok (l.filter (fun i => ! comp (val i) c)) := by
  induction l with
  | nil => rfl
  | cons i r ih =>
    rw [List.map_cons, List.zip_cons_cons, Bunch.keepLoop, ih]
    cases h : comp (val i) c <;> simp [h, okComp]

/-- C27: conditional_remove keeps exactly the hits that meet the comparator for none of the given
variables, in the original order, in the list and in the core; no hit changes. -/
theorem C27_conditional_remove (E : Ext K) (w : BWorld K) (val : String → Nat → K)
    (comp : K → K → Bool) (d : List (String × K)) : ∀ b : Bunch K, b.Sync →
    (∀ p ∈ d, ∀ i ∈ b.hits, Bunch.hitNum E w i p.1 = .ok (val p.1 i)) →
    ∃ b', Bunch.conditionalRemove E w (okComp comp) d b = (.ok (), b') ∧
      b'.hits = b.hits.filter (fun i => d.all (fun p => ! comp (val p.1 i) p.2)) ∧
      b'.Sync ∧ b'.covs = b.covs ∧ b'.means = b.means := by
  induction d with
  | nil => intro b hb _; exact ⟨b, rfl, by simp, hb, rfl, rfl⟩
  | cons p r ih =>
    obtain ⟨v, c⟩ := p
    intro b hb hv
    have h1 : Bunch.conditionalRemove1 E w v (okComp comp) c b =
        (.ok (), { b with hits := b.hits.filter (fun i => ! comp (val v i) c)
                          core := Bunch.refill (b.hits.filter (fun i => ! comp (val v i) c)) }) := by
      unfold Bunch.conditionalRemove1
      rw [Bunch.listGet_ok E w v (val v) b.hits (hv (v, c) (by simp))]
      simp only [Bunch.keepLoop_ok]
    obtain ⟨b', h2, h3, h4, h5, h6⟩ := ih
      { b with hits := b.hits.filter (fun i => ! comp (val v i) c)
               core := Bunch.refill (b.hits.filter (fun i => ! comp (val v i) c)) }
      (Bunch.refill_eq _)
      (fun p hp i hi => hv p (by simp [hp]) i (List.mem_of_mem_filter hi))
    refine ⟨b', ?_, ?_, h4, h5, h6⟩
    · rw [Bunch.conditionalRemove, h1]; exact h2
    · rw [h3, List.filter_filter]
      apply List.filter_congr
      intro i _
      simp [Bool.and_comm]

/-- C27: nothing is removed when the variable cannot be evaluated or the comparator raises. -/
theorem C27_error_keeps (E : Ext K) (w : BWorld K) (v : String) (comp : K → K → Option Bool) (c : K)
    (b b' : Bunch K) (e : Err) (h : Bunch.conditionalRemove E w comp [(v, c)] b = (.error e, b')) :
    b' = b := by
  simp only [Bunch.conditionalRemove, Bunch.conditionalRemove1] at h
  cases h1 : Bunch.listGet E w v b.hits with
  | error e => rw [h1] at h; simp at h; exact h.2.symm
  | ok xs =>
    rw [h1] at h
    simp only at h
    cases h2 : Bunch.keepLoop comp c (b.hits.zip xs) with
    | error e => rw [h2] at h; simp at h; exact h.2.symm
    | ok l => rw [h2] at h; simp at h

example : (Bunch.conditionalRemove ratExt exWorld (okComp (fun a b => decide (b ≤ a)))
    [("x", 1)] exBunch).2.hits = [0] := by decide +kernel

end Xboa
