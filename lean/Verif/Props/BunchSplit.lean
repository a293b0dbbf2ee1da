import Verif.Props.BunchList
import Mathlib.Algebra.Order.Floor.Ring
/-
C28 (split) and C56 (equality of bunches).
-/
set_option linter.unusedSectionVars false
namespace Xboa
variable {K : Type} [Field K] [LinearOrder K] [IsStrictOrderedRing K]

/-! ### C28 -/

/-- The dictionary `d` groups the hits `l` by `f`: keys are distinct and in use, the bunch of key
`k` holds exactly the hits with `f i = k` in their order. -/
structure Groups (f : Nat → Int) (l : List Nat) (d : List (Int × Bunch K)) : Prop where
  nodup : (d.map Prod.fst).Nodup
  hits : ∀ p ∈ d, p.2.hits = l.filter (fun i => decide (f i = p.1))
  sync : ∀ p ∈ d, p.2.Sync
  nonempty : ∀ p ∈ d, p.2.hits ≠ []
  covered : ∀ i ∈ l, f i ∈ d.map Prod.fst

theorem Bunch.dictAppend_keys (d : List (Int × Bunch K)) (k : Int) (h : Nat) :
    (Bunch.dictAppend d k h).map Prod.fst =
      if k ∈ d.map Prod.fst then d.map Prod.fst else d.map Prod.fst ++ [k] := by
  induction d with
  | nil => simp [Bunch.dictAppend]
  | cons p r ih =>
    obtain ⟨k', b⟩ := p
    by_cases hk : k = k'
    · simp [Bunch.dictAppend, hk]
    · simp only [Bunch.dictAppend, hk, if_false, List.map_cons, ih, List.mem_cons, false_or]
      by_cases hm : k ∈ r.map Prod.fst
      · rw [if_pos hm, if_pos hm]
      · rw [if_neg hm, if_neg hm]; rfl

theorem Bunch.mem_dictAppend (d : List (Int × Bunch K)) (k : Int) (h : Nat)
    (hnd : (d.map Prod.fst).Nodup) (p : Int × Bunch K) (hp : p ∈ Bunch.dictAppend d k h) :
    (p.1 ≠ k ∧ p ∈ d) ∨ (p.1 = k ∧ ∃ b, (k, b) ∈ d ∧ p.2 = b.append h) ∨
      (p.1 = k ∧ k ∉ d.map Prod.fst ∧ p.2 = Bunch.new.append h) := by
  induction d with
  | nil =>
    simp only [Bunch.dictAppend, List.mem_singleton] at hp
    subst hp
    exact .inr (.inr ⟨rfl, by simp, rfl⟩)
  | cons q r ih =>
    obtain ⟨k', b⟩ := q
    simp only [List.map_cons, List.nodup_cons] at hnd
    by_cases hk : k = k'
    · subst hk
      simp only [Bunch.dictAppend, if_true, List.mem_cons] at hp
      rcases hp with rfl | hp
      · exact .inr (.inl ⟨rfl, b, by simp, rfl⟩)
      · refine .inl ⟨?_, by simp [hp]⟩
        intro e
        exact hnd.1 (List.mem_map.mpr ⟨p, hp, e⟩)
    · simp only [Bunch.dictAppend, hk, if_false, List.mem_cons] at hp
      rcases hp with rfl | hp
      · exact .inl ⟨fun e => hk e.symm, by simp⟩
      · rcases ih hnd.2 hp with ⟨h1, h2⟩ | ⟨h1, b', h2, h3⟩ | ⟨h1, h2, h3⟩
        · exact .inl ⟨h1, by simp [h2]⟩
        · exact .inr (.inl ⟨h1, b', by simp [h2], h3⟩)
        · exact .inr (.inr ⟨h1, by simp only [List.map_cons, List.mem_cons, not_or]; exact ⟨hk, h2⟩, h3⟩)

theorem Groups.append {f : Nat → Int} {l : List Nat} {d : List (Int × Bunch K)} (g : Groups f l d)
    (h : Nat) : Groups f (l ++ [h]) (Bunch.dictAppend d (f h) h) := by
  constructor
  · rw [Bunch.dictAppend_keys]
    by_cases hm : f h ∈ d.map Prod.fst
    · rw [if_pos hm]; exact g.nodup
    · rw [if_neg hm]
      refine List.nodup_append.mpr ⟨g.nodup, by simp, ?_⟩
      intro a ha b hb e
      simp only [List.mem_singleton] at hb
      subst e; subst hb
      exact hm ha
  · intro p hp
    rw [List.filter_append]
    rcases Bunch.mem_dictAppend d (f h) h g.nodup p hp with ⟨h1, h2⟩ | ⟨h1, b, h2, h3⟩ | ⟨h1, h2, h3⟩
    · have : ¬ f h = p.1 := fun e => h1 e.symm
      simp [g.hits p h2, this]
    · rw [h3, (Bunch.append_covs b h).1, g.hits _ h2]
      simp [h1]
    · rw [h3, (Bunch.append_covs _ h).1]
      have : l.filter (fun i => decide (f i = p.1)) = [] := by
        rw [List.filter_eq_nil_iff]
        intro i hi
        simp only [decide_eq_true_eq]
        intro e
        exact h2 (h1 ▸ e ▸ g.covered i hi)
      rw [this]
      simp [h1, Bunch.new]
  · intro p hp
    rcases Bunch.mem_dictAppend d (f h) h g.nodup p hp with ⟨h1, h2⟩ | ⟨h1, b, h2, h3⟩ | ⟨h1, h2, h3⟩
    · exact g.sync p h2
    · rw [h3]; exact (g.sync _ h2).append h
    · rw [h3]; exact Bunch.Sync.append C24_new_partial h
  · intro p hp
    rcases Bunch.mem_dictAppend d (f h) h g.nodup p hp with ⟨h1, h2⟩ | ⟨h1, b, h2, h3⟩ | ⟨h1, h2, h3⟩
    · exact g.nonempty p h2
    · rw [h3]; simp [Bunch.append]
    · rw [h3]; simp [Bunch.append]
  · intro i hi
    rw [Bunch.dictAppend_keys]
    rcases List.mem_append.mp hi with hi | hi
    · by_cases hm : f h ∈ d.map Prod.fst
      · rw [if_pos hm]; exact g.covered i hi
      · rw [if_neg hm]; exact List.mem_append_left _ (g.covered i hi)
    · simp only [List.mem_singleton] at hi
      subst hi
      by_cases hm : f i ∈ d.map Prod.fst
      · rw [if_pos hm]; exact hm
      · rw [if_neg hm]; simp

variable [FloorRing K]

/-- split groups by `pyInt` -/
theorem Bunch.split_groups (E : Ext K) (w : BWorld K) (b : Bunch K) (v : String) (val : Nat → K)
    (hv : ∀ i ∈ b.hits, Bunch.hitNum E w i v = .ok (val i)) :
    ∃ d, Bunch.split E w v b = .ok d ∧ Groups (fun i => Bunch.pyInt (val i)) b.hits d := by
  have : ∀ (r done : List Nat) (d : List (Int × Bunch K)),
      (∀ i ∈ r, Bunch.hitNum E w i v = .ok (val i)) →
      Groups (fun i => Bunch.pyInt (val i)) done d →
      ∃ d', Bunch.splitLoop E w v r d = .ok d' ∧
        Groups (fun i => Bunch.pyInt (val i)) (done ++ r) d' := by
    intro r
    induction r with
    | nil => intro done d _ g; exact ⟨d, rfl, by simpa using g⟩
    | cons i r ih =>
      intro done d hv g
      obtain ⟨d', h1, h2⟩ := ih (done ++ [i]) (Bunch.dictAppend d (Bunch.pyInt (val i)) i)
        (fun j hj => hv j (by simp [hj])) (g.append i)
      refine ⟨d', ?_, by simpa using h2⟩
      rw [Bunch.splitLoop, hv i (by simp)]
      exact h1
  obtain ⟨d, h1, h2⟩ := this b.hits [] [] hv ⟨by simp, by simp, by simp, by simp, by simp⟩
  exact ⟨d, h1, by simpa using h2⟩

theorem Bunch.isTrunc_pyInt {v : K} {n : Int} (h : IsTrunc v n) : Bunch.pyInt v = n := by
  unfold Bunch.pyInt
  split
  · rename_i hv
    have := h.2 hv
    rw [Int.ceil_eq_iff]
    exact ⟨this.2, this.1⟩
  · rename_i hv
    have := h.1 (not_lt.mp hv)
    rw [Int.floor_eq_iff]
    exact this

theorem Bunch.pyInt_isTrunc (v : K) : IsTrunc v (Bunch.pyInt v) := by
  unfold Bunch.pyInt
  constructor <;> intro h
  · rw [if_neg (not_lt.mpr h)]
    exact ⟨Int.floor_le v, Int.lt_floor_add_one v⟩
  · rw [if_pos h]
    exact ⟨Int.le_ceil v, by linarith [Int.ceil_lt_add_one v]⟩

/-- C28, what split does: it groups the hits by the value without its decimals, losing and
duplicating none. -/
theorem C28_groups_by_int (E : Ext K) (w : BWorld K) (b : Bunch K) (v : String) (val : Nat → K)
    (key : Nat → Int) (hv : ∀ i ∈ b.hits, Bunch.hitNum E w i v = .ok (val i))
    (hk : ∀ i, IsTrunc (val i) (key i)) :
    ∃ d, Bunch.split E w v b = .ok d ∧ Groups key b.hits d := by
  obtain ⟨d, h1, h2⟩ := Bunch.split_groups E w b v val hv
  refine ⟨d, h1, ?_⟩
  have : (fun i => Bunch.pyInt (val i)) = key := funext fun i => Bunch.isTrunc_pyInt (hk i)
  rwa [this] at h2

example : IsTrunc (-1 / 2 : ℚ) 0 ∧ IsTrunc (7 / 4 : ℚ) 1 := by
  unfold IsTrunc; norm_num

/-- The number of sub-bunches of a dictionary that hold hit `i`, counted with multiplicity. -/
def occurrences (d : List (Int × Bunch K)) (i : Nat) : Nat :=
  (d.map (fun p => p.2.hits.count i)).sum

theorem Groups.occurrences_eq {f : Nat → Int} {l : List Nat} {d : List (Int × Bunch K)}
    (g : Groups f l d) (i : Nat) : occurrences d i = l.count i := by
  have hcount : ∀ p ∈ d, p.2.hits.count i = if f i = p.1 then l.count i else 0 := by
    intro p hp
    rw [g.hits p hp]
    by_cases h : f i = p.1
    · rw [if_pos h, List.count_filter (by simp [h])]
    · rw [if_neg h, List.count_eq_zero]
      intro hm
      exact h (by simpa using (List.mem_filter.mp hm).2)
  have hsum : ∀ d : List (Int × Bunch K), (d.map Prod.fst).Nodup →
      (d.map (fun p => if f i = p.1 then l.count i else 0)).sum =
        if f i ∈ d.map Prod.fst then l.count i else 0 := by
    intro d
    induction d with
    | nil => simp
    | cons p r ih =>
      intro hnd
      simp only [List.map_cons, List.nodup_cons] at hnd
      simp only [List.map_cons, List.sum_cons, ih hnd.2, List.mem_cons]
      by_cases h : f i = p.1
      · simp [h, hnd.1]
      · simp only [h, if_false, false_or, Nat.zero_add]
  unfold occurrences
  rw [List.map_congr_left hcount, hsum d g.nodup]
  by_cases hm : i ∈ l
  · rw [if_pos (g.covered i hm)]
  · rw [List.count_eq_zero_of_not_mem hm]; simp

/-- C28: every hit is in the sub-bunches exactly as often as in the bunch. -/
theorem C28_nothing_lost (E : Ext K) (w : BWorld K) (b : Bunch K) (v : String) (val : Nat → K)
    (hv : ∀ i ∈ b.hits, Bunch.hitNum E w i v = .ok (val i)) :
    ∃ d, Bunch.split E w v b = .ok d ∧ ∀ i, occurrences d i = b.hits.count i := by
  obtain ⟨d, h1, h2⟩ := Bunch.split_groups E w b v val hv
  exact ⟨d, h1, h2.occurrences_eq⟩

theorem Bunch.pyInt_intCast (z : Int) : Bunch.pyInt (z : K) = z := by
  unfold Bunch.pyInt
  by_cases h : (z : K) < 0 <;> simp [h]

/-- C28_partial: for an integer valued variable, two hits of the bunch are in the same sub-bunch
iff they have the same value, and the key is that value.
Missing: variables with non-integer values (false). -/
theorem C28_partial (E : Ext K) (w : BWorld K) (b : Bunch K) (v : String) (val : Nat → Int)
    (hv : ∀ i ∈ b.hits, Bunch.hitNum E w i v = .ok (val i : K)) :
    ∃ d, Bunch.split E w v b = .ok d ∧ Groups val b.hits d ∧
      ∀ p ∈ d, ∀ i ∈ p.2.hits, ∀ j ∈ b.hits, (j ∈ p.2.hits ↔ val i = val j) := by
  obtain ⟨d, h1, h2⟩ := Bunch.split_groups E w b v (fun i => (val i : K)) hv
  simp only [Bunch.pyInt_intCast] at h2
  refine ⟨d, h1, h2, ?_⟩
  intro p hp i hi j hj
  rw [h2.hits p hp, List.mem_filter] at hi ⊢
  simp only [decide_eq_true_eq] at hi ⊢
  constructor
  · rintro ⟨_, h⟩; rw [h, hi.2]
  · intro h; exact ⟨hj, by rw [← h, hi.2]⟩

/-- Two hits at x = 1/4 and x = -1/2. -/
def splitWorld : BWorld ℚ :=
  { exWorld with hits := fun i => ⟨fun v => match v with
      | .x => if i = 0 then 1 / 4 else -1 / 2 | .local_weight => 1 | _ => 0, fun _ => 0⟩ }

/-- C28 is false: hits at x = 1/4 and x = -1/2 go to the same sub-bunch. -/
theorem C28_false : Bunch.hitNum ratExt splitWorld 0 "x" = .ok (1 / 4) ∧
    Bunch.hitNum ratExt splitWorld 1 "x" = .ok (-1 / 2) ∧
    (Bunch.split ratExt splitWorld "x" exBunch).toOption.map (List.map (fun p => (p.1, p.2.hits))) =
      some [(0, [0, 1])] := by decide +kernel

example : (Bunch.split ratExt exWorld "x" exBunch).toOption.map (List.map (fun p => (p.1, p.2.hits))) =
    some [(0, [0]), (1, [1])] := by decide +kernel

end Xboa

namespace Xboa
variable {K : Type} [Field K] [LinearOrder K] [IsStrictOrderedRing K]

/-! ### C56 -/

/-- C56 is false: a bunch with recorded means is not equal to the same bunch without, but the other
way round they are equal. -/
theorem C56_false : ∃ (w : BWorld ℚ) (a b : Bunch ℚ),
    Bunch.eq w (1 / 1000000000) a b = .ok true ∧ Bunch.eq w (1 / 1000000000) b a = .ok false := by
  refine ⟨exWorld, exBunch, { exBunch with means := [("x", .flt 0)] }, ?_, ?_⟩ <;> decide +kernel

/-- C56, worse: with an internal covariance matrix on one side, bunches of the same length compare
equal whatever the hits are. -/
theorem C56_covs_ignore_hits (w : BWorld K) (tol : K) (a b : Bunch K) (m : Mat K)
    (hlen : a.hits.length = b.hits.length) (hm : a.means = []) (ha : a.covs = some m)
    (hb : b.covs = none) (hr : m.rows ≠ 0) (hc : m.cols ≠ 1) : Bunch.eq w tol a b = .ok true := by
  simp [Bunch.eq, hlen, hm, Bunch.meansEq, ha, hb, Bunch.covsEq, Bunch.covsEq.oneNone, hr, hc]

theorem Hit.eq_comm' (wc : WC K) (a b : Core K) (tol : K) : Hit.eq wc a b tol = Hit.eq wc b a tol := by
  unfold Hit.eq
  congr 1
  funext n
  cases h1 : Hitcore.get ⟨a, wc⟩ n <;> cases h2 : Hitcore.get ⟨b, wc⟩ n <;> simp [abs_sub_comm]

/-- C56_partial: for bunches without recorded means and covariances, equality holds iff they have
the same number of hits and corresponding hits are equal; it is symmetric.
Missing: bunches with recorded means (false) or covariances. -/
theorem C56_partial (w : BWorld K) (tol : K) (a b : Bunch K) (ha : a.means = []) (hb : b.means = [])
    (ca : a.covs = none) (cb : b.covs = none) :
    (Bunch.eq w tol a b = .ok true ↔ a.hits.length = b.hits.length ∧
      ∀ p ∈ a.hits.zip b.hits, Hit.eq (w.ctx w.hcur) (w.hits p.1) (w.hits p.2) tol = true) ∧
    Bunch.eq w tol a b = Bunch.eq w tol b a := by
  have hsym : ∀ l l' : List Nat, ((l.zip l').all
      (fun p => Hit.eq (w.ctx w.hcur) (w.hits p.1) (w.hits p.2) tol)) =
      ((l'.zip l).all (fun p => Hit.eq (w.ctx w.hcur) (w.hits p.1) (w.hits p.2) tol)) := by
    intro l
    induction l with
    | nil => intro l'; simp
    | cons i r ih =>
      intro l'
      cases l' with
      | nil => simp
      | cons j s => simp only [List.zip_cons_cons, List.all_cons, ih s, Hit.eq_comm' _ (w.hits i)]
  by_cases hl : a.hits.length = b.hits.length
  · constructor
    · simp [Bunch.eq, hl, ha, hb, Bunch.meansEq, ca, cb, Bunch.covsEq]
    · simp [Bunch.eq, hl, ha, hb, Bunch.meansEq, ca, cb, Bunch.covsEq, hsym a.hits]
  · constructor
    · simp [Bunch.eq, hl]
    · have : ¬ b.hits.length = a.hits.length := fun h => hl h.symm
      simp [Bunch.eq, hl, this]

example : Bunch.eq exWorld (1 / 1000000000) exBunch exBunch = .ok true := by decide +kernel
example : Bunch.eq exWorld (1 / 1000000000) exBunch { exBunch with hits := [0, 2] } = .ok false := by
  decide +kernel

end Xboa
