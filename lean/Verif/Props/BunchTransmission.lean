import Verif.Props.BunchSplit
/-
C26 (transmission_cut).
-/
set_option linter.unusedSectionVars false
namespace Xboa
variable {K : Type} [Field K] [LinearOrder K] [IsStrictOrderedRing K]

/-! ### Python's order of lists -/

theorem lexLt_irrefl (a : List K) : Bunch.lexLt a a = false := by
  induction a with
  | nil => rfl
  | cons x r ih => simp [Bunch.lexLt, ih]

theorem lexLt_trans {a b c : List K} (h1 : Bunch.lexLt a b = true) (h2 : Bunch.lexLt b c = true) :
    Bunch.lexLt a c = true := by
  induction a generalizing b c with
  | nil =>
    cases b with
    | nil => cases h1
    | cons y s => cases c with
      | nil => cases h2
      | cons z t => rfl
  | cons x r ih =>
    cases b with
    | nil => cases h1
    | cons y s => cases c with
      | nil => cases h2
      | cons z t =>
        simp only [Bunch.lexLt] at h1 h2 ⊢
        by_cases hxy : x = y
        · subst hxy
          rw [if_pos rfl] at h1
          by_cases hxz : x = z
          · rw [if_pos hxz] at h2 ⊢; exact ih h1 h2
          · rw [if_neg hxz] at h2 ⊢; exact h2
        · rw [if_neg hxy, decide_eq_true_eq] at h1
          by_cases hyz : y = z
          · subst hyz; rw [if_neg hxy]; exact decide_eq_true h1
          · rw [if_neg hyz, decide_eq_true_eq] at h2
            rw [if_neg (h1.trans h2).ne]
            exact decide_eq_true (h1.trans h2)

theorem lexLt_total {a b : List K} (h1 : Bunch.lexLt a b = false) (h2 : Bunch.lexLt b a = false) :
    a = b := by
  induction a generalizing b with
  | nil =>
    cases b with
    | nil => rfl
    | cons y s => cases h1
  | cons x r ih =>
    cases b with
    | nil => cases h2
    | cons y s =>
      simp only [Bunch.lexLt] at h1 h2
      by_cases hxy : x = y
      · subst hxy
        rw [if_pos rfl] at h1 h2
        rw [ih h1 h2]
      · rw [if_neg hxy, decide_eq_false_iff_not] at h1
        rw [if_neg (fun e => hxy e.symm), decide_eq_false_iff_not] at h2
        exact absurd (le_antisymm (not_lt.mp h2) (not_lt.mp h1)) hxy

theorem lexLt_of_le_of_lt {a b c : List K} (h1 : Bunch.lexLt b a = false)
    (h2 : Bunch.lexLt b c = true) : Bunch.lexLt a c = true := by
  cases h : Bunch.lexLt a b with
  | true => exact lexLt_trans h h2
  | false => rw [lexLt_total h h1]; exact h2

theorem lexLt_asymm {a b : List K} (h : Bunch.lexLt a b = true) : Bunch.lexLt b a = false := by
  cases h' : Bunch.lexLt b a with
  | false => rfl
  | true => have := lexLt_trans h h'; rw [lexLt_irrefl] at this; cases this

/-! ### sorting and searching -/

/-- Non-decreasing. -/
def SortedRows (l : List (List K)) : Prop := l.Pairwise (fun a b => Bunch.lexLt b a = false)

theorem Bunch.insertRow_perm (x : List K) (l : List (List K)) : (Bunch.insertRow x l).Perm (x :: l) := by
  induction l with
  | nil => exact .refl _
  | cons y r ih =>
    rw [Bunch.insertRow]
    by_cases h : Bunch.lexLt x y = true
    · rw [if_pos h]
    · rw [if_neg h]
      exact (ih.cons y).trans (.swap x y r)

theorem Bunch.insertRow_sorted (x : List K) (l : List (List K)) (h : SortedRows l) :
    SortedRows (Bunch.insertRow x l) := by
  induction l with
  | nil => simp [Bunch.insertRow, SortedRows]
  | cons y r ih =>
    rw [Bunch.insertRow]
    have hy := List.pairwise_cons.mp h
    by_cases hx : Bunch.lexLt x y = true
    · rw [if_pos hx]
      refine List.pairwise_cons.mpr ⟨?_, h⟩
      intro z hz
      rcases List.mem_cons.mp hz with rfl | hz
      · exact lexLt_asymm hx
      · exact lexLt_asymm (by
          cases hc : Bunch.lexLt x z with
          | true => rfl
          | false =>
            have := lexLt_of_le_of_lt hc hx
            rw [hy.1 z hz] at this; cases this)
    · rw [if_neg hx]
      refine List.pairwise_cons.mpr ⟨?_, ih hy.2⟩
      intro z hz
      rcases List.mem_cons.mp ((Bunch.insertRow_perm x r).mem_iff.mp hz) with rfl | hz
      · simpa using hx
      · exact hy.1 z hz

theorem Bunch.sortRows_spec (l : List (List K)) :
    (Bunch.sortRows l).Perm l ∧ SortedRows (Bunch.sortRows l) := by
  induction l with
  | nil => exact ⟨.refl _, .nil⟩
  | cons x r ih =>
    exact ⟨(Bunch.insertRow_perm x _).trans (ih.1.cons x), Bunch.insertRow_sorted x _ ih.2⟩

theorem SortedRows.getD {l : List (List K)} (h : SortedRows l) {k m : Nat} (hkm : k ≤ m)
    (hm : m < l.length) : Bunch.lexLt (l.getD m []) (l.getD k []) = false := by
  rcases Nat.lt_or_ge k m with hlt | hge
  · have := (List.pairwise_iff_getElem.mp h) k m (by omega) hm hlt
    simpa [List.getD_eq_getElem?_getD, List.getElem?_eq_getElem hm,
      List.getElem?_eq_getElem (show k < l.length by omega)] using this
  · have : k = m := by omega
    subst this
    exact lexLt_irrefl _

/-- bisect_left finds the first row that is not smaller. -/
theorem Bunch.bisectLeft_spec (a : List (List K)) (x : List K) (ha : SortedRows a) :
    ∀ (n lo hi : Nat), hi - lo ≤ n → lo ≤ hi → hi ≤ a.length →
    (∀ k < lo, Bunch.lexLt (a.getD k []) x = true) →
    (∀ k, hi ≤ k → k < a.length → Bunch.lexLt (a.getD k []) x = false) →
    (bisectLeft a x n lo hi ≤ a.length ∧
     (∀ k < bisectLeft a x n lo hi, Bunch.lexLt (a.getD k []) x = true) ∧
     (∀ k, bisectLeft a x n lo hi ≤ k → k < a.length → Bunch.lexLt (a.getD k []) x = false)) := by
  intro n
  induction n with
  | zero =>
    intro lo hi h1 h2 h3 h4 h5
    have : lo = hi := by omega
    subst this
    exact ⟨h3, h4, h5⟩
  | succ n ih =>
    intro lo hi h1 h2 h3 h4 h5
    rw [bisectLeft]
    by_cases hlt : lo < hi
    · rw [if_pos hlt]
      simp only
      by_cases hx : Bunch.lexLt (a.getD ((lo + hi) / 2) []) x = true
      · rw [if_pos hx]
        refine ih _ _ (by omega) (by omega) h3 ?_ h5
        intro k hk
        exact lexLt_of_le_of_lt (ha.getD (show k ≤ (lo + hi) / 2 by omega) (by omega)) hx
      · rw [if_neg hx]
        refine ih _ _ (by omega) (by omega) (by omega) h4 ?_
        intro k hk hk'
        cases hc : Bunch.lexLt (a.getD k []) x with
        | false => rfl
        | true => exact absurd (lexLt_of_le_of_lt (ha.getD hk hk') hc) hx
    · rw [if_neg hlt]
      have : lo = hi := by omega
      subst this
      exact ⟨h3, h4, h5⟩

/-! ### which rows are kept -/

theorem rowDist_self (x : List K) : Bunch.rowDist x x = 0 := by
  unfold Bunch.rowDist
  induction x with
  | nil => rfl
  | cons a r ih => simpa using ih

theorem Bunch.transKeep_sound {tol : K} {tab : List (List K)} {x : List K}
    (h : Bunch.transKeep tol tab x = true) : ∃ y ∈ tab, Bunch.rowDist y x < tol := by
  have get : ∀ k, k < tab.length → tab.getD k [] ∈ tab := by
    intro k hk
    rw [List.getD_eq_getElem?_getD, List.getElem?_eq_getElem hk]
    exact List.getElem_mem hk
  simp only [Bunch.transKeep, Bool.or_eq_true, Bool.and_eq_true, decide_eq_true_eq] at h
  rcases h with ⟨h1, h2⟩ | ⟨h1, h2⟩
  · exact ⟨_, get _ h1, h2⟩
  · exact ⟨_, get _ h1, h2⟩

theorem Bunch.transKeep_complete {tol : K} (htol : 0 < tol) {tab : List (List K)}
    (hs : SortedRows tab) {x : List K} (hx : x ∈ tab) : Bunch.transKeep tol tab x = true := by
  obtain ⟨h1, h2, h3⟩ := Bunch.bisectLeft_spec tab x hs tab.length 0 tab.length (by omega) (by omega)
    (le_refl _) (by simp) (by intro k h h'; omega)
  obtain ⟨m, hm, rfl⟩ := List.getElem_of_mem hx
  have em : tab.getD m [] = tab[m] := by
    rw [List.getD_eq_getElem?_getD, List.getElem?_eq_getElem hm]; rfl
  have hle : bisectLeft tab tab[m] tab.length 0 tab.length ≤ m := by
    by_contra hc
    have := h2 m (by omega)
    rw [em, lexLt_irrefl] at this
    cases this
  have e : tab.getD (bisectLeft tab tab[m] tab.length 0 tab.length) [] = tab[m] := by
    apply lexLt_total (h3 _ (le_refl _) (by omega))
    have := hs.getD hle hm
    rwa [em] at this
  simp only [Bunch.transKeep, Bool.or_eq_true, Bool.and_eq_true, decide_eq_true_eq]
  left
  refine ⟨by omega, ?_⟩
  rw [e, rowDist_self]
  exact htol

/-! ### the loop -/

theorem Bunch.rowOf_congr (E : Ext K) (w w' : BWorld K) (i : Nat) (vars : List String)
    (h : ∀ n ∈ vars, Bunch.hitNum E w i n = Bunch.hitNum E w' i n) :
    Bunch.rowOf E w i vars = Bunch.rowOf E w' i vars := by
  induction vars with
  | nil => rfl
  | cons v r ih => simp only [Bunch.rowOf, h v (by simp), ih (fun n hn => h n (by simp [hn]))]

theorem Bunch.rowsOf_ok (E : Ext K) (w : BWorld K) (vars : List String) (val : Nat → List K)
    (l : List Nat) (h : ∀ i ∈ l, Bunch.rowOf E w i vars = .ok (val i)) :
    Bunch.rowsOf E w vars l = .ok (l.map val) := by
  induction l with
  | nil => rfl
  | cons i r ih =>
    simp only [Bunch.rowsOf, h i (by simp), ih (fun j hj => h j (by simp [hj])), List.map_cons]

theorem Bunch.transLoop_local (E : Ext K) (tol : K) (tab : List (List K)) (vars : List String)
    (hvars : "local_weight" ∉ vars ∧ "weight" ∉ vars) (val : Nat → List K) (l : List Nat) :
    ∀ w : BWorld K, (∀ i ∈ l, Bunch.rowOf E w i vars = .ok (val i)) →
    ∃ w', Bunch.transLoop E tol tab vars false l w = (.ok (), w') ∧
      LocalCut w w' (fun j => j ∈ l ∧ Bunch.transKeep tol tab (val j) = false) := by
  induction l with
  | nil => intro w _; exact ⟨w, rfl, (LocalCut.refl w).congr (by simp)⟩
  | cons i r ih =>
    intro w hv
    have hstep : ∃ w1, w.onHit i (Hit.set E "local_weight"
        (if Bunch.transKeep tol tab (val i) then .flt ((w.hits i).d .local_weight) else .int 0)) =
          (.ok (), w1) ∧
        LocalCut w w1 (fun j => j = i ∧ Bunch.transKeep tol tab (val i) = false) := by
      cases hk : Bunch.transKeep tol tab (val i) with
      | true =>
        refine ⟨w.hput i ⟨(w.hits i).setD .local_weight ((w.hits i).d .local_weight), w.ctx w.hcur⟩,
          rfl, ?_, ?_, ?_, rfl, rfl, rfl⟩
        · rintro j ⟨_, h⟩; cases h
        · intro j _
          by_cases hj : j = i
          · subst hj
            have : (w.hits j).setD .local_weight ((w.hits j).d .local_weight) = w.hits j := by
              unfold Core.setD
              have : (fun v' => if v' = DVar.local_weight then (w.hits j).d .local_weight
                  else (w.hits j).d v') = (w.hits j).d := by
                funext v; by_cases h : v = .local_weight <;> simp [h]
              rw [this]
            simp [BWorld.hput, this]
          · simp [BWorld.hput, hj]
        · funext c'; by_cases h : c' = w.hcur <;> simp [BWorld.hput, h]
      | false =>
        obtain ⟨w1, h1, h2⟩ := Bunch.setZero_local E w i
        exact ⟨w1, h1, h2.congr (by simp)⟩
    obtain ⟨w1, e1, h1⟩ := hstep
    have hrow : ∀ j ∈ r, Bunch.rowOf E w1 j vars = .ok (val j) := by
      intro j hj
      rw [← hv j (by simp [hj])]
      apply Bunch.rowOf_congr
      intro n hn
      have hd : ∀ v, v ≠ DVar.local_weight → (w1.hits j).d v = (w.hits j).d v := by
        intro v hv
        by_cases hc : j = i ∧ Bunch.transKeep tol tab (val i) = false
        · rw [h1.cut j hc]; simp [Core.setD, hv]
        · rw [h1.kept j hc]
      have hi : (w1.hits j).i = (w.hits j).i := by
        by_cases hc : j = i ∧ Bunch.transKeep tol tab (val i) = false
        · rw [h1.cut j hc]; rfl
        · rw [h1.kept j hc]
      refine Hit.getNum_congr E n _ _ hd hi (.inr ⟨?_, ?_⟩) (.inl ?_)
      · rintro rfl; exact hvars.1 hn
      · rintro rfl; exact hvars.2 hn
      · simp only [HS.globalWeight, BWorld.hview, Core.weightId, hi, h1.ctx, h1.hcur]
    obtain ⟨w', e2, h2⟩ := ih w1 hrow
    refine ⟨w', ?_, (h1.comp h2).congr ?_⟩
    · have hw : Bunch.hitNum E w i "local_weight" = .ok ((w.hits i).d .local_weight) := rfl
      simp only [Bunch.transLoop, hv i (by simp), Bunch.wtName, Bool.false_eq_true, if_false, hw, e1]
      exact e2
    · intro j
      simp only [List.mem_cons]
      constructor
      · rintro (⟨rfl, h⟩ | ⟨h, h'⟩)
        · exact ⟨.inl rfl, h⟩
        · exact ⟨.inr h, h'⟩
      · rintro ⟨rfl | h, h'⟩
        · exact .inl ⟨rfl, h'⟩
        · exact .inr ⟨h, h'⟩

theorem Bunch.transLoop_global (E : Ext K) (tol : K) (tab : List (List K)) (vars : List String)
    (hvars : "global_weight" ∉ vars ∧ "weight" ∉ vars) (val : Nat → List K) (l : List Nat) :
    ∀ w : BWorld K, (w.ctx w.hcur).WF → (∀ i ∈ l, Bunch.rowOf E w i vars = .ok (val i)) →
    ∃ w', Bunch.transLoop E tol tab vars true l w = (.ok (), w') ∧
      GlobalCut w.hcur w w' (fun id => ∃ j ∈ l, (w.hits j).weightId = id ∧
        Bunch.transKeep tol tab (val j) = false) := by
  induction l with
  | nil => intro w hwf _; exact ⟨w, rfl, (GlobalCut.refl w hwf).congr (by simp)⟩
  | cons i r ih =>
    intro w hwf hv
    have hstep : ∃ w1, w.onHit i (Hit.set E "global_weight"
        (if Bunch.transKeep tol tab (val i) then .flt ((w.hview i).globalWeight) else .int 0)) =
          (.ok (), w1) ∧
        GlobalCut w.hcur w w1 (fun id => id = (w.hits i).weightId ∧
          Bunch.transKeep tol tab (val i) = false) := by
      cases hk : Bunch.transKeep tol tab (val i) with
      | true =>
        refine ⟨w.hput i ((w.hview i).setGlobalWeight ((w.hview i).globalWeight)),
          rfl, ?_, ?_, ?_, ?_, ?_, rfl, rfl, rfl⟩
        · funext j; by_cases h : j = i <;> simp [BWorld.hput, BWorld.hview, HS.setGlobalWeight, h]
        · rintro j ⟨_, h⟩; cases h
        · intro id _
          simp only [BWorld.hput, BWorld.hview, HS.setGlobalWeight, HS.globalWeight, if_true,
            WC.getWeight_setWeight hwf]
          by_cases h : (w.hits i).weightId = id
          · simp [h]
          · have h' : ¬ id = (w.hits i).weightId := fun e => h e.symm
            simp [h, h']
        · intro c' h; simp [BWorld.hput, h]
        · simpa [BWorld.hput, BWorld.hview, HS.setGlobalWeight] using WC.WF.setWeight hwf _ _
      | false =>
        obtain ⟨w1, h1, h2⟩ := Bunch.setZero_global E w i hwf
        exact ⟨w1, h1, h2.congr (by simp)⟩
    obtain ⟨w1, e1, h1⟩ := hstep
    have hrow : ∀ j ∈ r, Bunch.rowOf E w1 j vars = .ok (val j) := by
      intro j hj
      rw [← hv j (by simp [hj])]
      apply Bunch.rowOf_congr
      intro n hn
      refine Hit.getNum_congr E n _ _ (fun v _ => by simp [BWorld.hview, h1.hits])
        (by simp [BWorld.hview, h1.hits]) (.inl (by simp [BWorld.hview, h1.hits])) (.inr ⟨?_, ?_⟩)
      · rintro rfl; exact hvars.1 hn
      · rintro rfl; exact hvars.2 hn
    have hcur := h1.hcur
    obtain ⟨w', e2, h2⟩ := ih w1 (by rw [hcur]; exact h1.wf) hrow
    rw [hcur] at h2
    refine ⟨w', ?_, (h1.comp h2).congr ?_⟩
    · have hw : Bunch.hitNum E w i "global_weight" = .ok ((w.hview i).globalWeight) := rfl
      simp only [Bunch.transLoop, hv i (by simp), Bunch.wtName, if_true, hw, e1]
      exact e2
    · intro id
      simp only [List.mem_cons, h1.hits, exists_eq_or_imp]
      constructor
      · rintro (⟨h, h'⟩ | h)
        · exact .inl ⟨h.symm, h'⟩
        · exact .inr h
      · rintro (⟨h, h'⟩ | h)
        · exact .inl ⟨h.symm, h'⟩
        · exact .inr h

/-! ### C26 -/

/-- Two tuples of test variables match: the sum of absolute differences is below the tolerance. -/
def Near (tol : K) (x y : List K) : Prop := ((x.zip y).map (fun p => |p.1 - p.2|)).sum < tol

theorem Bunch.rowOf_ok (E : Ext K) (w : BWorld K) (i : Nat) (vars : List String) (xs : List K)
    (h : List.Forall₂ (fun v x => Bunch.hitNum E w i v = .ok x) vars xs) :
    Bunch.rowOf E w i vars = .ok xs := by
  induction h with
  | nil => rfl
  | cons h _ ih => simp [Bunch.rowOf, h, ih]

/-- C26: every hit without a match in the test bunch is cut, no hit with an exact match is cut, and
nothing else changes (local cut). -/
theorem C26_local (E : Ext K) (tol : K) (htol : 0 < tol) (test b : Bunch K) (vars : List String)
    (hvars : "local_weight" ∉ vars ∧ "weight" ∉ vars) (w : BWorld K) (val : Nat → List K)
    (hb : ∀ i ∈ b.hits, List.Forall₂ (fun v x => Bunch.hitNum E w i v = .ok x) vars (val i))
    (ht : ∀ i ∈ test.hits, List.Forall₂ (fun v x => Bunch.hitNum E w i v = .ok x) vars (val i)) :
    ∃ w' S, Bunch.transmissionCut E tol test b vars false w = (.ok (), w') ∧ LocalCut w w' S ∧
      (∀ j ∈ b.hits, (∀ t ∈ test.hits, ¬ Near tol (val t) (val j)) → S j) ∧
      (∀ j, S j → j ∈ b.hits ∧ ∀ t ∈ test.hits, val t ≠ val j) := by
  obtain ⟨hp, hs⟩ := Bunch.sortRows_spec (test.hits.map val)
  obtain ⟨w', h1, h2⟩ := Bunch.transLoop_local E tol (Bunch.sortRows (test.hits.map val)) vars hvars
    val b.hits w (fun i hi => Bunch.rowOf_ok E w i vars _ (hb i hi))
  refine ⟨w', _, ?_, h2, ?_, ?_⟩
  · simp only [Bunch.transmissionCut, Bunch.rowsOf_ok E w vars val test.hits
      (fun i hi => Bunch.rowOf_ok E w i vars _ (ht i hi))]
    exact h1
  · intro j hj hn
    refine ⟨hj, ?_⟩
    cases hk : Bunch.transKeep tol (Bunch.sortRows (test.hits.map val)) (val j) with
    | false => rfl
    | true =>
      obtain ⟨y, hy, hd⟩ := Bunch.transKeep_sound hk
      obtain ⟨t, ht', rfl⟩ := List.mem_map.mp (hp.mem_iff.mp hy)
      exact absurd hd (hn t ht')
  · rintro j ⟨hj, hk⟩
    refine ⟨hj, ?_⟩
    intro t ht' e
    have : val j ∈ Bunch.sortRows (test.hits.map val) :=
      hp.mem_iff.mpr (List.mem_map.mpr ⟨t, ht', e⟩)
    rw [Bunch.transKeep_complete htol hs this] at hk
    cases hk

/-- C26, global cut: a track is cut if one of the bunch's hits on it has no match in the test bunch,
and only if one of them has no exact match; nothing else changes. -/
theorem C26_global (E : Ext K) (tol : K) (htol : 0 < tol) (test b : Bunch K) (vars : List String)
    (hvars : "global_weight" ∉ vars ∧ "weight" ∉ vars) (w : BWorld K) (hwf : (w.ctx w.hcur).WF)
    (val : Nat → List K)
    (hb : ∀ i ∈ b.hits, List.Forall₂ (fun v x => Bunch.hitNum E w i v = .ok x) vars (val i))
    (ht : ∀ i ∈ test.hits, List.Forall₂ (fun v x => Bunch.hitNum E w i v = .ok x) vars (val i)) :
    ∃ w' S, Bunch.transmissionCut E tol test b vars true w = (.ok (), w') ∧
      GlobalCut w.hcur w w' S ∧
      (∀ j ∈ b.hits, (∀ t ∈ test.hits, ¬ Near tol (val t) (val j)) → S (w.hits j).trackId) ∧
      (∀ id, S id → ∃ j ∈ b.hits, (w.hits j).trackId = id ∧ ∀ t ∈ test.hits, val t ≠ val j) := by
  obtain ⟨hp, hs⟩ := Bunch.sortRows_spec (test.hits.map val)
  obtain ⟨w', h1, h2⟩ := Bunch.transLoop_global E tol (Bunch.sortRows (test.hits.map val)) vars hvars
    val b.hits w hwf (fun i hi => Bunch.rowOf_ok E w i vars _ (hb i hi))
  refine ⟨w', _, ?_, h2, ?_, ?_⟩
  · simp only [Bunch.transmissionCut, Bunch.rowsOf_ok E w vars val test.hits
      (fun i hi => Bunch.rowOf_ok E w i vars _ (ht i hi))]
    exact h1
  · intro j hj hn
    refine ⟨j, hj, rfl, ?_⟩
    cases hk : Bunch.transKeep tol (Bunch.sortRows (test.hits.map val)) (val j) with
    | false => rfl
    | true =>
      obtain ⟨y, hy, hd⟩ := Bunch.transKeep_sound hk
      obtain ⟨t, ht', rfl⟩ := List.mem_map.mp (hp.mem_iff.mp hy)
      exact absurd hd (hn t ht')
  · rintro id ⟨j, hj, he, hk⟩
    refine ⟨j, hj, he, ?_⟩
    intro t ht' e
    have : val j ∈ Bunch.sortRows (test.hits.map val) :=
      hp.mem_iff.mpr (List.mem_map.mpr ⟨t, ht', e⟩)
    rw [Bunch.transKeep_complete htol hs this] at hk
    cases hk

theorem near_int {tol : K} (htol : tol ≤ 1) : ∀ x y : List Int, x.length = y.length →
    Near tol (x.map (Int.cast : Int → K)) (y.map Int.cast) → x = y := by
  have key : ∀ x y : List Int, (((x.map (Int.cast : Int → K)).zip (y.map Int.cast)).map
      (fun p => |p.1 - p.2|)).sum = ((((x.zip y).map (fun p => |p.1 - p.2|)).sum : Int) : K) := by
    intro x
    induction x with
    | nil => intro y; simp
    | cons a r ih =>
      intro y
      cases y with
      | nil => simp
      | cons b s => simp [ih s]
  intro x y hl h
  unfold Near at h
  rw [key] at h
  have h' : ((x.zip y).map (fun p => |p.1 - p.2|)).sum < 1 := by
    have : ((((x.zip y).map (fun p => |p.1 - p.2|)).sum : Int) : K) < ((1 : Int) : K) := by
      simpa using lt_of_lt_of_le h htol
    exact_mod_cast this
  clear h
  induction x generalizing y with
  | nil => cases y with
    | nil => rfl
    | cons b s => cases hl
  | cons a r ih =>
    cases y with
    | nil => cases hl
    | cons b s =>
      simp only [List.zip_cons_cons, List.map_cons, List.sum_cons] at h'
      have h0 : 0 ≤ ((r.zip s).map (fun p : Int × Int => |p.1 - p.2|)).sum := by
        apply List.sum_nonneg
        intro z hz
        obtain ⟨p, _, rfl⟩ := List.mem_map.mp hz
        exact abs_nonneg _
      have h1 := abs_nonneg (a - b)
      have hab : a = b := by
        have : |a - b| = 0 := by omega
        rw [abs_eq_zero] at this; omega
      rw [hab, ih s (by simpa using hl) (by omega)]

/-- C26_partial (local): for integer variables such as the default spill, event_number and
particle_number, exactly the hits that are not in the test bunch are cut and nothing else changes.
Missing: variables that are close but not equal (false, see C26_false). -/
theorem C26_local_partial (E : Ext K) (tol : K) (htol : 0 < tol) (htol1 : tol ≤ 1) (test b : Bunch K)
    (vars : List String) (hvars : "local_weight" ∉ vars ∧ "weight" ∉ vars) (w : BWorld K)
    (val : Nat → List Int) (hlen : ∀ i, (val i).length = vars.length)
    (hb : ∀ i ∈ b.hits, List.Forall₂ (fun v (n : Int) => Bunch.hitNum E w i v = .ok (n : K)) vars (val i))
    (ht : ∀ i ∈ test.hits, List.Forall₂ (fun v (n : Int) => Bunch.hitNum E w i v = .ok (n : K)) vars (val i)) :
    ∃ w', Bunch.transmissionCut E tol test b vars false w = (.ok (), w') ∧
      LocalCut w w' (fun j => j ∈ b.hits ∧ ∀ t ∈ test.hits, val t ≠ val j) := by
  obtain ⟨w', S, h1, h2, h3, h4⟩ := C26_local E tol htol test b vars hvars w
    (fun i => (val i).map Int.cast) (fun i hi => List.forall₂_map_right_iff.2 (hb i hi))
    (fun i hi => List.forall₂_map_right_iff.2 (ht i hi))
  refine ⟨w', h1, h2.congr ?_⟩
  intro j
  constructor
  · intro hj
    refine ⟨(h4 j hj).1, ?_⟩
    intro t ht' e
    exact (h4 j hj).2 t ht' (by rw [e])
  · rintro ⟨hj, hn⟩
    refine h3 j hj ?_
    intro t ht' hnear
    exact hn t ht' (near_int htol1 _ _ (by rw [hlen, hlen]) hnear)

/-- C26_partial (global): exactly the tracks of the bunch's hits that are not in the test bunch. -/
theorem C26_global_partial (E : Ext K) (tol : K) (htol : 0 < tol) (htol1 : tol ≤ 1) (test b : Bunch K)
    (vars : List String) (hvars : "global_weight" ∉ vars ∧ "weight" ∉ vars) (w : BWorld K)
    (hwf : (w.ctx w.hcur).WF)
    (val : Nat → List Int) (hlen : ∀ i, (val i).length = vars.length)
    (hb : ∀ i ∈ b.hits, List.Forall₂ (fun v (n : Int) => Bunch.hitNum E w i v = .ok (n : K)) vars (val i))
    (ht : ∀ i ∈ test.hits, List.Forall₂ (fun v (n : Int) => Bunch.hitNum E w i v = .ok (n : K)) vars (val i)) :
    ∃ w', Bunch.transmissionCut E tol test b vars true w = (.ok (), w') ∧
      GlobalCut w.hcur w w' (fun id => ∃ j ∈ b.hits, (w.hits j).trackId = id ∧
        ∀ t ∈ test.hits, val t ≠ val j) := by
  obtain ⟨w', S, h1, h2, h3, h4⟩ := C26_global E tol htol test b vars hvars w hwf
    (fun i => (val i).map Int.cast) (fun i hi => List.forall₂_map_right_iff.2 (hb i hi))
    (fun i hi => List.forall₂_map_right_iff.2 (ht i hi))
  refine ⟨w', h1, h2.congr ?_⟩
  intro id
  constructor
  · intro hj
    obtain ⟨j, a, b', c⟩ := h4 id hj
    refine ⟨j, a, b', ?_⟩
    intro t ht' e
    exact c t ht' (by simp only [e])
  · rintro ⟨j, hj, rfl, hn⟩
    refine h3 j hj ?_
    intro t ht' hnear
    exact hn t ht' (near_int htol1 _ _ (by rw [hlen, hlen]) hnear)

/-- the default test variables of hit `i` -/
def trackRow (w : BWorld K) (i : Nat) : List Int :=
  [(w.hits i).i .spill, (w.hits i).i .event, (w.hits i).i .particle]

/-- C26 with the default test variables: a hit is cut iff no hit of the test bunch has the same
spill, event and particle number. -/
theorem C26_default (E : Ext K) (tol : K) (htol : 0 < tol) (htol1 : tol ≤ 1) (test b : Bunch K)
    (w : BWorld K) : ∃ w',
    Bunch.transmissionCut E tol test b ["spill", "event_number", "particle_number"] false w =
      (.ok (), w') ∧
    LocalCut w w' (fun j => j ∈ b.hits ∧ ∀ t ∈ test.hits, trackRow w t ≠ trackRow w j) :=
  C26_local_partial E tol htol htol1 test b _ (by decide) w (trackRow w) (fun _ => rfl)
    (fun _ _ => .cons rfl (.cons rfl (.cons rfl .nil)))
    (fun _ _ => .cons rfl (.cons rfl (.cons rfl .nil)))

/-- Hit 0 at x = 1, hit 1 at x = 1 + 1e-10. -/
def nearWorld : BWorld ℚ :=
  { exWorld with hits := fun i => ⟨fun v => match v with
      | .x => if i = 0 then 1 else 1 + 1 / 10000000000 | .local_weight => 1 | _ => 0, fun _ => 0⟩ }

/-- C26 is false: hit 1 is within the tolerance 1e-9 of hit 0 of the test bunch but is cut; the
other way round it is not. -/
theorem C26_false :
    let tol : ℚ := 1 / 1000000000
    let b0 : Bunch ℚ := ⟨[0], [some 0], none, []⟩
    let b1 : Bunch ℚ := ⟨[1], [some 1], none, []⟩
    Near tol [nearWorld.hits 0 |>.d .x] [nearWorld.hits 1 |>.d .x] ∧
    (((Bunch.transmissionCut ratExt tol b0 b1 ["x"] false nearWorld).2).hits 1).d .local_weight = 0 ∧
    (((Bunch.transmissionCut ratExt tol b1 b0 ["x"] false nearWorld).2).hits 0).d .local_weight = 1 := by
  refine ⟨?_, by decide +kernel, by decide +kernel⟩
  unfold Near
  decide +kernel

/-- non-vacuity: hit 0 is in the test bunch, hit 1 is not -/
example : let w : BWorld ℚ := { nearWorld with
      hits := fun i => ⟨fun v => if v = .local_weight then 2 else 0, fun v => if v = .event then i else 7⟩ }
    let r := (Bunch.transmissionCut ratExt (1 / 1000000000) ⟨[0], [some 0], none, []⟩ exBunch
      ["spill", "event_number", "particle_number"] false w).2
    ((r.hits 0).d .local_weight, (r.hits 1).d .local_weight) = (2, 0) := by decide +kernel

end Xboa
