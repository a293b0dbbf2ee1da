import Verif.Model.WeightContext
/-! Helper lemmas about the ordered association list of WeightContext. -/
namespace Xboa

theorem HitId.lt_irrefl (a : HitId) : a.lt a = false := by simp [HitId.lt]

theorem HitId.lt_trans {a b c : HitId} (h1 : a.lt b = true) (h2 : b.lt c = true) :
    a.lt c = true := by
  simp only [HitId.lt] at *
  repeat' split at h1
  all_goals repeat' split at h2
  all_goals repeat' split
  all_goals simp only [decide_eq_true_eq] at *
  all_goals omega

theorem HitId.lt_total {a b : HitId} (h1 : a.lt b = false) (h2 : b.lt a = false) : a = b := by
  obtain ⟨s, e, p⟩ := a
  obtain ⟨s', e', p'⟩ := b
  simp only [HitId.lt] at *
  repeat' split at h1
  all_goals repeat' split at h2
  all_goals simp only [decide_eq_false_iff_not, HitId.mk.injEq] at *
  all_goals omega

theorem HitId.lt_asymm {a b : HitId} (h : a.lt b = true) : b.lt a = false := by
  cases hb : b.lt a with
  | false => rfl
  | true => have := HitId.lt_trans h hb; rw [HitId.lt_irrefl] at this; cases this

theorem HitId.lt_ne {a b : HitId} (h : a.lt b = true) : a ≠ b := by
  intro e; subst e; rw [HitId.lt_irrefl] at h; cases h

namespace WMap
variable {K : Type}

/-- Entries strictly increase: the representation invariant of std::map. -/
def WF (m : WMap K) : Prop := m.Pairwise (fun a b => a.1.lt b.1 = true)

theorem WF.tail {e : HitId × K} {m : WMap K} (h : WF (e :: m)) : WF m :=
  (List.pairwise_cons.1 h).2

theorem find_none_of_lt {m : WMap K} {id : HitId}
    (h : ∀ e ∈ m, id.lt e.1 = true) : find id m = none := by
  cases m with
  | nil => rfl
  | cons e r => simp [find, h e (by simp)]

theorem find_cons (id : HitId) (e : HitId × K) (r : WMap K) (h : WF (e :: r)) :
    find id (e :: r) = if id = e.1 then some e.2 else find id r := by
  obtain ⟨k, v⟩ := e
  have hp := List.pairwise_cons.1 h
  simp only [find]
  by_cases h1 : id.lt k = true
  · have hne := HitId.lt_ne h1
    simp only [h1, if_true, hne, if_false]
    symm; apply find_none_of_lt
    intro e he
    exact HitId.lt_trans h1 (hp.1 e he)
  · by_cases h2 : k.lt id = true
    · have hne := HitId.lt_ne h2
      simp [h1, h2, Ne.symm hne]
    · have : id = k := HitId.lt_total (by simpa using h1) (by simpa using h2)
      simp [this, HitId.lt_irrefl]

theorem assign_keys (id : HitId) (w : K) (m : WMap K) :
    ∀ e ∈ assign id w m, e.1 = id ∨ ∃ e' ∈ m, e'.1 = e.1 := by
  induction m with
  | nil => intro e he; simp [assign] at he; left; rw [he]
  | cons a r ih =>
    obtain ⟨k, v⟩ := a
    intro e he
    simp only [assign] at he
    split at he
    · simp only [List.mem_cons] at he
      rcases he with he | he | he
      · left; rw [he]
      · right; exact ⟨(k, v), by simp, by rw [he]⟩
      · right; exact ⟨e, by simp [he], rfl⟩
    · split at he
      · simp only [List.mem_cons] at he
        rcases he with he | he
        · right; exact ⟨(k, v), by simp, by rw [he]⟩
        · rcases ih e he with h | ⟨e', h1, h2⟩
          · left; exact h
          · right; exact ⟨e', by simp [h1], h2⟩
      · simp only [List.mem_cons] at he
        rcases he with he | he
        · right; exact ⟨(k, v), by simp, by rw [he]⟩
        · right; exact ⟨e, by simp [he], rfl⟩

theorem insertNew_keys (id : HitId) (w : K) (m : WMap K) :
    ∀ e ∈ insertNew id w m, e.1 = id ∨ ∃ e' ∈ m, e'.1 = e.1 := by
  induction m with
  | nil => intro e he; simp [insertNew] at he; left; rw [he]
  | cons a r ih =>
    obtain ⟨k, v⟩ := a
    intro e he
    simp only [insertNew] at he
    split at he
    · simp only [List.mem_cons] at he
      rcases he with he | he | he
      · left; rw [he]
      · right; exact ⟨(k, v), by simp, by rw [he]⟩
      · right; exact ⟨e, by simp [he], rfl⟩
    · split at he
      · simp only [List.mem_cons] at he
        rcases he with he | he
        · right; exact ⟨(k, v), by simp, by rw [he]⟩
        · rcases ih e he with h | ⟨e', h1, h2⟩
          · left; exact h
          · right; exact ⟨e', by simp [h1], h2⟩
      · right; exact ⟨e, he, rfl⟩

theorem WF.assign {m : WMap K} (h : WF m) (id : HitId) (w : K) : WF (m.assign id w) := by
  induction m with
  | nil => simp [WMap.assign, WF]
  | cons a r ih =>
    obtain ⟨k, v⟩ := a
    have hp := List.pairwise_cons.1 h
    simp only [WMap.assign]
    split
    · rename_i h1
      refine List.pairwise_cons.2 ⟨?_, h⟩
      intro e he
      rcases List.mem_cons.1 he with he | he
      · rw [he]; exact h1
      · exact HitId.lt_trans h1 (hp.1 e he)
    · split
      · rename_i h2
        refine List.pairwise_cons.2 ⟨?_, ih hp.2⟩
        intro e he
        rcases assign_keys id w r e he with h | ⟨e', h3, h4⟩
        · rw [h]; exact h2
        · rw [← h4]; exact hp.1 e' h3
      · exact List.pairwise_cons.2 ⟨hp.1, hp.2⟩

theorem WF.insertNew {m : WMap K} (h : WF m) (id : HitId) (w : K) : WF (m.insertNew id w) := by
  induction m with
  | nil => simp [WMap.insertNew, WF]
  | cons a r ih =>
    obtain ⟨k, v⟩ := a
    have hp := List.pairwise_cons.1 h
    simp only [WMap.insertNew]
    split
    · rename_i h1
      refine List.pairwise_cons.2 ⟨?_, h⟩
      intro e he
      rcases List.mem_cons.1 he with he | he
      · rw [he]; exact h1
      · exact HitId.lt_trans h1 (hp.1 e he)
    · split
      · rename_i h2
        refine List.pairwise_cons.2 ⟨?_, ih hp.2⟩
        intro e he
        rcases insertNew_keys id w r e he with h | ⟨e', h3, h4⟩
        · rw [h]; exact h2
        · rw [← h4]; exact hp.1 e' h3
      · exact h

theorem find_assign {m : WMap K} (h : WF m) (id id' : HitId) (w : K) :
    find id' (m.assign id w) = if id' = id then some w else find id' m := by
  induction m with
  | nil =>
    rw [WMap.assign, find_cons _ _ _ (by simp [WF])]
  | cons a r ih =>
    obtain ⟨k, v⟩ := a
    have hwf := h.assign id w
    have hr := WF.tail h
    simp only [WMap.assign] at hwf ⊢
    split
    · rename_i h1
      simp only [h1, if_true] at hwf
      rw [find_cons _ _ _ hwf]
    · rename_i h1
      split
      · rename_i h2
        simp only [h1, h2, if_true] at hwf
        rw [find_cons _ _ _ hwf, find_cons _ _ _ h, ih hr]
        have := HitId.lt_ne h2
        by_cases e1 : id' = k
        · subst e1; simp [this]
        · simp [e1]
      · rename_i h2
        have : id = k := HitId.lt_total (by simpa using h1) (by simpa using h2)
        subst this
        simp only [h1] at hwf
        rw [find_cons _ _ _ (by simpa using hwf), find_cons _ _ _ h]
        by_cases e1 : id' = id <;> simp [e1]

theorem find_insertNew {m : WMap K} (h : WF m) (id id' : HitId) (w : K) :
    find id' (m.insertNew id w) =
      if id' = id then some ((find id m).getD w) else find id' m := by
  induction m with
  | nil =>
    rw [WMap.insertNew, find_cons _ _ _ (by simp [WF])]
    rfl
  | cons a r ih =>
    obtain ⟨k, v⟩ := a
    have hwf := h.insertNew id w
    have hr := WF.tail h
    have hp := List.pairwise_cons.1 h
    simp only [WMap.insertNew] at hwf ⊢
    split
    · rename_i h1
      simp only [h1, if_true] at hwf
      rw [find_cons _ _ _ hwf]
      have : find id ((k, v) :: r) = none := by simp [find, h1]
      rw [this]; rfl
    · rename_i h1
      split
      · rename_i h2
        simp only [h1, h2, if_true] at hwf
        rw [find_cons _ _ _ hwf, find_cons _ _ _ h, find_cons _ _ _ h, ih hr]
        have := HitId.lt_ne h2
        by_cases e1 : id' = k
        · subst e1; simp [this]
        · simp [e1, Ne.symm this]
      · rename_i h2
        have : id = k := HitId.lt_total (by simpa using h1) (by simpa using h2)
        subst this
        rw [find_cons _ _ _ h, find_cons _ _ _ h]
        by_cases e1 : id' = id <;> simp [e1]

theorem WF.map {L : Type} {m : WMap K} (h : WF m) (g : HitId → K → L) :
    WF (List.map (fun e => (e.1, g e.1 e.2)) m : WMap L) := by
  unfold WF at *
  rw [List.pairwise_map]
  exact h

theorem find_map {L : Type} (m : WMap K) (g : HitId → K → L) (id : HitId) :
    find id (List.map (fun e => (e.1, g e.1 e.2)) m : WMap L) = (find id m).map (g id) := by
  induction m with
  | nil => rfl
  | cons e r ih =>
    obtain ⟨k, v⟩ := e
    simp only [List.map_cons, find]
    split
    · rfl
    · split
      · exact ih
      · rename_i h1 h2
        have : id = k := HitId.lt_total (by simpa using h1) (by simpa using h2)
        subst this; rfl

/-- After adopting ids, a key is present iff it was present or is adopted. -/
theorem foldl_insertNew (d : K) (es : List (HitId × K)) :
    ∀ (m : WMap K), WF m →
      WF (es.foldl (fun m e => WMap.insertNew e.1 d m) m) ∧
      ∀ id, find id (es.foldl (fun m e => WMap.insertNew e.1 d m) m) =
        match find id m with
        | some v => some v
        | none => if id ∈ es.map Prod.fst then some d else none := by
  induction es with
  | nil =>
    intro m h
    refine ⟨h, ?_⟩
    intro id
    cases hf : find id m <;> simp [hf]
  | cons e es ih =>
    intro m h
    have h' := h.insertNew e.1 d
    obtain ⟨h1, h2⟩ := ih _ h'
    refine ⟨h1, ?_⟩
    intro id
    simp only [List.foldl_cons]
    rw [h2 id, find_insertNew h]
    by_cases he : id = e.1
    · subst he
      cases hf : find e.1 m <;> simp
    · cases hf : find id m <;> simp only [he, if_false, List.map_cons, List.mem_cons, false_or]

theorem mem_keys_of_find {m : WMap K} {id : HitId} {v : K} (h : find id m = some v) :
    id ∈ m.map Prod.fst := by
  induction m with
  | nil => simp [find] at h
  | cons e r ih =>
    obtain ⟨k, w⟩ := e
    simp only [find] at h
    split at h
    · cases h
    · split at h
      · simp only [List.map_cons, List.mem_cons]; right; exact ih h
      · rename_i h1 h2
        have : id = k := HitId.lt_total (by simpa using h1) (by simpa using h2)
        simp [this]

theorem find_of_mem_keys {m : WMap K} (hwf : WF m) {id : HitId} (h : id ∈ m.map Prod.fst) :
    ∃ v, find id m = some v := by
  induction m with
  | nil => simp at h
  | cons e r ih =>
    rw [find_cons _ _ _ hwf]
    by_cases he : id = e.1
    · exact ⟨e.2, by simp [he]⟩
    · simp only [List.map_cons, List.mem_cons, he, false_or] at h
      simpa [he] using ih (WF.tail hwf) h

end WMap

namespace WC
variable {K : Type}

/-- A context built by the API has its map in order. -/
def WF (c : WC K) : Prop := c.map.WF

theorem WF.new [One K] : (WC.new : WC K).WF := by simp [WF, WC.new, WMap.WF]
theorem WF.setWeight {c : WC K} (h : c.WF) (id : HitId) (w : K) : (c.setWeight id w).WF :=
  WMap.WF.assign h id w
theorem WF.clear {c : WC K} : c.clearWeights.WF := by simp [WF, clearWeights, WMap.WF]
theorem WF.setDefault {c : WC K} (h : c.WF) (w : K) : (c.setDefaultWeight w).WF := h
theorem WF.opNum {c : WC K} (h : c.WF) (f : K → K → K) (k : K) : (c.opNum f k).WF :=
  WMap.WF.map h (fun _ v => f v k)
theorem WF.opNot [Zero K] [BEq K] {c : WC K} (h : c.WF) : (c.opNot).WF :=
  WMap.WF.map h (fun _ v => if v == 0 then c.dflt else 0)
theorem WF.adopt {c rhs : WC K} (h : c.WF) : (c.adoptHits rhs).WF :=
  (WMap.foldl_insertNew c.dflt rhs.map c.map h).1
theorem WF.opCtx {c rhs : WC K} (h : c.WF) (f : K → K → K) : (c.opCtx f rhs).WF :=
  WMap.WF.map (WF.adopt (rhs := rhs) h) (fun id v => f v (rhs.getWeight id))

theorem getWeight_setWeight {c : WC K} (h : c.WF) (id id' : HitId) (w : K) :
    (c.setWeight id w).getWeight id' = if id' = id then w else c.getWeight id' := by
  simp only [getWeight, WC.setWeight, WMap.find_assign h]
  by_cases e : id' = id <;> simp [e]

theorem getWeight_clear (c : WC K) (id : HitId) : c.clearWeights.getWeight id = c.dflt := rfl

theorem getWeight_opNum (c : WC K) (f : K → K → K) (k : K) (id : HitId) :
    (c.opNum f k).getWeight id = f (c.getWeight id) k := by
  have := WMap.find_map c.map (fun _ v => f v k) id
  simp only [getWeight, WC.opNum, this]
  cases WMap.find id c.map <;> rfl

theorem getWeight_opNot [Zero K] [BEq K] (c : WC K) (id : HitId) :
    (c.opNot).getWeight id =
      match c.map.find id with
      | none => 0
      | some v => if v == 0 then c.dflt else 0 := by
  have := WMap.find_map c.map (fun _ v => if v == 0 then c.dflt else 0) id
  simp only [getWeight, WC.opNot, this]
  cases WMap.find id c.map <;> rfl

theorem getWeight_opCtx {c rhs : WC K} (h : c.WF)
    (f : K → K → K) (id : HitId) :
    (c.opCtx f rhs).getWeight id = f (c.getWeight id) (rhs.getWeight id) := by
  have h1 := WMap.find_map (c.adoptHits rhs).map (fun id v => f v (rhs.getWeight id)) id
  have h2 := (WMap.foldl_insertNew c.dflt rhs.map c.map h).2 id
  simp only [getWeight, WC.opCtx] at h1 ⊢
  rw [h1]
  simp only [adoptHits]
  rw [h2]
  cases hc : WMap.find id c.map with
  | some v => rfl
  | none =>
    by_cases hm : id ∈ rhs.map.map Prod.fst
    · simp [hm]
    · simp only [hm, if_false, Option.map_none]
      cases hf : WMap.find id rhs.map with
      | none => rfl
      | some v => exact absurd (WMap.mem_keys_of_find hf) hm
end WC
end Xboa
