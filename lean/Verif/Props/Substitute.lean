import Verif.Model.Substitute
import Mathlib.Data.List.Perm.Basic
import Mathlib.Data.List.Infix
import Mathlib.Data.List.Nodup
/-
C57 (substitute).
-/
namespace Xboa
open Common

/-- no character in common -/
def Apart (a b : List Char) : Prop := ∀ c ∈ a, c ∉ b

theorem Apart.symm {a b : List Char} (h : Apart a b) : Apart b a := fun c hb ha => h c ha hb

theorem replaceKey_nil (k v : List Char) : replaceKey k v [] = [] := by rw [replaceKey]

theorem replaceKey_match (k v t : List Char) (hk : k ≠ []) :
    replaceKey k v (k ++ t) = v ++ replaceKey k v t := by
  cases k with
  | nil => exact absurd rfl hk
  | cons c k =>
    rw [List.cons_append, replaceKey, if_pos]
    · congr 2
      simp
    · rw [List.isPrefixOf_iff_prefix]
      exact ⟨t, by simp⟩

theorem replaceKey_skip (k v t : List Char) (c : Char) (h : ¬ k <+: (c :: t)) :
    replaceKey k v (c :: t) = c :: replaceKey k v t := by
  rw [replaceKey, if_neg]
  rw [List.isPrefixOf_iff_prefix]
  exact h

theorem not_prefix_of_notMem {k : List Char} (hk : k ≠ []) {c : Char} (h : c ∉ k) (t : List Char) :
    ¬ k <+: (c :: t) := by
  cases k with
  | nil => exact absurd rfl hk
  | cons d k =>
    rintro ⟨r, hr⟩
    simp only [List.cons_append, List.cons.injEq] at hr
    exact h (by rw [hr.1]; simp)

/-- text without any character of the key is copied -/
theorem replaceKey_apart (k v : List Char) (hk : k ≠ []) (t : List Char) :
    ∀ u : List Char, Apart u k → replaceKey k v (u ++ t) = u ++ replaceKey k v t
  | [], _ => rfl
  | c :: u, h => by
    rw [List.cons_append, replaceKey_skip k v _ c (not_prefix_of_notMem hk (h c (by simp)) _),
      replaceKey_apart k v hk t u (fun d hd => h d (by simp [hd]))]
    rfl

/-- a word apart from the (nonempty) value at the front of the replaced text was there before -/
theorem prefix_of_replaced (k v : List Char) (hk : k ≠ []) (hv : v ≠ []) :
    ∀ (u t : List Char), Apart u v → u <+: replaceKey k v t → u <+: t
  | [], t, _, _ => List.nil_prefix
  | c :: u, t, hu, h => by
    cases t with
    | nil => rw [replaceKey_nil] at h; simp at h
    | cons d t =>
      by_cases hp : k <+: (d :: t)
      · obtain ⟨r, hr⟩ := hp
        rw [← hr, replaceKey_match k v r hk] at h
        cases v with
        | nil => exact absurd rfl hv
        | cons e v =>
          obtain ⟨s, hs⟩ := h
          simp only [List.cons_append, List.cons.injEq] at hs
          exact absurd (by rw [hs.1]; simp) (hu c (by simp))
      · rw [replaceKey_skip k v t d hp] at h
        obtain ⟨s, hs⟩ := h
        simp only [List.cons_append, List.cons.injEq] at hs
        have := prefix_of_replaced k v hk hv u t (fun x hx => hu x (by simp [hx])) ⟨s, hs.2⟩
        rw [hs.1]
        exact List.cons_prefix_cons.mpr ⟨rfl, this⟩

/-- two replacements with disjoint alphabets commute -/
theorem replaceKey_comm (k1 v1 k2 v2 : List Char) (hk1 : k1 ≠ []) (hk2 : k2 ≠ []) (hv1 : v1 ≠ [])
    (hv2 : v2 ≠ []) (hkk : Apart k1 k2) (h12 : Apart v1 k2) (h21 : Apart v2 k1) :
    ∀ (n : Nat) (s : List Char), s.length ≤ n →
      replaceKey k1 v1 (replaceKey k2 v2 s) = replaceKey k2 v2 (replaceKey k1 v1 s) := by
  intro n
  induction n with
  | zero =>
    intro s hs
    have : s = [] := List.length_eq_zero_iff.mp (by omega)
    subst this
    simp only [replaceKey_nil]
  | succ n ih =>
    intro s hs
    by_cases hp1 : k1 <+: s
    · obtain ⟨t, rfl⟩ := hp1
      have hl : t.length ≤ n := by
        have := List.length_pos_of_ne_nil hk1
        simp only [List.length_append] at hs; omega
      rw [replaceKey_apart k2 v2 hk2 t k1 hkk, replaceKey_match k1 v1 _ hk1,
        replaceKey_match k1 v1 _ hk1, replaceKey_apart k2 v2 hk2 _ v1 h12, ih t hl]
    · by_cases hp2 : k2 <+: s
      · obtain ⟨t, rfl⟩ := hp2
        have hl : t.length ≤ n := by
          have := List.length_pos_of_ne_nil hk2
          simp only [List.length_append] at hs; omega
        rw [replaceKey_match k2 v2 _ hk2, replaceKey_apart k1 v1 hk1 _ v2 h21,
          replaceKey_apart k1 v1 hk1 t k2 hkk.symm, replaceKey_match k2 v2 _ hk2, ih t hl]
      · cases s with
        | nil => simp only [replaceKey_nil]
        | cons c t =>
          have hl : t.length ≤ n := by simp only [List.length_cons] at hs; omega
          rw [replaceKey_skip k2 v2 t c hp2, replaceKey_skip k1 v1 t c hp1]
          have e1 : ¬ k1 <+: (c :: replaceKey k2 v2 t) := by
            intro h
            rw [← replaceKey_skip k2 v2 t c hp2] at h
            exact hp1 (prefix_of_replaced k2 v2 hk2 hv2 k1 _ h21.symm h)
          have e2 : ¬ k2 <+: (c :: replaceKey k1 v1 t) := by
            intro h
            rw [← replaceKey_skip k1 v1 t c hp1] at h
            exact hp2 (prefix_of_replaced k1 v1 hk1 hv1 k2 _ h12.symm h)
          rw [replaceKey_skip k1 v1 _ c e1, replaceKey_skip k2 v2 _ c e2, ih t hl]

theorem infix_cons_cases {u : List Char} {c : Char} {t : List Char} (h : u <:+: (c :: t)) :
    u <+: (c :: t) ∨ u <:+: t := List.infix_cons_iff.mp h

theorem infix_append_apart {u : List Char} (hu : u ≠ []) (t : List Char) : ∀ v : List Char,
    Apart u v → u <:+: (v ++ t) → u <:+: t
  | [], _, h => h
  | c :: v, ha, h => by
    rcases infix_cons_cases h with h | h
    · exact absurd h (not_prefix_of_notMem hu (fun hc => ha c hc (by simp)) _)
    · exact infix_append_apart hu t v (fun d hd hd' => ha d hd (by simp [hd'])) h

/-- after the replacement, a word apart from the value that was nowhere in the text is nowhere -/
theorem no_new_word (k v u : List Char) (hk : k ≠ []) (hv : v ≠ []) (hu : u ≠ []) (ha : Apart u v) :
    ∀ (n : Nat) (s : List Char), s.length ≤ n → u <:+: replaceKey k v s → u <:+: s := by
  intro n
  induction n with
  | zero =>
    intro s hs h
    have : s = [] := List.length_eq_zero_iff.mp (by omega)
    subst this
    rwa [replaceKey_nil] at h
  | succ n ih =>
    intro s hs h
    by_cases hp : k <+: s
    · obtain ⟨t, rfl⟩ := hp
      have hl : t.length ≤ n := by
        have := List.length_pos_of_ne_nil hk
        simp only [List.length_append] at hs; omega
      rw [replaceKey_match k v t hk] at h
      have := ih t hl (infix_append_apart hu _ v ha h)
      exact this.trans (List.infix_append' k t [] |>.trans (by simp))
    · cases s with
      | nil => rwa [replaceKey_nil] at h
      | cons c t =>
        have hl : t.length ≤ n := by simp only [List.length_cons] at hs; omega
        have hs' := replaceKey_skip k v t c hp
        rw [hs'] at h
        rcases infix_cons_cases h with h | h
        · rw [← hs'] at h
          exact (prefix_of_replaced k v hk hv u _ ha h).isInfix
        · exact (ih t hl h).trans (List.suffix_cons c t).isInfix

/-- the key itself is gone -/
theorem key_gone (k v : List Char) (hk : k ≠ []) (hv : v ≠ []) (ha : Apart k v) :
    ∀ (n : Nat) (s : List Char), s.length ≤ n → ¬ k <:+: replaceKey k v s := by
  intro n
  induction n with
  | zero =>
    intro s hs h
    have : s = [] := List.length_eq_zero_iff.mp (by omega)
    subst this
    rw [replaceKey_nil] at h
    exact hk (List.infix_nil.mp h)
  | succ n ih =>
    intro s hs h
    by_cases hp : k <+: s
    · obtain ⟨t, rfl⟩ := hp
      have hl : t.length ≤ n := by
        have := List.length_pos_of_ne_nil hk
        simp only [List.length_append] at hs; omega
      rw [replaceKey_match k v t hk] at h
      exact ih t hl (infix_append_apart hk _ v ha h)
    · cases s with
      | nil => rw [replaceKey_nil] at h; exact hk (List.infix_nil.mp h)
      | cons c t =>
        have hl : t.length ≤ n := by simp only [List.length_cons] at hs; omega
        have hs' := replaceKey_skip k v t c hp
        rw [hs'] at h
        rcases infix_cons_cases h with h | h
        · rw [← hs'] at h
          exact hp (prefix_of_replaced k v hk hv k _ ha h)
        · exact ih t hl h

/-- A replacement table whose keys have disjoint alphabets and whose values contain no character of
any key; nothing is empty. -/
structure Separated (items : List (List Char × List Char)) : Prop where
  key : ∀ kv ∈ items, kv.1 ≠ []
  value : ∀ kv ∈ items, kv.2 ≠ []
  keys : ∀ a ∈ items, ∀ b ∈ items, a.1 ≠ b.1 → Apart a.1 b.1
  values : ∀ a ∈ items, ∀ b ∈ items, Apart a.2 b.1

/-- C57 as stated: when no key or value contains another key, the order of the items does not
matter.  False: keys may overlap in the text. -/
theorem C57_false : ∃ (a b : List Char × List Char) (s : List Char),
    a.1 ≠ [] ∧ b.1 ≠ [] ∧ ¬ a.1 <:+: b.1 ∧ ¬ b.1 <:+: a.1 ∧
    (¬ a.1 <:+: a.2 ∧ ¬ b.1 <:+: a.2 ∧ ¬ a.1 <:+: b.2 ∧ ¬ b.1 <:+: b.2) ∧
    substituteLine [a, b] s ≠ substituteLine [b, a] s := by
  refine ⟨("ab".toList, "1".toList), ("bc".toList, "2".toList), "abc".toList, ?_⟩
  simp [substituteLine, replace, replaceKey, List.isPrefixOf, List.infix_cons_iff]

/-- C57_partial, order: for a separated table the items (a dictionary: distinct keys) may be applied
in any order.
Missing: tables whose keys or values share characters (false in general, see C57_false). -/
theorem C57_partial (items items' : List (List Char × List Char)) (hsep : Separated items)
    (hnd : (items.map Prod.fst).Nodup) (hp : items.Perm items') (lines : List (List Char)) :
    substitute items lines = substitute items' lines := by
  unfold substitute
  apply List.map_congr_left
  intro line _
  unfold substituteLine
  apply List.Perm.foldl_eq' hp
  intro a ha b hb z
  by_cases hab : a = b
  · rw [hab]
  · have hne : a.1 ≠ b.1 := by
      intro h
      exact hab (List.inj_on_of_nodup_map hnd ha hb h)
    simp only [replace, if_neg (hsep.key a ha), if_neg (hsep.key b hb)]
    exact (replaceKey_comm a.1 a.2 b.1 b.2 (hsep.key a ha) (hsep.key b hb) (hsep.value a ha)
      (hsep.value b hb) (hsep.keys a ha b hb hne) (hsep.values a ha b hb) (hsep.values b hb a ha)
      _ z le_rfl).symm

theorem foldl_no_word (u : List Char) (hu : u ≠ []) : ∀ (items : List (List Char × List Char)),
    (∀ kv ∈ items, kv.1 ≠ []) → (∀ kv ∈ items, kv.2 ≠ []) → (∀ kv ∈ items, Apart u kv.2) →
    ∀ s, ¬ u <:+: s → ¬ u <:+: substituteLine items s
  | [], _, _, _, _, h => h
  | kv :: r, h1, h2, h3, s, h => by
    simp only [substituteLine, List.foldl_cons]
    apply foldl_no_word u hu r (fun x hx => h1 x (by simp [hx])) (fun x hx => h2 x (by simp [hx]))
      (fun x hx => h3 x (by simp [hx]))
    rw [replace, if_neg (h1 kv (by simp))]
    intro h'
    exact h (no_new_word kv.1 kv.2 u (h1 kv (by simp)) (h2 kv (by simp)) hu (h3 kv (by simp)) _ s
      le_rfl h')

/-- C57, completeness: with a separated table no key is left anywhere in the output. -/
theorem C57_no_key_left (items : List (List Char × List Char)) (hsep : Separated items)
    (lines : List (List Char)) :
    ∀ line ∈ substitute items lines, ∀ kv ∈ items, ¬ kv.1 <:+: line := by
  intro line hl kv hkv
  simp only [substitute, List.mem_map] at hl
  obtain ⟨s, _, rfl⟩ := hl
  obtain ⟨before, after, rfl⟩ := List.append_of_mem hkv
  have hk := hsep.key kv hkv
  simp only [substituteLine, List.foldl_append, List.foldl_cons]
  apply foldl_no_word kv.1 hk after (fun x hx => hsep.key x (by simp [hx]))
    (fun x hx => hsep.value x (by simp [hx]))
    (fun x hx => (hsep.values x (by simp [hx]) kv hkv).symm)
  rw [replace, if_neg hk]
  exact key_gone kv.1 kv.2 hk (hsep.value kv hkv) (hsep.values kv hkv kv hkv).symm _ _ le_rfl

/-- C57, frame: text in which no key occurs is unchanged, for every table without empty keys. -/
theorem C57_unchanged (items : List (List Char × List Char)) (hk : ∀ kv ∈ items, kv.1 ≠ [])
    (s : List Char) (hs : ∀ kv ∈ items, ¬ kv.1 <:+: s) : substituteLine items s = s := by
  have h1 : ∀ (k v : List Char) (s : List Char), ¬ k <:+: s → replaceKey k v s = s := by
    intro k v s
    induction s with
    | nil => intro _; exact replaceKey_nil k v
    | cons c t ih =>
      intro h
      rw [replaceKey_skip k v t c (fun hp => h hp.isInfix),
        ih (fun hi => h (hi.trans (List.suffix_cons c t).isInfix))]
  induction items with
  | nil => rfl
  | cons kv r ih =>
    simp only [substituteLine, List.foldl_cons]
    rw [replace, if_neg (hk kv (by simp)), h1 kv.1 kv.2 s (hs kv (by simp))]
    exact ih (fun x hx => hk x (by simp [hx])) (fun x hx => hs x (by simp [hx]))

/-- case: two keys on two lines -/
example : substitute [("ab".toList, "1".toList), ("c".toList, "22".toList)]
    ["abcab".toList, "xx".toList] = ["1221".toList, "xx".toList] := by
  simp [substitute, substituteLine, replace, replaceKey, List.isPrefixOf]
example : Separated [("ab".toList, "1".toList), ("c".toList, "22".toList)] :=
  ⟨by simp, by simp, by simp [Apart], by simp [Apart]⟩

end Xboa
