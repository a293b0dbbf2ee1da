import Verif.Model.RefCount
import Mathlib.Algebra.BigOperators.Group.Finset.Basic
import Mathlib.Algebra.BigOperators.Intervals
import Mathlib.Algebra.Order.BigOperators.Group.Finset
import Mathlib.Data.Finset.Card
import Mathlib.Data.Finset.Range
import Mathlib.Tactic.Ring
import Mathlib.Algebra.Order.Field.Rat
/-
C109: reference counts of the objects that the extension modules return.
-/
set_option linter.unusedSectionVars false
namespace Xboa
namespace RefCount
open Finset
variable {K : Type}

/-! ### Specification -/

/-- the number of references to `a` that somebody owns: the Python program, the interpreter on its way to
count down, or an object that is alive -/
def held (m : Mem) (a : Nat) : Nat :=
  m.roots.count a + m.pending.count a + ∑ b ∈ range m.n, bif m.alive b then (m.items b).count a else 0

/-- the objects with references that nobody owns, so that nobody can give them up -/
def lost (m : Mem) : Finset Nat := {a ∈ range m.n | held m a < m.rc a}

/-- the objects in memory -/
def living (m : Mem) : Finset Nat := {a ∈ range m.n | m.alive a = true}

/-- the keys of a dict that are read before an argument is refused -/
def keysRead : List (String × Bool) → Nat
  | [] => 0
  | (s, isFloat) :: r => if Mem.ascii s then 1 + (if isFloat then keysRead r else 0) else 0

/-- the dict is accepted -/
def Accepted (means : List (String × Bool)) : Prop := ∀ p ∈ means, Mem.ascii p.1 = true ∧ p.2 = true

instance (means : List (String × Bool)) : Decidable (Accepted means) := by unfold Accepted; infer_instance

/-- the number of objects that a call loses -/
def leak : Mem.Op K → Nat
  | .moment axes means result => axes.countP Mem.ascii + keysRead means +
      if Accepted means ∧ result.isSome then 1 else 0
  | .covariance axes means result => axes.countP Mem.ascii + keysRead means +
      if Accepted means then (match result with
        | none => 0
        | some v => 1 + (v.map fun row => 1 + row.length).sum) else 0
  | .tensor axes p result => if p < 0 then 0 else axes.countP Mem.ascii + (match result with
        | none => 0
        | some v => 1 + v.length)
  | .index p n result => if p < 0 ∨ n < 1 then 0 else 1 + result.length
  | .compare => 1
  | .dump k => 1 + k
  | .arithmetic number => if number then 1 else 0
  | _ => 0

/-! ### Accounts -/

/-- every reference is owned, or in the list `L` -/
structure Inv (m : Mem) (L : List Nat) : Prop where
  acc : ∀ a, m.rc a = held m a + L.count a
  lt : ∀ a, m.alive a = true → a < m.n
  dead : ∀ a, m.alive a = false → m.rc a = 0
  live : ∀ a, m.alive a = true → 0 < m.rc a
  ok : m.bad = false

theorem sum_point {n a : Nat} (h : a < n) {f g : Nat → Nat} (hfg : ∀ b, b ≠ a → f b = g b) :
    ∑ b ∈ range n, f b + g a = ∑ b ∈ range n, g b + f a := by
  have ha : a ∈ range n := mem_range.2 h
  rw [← add_sum_erase (range n) f ha, ← add_sum_erase (range n) g ha,
    sum_congr (s₁ := (range n).erase a) rfl fun b hb => hfg b (ne_of_mem_erase hb)]
  ring

theorem inv_init : Inv Mem.init [] := by
  refine ⟨fun a => ?_, ?_, ?_, ?_, ?_⟩ <;> simp [Mem.init, held]

theorem alive_of_mem {m : Mem} {L : List Nat} (hi : Inv m L) {a : Nat} (h : 0 < m.rc a) : m.alive a = true := by
  by_contra hn
  have := hi.dead a (by simpa using hn)
  omega

theorem alive_of_held {m : Mem} {L : List Nat} (hi : Inv m L) {a : Nat} (h : 0 < held m a) : m.alive a = true :=
  alive_of_mem hi (by rw [hi.acc]; omega)

theorem alive_of_lost {m : Mem} {L : List Nat} (hi : Inv m L) {a : Nat} (h : a ∈ L) : m.alive a = true :=
  alive_of_mem hi (by rw [hi.acc]; have := List.count_pos_iff.2 h; omega)

theorem inv_newObj {m : Mem} {L l : List Nat} (hi : Inv m (l ++ L)) :
    Inv (m.newObj l).2 (m.n :: L) := by
  have hn : m.alive m.n = false := by
    by_contra h
    have := hi.lt m.n (by simpa using h)
    omega
  refine ⟨fun a => ?_, fun a => ?_, fun a => ?_, fun a => ?_, hi.ok⟩
  · have h1 : ∑ b ∈ range m.n, (bif (if b = m.n then true else m.alive b) then
        (if b = m.n then l else m.items b).count a else 0) =
        ∑ b ∈ range m.n, bif m.alive b then (m.items b).count a else 0 :=
      sum_congr rfl fun b hb => by
        have : b ≠ m.n := (mem_range.1 hb).ne
        simp [this]
    have h2 := hi.acc a
    have h3 := hi.acc m.n
    simp only [held, Mem.newObj] at h2 h3 ⊢
    rw [sum_range_succ, h1]
    simp only [List.count_append, List.count_cons, if_true, cond_true, beq_iff_eq] at h2 h3 ⊢
    rw [hi.dead _ hn] at h3
    by_cases ha : a = m.n
    · subst ha
      rw [if_pos rfl, if_pos rfl]
      omega
    · rw [if_neg ha, if_neg (Ne.symm ha)]
      omega
  · simp only [Mem.newObj]
    split
    · omega
    · intro h; have := hi.lt a h; omega
  · simp only [Mem.newObj]
    split
    · simp
    · exact hi.dead a
  · simp only [Mem.newObj]
    split
    · simp
    · exact hi.live a

theorem inv_incref {m : Mem} {L : List Nat} (hi : Inv m L) {a : Nat} (ha : m.alive a = true) :
    Inv (m.incref a) (a :: L) := by
  refine ⟨fun b => ?_, hi.lt, fun b hb => ?_, fun b hb => ?_, hi.ok⟩
  · have := hi.acc b
    simp only [held, Mem.incref, List.count_cons, beq_iff_eq] at this ⊢
    by_cases hb : b = a
    · rw [if_pos hb, if_pos hb.symm]; omega
    · rw [if_neg hb, if_neg (Ne.symm hb)]; omega
  · simp only [Mem.incref] at hb ⊢
    have : b ≠ a := by rintro rfl; rw [ha] at hb; cases hb
    rw [if_neg this]; exact hi.dead b hb
  · simp only [Mem.incref] at hb ⊢
    have := hi.live b hb
    split <;> omega

/-- a list takes over a reference: PyList_SetItem -/
theorem inv_setItem {m : Mem} {L : List Nat} {p e : Nat} (hp : m.alive p = true) (hi : Inv m (e :: L)) :
    Inv { m with items := fun b => if b = p then m.items b ++ [e] else m.items b } L := by
  refine ⟨fun a => ?_, hi.lt, hi.dead, hi.live, hi.ok⟩
  have h := hi.acc a
  have hs := sum_point (hi.lt p hp)
    (f := fun b => bif m.alive b then (if b = p then m.items b ++ [e] else m.items b).count a else 0)
    (g := fun b => bif m.alive b then (m.items b).count a else 0) (fun b hb => by simp [hb])
  simp only [hp, if_true, cond_true, List.count_append] at hs
  simp only [held, List.count_cons, List.count_nil] at h hs ⊢
  omega

theorem inv_append {m : Mem} {L : List Nat} {p e : Nat} (hp : m.alive p = true) (he : m.alive e = true)
    (hi : Inv m L) : Inv (m.append p e) L :=
  inv_setItem (m := m.incref e) hp (inv_incref hi he)

theorem inv_ret {m : Mem} {L : List Nat} {a : Nat} (hi : Inv m (a :: L)) : Inv (m.ret a) L := by
  refine ⟨fun b => ?_, hi.lt, hi.dead, hi.live, hi.ok⟩
  have := hi.acc b
  simp only [held, Mem.ret, List.count_cons] at this ⊢
  omega

theorem inv_perm {m : Mem} {L L' : List Nat} (h : L.Perm L') (hi : Inv m L) : Inv m L' :=
  ⟨fun a => by rw [← h.count_eq]; exact hi.acc a, hi.lt, hi.dead, hi.live, hi.ok⟩

theorem inv_countDown {m : Mem} {L : List Nat} (hi : Inv m L) : Inv m.countDown L := by
  unfold Mem.countDown
  split
  · exact hi
  · next a r hp =>
    have hal : m.alive a = true := alive_of_held hi (by simp [held, hp])
    rw [if_neg (by simp [hal])]
    have hrc := hi.acc a
    split
    · next h1 =>
      refine ⟨fun b => ?_, fun b => ?_, fun b => ?_, fun b => ?_, hi.ok⟩
      · have h := hi.acc b
        have hs := sum_point (hi.lt a hal)
          (f := fun c => bif (if c = a then false else m.alive c) then
            (if c = a then [] else m.items c).count b else 0)
          (g := fun c => bif m.alive c then (m.items c).count b else 0) (fun c hc => by simp [hc])
        simp only [hal, if_true, cond_true, cond_false] at hs
        simp only [held, hp, List.count_cons, List.count_append, beq_self_eq_true, if_true] at h hrc ⊢
        by_cases hb : b = a
        · subst hb
          simp only [beq_self_eq_true, if_true] at h ⊢
          omega
        · simp only [if_neg hb, beq_iff_eq, if_neg (Ne.symm hb)] at h ⊢
          omega
      · simp only
        split
        · simp
        · exact hi.lt b
      · simp only
        split
        · simp
        · exact hi.dead b
      · simp only
        split
        · simp
        · exact hi.live b
    · next h1 =>
      refine ⟨fun b => ?_, hi.lt, fun b hb => ?_, fun b hb => ?_, hi.ok⟩
      · have h := hi.acc b
        simp only [held, hp, List.count_cons] at h ⊢
        by_cases hb : b = a
        · subst hb
          simp only [beq_self_eq_true, if_true] at h ⊢
          omega
        · simp only [if_neg hb, beq_iff_eq, if_neg (Ne.symm hb)] at h ⊢
          omega
      · have : b ≠ a := by rintro rfl; rw [hal] at hb; cases hb
        simp only [if_neg this]; exact hi.dead b hb
      · have := hi.live b hb
        simp only
        split
        · next h => subst h; omega
        · exact this

/-! ### Conversions -/

/-- `m'` is reached from `m` with the references `N` to new objects lost, `k` objects in all -/
structure Grow (m m' : Mem) (L N : List Nat) (k : Nat) : Prop where
  inv : Inv m' (N ++ L)
  le : m.n ≤ m'.n
  alive : ∀ a, m.alive a = true → m'.alive a = true
  fresh : ∀ a ∈ N, m.n ≤ a ∧ a < m'.n
  card : N.toFinset.card = k

theorem Grow.refl {m : Mem} {L : List Nat} (hi : Inv m L) : Grow m m L [] 0 :=
  ⟨hi, le_rfl, fun _ h => h, by simp, rfl⟩

theorem Grow.trans {m m' m'' : Mem} {L N N' : List Nat} {k k' : Nat} (h : Grow m m' L N k)
    (h' : Grow m' m'' (N ++ L) N' k') : Grow m m'' L (N' ++ N) (k' + k) := by
  refine ⟨by rw [List.append_assoc]; exact h'.inv, h.le.trans h'.le, fun a ha => h'.alive a (h.alive a ha), ?_, ?_⟩
  · intro a ha
    rcases List.mem_append.1 ha with ha | ha
    · have := h'.fresh a ha; have := h.le; omega
    · have := h.fresh a ha; have := h'.le; omega
  · rw [List.toFinset_append, card_union_of_disjoint, h'.card, h.card]
    rw [disjoint_left]
    intro a ha hb
    have := h'.fresh a (List.mem_toFinset.1 ha)
    have := h.fresh a (List.mem_toFinset.1 hb)
    omega

theorem grow_new {m : Mem} {L : List Nat} (hi : Inv m L) :
    Grow m (m.newObj []).2 L [m.n] 1 :=
  ⟨inv_newObj (l := []) hi, by simp [Mem.newObj], fun a h => by simp only [Mem.newObj]; split <;> simp [h],
    by simp [Mem.newObj], rfl⟩

theorem grow_string {m : Mem} {L : List Nat} (hi : Inv m L) (s : String) :
    ∃ N, Grow m (Mem.stringIn s m).2 L N (if Mem.ascii s then 1 else 0) ∧ (Mem.stringIn s m).1 = Mem.ascii s := by
  unfold Mem.stringIn
  by_cases h : Mem.ascii s = true
  · simp only [h, if_true]; exact ⟨_, grow_new hi, trivial⟩
  · simp only [Bool.not_eq_true] at h
    simp only [h, Bool.false_eq_true, if_false]; exact ⟨_, Grow.refl hi, trivial⟩

theorem grow_list : ∀ (l : List String) {m : Mem} {L : List Nat}, Inv m L →
    ∃ N, Grow m (Mem.listIn l m) L N (l.countP Mem.ascii)
  | [], m, L, hi => ⟨[], Grow.refl hi⟩
  | s :: r, m, L, hi => by
    obtain ⟨N, h, _⟩ := grow_string hi s
    obtain ⟨N', h'⟩ := grow_list r h.inv
    exact ⟨_, by simpa [Mem.listIn, List.countP_cons] using h.trans h'⟩

theorem grow_dict : ∀ (d : List (String × Bool)) {m : Mem} {L : List Nat}, Inv m L →
    ∃ N, Grow m (Mem.dictIn d m).2 L N (keysRead d) ∧ ((Mem.dictIn d m).1 = true ↔ Accepted d)
  | [], m, L, hi => ⟨[], Grow.refl hi, by simp [Mem.dictIn, Accepted]⟩
  | (s, f) :: r, m, L, hi => by
    obtain ⟨N, h, hb⟩ := grow_string hi s
    unfold Mem.dictIn
    generalize hq : Mem.stringIn s m = q at h hb
    obtain ⟨b, m1⟩ := q
    simp only at h hb
    subst hb
    by_cases ha : Mem.ascii s = true
    · by_cases hf : f = true
      · obtain ⟨N', h', hd⟩ := grow_dict r h.inv
        rw [if_pos ha] at h
        refine ⟨N' ++ N, ?_, ?_⟩
        · simpa [ha, hf, keysRead, Nat.add_comm] using h.trans h'
        · simp only [ha, hf, if_true]
          rw [hd]
          simp [Accepted, ha]
      · simp only [Bool.not_eq_true] at hf
        refine ⟨N, ?_, ?_⟩
        · simpa [ha, hf, keysRead] using h
        · simp [ha, hf, Accepted]
    · simp only [Bool.not_eq_true] at ha
      refine ⟨N, ?_, ?_⟩
      · simpa [ha, keysRead] using h
      · simp [ha, Accepted]

/-- a conversion that gives a new object and loses `k x` objects with it -/
def Loses {α : Type} (conv : α → Mem → Nat × Mem) (k : α → Nat) : Prop :=
  ∀ x m L, Inv m L → ∃ N, Grow m (conv x m).2 L N (k x) ∧ (conv x m).1 ∈ N

theorem loses_double : Loses (Mem.doubleOut (K := K)) fun _ => 1 := fun _ _ _ hi =>
  ⟨_, grow_new hi, by simp [Mem.doubleOut, Mem.newObj]⟩

/-- a new object with one more Py_INCREF -/
theorem grow_newInc {m : Mem} {L : List Nat} (hi : Inv m L) :
    Grow m ((m.newObj []).2.incref m.n) L [m.n, m.n] 1 := by
  have h := grow_new hi
  have ha := alive_of_lost h.inv (a := m.n) (by simp)
  exact ⟨inv_incref h.inv ha, h.le, h.alive, by simp [Mem.newObj, Mem.incref], by simp⟩

theorem loses_small : Loses Mem.smallOut fun _ => 1 := fun _ _ _ hi =>
  ⟨_, grow_newInc hi, by simp [Mem.smallOut, Mem.newObj]⟩

theorem grow_items {α : Type} {conv : α → Mem → Nat × Mem} {k : α → Nat} (hc : Loses conv k) (p : Nat) :
    ∀ (v : List α) {m : Mem} {L : List Nat}, Inv m L → m.alive p = true →
      ∃ N, Grow m (v.foldl (fun m x => match conv x m with | (e, m) => m.append p e) m) L N (v.map k).sum
  | [], m, L, hi, _ => ⟨[], Grow.refl hi⟩
  | x :: r, m, L, hi, hp => by
    obtain ⟨N, h, he⟩ := hc x m L hi
    have hp1 := h.alive p hp
    have he1 := alive_of_lost h.inv (List.mem_append_left _ he)
    have h2 : Grow m ((conv x m).2.append p (conv x m).1) L N (k x) :=
      ⟨inv_append hp1 he1 h.inv, h.le, h.alive, h.fresh, h.card⟩
    obtain ⟨N', h'⟩ := grow_items hc p r h2.inv (h2.alive p hp)
    exact ⟨_, by simpa [Nat.add_comm] using h2.trans h'⟩

/-- the list is lost with all that its elements lose: also after one of its references is owned -/
theorem grow_vector {α : Type} {conv : α → Mem → Nat × Mem} {k : α → Nat} (hc : Loses conv k) (v : List α)
    {m : Mem} {L : List Nat} (hi : Inv m L) :
    ∃ N, Grow m (Mem.vectorOut conv v m).2 L (N ++ [m.n, m.n]) (1 + (v.map k).sum) ∧
      (Mem.vectorOut conv v m).1 = m.n := by
  have h := grow_newInc hi
  obtain ⟨N, h'⟩ := grow_items hc m.n v h.inv (alive_of_lost h.inv (by simp))
  exact ⟨N, by simpa [Nat.add_comm, Mem.vectorOut, Mem.newObj] using h.trans h', rfl⟩

theorem loses_vector {α : Type} {conv : α → Mem → Nat × Mem} {k : α → Nat} (hc : Loses conv k) :
    Loses (Mem.vectorOut conv) fun v => 1 + (v.map k).sum := fun v m L hi => by
  obtain ⟨N, h, he⟩ := grow_vector hc v hi
  exact ⟨_, h, by simp [he]⟩

/-- returning an object that has two references owned by nobody leaves one of them -/
theorem grow_ret {m m' : Mem} {L N : List Nat} {k p : Nat} (h : Grow m m' L (N ++ [p, p]) k) :
    Grow m (m'.ret p) L (N ++ [p]) k := by
  refine ⟨inv_ret (inv_perm ?_ h.inv), h.le, h.alive, fun a ha => h.fresh a ?_, ?_⟩
  · rw [show N ++ [p, p] ++ L = N ++ [p] ++ (p :: L) by simp]
    exact List.perm_middle
  · simpa using ha
  · rw [← h.card]
    congr 1
    ext a
    simp

/-! ### Histories -/

theorem inv_variables (names : List String) {m : Mem} {L : List Nat} (hi : Inv m L) :
    Inv (m.variableNames names) L := by
  have h : ∀ (l : List String) {m : Mem} {p : Nat}, Inv m (p :: L) →
      Inv (l.foldl (fun m _ => match m.newObj [] with
        | (e, m) => { m with items := fun b => if b = p then m.items b ++ [e] else m.items b }) m) (p :: L) := by
    intro l
    induction l with
    | nil => exact fun h => h
    | cons s r ih =>
      intro m p h
      have h1 := inv_newObj (l := []) h
      exact ih (inv_setItem (alive_of_lost h1 (by simp)) h1)
  exact inv_ret (h names (inv_newObj (l := []) hi))

theorem le_variables (names : List String) (m : Mem) : m.n ≤ (m.variableNames names).n := by
  have h : ∀ (l : List String) (m : Mem) (p : Nat), m.n ≤ 
      (l.foldl (fun m _ => match m.newObj [] with
        | (e, m) => { m with items := fun b => if b = p then m.items b ++ [e] else m.items b }) m).n := by
    intro l
    induction l with
    | nil => exact fun _ _ => le_rfl
    | cons s r ih => 
      intro m p
      refine le_trans ?_ (ih _ p)
      simp [Mem.newObj]
  exact le_trans (by simp [Mem.newObj]) (h names (m.newObj []).2 m.n)

/-- one operation loses what `leak` says -/
theorem step_lost {m : Mem} {L : List Nat} (hi : Inv m L) (op : Mem.Op K) :
    ∃ N, Inv (m.step op) (N ++ L) ∧ m.n ≤ (m.step op).n ∧ (∀ a ∈ N, m.n ≤ a) ∧ N.toFinset.card = leak op := by
  have keep : ∀ m' : Mem, Inv m' L → m.n ≤ m'.n →
      ∃ N, Inv m' (N ++ L) ∧ m.n ≤ m'.n ∧ (∀ a ∈ N, m.n ≤ a) ∧ N.toFinset.card = 0 :=
    fun m' h h' => ⟨[], h, h', by simp, rfl⟩
  have grow : ∀ {m' : Mem} {N : List Nat} {k k' : Nat}, Grow m m' L N k → k' = k →
      ∃ N, Inv m' (N ++ L) ∧ m.n ≤ m'.n ∧ (∀ a ∈ N, m.n ≤ a) ∧ N.toFinset.card = k' :=
    fun h hk => ⟨_, h.inv, h.le, fun a ha => (h.fresh a ha).1, h.card.trans hk.symm⟩
  have hfresh : Inv m.fresh L := inv_ret (inv_newObj (l := []) hi)
  cases op with
  | new => exact keep _ hfresh (by simp [Mem.step, Mem.fresh, Mem.ret, Mem.newObj])
  | fresh => exact keep _ hfresh (by simp [Mem.step, Mem.fresh, Mem.ret, Mem.newObj])
  | take a =>
    simp only [Mem.step]
    split
    · next h =>
      refine keep _ (inv_ret (inv_incref hi ?_)) le_rfl
      rcases h with h | ⟨b, hb, h⟩
      · exact alive_of_held hi (by have := List.count_pos_iff.2 h; simp only [held]; omega)
      · have hb' : m.alive b = true :=
          alive_of_held hi (by have := List.count_pos_iff.2 hb; simp only [held]; omega)
        have := single_le_sum (f := fun b => bif m.alive b then (m.items b).count a else 0)
          (fun _ _ => Nat.zero_le _) (mem_range.2 (hi.lt b hb'))
        simp only [hb', cond_true] at this
        exact alive_of_held hi (by have := List.count_pos_iff.2 h; simp only [held]; omega)
    · exact keep _ hi le_rfl
  | drop a =>
    simp only [Mem.step]
    split
    · next h =>
      refine keep _ ⟨fun b => ?_, hi.lt, hi.dead, hi.live, hi.ok⟩ le_rfl
      have h1 := hi.acc b
      have h2 := (List.perm_cons_erase h).count_eq b
      simp only [held, List.count_cons] at h1 h2 ⊢
      omega
    · exact keep _ hi le_rfl
  | store l a =>
    simp only [Mem.step]
    split
    · next h =>
      exact keep _ (inv_append
        (alive_of_held hi (by have := List.count_pos_iff.2 h.1; simp only [held]; omega))
        (alive_of_held hi (by have := List.count_pos_iff.2 h.2; simp only [held]; omega)) hi) le_rfl
    · exact keep _ hi le_rfl
  | countDown =>
    refine keep _ (inv_countDown hi) ?_
    simp only [Mem.step, Mem.countDown]
    split
    · exact le_rfl
    · split
      · exact le_rfl
      · split <;> exact le_rfl
  | moment axes means result =>
    obtain ⟨N, h⟩ := grow_list axes hi
    obtain ⟨N', h', hd⟩ := grow_dict means h.inv
    have h2 := h.trans h'
    simp only [Mem.step, Mem.moment]
    generalize hq : Mem.dictIn means (Mem.listIn axes m) = q at h' hd h2
    obtain ⟨b, m1⟩ := q
    cases b with
    | false =>
      have : ¬ Accepted means := by simpa using hd
      exact grow h2 (by simp [leak, this, Nat.add_comm])
    | true =>
      have ha : Accepted means := by simpa using hd
      cases result with
      | none =>
        exact grow h2 (by simp [leak, ha, Nat.add_comm])
      | some x =>
        have h3 := h2.trans (grow_ret (N := []) (grow_newInc h2.inv))
        exact grow h3 (by simp only [leak, ha, Option.isSome_some, and_self, if_true]; ring)
  | covariance axes means result =>
    obtain ⟨N, h⟩ := grow_list axes hi
    obtain ⟨N', h', hd⟩ := grow_dict means h.inv
    have h2 := h.trans h'
    simp only [Mem.step, Mem.covariance_matrix]
    generalize hq : Mem.dictIn means (Mem.listIn axes m) = q at h' hd h2
    obtain ⟨b, m1⟩ := q
    cases b with
    | false =>
      have : ¬ Accepted means := by simpa using hd
      exact grow h2 (by simp [leak, this, Nat.add_comm])
    | true =>
      have ha : Accepted means := by simpa using hd
      cases result with
      | none =>
        exact grow h2 (by simp [leak, ha, Nat.add_comm])
      | some v =>
        obtain ⟨N3, h3, he⟩ := grow_vector (loses_vector (loses_double (K := K))) v h2.inv
        have h4 := h2.trans (grow_ret h3)
        simp only [he]
        exact grow h4 (by simp [leak, ha]; ring)
  | tensor axes p result =>
    simp only [Mem.step, Mem.moment_tensor, leak]
    split
    · exact keep _ hi le_rfl
    · obtain ⟨N, h⟩ := grow_list axes hi
      cases result with
      | none => exact grow h (by simp)
      | some v =>
        obtain ⟨N3, h3, he⟩ := grow_vector (loses_double (K := K)) v h.inv
        have h4 := h.trans (grow_ret h3)
        simp only [he]
        exact grow h4 (by simp; ring)
  | index p n result =>
    simp only [Mem.step, Mem.index_by_power, leak]
    by_cases h1 : p < 0
    · simp only [h1, if_true, true_or]; exact keep _ hi le_rfl
    · by_cases h2 : n < 1
      · simp only [h1, h2, if_true, if_false, or_true]; exact keep _ hi le_rfl
      · simp only [h1, h2, if_false, or_self]
        obtain ⟨N3, h3, he⟩ := grow_vector loses_small result hi
        simp only [he]
        exact grow (grow_ret h3) (by simp)
  | compare =>
    have h1 := inv_newObj (l := []) hi
    have h2 := inv_newObj (l := []) h1
    have h3 := inv_newObj (l := [m.n, m.n + 1]) (L := L) (inv_perm (List.Perm.swap _ _ _) h2)
    refine grow (N := [m.n + 2]) (k := 1) ⟨h3, ?_, fun a ha => ?_, ?_, rfl⟩ rfl
    · simp [Mem.compare, Mem.newObj, Mem.step]; omega
    · simp only [Mem.compare, Mem.newObj, Mem.step]
      simp [ha]
    · simp [Mem.compare, Mem.newObj, Mem.step]
  | dump k =>
    obtain ⟨N3, h3, he⟩ := grow_vector (loses_double (K := Nat)) (List.range k) hi
    exact grow (grow_ret h3) (by simp [leak])
  | arithmetic number =>
    cases number with
    | false => exact keep _ hfresh (by simp [Mem.step, Mem.arithmetic, Mem.fresh, Mem.ret, Mem.newObj])
    | true =>
      have h := grow_new hi
      have hf : Inv (m.newObj []).2.fresh ([m.n] ++ L) := inv_ret (inv_newObj (l := []) h.inv)
      exact ⟨[m.n], hf, by simp [Mem.step, Mem.arithmetic, Mem.fresh, Mem.ret, Mem.newObj]; omega, by simp, rfl⟩
  | «variables» names => exact keep _ (inv_variables names hi) (le_variables names m)

/-- the accounts after a history -/
theorem run_lost (ops : List (Mem.Op K)) : ∃ L, Inv (Mem.run ops) L ∧
    L.toFinset.card = (ops.map leak).sum := by
  induction ops using List.reverseRecOn with
  | nil => exact ⟨[], inv_init, rfl⟩
  | append_singleton r op ih =>
    obtain ⟨L, hi, hc⟩ := ih
    obtain ⟨N, h1, h2, h3, h4⟩ := step_lost hi op
    refine ⟨N ++ L, by simpa [Mem.run] using h1, ?_⟩
    rw [List.toFinset_append, card_union_of_disjoint, h4, hc]
    · simp [Nat.add_comm]
    · rw [disjoint_left]
      intro a ha hb
      have := h3 a (List.mem_toFinset.1 ha)
      have := hi.lt a (alive_of_lost hi (List.mem_toFinset.1 hb))
      omega

/-! ### C109 -/

/-- C109_safe: through any history of calls and of a Python program that makes, shares, stores and gives up
references, no object is freed while a reference to it is owned, and none is counted down after it was
freed. -/
theorem C109_safe (ops : List (Mem.Op K)) :
    (Mem.run ops).bad = false ∧ ∀ a, 0 < held (Mem.run ops) a →
      (Mem.run ops).alive a = true ∧ held (Mem.run ops) a ≤ (Mem.run ops).rc a := by
  obtain ⟨L, hi, -⟩ := run_lost ops
  exact ⟨hi.ok, fun a h => ⟨alive_of_held hi h, by rw [hi.acc]; omega⟩⟩

/-- C109_countdown: after any history the reference that is counted down next is one to a living object;
and counting down a dead object would be noticed, so that C109_safe says something. -/
theorem C109_countdown (ops : List (Mem.Op K)) :
    (∀ a ∈ (Mem.run ops).pending, (Mem.run ops).alive a = true) ∧
    ∀ (m : Mem) (a : Nat) (r : List Nat), m.pending = a :: r → m.alive a = false →
      m.countDown.bad = true := by
  refine ⟨fun a ha => ((C109_safe ops).2 a ?_).1, ?_⟩
  · unfold held
    have := List.count_pos_iff.2 ha
    omega
  · intro m a r hp hd
    simp [Mem.countDown, hp, hd]

/-- what is lost, exactly, after any history -/
theorem C109_lost (ops : List (Mem.Op K)) : (lost (Mem.run ops)).card = (ops.map leak).sum ∧
    lost (Mem.run ops) ⊆ living (Mem.run ops) := by
  obtain ⟨L, hi, hc⟩ := run_lost ops
  have : lost (Mem.run ops) = L.toFinset := by
    ext a
    simp only [lost, mem_filter, mem_range, List.mem_toFinset]
    constructor
    · rintro ⟨_, h⟩
      rw [hi.acc] at h
      exact List.count_pos_iff.1 (by omega)
    · intro h
      exact ⟨hi.lt a (alive_of_lost hi h), by rw [hi.acc]; have := List.count_pos_iff.2 h; omega⟩
  refine ⟨by rw [this, hc], ?_⟩
  rw [this]
  intro a ha
  have := alive_of_lost hi (List.mem_toFinset.1 ha)
  exact mem_filter.2 ⟨mem_range.2 (hi.lt a this), this⟩

/-- the covariance matrix of n axes loses (n + 1)^2 objects in each call, the moment tensor of k moments
1 + k and the axes, a cut one for each hit. -/
theorem C109_calls (axes : List String) (v : List (List K)) (w : List K) (x : K) (p : Nat) (l : List (Mem.Op K))
    (ha : ∀ s ∈ axes, Mem.ascii s = true) (h1 : v.length = axes.length) (h2 : ∀ r ∈ v, r.length = axes.length) :
    leak (.covariance axes [] (some v)) = (axes.length + 1) ^ 2 ∧
    leak (.tensor axes p (some w)) = axes.length + 1 + w.length ∧
    leak (.moment axes [] (some x)) = axes.length + 1 ∧
    ∀ ops : List (Mem.Op K), (living (Mem.run (ops ++ List.replicate p .compare ++ l))).card ≥ p := by
  have hc : axes.countP Mem.ascii = axes.length := List.countP_eq_length.2 ha
  refine ⟨?_, ?_, ?_, fun ops => ?_⟩
  · have : (v.map fun row => 1 + row.length) = List.replicate v.length (1 + axes.length) := by
      rw [List.eq_replicate_iff]
      refine ⟨by simp, ?_⟩
      simp only [List.mem_map]
      rintro _ ⟨r, hr, rfl⟩
      rw [h2 r hr]
    simp only [leak, hc, keysRead, this, h1, List.sum_replicate, nsmul_eq_mul, Nat.cast_id]
    simp only [Accepted, List.not_mem_nil, false_imp_iff, implies_true, if_true]
    ring
  · have : ¬ (p : Int) < 0 := by omega
    simp only [leak, hc, if_neg this]; omega
  · simp [leak, hc, keysRead, Accepted]
  · have h := C109_lost (ops ++ List.replicate p .compare ++ l)
    refine le_trans ?_ (card_le_card h.2)
    rw [h.1]
    simp [leak]
    omega

/-- a program that calculates a moment and gives up the result, n times -/
def loop (x : K) : Nat → List (Mem.Op K)
  | 0 => []
  | n + 1 => loop x n ++ [.moment ["x"] [] (some x), .drop (2 * n + 1), .countDown]

theorem loop_state (x : K) : ∀ n, (Mem.run (loop x n)).n = 2 * n ∧ (Mem.run (loop x n)).roots = [] ∧
    (Mem.run (loop x n)).pending = []
  | 0 => ⟨rfl, rfl, rfl⟩
  | n + 1 => by
    obtain ⟨h1, h2, h3⟩ := loop_state x n
    have ha : Mem.ascii "x" = true := by decide +kernel
    have : Mem.run (loop x (n + 1)) = (((Mem.run (loop x n)).step (.moment ["x"] [] (some x))).step
        (Mem.Op.drop (K := K) (2 * n + 1))).step (Mem.Op.countDown (K := K)) := by
      simp [Mem.run, loop]
    rw [this]
    generalize Mem.run (loop x n) = m at h1 h2 h3
    simp [Mem.step, Mem.moment, Mem.listIn, Mem.dictIn, Mem.stringIn, ha, Mem.newObj, Mem.incref, Mem.ret,
      Mem.countDown, h1, h2, h3]
    omega

/-- C109_false: memory is not given back.  A program that calculates a moment and gives up the result, n
times, owns nothing in the end and has 2 n objects in memory. -/
theorem C109_false (x : K) (n : Nat) :
    (Mem.run (loop x n)).roots = [] ∧ (Mem.run (loop x n)).pending = [] ∧
      (living (Mem.run (loop x n))).card = 2 * n := by
  refine ⟨(loop_state x n).2.1, (loop_state x n).2.2, le_antisymm ?_ ?_⟩
  · refine (card_filter_le _ _).trans ?_
    rw [card_range, (loop_state x n).1]
  · refine le_trans ?_ (card_le_card (C109_lost (loop x n)).2)
    rw [(C109_lost (loop x n)).1]
    induction n with
    | zero => simp
    | succ n ih =>
      have ha : Mem.ascii "x" = true := by decide +kernel
      simp [loop, leak, keysRead, Accepted, ha]
      omega

/-- the operations that lose nothing and make no cycles -/
def Quiet : Mem.Op K → Prop
  | .new | .take _ | .drop _ | .countDown | .fresh | .variables _ | .arithmetic false => True
  | _ => False

/-- items are younger than what owns them -/
def Young (m : Mem) : Prop := (∀ b, ∀ a ∈ m.items b, b < a ∧ a < m.n) ∧ ∀ b, m.n ≤ b → m.items b = []

theorem young_new {m : Mem} (h : Young m) : Young (m.newObj []).2 := by
  refine ⟨fun b a ha => ?_, fun b hb => ?_⟩
  · simp only [Mem.newObj] at ha ⊢
    split at ha
    · simp at ha
    · have := h.1 b a ha; omega
  · simp only [Mem.newObj] at hb ⊢
    rw [if_neg (by omega)]
    exact h.2 b (by omega)

theorem young_step {m : Mem} (h : Young m) (op : Mem.Op K) (hq : Quiet op) : Young (m.step op) := by
  cases op with
  | new => exact young_new h
  | fresh => exact young_new h
  | take a => simp only [Mem.step]; split <;> exact h
  | drop a => simp only [Mem.step]; split <;> exact h
  | countDown =>
    simp only [Mem.step, Mem.countDown]
    split
    · exact h
    · split
      · exact h
      · split
        · refine ⟨fun b a ha => ?_, fun b hb => ?_⟩
          · simp only at ha
            split at ha
            · simp at ha
            · exact h.1 b a ha
          · simp only
            split
            · rfl
            · exact h.2 b hb
        · exact h
  | «variables» names =>
    have key : ∀ (l : List String) {m : Mem} {p : Nat}, Young m → p < m.n →
        Young (l.foldl (fun m _ => match m.newObj [] with
          | (e, m) => { m with items := fun b => if b = p then m.items b ++ [e] else m.items b }) m) := by
      intro l
      induction l with
      | nil => exact fun h _ => h
      | cons s r ih =>
        intro m p h hp
        refine ih ⟨fun b a ha => ?_, fun b hb => ?_⟩ (by simp [Mem.newObj]; omega)
        · have h1 := (young_new h).1 b a
          simp only [Mem.newObj] at ha h1 ⊢
          split at ha
          · next hb =>
            rcases List.mem_append.1 ha with ha | ha
            · exact h1 ha
            · simp only [List.mem_singleton] at ha; omega
          · exact h1 ha
        · simp only [Mem.newObj] at hb ⊢
          rw [if_neg (by omega), if_neg (by omega)]
          exact h.2 b (by omega)
    exact key names (young_new h) (by simp)
  | arithmetic number =>
    cases number with
    | false => exact young_new h
    | true => simp [Quiet] at hq
  | _ => simp [Quiet] at hq

/-- C109_partial: hits of a bunch, its length, values of hits, weight contexts and names of variables are
given back: a program that has called nothing else and owns nothing any more has nothing in memory.
Missing: moments, covariances, cuts, powers, arithmetic of weight contexts and numbers and the memory dump, see `C109_false` and `C109_lost`. -/
theorem C109_partial (ops : List (Mem.Op K)) (hq : ∀ op ∈ ops, Quiet op)
    (hr : (Mem.run ops).roots = []) (hp : (Mem.run ops).pending = []) : living (Mem.run ops) = ∅ := by
  obtain ⟨L, hi, hc⟩ := run_lost ops
  have hL : L = [] := by
    rw [List.sum_eq_zero] at hc
    · simpa using hc
    · simp only [List.mem_map]
      rintro _ ⟨op, ho, rfl⟩
      have := hq op ho
      cases op with
      | arithmetic number => cases number <;> simp_all [Quiet, leak]
      | _ => simp_all [Quiet, leak]
  have hy : Young (Mem.run ops) := by
    have : ∀ (l : List (Mem.Op K)) (m : Mem), (∀ op ∈ l, Quiet op) → Young m → Young (l.foldl Mem.step m) := by
      intro l
      induction l with
      | nil => exact fun m _ h => h
      | cons op r ih =>
        exact fun m h hm => ih _ (fun o ho => h o (by simp [ho])) (young_step hm op (h op (by simp)))
    exact this ops _ hq ⟨by simp [Mem.init], by simp [Mem.init]⟩
  have none : ∀ a, (Mem.run ops).alive a = false := by
    intro a
    induction a using Nat.strong_induction_on with
    | _ a ih =>
      by_contra ha
      have ha' : (Mem.run ops).alive a = true := by simpa using ha
      have h1 := hi.live a ha'
      rw [hi.acc, held, hr, hp, hL] at h1
      simp only [List.count_nil, Nat.zero_add, Nat.add_zero] at h1
      have : ∑ b ∈ range (Mem.run ops).n, (bif (Mem.run ops).alive b then ((Mem.run ops).items b).count a
          else 0) = 0 := by
        refine sum_eq_zero fun b _ => ?_
        by_cases hb : a ∈ (Mem.run ops).items b
        · rw [ih b (hy.1 b a hb).1]; rfl
        · rw [List.count_eq_zero.2 hb]; simp
      omega
  ext a
  simp [living, none a]

/-- histories: hits that are given back, a list of names kept alive by its owner alone, and covariances of two
axes that lose nine objects, although the program has given up the matrix. -/
example : living (Mem.run (K := ℚ) [.fresh, .take 0, .drop 0, .countDown, .drop 0, .countDown,
      .variables ["x", "y"], .take 2, .drop 1, .countDown, .countDown, .countDown, .drop 2, .countDown]) = ∅ ∧
    living (Mem.run (K := ℚ) [.variables ["x", "y"], .take 1, .drop 0, .countDown, .countDown, .countDown]) = {1} ∧
    (let m := Mem.run [Mem.Op.covariance ["x", "px"] [] (some [[2, 1], [1, (2 : ℚ)]]), .drop 2, .countDown]
     m.roots = [] ∧ m.pending = [] ∧ (living m).card = 9) := by
  decide +kernel

end RefCount
end Xboa
