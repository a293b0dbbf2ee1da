import Verif.Lemmas.WeightContext
/-!
Properties C01 - C04 (weight contexts).
-/
namespace Xboa
variable {K : Type}

/-! ## C01: last write wins -/
namespace Spec

/-- Calls on one context object. -/
inductive WOp (K : Type)
  | set (w : K) (id : HitId)
  | clear
  | setDefault (w : K)

/-- The abstract store: a partial function and a default. -/
structure Store (K : Type) where
  at? : HitId → Option K
  dflt : K

/-- Specification of the calls on the abstract store. -/
def Store.apply (s : Store K) : WOp K → Store K
  | .set w id => { s with at? := fun id' => if id' = id then some w else s.at? id' }
  | .clear => { s with at? := fun _ => none }
  | .setDefault w => { s with dflt := w }

/-- What a reader of the abstract store sees. -/
def Store.weight (s : Store K) (id : HitId) : K := (s.at? id).getD s.dflt

/-- The last value written for `id` since the last clear, read off the history
(newest call first). -/
def lastWrite (id : HitId) : List (WOp K) → Option K
  | [] => none
  | .set w id' :: older => if id' = id then some w else lastWrite id older
  | .clear :: _ => none
  | .setDefault _ :: older => lastWrite id older

/-- The default in force, read off the history (newest call first). -/
def lastDefault [One K] : List (WOp K) → K
  | [] => 1
  | .setDefault w :: _ => w
  | _ :: older => lastDefault older
end Spec
open Spec

/-- The calls performed on the model of the C++ object. -/
def WC.call (c : WC K) : WOp K → WC K
  | .set w id => c.setWeight id w
  | .clear => c.clearWeights
  | .setDefault w => c.setDefaultWeight w

/-- The object after a history given newest call first. -/
def WC.after [One K] : List (WOp K) → WC K
  | [] => WC.new
  | op :: older => (WC.after older).call op

theorem WC.after_wf [One K] (h : List (WOp K)) : (WC.after h).WF := by
  induction h with
  | nil => exact WC.WF.new
  | cons op older ih =>
    cases op with
    | set w id => exact ih.setWeight id w
    | clear => exact WC.WF.clear
    | setDefault w => exact ih.setDefault w

/-- C01. For every history of calls (newest first) and every triple, the weight reported
is the last value written for that triple since the last clear, or the default in force. -/
theorem C01_last_write_wins [One K] (history : List (WOp K)) (id : HitId) :
    (WC.after history).getWeight id = (lastWrite id history).getD (lastDefault history)
    ∧ (WC.after history).getDefaultWeight = lastDefault history := by
  have hd : ∀ h : List (WOp K), (WC.after h).dflt = lastDefault h := by
    intro h
    induction h with
    | nil => rfl
    | cons op older ih => cases op <;> simp [WC.after, WC.call, WC.setWeight, WC.clearWeights,
        WC.setDefaultWeight, lastDefault, ih]
  refine ⟨?_, hd history⟩
  have key : ∀ h : List (WOp K), (WC.after h).map.find id = lastWrite id h := by
    intro h
    induction h with
    | nil => rfl
    | cons op older ih =>
      cases op with
      | set w id' =>
        simp only [WC.after, WC.call, WC.setWeight, lastWrite]
        rw [WMap.find_assign (WC.after_wf older), ih]
        by_cases e : id = id'
        · simp [e]
        · simp [e, Ne.symm e]
      | clear => rfl
      | setDefault w => exact ih
  unfold WC.getWeight
  rw [key history, hd history]
  cases lastWrite id history <;> rfl

/-- C01, frame part: writing one triple never changes another. -/
theorem C01_write_frame [One K] (history : List (WOp K)) (id id' : HitId) (w : K)
    (h : id' ≠ id) :
    (WC.after (.set w id :: history)).getWeight id' = (WC.after history).getWeight id'
    ∧ (WC.after (.set w id :: history)).getWeight id = w := by
  constructor
  · simp [WC.after, WC.call, WC.getWeight_setWeight (WC.after_wf history), h]
  · simp [WC.after, WC.call, WC.getWeight_setWeight (WC.after_wf history)]

/-- Non-vacuity: triples agreeing in two components are kept apart, the default applies
elsewhere. -/
example :
    let h : List (WOp Int) := [.setDefault 5, .set 3 ⟨1, 2, 4⟩, .set 2 ⟨1, 2, 3⟩, .clear, .set 9 ⟨7, 7, 7⟩]
    (WC.after h).getWeight ⟨1, 2, 3⟩ = 2 ∧ (WC.after h).getWeight ⟨1, 2, 4⟩ = 3
      ∧ (WC.after h).getWeight ⟨7, 7, 7⟩ = 5 := by decide

/-! ## C02: pointwise arithmetic

`Reachable` contexts are those any expression of the API can build. -/

/-- Contexts a user can obtain: by construction, by calls and by operators. -/
inductive WC.Reachable [Add K] [Sub K] [Mul K] [Div K] [Zero K] [One K] [BEq K] : WC K → Prop
  | new : Reachable WC.new
  | call {c} (op : WOp K) : Reachable c → Reachable (c.call op)
  | binary {c} (op : BinOp) (l r : Operand (WC K) K)
      (hl : ∀ a, l = .ctx a → Reachable a) (hr : ∀ a, r = .ctx a → Reachable a) :
      WC.binary op l r = .ok c → Reachable c
  | invert {c} : Reachable c → Reachable c.opNot

theorem WC.Reachable.wf [Add K] [Sub K] [Mul K] [Div K] [Zero K] [One K] [BEq K] {c : WC K}
    (h : WC.Reachable c) : c.WF := by
  induction h with
  | new => exact WC.WF.new
  | call op _ ih =>
    cases op with
    | set w id => exact ih.setWeight id w
    | clear => exact WC.WF.clear
    | setDefault w => exact ih.setDefault w
  | binary op l r hl hr heq ihl ihr =>
    cases l with
    | ctx a =>
      cases r with
      | ctx b =>
        simp only [WC.binary, Except.ok.injEq] at heq; subst heq
        exact WC.WF.opCtx (ihl a rfl) _
      | num k =>
        simp only [WC.binary, Except.ok.injEq] at heq; subst heq
        exact WC.WF.opNum (ihl a rfl) _ _
    | num k =>
      cases r with
      | ctx b =>
        cases op <;> simp only [WC.binary, Except.ok.injEq, reduceCtorEq] at heq
        · subst heq; exact WC.WF.opNum (ihr b rfl) _ _
        · subst heq; exact WC.WF.opNum (ihr b rfl) _ _
      | num k' => simp [WC.binary] at heq
  | invert _ ih => exact ih.opNot

/-- C02, context with context: pointwise for every triple, stored or not, and for the
default.  No law of arithmetic is used, so this holds for IEEE doubles. -/
theorem C02_pointwise_context [Add K] [Sub K] [Mul K] [Div K] [Zero K] [One K] [BEq K]
    {a b : WC K} (ha : WC.Reachable a) (_hb : WC.Reachable b) (op : BinOp) :
    ∃ c, WC.binary op (.ctx a) (.ctx b) = .ok c ∧
      (∀ id, c.getWeight id = op.fn (a.getWeight id) (b.getWeight id)) ∧
      c.getDefaultWeight = op.fn a.getDefaultWeight b.getDefaultWeight :=
  ⟨_, rfl, fun id => WC.getWeight_opCtx ha.wf _ id, rfl⟩

/-- C02, context with number on the right. -/
theorem C02_pointwise_number_right [Add K] [Sub K] [Mul K] [Div K]
    (a : WC K) (k : K) (op : BinOp) :
    ∃ c, WC.binary op (.ctx a) (.num k) = .ok c ∧
      (∀ id, c.getWeight id = op.fn (a.getWeight id) k) ∧
      c.getDefaultWeight = op.fn a.getDefaultWeight k :=
  ⟨_, rfl, fun id => WC.getWeight_opNum a _ k id, rfl⟩

/-- C02, number on the left: `k + a` and `k * a` are pointwise (given that `+` and `*`
commute, as they do for IEEE numbers); `k - a` and `k / a` raise NotImplementedError. -/
theorem C02_pointwise_number_left [Add K] [Sub K] [Mul K] [Div K]
    (hadd : ∀ x y : K, x + y = y + x) (hmul : ∀ x y : K, x * y = y * x)
    (a : WC K) (k : K) :
    (∃ c, WC.binary .add (.num k) (.ctx a) = .ok c ∧
      (∀ id, c.getWeight id = k + a.getWeight id) ∧ c.getDefaultWeight = k + a.getDefaultWeight) ∧
    (∃ c, WC.binary .mul (.num k) (.ctx a) = .ok c ∧
      (∀ id, c.getWeight id = k * a.getWeight id) ∧ c.getDefaultWeight = k * a.getDefaultWeight) ∧
    WC.binary .sub (.num k) (.ctx a) = .error .NotImplementedError ∧
    WC.binary .div (.num k) (.ctx a) = .error .NotImplementedError := by
  refine ⟨⟨_, rfl, ?_, ?_⟩, ⟨_, rfl, ?_, ?_⟩, rfl, rfl⟩
  · intro id; rw [WC.getWeight_opNum]; exact hadd _ _
  · exact hadd _ _
  · intro id; rw [WC.getWeight_opNum]; exact hmul _ _
  · exact hmul _ _

/-- Non-vacuity: ids stored on one side only, non-trivial defaults. -/
example :
    let a : WC Int := ((WC.new).setWeight ⟨0, 1, 2⟩ 10).setDefaultWeight 3
    let b : WC Int := ((WC.new).setWeight ⟨0, 2, 1⟩ 7).setDefaultWeight 5
    let c := a.opCtx (BinOp.sub.fn) b
    c.getWeight ⟨0, 1, 2⟩ = 5 ∧ c.getWeight ⟨0, 2, 1⟩ = -4 ∧ c.getWeight ⟨9, 9, 9⟩ = -2 := by decide
example : WC.Reachable (K := Int) (WC.new.setWeight ⟨0, 1, 2⟩ 10) :=
  WC.Reachable.call (.set 10 ⟨0, 1, 2⟩) .new

/-! ## C03: operators do not disturb their operands -/
section
variable [Add K] [Sub K] [Mul K] [Div K] [Zero K] [One K] [BEq K]

/-- C03, operators: an operator expression (or ~) that succeeds returns a handle to a
context distinct from every existing one, and every existing context is unchanged. -/
theorem C03_operator_fresh (w : CtxWorld K) (op : CtxOp K)
    (hop : (∃ o l r, op = .binary o l r) ∨ (∃ h, op = .invert h) ∨ op = .create) :
    (∀ (i : Nat), i < w.heap.length → (w.step op).1.heap[i]? = w.heap[i]?) ∧
    (w.step op).1.cur = w.cur ∧
    (∀ n, (w.step op).2 = .ok (some n) → n = w.heap.length ∧ n < (w.step op).1.heap.length) := by
  rcases hop with ⟨o, l, r, rfl⟩ | ⟨h, rfl⟩ | rfl
  · simp only [CtxWorld.step]
    split
    · split
      · refine ⟨fun i hi => ?_, rfl, ?_⟩
        · simp [List.getElem?_append_left hi]
        · intro n hn
          simp only [Except.ok.injEq, Option.some.injEq] at hn
          subst hn; simp
      · exact ⟨fun _ _ => rfl, rfl, fun n hn => by simp at hn⟩
    · exact ⟨fun _ _ => rfl, rfl, fun n hn => by simp at hn⟩
  · simp only [CtxWorld.step]
    split
    · refine ⟨fun i hi => ?_, rfl, ?_⟩
      · simp [List.getElem?_append_left hi]
      · intro n hn
        simp only [Except.ok.injEq, Option.some.injEq] at hn
        subst hn; simp
    · exact ⟨fun _ _ => rfl, rfl, fun n hn => by simp at hn⟩
  · simp only [CtxWorld.step]
    refine ⟨fun i hi => ?_, trivial, ?_⟩
    · simp [List.getElem?_append_left hi]
    · intro n hn
      simp only [Except.ok.injEq, Option.some.injEq] at hn
      subst hn; simp

/-- Specification: which existing context a call is *allowed* to change. -/
def CtxOp.mayChange (cur : Nat) : CtxOp K → Nat → Prop
  | .setWeight h _ _, i => i = h
  | .setDefault h _, i => i = h
  | .hitSetGlobal _ _, i => i = cur
  | .clearGlobal, i => i = cur
  | _, _ => False

theorem CtxWorld.step_frame (w : CtxWorld K) (op : CtxOp K) (i : Nat)
    (hi : i < w.heap.length) (h : ¬ op.mayChange w.cur i) :
    (w.step op).1.heap[i]? = w.heap[i]? := by
  cases op with
  | create => exact (C03_operator_fresh w .create (by simp)).1 i hi
  | binary o l r => exact (C03_operator_fresh w (.binary o l r) (by simp)).1 i hi
  | invert h' => exact (C03_operator_fresh w (.invert h') (by simp)).1 i hi
  | setWeight h' k id =>
    simp only [CtxOp.mayChange] at h
    simp only [CtxWorld.step]
    split <;> simp [Ne.symm h]
  | setDefault h' k =>
    simp only [CtxOp.mayChange] at h
    simp only [CtxWorld.step]
    split <;> simp [Ne.symm h]
  | setCurrent h' => simp only [CtxWorld.step]; split <;> rfl
  | getCurrent => rfl
  | hitSetGlobal id k =>
    simp only [CtxOp.mayChange] at h
    simp only [CtxWorld.step]
    split <;> simp [Ne.symm h]
  | clearGlobal =>
    simp only [CtxOp.mayChange] at h
    simp only [CtxWorld.step]
    split <;> simp [Ne.symm h]

theorem CtxWorld.step_length (w : CtxWorld K) (op : CtxOp K) :
    w.heap.length ≤ (w.step op).1.heap.length := by
  cases op with
  | create => simp [CtxWorld.step]
  | binary o l r =>
    simp only [CtxWorld.step]
    split
    · split <;> simp
    · simp
  | invert h => simp only [CtxWorld.step]; split <;> simp
  | setWeight h' k id => simp only [CtxWorld.step]; split <;> simp
  | setDefault h' k => simp only [CtxWorld.step]; split <;> simp
  | setCurrent h' => simp only [CtxWorld.step]; split <;> simp
  | getCurrent => simp [CtxWorld.step]
  | hitSetGlobal id k => simp only [CtxWorld.step]; split <;> simp
  | clearGlobal => simp only [CtxWorld.step]; split <;> simp

/-- No call of the history is allowed to change context `i`. -/
def CtxWorld.untouched (i : Nat) : CtxWorld K → List (CtxOp K) → Prop
  | _, [] => True
  | w, op :: ops => ¬ op.mayChange w.cur i ∧ untouched i (w.step op).1 ops

/-- C03. Through any history, a context keeps its weights unless it is written through
itself (or an alias, i.e. the same handle) or through a hit while it is current. -/
theorem C03_frame_history (w : CtxWorld K) (ops : List (CtxOp K)) (i : Nat)
    (hi : i < w.heap.length) (h : w.untouched i ops) :
    (w.run ops).heap[i]? = w.heap[i]? := by
  induction ops generalizing w with
  | nil => rfl
  | cons op ops ih =>
    have h1 := ih (w.step op).1 (Nat.lt_of_lt_of_le hi (w.step_length op)) h.2
    rw [CtxWorld.run, h1, w.step_frame op i hi h.1]

/-- C03, aliasing: `set_weight_context(a)` followed by `get_weight_context()` returns an
alias of `a`, and a hit's write is then visible through `a`. -/
theorem C03_alias (w : CtxWorld K) (h : Nat) (c : WC K) (hc : w.heap[h]? = some c) (id : HitId) (k : K) :
    let w1 := (w.step (.setCurrent h)).1
    (w1.step .getCurrent).2 = .ok (some h) ∧
    (w1.step (.hitSetGlobal id k)).1.heap[h]? = some (c.setWeight id k) := by
  have hlt : h < w.heap.length := by
    rcases Nat.lt_or_ge h w.heap.length with hl | hl
    · exact hl
    · rw [List.getElem?_eq_none hl] at hc; cases hc
  simp only [CtxWorld.step, hc, true_and]
  simp [hlt]

/-- Non-vacuity: in this history context 0 is used as an operand and context 1 is written
through a hit; context 0 is untouched. -/
example : (CtxWorld.init : CtxWorld Int).untouched 0
    [.create, .binary .mul (.ctx 0) (.ctx 1), .setCurrent 1, .hitSetGlobal ⟨0, 0, 0⟩ 4, .invert 0] := by
  simp [CtxWorld.untouched, CtxOp.mayChange, CtxWorld.step, CtxWorld.init, CtxWorld.deref, WC.binary]
end

/-! ## C04: inverting a context -/

/-- C04. `~c` reports `c`'s default where `c` reports zero and zero elsewhere.  The
hypothesis `hz` says that a weight which compares equal to zero is zero; it holds in every field, and for
IEEE doubles if -0 is not told apart from 0. -/
theorem C04_invert_pointwise [Zero K] [BEq K] (hz : ∀ x : K, (x == 0) = true → x = 0)
    (c : WC K) (id : HitId) :
    c.opNot.getWeight id = (if c.getWeight id == 0 then c.getDefaultWeight else 0)
    ∧ c.opNot.getDefaultWeight = 0 := by
  refine ⟨?_, rfl⟩
  rw [WC.getWeight_opNot]
  unfold WC.getWeight WC.getDefaultWeight
  cases c.map.find id with
  | none =>
    simp only
    split
    · rename_i h; exact (hz _ h).symm
    · rfl
  | some v => rfl

/-- C04, selection: with a non-zero default, `~c` selects (gives non-zero weight to)
exactly the triples that `c` rejects. -/
theorem C04_invert_selects_complement [Zero K] [DecidableEq K] (c : WC K)
    (hd : c.getDefaultWeight ≠ 0) (id : HitId) :
    c.opNot.getWeight id ≠ 0 ↔ c.getWeight id = 0 := by
  rw [(C04_invert_pointwise (by simp) c id).1]
  by_cases h : c.getWeight id = 0 <;> simp [h, hd]

/-- C04, negation of the user expectation "`~~c` selects the same triples as `c`":
`~~c` is zero everywhere, whatever `c` is. -/
theorem C04_double_invert_is_zero [Zero K] [DecidableEq K] (c : WC K) (id : HitId) :
    c.opNot.opNot.getWeight id = 0 := by
  rw [(C04_invert_pointwise (by simp) c.opNot id).1]
  split
  · rfl
  · rfl

/-- C04, concrete witness: a context that selects a triple, whose double inverse does not. -/
theorem C04_double_invert_false :
    ¬ ∀ (c : WC Int) (id : HitId), (c.opNot.opNot.getWeight id ≠ 0 ↔ c.getWeight id ≠ 0) := by
  intro h
  have := h ((WC.new).setWeight ⟨0, 1, 2⟩ 1) ⟨0, 1, 2⟩
  revert this; decide

example : ∃ c : WC Int, c.getDefaultWeight ≠ 0 ∧ c.getWeight ⟨0, 1, 2⟩ = 0 ∧
    c.opNot.getWeight ⟨0, 1, 2⟩ ≠ 0 ∧ c.opNot.getWeight ⟨0, 0, 0⟩ = 0 :=
  ⟨(WC.new).setWeight ⟨0, 1, 2⟩ 0, by decide⟩

end Xboa
