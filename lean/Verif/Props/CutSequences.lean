import Verif.Props.BunchTransmission
/-
C114: a sequence of cuts, local and global, on one or several bunches, mixed with transmission cuts,
leaves a hit its weight exactly when no cut of the sequence rejects it, so the order of the cuts and
repeated cuts do not matter.
-/
set_option linter.unusedSectionVars false
namespace Xboa.CutSequences
variable {K : Type} [Field K] [LinearOrder K] [IsStrictOrderedRing K]

/-! ### what the user calls -/

/-- One call: bunch.cut(d, comp, global_cut=isGlobal), or
bunch.transmission_cut(test, global_cut=isGlobal) with the default test variables. -/
inductive Call (K : Type) where
  | cut (b : Bunch K) (comp : K → K → Bool) (isGlobal : Bool) (d : List (String × K))
  | transmission (b test : Bunch K) (isGlobal : Bool)

/-- The call made on the model. -/
def Call.run (E : Ext K) (tol : K) : Call K → BWorld K → Except Err Unit × BWorld K
  | .cut b comp g d, w => Bunch.cut E b (okComp comp) g d w
  | .transmission b test g, w =>
    Bunch.transmissionCut E tol test b ["spill", "event_number", "particle_number"] g w

/-- The calls one after the other, up to the first exception. -/
def runAll (E : Ext K) (tol : K) : List (Call K) → BWorld K → Except Err Unit × BWorld K
  | [], w => (.ok (), w)
  | s :: r, w =>
    match s.run E tol w with
    | (.error e, w') => (.error e, w')
    | (.ok _, w') => runAll E tol r w'

/-! ### specification -/

/-- The documented reason to give hit `j` weight 0. -/
def Rejects (E : Ext K) (w : BWorld K) : Call K → Nat → Prop
  | .cut b comp false d, j =>
    j ∈ b.hits ∧ ∃ p ∈ d, ∃ x, Bunch.hitNum E w j p.1 = .ok x ∧ comp x p.2 = true
  | .cut b comp true d, j =>
    ∃ k ∈ b.hits, (w.hits k).trackId = (w.hits j).trackId ∧
      ∃ p ∈ d, ∃ x, Bunch.hitNum E w k p.1 = .ok x ∧ comp x p.2 = true
  | .transmission b test false, j =>
    j ∈ b.hits ∧ ∀ t ∈ test.hits, (w.hits t).trackId ≠ (w.hits j).trackId
  | .transmission b test true, j =>
    (∃ k ∈ b.hits, (w.hits k).trackId = (w.hits j).trackId) ∧
      ∀ t ∈ test.hits, (w.hits t).trackId ≠ (w.hits j).trackId

/-- A variable that is not one of the weights. -/
def NotWeight (n : String) : Prop := n ≠ "local_weight" ∧ n ≠ "global_weight" ∧ n ≠ "weight"

/-- The call is on a bunch in its normal state, and every hit of it has a number for each variable
of the cut, none of which is a weight. -/
def Valid (E : Ext K) (w : BWorld K) : Call K → Prop
  | .cut b _ _ d => b.Normal w ∧ ∀ p ∈ d, NotWeight p.1 ∧
      ∀ i ∈ b.hits, ∃ x, Bunch.hitNum E w i p.1 = .ok x
  | .transmission _ _ _ => True

/-- Hits with `S` have weight 0, the others the weight they had; nothing but weights changed. -/
structure Weighted (E : Ext K) (w w' : BWorld K) (S : Nat → Prop) : Prop where
  zero : ∀ j, S j → w'.weight j = 0
  kept : ∀ j, ¬ S j → w'.weight j = w.weight j
  vars : ∀ j n, NotWeight n → Bunch.hitNum E w' j n = Bunch.hitNum E w j n
  track : ∀ j, (w'.hits j).trackId = (w.hits j).trackId
  hcur : w'.hcur = w.hcur
  bcur : w'.bcur = w.bcur
  wf : (w'.ctx w'.hcur).WF

theorem Weighted.of_local {E : Ext K} {w w' : BWorld K} {S : Nat → Prop}
    (hwf : (w.ctx w.hcur).WF) (h : LocalCut w w' S) : Weighted E w w' S := by
  refine ⟨fun j => (C23_local_observed E w w' S h j).1,
    fun j hj => ((C23_local_observed E w w' S h j).2.1 hj).1,
    fun j n hn => (C23_local_observed E w w' S h j).2.2 n hn.1 hn.2.2, ?_, h.hcur, h.bcur, ?_⟩
  · intro j
    by_cases hj : S j
    · rw [h.cut j hj]; rfl
    · rw [h.kept j hj]
  · rw [h.ctx, h.hcur]; exact hwf

theorem Weighted.of_global {E : Ext K} {w w' : BWorld K} {S : HitId → Prop}
    (h : GlobalCut w.hcur w w' S) : Weighted E w w' (fun j => S (w.hits j).trackId) := by
  refine ⟨fun j => (C23_global_observed E w w' S h j).1,
    fun j hj => ((C23_global_observed E w w' S h j).2.1 hj).1,
    fun j n hn => (C23_global_observed E w w' S h j).2.2 n hn.2.1 hn.2.2, ?_, h.hcur, h.bcur, ?_⟩
  · intro j; rw [h.hits]
  · rw [h.hcur]; exact h.wf

theorem Weighted.congr {E : Ext K} {w w' : BWorld K} {S S' : Nat → Prop} (h : Weighted E w w' S)
    (e : ∀ j, S j ↔ S' j) : Weighted E w w' S' := by
  have : S = S' := funext fun j => propext (e j)
  exact this ▸ h

theorem Weighted.comp {E : Ext K} {w w1 w2 : BWorld K} {S T : Nat → Prop} (h1 : Weighted E w w1 S)
    (h2 : Weighted E w1 w2 T) : Weighted E w w2 (fun j => S j ∨ T j) := by
  refine ⟨?_, ?_, fun j n hn => (h2.vars j n hn).trans (h1.vars j n hn),
    fun j => (h2.track j).trans (h1.track j), h2.hcur.trans h1.hcur, h2.bcur.trans h1.bcur, h2.wf⟩
  · intro j h
    by_cases ht : T j
    · exact h2.zero j ht
    · rw [h2.kept j ht, h1.zero j (h.resolve_right ht)]
  · intro j h
    rw [not_or] at h
    rw [h2.kept j h.2, h1.kept j h.1]

/-- One call. -/
theorem Call.run_ok (E : Ext K) (tol : K) (htol : 0 < tol) (htol1 : tol ≤ 1) (w : BWorld K)
    (hwf : (w.ctx w.hcur).WF) (s : Call K) (hs : Valid E w s) :
    ∃ w', s.run E tol w = (.ok (), w') ∧ Weighted E w w' (Rejects E w s) := by
  have row : ∀ t j, trackRow w t ≠ trackRow w j ↔ (w.hits t).trackId ≠ (w.hits j).trackId := by
    intro t j
    simp only [trackRow, Core.trackId, ne_eq, List.cons.injEq, HitId.mk.injEq, and_true]
    tauto
  cases s with
  | cut b comp g d =>
    obtain ⟨hb, hd⟩ := hs
    have hval : ∃ val : String → Nat → K, ∀ p ∈ d, ∀ i ∈ b.hits,
        Bunch.hitNum E w i p.1 = .ok (val p.1 i) := by
      refine ⟨fun n i => match Bunch.hitNum E w i n with | .ok x => x | .error _ => 0, ?_⟩
      intro p hp i hi
      obtain ⟨x, hx⟩ := (hd p hp).2 i hi
      simp only [hx]
    obtain ⟨val, hval⟩ := hval
    have hex : ∀ k ∈ b.hits, (∃ p ∈ d, comp (val p.1 k) p.2 = true) ↔
        ∃ p ∈ d, ∃ x, Bunch.hitNum E w k p.1 = .ok x ∧ comp x p.2 = true := by
      intro k hk
      constructor
      · rintro ⟨p, hp, h⟩; exact ⟨p, hp, _, hval p hp k hk, h⟩
      · rintro ⟨p, hp, x, hx, h⟩
        rw [hval p hp k hk, Except.ok.injEq] at hx
        exact ⟨p, hp, by rw [hx]; exact h⟩
    cases g with
    | false =>
      obtain ⟨w', h1, h2⟩ := C23_local_dict E b val comp d w hb
        (fun p hp => ⟨(hd p hp).1.1, (hd p hp).1.2.2⟩) hval
      refine ⟨w', h1, (Weighted.of_local hwf h2).congr ?_⟩
      intro j
      simp only [Rejects]
      constructor
      · rintro ⟨h, h'⟩; exact ⟨h, (hex j h).1 h'⟩
      · rintro ⟨h, h'⟩; exact ⟨h, (hex j h).2 h'⟩
    | true =>
      obtain ⟨w', h1, h2⟩ := C23_global_dict E b val comp d w hb hwf
        (fun p hp => ⟨(hd p hp).1.2.1, (hd p hp).1.2.2⟩) hval
      refine ⟨w', h1, (Weighted.of_global h2).congr ?_⟩
      intro j
      simp only [Rejects]
      constructor
      · rintro ⟨k, h, e, h'⟩; exact ⟨k, h, e, (hex k h).1 h'⟩
      · rintro ⟨k, h, e, h'⟩; exact ⟨k, h, e, (hex k h).2 h'⟩
  | transmission b test g =>
    cases g with
    | false =>
      obtain ⟨w', h1, h2⟩ := C26_default E tol htol htol1 test b w
      refine ⟨w', h1, (Weighted.of_local hwf h2).congr ?_⟩
      intro j
      simp only [Rejects, row]
    | true =>
      obtain ⟨w', h1, h2⟩ := C26_global_partial E tol htol htol1 test b
        ["spill", "event_number", "particle_number"] (by decide) w hwf (trackRow w) (fun _ => rfl)
        (fun _ _ => .cons rfl (.cons rfl (.cons rfl .nil)))
        (fun _ _ => .cons rfl (.cons rfl (.cons rfl .nil)))
      refine ⟨w', h1, (Weighted.of_global h2).congr ?_⟩
      intro j
      simp only [Rejects, row]
      constructor
      · rintro ⟨k, hk, e, h⟩
        exact ⟨⟨k, hk, e⟩, fun t ht => e ▸ h t ht⟩
      · rintro ⟨⟨k, hk, e⟩, h⟩
        exact ⟨k, hk, e, fun t ht => e ▸ h t ht⟩

/-- Cuts of other calls change neither which hits a call rejects nor whether it is valid. -/
theorem Rejects.congr {E : Ext K} {w w' : BWorld K} {S : Nat → Prop} (h : Weighted E w w' S)
    (s : Call K) (hs : Valid E w s) : Valid E w' s ∧ ∀ j, Rejects E w' s j ↔ Rejects E w s j := by
  cases s with
  | cut b comp g d =>
    obtain ⟨hb, hd⟩ := hs
    refine ⟨⟨⟨hb.sync, by rw [h.hcur, h.bcur, hb.ctx], hb.covs⟩, fun p hp => ⟨(hd p hp).1, ?_⟩⟩, ?_⟩
    · intro i hi
      rw [h.vars i p.1 (hd p hp).1]
      exact (hd p hp).2 i hi
    · intro j
      have hex : ∀ k, (∃ p ∈ d, ∃ x, Bunch.hitNum E w' k p.1 = .ok x ∧ comp x p.2 = true) ↔
          ∃ p ∈ d, ∃ x, Bunch.hitNum E w k p.1 = .ok x ∧ comp x p.2 = true := by
        intro k
        constructor
        · rintro ⟨p, hp, x, hx⟩
          rw [h.vars k p.1 (hd p hp).1] at hx
          exact ⟨p, hp, x, hx⟩
        · rintro ⟨p, hp, x, hx⟩
          rw [← h.vars k p.1 (hd p hp).1] at hx
          exact ⟨p, hp, x, hx⟩
      cases g <;> simp only [Rejects, h.track, hex]
  | transmission b test g =>
    refine ⟨trivial, fun j => ?_⟩
    cases g <;> simp only [Rejects, h.track]

/-- C114: after any sequence of cuts and transmission cuts, on any bunches, a hit has weight 0 if
one of them rejects it and the weight it had before otherwise. What is rejected is said in terms of
the state before the first cut; no variable but the weights has changed. -/
theorem C114_sequence (E : Ext K) (tol : K) (htol : 0 < tol) (htol1 : tol ≤ 1) (l : List (Call K)) :
    ∀ (w : BWorld K), (w.ctx w.hcur).WF → (∀ s ∈ l, Valid E w s) →
    ∃ w', runAll E tol l w = (.ok (), w') ∧
      (∀ j, ((∃ s ∈ l, Rejects E w s j) → w'.weight j = 0) ∧
        ((¬ ∃ s ∈ l, Rejects E w s j) → w'.weight j = w.weight j)) ∧
      (∀ j n, NotWeight n → Bunch.hitNum E w' j n = Bunch.hitNum E w j n) := by
  have main : ∀ (l : List (Call K)) (w : BWorld K), (w.ctx w.hcur).WF → (∀ s ∈ l, Valid E w s) →
      ∃ w', runAll E tol l w = (.ok (), w') ∧
        Weighted E w w' (fun j => ∃ s ∈ l, Rejects E w s j) := by
    intro l
    induction l with
    | nil =>
      intro w hwf _
      exact ⟨w, rfl, fun j h => by simp at h, fun _ _ => rfl, fun _ _ _ => rfl, fun _ => rfl, rfl,
        rfl, hwf⟩
    | cons s r ih =>
      intro w hwf hv
      obtain ⟨w1, h1, h2⟩ := Call.run_ok E tol htol htol1 w hwf s (hv s (by simp))
      obtain ⟨w', h3, h4⟩ := ih w1 h2.wf
        (fun t ht => (Rejects.congr h2 t (hv t (by simp [ht]))).1)
      refine ⟨w', by rw [runAll, h1]; exact h3, (h2.comp h4).congr ?_⟩
      intro j
      simp only [List.mem_cons, exists_eq_or_imp]
      refine or_congr Iff.rfl ?_
      constructor
      · rintro ⟨t, ht, h⟩
        exact ⟨t, ht, ((Rejects.congr h2 t (hv t (by simp [ht]))).2 j).1 h⟩
      · rintro ⟨t, ht, h⟩
        exact ⟨t, ht, ((Rejects.congr h2 t (hv t (by simp [ht]))).2 j).2 h⟩
  intro w hwf hv
  obtain ⟨w', h1, h2⟩ := main l w hwf hv
  exact ⟨w', h1, fun j => ⟨h2.zero j, h2.kept j⟩, h2.vars⟩

/-- C114: two sequences made of the same calls, in any order and with any repetitions, give every
hit of every bunch the same weight and the same value of every other variable. -/
theorem C114_order (E : Ext K) (tol : K) (htol : 0 < tol) (htol1 : tol ≤ 1) (l l' : List (Call K))
    (hl : ∀ s, s ∈ l ↔ s ∈ l') (w : BWorld K) (hwf : (w.ctx w.hcur).WF)
    (hv : ∀ s ∈ l, Valid E w s) :
    ∃ w1 w2, runAll E tol l w = (.ok (), w1) ∧ runAll E tol l' w = (.ok (), w2) ∧
      (∀ j, w1.weight j = w2.weight j) ∧
      (∀ b : Bunch K, Bunch.bunchWeight w1 b = Bunch.bunchWeight w2 b) ∧
      (∀ j n, NotWeight n → Bunch.hitNum E w1 j n = Bunch.hitNum E w2 j n) := by
  obtain ⟨w1, h1, a1, b1⟩ := C114_sequence E tol htol htol1 l w hwf hv
  obtain ⟨w2, h2, a2, b2⟩ := C114_sequence E tol htol htol1 l' w hwf
    (fun s hs => hv s ((hl s).2 hs))
  have hw : ∀ j, w1.weight j = w2.weight j := by
    intro j
    by_cases h : ∃ s ∈ l, Rejects E w s j
    · have h' : ∃ s ∈ l', Rejects E w s j := by
        obtain ⟨s, hs, hr⟩ := h
        exact ⟨s, (hl s).1 hs, hr⟩
      rw [(a1 j).1 h, (a2 j).1 h']
    · have h' : ¬ ∃ s ∈ l', Rejects E w s j := by
        rintro ⟨s, hs, hr⟩
        exact h ⟨s, (hl s).2 hs, hr⟩
      rw [(a1 j).2 h, (a2 j).2 h']
  refine ⟨w1, w2, h1, h2, hw, ?_, fun j n hn => (b1 j n hn).trans (b2 j n hn).symm⟩
  intro b
  rw [Bunch.bunchWeight_eq, Bunch.bunchWeight_eq]
  congr 1
  exact List.map_congr_left (fun j _ => hw j)

/-- C114: the transmission, that is the weight of a bunch after the cuts, is the weight that the
hits no cut rejects had before. -/
theorem C114_transmission (E : Ext K) (tol : K) (htol : 0 < tol) (htol1 : tol ≤ 1)
    (l : List (Call K)) (w : BWorld K) (hwf : (w.ctx w.hcur).WF) (hv : ∀ s ∈ l, Valid E w s)
    (b : Bunch K) (p : Nat → Bool)
    (hp : ∀ j ∈ b.hits, p j = true ↔ ¬ ∃ s ∈ l, Rejects E w s j) :
    ∃ w', runAll E tol l w = (.ok (), w') ∧
      Bunch.bunchWeight w' b = ((b.hits.filter p).map w.weight).sum := by
  obtain ⟨w', h1, h2, _⟩ := C114_sequence E tol htol htol1 l w hwf hv
  refine ⟨w', h1, ?_⟩
  rw [Bunch.bunchWeight_eq]
  have : ∀ m : List Nat, (∀ j ∈ m, p j = true ↔ ¬ ∃ s ∈ l, Rejects E w s j) →
      (m.map w'.weight).sum = ((m.filter p).map w.weight).sum := by
    intro m
    induction m with
    | nil => intro _; rfl
    | cons j r ih =>
      intro hm
      have ih := ih (fun k hk => hm k (by simp [hk]))
      by_cases hj : p j = true
      · simp [hj, (h2 j).2 ((hm j (by simp)).1 hj), ih]
      · have hr : ∃ s ∈ l, Rejects E w s j := by
          by_contra hc
          exact hj ((hm j (by simp)).2 hc)
        simp [hj, (h2 j).1 hr, ih]
  exact this b.hits hp

/-- C114 needs the variables not to be weights: cutting hit 1 locally and then every track with a
hit of weight 0 leaves nothing, the other way round leaves hit 0. -/
theorem C114_weights_differ :
    let c1 : Call ℚ := .cut exBunch (fun a b => decide (b ≤ a)) false [("x", 1)]
    let c2 : Call ℚ := .cut exBunch (fun a b => decide (a = b)) true [("weight", 0)]
    Bunch.bunchWeight (runAll ratExt (1 / 1000000000) [c1, c2] exWorld).2 exBunch = 0 ∧
    Bunch.bunchWeight (runAll ratExt (1 / 1000000000) [c2, c1] exWorld).2 exBunch = 1 := by
  decide +kernel

/-! ### non-vacuity -/

/-- Five hits of weight 1 at x = 0, 1, 2, 3, 4 and y = 0, 2, 4, 6, 8; hits 3 and 4 are further hits
of the tracks of hits 0 and 1. -/
def fiveWorld : BWorld ℚ :=
  { hits := fun i => ⟨fun v => match v with
      | .x => i | .y => 2 * i | .local_weight => 1 | _ => 0,
      fun v => match v with | .event => (i % 3 : Nat) | _ => 0⟩
    ctx := fun _ => WC.new, hcur := 0, bcur := 0, geo := false }

/-- The bunch upstream. -/
def upBunch : Bunch ℚ := ⟨[0, 1, 2], [some 0, some 1, some 2], none, []⟩
/-- The bunch downstream, which the track of hit 2 does not reach. -/
def downBunch : Bunch ℚ := ⟨[3, 4], [some 3, some 4], none, []⟩

/-- A local cut, a global cut and a transmission cut. -/
def threeCalls : List (Call ℚ) :=
  [.cut downBunch (fun a b => decide (b ≤ a)) false [("x", 4), ("y", 10)],
   .cut upBunch (fun a b => decide (a < b)) true [("x", 1)],
   .transmission upBunch downBunch false]

example : (fiveWorld.ctx fiveWorld.hcur).WF ∧ ∀ s ∈ threeCalls, Valid ratExt fiveWorld s := by
  refine ⟨WC.WF.new, ?_⟩
  have hx : ∀ i, Bunch.hitNum ratExt fiveWorld i "x" = .ok (i : ℚ) := fun i => rfl
  have hy : ∀ i, Bunch.hitNum ratExt fiveWorld i "y" = .ok (2 * (i : ℚ)) := fun i => rfl
  have nx : NotWeight "x" := by unfold NotWeight; decide
  have ny : NotWeight "y" := by unfold NotWeight; decide
  intro s hs
  simp only [threeCalls, List.mem_cons, List.not_mem_nil, or_false] at hs
  rcases hs with rfl | rfl | rfl
  · refine ⟨⟨rfl, rfl, rfl⟩, ?_⟩
    intro p hp
    simp only [List.mem_cons, List.not_mem_nil, or_false] at hp
    rcases hp with rfl | rfl
    · exact ⟨nx, fun i _ => ⟨_, hx i⟩⟩
    · exact ⟨ny, fun i _ => ⟨_, hy i⟩⟩
  · refine ⟨⟨rfl, rfl, rfl⟩, ?_⟩
    intro p hp
    simp only [List.mem_cons, List.not_mem_nil, or_false] at hp
    subst hp
    exact ⟨nx, fun i _ => ⟨_, hx i⟩⟩
  · trivial

/-- Of the five hits only hit 1 is left, in whatever order. -/
example : ((List.range 5).map (runAll ratExt (1 / 1000000000) threeCalls fiveWorld).2.weight
      = [0, 1, 0, 0, 0]) ∧
    ((List.range 5).map (runAll ratExt (1 / 1000000000) threeCalls.reverse fiveWorld).2.weight
      = [0, 1, 0, 0, 0]) := by
  decide +kernel

end Xboa.CutSequences
