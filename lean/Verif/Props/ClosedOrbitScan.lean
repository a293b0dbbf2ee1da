import Verif.Model.ClosedOrbit
import Verif.Props.FFTTune
import Mathlib.Data.List.Chain
import Mathlib.Tactic.Linarith
/-
C81: EllipseClosedOrbitFinder.scan_generator.
-/
set_option linter.unusedSectionVars false
namespace Xboa
namespace ClosedOrbit
variable {K : Type} [Field K] [LinearOrder K] [IsStrictOrderedRing K] {H : Type}

/-! ### Specification -/

/-- The values that one variable takes: start, start + size, ... while below the end. -/
def axisValues (a : Axis K) (n : Nat) : List K := (List.range n).map fun i : Nat => a.first + (i : K) * a.size

/-- All points of the scan, the last variable running fastest. -/
def gridPoints : List (Axis K × Nat) → List (List K)
  | [] => [[]]
  | (a, n) :: r => (axisValues a n).flatMap fun v => (gridPoints r).map fun g => v :: g

/-- `n` steps of the variable are below its end and the next one is at or beyond it. -/
def Counts (a : Axis K) (n : Nat) : Prop :=
  (∀ i < n, a.first + (i : K) * a.size < a.last) ∧ a.last ≤ a.first + (n : K) * a.size

/-- What the scan relies on: the variables `keys` of a hit can be set and read independently of each
other, and hits can be tracked. -/
structure Settable (B : Beam H K) (keys : List String) : Prop where
  set_ok : ∀ h, ∀ k ∈ keys, ∀ v, ∃ h', B.set h k v = .ok h'
  get_set : ∀ h k v h', k ∈ keys → B.set h k v = .ok h' → B.get h' k = .ok v
  get_other : ∀ h k k' v h', k ∈ keys → k' ∈ keys → k ≠ k' → B.set h k v = .ok h' →
    B.get h' k' = B.get h k'
  get_ok : ∀ h, ∀ k ∈ keys, ∃ v, B.get h k = .ok v
  track_ok : ∀ h, ∃ t, B.track h = .ok t

/-! ### Proofs -/

theorem axisValues_succ (a : Axis K) (n : Nat) :
    axisValues a (n + 1) = a.first :: axisValues { a with first := a.first + a.size } n := by
  unfold axisValues
  rw [List.range_succ_eq_map, List.map_cons, List.map_map]
  congr 1
  · simp
  · apply List.map_congr_left
    intro i _
    simp only [Function.comp]
    push_cast
    ring

/-- the relation between a step and the next one, and the state after the last -/
structure Odometer (G : List (List K)) (adv : List K → List K × Bool) (ini : List K) : Prop where
  head : G.head? = some ini
  chain : G.IsChain fun x y => adv x = (y, false)
  last : ∀ x, G.getLast? = some x → adv x = (ini, true)

theorem block_chain (a : Axis K) (r : List (Axis K)) (G : List (List K)) (ini : List K)
    (hG : Odometer G (advance r) ini) (x : K) :
    (G.map fun g => x :: g).IsChain fun u v => advance (a :: r) u = (v, false) := by
  rw [List.isChain_map]
  refine hG.chain.imp ?_
  intro u v h
  simp [advance, h]

theorem odometer_from (a : Axis K) (r : List (Axis K)) (G : List (List K)) (ini : List K)
    (hG : Odometer G (advance r) ini) : ∀ (n : Nat) (b : Axis K), b.size = a.size →
    b.last = a.last → 0 < n → (∀ i < n, b.first + (i : K) * b.size < b.last) →
    b.last < b.first + (n : K) * b.size →
    ((axisValues b n).flatMap fun v => G.map fun g => v :: g).head? = some (b.first :: ini) ∧
    ((axisValues b n).flatMap fun v => G.map fun g => v :: g).IsChain
      (fun u v => advance (a :: r) u = (v, false)) ∧
    ∀ x, ((axisValues b n).flatMap fun v => G.map fun g => v :: g).getLast? = some x →
      advance (a :: r) x = (a.first :: ini, true)
  | 0, _, _, _, h, _, _ => absurd h (by omega)
  | 1, b, hs, hl, _, h1, h2 => by
    have hv : axisValues b 1 = [b.first] := by simp [axisValues]
    rw [hv]
    simp only [List.flatMap_cons, List.flatMap_nil, List.append_nil]
    refine ⟨by simp [hG.head], block_chain a r G ini hG b.first, ?_⟩
    intro x hx
    rw [List.getLast?_map, Option.map_eq_some_iff] at hx
    obtain ⟨g, hg, rfl⟩ := hx
    have := hG.last g hg
    simp only [advance, this]
    rw [if_pos]
    rw [← hs, ← hl]
    simpa using h2
  | n + 2, b, hs, hl, _, h1, h2 => by
    rw [axisValues_succ, List.flatMap_cons]
    obtain ⟨i1, i2, i3⟩ := odometer_from a r G ini hG (n + 1) { b with first := b.first + b.size } hs hl
      (by omega) (fun i hi => by
        have := h1 (i + 1) (by omega)
        push_cast at this
        show b.first + b.size + (i : K) * b.size < b.last
        linarith) (by
        show b.last < b.first + b.size + ((n + 1 : Nat) : K) * b.size
        push_cast at h2 ⊢
        linarith)
    have hne : G ≠ [] := by
      intro h
      have := hG.head
      simp [h] at this
    refine ⟨?_, ?_, ?_⟩
    · rw [List.head?_append_of_ne_nil _ (by simpa using hne)]
      simp [hG.head]
    · rw [List.isChain_append]
      refine ⟨block_chain a r G ini hG b.first, i2, ?_⟩
      intro u hu v hv
      rw [Option.mem_def] at hu hv
      rw [i1] at hv
      cases hv
      rw [List.getLast?_map, Option.map_eq_some_iff] at hu
      obtain ⟨g, hg, rfl⟩ := hu
      have := hG.last g hg
      simp only [advance, this]
      rw [if_neg, hs]
      have := h1 1 (by omega)
      push_cast at this
      rw [← hs, ← hl]
      exact not_lt.mpr (by linarith)
    · intro x hx
      apply i3
      have hne2 : ((axisValues { b with first := b.first + b.size } (n + 1)).flatMap fun v =>
          G.map fun g => v :: g) ≠ [] := by
        intro h
        rw [h] at i1
        cases i1
      rw [List.getLast?_append_of_ne_nil _ hne2] at hx
      exact hx

theorem odometer_grid : ∀ (l : List (Axis K × Nat)),
    (∀ p ∈ l, 0 < p.2 ∧ (∀ i < p.2, p.1.first + (i : K) * p.1.size < p.1.last) ∧
      p.1.last < p.1.first + (p.2 : K) * p.1.size) →
    Odometer (gridPoints l) (advance (l.map (·.1))) (l.map (·.1.first))
  | [], _ => ⟨rfl, by simp [gridPoints], by intro x hx; rfl⟩
  | (a, n) :: r, h => by
    have ih := odometer_grid r fun p hp => h p (by simp [hp])
    obtain ⟨h0, h1, h2⟩ := h (a, n) (by simp)
    obtain ⟨i1, i2, i3⟩ := odometer_from a (r.map (·.1)) _ _ ih n a rfl rfl h0 h1 h2
    exact ⟨i1, i2, i3⟩

/-- the whole scan, with the first variable -/
theorem next_from (a : Axis K) (r : List (Axis K)) (G : List (List K)) (ini : List K)
    (hG : Odometer G (advance r) ini) : ∀ (n : Nat) (b : Axis K), b.size = a.size → 0 < n →
    ((axisValues b n).flatMap fun v => G.map fun g => v :: g).head? = some (b.first :: ini) ∧
    ((axisValues b n).flatMap fun v => G.map fun g => v :: g).IsChain
      (fun u v => nextStep (a :: r) u = v) ∧
    ∀ x, ((axisValues b n).flatMap fun v => G.map fun g => v :: g).getLast? = some x →
      nextStep (a :: r) x = (b.first + (n : K) * b.size) :: ini
  | 0, _, _, h => absurd h (by omega)
  | n + 1, b, hs, _ => by
    have hne : G ≠ [] := by
      intro h
      have := hG.head
      simp [h] at this
    have hblock : ∀ x : K, (G.map fun g => x :: g).IsChain fun u v => nextStep (a :: r) u = v := by
      intro x
      rw [List.isChain_map]
      refine hG.chain.imp ?_
      intro u v h
      simp [nextStep, h]
    have hend : ∀ x, (G.map fun g => b.first :: g).getLast? = some x →
        nextStep (a :: r) x = (b.first + b.size) :: ini := by
      intro x hx
      rw [List.getLast?_map, Option.map_eq_some_iff] at hx
      obtain ⟨g, hg, rfl⟩ := hx
      have := hG.last g hg
      simp only [nextStep, this, hs]
    rw [axisValues_succ, List.flatMap_cons]
    by_cases hn : n = 0
    · subst hn
      simp only [axisValues, List.range_zero, List.map_nil, List.flatMap_nil, List.append_nil]
      refine ⟨by simp [hG.head], hblock _, fun x hx => ?_⟩
      rw [hend x hx]
      simp
    · obtain ⟨i1, i2, i3⟩ := next_from a r G ini hG n { b with first := b.first + b.size } hs
        (by omega)
      refine ⟨?_, ?_, ?_⟩
      · rw [List.head?_append_of_ne_nil _ (by simpa using hne)]
        simp [hG.head]
      · rw [List.isChain_append]
        refine ⟨hblock _, i2, ?_⟩
        intro u hu v hv
        rw [Option.mem_def] at hu hv
        rw [i1] at hv
        cases hv
        exact hend u hu
      · intro x hx
        have hne2 : ((axisValues { b with first := b.first + b.size } n).flatMap fun v =>
            G.map fun g => v :: g) ≠ [] := by
          intro h
          rw [h] at i1
          cases i1
        rw [List.getLast?_append_of_ne_nil _ hne2] at hx
        rw [i3 x hx]
        push_cast
        congr 1
        ring

theorem setStep_ok (B : Beam H K) (keys : List String) (hB : Settable B keys) :
    ∀ (axes : List (Axis K)) (g : List K) (h : H), (∀ a ∈ axes, a.key ∈ keys) →
    (axes.map (·.key)).Nodup → List.Forall₂ (fun a x => x < a.last) axes g →
    ∃ h', setStep B (axes.zip g) h = .ok h' ∧
      (∀ k ∈ keys, k ∉ axes.map (·.key) → B.get h' k = B.get h k) ∧
      values B (axes.map (·.key)) h' = .ok g
  | [], _, h, _, _, .nil => ⟨h, rfl, fun _ _ _ => rfl, rfl⟩
  | a :: axes, x :: g, h, hk, hn, .cons hx hg => by
    have ha : a.key ∈ keys := hk a (by simp)
    obtain ⟨h1, e1⟩ := hB.set_ok h a.key ha x
    simp only [List.map_cons, List.nodup_cons] at hn
    obtain ⟨h', e2, e3, e4⟩ := setStep_ok B keys hB axes g h1 (fun b hb => hk b (by simp [hb])) hn.2 hg
    refine ⟨h', ?_, ?_, ?_⟩
    · rw [List.zip_cons_cons]
      unfold setStep
      rw [if_neg (not_le.mpr hx), e1]
      exact e2
    · intro k hk1 hk2
      simp only [List.map_cons, List.mem_cons, not_or] at hk2
      rw [e3 k hk1 hk2.2, hB.get_other h a.key k x h1 ha hk1 (fun e => hk2.1 e.symm) e1]
    · rw [List.map_cons]
      unfold values at e4 ⊢
      unfold FFTTune.mapErr
      rw [e3 a.key ha hn.1, hB.get_set h a.key x h1 ha e1]
      simp only [e4]

theorem scanLoop_grid (B : Beam H K) (axes : List (Axis K)) (hne : axes ≠ [])
    (hB : Settable B (axes.map (·.key))) (hn : (axes.map (·.key)).Nodup) :
    ∀ (G : List (List K)) (g : List K) (m : Nat) (h : H),
      ((g :: G).IsChain fun u v => nextStep axes u = v) →
      (∀ u ∈ g :: G, List.Forall₂ (fun a x => x < a.last) axes u) →
      (∀ x, (g :: G).getLast? = some x → ∀ h, setStep B (axes.zip (nextStep axes x)) h =
        .error .RuntimeError) →
      G.length + 1 < m →
      (scanLoop B axes m h g).2 = some .RuntimeError ∧
      List.Forall₂ (fun (p : H × List (List K)) u => values B (axes.map (·.key)) p.1 = .ok u ∧
        ∃ t, B.track p.1 = .ok t ∧ List.Forall₂ (fun h x => values B (axes.map (·.key)) h = .ok x) t p.2)
        (scanLoop B axes m h g).1 (g :: G)
  | G, g, 0, h, _, _, _, hm => absurd hm (by omega)
  | G, g, m + 1, h, hc, hlt, hl, hm => by
    obtain ⟨h', e1, _, e2⟩ := setStep_ok B _ hB axes g h (fun a ha => by simp; exact ⟨a, ha, rfl⟩) hn
      (hlt g (by simp))
    obtain ⟨t, ht⟩ := hB.track_ok h'
    have hval : ∀ h, ∃ x, values B (axes.map (·.key)) h = .ok x := fun h =>
      FFTTune.mapErr_total _ fun k hk => hB.get_ok h k hk
    obtain ⟨xs, hxs⟩ := FFTTune.mapErr_total (f := values B (axes.map (·.key))) t fun h _ => hval h
    have hstep : scanLoop B axes (m + 1) h g =
        ((h', xs) :: (scanLoop B axes m h' (nextStep axes g)).1,
          (scanLoop B axes m h' (nextStep axes g)).2) := by
      rw [scanLoop]
      simp only [e1, ht, hxs, if_neg hne]
    rw [hstep]
    have hfirst : values B (axes.map (·.key)) h' = .ok g ∧ ∃ t, B.track h' = .ok t ∧
        List.Forall₂ (fun h x => values B (axes.map (·.key)) h = .ok x) t xs :=
      ⟨e2, t, ht, FFTTune.mapErr_ok.mp hxs⟩
    cases G with
    | nil =>
      have := hl g (by simp) h'
      obtain ⟨m, rfl⟩ : ∃ k, m = k + 1 := ⟨m - 1, by simp at hm; omega⟩
      have h0 : scanLoop B axes (m + 1) h' (nextStep axes g) = ([], some .RuntimeError) := by
        rw [scanLoop]
        simp only [this]
      rw [h0]
      exact ⟨rfl, .cons hfirst .nil⟩
    | cons g2 G =>
      rw [List.isChain_cons_cons] at hc
      obtain ⟨i1, i2⟩ := scanLoop_grid B axes hne hB hn G g2 m h' hc.2
        (fun u hu => hlt u (by simp only [List.mem_cons] at hu ⊢; exact Or.inr hu))
        (fun x hx => hl x (by rw [List.getLast?_cons_cons]; exact hx)) (by simp at hm; omega)
      rw [hc.1]
      exact ⟨i1, .cons hfirst i2⟩

theorem grid_lt : ∀ (l : List (Axis K × Nat)),
    (∀ p ∈ l, ∀ i < p.2, p.1.first + (i : K) * p.1.size < p.1.last) → ∀ u ∈ gridPoints l,
    List.Forall₂ (fun (a : Axis K) x => x < a.last) (l.map (·.1)) u
  | [], _, u, hu => by
    simp [gridPoints] at hu
    subst hu
    exact .nil
  | (a, n) :: r, h, u, hu => by
    simp only [gridPoints, List.mem_flatMap, List.mem_map, axisValues, List.mem_range] at hu
    obtain ⟨v, ⟨i, hi, rfl⟩, g, hg, rfl⟩ := hu
    exact .cons (h (a, n) (by simp) i hi) (grid_lt r (fun p hp => h p (by simp [hp])) g hg)

/-- C81, partial.  For all variables with a start, end and step size, `n` of whose steps are below
the end, where no variable but the first reaches its end exactly: the scan tracks one hit for each
point of the grid in order, with its variables at that point, yields the points of the tracked hits,
and then raises RuntimeError.  Missing: ends that are reached exactly (C81_exact_false), and a normal
end of the generator. -/
theorem C81_partial (B : Beam H K) (seed : H) (a : Axis K) (n : Nat) (rest : List (Axis K × Nat))
    (hB : Settable B (a.key :: rest.map (·.1.key))) (hnd : (a.key :: rest.map (·.1.key)).Nodup)
    (hn : 0 < n) (ha : Counts a n)
    (hr : ∀ p ∈ rest, 0 < p.2 ∧ Counts p.1 p.2 ∧ p.1.last ≠ p.1.first + (p.2 : K) * p.1.size)
    (m : Nat) (hm : (gridPoints ((a, n) :: rest)).length < m) :
    (scan B seed (a :: rest.map (·.1)) m).2 = some .RuntimeError ∧
    List.Forall₂ (fun (p : H × List (List K)) g =>
        values B (a.key :: rest.map (·.1.key)) p.1 = .ok g ∧
        ∃ t, B.track p.1 = .ok t ∧
          List.Forall₂ (fun h x => values B (a.key :: rest.map (·.1.key)) h = .ok x) t p.2)
      (scan B seed (a :: rest.map (·.1)) m).1 (gridPoints ((a, n) :: rest)) := by
  have hodo := odometer_grid rest fun p hp => ⟨(hr p hp).1, (hr p hp).2.1.1,
    lt_of_le_of_ne (hr p hp).2.1.2 (hr p hp).2.2⟩
  obtain ⟨i1, i2, i3⟩ := next_from a (rest.map (·.1)) _ _ hodo n a rfl hn
  have hkeys : (a :: rest.map (·.1)).map (·.key) = a.key :: rest.map (·.1.key) := by
    simp [Function.comp_def]
  cases hG : gridPoints ((a, n) :: rest) with
  | nil =>
    simp only [gridPoints] at hG
    rw [hG] at i1
    cases i1
  | cons g G =>
    have hg : g = (a :: rest.map (·.1)).map (·.first) := by
      have h := hG
      simp only [gridPoints] at h
      rw [h] at i1
      simp only [List.head?_cons, Option.some.injEq] at i1
      rw [i1]
      simp [Function.comp_def]
    have hlt := grid_lt ((a, n) :: rest) (by
      intro p hp
      rcases List.mem_cons.mp hp with rfl | hp
      · exact ha.1
      · exact (hr p hp).2.1.1)
    rw [hG] at hlt hm
    have h := hG
    simp only [gridPoints] at h
    rw [h] at i2 i3
    have := scanLoop_grid B (a :: rest.map (·.1)) (by simp) (by rw [hkeys]; exact hB)
      (by rw [hkeys]; exact hnd) G g m seed i2 (by simpa using hlt) (by
        intro x hx h
        rw [i3 x hx, List.zip_cons_cons]
        unfold setStep
        rw [if_pos ha.2]) (by simpa using hm)
    unfold scan
    rw [← hg]
    rw [hkeys] at this
    exact this

/-! ### What is false -/

/-- hits with two numbers; tracking returns the hit and a rotated one -/
def exBeam : Beam (ℚ × ℚ) ℚ where
  get h k := if k = "px" then .ok h.2 else if k = "x" then .ok h.1 else .error .KeyError
  set h k v := if k = "px" then .ok (h.1, v) else if k = "x" then .ok (v, h.2) else .error .KeyError
  eq h h' := decide (h = h')
  track h := .ok [h, (h.2, -h.1)]

theorem exBeam_settable : Settable exBeam ["px", "x"] where
  set_ok h k hk v := by
    simp only [List.mem_cons, List.not_mem_nil, or_false] at hk
    rcases hk with rfl | rfl <;> simp [exBeam]
  get_set h k v h' hk e := by
    simp only [List.mem_cons, List.not_mem_nil, or_false] at hk
    rcases hk with rfl | rfl <;> simp [exBeam] at e ⊢ <;> rw [← e]
  get_other h k k' v h' hk hk' hne e := by
    simp only [List.mem_cons, List.not_mem_nil, or_false] at hk hk'
    rcases hk with rfl | rfl <;> rcases hk' with rfl | rfl <;> simp [exBeam] at hne e ⊢ <;> rw [← e]
  get_ok h k hk := by
    simp only [List.mem_cons, List.not_mem_nil, or_false] at hk
    rcases hk with rfl | rfl <;> simp [exBeam]
  track_ok h := ⟨_, rfl⟩

/-- the case of the example below: px from 0 to 2 in steps of 1, x from 0 to 3/2 -/
example : (scan exBeam (9, 9) [⟨"px", 0, 2, 1⟩, ⟨"x", 0, 3 / 2, 1⟩] 100).2 = some .RuntimeError ∧
    (scan exBeam (9, 9) [⟨"px", 0, 2, 1⟩, ⟨"x", 0, 3 / 2, 1⟩] 100).1.length = 4 := by
  obtain ⟨h1, h2⟩ := C81_partial exBeam (9, 9) ⟨"px", 0, 2, 1⟩ 2 [(⟨"x", 0, 3 / 2, 1⟩, 2)]
    exBeam_settable (by decide) (by norm_num)
    ⟨fun i hi => by interval_cases i <;> norm_num, by norm_num⟩
    (by
      intro p hp
      simp only [List.mem_cons, List.not_mem_nil, or_false] at hp
      subst hp
      exact ⟨by norm_num, ⟨fun i hi => by interval_cases i <;> norm_num, by norm_num⟩, by norm_num⟩)
    100 (by decide +kernel)
  refine ⟨h1, ?_⟩
  have := h2.length_eq
  simp only [List.map_cons, List.map_nil] at this
  rw [this]
  decide +kernel

/-- C81 is false when the end of a variable is a whole number of steps from its start: with px and x
from 0 to 2 in steps of 1 the grid has four points below the ends, and the scan stops with
RuntimeError after the two with px = 0. -/
theorem C81_exact_false :
    gridPoints [((⟨"px", 0, 2, 1⟩ : Axis ℚ), 2), (⟨"x", 0, 2, 1⟩, 2)] =
      [[0, 0], [0, 1], [1, 0], [1, 1]] ∧
    (∀ a ∈ [(⟨"px", 0, 2, 1⟩ : Axis ℚ), ⟨"x", 0, 2, 1⟩], Counts a 2) ∧
    ∀ m, 2 < m → ((scan exBeam (9, 9) [⟨"px", 0, 2, 1⟩, ⟨"x", 0, 2, 1⟩] m).1.map (·.1) =
        [(0, 0), (1, 0)] ∧
      (scan exBeam (9, 9) [⟨"px", 0, 2, 1⟩, ⟨"x", 0, 2, 1⟩] m).2 = some .RuntimeError) := by
  refine ⟨by decide +kernel, ?_, ?_⟩
  · intro a ha
    simp only [List.mem_cons, List.not_mem_nil, or_false] at ha
    rcases ha with rfl | rfl <;>
      exact ⟨fun i hi => by interval_cases i <;> norm_num, by norm_num⟩
  · intro m hm
    obtain ⟨k, rfl⟩ : ∃ k, m = k + 3 := ⟨m - 3, by omega⟩
    unfold scan
    have e1 : setStep exBeam ([(⟨"px", 0, 2, 1⟩ : Axis ℚ), ⟨"x", 0, 2, 1⟩].zip [0, 0]) (9, 9) =
      .ok (0, 0) := by decide +kernel
    have e2 : setStep exBeam ([(⟨"px", 0, 2, 1⟩ : Axis ℚ), ⟨"x", 0, 2, 1⟩].zip [0, 1]) (0, 0) =
      .ok (1, 0) := by decide +kernel
    have e3 : setStep exBeam ([(⟨"px", 0, 2, 1⟩ : Axis ℚ), ⟨"x", 0, 2, 1⟩].zip [0, 2]) (1, 0) =
      .error .RuntimeError := by decide +kernel
    have n1 : nextStep [(⟨"px", 0, 2, 1⟩ : Axis ℚ), ⟨"x", 0, 2, 1⟩] [0, 0] = [0, 1] := by decide +kernel
    have n2 : nextStep [(⟨"px", 0, 2, 1⟩ : Axis ℚ), ⟨"x", 0, 2, 1⟩] [0, 1] = [0, 2] := by decide +kernel
    have v : ∀ h : ℚ × ℚ, values exBeam ["px", "x"] h = .ok [h.2, h.1] := fun h => rfl
    have t : ∀ h : ℚ × ℚ, exBeam.track h = .ok [h, (h.2, -h.1)] := fun h => rfl
    simp only [List.map_cons, List.map_nil]
    rw [scanLoop, e1]
    simp only [t, List.map_cons, List.map_nil, FFTTune.mapErr, v, n1]
    rw [scanLoop, e2]
    simp only [t, List.map_cons, List.map_nil, FFTTune.mapErr, v, n2]
    rw [scanLoop, e3]
    simp

/-- C81, for all hits and trackings: with an empty set of variables the scan, which has one point,
yields it and then raises IndexError. -/
theorem C81_no_variables (B : Beam H K) (seed : H) (t : List H) (ht : B.track seed = .ok t) (m : Nat)
    (hm : 0 < m) : (scan B seed ([] : List (Axis K)) m) =
      ([(seed, t.map fun _ => [])], some .IndexError) := by
  obtain ⟨m, rfl⟩ : ∃ k, m = k + 1 := ⟨m - 1, by omega⟩
  have hv : FFTTune.mapErr (values B []) t = .ok (t.map fun _ => []) := by
    rw [FFTTune.mapErr_ok]
    clear ht
    induction t with
    | nil => exact .nil
    | cons a r ih => exact .cons rfl ih
  unfold scan scanLoop
  simp [setStep, ht, hv]

end ClosedOrbit
end Xboa
