import Verif.Props.ClosedOrbit
import Mathlib.Algebra.Order.Archimedean.Basic
import Mathlib.Tactic.IntervalCases
/-
C115: on a linear lattice the closed orbit finder converges: every iteration brings the centre
nearer to the closed orbit by a factor that falls with the number of points.
-/
set_option linter.unusedSectionVars false
namespace Xboa
namespace ClosedOrbit
variable {K : Type} [Field K] [LinearOrder K] [IsStrictOrderedRing K] {H : Type}

/-! ### Specification -/

/-- The distance from the closed orbit `c`, variable by variable. -/
def dev {d : Nat} (c : Fin d → K) (x : List K) : Fin d → K := fun i => x.getD i 0 - c i

/-- `xs` are the positions on the turns that follow `x`: one turn is x -> c + M (x - c). -/
def Turns {d : Nat} (c : Fin d → K) (M : Matrix (Fin d) (Fin d) K) : List K → List (List K) → Prop
  | _, [] => True
  | x, y :: r => dev c y = M.mulVec (dev c x) ∧ Turns c M y r

/-- A linear lattice with closed orbit `c` and one-turn matrix `M`: tracking a hit returns the hit
followed by its positions on any number of successive turns, and variables that have been set are
read back. -/
structure LinearLattice (B : Beam H K) (keys : List String) (c : Fin keys.length → K)
    (M : Matrix (Fin keys.length) (Fin keys.length) K) : Prop where
  turns : ∀ h t x, B.track h = .ok t → values B keys h = .ok x →
    ∃ xs, List.Forall₂ (fun g y => values B keys g = .ok y) (t.drop 1) xs ∧ Turns c M x xs
  set : ∀ h h' x, x.length = keys.length → setAll B (keys.zip x) h = .ok h' →
    values B keys h' = .ok x

/-- No component is above `R` in size. -/
def Within {d : Nat} (R : K) (v : Fin d → K) : Prop := ∀ i, |v i| ≤ R

/-- The motion is stable: no number of turns makes a distance more than `r` times larger; and the
closed orbit is the only one: a distance is at most `g` times its change in one turn. -/
structure Stable {d : Nat} (M : Matrix (Fin d) (Fin d) K) (r g : K) : Prop where
  bounded : ∀ (k : Nat) (v : Fin d → K) (R : K), Within R v → Within (r * R) ((M ^ k).mulVec v)
  only : ∀ (v : Fin d → K) (R : K), Within R ((M - 1).mulVec v) → Within (g * R) v

/-! ### The sum over the turns -/

/-- sum of the distances -/
def devSum {d : Nat} (c : Fin d → K) (xs : List (List K)) : Fin d → K :=
  fun i => (xs.map fun x => dev c x i).sum

theorem devSum_cons {d : Nat} (c : Fin d → K) (x : List K) (xs : List (List K)) :
    devSum c (x :: xs) = dev c x + devSum c xs := by
  funext i
  simp [devSum]

theorem turns_sum {d : Nat} (c : Fin d → K) (M : Matrix (Fin d) (Fin d) K) :
    ∀ (xs : List (List K)) (x : List K), Turns c M x xs →
      (M - 1).mulVec (devSum c xs) =
        (M ^ (xs.length + 1)).mulVec (dev c x) - M.mulVec (dev c x)
  | [], x, _ => by
    have : devSum c ([] : List (List K)) = 0 := by funext i; simp [devSum]
    rw [this, Matrix.mulVec_zero]
    simp
  | y :: r, x, h => by
    obtain ⟨h1, h2⟩ := h
    rw [devSum_cons, Matrix.mulVec_add, turns_sum c M r y h2, h1, Matrix.sub_mulVec,
      Matrix.one_mulVec, List.length_cons, pow_succ M (r.length + 1), ← Matrix.mulVec_mulVec]
    abel

theorem turns_append {d : Nat} (c : Fin d → K) (M : Matrix (Fin d) (Fin d) K) :
    ∀ (xs ys : List (List K)) (x z : List K), Turns c M x xs → xs.getLast? = some z →
      Turns c M z ys → Turns c M x (xs ++ ys)
  | [], _, _, _, _, h, _ => by simp at h
  | [y], ys, x, z, h1, h2, h3 => by
    simp at h2
    subst h2
    exact ⟨h1.1, h3⟩
  | y :: y' :: r, ys, x, z, h1, h2, h3 =>
    ⟨h1.1, turns_append c M (y' :: r) ys y z h1.2 (by simpa using h2) h3⟩

theorem forall2_last {α β : Type} {P : α → β → Prop} : ∀ {l : List α} {m : List β} {a : α},
    List.Forall₂ P l m → l.getLast? = some a → ∃ b, m.getLast? = some b ∧ P a b
  | [], _, _, _, h => by simp at h
  | [x], _, a, .cons (l₂ := m) (b := b) h1 h2, h => by
    cases h2
    simp at h
    subst h
    exact ⟨b, by simp, h1⟩
  | x :: x' :: r, _, a, .cons (b := b) h1 (.cons (l₂ := m) (b := b') h2 h3), h => by
    obtain ⟨z, e1, e2⟩ := forall2_last (.cons h2 h3) (by simpa using h : (x' :: r).getLast? = some a)
    exact ⟨z, by simpa using e1, e2⟩

theorem tracked_turns {B : Beam H K} {keys : List String} {c : Fin keys.length → K}
    {M : Matrix (Fin keys.length) (Fin keys.length) K} (hl : LinearLattice B keys c M) (n : Nat)
    {k : Nat} {h : H} {hits : List H} (ht : Tracked B n k h hits) :
    ∀ x, values B keys h = .ok x →
      ∃ xs, List.Forall₂ (fun g y => values B keys g = .ok y) hits xs ∧ Turns c M x xs := by
  induction ht with
  | enough _ _ _ => exact fun x _ => ⟨[], .nil, trivial⟩
  | more k h t l rest _ h1 h2 _ _ ih =>
    intro x hx
    obtain ⟨xs, e1, e2⟩ := hl.turns h t x h1 hx
    obtain ⟨z, z1, z2⟩ := forall2_last e1 h2
    obtain ⟨ys, f1, f2⟩ := ih z z2
    exact ⟨xs ++ ys, List.rel_append e1 f1, turns_append c M xs ys x z e2 z1 f2⟩

theorem forall2_unique {B : Beam H K} {keys : List String} : ∀ {l : List H} {m m' : List (List K)},
    List.Forall₂ (fun g y => values B keys g = .ok y) l m →
    List.Forall₂ (fun g y => values B keys g = .ok y) l m' → m = m'
  | [], _, _, .nil, .nil => rfl
  | _ :: _, _, _, .cons h1 h2, .cons h3 h4 => by
    rw [h1, Except.ok.injEq] at h3
    rw [h3, forall2_unique h2 h4]

/-- the centre of the points -/
theorem mean_dev {d : Nat} (c : Fin d → K) (points : List (List K)) (hne : points ≠ []) (i : Fin d) :
    (points.length : K) * (cMean (unweighted points) i - c i) = devSum c points i := by
  have hn : (points.length : K) ≠ 0 := by
    have : points.length ≠ 0 := by simpa using hne
    exact_mod_cast this
  have h1 : devSum c points i = (points.map fun p => p.getD i 0).sum - points.length * c i := by
    unfold devSum dev
    clear hne hn
    induction points with
    | nil => simp
    | cons p r ih =>
      simp only [List.map_cons, List.sum_cons, ih, List.length_cons]
      push_cast
      ring
  unfold cMean
  rw [unweighted_map_sum points fun p => p.getD i 0, totW_unweighted, h1]
  field_simp

/-- C115, one iteration: for all stable linear lattices, if the hit is within `R` of the closed
orbit, the mean of the points that follow it is within 2 g r R / n of it. -/
theorem points_centre {B : Beam H K} {keys : List String} {c : Fin keys.length → K}
    {M : Matrix (Fin keys.length) (Fin keys.length) K} (hl : LinearLattice B keys c M) {r g : K}
    (hs : Stable M r g) (useSeed : Bool) (n : Nat) (hn : 0 < n) (h : H)
    (x : List K) (hx : values B keys h = .ok x) (R : K) (hxR : Within R (dev c x))
    (points : List (List K)) (hp : PointsFrom B useSeed keys h n points) :
    Within (2 * g * r / n * R) fun i => cMean (unweighted points) i - c i := by
  obtain ⟨hits, ht, hf⟩ := hp
  have hlen := tracked_length B n ht
  obtain ⟨xs, e1, e2⟩ := tracked_turns hl n ht x hx
  have hsum := turns_sum c M xs x e2
  have hpts : n ≤ points.length ∧
      ∃ k, (M - 1).mulVec (devSum c points) = (M ^ (points.length + k)).mulVec (dev c x) -
        (M ^ k).mulVec (dev c x) := by
    cases useSeed with
    | false =>
      simp only [Bool.false_eq_true, if_false, List.nil_append] at hf hlen
      have := forall2_unique e1 hf
      subst this
      refine ⟨by rw [← hf.length_eq]; omega, 1, ?_⟩
      rw [hsum, pow_one]
    | true =>
      simp only [if_true] at hf hlen
      have := forall2_unique (B := B) (keys := keys) (.cons hx e1) hf
      subst this
      refine ⟨by rw [← hf.length_eq, List.length_append]; simpa using hlen, 0, ?_⟩
      show (M - 1).mulVec (devSum c (x :: xs)) = _
      rw [devSum_cons, Matrix.mulVec_add, hsum, Matrix.sub_mulVec, Matrix.one_mulVec, pow_zero,
        Matrix.one_mulVec]
      simp
  obtain ⟨hN, k, hk⟩ := hpts
  have hne : points ≠ [] := by
    intro h0
    rw [h0] at hN
    simp at hN
    omega
  have hb : Within (r * R + r * R) ((M - 1).mulVec (devSum c points)) := by
    intro i
    rw [hk, Pi.sub_apply]
    exact (abs_sub _ _).trans
      (add_le_add (hs.bounded _ _ R hxR i) (hs.bounded _ _ R hxR i))
  have hS := hs.only _ _ hb
  intro i
  have hi := hS i
  rw [← mean_dev c points hne i, abs_mul, Nat.abs_cast] at hi
  have hnK : (0 : K) < n := by exact_mod_cast hn
  have hNK : (n : K) ≤ points.length := by exact_mod_cast hN
  have h1 : (n : K) * |cMean (unweighted points) i - c i| ≤ g * (r * R + r * R) :=
    (mul_le_mul_of_nonneg_right hNK (abs_nonneg _)).trans hi
  have h2 : 2 * g * r / n * R = g * (r * R + r * R) / n := by
    field_simp
    ring
  simp only
  rw [h2, le_div_iff₀ hnK, mul_comm]
  exact h1

/-! ### The iterations -/

theorem iterates_within {B : Beam H K} {keys : List String} {c : Fin keys.length → K}
    {M : Matrix (Fin keys.length) (Fin keys.length) K} (hl : LinearLattice B keys c M) {r g : K}
    (hs : Stable M r g) (hr : 0 ≤ r) (hg : 0 ≤ g) (useSeed : Bool) (n : Nat) (hn : 0 < n)
    (epsMax : K) : ∀ (its : List (Iteration K)) (h : H) (x : List K), values B keys h = .ok x →
    ∀ R, 0 ≤ R → Within R (dev c x) →
    (∀ it ∈ its, ∀ p ∈ it.points, InEllipse 2 keys.length (unweighted it.points) epsMax p) →
    Iterates B epsMax useSeed keys n h its →
    ∀ i (hi : i < its.length), ∃ cen, its[i].centre = some cen ∧ cen.length = keys.length ∧
      Within ((2 * g * r / n) ^ (i + 1) * R) (dev c cen)
  | [], _, _, _, _, _, _, _, _, i, hi => by simp at hi
  | it :: rest, h, x, hx, R, hR, hxR, hall, hit, i, hi => by
    obtain ⟨h1, h2, ⟨k, s, h3, _⟩, h4⟩ := hit
    rw [h1, accepted_all _ it.points epsMax (hall it (by simp)) k] at h3
    have hc := points_centre hl hs useSeed n hn h x hx R hxR it.points h2
    have hq : 0 ≤ 2 * g * r / (n : K) := by positivity
    have hcen : Within (2 * g * r / n * R) (dev c (stats keys.length (unweighted it.points)).1) := by
      intro j
      have := hc j
      simpa [dev, stats] using this
    cases i with
    | zero =>
      refine ⟨_, h3, by simp [stats], ?_⟩
      simpa using hcen
    | succ i =>
      have hr0 : rest ≠ [] := by
        intro h0
        rw [h0] at hi
        simp at hi
      obtain ⟨_, h', h5, h6⟩ := h4 hr0
      rw [h3, Option.getD_some] at h5
      have hx' := hl.set h h' _ (by simp [stats]) h5
      obtain ⟨cen, c1, c2, c3⟩ := iterates_within hl hs hr hg useSeed n hn epsMax rest h' _ hx'
        (2 * g * r / n * R) (mul_nonneg hq hR) hcen (fun it' hm => hall it' (by simp [hm])) h6 i
        (by simpa using hi)
      refine ⟨cen, by simpa using c1, c2, ?_⟩
      rw [pow_succ _ (i + 1), mul_assoc]
      exact c3

/-- C115: for all stable linear lattices, with or without the seed among the points: if the seed is
within `R` of the closed orbit and no point is cut, the centre of the i-th iteration (counted from
0) is within (2 g r / n)^(i+1) R of the closed orbit. -/
theorem C115_converges {L : LinAlg K} (hL : L.Lawful) {E : Ext K} (hE : E.Lawful) (B : Beam H K)
    (hrefl : ∀ h, B.eq h h = true) (seed : H) (epsMax : K) (useSeed : Bool) (keys : List String)
    (hk : keys ≠ []) (n : Nat) (hn : 0 < n) (m : Nat)
    (c : Fin keys.length → K) (M : Matrix (Fin keys.length) (Fin keys.length) K)
    (hl : LinearLattice B keys c M) (r g : K) (hs : Stable M r g) (hr : 0 ≤ r) (hg : 0 ≤ g)
    (x : List K) (hx : values B keys seed = .ok x) (R : K) (hR : 0 ≤ R) (hxR : Within R (dev c x))
    (hall : ∀ it ∈ (findClosedOrbit L E B seed epsMax useSeed keys n (some m)).1,
      ∀ p ∈ it.points, InEllipse 2 keys.length (unweighted it.points) epsMax p) :
    ∀ i (hi : i < (findClosedOrbit L E B seed epsMax useSeed keys n (some m)).1.length), ∃ cen,
      ((findClosedOrbit L E B seed epsMax useSeed keys n (some m)).1[i]).centre = some cen ∧
      cen.length = keys.length ∧
      ∀ j : Fin keys.length, |cen.getD j 0 - c j| ≤ (2 * g * r / n) ^ (i + 1) * R := by
  intro i hi
  exact iterates_within hl hs hr hg useSeed n hn epsMax _ seed x hx R hR hxR hall
    (C80_partial hL hE B hrefl seed epsMax useSeed keys hk n hn m).2 i hi

/-- C115: with more than 2 g r points the finder reaches any precision: for all eps > 0 there is a
number of iterations from which on all centres are within eps of the closed orbit, whatever the
seed within `R` and the number of iterations allowed. -/
theorem C115_precision [Archimedean K] {L : LinAlg K} (hL : L.Lawful) {E : Ext K} (hE : E.Lawful)
    (B : Beam H K) (hrefl : ∀ h, B.eq h h = true) (epsMax : K) (useSeed : Bool)
    (keys : List String) (hk : keys ≠ []) (c : Fin keys.length → K)
    (M : Matrix (Fin keys.length) (Fin keys.length) K) (hl : LinearLattice B keys c M) (r g : K)
    (hs : Stable M r g) (hr : 0 ≤ r) (hg : 0 ≤ g) (n : Nat) (hn : 2 * g * r < n) (R : K)
    (hR : 0 < R) (eps : K) (heps : 0 < eps) :
    ∃ k, ∀ (seed : H) (x : List K) (m : Nat), values B keys seed = .ok x → Within R (dev c x) →
      (∀ it ∈ (findClosedOrbit L E B seed epsMax useSeed keys n (some m)).1,
        ∀ p ∈ it.points, InEllipse 2 keys.length (unweighted it.points) epsMax p) →
      ∀ i (hi : i < (findClosedOrbit L E B seed epsMax useSeed keys n (some m)).1.length), k ≤ i →
      ∃ cen, ((findClosedOrbit L E B seed epsMax useSeed keys n (some m)).1[i]).centre = some cen ∧
        ∀ j : Fin keys.length, |cen.getD j 0 - c j| ≤ eps := by
  have h0 : (0 : K) ≤ 2 * g * r := by positivity
  have hn0 : 0 < n := by
    have : (0 : K) < n := h0.trans_lt hn
    exact_mod_cast this
  have hnK : (0 : K) < n := by exact_mod_cast hn0
  have hq1 : 2 * g * r / (n : K) < 1 := (div_lt_one hnK).mpr hn
  have hq0 : 0 ≤ 2 * g * r / (n : K) := div_nonneg h0 hnK.le
  obtain ⟨k, hk'⟩ := exists_pow_lt_of_lt_one (div_pos heps hR) hq1
  refine ⟨k, fun seed x m hx hxR hall i hi hki => ?_⟩
  obtain ⟨cen, c1, _, c3⟩ := C115_converges hL hE B hrefl seed epsMax useSeed keys hk n hn0 m c M hl
    r g hs hr hg x hx R hR.le hxR hall i hi
  refine ⟨cen, c1, fun j => (c3 j).trans ?_⟩
  have h1 : (2 * g * r / (n : K)) ^ (i + 1) ≤ (2 * g * r / (n : K)) ^ k :=
    pow_le_pow_of_le_one hq0 hq1.le (by omega)
  calc (2 * g * r / (n : K)) ^ (i + 1) * R ≤ (2 * g * r / (n : K)) ^ k * R :=
        mul_le_mul_of_nonneg_right h1 hR.le
    _ ≤ eps / R * R := mul_le_mul_of_nonneg_right hk'.le hR.le
    _ = eps := div_mul_cancel₀ _ hR.ne'

/-! ### Points that are not cut -/

/-- the sum of squares of the deviations from the mean is the smallest -/
theorem cov_eq (d : Nat) (points : List (List K)) (i j : Fin d) :
    cMat d (unweighted points) i j = (points.map fun p => (p.getD i 0 - cMean (unweighted points) i) *
      (p.getD j 0 - cMean (unweighted points) j)).sum / (points.length : K) := by
  have h := unweighted_map_sum points fun p => (p.getD i 0 - cMean (unweighted points) i) *
    (p.getD j 0 - cMean (unweighted points) j)
  rw [← h, ← totW_unweighted points]
  simp only [cMat, Matrix.of_apply, cCov, mul_assoc]

/-- no point is further from the centre than the square root of the number of points, in units of
the ellipse -/
theorem chiSq_le (d : Nat) (points : List (List K)) (p : List K) (hp : p ∈ points)
    (hdet : (cMat d (unweighted points)).det ≠ 0) :
    chiSq d (unweighted points) p ≤ (points.length : K) := by
  have hpos : (0 : K) < (points.length : K) := by
    exact_mod_cast List.length_pos_of_mem hp
  let u : List K → Fin d → K := fun q i => q.getD i 0 - cMean (unweighted points) i
  let C := cMat d (unweighted points)
  let v : Fin d → K := C⁻¹.mulVec (u p)
  let f : List K → K := fun q => ∑ i, v i * u q i
  have hCv : C.mulVec v = u p := by
    show C.mulVec (C⁻¹.mulVec (u p)) = u p
    rw [Matrix.mulVec_mulVec, Matrix.mul_nonsing_inv _ (isUnit_iff_ne_zero.mpr hdet),
      Matrix.one_mulVec]
  have hchi : chiSq d (unweighted points) p = f p := by
    unfold chiSq
    simp only [f, v, Matrix.mulVec, dotProduct]
    apply Finset.sum_congr rfl
    intro i _
    rw [Finset.sum_mul]
    apply Finset.sum_congr rfl
    intro j _
    simp only [u, C]
    ring
  have hquad : (points.length : K) * f p = (points.map fun q => f q ^ 2).sum := by
    have h1 : f p = ∑ i, ∑ j, v i * (C i j * v j) := by
      simp only [f]
      apply Finset.sum_congr rfl
      intro i _
      rw [← hCv, ← Finset.mul_sum]
      rfl
    have h2 : ∀ q, f q ^ 2 = ∑ i, ∑ j, v i * v j * (u q i * u q j) := by
      intro q
      simp only [f]
      rw [pow_two, Finset.sum_mul_sum]
      apply Finset.sum_congr rfl
      intro i _
      apply Finset.sum_congr rfl
      intro j _
      ring
    rw [h1, List.map_congr_left (fun q _ => h2 q),
      sum_swap points d fun i j q => v i * v j * (u q i * u q j), Finset.mul_sum]
    apply Finset.sum_congr rfl
    intro i _
    rw [Finset.mul_sum]
    apply Finset.sum_congr rfl
    intro j _
    rw [List.sum_map_mul_left]
    simp only [C]
    rw [cov_eq]
    simp only [u]
    field_simp
  have hle : f p ^ 2 ≤ (points.map fun q => f q ^ 2).sum := by
    apply List.single_le_sum
    · intro x hx
      obtain ⟨q, _, rfl⟩ := List.mem_map.mp hx
      positivity
    · exact List.mem_map.mpr ⟨p, hp, rfl⟩
  rw [hchi]
  by_contra hc
  rw [not_le] at hc
  have : (points.length : K) * f p < f p ^ 2 := by
    rw [pow_two]
    exact mul_lt_mul_of_pos_right hc (hpos.trans hc)
  rw [hquad] at this
  exact absurd hle (not_le.mpr this)

/-- the variance of points within `B` of the closed orbit is at most B² -/
theorem var_le (d : Nat) (c : Fin d → K) (points : List (List K)) (hne : points ≠ []) (B : K)
    (hB : ∀ p ∈ points, Within B (dev c p)) (i : Fin d) :
    0 ≤ cMat d (unweighted points) i i ∧ cMat d (unweighted points) i i ≤ B ^ 2 := by
  have hpos : (0 : K) < (points.length : K) := by
    exact_mod_cast List.length_pos_iff.mpr hne
  rw [cov_eq]
  constructor
  · apply div_nonneg _ hpos.le
    apply List.sum_nonneg
    intro x hx
    obtain ⟨q, _, rfl⟩ := List.mem_map.mp hx
    exact mul_self_nonneg _
  · rw [div_le_iff₀ hpos]
    have hm := mean_dev c points hne i
    generalize cMean (unweighted points) i = m at hm ⊢
    have h1 : (points.map fun p => (p.getD i 0 - m) * (p.getD i 0 - m)).sum =
        (points.map fun p => dev c p i ^ 2).sum - 2 * (m - c i) * devSum c points i +
          (points.length : K) * (m - c i) ^ 2 := by
      clear hm hpos hne hB
      unfold devSum
      induction points with
      | nil => simp
      | cons p r ih =>
        simp only [List.map_cons, List.sum_cons, List.length_cons, ih, dev]
        push_cast
        ring
    have h2 : (points.map fun p => dev c p i ^ 2).sum ≤ (points.length : K) * B ^ 2 := by
      clear hm hpos hne h1
      induction points with
      | nil => simp
      | cons p r ih =>
        have := ih (fun q hq => hB q (by simp [hq]))
        have hp := hB p (by simp) i
        have hp2 : dev c p i ^ 2 ≤ B ^ 2 := sq_le_sq' (abs_le.mp hp).1 (abs_le.mp hp).2
        simp only [List.map_cons, List.sum_cons, List.length_cons]
        push_cast
        linarith
    rw [h1, ← hm]
    nlinarith [mul_nonneg hpos.le (sq_nonneg (m - c i))]

/-- In two dimensions, points within `B` of the closed orbit are not cut if eps_max is above their
number times B². -/
theorem not_cut {E : Ext K} (hE : E.Lawful) (c : Fin 2 → K) (points : List (List K)) (B : K)
    (hB : ∀ p ∈ points, Within B (dev c p)) (epsMax : K)
    (he : (points.length : K) * B ^ 2 < epsMax) :
    ∀ p ∈ points, InEllipse 2 2 (unweighted points) epsMax p := by
  intro p hp
  have hne : points ≠ [] := List.ne_nil_of_mem hp
  have hlen : (0 : K) ≤ (points.length : K) := Nat.cast_nonneg _
  have v0 := var_le 2 c points hne B hB 0
  have v1 := var_le 2 c points hne B hB 1
  have hsym : cMat 2 (unweighted points) 1 0 = cMat 2 (unweighted points) 0 1 := by
    rw [cov_eq, cov_eq]
    congr 2
    apply List.map_congr_left
    intro q _
    ring
  have hdet := Matrix.det_fin_two (cMat 2 (unweighted points))
  rw [hsym] at hdet
  have hdet1 : (cMat 2 (unweighted points)).det ≤ (B ^ 2) ^ 2 := by
    rw [hdet]
    nlinarith [mul_le_mul v0.2 v1.2 v1.1 (sq_nonneg B),
      mul_self_nonneg (cMat 2 (unweighted points) 0 1)]
  have hdet0 : 0 ≤ (cMat 2 (unweighted points)).det := by
    by_contra hc
    rw [not_le] at hc
    have hq : ∀ a b : K, 0 ≤ (points.map fun q => (a * (q.getD (0 : Fin 2) 0 -
        cMean (unweighted points) (0 : Fin 2)) + b * (q.getD (1 : Fin 2) 0 -
        cMean (unweighted points) (1 : Fin 2))) ^ 2).sum := by
      intro a b
      apply List.sum_nonneg
      intro x hx
      obtain ⟨q, _, rfl⟩ := List.mem_map.mp hx
      positivity
    have hform : ∀ a b : K, 0 ≤ a ^ 2 * cMat 2 (unweighted points) 0 0 +
        2 * a * b * cMat 2 (unweighted points) 0 1 + b ^ 2 * cMat 2 (unweighted points) 1 1 := by
      intro a b
      have h1 : a ^ 2 * cMat 2 (unweighted points) 0 0 +
          2 * a * b * cMat 2 (unweighted points) 0 1 + b ^ 2 * cMat 2 (unweighted points) 1 1 =
          (points.map fun q => (a * (q.getD (0 : Fin 2) 0 -
            cMean (unweighted points) (0 : Fin 2)) + b * (q.getD (1 : Fin 2) 0 -
            cMean (unweighted points) (1 : Fin 2))) ^ 2).sum / (points.length : K) := by
        rw [cov_eq, cov_eq, cov_eq, ← mul_div_assoc, ← mul_div_assoc, ← mul_div_assoc, ← add_div,
          ← add_div]
        congr 1
        generalize cMean (unweighted points) (0 : Fin 2) = m0
        generalize cMean (unweighted points) (1 : Fin 2) = m1
        clear * -
        induction points with
        | nil => simp
        | cons q r ih =>
          simp only [List.map_cons, List.sum_cons]
          rw [← ih]
          ring
      rw [h1]
      exact div_nonneg (hq a b) hlen
    -- C00 det < 0 contradicts the form at (C01, -C00) unless C00 = 0
    rcases v0.1.lt_or_eq with h0 | h0
    · have := hform (cMat 2 (unweighted points) 0 1) (-cMat 2 (unweighted points) 0 0)
      rw [hdet] at hc
      nlinarith [mul_neg_of_pos_of_neg h0 hc]
    · rw [hdet, ← h0] at hc
      have h01 : cMat 2 (unweighted points) 0 1 ≠ 0 := by
        intro hz
        rw [hz] at hc
        simp at hc
      have := hform (-(cMat 2 (unweighted points) 1 1 + 1) / (2 * cMat 2 (unweighted points) 0 1)) 1
      rw [← h0] at this
      have e : 2 * (-(cMat 2 (unweighted points) 1 1 + 1) / (2 * cMat 2 (unweighted points) 0 1)) *
          1 * cMat 2 (unweighted points) 0 1 = -(cMat 2 (unweighted points) 1 1 + 1) := by
        field_simp
      rw [e] at this
      linarith
  have hs0 := hE.sqrt_nonneg _ hdet0
  have hs2 := hE.sqrt_mul_self _ hdet0
  refine ⟨E.sqrt (cMat 2 (unweighted points)).det, hs0, by rw [pow_two, hs2], ?_⟩
  have hsB : E.sqrt (cMat 2 (unweighted points)).det ≤ B ^ 2 := by
    by_contra hc
    rw [not_le] at hc
    nlinarith [sq_nonneg B]
  show chiSq 2 (unweighted points) p * _ < epsMax
  by_cases hz : (cMat 2 (unweighted points)).det = 0
  · have : chiSq 2 (unweighted points) p = 0 := by
      unfold chiSq
      rw [Matrix.nonsing_inv_apply_not_isUnit _ (by rw [hz]; simp)]
      simp
    rw [this, zero_mul]
    exact (mul_nonneg hlen (sq_nonneg B)).trans_lt he
  · calc chiSq 2 (unweighted points) p * E.sqrt (cMat 2 (unweighted points)).det
        ≤ (points.length : K) * E.sqrt (cMat 2 (unweighted points)).det :=
          mul_le_mul_of_nonneg_right (chiSq_le 2 points p hp hz) hs0
      _ ≤ (points.length : K) * B ^ 2 := mul_le_mul_of_nonneg_left hsB hlen
      _ < epsMax := he

/-- the distances on later turns -/
theorem turns_dev {d : Nat} (c : Fin d → K) (M : Matrix (Fin d) (Fin d) K) :
    ∀ (xs : List (List K)) (x : List K), Turns c M x xs → ∀ y ∈ xs,
      ∃ k, dev c y = (M ^ k).mulVec (dev c x)
  | [], _, _, _, hy => by simp at hy
  | z :: r, x, h, y, hy => by
    rcases List.mem_cons.mp hy with rfl | hy
    · exact ⟨1, by rw [pow_one]; exact h.1⟩
    · obtain ⟨k, hk⟩ := turns_dev c M r z h.2 y hy
      exact ⟨k + 1, by rw [hk, h.1, Matrix.mulVec_mulVec, pow_succ]⟩

theorem tracked_length_le (B : Beam H K) (n T : Nat)
    (hT : ∀ h t, B.track h = .ok t → t.length ≤ T + 1) {k : Nat} {h : H} {hits : List H}
    (ht : Tracked B n k h hits) : k ≤ n + T → k + hits.length ≤ n + T := by
  induction ht with
  | enough k h _ => intro hk; simpa using hk
  | more k h t l rest hk h1 _ _ _ ih =>
    intro _
    have := hT h t h1
    have hd : (t.drop 1).length ≤ T := by rw [List.length_drop]; omega
    have := ih (by omega)
    rw [List.length_append]
    omega

/-- the points of an iteration stay near the closed orbit, and there are not many more than asked
for -/
theorem points_near {B : Beam H K} {keys : List String} {c : Fin keys.length → K}
    {M : Matrix (Fin keys.length) (Fin keys.length) K} (hl : LinearLattice B keys c M) {r g : K}
    (hs : Stable M r g) (useSeed : Bool) (n T : Nat) (hn : 0 < n)
    (hT : ∀ h t, B.track h = .ok t → t.length ≤ T + 1) (h : H)
    (x : List K) (hx : values B keys h = .ok x) (R : K) (hxR : Within R (dev c x))
    (points : List (List K)) (hp : PointsFrom B useSeed keys h n points) :
    points.length ≤ n + T ∧ ∀ p ∈ points, Within (r * R) (dev c p) := by
  obtain ⟨hits, ht, hf⟩ := hp
  have hlen := tracked_length_le B n T hT ht (by cases useSeed <;> simp; omega)
  obtain ⟨xs, e1, e2⟩ := tracked_turns hl n ht x hx
  have hxs : ∀ y ∈ xs, Within (r * R) (dev c y) := by
    intro y hy
    obtain ⟨k, hk⟩ := turns_dev c M xs x e2 y hy
    rw [hk]
    exact hs.bounded k _ R hxR
  have hx0 : Within (r * R) (dev c x) := by
    have := hs.bounded 0 _ R hxR
    simpa using this
  cases useSeed with
  | false =>
    simp only [Bool.false_eq_true, if_false, List.nil_append] at hf hlen
    have := forall2_unique e1 hf
    subst this
    exact ⟨by rw [← hf.length_eq]; omega, hxs⟩
  | true =>
    simp only [if_true] at hf hlen
    have := forall2_unique (B := B) (keys := keys) (.cons hx e1) hf
    subst this
    refine ⟨by rw [← hf.length_eq, List.length_append]; simpa using hlen, ?_⟩
    intro p hp
    rcases List.mem_cons.mp hp with rfl | hp
    · exact hx0
    · exact hxs p hp

theorem iterates_uncut {E : Ext K} (hE : E.Lawful) {B : Beam H K} {a b : String} {c : Fin 2 → K}
    {M : Matrix (Fin 2) (Fin 2) K} (hl : LinearLattice B [a, b] c M) {r g : K}
    (hs : Stable M r g) (hr : 0 ≤ r) (hg : 0 ≤ g) (useSeed : Bool) (n T : Nat) (hn : 0 < n)
    (hq : 2 * g * r ≤ n) (hT : ∀ h t, B.track h = .ok t → t.length ≤ T + 1) (epsMax R0 : K)
    (he : ((n + T : Nat) : K) * (r * R0) ^ 2 < epsMax) :
    ∀ (its : List (Iteration K)) (h : H) (x : List K), values B [a, b] h = .ok x →
    ∀ R, 0 ≤ R → R ≤ R0 → Within R (dev c x) → Iterates B epsMax useSeed [a, b] n h its →
    ∀ it ∈ its, ∀ p ∈ it.points, InEllipse 2 2 (unweighted it.points) epsMax p
  | [], _, _, _, _, _, _, _, _, it, hit => by simp at hit
  | it :: rest, h, x, hx, R, hR, hR0, hxR, hit, it', hm => by
    obtain ⟨h1, h2, ⟨k, s, h3, _⟩, h4⟩ := hit
    obtain ⟨l1, l2⟩ := points_near hl hs useSeed n T hn hT h x hx R hxR it.points h2
    have hin : ∀ p ∈ it.points, InEllipse 2 2 (unweighted it.points) epsMax p := by
      apply not_cut hE c it.points (r * R) l2
      refine lt_of_le_of_lt ?_ he
      have e1 : (it.points.length : K) ≤ ((n + T : Nat) : K) := by exact_mod_cast l1
      have e2 : (r * R) ^ 2 ≤ (r * R0) ^ 2 :=
        pow_le_pow_left₀ (mul_nonneg hr hR) (mul_le_mul_of_nonneg_left hR0 hr) 2
      exact mul_le_mul e1 e2 (sq_nonneg _) (Nat.cast_nonneg _)
    rcases List.mem_cons.mp hm with rfl | hm
    · exact hin
    · have hr0 : rest ≠ [] := List.ne_nil_of_mem hm
      obtain ⟨_, h', h5, h6⟩ := h4 hr0
      rw [h1] at h3
      have hacc : accepted [a, b].length (unweighted it.points) epsMax k = unweighted it.points :=
        accepted_all 2 it.points epsMax hin k
      rw [hacc] at h3
      rw [h3, Option.getD_some] at h5
      have hx' := hl.set h h' _ (by simp [stats]) h5
      have hc := points_centre hl hs useSeed n hn h x hx R hxR it.points h2
      have hnK : (0 : K) < n := by exact_mod_cast hn
      have hq1 : 2 * g * r / (n : K) ≤ 1 := (div_le_one hnK).mpr hq
      have hcen : Within R (dev c (stats [a, b].length (unweighted it.points)).1) := by
        intro j
        have := hc j
        refine le_trans ?_ (mul_le_of_le_one_left hR hq1)
        have hj : j.val < 2 := j.2
        simpa [dev, stats, List.getElem?_range hj] using this
      exact iterates_uncut hE hl hs hr hg useSeed n T hn hq hT epsMax R0 he rest h' _ hx' R hR hR0
        hcen h6 it' hm

/-- C115 for two variables, without a condition on the cut: if eps_max is above the largest number
of points in an iteration times (r R)², no point is ever cut and every iteration brings the centre
nearer to the closed orbit. -/
theorem C115_plane {L : LinAlg K} (hL : L.Lawful) {E : Ext K} (hE : E.Lawful) (B : Beam H K)
    (hrefl : ∀ h, B.eq h h = true) (seed : H) (epsMax : K) (useSeed : Bool) (a b : String)
    (n T m : Nat) (hn : 0 < n) (hT : ∀ h t, B.track h = .ok t → t.length ≤ T + 1)
    (c : Fin 2 → K) (M : Matrix (Fin 2) (Fin 2) K) (hl : LinearLattice B [a, b] c M) (r g : K)
    (hs : Stable M r g) (hr : 0 ≤ r) (hg : 0 ≤ g) (hq : 2 * g * r ≤ n)
    (x : List K) (hx : values B [a, b] seed = .ok x) (R : K) (hR : 0 ≤ R) (hxR : Within R (dev c x))
    (he : ((n + T : Nat) : K) * (r * R) ^ 2 < epsMax) :
    ∀ i (hi : i < (findClosedOrbit L E B seed epsMax useSeed [a, b] n (some m)).1.length),
      ∃ cx cp, ((findClosedOrbit L E B seed epsMax useSeed [a, b] n (some m)).1[i]).centre =
          some [cx, cp] ∧
        |cx - c 0| ≤ (2 * g * r / n) ^ (i + 1) * R ∧ |cp - c 1| ≤ (2 * g * r / n) ^ (i + 1) * R := by
  intro i hi
  have hit := (C80_partial hL hE B hrefl seed epsMax useSeed [a, b] (by simp) n hn m).2
  obtain ⟨cen, c1, c2, c3⟩ := C115_converges hL hE B hrefl seed epsMax useSeed [a, b] (by simp) n hn m
    c M hl r g hs hr hg x hx R hR hxR
    (iterates_uncut hE hl hs hr hg useSeed n T hn hq hT epsMax R he _ seed x hx R hR le_rfl hxR hit)
    i hi
  match cen, c2 with
  | [cx, cp], _ => exact ⟨cx, cp, c1, c3 (0 : Fin 2), c3 (1 : Fin 2)⟩

/-! ### Example: a quarter turn about (1, 2), five points -/

open Classical in
/-- hits with two numbers; tracking returns the hit and the hit one turn later -/
noncomputable def quarterBeam : Beam (ℝ × ℝ) ℝ where
  get h k := if k = "x" then .ok h.1 else if k = "px" then .ok h.2 else .error .KeyError
  set h k v := if k = "x" then .ok (v, h.2) else if k = "px" then .ok (h.1, v) else .error .KeyError
  eq h h' := decide (h = h')
  track h := .ok [h, (3 - h.2, 1 + h.1)]

theorem quarter_values (h : ℝ × ℝ) : values quarterBeam ["x", "px"] h = .ok [h.1, h.2] := by
  simp [values, quarterBeam, FFTTune.mapErr, show ("px" = "x") = False by decide]

/-- the matrix of a quarter turn -/
def quarterM : Matrix (Fin 2) (Fin 2) ℝ := !![0, -1; 1, 0]

theorem quarter_lattice : LinearLattice quarterBeam ["x", "px"] (![1, 2] : Fin 2 → ℝ) quarterM := by
  constructor
  · intro h t x ht hx
    rw [quarter_values, Except.ok.injEq] at hx
    simp only [quarterBeam, Except.ok.injEq] at ht
    subst ht hx
    refine ⟨[[3 - h.2, 1 + h.1]], .cons (quarter_values _) .nil, ?_, trivial⟩
    show dev (![1, 2] : Fin 2 → ℝ) _ = quarterM.mulVec (dev (![1, 2] : Fin 2 → ℝ) _)
    funext i
    fin_cases i <;> simp [dev, quarterM, Matrix.mulVec, dotProduct, Fin.sum_univ_two] <;> ring
  · intro h h' x hx hs
    obtain ⟨a, b, rfl⟩ : ∃ a b, x = [a, b] := by
      match x, hx with
      | [a, b], _ => exact ⟨a, b, rfl⟩
    simp [setAll, quarterBeam, show ("px" = "x") = False by decide] at hs
    rw [← hs]
    exact quarter_values (a, b)

theorem quarter_stable : Stable quarterM 1 1 := by
  constructor
  · intro k
    induction k with
    | zero => intro v R hv; simpa using hv
    | succ k ih =>
      intro v R hv
      rw [pow_succ, ← Matrix.mulVec_mulVec]
      apply ih
      intro i
      fin_cases i
      · simpa [quarterM, Matrix.mulVec, dotProduct, Fin.sum_univ_two] using hv 1
      · simpa [quarterM, Matrix.mulVec, dotProduct, Fin.sum_univ_two] using hv 0
  · intro v R hv
    have h0 := abs_le.mp (hv 0)
    have h1 := abs_le.mp (hv 1)
    simp [quarterM, Matrix.mulVec, dotProduct, Fin.sum_univ_two, Matrix.sub_apply] at h0 h1
    intro i
    rw [one_mul, abs_le]
    fin_cases i <;> constructor <;> simp <;> linarith [h0.1, h0.2, h1.1, h1.2]

/-- the five points that follow (2, 2) -/
def fivePoints : List (List ℝ) := [[1, 3], [0, 2], [1, 1], [2, 2], [1, 3]]

theorem five_points : getPoints quarterBeam false ["x", "px"] (2, 2) 5 = .ok fivePoints := by
  have e : ∀ h h' : ℝ × ℝ, quarterBeam.eq h h' = true ↔ h = h' := by
    intro h h'
    simp [quarterBeam]
  have t : ∀ h : ℝ × ℝ, quarterBeam.track h = .ok [h, (3 - h.2, 1 + h.1)] := fun _ => rfl
  norm_num [getPoints, pointsLoop, t, e, FFTTune.mapErr, quarter_values, fivePoints]

theorem five_mean (i : Fin 2) : cMean (unweighted fivePoints) i = ![1, 11 / 5] i := by
  fin_cases i <;> simp [cMean, unweighted, totW, fivePoints, List.zip, List.replicate] <;> norm_num

theorem five_cov : cMat 2 (unweighted fivePoints) = !![2 / 5, 0; 0, 14 / 25] := by
  ext i j
  simp only [cMat, cCov, Matrix.of_apply, five_mean]
  fin_cases i <;> fin_cases j <;>
    simp [unweighted, totW, fivePoints, List.zip, List.replicate] <;> norm_num

theorem five_in : ∀ p ∈ fivePoints, InEllipse 2 2 (unweighted fivePoints) 10 p := by
  intro p hp
  have hinv : (!![2 / 5, 0; 0, 14 / 25] : Matrix (Fin 2) (Fin 2) ℝ)⁻¹ = !![5 / 2, 0; 0, 25 / 14] := by
    apply Matrix.inv_eq_left_inv
    ext i j
    fin_cases i <;> fin_cases j <;> simp [Matrix.mul_apply, Fin.sum_univ_two]
  have hs2 : Real.sqrt (28 / 125) ^ 2 = 28 / 125 := Real.sq_sqrt (by norm_num)
  have hs0 : 0 ≤ Real.sqrt (28 / 125) := Real.sqrt_nonneg _
  generalize Real.sqrt (28 / 125) = s at hs2 hs0
  have hs1 : s ≤ 1 := by nlinarith
  refine ⟨s, hs0, ?_, ?_⟩
  · rw [five_cov, Matrix.det_fin_two_of, hs2]
    norm_num
  · rw [five_cov, hinv]
    simp only [Fin.sum_univ_two, five_mean]
    simp only [fivePoints, List.mem_cons, List.not_mem_nil, or_false] at hp
    rcases hp with rfl | rfl | rfl | rfl | rfl <;> norm_num <;> nlinarith

/-- the points of the one iteration that is allowed -/
theorem one_iteration (L : LinAlg ℝ) (E : Ext ℝ) :
    ∀ it ∈ (findClosedOrbit L E quarterBeam (2, 2) 10 false ["x", "px"] 5 (some 1)).1,
      it.points = fivePoints := by
  have hp : ∀ it', (calculateEllipse L E (newIteration fivePoints 10)).2 = it' →
      it'.points = fivePoints := by
    rintro it' rfl
    unfold calculateEllipse
    simp only
    repeat' split
    all_goals rfl
  intro it hit
  unfold findClosedOrbit at hit
  simp only at hit
  rw [orbitLoop, five_points] at hit
  simp only at hit
  cases hc : calculateEllipse L E (newIteration fivePoints 10) with
  | mk r it' =>
    have := hp it' (by rw [hc])
    rw [hc] at hit
    cases r with
    | error e =>
      simp only at hit
      repeat' split at hit
      all_goals simp at hit
    | ok u =>
      simp only [orbitLoop] at hit
      repeat' split at hit
      all_goals
        simp at hit
        rw [hit]
        exact this

/-- C115_converges: the first centre found with five points per iteration is within 2/5 of the
closed orbit (1, 2) -/
example : ∀ i (hi : i < (findClosedOrbit realLin realExt quarterBeam (2, 2) 10 false ["x", "px"] 5
      (some 1)).1.length), ∃ cen,
    ((findClosedOrbit realLin realExt quarterBeam (2, 2) 10 false ["x", "px"] 5
      (some 1)).1[i]).centre = some cen ∧ cen.length = 2 ∧
    ∀ j : Fin 2, |cen.getD j 0 - (![1, 2] : Fin 2 → ℝ) j| ≤ (2 * 1 * 1 / ((5 : Nat) : ℝ)) ^ (i + 1) * 1 :=
  C115_converges realLin_lawful realExt_lawful quarterBeam (by simp [quarterBeam]) (2, 2) 10 false
    ["x", "px"] (by simp) 5 (by norm_num) 1 _ _ quarter_lattice 1 1 quarter_stable (by norm_num)
    (by norm_num) [2, 2] (quarter_values _) 1 (by norm_num)
    (by
      intro i
      show |dev (![1, 2] : Fin 2 → ℝ) [2, 2] i| ≤ 1
      fin_cases i <;> (simp [dev]; try norm_num))
    (by
      intro it hit p hp
      rw [one_iteration _ _ it hit] at hp ⊢
      exact five_in p hp)

/-- C115_plane: all iterations, however many are allowed -/
example (m : Nat) : ∀ i (hi : i < (findClosedOrbit realLin realExt quarterBeam (2, 2) 10 false
      ["x", "px"] 5 (some m)).1.length), ∃ cx cp,
    ((findClosedOrbit realLin realExt quarterBeam (2, 2) 10 false ["x", "px"] 5
      (some m)).1[i]).centre = some [cx, cp] ∧
    |cx - 1| ≤ (2 * 1 * 1 / ((5 : Nat) : ℝ)) ^ (i + 1) * 1 ∧
    |cp - 2| ≤ (2 * 1 * 1 / ((5 : Nat) : ℝ)) ^ (i + 1) * 1 :=
  C115_plane realLin_lawful realExt_lawful quarterBeam (by simp [quarterBeam]) (2, 2) 10 false
    "x" "px" 5 1 m (by norm_num)
    (by
      intro h t ht
      simp only [quarterBeam, Except.ok.injEq] at ht
      simp [← ht])
    (![1, 2]) _ quarter_lattice 1 1 quarter_stable (by norm_num)
    (by norm_num) (by norm_num) [2, 2] (quarter_values _) 1 (by norm_num)
    (by
      intro i
      fin_cases i <;> simp [dev]; norm_num)
    (by norm_num)

/-- and there is such an iteration -/
example : ∃ it, (findClosedOrbit realLin realExt quarterBeam (2, 2) 10 false ["x", "px"] 5
    (some 1)).1 = [it] := by
  obtain ⟨it, s, noise, h1, _⟩ := C80_noise realLin_lawful realExt_lawful 2 (by norm_num) fivePoints
    (by simp [fivePoints]) (by simp [fivePoints]) 10
    (by rw [five_cov, Matrix.det_fin_two_of]; norm_num) five_in
  refine ⟨it, ?_⟩
  unfold findClosedOrbit
  simp only
  rw [orbitLoop, five_points]
  simp only [h1, orbitLoop]
  repeat' split
  all_goals rfl

end ClosedOrbit
end Xboa
