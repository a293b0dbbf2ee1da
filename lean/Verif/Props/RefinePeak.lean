import Verif.Model.RefinePeak
import Verif.Props.MassShell
import Mathlib.Data.List.ReduceOption
import Mathlib.Tactic.LinearCombination
import Mathlib.Tactic.FieldSimp
import Mathlib.Analysis.InnerProductSpace.Projection.Minimal
import Mathlib.Analysis.InnerProductSpace.PiL2
import Mathlib.Analysis.Calculus.Deriv.Inv
import Mathlib.Analysis.Calculus.Deriv.Mul
import Mathlib.Analysis.Calculus.Deriv.Add
import Mathlib.Analysis.Calculus.Deriv.Pow
/-
C86: RefinePeakFinder.
-/
set_option linter.unusedSectionVars false
namespace Xboa
namespace RefinePeak
open Tracking (PyVer)
variable {K : Type} [Field K] [LinearOrder K] [IsStrictOrderedRing K]

/-! ### Specification -/

/-- the data no further than `delta` from `peak`, relative to `peak` -/
def window (data : List K) (peak delta : Nat) : List (Int × K) :=
  ((List.range data.length).filter fun i : Nat => decide (|(i : Int) - peak| ≤ delta)).map
    fun i : Nat => ((i : Int) - peak, data.getD i 0)

/-- the sum of the squares of the residuals of a parabola -/
def residuals (pts : List (Int × K)) (p : K × K × K) : K :=
  (pts.map fun q => (q.2 - (p.1 + p.2.1 * (q.1 : K) + p.2.2 * (q.1 : K) ^ 2)) ^ 2).sum

/-- the fit is a least squares fit -/
def LeastSquares (F : Fitter K) : Prop :=
  ∀ pts start p, pts ≠ [] → residuals pts (F.fit pts start) ≤ residuals pts p

/-- the derivatives of the position of the vertex of p0 + p1 t + p2 t^2 with respect to p0, p1, p2 -/
def gradX (p : K × K × K) : Fin 3 → K := ![0, -1 / (2 * p.2.2), p.2.1 / (2 * p.2.2 ^ 2)]
/-- the derivatives of the value at the vertex of p0 + p1 t + p2 t^2 with respect to p0, p1, p2 -/
def gradY (p : K × K × K) : Fin 3 → K := ![1, -p.2.1 / (2 * p.2.2), p.2.1 ^ 2 / (4 * p.2.2 ^ 2)]

/-- what becomes of an estimated peak: a parabola is fitted to the data within `delta` of it, and its
vertex is returned if it is within `delta` and within the data. -/
def Outcome (F : Fitter K) (data : List K) (seed maxDelta : Nat) (peak : Nat) (o : Option (Entry K)) :
    Prop :=
  ∃ (delta : Nat) (p : K × K × K) (x y : K),
    (delta = seed / 2 ∨ ∃ k, delta = seed * 2 ^ k ∧ delta < maxDelta ∧ delta < data.length) ∧
    p = F.fit (window data peak delta) (F.fit (window data peak delta) (0, 0, 0)) ∧
    p.2.2 ≠ 0 ∧
    (∀ t, p.1 + p.2.1 * (t - peak) + p.2.2 * (t - peak) ^ 2 = y + p.2.2 * (t - x) ^ 2) ∧
    (|x - peak| ≤ delta ∧ 0 ≤ x ∧ x ≤ data.length → ∃ C : Fin 3 → Fin 3 → K,
      C = F.cov (window data peak delta) (F.fit (window data peak delta) (0, 0, 0)) ∧
      o = some ⟨x, y, peak,
        [[∑ i, ∑ j, gradX p i * C i j * gradX p j, ∑ i, ∑ j, gradX p i * C i j * gradY p j],
         [∑ i, ∑ j, gradY p i * C i j * gradX p j, ∑ i, ∑ j, gradY p i * C i j * gradY p j]]⟩) ∧
    (¬ (|x - peak| ≤ delta ∧ 0 ≤ x ∧ x ≤ data.length) → o = none)

/-! ### Lemmas -/

theorem points_eq (data : List K) (peak delta : Nat) : points data peak delta = window data peak delta := by
  have h : (List.range data.length).filter (fun i : Nat => decide (|(i : Int) - peak| ≤ delta)) =
      (List.range (min (peak + delta + 1) data.length - (peak - delta))).map (fun i => peak - delta + i) := by
    refine List.Perm.eq_of_pairwise (le := (· < ·)) ?_ ?_ ?_ ?_
    · intro a b _ _ h1 h2; omega
    · exact List.Pairwise.filter _ List.pairwise_lt_range
    · rw [List.pairwise_map]
      exact List.pairwise_lt_range.imp (by intros; omega)
    · refine (List.perm_ext_iff_of_nodup (List.nodup_range.filter _) ?_).2 ?_
      · exact List.nodup_range.map (fun a b h => by simpa using h)
      · intro a
        simp only [List.mem_filter, List.mem_range, List.mem_map, decide_eq_true_eq, abs_le]
        constructor
        · rintro ⟨h1, h2, h3⟩
          exact ⟨a - (peak - delta), by omega, by omega⟩
        · rintro ⟨i, h1, rfl⟩
          exact ⟨by omega, by omega, by omega⟩
  unfold points window
  rw [h, List.map_map]
  rfl

theorem widen_delta (F : Fitter K) (E : Ext K) (data : List K) (peak seed M : Nat) :
    ∀ (n : Nat) (q : K) (k : Nat), 
      (widen F E data peak seed M n q (seed * 2 ^ k)).2 = seed * 2 ^ k ∨
      ∃ j, (widen F E data peak seed M n q (seed * 2 ^ k)).2 = seed * 2 ^ j * 2 ∧ seed * 2 ^ j < M := by
  intro n
  induction n with
  | zero => intro q k; exact .inl rfl
  | succ n ih =>
    intro q k
    rw [widen]
    split_ifs with h
    · right
      cases hp : peakFit F E data peak (seed * 2 ^ k * 2) seed with
      | error e => exact ⟨k, rfl, h.2⟩
      | ok r =>
        have e : seed * 2 ^ k * 2 = seed * 2 ^ (k + 1) := by ring
        simp only [e]
        rcases ih r.1 (k + 1) with h1 | ⟨j, h1, h2⟩
        · exact ⟨k, by rw [h1]; ring, h.2⟩
        · exact ⟨j, h1, h2⟩
    · exact .inl rfl

/-- the bound on the number of passes is never reached -/
theorem widen_fuel (F : Fitter K) (E : Ext K) (data : List K) (peak seed M : Nat) :
    ∀ (n : Nat) (q : K) (delta : Nat), M < n + delta → (delta = 0 → seed = 0) →
      widen F E data peak seed M n q delta = widen F E data peak seed M (n + 1) q delta := by
  intro n
  induction n with
  | zero => 
    intro q d h _
    rw [widen, widen, if_neg (by omega)]
  | succ n ih =>
    intro q d h h0
    rw [widen.eq_def _ _ _ _ _ _ (n + 1), widen.eq_def _ _ _ _ _ _ (n + 1 + 1)]
    simp only
    split_ifs with h1
    · cases hp : peakFit F E data peak (d * 2) seed with
      | error e => rfl
      | ok r =>
        by_cases hd : d = 0
        · subst hd
          rw [h0 rfl] at hp
          exfalso
          unfold peakFit at hp
          simp only [Nat.zero_mul] at hp
          split_ifs at hp
          have e : slice ((points data peak 0).map (·.2)) (((0 : Nat) : Int) - ((0 : Nat) : Int)) (0 + 0) = [] := by
            simp [slice]
          rw [e] at hp
          simp only [sigma, if_pos] at hp
          split at hp
          · cases hp
          · cases hp
        · exact ih _ _ (by omega) (by omega)
    · rfl

theorem covPeak_eq (C : Fin 3 → Fin 3 → K) (p : K × K × K) :
    covPeak C p.2.1 p.2.2 =
      [[∑ i, ∑ j, gradX p i * C i j * gradX p j, ∑ i, ∑ j, gradX p i * C i j * gradY p j],
       [∑ i, ∑ j, gradY p i * C i j * gradX p j, ∑ i, ∑ j, gradY p i * C i j * gradY p j]] := by
  have hx : (![0, -1 / 2 / p.2.2, p.2.1 / 2 / p.2.2 / p.2.2] : Fin 3 → K) = gradX p := by
    funext i; fin_cases i <;> simp [gradX, div_div, pow_two, mul_assoc]
  have hy : (![1, -p.2.1 / 2 / p.2.2, p.2.1 * p.2.1 / 4 / p.2.2 / p.2.2] : Fin 3 → K) = gradY p := by
    funext i; fin_cases i <;> simp [gradY, div_div, pow_two, mul_assoc]
  unfold covPeak
  simp only [hx, hy, if_true, Fin.isValue, one_ne_zero, if_false]
  have s : ∀ u v : Fin 3 → K, ∑ i, ∑ j, u i * C j i * v j = ∑ i, ∑ j, v i * C i j * u j := by
    intro u v
    rw [Finset.sum_comm]
    refine Finset.sum_congr rfl fun i _ => Finset.sum_congr rfl fun j _ => by ring
  rw [s, s, s, s]

theorem peakFit_ok {F : Fitter K} {E : Ext K} {data : List K} {peak delta bite : Nat}
    {r : K × List (Int × K) × (K × K × K)} (h : peakFit F E data peak delta bite = .ok r) :
    r.2.1 = window data peak delta ∧ r.2.2 = F.fit (window data peak delta) (0, 0, 0) := by
  unfold peakFit at h
  simp only [points_eq] at h
  split_ifs at h
  split at h
  · cases h
  · split at h
    · cases h
    · split_ifs at h
      cases h
      exact ⟨rfl, rfl⟩

theorem peakFit_err {F : Fitter K} {E : Ext K} {data : List K} {peak delta bite : Nat} {e : Err}
    (h : peakFit F E data peak delta bite = .error e) : e = .IndexError ∨ e = .ZeroDivisionError := by
  unfold peakFit at h
  simp only at h
  have hs : ∀ (l : List K) (e : Err), sigma E l = .error e → e = .ZeroDivisionError := by
    intro l e h
    unfold sigma at h
    simp only at h
    split_ifs at h
    cases h
    rfl
  split_ifs at h with h1
  · cases h
    exact .inl rfl
  · split at h
    · cases h
      exact .inr (hs _ _ (by assumption))
    · split at h
      · cases h
        exact .inr (hs _ _ (by assumption))
      · split_ifs at h
        cases h
        exact .inr rfl

theorem onePeak_ok {F : Fitter K} {E : Ext K} {data : List K} {seed maxDelta peak : Nat} {q : K}
    {r : K × Option (Entry K)} (h : onePeak F E data seed (min data.length maxDelta) q peak = .ok r) :
    Outcome F data seed maxDelta peak r.2 := by
  unfold onePeak at h
  simp only at h
  obtain ⟨delta, hd⟩ : ∃ d, (widen F E data peak seed (min data.length maxDelta)
      (min data.length maxDelta + 1) q seed).2 / 2 = d := ⟨_, rfl⟩
  rw [hd] at h
  have hdelta : delta = seed / 2 ∨ ∃ k, delta = seed * 2 ^ k ∧ delta < maxDelta ∧ delta < data.length := by
    have := widen_delta F E data peak seed (min data.length maxDelta) (min data.length maxDelta + 1) q 0
    rw [pow_zero, Nat.mul_one] at this
    rcases this with h1 | ⟨j, h1, h2⟩
    · exact .inl (by rw [← hd, h1])
    · have : delta = seed * 2 ^ j := by rw [← hd, h1]; omega
      exact .inr ⟨j, this, by omega, by omega⟩
  cases hp : peakFit F E data peak delta seed with
  | error e => rw [hp] at h; cases h
  | ok s =>
    obtain ⟨q', pts, start⟩ := s
    obtain ⟨h1, h2⟩ := peakFit_ok hp
    simp only at h1 h2
    rw [hp] at h
    simp only [h1, h2] at h
    set p := F.fit (window data peak delta) (F.fit (window data peak delta) (0, 0, 0)) with hpdef
    split_ifs at h with h3 h4
    · cases h
      refine ⟨delta, p, -p.2.1 / 2 / p.2.2 + peak, -p.2.1 * p.2.1 / 4 / p.2.2 + p.1, hdelta, rfl, h3, ?_,
        ?_, fun _ => rfl⟩
      · intro t; field_simp; ring
      · rintro ⟨a, b, c⟩
        exfalso
        rcases h4 with h4 | h4 | h4 <;> linarith
    · cases h
      refine ⟨delta, p, -p.2.1 / 2 / p.2.2 + peak, -p.2.1 * p.2.1 / 4 / p.2.2 + p.1, hdelta, rfl, h3, ?_,
        fun _ => ⟨_, rfl, by rw [covPeak_eq]⟩, ?_⟩
      · intro t; field_simp; ring
      · intro h5
        exfalso
        push Not at h4
        exact h5 h4

theorem peaksLoop_ok (F : Fitter K) (E : Ext K) (data : List K) (seed maxDelta : Nat) :
    ∀ (l : List Nat) (q : K) (out : List (Entry K)),
      peaksLoop F E data seed (min data.length maxDelta) q l = .ok out →
      ∃ os, List.Forall₂ (Outcome F data seed maxDelta) l os ∧ out = os.reduceOption := by
  intro l
  induction l with
  | nil => intro q out h; cases h; exact ⟨[], .nil, rfl⟩
  | cons a l ih =>
    intro q out h
    rw [peaksLoop] at h
    cases h1 : onePeak F E data seed (min data.length maxDelta) q a with
    | error e => rw [h1] at h; cases h
    | ok r =>
      obtain ⟨q', o⟩ := r
      rw [h1] at h
      simp only at h
      cases h2 : peaksLoop F E data seed (min data.length maxDelta) q' l with
      | error e => rw [h2] at h; cases h
      | ok out' =>
        rw [h2] at h
        cases h
        obtain ⟨os, h3, rfl⟩ := ih q' out' h2
        refine ⟨o :: os, .cons (onePeak_ok h1) h3, ?_⟩
        cases o <;> rfl

theorem peaksLoop_err (F : Fitter K) (E : Ext K) (data : List K) (seed M : Nat) :
    ∀ (l : List Nat) (q : K) (e : Err), peaksLoop F E data seed M q l = .error e →
      e = .IndexError ∨ e = .ZeroDivisionError := by
  intro l
  induction l with
  | nil => intro q e h; cases h
  | cons a l ih =>
    intro q e h
    rw [peaksLoop] at h
    cases h1 : onePeak F E data seed M q a with
    | error e' =>
      rw [h1] at h
      cases h
      unfold onePeak at h1
      simp only at h1
      split at h1
      · cases h1
        exact peakFit_err (by assumption)
      · split_ifs at h1
        cases h1
        exact .inr rfl
    | ok r =>
      obtain ⟨q', o⟩ := r
      rw [h1] at h
      simp only at h
      cases h2 : peaksLoop F E data seed M q' l with
      | error e' => rw [h2] at h; cases h; exact ih _ _ h2
      | ok out' => rw [h2] at h; cases h


theorem sum_dev (m : K) : ∀ l : List K, (l.map fun y => (y - m) ^ 2).sum =
    (l.map fun y => y ^ 2).sum - 2 * m * l.sum + l.length * m ^ 2 := by
  intro l
  induction l with
  | nil => simp
  | cons a l ih =>
    simp only [List.map_cons, List.sum_cons, ih, List.length_cons]
    push_cast
    ring

theorem sum_sq_nonneg {α : Type} (f : α → K) : ∀ l : List α, 0 ≤ (l.map fun y => f y ^ 2).sum := by
  intro l
  induction l with
  | nil => simp
  | cons a l ih => rw [List.map_cons, List.sum_cons]; positivity

theorem sum_sq_eq_zero {α : Type} (f : α → K) : ∀ l : List α, (l.map fun y => f y ^ 2).sum ≤ 0 →
    ∀ a ∈ l, f a = 0 := by
  intro l
  induction l with
  | nil => intro _ a h; cases h
  | cons a l ih =>
    intro h b hb
    rw [List.map_cons, List.sum_cons] at h
    have h1 := sum_sq_nonneg f l
    have h2 := sq_nonneg (f a)
    rcases List.mem_cons.1 hb with rfl | hb
    · exact pow_eq_zero_iff (n := 2) (by norm_num) |>.1 (by linarith)
    · exact ih (by linarith) b hb

/-- sigma is the root of the mean square deviation from the mean -/
theorem sigma_eq (E : Ext K) (l : List K) (hl : l ≠ []) : sigma E l =
    .ok (E.sqrt ((l.map fun y => (y - l.sum / l.length) ^ 2).sum / l.length)) := by
  have hn : (l.length : K) ≠ 0 := by
    have : l.length ≠ 0 := by simpa using hl
    exact_mod_cast this
  unfold sigma
  rw [if_neg hl]
  simp only
  congr 2
  rw [sum_dev]
  field_simp
  ring

theorem sigma_ne {E : Ext K} (hE : E.Lawful) (l : List K) {a b : K} (ha : a ∈ l) (hb : b ∈ l) (hab : a ≠ b) :
    ∃ s, sigma E l = .ok s ∧ 0 < s := by
  have hl : l ≠ [] := List.ne_nil_of_mem ha
  refine ⟨_, sigma_eq E l hl, ?_⟩
  have hn : (0 : K) < l.length := by
    have : 0 < l.length := List.length_pos_of_mem ha
    exact_mod_cast this
  have h0 := sum_sq_nonneg (fun y => y - l.sum / l.length) l
  have hp : 0 < (l.map fun y => (y - l.sum / l.length) ^ 2).sum := by
    rcases lt_or_eq_of_le h0 with h | h
    · exact h
    · exfalso
      have hz := sum_sq_eq_zero (fun y => y - l.sum / l.length) l (le_of_eq h.symm)
      have e1 := hz a ha
      have e2 := hz b hb
      exact hab (by linarith)
  have hq := div_pos hp hn
  rcases lt_or_eq_of_le (hE.sqrt_nonneg _ hq.le) with h | h
  · exact h
  · have := hE.sqrt_mul_self _ hq.le
    rw [← h] at this
    linarith

theorem sqrt_zero' {E : Ext K} (hE : E.Lawful) : E.sqrt 0 = 0 := by
  have := hE.sqrt_mul_self 0 le_rfl
  exact mul_self_eq_zero.1 this

theorem sigma_zero {E : Ext K} (hE : E.Lawful) (l : List K) (hl : l ≠ []) (h : ∀ a ∈ l, a = 0) :
    sigma E l = .ok 0 := by
  have e : l = List.replicate l.length 0 := List.eq_replicate_iff.2 ⟨rfl, h⟩
  unfold sigma
  rw [if_neg hl]
  simp only
  congr 1
  have e1 : l.sum = 0 := by rw [e]; simp
  have e2 : (l.map fun y => y ^ 2).sum = 0 := by
    rw [e]; simp
  rw [e1, e2]
  simp [sqrt_zero' hE]

/-- the data lie on the parabola with vertex (c, a) -/
def OnParabola (data : List K) (a b c : K) : Prop :=
  ∀ i, i < data.length → data.getD i 0 = a + b * ((i : K) - c) ^ 2

/-- a least squares fit of three or more points of a parabola is that parabola -/
theorem fit_exact {F : Fitter K} (hF : LeastSquares F) {data : List K} {a b c : K}
    (hd : OnParabola data a b c) {peak delta : Nat}
    (h3 : peak - delta + 3 ≤ min (peak + delta + 1) data.length) (start : K × K × K) :
    F.fit (points data peak delta) start =
      (a + b * ((peak : K) - c) ^ 2, 2 * b * ((peak : K) - c), b) := by
  have hlen : (points data peak delta).length = min (peak + delta + 1) data.length - (peak - delta) := by
    simp [points]
  have hmem : ∀ i, i < min (peak + delta + 1) data.length - (peak - delta) →
      (((((peak - delta + i : Nat) : Int) - peak), a + b * (((peak - delta + i : Nat) : K) - c) ^ 2) : Int × K) ∈
        points data peak delta := by
    intro i hi
    unfold points
    simp only
    refine List.mem_map.2 ⟨i, List.mem_range.2 hi, ?_⟩
    rw [hd _ (by omega)]
  have hne : points data peak delta ≠ [] := by
    intro h; rw [h] at hlen; simp at hlen; omega
  set p := F.fit (points data peak delta) start with hp
  have hle := hF (points data peak delta) start (a + b * ((peak : K) - c) ^ 2, 2 * b * ((peak : K) - c), b) hne
  have h0 : residuals (points data peak delta) (a + b * ((peak : K) - c) ^ 2, 2 * b * ((peak : K) - c), b) = 0 := by
    unfold residuals
    refine List.sum_eq_zero fun x hx => ?_
    obtain ⟨q, hq, rfl⟩ := List.mem_map.1 hx
    unfold points at hq
    obtain ⟨i, hi, rfl⟩ := List.mem_map.1 hq
    rw [List.mem_range] at hi
    simp only
    rw [hd _ (by omega)]
    push_cast
    ring
  rw [h0] at hle
  have hz := sum_sq_eq_zero (fun q : Int × K => q.2 - (p.1 + p.2.1 * (q.1 : K) + p.2.2 * (q.1 : K) ^ 2)) _ hle
  have e0 := hz _ (hmem 0 (by omega))
  have e1 := hz _ (hmem 1 (by omega))
  have e2 := hz _ (hmem 2 (by omega))
  simp only [Nat.add_zero] at e0 e1 e2
  push_cast at e0 e1 e2
  obtain ⟨p0, p1, p2⟩ := p
  simp only at e0 e1 e2
  generalize (((peak - delta : Nat)) : K) = u at e0 e1 e2
  have h2 : p2 = b := by linear_combination (-1 / 2) * e0 + e1 - (1 / 2) * e2
  subst h2
  have h1 : p1 = 2 * p2 * ((peak : K) - c) := by linear_combination e0 - e1
  subst h1
  have h0 : p0 = a + p2 * ((peak : K) - c) ^ 2 := by linear_combination -e0
  rw [h0]

/-- on a parabola each fit that is centred in the data succeeds, with quality < 1 -/
theorem peakFit_parabola {F : Fitter K} (hF : LeastSquares F) {E : Ext K} (hE : E.Lawful) {data : List K}
    {a b c : K} (hb : b ≠ 0) (hd : OnParabola data a b c) {peak delta seed : Nat} (hs : 2 ≤ seed)
    (hsd : seed ≤ delta) (hdl : delta < data.length) (hp : peak < data.length) :
    ∃ q, q < 1 ∧ peakFit F E data peak delta seed = .ok (q, points data peak delta,
      (a + b * ((peak : K) - c) ^ 2, 2 * b * ((peak : K) - c), b)) := by
  have h3 : peak - delta + 3 ≤ min (peak + delta + 1) data.length := by omega
  have hfit := fit_exact hF hd h3 (0, 0, 0)
  have hlen : (points data peak delta).length = min (peak + delta + 1) data.length - (peak - delta) := by
    simp [points]
  have hne : points data peak delta ≠ [] := by
    intro h; rw [h] at hlen; simp at hlen; omega
  unfold peakFit
  simp only [if_neg hne, hfit]
  rw [sigma_zero hE _ (by simpa using hne) (by
    intro x hx
    obtain ⟨q, hq, rfl⟩ := List.mem_map.1 hx
    unfold points at hq
    obtain ⟨i, hi, rfl⟩ := List.mem_map.1 hq
    rw [List.mem_range] at hi
    simp only [eval]
    rw [hd _ (by omega)]
    push_cast
    ring)]
  simp only
  have hbite : ∀ j, j < 3 → a + b * (((peak - delta + (delta - seed) + j : Nat) : K) - c) ^ 2 ∈
      slice ((points data peak delta).map (·.2)) ((delta : Int) - seed) (delta + seed) := by
    intro j hj
    have hneg : ¬ ((delta : Int) - seed < 0) := by omega
    have hto : ((delta : Int) - seed).toNat = delta - seed := by omega
    unfold slice
    rw [if_neg hneg, hto, List.mem_iff_getElem?]
    refine ⟨j, ?_⟩
    rw [List.getElem?_drop, List.getElem?_take, if_pos (by omega), List.getElem?_map]
    unfold points
    simp only
    rw [List.getElem?_map, List.getElem?_range (by omega)]
    simp only [Option.map_some]
    rw [hd _ (by omega), ← Nat.add_assoc]
  generalize hw : peak - delta + (delta - seed) = w at hbite
  have m0 := hbite 0 (by omega)
  have m1 := hbite 1 (by omega)
  have m2 := hbite 2 (by omega)
  obtain ⟨sb, hsb, hpos⟩ : ∃ s, sigma E (slice ((points data peak delta).map (·.2)) ((delta : Int) - seed)
      (delta + seed)) = .ok s ∧ 0 < s := by
    by_cases h01 : a + b * (((w + 0 : Nat) : K) - c) ^ 2 = a + b * (((w + 1 : Nat) : K) - c) ^ 2
    · refine sigma_ne hE _ m1 m2 fun h12 => hb ?_
      push_cast at h01 h12
      linear_combination (1 / 2) * h01 - (1 / 2) * h12
    · exact sigma_ne hE _ m0 m1 h01
  rw [hsb]
  simp only [if_neg hpos.ne']
  refine ⟨_, ?_, rfl⟩
  have : 0 ≤ E.sqrt (seed : K) := hE.sqrt_nonneg _ (Nat.cast_nonneg _)
  rw [zero_div]
  linarith

theorem widen_parabola {F : Fitter K} (hF : LeastSquares F) {E : Ext K} (hE : E.Lawful) {data : List K}
    {a b c : K} (hb : b ≠ 0) (hd : OnParabola data a b c) {peak seed M : Nat} (hs : 2 ≤ seed)
    (hM : M ≤ data.length) (hp : peak < data.length) :
    ∀ (n : Nat) (q : K) (k : Nat), q < 1 → seed * 2 ^ k < M → M < n + seed * 2 ^ k →
      ∃ j, (widen F E data peak seed M n q (seed * 2 ^ k)).2 / 2 = seed * 2 ^ j ∧ seed * 2 ^ j < M ∧
        M ≤ 2 * (seed * 2 ^ j) := by
  intro n
  induction n with
  | zero => intro q k _ h1 h2; omega
  | succ n ih =>
    intro q k hq h1 h2
    have hpos : 1 ≤ 2 ^ k := Nat.one_le_two_pow
    have hseed : seed ≤ seed * 2 ^ k := Nat.le_mul_of_pos_right _ hpos
    have e : seed * 2 ^ k * 2 = seed * 2 ^ (k + 1) := by ring
    rw [widen, if_pos ⟨hq, h1⟩]
    by_cases h : seed * 2 ^ k * 2 < M
    · obtain ⟨q', hq', hf⟩ := peakFit_parabola hF hE hb hd hs (delta := seed * 2 ^ k * 2) (by omega) (by omega) hp
      rw [hf]
      simp only [e]
      exact ih q' (k + 1) hq' (by omega) (by omega)
    · refine ⟨k, ?_, h1, by omega⟩
      cases hf : peakFit F E data peak (seed * 2 ^ k * 2) seed with
      | error _ => simp only; omega
      | ok r =>
        simp only
        have : widen F E data peak seed M n r.1 (seed * 2 ^ k * 2) = (r.1, seed * 2 ^ k * 2) := by
          cases n with
          | zero => rfl
          | succ n => rw [widen, if_neg (by omega)]
        rw [this]
        simp only
        omega

theorem pow_window {s M i j : Nat} (h1 : s * 2 ^ i < M) (h2 : M ≤ 2 * (s * 2 ^ i)) (h3 : s * 2 ^ j < M)
    (h4 : M ≤ 2 * (s * 2 ^ j)) : s * 2 ^ i = s * 2 ^ j := by
  rcases Nat.lt_trichotomy i j with h | h | h
  · exfalso
    have : 2 ^ (i + 1) ≤ 2 ^ j := Nat.pow_le_pow_right (by norm_num) h
    have : s * 2 ^ (i + 1) ≤ s * 2 ^ j := Nat.mul_le_mul_left _ this
    have e : s * 2 ^ (i + 1) = 2 * (s * 2 ^ i) := by ring
    omega
  · rw [h]
  · exfalso
    have : 2 ^ (j + 1) ≤ 2 ^ i := Nat.pow_le_pow_right (by norm_num) h
    have : s * 2 ^ (j + 1) ≤ s * 2 ^ i := Nat.mul_le_mul_left _ this
    have e : s * 2 ^ (j + 1) = 2 * (s * 2 ^ j) := by ring
    omega

theorem onePeak_parabola {F : Fitter K} (hF : LeastSquares F) {E : Ext K} (hE : E.Lawful) {data : List K}
    {a b c : K} (hb : b ≠ 0) (hd : OnParabola data a b c) {peak seed maxDelta k : Nat} (hs : 2 ≤ seed)
    (hp : peak < data.length) (hk : seed * 2 ^ k < min data.length maxDelta)
    (hk' : min data.length maxDelta ≤ 2 * (seed * 2 ^ k)) (q : K) (hq : q < 1) :
    ∃ q' C, q' < 1 ∧ onePeak F E data seed (min data.length maxDelta) q peak = .ok (q',
      if |c - peak| ≤ ((seed * 2 ^ k : Nat) : K) ∧ 0 ≤ c ∧ c ≤ data.length then some ⟨c, a, peak, C⟩ else none) := by
  have h2k : 1 ≤ 2 ^ k := Nat.one_le_two_pow
  have hsk : seed ≤ seed * 2 ^ k := Nat.le_mul_of_pos_right _ h2k
  have hw := widen_parabola hF hE hb hd (M := min data.length maxDelta) hs (by omega) hp
    (min data.length maxDelta + 1) q 0 hq (by rw [pow_zero]; omega) (by omega)
  obtain ⟨j, hj, hj1, hj2⟩ := hw
  rw [pow_zero, Nat.mul_one, pow_window hj1 hj2 hk hk'] at hj
  obtain ⟨q', hq', hf⟩ := peakFit_parabola hF hE hb hd hs hsk (by omega) hp
  unfold onePeak
  simp only [hj, hf]
  rw [fit_exact hF hd (by omega)]
  simp only [if_neg hb]
  have ex : -(2 * b * ((peak : K) - c)) / 2 / b + peak = c := by field_simp; ring
  have ey : -(2 * b * ((peak : K) - c)) * (2 * b * ((peak : K) - c)) / 4 / b + (a + b * ((peak : K) - c) ^ 2) = a := by
    field_simp; ring
  rw [ex, ey]
  refine ⟨q', covPeak (F.cov (points data peak (seed * 2 ^ k)) (a + b * ((peak : K) - c) ^ 2, 2 * b * ((peak : K) - c), b)) (2 * b * ((peak : K) - c)) b, hq', ?_⟩
  by_cases h : |c - peak| ≤ ((seed * 2 ^ k : Nat) : K) ∧ 0 ≤ c ∧ c ≤ data.length
  · have h' : ¬ (|c - peak| > ((seed * 2 ^ k : Nat) : K) ∨ c < 0 ∨ c > data.length) := by
      push Not; exact h
    rw [if_pos h, if_neg h']
  · have h' : |c - peak| > ((seed * 2 ^ k : Nat) : K) ∨ c < 0 ∨ c > data.length := by
      by_contra h'
      push Not at h'
      exact h h'
    rw [if_neg h, if_pos h']

theorem peaksLoop_parabola {F : Fitter K} (hF : LeastSquares F) {E : Ext K} (hE : E.Lawful) {data : List K}
    {a b c : K} (hb : b ≠ 0) (hd : OnParabola data a b c) {seed maxDelta k : Nat} (hs : 2 ≤ seed)
    (hk : seed * 2 ^ k < min data.length maxDelta) (hk' : min data.length maxDelta ≤ 2 * (seed * 2 ^ k)) :
    ∀ (l : List Nat) (q : K), q < 1 → (∀ p ∈ l, p < data.length) → ∃ out,
      peaksLoop F E data seed (min data.length maxDelta) q l = .ok out ∧
      out.map (fun e => (e.x, e.y, e.xIn)) = (l.filter fun p : Nat =>
        decide (|c - (p : K)| ≤ ((seed * 2 ^ k : Nat) : K) ∧ 0 ≤ c ∧ c ≤ data.length)).map fun p => (c, a, p) := by
  intro l
  induction l with
  | nil => intro q _ _; exact ⟨[], rfl, rfl⟩
  | cons p l ih =>
    intro q hq hl
    obtain ⟨q', C, hq', h1⟩ := onePeak_parabola hF hE hb hd hs (hl p (by simp)) hk hk' q hq
    obtain ⟨out, h2, h3⟩ := ih q' hq' fun x hx => hl x (by simp [hx])
    rw [peaksLoop, h1]
    simp only [h2]
    refine ⟨_, rfl, ?_⟩
    rw [List.filter_cons]
    by_cases h : |c - (p : K)| ≤ ((seed * 2 ^ k : Nat) : K) ∧ 0 ≤ c ∧ c ≤ data.length
    · rw [if_pos h, if_pos (decide_eq_true h)]
      simp [h3]
    · rw [if_neg h, if_neg (by simpa using h)]
      simp only [Option.toList_none, List.nil_append]
      exact h3

/-! ### Properties -/

/-- **C86**: find_peak_errors (Python 2): every estimated peak is replaced, in order, by the vertex of the
parabola that is fitted to the data around it, with the covariance of the fit parameters propagated to it,
or is left out if the vertex is further from the estimate than the data used in the fit or outside of the
data; the distance of the data used is below max_delta or half of delta_seed.  Otherwise IndexError or
ZeroDivisionError is raised.  Missing: when the fit fails, and in Python 3 the claim is false
(C86_py3_false). -/
theorem C86_partial (F : Fitter K) (E : Ext K) (peakList : List Nat) (seed maxDelta : Nat) (data : List K) :
    match findPeakErrors .py2 F E peakList seed maxDelta data with
    | .ok out => ∃ os, List.Forall₂ (Outcome F data seed maxDelta) peakList os ∧ out = os.reduceOption
    | .error e => e = .IndexError ∨ e = .ZeroDivisionError := by
  cases h : findPeakErrors .py2 F E peakList seed maxDelta data with
  | ok out => exact peaksLoop_ok F E data seed maxDelta peakList 0 out h
  | error e => exact peaksLoop_err F E data seed _ peakList 0 e h

/-- **C86**: data on a parabola: all estimates within delta of the vertex are refined to the vertex, the
others are left out.  delta is the largest of delta_seed, 2 delta_seed, 4 delta_seed, ... below max_delta
and the length of the data. -/
theorem C86_parabola {F : Fitter K} (hF : LeastSquares F) {E : Ext K} (hE : E.Lawful) {data : List K}
    {a b c : K} (hb : b ≠ 0) (hd : OnParabola data a b c) (peakList : List Nat) {seed maxDelta k : Nat}
    (hl : ∀ p ∈ peakList, p < data.length) (hs : 2 ≤ seed) (hk : seed * 2 ^ k < min data.length maxDelta)
    (hk' : min data.length maxDelta ≤ seed * 2 ^ (k + 1)) :
    ∃ out, findPeakErrors .py2 F E peakList seed maxDelta data = .ok out ∧
      out.map (fun e => (e.x, e.y, e.xIn)) = (peakList.filter fun p : Nat =>
        decide (|c - (p : K)| ≤ ((seed * 2 ^ k : Nat) : K) ∧ 0 ≤ c ∧ c ≤ data.length)).map fun p => (c, a, p) := by
  have e : seed * 2 ^ (k + 1) = 2 * (seed * 2 ^ k) := by ring
  exact peaksLoop_parabola hF hE hb hd hs hk (by omega) peakList 0 zero_lt_one hl

/-- **C86**: find_peaks gives the whole part of the refined positions. -/
theorem C86_find_peaks [FloorRing K] (v : PyVer) (F : Fitter K) (E : Ext K) (peakList : List Nat)
    (seed maxDelta : Nat) (data : List K) :
    match findPeaks v F E peakList seed maxDelta data with
    | .ok l => ∃ out, findPeakErrors v F E peakList seed maxDelta data = .ok out ∧
        List.Forall₂ (fun (e : Entry K) (i : Int) => 0 ≤ i ∧ (i : K) ≤ e.x ∧ e.x < i + 1 ∧ i ≤ data.length) out l
    | .error e => findPeakErrors v F E peakList seed maxDelta data = .error e := by
  unfold findPeaks
  cases h : findPeakErrors v F E peakList seed maxDelta data with
  | error e => rfl
  | ok out =>
    refine ⟨out, rfl, ?_⟩
    rw [List.forall₂_map_right_iff, List.forall₂_same]
    intro e he
    have hx : 0 ≤ e.x ∧ e.x ≤ data.length := by
      cases v with
      | py3 =>
        cases peakList with
        | nil => cases h; cases he
        | cons p l => cases h
      | py2 =>
        obtain ⟨os, hos, rfl⟩ := peaksLoop_ok F E data seed maxDelta peakList 0 out h
        have ho : some e ∈ os := List.reduceOption_mem_iff.1 he
        obtain ⟨p, _, δ, pr, x, y, _, _, _, _, h1, h2⟩ : ∃ p ∈ peakList, Outcome F data seed maxDelta p (some e) := by
          clear h he
          induction hos with
          | nil => cases ho
          | @cons p o l os' hh _ ih =>
            rcases List.mem_cons.1 ho with rfl | ho
            · exact ⟨p, by simp, hh⟩
            · obtain ⟨p', hp', h'⟩ := ih ho
              exact ⟨p', by simp [hp'], h'⟩
        by_cases hc : |x - p| ≤ δ ∧ 0 ≤ x ∧ x ≤ data.length
        · obtain ⟨C, _, h3⟩ := h1 hc
          cases h3
          exact hc.2
        · cases h2 hc
    refine ⟨Int.floor_nonneg.2 hx.1, Int.floor_le _, Int.lt_floor_add_one _, ?_⟩
    have : (⌊e.x⌋ : K) ≤ (data.length : K) := (Int.floor_le _).trans hx.2
    exact_mod_cast this

/-- **C86** is false in Python 3: with any estimated peak and any data TypeError is raised. -/
theorem C86_py3_false (F : Fitter K) (E : Ext K) (peak : Nat) (peakList : List Nat) (seed maxDelta : Nat)
    (data : List K) (hd : data ≠ []) :
    findPeakErrors .py3 F E (peak :: peakList) seed maxDelta data = .error .TypeError := by
  simp [findPeakErrors, hd]

/-- **C86** is false: the position that is returned by find_peaks need not be an index of the data.  Data
on a parabola with vertex one step behind the last point: its length is returned. -/
theorem C86_index_false [FloorRing K] {F : Fitter K} (hF : LeastSquares F) {E : Ext K} (hE : E.Lawful) :
    findPeaks .py2 F E [4] 2 3 ([-25, -16, -9, -4, -1] : List K) = .ok [5] := by
  have hd : OnParabola ([-25, -16, -9, -4, -1] : List K) 0 (-1) 5 := by
    intro i hi
    simp only [List.length_cons, List.length_nil] at hi
    interval_cases i <;> norm_num
  obtain ⟨out, h1, h2⟩ := C86_parabola hF hE (by norm_num : (-1 : K) ≠ 0) hd [4] (seed := 2) (maxDelta := 3)
    (k := 0) (by simp) le_rfl (by simp) (by simp)
  have h3 : ([4] : List Nat).filter (fun p : Nat => decide (|(5 : K) - (p : K)| ≤ ((2 * 2 ^ 0 : Nat) : K) ∧
      0 ≤ (5 : K) ∧ (5 : K) ≤ ([-25, -16, -9, -4, -1] : List K).length)) = [4] := by
    rw [List.filter_cons, if_pos, List.filter_nil]
    rw [decide_eq_true_eq]
    norm_num
  rw [h3] at h2
  unfold findPeaks
  rw [h1]
  simp only
  have h4 : out.map (fun e => e.x) = [5] := by
    have := congrArg (List.map Prod.fst) h2
    simpa using this
  have h5 : out.map (fun e => ⌊e.x⌋) = (out.map fun e => e.x).map (fun x => ⌊x⌋) := by simp
  rw [h5, h4]
  simp

theorem fit_five {F : Fitter K} (hF : LeastSquares F) (y : K × K × K × K × K) (start : K × K × K) :
    14 * (F.fit [(-2, y.1), (-1, y.2.1), (0, y.2.2.1), (1, y.2.2.2.1), (2, y.2.2.2.2)] start).2.2 =
      2 * y.1 - y.2.1 - 2 * y.2.2.1 - y.2.2.2.1 + 2 * y.2.2.2.2 := by
  obtain ⟨y0, y1, y2, y3, y4⟩ := y
  simp only
  have h := hF [(-2, y0), (-1, y1), (0, y2), (1, y3), (2, y4)] start
  generalize F.fit [(-2, y0), (-1, y1), (0, y2), (1, y3), (2, y4)] start = p at h ⊢
  obtain ⟨p0, p1, p2⟩ := p
  simp only
  obtain ⟨d, hd⟩ : ∃ d, d = (2 * y0 - y1 - 2 * y2 - y3 + 2 * y4 - 14 * p2) / 14 := ⟨_, rfl⟩
  have h1 := h (p0 - 2 * d, p1, p2 + d) (by simp)
  simp only [residuals, List.map_cons, List.map_nil, List.sum_cons, List.sum_nil] at h1
  push_cast at h1
  have hd' : 2 * y0 - y1 - 2 * y2 - y3 + 2 * y4 - 14 * p2 = 14 * d := by rw [hd]; field_simp
  have h2 : 14 * d ^ 2 ≤ 0 := by
    have : 14 * d ^ 2 = 2 * d * (14 * d) - 14 * d ^ 2 := by ring
    rw [this, ← hd']
    linear_combination h1
  have h3 : d = 0 := by
    have := sq_nonneg d
    exact pow_eq_zero_iff (n := 2) (by norm_num) |>.1 (by linarith)
  rw [h3] at hd'
  linear_combination -hd'

theorem sigma_five {E : Ext K} (hE : E.Lawful) (r0 r1 r2 r3 r4 : K) (h : -r0 + 2 * r1 - 2 * r3 + r4 = 100) :
    ∃ s, sigma E [r0, r1, r2, r3, r4] = .ok s ∧ 0 ≤ s ∧ 200 ≤ s * s := by
  rw [sigma_eq _ _ (by simp)]
  obtain ⟨m, hm⟩ : ∃ m, m = [r0, r1, r2, r3, r4].sum / (([r0, r1, r2, r3, r4].length : Nat) : K) := ⟨_, rfl⟩
  rw [← hm]
  have h1 : 200 ≤ (List.map (fun y => (y - m) ^ 2) [r0, r1, r2, r3, r4]).sum /
      (([r0, r1, r2, r3, r4].length : Nat) : K) := by
    rw [le_div_iff₀ (by norm_num)]
    simp only [List.map_cons, List.map_nil, List.sum_cons, List.sum_nil, List.length_cons, List.length_nil]
    push_cast
    have a0 := sq_nonneg (r0 - m + 10)
    have a1 := sq_nonneg (r1 - m - 20)
    have a2 := sq_nonneg (r2 - m)
    have a3 := sq_nonneg (r3 - m + 20)
    have a4 := sq_nonneg (r4 - m - 10)
    linear_combination a0 + a1 + a2 + a3 + a4 - 20 * h
  have h2 : (0 : K) ≤ 200 := by norm_num
  exact ⟨_, rfl, hE.sqrt_nonneg _ (h2.trans h1), by rw [hE.sqrt_mul_self _ (h2.trans h1)]; exact h1⟩

/-- **C86** is false: what is found for a peak is not independent of the other peaks.  fit_quality is
carried on from one peak to the next; here each of the peaks 2 and 8 is refined, but ZeroDivisionError is
raised if both are asked for. -/
theorem C86_carry_false {F : Fitter K} (hF : LeastSquares F) {E : Ext K} (hE : E.Lawful) :
    (∃ r, findPeakErrors .py2 F E [2] 2 3 ([0, 1, 2, 1, 100, 0, 0, 3, 4, 3, 0] : List K) = .ok r) ∧
    (∃ C, findPeakErrors .py2 F E [8] 2 3 ([0, 1, 2, 1, 100, 0, 0, 3, 4, 3, 0] : List K) = .ok [⟨8, 4, 8, C⟩]) ∧
    findPeakErrors .py2 F E [2, 8] 2 3 ([0, 1, 2, 1, 100, 0, 0, 3, 4, 3, 0] : List K) =
      .error .ZeroDivisionError := by
  set data : List K := [0, 1, 2, 1, 100, 0, 0, 3, 4, 3, 0] with hdata
  have hwid : ∀ peak, (widen F E data peak 2 3 4 0 2).2 / 2 = 2 := by
    intro peak
    rw [widen, if_pos ⟨zero_lt_one, by norm_num⟩]
    cases peakFit F E data peak (2 * 2) 2 with
    | error e => simp only
    | ok r => simp only; rw [widen, if_neg (by omega)]; norm_num
  have hp2 : points data 2 2 = [(-2, 0), (-1, 1), (0, 2), (1, 1), (2, 100)] := by
    simp [points, hdata, List.range_succ]
  have hp8 : points data 8 2 = [(-2, 0), (-1, 3), (0, 4), (1, 3), (2, 0)] := by
    simp [points, hdata, List.range_succ]
  have hp1 : points data 8 1 = [(-1, 3), (0, 4), (1, 3)] := by
    simp [points, hdata, List.range_succ]
  have hsq2 : 1 ≤ E.sqrt (2 : K) := by
    have h1 := hE.sqrt_nonneg 2 (by norm_num)
    have h2 := hE.sqrt_mul_self 2 (by norm_num)
    by_contra h
    push Not at h
    nlinarith
  -- the first peak
  obtain ⟨q, o, hq, h2⟩ : ∃ q o, 1 ≤ q ∧ onePeak F E data 2 3 0 2 = .ok (q, o) := by
    have hf : ∃ q, 1 ≤ q ∧ peakFit F E data 2 2 2 = .ok (q, points data 2 2, F.fit (points data 2 2) (0, 0, 0)) := by
      unfold peakFit
      simp only [hp2]
      rw [if_neg (by simp)]
      generalize F.fit [(-2, 0), (-1, 1), (0, 2), (1, 1), (2, 100)] (0, 0, 0) = p
      obtain ⟨p0, p1, p2⟩ := p
      have hbite : slice [(0 : K), 1, 2, 1, 100]
          (((2 : Nat) : Int) - ((2 : Nat) : Int)) (2 + 2) = [0, 1, 2, 1] := by simp [slice]
      simp only [List.map_cons, List.map_nil, hbite]
      obtain ⟨sd, hsd, h0, hsd2⟩ := sigma_five hE (0 - eval (p0, p1, p2) ((-2 : Int) : K))
        (1 - eval (p0, p1, p2) ((-1 : Int) : K)) (2 - eval (p0, p1, p2) ((0 : Int) : K))
        (1 - eval (p0, p1, p2) ((1 : Int) : K)) (100 - eval (p0, p1, p2) ((2 : Int) : K))
        (by simp only [eval]; push_cast; ring)
      rw [hsd]
      have hv : (List.map (fun y : K => (y - [0, 1, 2, 1].sum / (([(0 : K), 1, 2, 1].length : Nat) : K)) ^ 2)
          [0, 1, 2, 1]).sum / (([(0 : K), 1, 2, 1].length : Nat) : K) = 1 / 2 := by norm_num
      rw [sigma_eq _ _ (by simp), hv]
      simp only
      have b0 := hE.sqrt_nonneg (1 / 2 : K) (by norm_num)
      have b1 := hE.sqrt_mul_self (1 / 2 : K) (by norm_num)
      have bpos : 0 < E.sqrt (1 / 2 : K) := by
        rcases lt_or_eq_of_le b0 with h | h
        · exact h
        · rw [← h] at b1; norm_num at b1
      rw [if_neg bpos.ne']
      refine ⟨_, ?_, rfl⟩
      have h2 : 2 ≤ sd / E.sqrt (1 / 2 : K) := by
        rw [le_div_iff₀ bpos]
        by_contra hc
        push Not at hc
        nlinarith
      have h3 : E.sqrt ((2 : Nat) : K) = E.sqrt 2 := by norm_num
      rw [h3]
      nlinarith
    obtain ⟨q, hq, hf⟩ := hf
    unfold onePeak
    simp only [hwid, hf]
    have h14 := fit_five hF (0, 1, 2, 1, 100) (F.fit (points data 2 2) (0, 0, 0))
    simp only [← hp2] at h14
    rw [if_neg (by intro h; rw [h] at h14; norm_num at h14)]
    split_ifs
    · exact ⟨_, _, hq, rfl⟩
    · exact ⟨_, _, hq, rfl⟩
  -- the second peak on its own
  obtain ⟨q8, C, h8⟩ : ∃ q C, onePeak F E data 2 3 0 8 = .ok (q, some ⟨8, 4, 8, C⟩) := by
    set data' : List K := [-60, -45, -32, -21, -12, -5, 0, 3, 4, 3, 0] with hdata'
    have hd : OnParabola data' 4 (-1) 8 := by
      intro i hi
      simp only [hdata', List.length_cons, List.length_nil] at hi
      interval_cases i <;> norm_num [hdata']
    have hp : points data' 8 2 = points data 8 2 := by
      rw [hp8]
      simp [points, hdata', List.range_succ]
    obtain ⟨q8, _, hf⟩ := peakFit_parabola hF hE (by norm_num : (-1 : K) ≠ 0) hd (peak := 8) (delta := 2) (seed := 2)
      le_rfl le_rfl (by simp [hdata']) (by simp [hdata'])
    have hfit := fun start => fit_exact hF hd (peak := 8) (delta := 2) (by simp [hdata']) start
    unfold peakFit at hf
    rw [hp] at hf
    have hf' : peakFit F E data 8 2 2 = _ := hf
    rw [hp] at hfit
    unfold onePeak
    simp only [hwid, hf', hfit]
    rw [if_neg (by norm_num), if_neg (by norm_num [hdata])]
    have ex : -(2 * -1 * (((8 : Nat) : K) - 8)) / 2 / -1 + ((8 : Nat) : K) = 8 := by norm_num
    have ey : -(2 * -1 * (((8 : Nat) : K) - 8)) * (2 * -1 * (((8 : Nat) : K) - 8)) / 4 / -1 +
        (4 + -1 * (((8 : Nat) : K) - 8) ^ 2) = 4 := by norm_num
    rw [ex, ey]
    exact ⟨_, _, rfl⟩
  -- the second peak after the first
  have h28 : onePeak F E data 2 3 q 8 = .error .ZeroDivisionError := by
    unfold onePeak
    rw [widen, if_neg (by intro h; linarith [h.1])]
    have hf : peakFit F E data 8 1 2 = .error .ZeroDivisionError := by
      unfold peakFit
      simp only [hp1]
      rw [if_neg (by simp), sigma_eq _ _ (by simp)]
      have hbite : slice (List.map (fun x : Int × K => x.2) [(-1, 3), (0, 4), (1, 3)])
          (((1 : Nat) : Int) - ((2 : Nat) : Int)) (1 + 2) = [3] := by simp [slice]
      simp only [hbite]
      rw [sigma_eq _ _ (by simp)]
      have hv : (List.map (fun y : K => (y - [3].sum / (([(3 : K)].length : Nat) : K)) ^ 2) [3]).sum /
          (([(3 : K)].length : Nat) : K) = 0 := by norm_num
      simp only [hv, sqrt_zero' hE, if_true]
    simp only [Nat.reduceDiv, hf]
  have hM : min data.length 3 = 3 := rfl
  refine ⟨⟨o.toList, ?_⟩, ⟨C, ?_⟩, ?_⟩
  · simp only [findPeakErrors, hM, peaksLoop, h2, List.append_nil]
  · simp only [findPeakErrors, hM, peaksLoop, h8, List.append_nil, Option.toList_some]
  · simp only [findPeakErrors, hM, peaksLoop, h2, h28]

/-- **C86**: the covariance that C86_partial speaks of is propagated with the derivatives of the position
x = -p1 / (2 p2) and the value y = p0 - p1^2 / (4 p2) of the vertex. -/
theorem C86_gradient (p0 p1 p2 : ℝ) (h : p2 ≠ 0) :
    (∀ t : ℝ, p0 + p1 * t + p2 * t ^ 2 = (p0 - p1 ^ 2 / (4 * p2)) + p2 * (t - -p1 / (2 * p2)) ^ 2) ∧
    HasDerivAt (fun _ : ℝ => -p1 / (2 * p2)) (gradX (p0, p1, p2) 0) p0 ∧
    HasDerivAt (fun s => -s / (2 * p2)) (gradX (p0, p1, p2) 1) p1 ∧
    HasDerivAt (fun s => -p1 / (2 * s)) (gradX (p0, p1, p2) 2) p2 ∧
    HasDerivAt (fun s => s - p1 ^ 2 / (4 * p2)) (gradY (p0, p1, p2) 0) p0 ∧
    HasDerivAt (fun s => p0 - s ^ 2 / (4 * p2)) (gradY (p0, p1, p2) 1) p1 ∧
    HasDerivAt (fun s => p0 - p1 ^ 2 / (4 * s)) (gradY (p0, p1, p2) 2) p2 := by
  refine ⟨fun t => by field_simp; ring, ?_, ?_, ?_, ?_, ?_, ?_⟩
  · simpa [gradX] using hasDerivAt_const p0 (-p1 / (2 * p2))
  · have := (hasDerivAt_id p1).neg.div_const (2 * p2)
    simpa [gradX] using this
  · have := ((hasDerivAt_inv h).const_mul (-p1 / 2))
    refine (this.congr_deriv ?_).congr_of_eventuallyEq ?_
    · simp [gradX]; field_simp
    · exact Filter.Eventually.of_forall fun s => by simp only [div_eq_mul_inv, mul_inv]; ring
  · have := (hasDerivAt_id p0).sub_const (p1 ^ 2 / (4 * p2))
    simpa [gradY] using this
  · have := ((hasDerivAt_pow 2 p1).div_const (4 * p2)).const_sub p0
    refine this.congr_deriv ?_
    simp [gradY]; field_simp; norm_num; ring
  · have := ((hasDerivAt_inv h).const_mul (-p1 ^ 2 / 4)).const_add p0
    refine (this.congr_deriv ?_).congr_of_eventuallyEq ?_
    · simp [gradY]; field_simp
    · exact Filter.Eventually.of_forall fun s => by simp only [div_eq_mul_inv, mul_inv]; ring

/-! ### A least squares fit exists -/

/-- a minimiser of the sum of the squares exists -/
theorem exists_fit (pts : List (Int × ℝ)) : ∃ p : ℝ × ℝ × ℝ, ∀ q, residuals pts p ≤ residuals pts q := by
  let u : EuclideanSpace ℝ (Fin pts.length) := WithLp.toLp 2 fun i => (pts.get i).2
  let A : (Fin 3 → ℝ) →ₗ[ℝ] EuclideanSpace ℝ (Fin pts.length) :=
    { toFun := fun p => WithLp.toLp 2 fun i => p 0 + p 1 * ((pts.get i).1 : ℝ) + p 2 * ((pts.get i).1 : ℝ) ^ 2
      map_add' := fun a b => by ext i; simp; ring
      map_smul' := fun a b => by ext i; simp; ring }
  have hres : ∀ p : Fin 3 → ℝ, residuals pts (p 0, p 1, p 2) = ‖u - A p‖ ^ 2 := by
    intro p
    rw [EuclideanSpace.norm_sq_eq]
    unfold residuals
    conv_lhs => rw [← List.ofFn_get pts]
    rw [List.map_ofFn, List.sum_ofFn]
    refine Finset.sum_congr rfl fun i _ => ?_
    simp [u, A]
  obtain ⟨v, hv, hmin⟩ := (LinearMap.range A).exists_norm_eq_iInf_of_complete_subspace
    (Submodule.complete_of_finiteDimensional _) u
  obtain ⟨p, rfl⟩ := hv
  refine ⟨(p 0, p 1, p 2), fun q => ?_⟩
  have hq := hres ![q.1, q.2.1, q.2.2]
  simp only [Matrix.cons_val] at hq
  have e : q = (q.1, q.2.1, q.2.2) := rfl
  rw [e, hres p, hq]
  refine pow_le_pow_left₀ (norm_nonneg _) ?_ 2
  rw [hmin]
  refine ciInf_le (f := fun w : (LinearMap.range A : Set (EuclideanSpace ℝ (Fin pts.length))) => ‖u - w.val‖)
    ⟨0, ?_⟩ ⟨A ![q.1, q.2.1, q.2.2], ⟨_, rfl⟩⟩
  rintro _ ⟨w, rfl⟩
  exact norm_nonneg _

/-- the least squares fit over the reals -/
noncomputable def realFitter : Fitter ℝ :=
  ⟨fun pts _ => Classical.choose (exists_fit pts), fun _ _ i j => if i = j then 1 else 0⟩

theorem realFitter_leastSquares : LeastSquares realFitter :=
  fun pts _ p _ => Classical.choose_spec (exists_fit pts) p

/-- non-vacuity: the estimates 3 and 5 of the vertex at 4.5 are refined, 0 is further off than 3 -/
example : ∃ out, findPeakErrors .py2 realFitter realExt [3, 0, 5] 3 5
    ([-81 / 4, -49 / 4, -25 / 4, -9 / 4, -1 / 4, -1 / 4, -9 / 4] : List ℝ) = .ok out ∧
    out.map (fun e => (e.x, e.y, e.xIn)) = [(9 / 2, 0, 3), (9 / 2, 0, 5)] := by
  have hd : OnParabola ([-81 / 4, -49 / 4, -25 / 4, -9 / 4, -1 / 4, -1 / 4, -9 / 4] : List ℝ) 0 (-1) (9 / 2) := by
    intro i hi
    simp only [List.length_cons, List.length_nil] at hi
    interval_cases i <;> norm_num
  obtain ⟨out, h1, h2⟩ := C86_parabola realFitter_leastSquares realExt_lawful (by norm_num) hd [3, 0, 5]
    (seed := 3) (maxDelta := 5) (k := 0) (by simp) (by norm_num) (by simp) (by simp)
  refine ⟨out, h1, h2.trans ?_⟩
  have e : ([3, 0, 5] : List Nat).filter (fun p : Nat => decide (|(9 / 2 : ℝ) - (p : ℝ)| ≤ ((3 * 2 ^ 0 : Nat) : ℝ) ∧
      (0 : ℝ) ≤ 9 / 2 ∧ (9 / 2 : ℝ) ≤ ([-81 / 4, -49 / 4, -25 / 4, -9 / 4, -1 / 4, -1 / 4, -9 / 4] : List ℝ).length)) =
      [3, 5] := by
    rw [List.filter_cons, if_pos, List.filter_cons, if_neg, List.filter_cons, if_pos, List.filter_nil]
    all_goals simp only [decide_eq_true_eq, List.length_cons, List.length_nil]
    all_goals norm_num [abs_le]
  rw [e]
  rfl

end RefinePeak
end Xboa
