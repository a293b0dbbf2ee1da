import Verif.Model.FitEllipse
import Verif.Props.Grid
import Mathlib.LinearAlgebra.Matrix.NonsingularInverse
import Mathlib.Tactic.FieldSimp
/-
C50 (fit_ellipse), C64 (its cut).
-/
set_option linter.unusedSectionVars false
namespace Xboa
variable {K : Type} [Field K] [LinearOrder K] [IsStrictOrderedRing K]

/-! ### Specification

`a` is a list of weighted points (point, weight). -/

/-- total weight -/
def totW (a : List (List K × K)) : K := (a.map Prod.snd).sum
/-- weighted mean of coordinate `j` -/
def cMean (a : List (List K × K)) (j : Nat) : K := (a.map fun q => q.2 * q.1.getD j 0).sum / totW a
/-- weighted covariance of coordinates `j` and `k` -/
def cCov (a : List (List K × K)) (j k : Nat) : K :=
  (a.map fun q => q.2 * (q.1.getD j 0 - cMean a j) * (q.1.getD k 0 - cMean a k)).sum / totW a
/-- the covariance matrix -/
def cMat (d : Nat) (a : List (List K × K)) : Matrix (Fin d) (Fin d) K :=
  Matrix.of fun j k => cCov a j k

/-- the point `p` is inside the ellipse of the points `a`:
(p - m)^T C^-1 (p - m) |C|^(1/n) < eps, with m the mean, C the covariance matrix -/
def InEllipse (n d : Nat) (a : List (List K × K)) (eps : K) (p : List K) : Prop :=
  ∃ s, 0 ≤ s ∧ s ^ n = (cMat d a).det ∧
    (∑ i : Fin d, ∑ j : Fin d, (p.getD i 0 - cMean a i) * (cMat d a)⁻¹ i j *
      (p.getD j 0 - cMean a j)) * s < eps

noncomputable instance (n d : Nat) (a : List (List K × K)) (eps : K) (p : List K) :
    Decidable (InEllipse n d a eps p) := Classical.propDecidable _

/-- the points accepted after `k` rounds: all, then those of `pts` inside the ellipse of the points
accepted before -/
noncomputable def accepted (d : Nat) (pts : List (List K × K)) (eps : K) : Nat → List (List K × K)
  | 0 => pts
  | k + 1 => pts.filter fun q => decide (InEllipse 2 d (accepted d pts eps k) eps q.1)

/-- weighted mean and covariance matrix, as fit_ellipse returns them -/
def stats (d : Nat) (a : List (List K × K)) : List K × Mat K :=
  ((List.range d).map (cMean a), ⟨d, d, cCov a⟩)

/-- the mean and the matrix after `r` completed rounds: unit values to begin with -/
noncomputable def afterRounds (d : Nat) (pts : List (List K × K)) (eps : K) : Nat → List K × Mat K
  | 0 => ([1, 1], ⟨2, 2, fun _ _ => 1⟩)
  | r + 1 => stats d (accepted d pts eps r)

/-- how fit_ellipse ends after `r` completed rounds, and what it returns -/
inductive FitEnd (d : Nat) (pts : List (List K × K)) (eps : K) (maxIter r : Nat) :
    List K × Mat K → Prop
  /-- the number of rounds is used up -/
  | limit : r = maxIter → FitEnd d pts eps maxIter r (afterRounds d pts eps r)
  /-- the determinant changed by no more than 1e-9 in the last round -/
  | converged (q : Nat) : r = q + 1 → |(afterRounds d pts eps (q + 1)).2.det -
      (afterRounds d pts eps q).2.det| ≤ 1 / 1000000000 →
      FitEnd d pts eps maxIter r (afterRounds d pts eps r)
  /-- the next round failed: the accepted points have total weight 0 -/
  | weightless : r < maxIter → accepted d pts eps r ≠ [] → totW (accepted d pts eps r) = 0 →
      FitEnd d pts eps maxIter r (afterRounds d pts eps r)
  /-- the next round failed: no points are accepted or their covariance matrix is singular, which is
  returned -/
  | singular : r < maxIter → (cMat d (accepted d pts eps r)).det = 0 →
      FitEnd d pts eps maxIter r (stats d (accepted d pts eps r))

/-! ### Proofs -/

theorem sum_masked (g : List K → K → K) (pred : List K → Bool) : ∀ (points : List (List K))
    (weights : List K), points.length = weights.length →
    (∑ i ∈ Finset.range points.length,
      if (points.map pred).getD i false then g (points.getD i []) (weights.getD i 0) else 0) =
    (((points.zip weights).filter fun q => pred q.1).map fun q => g q.1 q.2).sum
  | [], [], _ => by simp
  | p :: ps, w :: ws, h => by
    have ih := sum_masked g pred ps ws (by simpa using h)
    rw [List.length_cons, Finset.sum_range_succ', List.zip_cons_cons]
    simp only [List.map_cons, List.getD_cons_succ, List.getD_cons_zero]
    rw [ih]
    by_cases hp : pred p
    · rw [List.filter_cons_of_pos (by simpa using hp), if_pos hp, List.map_cons, List.sum_cons, add_comm]
    · rw [List.filter_cons_of_neg (by simpa using hp), if_neg hp, add_zero]

theorem wsum_div_mul (g : List K → K) (W : K) (l : List (List K × K)) :
    (l.map fun q => g q.1 / W * q.2).sum = (l.map fun q => q.2 * g q.1).sum / W := by
  induction l with
  | nil => simp
  | cons q r ih => simp only [List.map_cons, List.sum_cons, ih]; ring

theorem cov_expand (a : List (List K × K)) (j k : Nat) (hw : totW a ≠ 0) :
    cCov a j k = (a.map fun q => q.1.getD j 0 * q.1.getD k 0 / totW a * q.2).sum -
      cMean a j * cMean a k := by
  have h : ∀ (l : List (List K × K)) (m n : K),
      (l.map fun q => q.2 * (q.1.getD j 0 - m) * (q.1.getD k 0 - n)).sum =
      (l.map fun q => q.1.getD j 0 * q.1.getD k 0 * q.2).sum
        - m * (l.map fun q => q.2 * q.1.getD k 0).sum
        - n * (l.map fun q => q.2 * q.1.getD j 0).sum + m * n * totW l := by
    intro l m n
    induction l with
    | nil => simp [totW]
    | cons q r ih =>
      simp only [List.map_cons, List.sum_cons, totW] at ih ⊢
      rw [ih]
      ring
  have h2 := wsum_div_mul (fun p => p.getD j 0 * p.getD k 0) (totW a) a
  simp only [mul_comm _ (_ * _)] at h2
  unfold cCov
  rw [h, h2]
  unfold cMean
  field_simp
  ring

theorem fitCov_spec (d : Nat) (hd : 0 < d) (points : List (List K)) (hne : points ≠ [])
    (hp : ∀ p ∈ points, p.length = d)
    (weights : List K) (hw : points.length = weights.length) (pred : List K → Bool) :
    Common.fitCov points weights (points.map pred) =
      if totW ((points.zip weights).filter fun q => pred q.1) = 0 ∧
          ((points.zip weights).filter fun q => pred q.1) ≠ [] then .error .ZeroDivisionError
      else .ok (stats d ((points.zip weights).filter fun q => pred q.1)) := by
  set a := (points.zip weights).filter fun q => pred q.1 with ha
  have hsw : Common.sumWeight weights (points.map pred) = totW a := by
    have := sum_masked (fun _ w => w) pred points weights hw
    simp only [Common.sumWeight, List.length_map]
    exact this
  have hex : (∃ i ∈ Finset.range points.length, (points.map pred).getD i false = true) ↔ a ≠ [] := by
    rw [ha, Ne, List.filter_eq_nil_iff]
    push Not
    constructor
    · rintro ⟨i, hi, h⟩
      rw [Finset.mem_range] at hi
      refine ⟨(points[i], weights[i]'(by omega)), ?_, ?_⟩
      · rw [List.mem_iff_getElem]
        exact ⟨i, by simp; omega, by simp⟩
      · simpa [List.getD_eq_getElem?_getD, hi] using h
    · rintro ⟨q, hq, h⟩
      obtain ⟨i, hi, rfl⟩ := List.getElem_of_mem hq
      have hi' : i < points.length := by simp at hi; omega
      refine ⟨i, by simpa using hi', ?_⟩
      simpa [List.getD_eq_getElem?_getD, hi'] using h
  cases hpts : points with
  | nil => exact absurd hpts hne
  | cons p0 rest =>
    have hp0 : p0.length = d := hp p0 (by simp [hpts])
    simp only [Common.fitCov]
    rw [← hpts, hsw, hp0]
    by_cases hcase : totW a = 0 ∧ a ≠ []
    · rw [if_pos ⟨hcase.1, hd, hex.mpr hcase.2⟩, if_pos hcase]
    · rw [if_neg (fun h => hcase ⟨h.1, hex.mp h.2.2⟩), if_neg hcase]
      have hm : ∀ j, (∑ i ∈ Finset.range points.length,
          if (points.map pred).getD i false = true then
            (points.getD i []).getD j 0 / totW a * weights.getD i 0 else 0) = cMean a j := by
        intro j
        have := sum_masked (fun p w => p.getD j 0 / totW a * w) pred points weights hw
        rw [this, ← ha]
        exact wsum_div_mul (fun p => p.getD j 0) (totW a) a
      have hc : ∀ j k, ((∑ i ∈ Finset.range points.length,
          if (points.map pred).getD i false = true then
            (points.getD i []).getD j 0 * (points.getD i []).getD k 0 / totW a * weights.getD i 0
          else 0) - cMean a j * cMean a k) = cCov a j k := by
        intro j k
        have := sum_masked (fun p w => p.getD j 0 * p.getD k 0 / totW a * w) pred points weights hw
        rw [this, ← ha]
        by_cases h0 : totW a = 0
        · have hnil : a = [] := by by_contra hcon; exact hcase ⟨h0, hcon⟩
          rw [hnil]
          simp [cMean, cCov, totW]
        · exact (cov_expand a j k h0).symm
      simp only [hm, hc, stats]

theorem Mat.det_eq (N : Mat K) (d : Nat) (h : N.rows = d) :
    N.det = (Matrix.of fun i j : Fin d => N.entry i j).det := by
  subst h; rfl

theorem updateCut_spec {L : LinAlg K} (hL : L.Lawful) {E : Ext K} (hE : E.Lawful) (d : Nat)
    (points : List (List K)) (hp : ∀ p ∈ points, p.length = d) (a : List (List K × K)) (N : Mat K)
    (hN : L.inv (stats d a).2 = some N) (eps : K) :
    (cMat d a).det ≠ 0 ∧
    Common.updateCut E points N (stats d a).1 eps =
      points.map fun p => decide (InEllipse 2 d a eps p) := by
  obtain ⟨hr, hc, hmul⟩ := hL.inv_mul _ N rfl hN
  simp only [stats] at hr hc hmul
  have hNA : (Matrix.of fun i j : Fin d => N.entry i j) * cMat d a = 1 := by
    ext i j
    have := hmul i j i.2 j.2
    simp only [Mat.mul, hc, Finset.sum_range] at this
    rw [Matrix.mul_apply, Matrix.one_apply]
    simp only [cMat, Matrix.of_apply, this, Fin.ext_iff]
  have hinv : (cMat d a)⁻¹ = Matrix.of fun i j : Fin d => N.entry i j := Matrix.inv_eq_left_inv hNA
  have hdet : (Matrix.of fun i j : Fin d => N.entry i j).det * (cMat d a).det = 1 := by
    rw [← Matrix.det_mul, hNA, Matrix.det_one]
  have hC : (cMat d a).det ≠ 0 := right_ne_zero_of_mul_eq_one hdet
  refine ⟨hC, ?_⟩
  have hNdet : N.det = (cMat d a).det⁻¹ := by
    rw [Mat.det_eq N d hr]
    exact eq_inv_of_mul_eq_one_left hdet
  unfold Common.updateCut
  apply List.map_congr_left
  intro p hpp
  have hpl := hp p hpp
  have hv : List.zipWith (· - ·) p (stats d a).1 =
      List.ofFn fun i : Fin d => p.getD i 0 - cMean a i := by
    apply List.ext_getElem
    · simp [stats, hpl]
    · intro i h1 h2
      have hi : i < p.length := by simp at h1; omega
      simp [stats, List.getD_eq_getElem?_getD, hi]
  rw [hv, quad_ofFn, hNdet, ← Bool.decide_and, decide_eq_decide]
  unfold InEllipse
  rw [hinv]
  simp only [Matrix.of_apply]
  generalize (∑ i : Fin d, ∑ j : Fin d, (p.getD i 0 - cMean a i) * N.entry i j *
    (p.getD j 0 - cMean a j)) = Q
  generalize (cMat d a).det = D at hC
  rw [inv_nonneg]
  constructor
  · rintro ⟨h0, h⟩
    have hi : 0 ≤ D⁻¹ := inv_nonneg.mpr h0
    have h1 := hE.sqrt_nonneg _ hi
    have h2 := hE.sqrt_mul_self _ hi
    refine ⟨(E.sqrt D⁻¹)⁻¹, inv_nonneg.mpr h1, ?_, by rwa [← div_eq_mul_inv]⟩
    rw [inv_pow, pow_two, h2, inv_inv]
  · rintro ⟨s, hs, hsD, h⟩
    have h0 : 0 ≤ D := by rw [← hsD]; positivity
    have hi : 0 ≤ D⁻¹ := inv_nonneg.mpr h0
    have h1 := hE.sqrt_nonneg _ hi
    have h2 := hE.sqrt_mul_self _ hi
    have : E.sqrt D⁻¹ = s⁻¹ := by
      have h3 : E.sqrt D⁻¹ ^ 2 = s⁻¹ ^ 2 := by rw [pow_two, h2, inv_pow, hsD]
      exact (pow_left_inj₀ h1 (inv_nonneg.mpr hs) two_ne_zero).mp h3
    rw [this, div_inv_eq_mul]
    exact ⟨h0, h⟩

/-- the predicate of the cut after `k` rounds -/
noncomputable def cutPred (d : Nat) (pts : List (List K × K)) (eps : K) (k : Nat) (p : List K) :
    Bool :=
  match k with
  | 0 => true
  | k + 1 => decide (InEllipse 2 d (accepted d pts eps k) eps p)

theorem accepted_eq (d : Nat) (pts : List (List K × K)) (eps : K) (k : Nat) :
    accepted d pts eps k = pts.filter fun q => cutPred d pts eps k q.1 := by
  cases k with
  | zero => simp [accepted, cutPred]
  | succ k => rfl

/-- the state of the loop after `k` completed rounds -/
def FitInv (d : Nat) (points : List (List K)) (pts : List (List K × K)) (eps : K) (k : Nat)
    (s : Common.FitState K) : Prop :=
  (s.mean, s.cov) = afterRounds d pts eps k ∧
  s.inCut = points.map (cutPred d pts eps k) ∧
  (k = 0 → s.oldDet = 1) ∧
  ∀ q, k = q + 1 → s.oldDet = (afterRounds d pts eps q).2.det

theorem fitLoop_spec {L : LinAlg K} (hL : L.Lawful) {E : Ext K} (hE : E.Lawful) (d : Nat)
    (hd : 0 < d) (points : List (List K)) (hne : points ≠ []) (hp : ∀ p ∈ points, p.length = d)
    (weights : List K) (hw : points.length = weights.length) (eps : K) :
    ∀ (n k : Nat) (s : Common.FitState K), FitInv d points (points.zip weights) eps k s →
      ∃ r, k ≤ r ∧
        r ≤ k + (Common.fitLoop L E points weights eps n s).2 ∧
        (Common.fitLoop L E points weights eps n s).2 ≤ n ∧
        (∀ j, k ≤ j → j < r → (cMat d (accepted d (points.zip weights) eps j)).det ≠ 0) ∧
        FitEnd d (points.zip weights) eps (k + n) r
          ((Common.fitLoop L E points weights eps n s).1.mean,
           (Common.fitLoop L E points weights eps n s).1.cov)
  | 0, k, s, h => by
    refine ⟨k, le_rfl, by simp, by simp [Common.fitLoop], by intro j h1 h2; omega, ?_⟩
    simp only [Common.fitLoop]
    rw [h.1]
    exact .limit (by omega)
  | n + 1, k, s, h => by
    obtain ⟨h1, h2, h3, h4⟩ := h
    set pts := points.zip weights with hpts
    have hcov : s.cov = (afterRounds d pts eps k).2 := (congrArg Prod.snd h1)
    by_cases hgo : Common.fitGoesOn s
    · have hf := fitCov_spec d hd points hne hp weights hw (cutPred d pts eps k)
      rw [← hpts, ← accepted_eq] at hf
      by_cases hz : totW (accepted d pts eps k) = 0 ∧ accepted d pts eps k ≠ []
      · rw [if_pos hz] at hf
        have hround : Common.fitRound L E points weights eps s =
            ({ s with oldDet := s.cov.det }, true) := by
          simp only [Common.fitRound, h2, hf]
        refine ⟨k, le_rfl, by omega, ?_, by intro j h1 h2; omega, ?_⟩
        · simp [Common.fitLoop, hgo, hround]
        · simp only [Common.fitLoop, hgo, if_true, hround]
          rw [h1]
          exact .weightless (by omega) hz.2 hz.1
      · rw [if_neg hz] at hf
        cases hinv : L.inv (stats d (accepted d pts eps k)).2 with
        | none =>
          have hdet : (cMat d (accepted d pts eps k)).det = 0 := by
            by_contra hcon
            obtain ⟨N, hN⟩ := hL.inv_ok (stats d (accepted d pts eps k)).2 rfl hcon
            rw [hN] at hinv
            cases hinv
          have hround : Common.fitRound L E points weights eps s =
              ({ s with oldDet := s.cov.det, mean := (stats d (accepted d pts eps k)).1,
                        cov := (stats d (accepted d pts eps k)).2 }, true) := by
            simp only [Common.fitRound, h2, hf, hinv]
          refine ⟨k, le_rfl, by omega, ?_, by intro j h1 h2; omega, ?_⟩
          · simp [Common.fitLoop, hgo, hround]
          · simp only [Common.fitLoop, hgo, if_true, hround]
            exact .singular (by omega) hdet
        | some N =>
          obtain ⟨hdet, hcut⟩ := updateCut_spec hL hE d points hp _ N hinv eps
          have hround : Common.fitRound L E points weights eps s =
              (⟨(stats d (accepted d pts eps k)).1, (stats d (accepted d pts eps k)).2, s.cov.det,
                points.map (cutPred d pts eps (k + 1))⟩, false) := by
            simp only [Common.fitRound, h2, hf, hinv, hcut]
            rfl
          have hnext : FitInv d points pts eps (k + 1)
              ⟨(stats d (accepted d pts eps k)).1, (stats d (accepted d pts eps k)).2, s.cov.det,
                points.map (cutPred d pts eps (k + 1))⟩ := by
            refine ⟨rfl, rfl, by omega, fun q hq => ?_⟩
            have : q = k := by omega
            subst this
            simp only [hcov]
          obtain ⟨r, g1, g2, g3, g4, g5⟩ := fitLoop_spec hL hE d hd points hne hp weights hw eps n
            (k + 1) _ hnext
          have hloop : Common.fitLoop L E points weights eps (n + 1) s =
              ((Common.fitLoop L E points weights eps n
                ⟨(stats d (accepted d pts eps k)).1, (stats d (accepted d pts eps k)).2, s.cov.det,
                  points.map (cutPred d pts eps (k + 1))⟩).1,
               (Common.fitLoop L E points weights eps n
                ⟨(stats d (accepted d pts eps k)).1, (stats d (accepted d pts eps k)).2, s.cov.det,
                  points.map (cutPred d pts eps (k + 1))⟩).2 + 1) := by
            rw [Common.fitLoop, if_pos hgo, hround]
          rw [hloop]
          refine ⟨r, by omega, by simp only; omega, by simp only; omega, fun j hj1 hj2 => ?_, ?_⟩
          · rcases Nat.eq_or_lt_of_le hj1 with rfl | hj
            · exact hdet
            · exact g4 j hj hj2
          · rw [show k + (n + 1) = k + 1 + n by omega]
            exact g5
    · have hloop : Common.fitLoop L E points weights eps (n + 1) s = (s, 0) := by
        rw [Common.fitLoop, if_neg hgo]
      rw [hloop]
      refine ⟨k, le_rfl, by omega, by omega, by intro j h1 h2; omega, ?_⟩
      simp only
      rw [h1]
      cases k with
      | zero =>
        exfalso
        apply hgo
        unfold Common.fitGoesOn
        have : s.cov.det = 0 := by
          rw [hcov]
          simp only [afterRounds]
          have := Matrix.det_fin_two (Matrix.of fun i j : Fin 2 => (1 : K))
          exact this.trans (by simp)
        rw [this, h3 rfl]
        norm_num
      | succ q =>
        refine .converged q rfl ?_
        unfold Common.fitGoesOn at hgo
        rw [hcov, h4 q rfl] at hgo
        exact not_lt.mp hgo

/-- C50: for all points of a common dimension and weights, fit_ellipse begins at most
max_number_of_iterations rounds, and for some number r of completed rounds it ends in one of the
ways of `FitEnd`; unless a round failed, the returned mean and matrix (`afterRounds`) are the
weighted mean and covariance matrix of the points inside the ellipse of the round before. -/
theorem C50_fit_ellipse {L : LinAlg K} (hL : L.Lawful) {E : Ext K} (hE : E.Lawful) (d : Nat)
    (hd : 0 < d) (points : List (List K)) (hne : points ≠ []) (hp : ∀ p ∈ points, p.length = d)
    (weights : List K) (hw : points.length = weights.length) (eps : K) (maxIter : Nat) :
    (Common.fitLoop L E points weights eps maxIter (Common.fitInit points)).2 ≤ maxIter ∧
    ∃ r, r ≤ maxIter ∧
      (∀ j, j < r → (cMat d (accepted d (points.zip weights) eps j)).det ≠ 0) ∧
      FitEnd d (points.zip weights) eps maxIter r
        (Common.fitEllipse L E points eps (some weights) maxIter) := by
  have h0 : FitInv d points (points.zip weights) eps 0 (Common.fitInit points) := by
    refine ⟨rfl, rfl, fun _ => rfl, fun q hq => by omega⟩
  obtain ⟨r, _, h2, h3, h4, h5⟩ := fitLoop_spec hL hE d hd points hne hp weights hw eps maxIter 0 _ h0
  refine ⟨h3, r, by omega, fun j hj => h4 j (Nat.zero_le _) hj, ?_⟩
  rw [Nat.zero_add] at h5
  exact h5

/-- C50, without weights every point has weight 1. -/
theorem C50_unweighted (L : LinAlg K) (E : Ext K) (points : List (List K)) (eps : K)
    (maxIter : Nat) : Common.fitEllipse L E points eps none maxIter =
      Common.fitEllipse L E points eps (some (List.replicate points.length 1)) maxIter := by
  simp [Common.fitEllipse, List.map_const']

example : ∃ r, r ≤ 10 ∧ FitEnd 2 ([[0, 0], [1, 0], [0, 2], [3, 1]].zip [1, 1, 2, 1]) 5 10 r
    (Common.fitEllipse realLin realExt [[0, 0], [1, 0], [0, 2], [3, 1]] 5 (some [1, 1, 2, 1]) 10) := by
  obtain ⟨_, r, h1, _, h2⟩ := C50_fit_ellipse realLin_lawful realExt_lawful 2 (by norm_num)
    [[0, 0], [1, 0], [0, 2], [3, 1]] (by simp) (by simp) [1, 1, 2, 1] rfl 5 10
  exact ⟨r, h1, h2⟩

/-! ### C64 -/

/-- C64 as stated is false in other dimensions than two: for one dimensional data of covariance 4
about 0 (say the points 2 and -2), the point 3 has x^T V^-1 x |V|^(1/1) = 9, but passes a cut at 5. -/
theorem C64_false :
    cMean [([(2 : ℝ)], 1), ([-2], 1)] 0 = 0 ∧ cCov [([(2 : ℝ)], 1), ([-2], 1)] 0 0 = 4 ∧
    Common.updateCut realExt [[(3 : ℝ)]] ⟨1, 1, fun _ _ => 1 / 4⟩ [0] 5 = [true] ∧
    ¬ InEllipse 1 1 [([(2 : ℝ)], 1), ([-2], 1)] 5 [3] := by
  have hm : cMean [([(2 : ℝ)], 1), ([-2], 1)] 0 = 0 := by
    simp [cMean, totW]
  have hc : cCov [([(2 : ℝ)], 1), ([-2], 1)] 0 0 = 4 := by
    simp [cCov, hm, totW]; norm_num
  refine ⟨hm, hc, ?_, ?_⟩
  · have hdet : (⟨1, 1, fun _ _ => 1 / 4⟩ : Mat ℝ).det = 1 / 4 := by
      have := Matrix.det_fin_one (Matrix.of fun i j : Fin 1 => (1 / 4 : ℝ))
      exact this.trans (by simp)
    have hs : Real.sqrt (1 / 4) = 1 / 2 := by
      rw [show (1 / 4 : ℝ) = (1 / 2) ^ 2 by norm_num]
      exact Real.sqrt_sq (by norm_num)
    simp only [Common.updateCut, List.map_cons, List.map_nil, hdet, realExt, hs, Bunch.quad]
    norm_num
  · rintro ⟨s, h0, h1, h2⟩
    have hM : (cMat 1 [([(2 : ℝ)], 1), ([-2], 1)]) = Matrix.of fun _ _ => 4 := by
      ext i j
      have hi : i = 0 := Subsingleton.elim _ _
      have hj : j = 0 := Subsingleton.elim _ _
      subst hi hj
      exact hc
    have hI : (cMat 1 [([(2 : ℝ)], 1), ([-2], 1)])⁻¹ = Matrix.of fun _ _ => 1 / 4 := by
      apply Matrix.inv_eq_left_inv
      rw [hM]
      ext i j
      have hij : i = j := Subsingleton.elim _ _
      subst hij
      simp [Matrix.mul_apply]
    rw [hM] at h1
    rw [hI] at h2
    have hs : s = 4 := by simpa using h1
    rw [hs] at h2
    simp [hm] at h2
    norm_num at h2

/-- C64_partial: in two dimensions the cut is the documented one, x^T V^-1 x |V|^(1/2) < eps_cut,
for every set of points with a covariance matrix that can be inverted.
Missing: other dimensions (false, see C64_false). -/
theorem C64_partial {L : LinAlg K} (hL : L.Lawful) {E : Ext K} (hE : E.Lawful)
    (points : List (List K)) (hp : ∀ p ∈ points, p.length = 2) (a : List (List K × K)) (N : Mat K)
    (hN : L.inv (stats 2 a).2 = some N) (eps : K) :
    Common.updateCut E points N (stats 2 a).1 eps =
      points.map fun p => decide (InEllipse 2 2 a eps p) :=
  (updateCut_spec hL hE 2 points hp a N hN eps).2

/-- case for C64_partial: the four points on the axes -/
example : ∃ N, realLin.inv
    (stats 2 [([(1 : ℝ), 0], 1), ([-1, 0], 1), ([0, 1], 1), ([0, -1], 1)]).2 = some N := by
  apply realLin_lawful.inv_ok _ rfl
  have := Matrix.det_fin_two (cMat 2 [([(1 : ℝ), 0], 1), ([-1, 0], 1), ([0, 1], 1), ([0, -1], 1)])
  refine ne_of_eq_of_ne this ?_
  simp [cMat, cCov, cMean, totW]
  norm_num

end Xboa
