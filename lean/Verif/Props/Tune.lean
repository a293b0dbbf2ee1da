import Verif.Model.Tune
import Verif.Props.FitEllipse
import Mathlib.Tactic.Linarith
import Mathlib.LinearAlgebra.Matrix.Determinant.Basic
import Mathlib.Analysis.SpecialFunctions.Complex.Arg
import Mathlib.Tactic.FieldSimp
/-
C51, C66 (DPhiTuneFinder).
-/
set_option linter.unusedSectionVars false
namespace Xboa
variable {K : Type} [Field K] [LinearOrder K] [IsStrictOrderedRing K]

/-- `d` is the advance from angle `a` to angle `b` as a fraction of a turn: it lies in [0, 1) and
agrees with the difference of the angles up to whole turns -/
def IsAdvance (pi : K) (a b d : K) : Prop :=
  0 ≤ d ∧ d < 1 ∧ ∃ n : ℤ, d * (2 * pi) = b - a + n * (2 * pi)

/-- consecutive elements of a list are related -/
inductive Chain3 {α β : Type} (R : α → α → β → Prop) : List α → List β → Prop
  | nil : Chain3 R [] []
  | single (a : α) : Chain3 R [a] []
  | cons {a b : α} {l : List α} {d : β} {ds : List β} : R a b d → Chain3 R (b :: l) ds →
      Chain3 R (a :: b :: l) (d :: ds)

theorem advances_spec (pi : K) (hpi : 0 < pi) : ∀ (phis : List K) (old : K),
    -pi ≤ old ∧ old < pi → (∀ p ∈ phis, -pi ≤ p ∧ p < pi) →
    Chain3 (IsAdvance pi) (old :: phis) (Tune.advances pi old phis)
  | [], old, _, _ => .single old
  | p :: r, old, ho, hp => by
    have hpp := hp p (by simp)
    have hp2 : (0 : K) < 2 * pi := by linarith
    refine .cons ?_ (advances_spec pi hpi r p hpp (fun q hq => hp q (by simp [hq])))
    by_cases h : p - old < 0
    · rw [if_pos h]
      refine ⟨?_, ?_, 1, ?_⟩
      · apply div_nonneg (div_nonneg _ hpi.le) (by norm_num); linarith [hpp.1, ho.2]
      · rw [div_div, div_lt_one (by linarith)]; linarith
      · push_cast; field_simp
    · rw [if_neg h]
      have h' := not_lt.mp h
      refine ⟨div_nonneg (div_nonneg h' hpi.le) (by norm_num), ?_, 0, ?_⟩
      · rw [div_div, div_lt_one (by linarith)]; linarith [hpp.2, ho.1]
      · push_cast; field_simp; ring

/-- the angles, measured clockwise, of the points in the space in which the ellipse is a circle -/
def circleAngles (E : Ext K) (s : Tune.State K) : List K := s.circles.map fun c => -E.atan2 c.2 c.1

theorem getDphiList_ok {L : LinAlg K} {E : Ext K} {pi : K} {chol : Mat K → Option (Mat K)}
    {s s' : Tune.State K} (h : Tune.getDphiList L E pi chol s = (.ok (), s')) :
    ∃ phi0 phis, circleAngles E s' = phi0 :: phis ∧
      s'.dphi = s.dphi ++ Tune.advances pi phi0 phis ∧ s'.u = s.u ∧ s'.up = s.up := by
  unfold Tune.getDphiList at h
  split at h
  · cases h
  · split at h
    · cases h
    · simp only at h
      split at h
      · cases h
      · rename_i phi0 phis heq
        have h2 : s' = _ := (congrArg Prod.snd h).symm
        refine ⟨phi0, phis, ?_, ?_, ?_, ?_⟩
        · rw [h2]; exact heq
        · rw [h2]
        · rw [h2]
        · rw [h2]

theorem getDphiList_eval (L : LinAlg K) (E : Ext K) (pi : K) (chol : Mat K → Option (Mat K))
    (s : Tune.State K) (C N : Mat K) (hC : chol s.ellipse = some C) (hN : L.inv C = some N)
    (phi0 : K) (phis : List K)
    (h : ((List.zip (s.u.getD []) (s.up.getD [])).map fun p =>
      (N.entry 0 0 * (p.1 - s.centre.getD 0 0) + N.entry 0 1 * (p.2 - s.centre.getD 1 0),
        N.entry 1 0 * (p.1 - s.centre.getD 0 0) + N.entry 1 1 * (p.2 - s.centre.getD 1 0))).map
      (fun c => -E.atan2 c.2 c.1) = phi0 :: phis) :
    ∃ s', Tune.getDphiList L E pi chol s = (.ok (), s') ∧
      s'.dphi = s.dphi ++ Tune.advances pi phi0 phis := by
  unfold Tune.getDphiList
  simp only [hC, hN]
  rw [h]
  exact ⟨_, rfl, rfl⟩

/-- the call does not read the list of advances, apart from appending to it -/
theorem getDphiList_dphi (L : LinAlg K) (E : Ext K) (pi : K) (chol : Mat K → Option (Mat K))
    (s : Tune.State K) (d : List K) (c : List (K × K)) :
    ∃ a c', (Tune.getDphiList L E pi chol { s with dphi := d, circles := c }).2 =
        { s with dphi := d ++ a, circles := c' } ∧
      ((Tune.getDphiList L E pi chol { s with dphi := d, circles := c }).1 = .ok () →
        ∀ d' c0, Tune.getDphiList L E pi chol { s with dphi := d', circles := c0 } =
          (.ok (), { s with dphi := d' ++ a, circles := c' })) := by
  unfold Tune.getDphiList
  simp only
  cases h1 : chol s.ellipse with
  | none => exact ⟨[], c, by simp, by simp⟩
  | some C =>
    simp only
    cases h2 : L.inv C with
    | none => exact ⟨[], c, by simp, by simp⟩
    | some N =>
      simp only
      split
      · exact ⟨[], _, by simp; rfl, by simp⟩
      · rename_i phi0 phis heq
        refine ⟨Tune.advances pi phi0 phis, _, rfl, fun _ d' c0 => ?_⟩
        rfl

/-- The average of a list, none for the empty list. -/
def average : List K → Option K
  | [] => none
  | l => some (l.sum / (l.length : K))

theorem tuneMean_eq (l : List K) : Tune.mean l = average l := by
  cases l <;> rfl

/-- C51, range: if get_tune on a new object returns, the recorded phase advances are, one for each
pair of consecutive points, the differences of their angles folded to one turn, in [0, 1); and the
tune returned is their mean.  math.atan2 is assumed to lie in (-pi, pi]. -/
theorem C51_range (L : LinAlg K) (E : Ext K) (pi : K) (hpi : 0 < pi)
    (hat : ∀ y x, -pi < E.atan2 y x ∧ E.atan2 y x ≤ pi) (chol : Mat K → Option (Mat K))
    (u up : Option (List K)) (t : Option K) (s' : Tune.State K)
    (h : Tune.getTune L E pi chol (Tune.new u up) = (.ok t, s')) :
    Chain3 (IsAdvance pi) (circleAngles E s') s'.dphi ∧ t = average s'.dphi := by
  rw [← tuneMean_eq]
  unfold Tune.getTune at h
  split at h
  · rename_i u0 up0 hu hup
    simp only at h
    split at h
    · cases h
    · rename_i s1 heq
      obtain ⟨phi0, phis, h1, h2, _, _⟩ := getDphiList_ok heq
      have hs : s1 = s' := congrArg Prod.snd h
      subst hs
      have ht : Except.ok (Tune.mean s1.dphi) = Except.ok t := congrArg Prod.fst h
      refine ⟨?_, by injection ht with ht; exact ht.symm⟩
      rw [h1, h2]
      have hang : ∀ p ∈ circleAngles E s1, -pi ≤ p ∧ p < pi := by
        intro p hp
        obtain ⟨c, _, rfl⟩ := List.mem_map.mp hp
        have := hat c.2 c.1
        exact ⟨by linarith [this.2], by linarith [this.1]⟩
      rw [h1] at hang
      simp only [Tune.new, List.nil_append]
      exact advances_spec pi hpi phis phi0 (hang phi0 (by simp)) (fun p hp => hang p (by simp [hp]))
  · cases h

theorem getTune_dphi (L : LinAlg K) (E : Ext K) (pi : K) (chol : Mat K → Option (Mat K))
    (s s1 : Tune.State K) (t : Option K) (h : Tune.getTune L E pi chol s = (.ok t, s1)) :
    ∃ a, s1.dphi = s.dphi ++ a ∧ s1.u = s.u ∧ s1.up = s.up ∧ t = Tune.mean (s.dphi ++ a) ∧
      ∀ s2 : Tune.State K, s2.u = s.u → s2.up = s.up →
        ∃ s3, Tune.getTune L E pi chol s2 = (.ok (Tune.mean (s2.dphi ++ a)), s3) ∧
          s3.dphi = s2.dphi ++ a ∧ s3.u = s.u ∧ s3.up = s.up := by
  unfold Tune.getTune at h
  split at h
  · rename_i u0 up0 hu hup
    simp only at h
    split at h
    · cases h
    · rename_i sx heq
      have hs : sx = s1 := congrArg Prod.snd h
      subst hs
      have ht : Except.ok (Tune.mean sx.dphi) = Except.ok t := congrArg Prod.fst h
      injection ht with ht
      set fit := Common.fitEllipse L E ((List.zip u0 up0).map fun p => [p.1, p.2]) 1000000000 none 10
      obtain ⟨a, c', h1, h2⟩ := getDphiList_dphi L E pi chol
        { s with centre := fit.1, ellipse := fit.2 } s.dphi s.circles
      have heq' : Tune.getDphiList L E pi chol { s with centre := fit.1, ellipse := fit.2 } =
        (.ok (), sx) := heq
      rw [heq'] at h1 h2
      have hsx : sx = _ := h1
      refine ⟨a, by rw [hsx], by rw [hsx], by rw [hsx], by rw [← ht, hsx], ?_⟩
      intro s2 hu2 hup2
      have h3 := h2 rfl s2.dphi s2.circles
      refine ⟨{ s with centre := fit.1, ellipse := fit.2, dphi := s2.dphi ++ a, circles := c' }, ?_,
        rfl, rfl, rfl⟩
      have hstate : ({ s2 with centre := fit.1, ellipse := fit.2 } : Tune.State K) =
          { s with centre := fit.1, ellipse := fit.2, dphi := s2.dphi, circles := s2.circles } := by
        cases s2; cases s; simp_all
      have hu3 : s2.u = some u0 := hu2.trans hu
      have hup3 : s2.up = some up0 := hup2.trans hup
      have hgoal : Tune.getTune L E pi chol s2 =
          match Tune.getDphiList L E pi chol { s2 with centre := fit.1, ellipse := fit.2 } with
          | (.error e, s') => (.error e, s')
          | (.ok (), s') => (.ok (Tune.mean s'.dphi), s') := by
        unfold Tune.getTune
        simp only [hu3, hup3]
        rfl
      rw [hgoal, hstate, h3]
  · cases h

/-- C51, repeatability: calling get_tune again on the same data returns the same tune, although the
list of advances has grown. -/
theorem C51_repeat (L : LinAlg K) (E : Ext K) (pi : K) (chol : Mat K → Option (Mat K))
    (u up : Option (List K)) (t : Option K) (s1 : Tune.State K)
    (h : Tune.getTune L E pi chol (Tune.new u up) = (.ok t, s1)) :
    ∃ s2, Tune.getTune L E pi chol s1 = (.ok t, s2) ∧ s2.dphi = s1.dphi ++ s1.dphi := by
  obtain ⟨a, h1, h2, h3, h4, h5⟩ := getTune_dphi L E pi chol _ s1 t h
  obtain ⟨s3, g1, g2, _, _⟩ := h5 s1 h2 h3
  have ha : s1.dphi = a := by rw [h1]; simp [Tune.new]
  refine ⟨s3, ?_, by rw [g2, ha]⟩
  rw [g1, h4, ha]
  simp only [Tune.new, List.nil_append]
  congr 2
  unfold Tune.mean
  by_cases hn : a = []
  · simp [hn]
  · have hl : (a.length : K) ≠ 0 := by
      have : a.length ≠ 0 := by simpa using hn
      exact_mod_cast this
    have e1 : (a ++ a).isEmpty = false := by simp [hn]
    have e2 : a.isEmpty = false := by simp [hn]
    rw [e1, e2]
    simp only [Bool.false_eq_true, if_false, List.sum_append, List.length_append]
    congr 1
    push_cast
    field_simp

/-- C66_partial, exact law: the tune is the mean of all advances recorded in the life of the object,
those left by earlier calls included; on a new object (no advances recorded) it depends on the
data only.
Missing: objects that have been used before with other data (false, see C66_false). -/
theorem C66_partial (L : LinAlg K) (E : Ext K) (pi : K) (chol : Mat K → Option (Mat K))
    (u up : Option (List K)) (t : Option K) (s1 : Tune.State K)
    (h : Tune.getTune L E pi chol (Tune.new u up) = (.ok t, s1)) (s : Tune.State K)
    (hu : s.u = u) (hup : s.up = up) :
    ∃ s2, Tune.getTune L E pi chol s = (.ok (average (s.dphi ++ s1.dphi)), s2) ∧
      (s.dphi = [] → average (s.dphi ++ s1.dphi) = t) := by
  rw [← tuneMean_eq]
  obtain ⟨a, h1, h2, h3, h4, h5⟩ := getTune_dphi L E pi chol _ s1 t h
  have ha : s1.dphi = a := by rw [h1]; simp [Tune.new]
  obtain ⟨s3, g1, _, _, _⟩ := h5 s hu hup
  refine ⟨s3, by rw [ha]; exact g1, fun h0 => ?_⟩
  rw [h0, h4, ha]
  rfl

/-! ### C66 is false -/

/-- Cholesky decomposition of 2 by 2 matrices over the reals -/
noncomputable def realChol (M : Mat ℝ) : Option (Mat ℝ) :=
  let a := M.entry 0 0
  let b := M.entry 1 0
  let c := M.entry 1 1
  if 0 < a ∧ 0 < c - b * b / a then
    some ⟨2, 2, fun i j => if i = 0 then (if j = 0 then Real.sqrt a else 0)
      else (if j = 0 then b / Real.sqrt a else Real.sqrt (c - b * b / a))⟩
  else none

/-- four points of a circle, going clockwise -/
def cwU : List ℝ := [1, 0, -1, 0]
def cwV : List ℝ := [0, -1, 0, 1]
/-- four points of a circle, going anticlockwise -/
def acU : List ℝ := [1, 0, -1, 0]
def acV : List ℝ := [0, 1, 0, -1]

/-- all the points are on the unit circle and have the moments of the uniform distribution -/
structure Round (a : List (List ℝ × ℝ)) : Prop where
  mean0 : cMean a 0 = 0
  mean1 : cMean a 1 = 0
  c00 : cCov a 0 0 = 1 / 2
  c01 : cCov a 0 1 = 0
  c10 : cCov a 1 0 = 0
  c11 : cCov a 1 1 = 1 / 2
  wt : totW a ≠ 0
  unit : ∀ q ∈ a, q.1.getD 0 0 ^ 2 + q.1.getD 1 0 ^ 2 = 1

theorem Round.mat {a : List (List ℝ × ℝ)} (h : Round a) :
    cMat 2 a = !![1 / 2, 0; 0, 1 / 2] := by
  ext i j
  fin_cases i <;> fin_cases j <;> simp [cMat, h.c00, h.c01, h.c10, h.c11]

theorem Round.det {a : List (List ℝ × ℝ)} (h : Round a) : (cMat 2 a).det = 1 / 4 := by
  rw [h.mat, Matrix.det_fin_two_of]; norm_num

theorem Round.inv {a : List (List ℝ × ℝ)} (h : Round a) :
    (cMat 2 a)⁻¹ = !![2, 0; 0, 2] := by
  rw [h.mat]
  apply Matrix.inv_eq_left_inv
  ext i j
  fin_cases i <;> fin_cases j <;> simp [Matrix.mul_apply, Fin.sum_univ_two]

theorem Round.accepted {a : List (List ℝ × ℝ)} (h : Round a) (k : Nat) :
    accepted 2 a 1000000000 k = a := by
  induction k with
  | zero => rfl
  | succ k ih =>
    rw [Xboa.accepted, ih, List.filter_eq_self]
    intro q hq
    rw [decide_eq_true_iff]
    refine ⟨1 / 2, by norm_num, by rw [h.det]; norm_num, ?_⟩
    rw [h.inv]
    have := h.unit q hq
    simp only [Fin.sum_univ_two, Matrix.of_apply, Matrix.cons_val', Matrix.cons_val_zero,
      Matrix.cons_val_one, Fin.val_zero, Fin.val_one, h.mean0, h.mean1, Matrix.empty_val',
      Matrix.cons_val_fin_one]
    nlinarith

theorem Round.fit {pts : List (List ℝ)} (hne : pts ≠ []) (hp : ∀ p ∈ pts, p.length = 2)
    (h : Round (pts.zip (List.replicate pts.length 1))) :
    Common.fitEllipse realLin realExt pts 1000000000 none 10 =
      stats 2 (pts.zip (List.replicate pts.length 1)) := by
  rw [C50_unweighted]
  obtain ⟨_, r, h1, h2, h3⟩ := C50_fit_ellipse realLin_lawful realExt_lawful 2 (by norm_num) pts hne
    hp (List.replicate pts.length 1) (by simp) 1000000000 10
  generalize Common.fitEllipse realLin realExt pts 1000000000 (some (List.replicate pts.length 1)) 10
    = res at h3 ⊢
  cases h3 with
  | limit hr => rw [hr]; simp only [afterRounds, h.accepted]
  | converged q hr _ => rw [hr]; simp only [afterRounds, h.accepted]
  | weightless _ _ h0 => exact absurd (by rwa [h.accepted] at h0) h.wt
  | singular _ h0 => rw [h.accepted, h.det] at h0; norm_num at h0

theorem inv_scaled {N C : Mat ℝ} {s : ℝ} (hs : s ≠ 0) (hr : C.rows = 2) (hc : C.cols = 2)
    (h00 : C.entry 0 0 = s) (h01 : C.entry 0 1 = 0) (h10 : C.entry 1 0 = 0) (h11 : C.entry 1 1 = s)
    (h : realLin.inv C = some N) :
    N.entry 0 0 = 1 / s ∧ N.entry 0 1 = 0 ∧ N.entry 1 0 = 0 ∧ N.entry 1 1 = 1 / s := by
  obtain ⟨_, hcols, hm⟩ := realLin_lawful.inv_mul C N (by rw [hr, hc]) h
  have e : ∀ i j, i < 2 → j < 2 → N.entry i 0 * C.entry 0 j + N.entry i 1 * C.entry 1 j =
      if i = j then 1 else 0 := by
    intro i j hi hj
    have := hm i j (by omega) (by omega)
    simpa [Mat.mul, hcols, hr, Finset.sum_range_succ] using this
  have a := e 0 0 (by norm_num) (by norm_num)
  have b := e 0 1 (by norm_num) (by norm_num)
  have c := e 1 0 (by norm_num) (by norm_num)
  have d := e 1 1 (by norm_num) (by norm_num)
  rw [h00, h10] at a c
  rw [h01, h11] at b d
  simp at a b c d
  refine ⟨by field_simp; exact a, by simpa [hs] using b, by simpa [hs] using c, by
    field_simp; exact d⟩

theorem Round.tune {u up : List ℝ} (hne : List.zip u up ≠ [])
    (h : Round (((List.zip u up).map fun p => [p.1, p.2]).zip
      (List.replicate (List.zip u up).length 1))) (s : Tune.State ℝ)
    (hu : s.u = some u) (hup : s.up = some up) :
    ∃ c : ℝ, 0 < c ∧ ∀ phi0 phis, ((List.zip u up).map fun p => -Complex.arg ⟨c * p.1, c * p.2⟩) =
        phi0 :: phis →
      ∃ s', Tune.getTune realLin realExt Real.pi realChol s =
        (.ok (Tune.mean (s.dphi ++ Tune.advances Real.pi phi0 phis)), s') ∧
        s'.dphi = s.dphi ++ Tune.advances Real.pi phi0 phis := by
  set pts := (List.zip u up).map fun p => [p.1, p.2] with hpts
  have hlen : pts.length = (List.zip u up).length := by simp [hpts]
  rw [← hlen] at h
  have hf := Round.fit (pts := pts) (by simpa [hpts] using hne) (by
    intro p hp
    obtain ⟨q, _, rfl⟩ := List.mem_map.mp hp
    rfl) h
  have hhalf : (0 : ℝ) < Real.sqrt (1 / 2) := Real.sqrt_pos.mpr (by norm_num)
  refine ⟨1 / Real.sqrt (1 / 2), by positivity, fun phi0 phis heq => ?_⟩
  have hchol : ∃ C, realChol (stats 2 (pts.zip (List.replicate pts.length 1))).2 = some C ∧
      C.rows = 2 ∧ C.cols = 2 ∧ C.entry 0 0 = Real.sqrt (1 / 2) ∧ C.entry 0 1 = 0 ∧
      C.entry 1 0 = 0 ∧ C.entry 1 1 = Real.sqrt (1 / 2) := by
    simp only [realChol, stats, h.c00, h.c10, h.c11]
    rw [if_pos (by norm_num)]
    refine ⟨_, rfl, rfl, rfl, ?_, ?_, ?_, ?_⟩ <;> norm_num
  obtain ⟨C, hC, hr, hc, c00, c01, c10, c11⟩ := hchol
  have hdet : C.det ≠ 0 := by
    rw [Mat.det_eq C 2 hr, Matrix.det_fin_two]
    simp only [Matrix.of_apply, Fin.val_zero, Fin.val_one, c00, c01, c11]
    have := hhalf.ne'
    simp only [zero_mul, sub_zero]
    exact mul_ne_zero this this
  obtain ⟨N, hN⟩ := realLin_lawful.inv_ok C (by rw [hr, hc]) hdet
  obtain ⟨n00, n01, n10, n11⟩ := inv_scaled hhalf.ne' hr hc c00 c01 c10 c11 hN
  have m0 : (stats 2 (pts.zip (List.replicate pts.length 1))).1.getD 0 0 = 0 := by
    simp [stats, List.range_succ, h.mean0]
  have m1 : (stats 2 (pts.zip (List.replicate pts.length 1))).1.getD 1 0 = 0 := by
    simp [stats, List.range_succ, h.mean1]
  set fit := stats 2 (pts.zip (List.replicate pts.length 1)) with hfit
  obtain ⟨s', h1, h2⟩ := getDphiList_eval realLin realExt Real.pi realChol
    { s with centre := fit.1, ellipse := fit.2 } C N hC hN phi0 phis (by
      rw [← heq]
      simp only [hu, hup, Option.getD_some, List.map_map]
      apply List.map_congr_left
      intro p _
      simp only [Function.comp_apply, n00, n01, n10, n11, realExt]
      rw [m0, m1]
      simp)
  refine ⟨s', ?_, h2⟩
  unfold Tune.getTune
  simp only [hu, hup]
  rw [← hpts, hf]
  have hst : ({ s with centre := fit.1, ellipse := fit.2 } : Tune.State ℝ) =
      { u := some u, up := some up, centre := fit.1, ellipse := fit.2, circles := s.circles,
        dphi := s.dphi } := by rw [← hu, ← hup]
  rw [hst] at h1
  rw [h1]
  simp only [h2]

theorem arg_right {c : ℝ} (hc : 0 < c) : Complex.arg ⟨c, 0⟩ = 0 :=
  Complex.arg_ofReal_of_nonneg hc.le
theorem arg_left {c : ℝ} (hc : 0 < c) : Complex.arg ⟨-c, 0⟩ = Real.pi :=
  Complex.arg_ofReal_of_neg (by linarith)
theorem arg_up {c : ℝ} (hc : 0 < c) : Complex.arg ⟨0, c⟩ = Real.pi / 2 := by
  have : (⟨0, c⟩ : ℂ) = (c : ℂ) * Complex.I := by apply Complex.ext <;> simp
  rw [this, Complex.arg_real_mul _ hc, Complex.arg_I]
theorem arg_down {c : ℝ} (hc : 0 < c) : Complex.arg ⟨0, -c⟩ = -(Real.pi / 2) := by
  have : (⟨0, -c⟩ : ℂ) = (c : ℂ) * -Complex.I := by apply Complex.ext <;> simp
  rw [this, Complex.arg_real_mul _ hc, Complex.arg_neg_I]

theorem round_cw : Round (((List.zip cwU cwV).map fun p => [p.1, p.2]).zip
    (List.replicate (List.zip cwU cwV).length 1)) := by
  constructor <;> simp [cwU, cwV, cMean, cCov, totW] <;> norm_num

theorem round_ac : Round (((List.zip acU acV).map fun p => [p.1, p.2]).zip
    (List.replicate (List.zip acU acV).length 1)) := by
  constructor <;> simp [acU, acV, cMean, cCov, totW] <;> norm_num

theorem tune_cw (s : Tune.State ℝ) (hu : s.u = some cwU) (hup : s.up = some cwV) :
    ∃ s', Tune.getTune realLin realExt Real.pi realChol s =
      (.ok (Tune.mean (s.dphi ++ [1 / 4, 1 / 4, 1 / 4])), s') ∧
      s'.dphi = s.dphi ++ [1 / 4, 1 / 4, 1 / 4] := by
  obtain ⟨c, hc, h⟩ := round_cw.tune (by simp [cwU, cwV]) s hu hup
  have hpi := Real.pi_pos
  have hadv : Tune.advances Real.pi (-0) [Real.pi / 2, -Real.pi, -(Real.pi / 2)] =
      [1 / 4, 1 / 4, 1 / 4] := by
    simp only [Tune.advances]
    rw [if_neg (by linarith), if_pos (by linarith), if_neg (by linarith)]
    congr 1
    · field_simp; norm_num
    · congr 1
      · field_simp; norm_num
      · congr 1
        field_simp; norm_num
  have := h (-0) [Real.pi / 2, -Real.pi, -(Real.pi / 2)] (by
    simp [cwU, cwV, arg_right hc, arg_left hc, arg_up hc, arg_down hc])
  rwa [hadv] at this

theorem tune_ac (s : Tune.State ℝ) (hu : s.u = some acU) (hup : s.up = some acV) :
    ∃ s', Tune.getTune realLin realExt Real.pi realChol s =
      (.ok (Tune.mean (s.dphi ++ [3 / 4, 3 / 4, 3 / 4])), s') ∧
      s'.dphi = s.dphi ++ [3 / 4, 3 / 4, 3 / 4] := by
  obtain ⟨c, hc, h⟩ := round_ac.tune (by simp [acU, acV]) s hu hup
  have hpi := Real.pi_pos
  have hadv : Tune.advances Real.pi (-0) [-(Real.pi / 2), -Real.pi, Real.pi / 2] =
      [3 / 4, 3 / 4, 3 / 4] := by
    simp only [Tune.advances]
    rw [if_pos (by linarith), if_pos (by linarith), if_neg (by linarith)]
    congr 1
    · field_simp; ring
    · congr 1
      · field_simp; ring
      · congr 1
        field_simp; ring
  have := h (-0) [-(Real.pi / 2), -Real.pi, Real.pi / 2] (by
    simp [acU, acV, arg_right hc, arg_left hc, arg_up hc, arg_down hc])
  rwa [hadv] at this

/-- C66 is false: four points going round clockwise have tune 1/4; but if the object was used before
on four points going round anticlockwise (tune 3/4), the same data give 1/2. -/
theorem C66_false : ∃ s1 s2 s3 : Tune.State ℝ,
    Tune.getTune realLin realExt Real.pi realChol (Tune.new (some cwU) (some cwV)) =
      (.ok (some (1 / 4)), s1) ∧
    Tune.getTune realLin realExt Real.pi realChol (Tune.new (some acU) (some acV)) =
      (.ok (some (3 / 4)), s2) ∧
    Tune.getTune realLin realExt Real.pi realChol { s2 with u := some cwU, up := some cwV } =
      (.ok (some (1 / 2)), s3) := by
  obtain ⟨s1, h1, _⟩ := tune_cw (Tune.new (some cwU) (some cwV)) rfl rfl
  obtain ⟨s2, h2, h2'⟩ := tune_ac (Tune.new (some acU) (some acV)) rfl rfl
  obtain ⟨s3, h3, _⟩ := tune_cw { s2 with u := some cwU, up := some cwV } rfl rfl
  refine ⟨s1, s2, s3, ?_, ?_, ?_⟩
  · rw [h1]; simp [Tune.new, Tune.mean]; norm_num
  · rw [h2]; simp [Tune.new, Tune.mean]; norm_num
  · rw [h3]; simp [h2', Tune.new, Tune.mean]; norm_num

/-- case for C51_range, C51_repeat, C66_partial -/
example : ∃ s1, Tune.getTune realLin realExt Real.pi realChol (Tune.new (some cwU) (some cwV)) =
      (.ok (some (1 / 4)), s1) ∧
    ∀ y x, -Real.pi < realExt.atan2 y x ∧ realExt.atan2 y x ≤ Real.pi :=
  have ⟨s1, _, _, h, _⟩ := C66_false
  ⟨s1, h, fun y x => ⟨Complex.neg_pi_lt_arg _, Complex.arg_le_pi _⟩⟩

end Xboa
