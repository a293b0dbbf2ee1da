import Verif.Props.Optics
import Mathlib.Tactic.FieldSimp
/-
C110: statistics of a bunch depend only on the relative weight carried by every point of phase space,
and the statistics of two bunches read together follow from those of the parts.
-/
set_option linter.unusedSectionVars false
namespace Xboa
open Finset
variable {K : Type} [Field K] [LinearOrder K] [IsStrictOrderedRing K]

/-! ### specification -/

/-- The weight that the particles `l` carry at one point of the space of the variables `vars`:
the sum of the weights of the particles whose values of `vars` are `point`. -/
def pointWeight (vars : List String) (vals : String → Nat → K) (wt : Nat → K) (l : List Nat)
    (point : List K) : K :=
  ((l.filter (fun i => decide (vars.map (fun v => vals v i) = point))).map wt).sum

/-- `b'` (in `w'`) carries at every point of the space of `vars` the weight of `b` (in `w`) times `c`. -/
def SameShape (vars : List String) (c : K) (w : BWorld K) (b : Bunch K) (vals : String → Nat → K)
    (w' : BWorld K) (b' : Bunch K) (vals' : String → Nat → K) : Prop :=
  ∀ point, pointWeight vars vals' w'.weight b'.hits point = c * pointWeight vars vals w.weight b.hits point

/-- A bunch as `Bunch.new_from_hits` makes it, whose total weight is not tiny and whose hits give the
numbers `vals` for `vars`. -/
structure Readable (E : Ext K) (vars : List String) (w : BWorld K) (b : Bunch K)
    (vals : String → Nat → K) : Prop where
  normal : b.Normal w
  means : b.means = []
  heavy : ¬ |(b.hits.map w.weight).sum| < 1 / 1000000000
  vals : ∀ i ∈ b.hits, ∀ v ∈ vars, Bunch.hitNum E w i v = .ok (vals v i)

/-! ### sums over a distribution -/

theorem pointWeight_cons (vars : List String) (vals : String → Nat → K) (wt : Nat → K) (i : Nat)
    (l : List Nat) (point : List K) :
    pointWeight vars vals wt (i :: l) point =
      (if vars.map (fun v => vals v i) = point then wt i else 0) + pointWeight vars vals wt l point := by
  unfold pointWeight
  by_cases h : vars.map (fun v => vals v i) = point <;> simp [h]

theorem sum_eq_pointWeight (vars : List String) (vals : String → Nat → K) (wt : Nat → K)
    (F : List K → K) (S : Finset (List K)) :
    ∀ l : List Nat, (∀ i ∈ l, vars.map (fun v => vals v i) ∈ S) →
      (l.map (fun i => wt i * F (vars.map (fun v => vals v i)))).sum =
        ∑ p ∈ S, pointWeight vars vals wt l p * F p
  | [], _ => by simp [pointWeight]
  | i :: l, h => by
    rw [List.map_cons, List.sum_cons, sum_eq_pointWeight vars vals wt F S l (fun j hj => h j (by simp [hj]))]
    simp only [pointWeight_cons, add_mul, Finset.sum_add_distrib, ite_mul, zero_mul]
    rw [Finset.sum_ite_eq, if_pos (h i (by simp))]

theorem SameShape.sum {vars : List String} {c : K} {w w' : BWorld K} {b b' : Bunch K}
    {vals vals' : String → Nat → K} (h : SameShape vars c w b vals w' b' vals') (F : List K → K) :
    (b'.hits.map (fun i => w'.weight i * F (vars.map (fun v => vals' v i)))).sum =
      c * (b.hits.map (fun i => w.weight i * F (vars.map (fun v => vals v i)))).sum := by
  classical
  set S : Finset (List K) := (b.hits.map (fun i => vars.map (fun v => vals v i))).toFinset ∪
    (b'.hits.map (fun i => vars.map (fun v => vals' v i))).toFinset with hS
  rw [sum_eq_pointWeight vars vals' w'.weight F S b'.hits (fun i hi => by
      rw [hS]; simp only [Finset.mem_union, List.mem_toFinset, List.mem_map]; exact .inr ⟨i, hi, rfl⟩),
    sum_eq_pointWeight vars vals w.weight F S b.hits (fun i hi => by
      rw [hS]; simp only [Finset.mem_union, List.mem_toFinset, List.mem_map]; exact .inl ⟨i, hi, rfl⟩),
    Finset.mul_sum]
  refine Finset.sum_congr rfl fun p _ => ?_
  rw [h p]; ring

theorem SameShape.total {vars : List String} {c : K} {w w' : BWorld K} {b b' : Bunch K}
    {vals vals' : String → Nat → K} (h : SameShape vars c w b vals w' b' vals') :
    (b'.hits.map w'.weight).sum = c * (b.hits.map w.weight).sum := by
  simpa using h.sum (fun _ => 1)

theorem value_of_point {vars : List String} {v : String} (hv : v ∈ vars) (f : String → K) :
    (vars.map f).getD (vars.idxOf v) 0 = f v := by
  have hlt := List.idxOf_lt_length_of_mem hv
  simp [List.getD_eq_getElem?_getD, hlt]

theorem SameShape.moment {vars : List String} {c : K} {w w' : BWorld K} {b b' : Bunch K}
    {vals vals' : String → Nat → K} (h : SameShape vars c w b vals w' b' vals') (hc : c ≠ 0)
    (vs : List String) (hvs : ∀ v ∈ vs, v ∈ vars) (m : String → K) :
    wmoment b'.hits w'.weight (vs.map (fun v i => vals' v i - m v)) =
      wmoment b.hits w.weight (vs.map (fun v i => vals v i - m v)) := by
  have key := h.sum (fun p => (vs.map (fun v => p.getD (vars.idxOf v) 0 - m v)).prod)
  have e : ∀ f : String → K, (vs.map (fun v => (vars.map f).getD (vars.idxOf v) 0 - m v)).prod =
      (vs.map (fun v => f v - m v)).prod := by
    intro f
    congr 1
    refine List.map_congr_left fun v hv => ?_
    rw [value_of_point (hvs v hv)]
  simp only [e] at key
  unfold wmoment
  simp only [List.map_map, Function.comp_def]
  rw [key, h.total, mul_div_mul_left _ _ hc]

/-! ### the functions of Bunch -/

section
variable {E : Ext K} {vars : List String} {c : K} {w w' : BWorld K} {b b' : Bunch K}
  {vals vals' : String → Nat → K}
  (hc : c ≠ 0) (hs : SameShape vars c w b vals w' b' vals')
  (hr : Readable E vars w b vals) (hr' : Readable E vars w' b' vals')
include hc hs hr hr'

theorem moment_shape (vs : List String) (hvs : ∀ v ∈ vs, v ∈ vars) (d : List (String × PyVal K))
    (hd : ∀ v ∈ vs, ∃ p x, d.lookup v = some p ∧ p.num? = some x) :
    Bunch.moment E w' b' vs d = Bunch.moment E w b vs d := by
  have hm : ∀ v ∈ vs, ∃ p, d.lookup v = some p ∧ p.num? = some (((d.lookup v).bind PyVal.num?).getD 0) := by
    intro v hv
    obtain ⟨p, x, h1, h2⟩ := hd v hv
    exact ⟨p, h1, by simp [h1, h2]⟩
  rw [C19_moment E w' b' hr'.normal hr'.heavy vs d vals' (fun v => ((d.lookup v).bind PyVal.num?).getD 0)
      (fun i hi v hv => hr'.vals i hi v (hvs v hv)) hm,
    C19_moment E w b hr.normal hr.heavy vs d vals (fun v => ((d.lookup v).bind PyVal.num?).getD 0)
      (fun i hi v hv => hr.vals i hi v (hvs v hv)) hm,
    hs.moment hc vs hvs]

theorem meanLoop_shape (vs : List String) (hvs : ∀ v ∈ vs, v ∈ vars) :
    ∀ acc, Bunch.meanLoop E w' b' vs acc = Bunch.meanLoop E w b vs acc := by
  induction vs with
  | nil => intro acc; rfl
  | cons v r ih =>
    intro acc
    have ih := ih (fun u hu => hvs u (by simp [hu]))
    have hm : Bunch.momentWith E w' b' [v] [(v, .flt 0)] = Bunch.momentWith E w b [v] [(v, .flt 0)] :=
      moment_shape hc hs hr hr' [v] (fun u hu => hvs u (by simp at hu; simp [hu])) [(v, .flt 0)]
        (fun u hu => ⟨.flt 0, 0, by simp at hu; simp [hu], rfl⟩)
    simp only [Bunch.meanLoop, hr.means, hr'.means, List.lookup_nil, hm, ih]

theorem mean_shape (vs : List String) (hvs : ∀ v ∈ vs, v ∈ vars) :
    Bunch.mean E w' b' vs = Bunch.mean E w b vs := meanLoop_shape hc hs hr hr' vs hvs []

theorem moment_default_shape (vs : List String) (hvs : ∀ v ∈ vs, v ∈ vars) :
    Bunch.moment E w' b' vs [] = Bunch.moment E w b vs [] := by
  have hmean : ∀ v ∈ vs, wmean b'.hits w'.weight (vals' v) = wmean b.hits w.weight (vals v) := by
    intro v hv
    have := hs.moment hc [v] (fun u hu => by simp at hu; rw [hu]; exact hvs v hv) (fun _ => 0)
    simpa [wmoment, wmean] using this
  rw [C19_moment_default E w' b' hr'.normal hr'.means hr'.heavy vs vals'
      (fun i hi v hv => hr'.vals i hi v (hvs v hv)),
    C19_moment_default E w b hr.normal hr.means hr.heavy vs vals
      (fun i hi v hv => hr.vals i hi v (hvs v hv)),
    ← hs.moment hc vs hvs (fun v => wmean b.hits w.weight (vals v))]
  congr 2
  refine List.map_congr_left fun v hv => ?_
  funext i
  rw [hmean v hv]

theorem originLoop_shape (vs : List String) (hvs : ∀ v ∈ vs, v ∈ vars) :
    ∀ d, Bunch.originLoop E w' b' vs d = Bunch.originLoop E w b vs d := by
  induction vs with
  | nil => intro d; rfl
  | cons v r ih =>
    intro d
    have ih := ih (fun u hu => hvs u (by simp [hu]))
    have hm := mean_shape hc hs hr hr' [v] (fun u hu => hvs u (by simp at hu; simp [hu]))
    simp only [Bunch.originLoop, hm, ih]

theorem covLoop_shape (vs : List String) (hvs : ∀ v ∈ vs, v ∈ vars) (d : List (String × PyVal K))
    (hd : ∀ v ∈ vs, ∃ p x, d.lookup v = some p ∧ p.num? = some x) :
    ∀ (l : List (Nat × Nat)) (M : Mat K), (∀ p ∈ l, p.1 < vs.length ∧ p.2 < vs.length) →
      Bunch.covLoop E w' b' vs d l M = Bunch.covLoop E w b vs d l M
  | [], _, _ => rfl
  | (i, j) :: l, M, h => by
    have hij := h (i, j) (by simp)
    have mem : ∀ k, k < vs.length → vs.getD k "" ∈ vs := by
      intro k hk; simp [List.getD_eq_getElem?_getD, hk]
    have hm := moment_shape hc hs hr hr' [vs.getD i "", vs.getD j ""] (by
        intro v hv
        simp only [List.mem_cons, List.not_mem_nil, or_false] at hv
        rcases hv with rfl | rfl
        · exact hvs _ (mem i hij.1)
        · exact hvs _ (mem j hij.2)) d (by
        intro v hv
        simp only [List.mem_cons, List.not_mem_nil, or_false] at hv
        rcases hv with rfl | rfl
        · exact hd _ (mem i hij.1)
        · exact hd _ (mem j hij.2))
    simp only [Bunch.covLoop, hm]
    cases Bunch.moment E w b [vs.getD i "", vs.getD j ""] d with
    | error e => rfl
    | ok x => exact covLoop_shape vs hvs d hd l _ (fun p hp => h p (by simp [hp]))

theorem covarianceMatrix_shape (vs : List String) (hvs : ∀ v ∈ vs, v ∈ vars)
    (origin : List (String × PyVal K))
    (hnum : ∀ v ∈ vs, ∀ p, origin.lookup v = some p → p.num? ≠ none) :
    Bunch.covarianceMatrix E w' b' vs origin = Bunch.covarianceMatrix E w b vs origin := by
  have hW : ¬ Bunch.weightTiny (Bunch.bunchWeight w b) := by
    rw [Bunch.bunchWeight_eq]; exact hr.heavy
  obtain ⟨d, h1, h2⟩ := Bunch.originLoop_ok E w b hr.normal hr.means hW vals
    (DocumentedMean b w vals origin) vs (fun i hi v hv => hr.vals i hi v (hvs v hv)) origin (by
      intro v hv p hp
      have := hnum v hv p hp
      unfold DocumentedMean
      rw [hp]
      cases hq : p.num? with
      | none => exact absurd hq this
      | some x => simp [hq]) (by
      intro v _ hl
      unfold DocumentedMean
      rw [hl])
  unfold Bunch.covarianceMatrix
  rw [originLoop_shape hc hs hr hr' vs hvs, h1]
  refine covLoop_shape hc hs hr hr' vs hvs d (fun v hv => ?_) _ _ (fun p hp => ?_)
  · obtain ⟨p, h3, h4⟩ := (h2 v).1 hv
    exact ⟨p, _, h3, h4⟩
  · have := (Bunch.mem_upperPairs vs.length p.1 p.2).mp hp
    omega

/-- C110: if a second bunch carries at every point of the space of the variables `vars` the weight of the
first times one constant, its mean, its moments about any point and about the mean and its covariance
matrix are those of the first. -/
theorem C110_statistics (vs : List String) (hvs : ∀ v ∈ vs, v ∈ vars) :
    Bunch.bunchWeight w' b' = c * Bunch.bunchWeight w b ∧
    Bunch.mean E w' b' vs = Bunch.mean E w b vs ∧
    Bunch.moment E w' b' vs [] = Bunch.moment E w b vs [] ∧
    (∀ d, (∀ v ∈ vs, ∃ p x, d.lookup v = some p ∧ p.num? = some x) →
      Bunch.moment E w' b' vs d = Bunch.moment E w b vs d) ∧
    ∀ origin, (∀ v ∈ vs, ∀ p, origin.lookup v = some p → p.num? ≠ none) →
      Bunch.covarianceMatrix E w' b' vs origin = Bunch.covarianceMatrix E w b vs origin :=
  ⟨by rw [Bunch.bunchWeight_eq, Bunch.bunchWeight_eq]; exact hs.total,
   mean_shape hc hs hr hr' vs hvs, moment_default_shape hc hs hr hr' vs hvs,
   fun d hd => moment_shape hc hs hr hr' vs hvs d hd,
   fun o ho => covarianceMatrix_shape hc hs hr hr' vs hvs o ho⟩

theorem emitCov_shape (cl : List String) (hcl : ∀ v ∈ cl, v ∈ vars) (cov : Option (Mat K)) :
    Bunch.emitCov E w' b' cl cov = Bunch.emitCov E w b cl cov := by
  cases cov with
  | some M => rfl
  | none =>
    simp only [Bunch.emitCov, Bunch.covPicker, hr.normal.covs, hr'.normal.covs]
    exact covarianceMatrix_shape hc hs hr hr' cl hcl [] (by simp)

theorem cov2_shape (u v : String) (hu : u ∈ vars) (hv : v ∈ vars) :
    Bunch.cov2 E w' b' u v = Bunch.cov2 E w b u v := by
  have hsub : ∀ x ∈ [u, v], x ∈ vars := by
    intro x hx
    simp only [List.mem_cons, List.not_mem_nil, or_false] at hx
    rcases hx with rfl | rfl <;> assumption
  unfold Bunch.cov2
  rw [mean_shape hc hs hr hr' [u, v] hsub]
  obtain ⟨d, h1, h2⟩ := Bunch.mean_ok E w b hr.normal hr.means hr.heavy vals [u, v]
    (fun i hi x hx => hr.vals i hi x (hsub x hx))
  rw [h1]
  exact moment_shape hc hs hr hr' [u, v] hsub d (fun x hx => ⟨_, _, h2 x hx, rfl⟩)
end

theorem sumAxes_congr {f g : String → Except Err K} :
    ∀ (l : List String) (acc : K), (∀ a ∈ l, f a = g a) → Bunch.sumAxes f l acc = Bunch.sumAxes g l acc
  | [], _, _ => rfl
  | a :: r, acc, h => by
    simp only [Bunch.sumAxes, h a (by simp)]
    cases g a with
    | error e => rfl
    | ok x => exact sumAxes_congr r _ (fun u hu => h u (by simp [hu]))

theorem covList_mem {geo : Bool} : ∀ {axes cl : List String}, Bunch.covList geo axes = .ok cl →
    ∀ a ∈ axes, a ∈ cl ∧ ∃ m, Bunch.momVar geo a = .ok m ∧ m ∈ cl
  | [], _, _, a, ha => by simp at ha
  | x :: r, cl, h, a, ha => by
    rw [Bunch.covList] at h
    cases hm : Bunch.momVar geo x with
    | error e => rw [hm] at h; cases h
    | ok m =>
      rw [hm] at h
      simp only at h
      cases hl : Bunch.covList geo r with
      | error e => rw [hl] at h; cases h
      | ok l =>
        rw [hl] at h
        cases h
        rcases List.mem_cons.mp ha with rfl | ha
        · exact ⟨by simp, m, hm, by simp⟩
        · obtain ⟨h1, m', h2, h3⟩ := covList_mem hl a ha
          exact ⟨by simp [h1], m', h2, by simp [h3]⟩

section
variable {E : Ext K} {vars : List String} {c : K} {w w' : BWorld K} {b b' : Bunch K}
  {vals vals' : String → Nat → K}
  (hc : c ≠ 0) (hs : SameShape vars c w b vals w' b' vals')
  (hr : Readable E vars w b vals) (hr' : Readable E vars w' b' vals')
  (hgeo : w'.geo = w.geo)
include hc hs hr hr' hgeo

theorem getEmittance_shape (L : LinAlg K) (axes cl : List String) (hcl : Bunch.covList w.geo axes = .ok cl)
    (hsub : ∀ v ∈ cl, v ∈ vars) (mass : K) (hm : FirstMass w b mass) (hm' : FirstMass w' b' mass)
    (cov : Option (Mat K)) :
    Bunch.getEmittance L E w' b' axes cov = Bunch.getEmittance L E w b axes cov := by
  unfold Bunch.getEmittance
  rw [hgeo, hcl]
  simp only
  rw [emitCov_shape hc hs hr hr' cl hsub]
  obtain ⟨i, hi, e⟩ := hm
  obtain ⟨i', hi', e'⟩ := hm'
  cases hh : b.hits with
  | nil => rw [hh] at hi; cases hi
  | cons x r =>
    cases hh' : b'.hits with
    | nil => rw [hh'] at hi'; cases hi'
    | cons x' r' =>
      rw [hh] at hi; cases hi
      rw [hh'] at hi'; cases hi'
      simp only [e, e']

/-- C110_partial: with the same first mass and flags, emittance, beta, gamma and alpha of the two bunches
are the same, and so is the amplitude of a hit that reads the same.
Missing: bunches whose total weight is tiny, or whose first hit has another mass (false). -/
theorem C110_partial (L : LinAlg K) (geometric : Bool) (axes cl cl' : List String)
    (hcl : Bunch.covList w.geo axes = .ok cl) (hcl' : Bunch.covList geometric axes = .ok cl')
    (hsub : ∀ v ∈ cl ++ cl' ++ ["p"], v ∈ vars) (mass : K) (hm : FirstMass w b mass)
    (hm' : FirstMass w' b' mass) :
    Bunch.getEmittance L E w' b' axes none = Bunch.getEmittance L E w b axes none ∧
    Bunch.getBeta L E w' b' axes geometric = Bunch.getBeta L E w b axes geometric ∧
    Bunch.getGamma L E w' b' axes geometric = Bunch.getGamma L E w b axes geometric ∧
    Bunch.getAlpha L E w' b' axes geometric = Bunch.getAlpha L E w b axes geometric ∧
    ∀ (hit hit' : Nat) (f : String → K), (∀ v ∈ cl, Bunch.hitNum E w hit v = .ok (f v)) →
      (∀ v ∈ cl, Bunch.hitNum E w' hit' v = .ok (f v)) →
      Bunch.getAmplitude L E w' b' hit' axes = Bunch.getAmplitude L E w b hit axes := by
  have s1 : ∀ v ∈ cl, v ∈ vars := fun v hv => hsub v (by simp [hv])
  have s2 : ∀ v ∈ cl', v ∈ vars := fun v hv => hsub v (by simp [hv])
  have sp : "p" ∈ vars := hsub "p" (by simp)
  have he := getEmittance_shape hc hs hr hr' hgeo L axes cl hcl s1 mass hm hm'
  have hf : Bunch.firstMass w' b' = Bunch.firstMass w b := by rw [hm.firstMass, hm'.firstMass]
  have hp : Bunch.meanOf E w' b' "p" = Bunch.meanOf E w b "p" := by
    unfold Bunch.meanOf
    rw [mean_shape hc hs hr hr' ["p"] (fun u hu => by simp at hu; rw [hu]; exact sp)]
  have q1 : ∀ acc, Bunch.sumAxes (fun a => Bunch.cov2 E w' b' a a) axes acc =
      Bunch.sumAxes (fun a => Bunch.cov2 E w b a a) axes acc := fun acc =>
    sumAxes_congr axes acc (fun a ha => cov2_shape hc hs hr hr' a a
      (s1 a (covList_mem hcl a ha).1) (s1 a (covList_mem hcl a ha).1))
  have q2 : ∀ acc, Bunch.sumAxes (Bunch.momVariance E w' b' geometric) axes acc =
      Bunch.sumAxes (Bunch.momVariance E w b geometric) axes acc := fun acc =>
    sumAxes_congr axes acc (fun a ha => by
      obtain ⟨_, m, h1, h2⟩ := covList_mem hcl' a ha
      simp only [Bunch.momVariance, h1]
      exact cov2_shape hc hs hr hr' m m (s2 m h2) (s2 m h2))
  have q3 : ∀ acc, Bunch.sumAxes (Bunch.axisCov E w' b' geometric) axes acc =
      Bunch.sumAxes (Bunch.axisCov E w b geometric) axes acc := fun acc =>
    sumAxes_congr axes acc (fun a ha => by
      obtain ⟨ha', m, h1, h2⟩ := covList_mem hcl' a ha
      simp only [Bunch.axisCov, h1]
      exact cov2_shape hc hs hr hr' a m (s2 a ha') (s2 m h2))
  refine ⟨he none, ?_, ?_, ?_, ?_⟩
  · simp only [Bunch.getBeta, he, q1, hp, hf]
  · simp only [Bunch.getGamma, he, q2, hp, hf]
  · simp only [Bunch.getAlpha, he, q3, hf]
  · intro hit hit' f h1 h2
    unfold Bunch.getAmplitude
    rw [hgeo, hcl]
    simp only
    rw [mean_shape hc hs hr hr' cl s1, emitCov_shape hc hs hr hr' cl s1]
    cases Bunch.mean E w b cl with
    | error e => rfl
    | ok d =>
      simp only
      cases Bunch.numDict d with
      | error e => rfl
      | ok ms =>
        simp only
        rw [get_vector_ok E (w'.hview hit') f ms cl h2, get_vector_ok E (w.hview hit) f ms cl h1]
        simp only [he]
end

/-! ### ways to get the same shape -/

theorem pointWeight_append (vars : List String) (vals : String → Nat → K) (wt : Nat → K) (l l' : List Nat)
    (p : List K) : pointWeight vars vals wt (l ++ l') p = pointWeight vars vals wt l p + pointWeight vars vals wt l' p := by
  simp [pointWeight, List.filter_append]

theorem pointWeight_perm (vars : List String) (vals : String → Nat → K) (wt : Nat → K) {l l' : List Nat}
    (h : l'.Perm l) (p : List K) : pointWeight vars vals wt l' p = pointWeight vars vals wt l p :=
  ((h.filter _).map wt).sum_eq

theorem pointWeight_congr (vars : List String) {vals vals' : String → Nat → K} {wt wt' : Nat → K} {c : K} :
    ∀ (l : List Nat), (∀ i ∈ l, wt' i = c * wt i) → (∀ i ∈ l, ∀ v ∈ vars, vals' v i = vals v i) →
    ∀ p, pointWeight vars vals' wt' l p = c * pointWeight vars vals wt l p
  | [], _, _, p => by simp [pointWeight]
  | i :: l, h1, h2, p => by
    rw [pointWeight_cons, pointWeight_cons, pointWeight_congr vars l (fun j hj => h1 j (by simp [hj]))
      (fun j hj => h2 j (by simp [hj])), h1 i (by simp),
      List.map_congr_left (h2 i (by simp))]
    split <;> ring

theorem pointWeight_weightless (vars : List String) (vals : String → Nat → K) (wt : Nat → K) :
    ∀ (l : List Nat), (∀ i ∈ l, wt i = 0) → ∀ p, pointWeight vars vals wt l p = 0
  | [], _, p => by simp [pointWeight]
  | i :: l, h, p => by
    rw [pointWeight_cons, pointWeight_weightless vars vals wt l (fun j hj => h j (by simp [hj])), h i (by simp)]
    simp

/-- C110: the hypothesis on the shape holds if the hits are put in another order with all weights
multiplied by one constant, if the list of hits is repeated, and if hits of weight zero are added. -/
theorem C110_same_shape (vars : List String) (w w' : BWorld K) (b b' : Bunch K) (vals : String → Nat → K) :
    (∀ c, b'.hits.Perm b.hits → (∀ i ∈ b.hits, w'.weight i = c * w.weight i) →
      SameShape vars c w b vals w' b' vals) ∧
    (∀ n : Nat, b'.hits = (List.replicate n b.hits).flatten → SameShape vars (n : K) w b vals w b' vals) ∧
    ∀ l, (∀ i ∈ l, w.weight i = 0) → b'.hits.Perm (b.hits ++ l) → SameShape vars 1 w b vals w b' vals := by
  refine ⟨fun c hp h p => ?_, fun n h p => ?_, fun l hl hp p => ?_⟩
  · rw [pointWeight_perm vars vals w'.weight hp]
    exact pointWeight_congr vars b.hits h (fun _ _ _ _ => rfl) p
  · rw [h]
    clear h
    induction n with
    | zero => simp [pointWeight]
    | succ n ih =>
      rw [List.replicate_succ, List.flatten_cons, pointWeight_append, ih]
      push_cast; ring
  · rw [pointWeight_perm vars vals w.weight hp, pointWeight_append, pointWeight_weightless vars vals w.weight l hl]
    ring

/-! ### two bunches read together -/

theorem wmean_cross {ι : Type} (l : List ι) (wt : ι → K) (f g : ι → K) (a e : K)
    (hW : (l.map wt).sum ≠ 0) :
    (l.map (fun i => wt i * ((f i - a) * (g i - e)))).sum =
      (l.map (fun i => wt i * ((f i - wmean l wt f) * (g i - wmean l wt g)))).sum +
        (l.map wt).sum * ((wmean l wt f - a) * (wmean l wt g - e)) := by
  have lin : ∀ x y : K, (l.map (fun i => wt i * ((f i - x) * (g i - y)))).sum =
      (l.map (fun i => wt i * (f i * g i))).sum - y * (l.map (fun i => wt i * f i)).sum -
        x * (l.map (fun i => wt i * g i)).sum + x * y * (l.map wt).sum := by
    intro x y
    clear hW
    induction l with
    | nil => simp
    | cons h t ih => simp only [List.map_cons, List.sum_cons, ih]; ring
  have h1 : (l.map (fun i => wt i * f i)).sum = wmean l wt f * (l.map wt).sum := by
    rw [wmean, div_mul_cancel₀ _ hW]
  have h2 : (l.map (fun i => wt i * g i)).sum = wmean l wt g * (l.map wt).sum := by
    rw [wmean, div_mul_cancel₀ _ hW]
  rw [lin, lin, h1, h2]
  ring

/-- C110: the hits of two bunches put in one bunch.  The weights add; the mean is the weighted mean of the
means; and the covariance matrix is the weighted mean of the matrices plus the spread of the two means. -/
theorem C110_merged (E : Ext K) (vars : List String) (w : BWorld K) (b₁ b₂ b : Bunch K)
    (vals : String → Nat → K) (hb : b.hits = b₁.hits ++ b₂.hits)
    (h₁ : Readable E vars w b₁ vals) (h₂ : Readable E vars w b₂ vals) (h : Readable E vars w b vals) :
    ∃ W₁ W₂ d₁ d₂ d M₁ M₂ M,
      Bunch.bunchWeight w b₁ = W₁ ∧ Bunch.bunchWeight w b₂ = W₂ ∧ Bunch.bunchWeight w b = W₁ + W₂ ∧
      Bunch.mean E w b₁ vars = .ok d₁ ∧ Bunch.mean E w b₂ vars = .ok d₂ ∧ Bunch.mean E w b vars = .ok d ∧
      Bunch.covarianceMatrix E w b₁ vars [] = .ok M₁ ∧ Bunch.covarianceMatrix E w b₂ vars [] = .ok M₂ ∧
      Bunch.covarianceMatrix E w b vars [] = .ok M ∧
      ∃ m₁ m₂ m : String → K, (∀ v ∈ vars, d₁.lookup v = some (.flt (m₁ v)) ∧
        d₂.lookup v = some (.flt (m₂ v)) ∧ d.lookup v = some (.flt (m v)) ∧
        (W₁ + W₂) * m v = W₁ * m₁ v + W₂ * m₂ v) ∧
      ∀ i j, i < vars.length → j < vars.length →
        (W₁ + W₂) * M.entry i j = W₁ * M₁.entry i j + W₂ * M₂.entry i j +
          W₁ * W₂ / (W₁ + W₂) * ((m₁ (vars.getD i "") - m₂ (vars.getD i "")) *
            (m₁ (vars.getD j "") - m₂ (vars.getD j ""))) := by
  obtain ⟨d₁, e1, e1'⟩ := Bunch.mean_ok E w b₁ h₁.normal h₁.means h₁.heavy vals vars h₁.vals
  obtain ⟨d₂, e2, e2'⟩ := Bunch.mean_ok E w b₂ h₂.normal h₂.means h₂.heavy vals vars h₂.vals
  obtain ⟨d, e3, e3'⟩ := Bunch.mean_ok E w b h.normal h.means h.heavy vals vars h.vals
  obtain ⟨M₁, g1, _, _, g1'⟩ := Bunch.emitCov_ok E w b₁ h₁.normal h₁.means h₁.heavy vals vars h₁.vals
  obtain ⟨M₂, g2, _, _, g2'⟩ := Bunch.emitCov_ok E w b₂ h₂.normal h₂.means h₂.heavy vals vars h₂.vals
  obtain ⟨M, g3, _, _, g3'⟩ := Bunch.emitCov_ok E w b h.normal h.means h.heavy vals vars h.vals
  simp only [Bunch.emitCov, Bunch.covPicker, h₁.normal.covs, h₂.normal.covs, h.normal.covs] at g1 g2 g3
  have nz : ∀ x : K, ¬ |x| < 1 / 1000000000 → x ≠ 0 := by
    intro x hx h0; apply hx; rw [h0]; norm_num
  have n1 := nz _ h₁.heavy
  have n2 := nz _ h₂.heavy
  have n3 := nz _ h.heavy
  set W₁ := (b₁.hits.map w.weight).sum with hW₁
  set W₂ := (b₂.hits.map w.weight).sum with hW₂
  have hWsum : (b.hits.map w.weight).sum = W₁ + W₂ := by rw [hb]; simp [hW₁, hW₂]
  rw [hWsum] at n3
  have hmean : ∀ f : Nat → K, (W₁ + W₂) * wmean b.hits w.weight f =
      W₁ * wmean b₁.hits w.weight f + W₂ * wmean b₂.hits w.weight f := by
    intro f
    unfold wmean
    rw [hWsum, ← hW₁, ← hW₂, mul_div_cancel₀ _ n3, mul_div_cancel₀ _ n1, mul_div_cancel₀ _ n2, hb]
    simp
  refine ⟨W₁, W₂, d₁, d₂, d, M₁, M₂, M, by rw [Bunch.bunchWeight_eq], by rw [Bunch.bunchWeight_eq],
    by rw [Bunch.bunchWeight_eq, hWsum], e1, e2, e3, g1, g2, g3,
    fun v => wmean b₁.hits w.weight (vals v), fun v => wmean b₂.hits w.weight (vals v),
    fun v => wmean b.hits w.weight (vals v), fun v hv => ⟨e1' v hv, e2' v hv, e3' v hv, hmean _⟩, ?_⟩
  intro i j hi hj
  rw [g1' i j hi hj, g2' i j hi hj, g3' i j hi hj]
  set f := vals (vars.getD i "")
  set g := vals (vars.getD j "")
  unfold wcov
  simp only [wmoment_pair]
  rw [hWsum, ← hW₁, ← hW₂, mul_div_cancel₀ _ n3, mul_div_cancel₀ _ n1, mul_div_cancel₀ _ n2]
  have hsplit : (b.hits.map (fun k => w.weight k * ((f k - wmean b.hits w.weight f) *
      (g k - wmean b.hits w.weight g)))).sum =
      (b₁.hits.map (fun k => w.weight k * ((f k - wmean b.hits w.weight f) *
      (g k - wmean b.hits w.weight g)))).sum +
      (b₂.hits.map (fun k => w.weight k * ((f k - wmean b.hits w.weight f) *
      (g k - wmean b.hits w.weight g)))).sum := by
    generalize wmean b.hits w.weight f = x
    generalize wmean b.hits w.weight g = y
    rw [hb]; simp
  rw [hsplit, wmean_cross b₁.hits w.weight f g _ _ n1, wmean_cross b₂.hits w.weight f g _ _ n2,
    ← hW₁, ← hW₂]
  have hf : wmean b.hits w.weight f =
      (W₁ * wmean b₁.hits w.weight f + W₂ * wmean b₂.hits w.weight f) / (W₁ + W₂) := by
    rw [eq_div_iff n3, mul_comm]; exact hmean f
  have hg : wmean b.hits w.weight g =
      (W₁ * wmean b₁.hits w.weight g + W₂ * wmean b₂.hits w.weight g) / (W₁ + W₂) := by
    rw [eq_div_iff n3, mul_comm]; exact hmean g
  rw [hf, hg]
  field_simp
  ring

/-! ### where it is false, and a case -/

/-- exOpticsWorld with all weights multiplied by `c` and hit 3 of mass 2. -/
def exScaled (c : ℚ) (heavy : Bool) : BWorld ℚ :=
  { exOpticsWorld with hits := fun i => ⟨fun v => match v with
      | .local_weight => c
      | .mass => if heavy && i == 3 then 2 else 1
      | v => (exOpticsWorld.hits i).d v, fun _ => 0⟩ }
def exReversed : Bunch ℚ := ⟨[3, 2, 1, 0], [some 3, some 2, some 1, some 0], none, []⟩

/-- what the four hits read for x, px and (with the square root of ratExt) p -/
def exVal (v : String) (i : Nat) : ℚ :=
  if v = "x" then (if i = 0 then 1 else if i = 1 then -1 else 0)
  else if v = "px" then (if i = 2 then 1 else if i = 3 then -1 else 0)
  else if i = 2 ∨ i = 3 then 5 else 4

/-- C110 is false of weights that become tiny: every hit of weight 1e-10 in place of 1 and the moments are
a ZeroDivisionError; and false of hits with different masses: the same four hits in another order have
half the emittance, because the mass of the first hit is used. -/
theorem C110_false :
    (∃ c : ℚ, c ≠ 0 ∧ SameShape ["x", "px"] c (exScaled 1 false) exOpticsBunch (fun v i => exVal v i)
        (exScaled c false) exOpticsBunch (fun v i => exVal v i) ∧
      Bunch.moment ratExt (exScaled 1 false) exOpticsBunch ["x", "x"] [] = .ok (1 / 2) ∧
      Bunch.moment ratExt (exScaled c false) exOpticsBunch ["x", "x"] [] = .error .ZeroDivisionError) ∧
    exReversed.hits.Perm exOpticsBunch.hits ∧
    Bunch.getEmittance exLin ratExt (exScaled 1 true) exOpticsBunch ["x"] none = .ok (1 / 2) ∧
    Bunch.getEmittance exLin ratExt (exScaled 1 true) exReversed ["x"] none = .ok (1 / 4) := by
  refine ⟨⟨1 / 10000000000, by norm_num, ?_, by decide +kernel, by decide +kernel⟩,
    by decide, by decide +kernel, by decide +kernel⟩
  refine (C110_same_shape _ _ _ _ _ _).1 _ (List.Perm.refl _) (fun i hi => ?_)
  fin_cases hi <;> decide +kernel

theorem exScaled_readable (c : ℚ) (hc : c = 1 ∨ c = 7) (b : Bunch ℚ)
    (h : b = exOpticsBunch ∨ b = exReversed) :
    Readable ratExt ["x", "px", "p"] (exScaled c false) b (fun v i => exVal v i) := by
  rcases hc with rfl | rfl <;> rcases h with rfl | rfl <;>
    exact ⟨⟨rfl, rfl, rfl⟩, rfl, by decide +kernel, by decide +kernel⟩

theorem exScaled_shape : SameShape ["x", "px", "p"] 7 (exScaled 1 false) exOpticsBunch (fun v i => exVal v i)
    (exScaled 7 false) exReversed (fun v i => exVal v i) :=
  (C110_same_shape _ _ _ _ _ _).1 7 (by decide) (fun i hi => by fin_cases hi <;> decide +kernel)

/-- weights seven times larger and hits in reverse order -/
example : Bunch.covarianceMatrix ratExt (exScaled 7 false) exReversed ["x", "px"] [] =
    Bunch.covarianceMatrix ratExt (exScaled 1 false) exOpticsBunch ["x", "px"] [] :=
  (C110_statistics (c := 7) (by norm_num) exScaled_shape
    (exScaled_readable 1 (.inl rfl) _ (.inl rfl)) (exScaled_readable 7 (.inr rfl) _ (.inr rfl))
    ["x", "px"] (by simp)).2.2.2.2 [] (by simp)

example : Bunch.getBeta exLin ratExt (exScaled 7 false) exReversed ["x"] false =
    Bunch.getBeta exLin ratExt (exScaled 1 false) exOpticsBunch ["x"] false :=
  (C110_partial (c := 7) (by norm_num) exScaled_shape
    (exScaled_readable 1 (.inl rfl) _ (.inl rfl)) (exScaled_readable 7 (.inr rfl) _ (.inr rfl))
    rfl exLin false ["x"] ["x", "px"] ["x", "px"] (by decide) (by decide) (by simp) 1
    ⟨0, rfl, rfl⟩ ⟨3, rfl, rfl⟩).2.1
example : Bunch.getBeta exLin ratExt (exScaled 7 false) exReversed ["x"] false = .ok (9 / 2) := by
  decide +kernel

/-- hits 0 and 2 with hits 1 and 3 -/
example : ∃ M, Bunch.covarianceMatrix ratExt (exScaled 1 false) ⟨[0, 2, 1, 3],
    [some 0, some 2, some 1, some 3], none, []⟩ ["x", "px"] [] = .ok M ∧ M.entry 0 0 = 1 / 2 := by
  have r : ∀ l : List Nat, l = [0, 2] ∨ l = [1, 3] ∨ l = [0, 2, 1, 3] → Readable ratExt ["x", "px"]
      (exScaled 1 false) ⟨l, l.map some, none, []⟩ (fun v i => exVal v i) := by
    rintro l (rfl | rfl | rfl) <;> refine ⟨⟨rfl, rfl, rfl⟩, rfl, by decide +kernel, ?_⟩ <;>
      intro i hi v hv <;> fin_cases hi <;> fin_cases hv <;> rfl
  obtain ⟨W₁, W₂, d₁, d₂, d, M₁, M₂, M, e1, e2, _, e4, e5, _, e7, e8, e9, m₁, m₂, m, h1, h2⟩ :=
    C110_merged ratExt ["x", "px"] (exScaled 1 false) _ _ _ _ rfl (r [0, 2] (by simp)) (r [1, 3] (by simp))
      (r [0, 2, 1, 3] (by simp))
  have hM := C21_bunch_entries ratExt (exScaled 1 false) _ (r [0, 2, 1, 3] (by simp)).normal rfl
    (r [0, 2, 1, 3] (by simp)).heavy ["x", "px"] [] _ (r [0, 2, 1, 3] (by simp)).vals (by simp)
  obtain ⟨M', g1, _, _, g4⟩ := hM
  have : M' = M := by
    have := g1.symm.trans e9
    injection this
  refine ⟨M, e9, ?_⟩
  rw [← this, g4 0 0 (by simp) (by simp)]
  decide +kernel

end Xboa
