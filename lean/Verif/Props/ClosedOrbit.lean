import Verif.Model.ClosedOrbit
import Verif.Props.ClosedOrbitScan
import Verif.Props.FitEllipse
import Mathlib.LinearAlgebra.Matrix.NonsingularInverse
import Mathlib.Tactic.FieldSimp
import Mathlib.Tactic.LinearCombination
/-
C80: EllipseClosedOrbitFinder, find_closed_orbit_generator and check_closed_orbit.
-/
set_option linter.unusedSectionVars false
namespace Xboa
namespace ClosedOrbit
variable {K : Type} [Field K] [LinearOrder K] [IsStrictOrderedRing K] {H : Type}

/-! ### Specification -/

/-- The hits that follow `h`, of which `c` are there already: as long as there are fewer than `n`, the
last hit is tracked and the new hits, without the tracked one itself, are taken up; the last of them
is not the hit that was tracked. -/
inductive Tracked (B : Beam H K) (n : Nat) : Nat → H → List H → Prop
  | enough (c : Nat) (h : H) : n ≤ c → Tracked B n c h []
  | more (c : Nat) (h : H) (t : List H) (l : H) (rest : List H) : c < n → B.track h = .ok t →
      (t.drop 1).getLast? = some l → B.eq l h = false →
      Tracked B n (c + (t.drop 1).length) l rest → Tracked B n c h (t.drop 1 ++ rest)

/-- `xs` are the variables `keys` of the hits that follow `h`, and of `h` itself if the seed is used -/
def PointsFrom (B : Beam H K) (useSeed : Bool) (keys : List String) (h : H) (n : Nat)
    (xs : List (List K)) : Prop :=
  ∃ hits, Tracked B n (if useSeed then 1 else 0) h hits ∧
    List.Forall₂ (fun g x => values B keys g = .ok x) ((if useSeed then [h] else []) ++ hits) xs

/-- the points, all of weight 1 -/
def unweighted (points : List (List K)) : List (List K × K) :=
  points.zip (List.replicate points.length 1)

/-- (p - m)^T C^-1 (p - m) for the mean m and the covariance matrix C of `a` -/
noncomputable def chiSq (d : Nat) (a : List (List K × K)) (p : List K) : K :=
  ∑ i : Fin d, ∑ j : Fin d, (p.getD i 0 - cMean a i) * (cMat d a)⁻¹ i j * (p.getD j 0 - cMean a j)

/-- mean of a list of numbers -/
def avg (l : List K) : K := l.sum / (l.length : K)

/-- What an iteration holds once its ellipse is known: mean and covariance matrix of the points that
fit_ellipse accepts, and the noise |C|^(1/d) (p - m)^T C^-1 (p - m) of every point. -/
def HasEllipse (d : Nat) (it : Iteration K) : Prop :=
  ∃ k s, it.centre = some (stats d (accepted d (unweighted it.points) it.epsMax k)).1 ∧
    it.ellipse = some (stats d (accepted d (unweighted it.points) it.epsMax k)).2 ∧
    0 < s ∧ s ^ d = (cMat d (accepted d (unweighted it.points) it.epsMax k)).det ∧
    it.noise = some (it.points.map fun p => s * chiSq d (accepted d (unweighted it.points) it.epsMax k) p)

/-- the noise is not above its own spread: mean² ≥ variance -/
def QuietEnough (noise : List K) : Prop :=
  avg (noise.map fun x => (x - avg noise) ^ 2) ≤ avg noise ^ 2 ∧ 0 ≤ avg noise

/-- The iterations that start from the hit `h`: each holds the ellipse of the points that follow its
hit; each but the last is quiet enough and the next hit has its variables at the centre. -/
def Iterates (B : Beam H K) (epsMax : K) (useSeed : Bool) (keys : List String) (n : Nat) :
    H → List (Iteration K) → Prop
  | _, [] => True
  | h, it :: r => it.epsMax = epsMax ∧ PointsFrom B useSeed keys h n it.points ∧
      HasEllipse keys.length it ∧
      (r ≠ [] → QuietEnough (it.noise.getD []) ∧
        ∃ h', setAll B (keys.zip (it.centre.getD [])) h = .ok h' ∧
          Iterates B epsMax useSeed keys n h' r)

/-! ### The points -/

theorem pointsLoop_succ (B : Beam H K) (n fuel : Nat) (h : H) (hits : List H) (hl : hits.length < n) :
    pointsLoop B n (fuel + 1) h hits =
      match B.track h with
      | .error e => .error e
      | .ok t =>
        match (hits ++ t.drop 1).getLast? with
        | none => .error .IndexError
        | some last =>
          if B.eq last h then .error .RuntimeError
          else pointsLoop B n fuel last (hits ++ t.drop 1) := by
  rw [pointsLoop.eq_def]
  simp only [if_pos hl]
  rfl

theorem pointsLoop_spec (B : Beam H K) (hrefl : ∀ h, B.eq h h = true) (n : Nat) :
    ∀ (fuel : Nat) (h : H) (hits : List H), n ≤ fuel + hits.length →
      (hits = [] ∨ hits.getLast? = some h) →
      (∀ r, pointsLoop B n fuel h hits = .ok r → ∃ new, r = hits ++ new ∧
        Tracked B n hits.length h new) ∧
      (pointsLoop B n fuel h hits = .error .Unmodelled → ∃ g, B.track g = .error .Unmodelled)
  | fuel, h, hits, hf, hlast => by
    by_cases hl : hits.length < n
    · obtain ⟨fuel, rfl⟩ : ∃ k, fuel = k + 1 := ⟨fuel - 1, by omega⟩
      rw [pointsLoop_succ B n fuel h hits hl]
      cases ht : B.track h with
      | error e =>
        refine ⟨fun r hr => by simp at hr, fun he => ⟨h, ?_⟩⟩
        simp only [Except.error.injEq] at he
        rw [ht, he]
      | ok t =>
        simp only
        by_cases hd : t.drop 1 = []
        · rw [hd, List.append_nil]
          rcases hlast with h0 | h0
          · subst h0
            simp
          · simp [h0, hrefl]
        · rw [List.getLast?_append_of_ne_nil _ hd]
          obtain ⟨l, hl2⟩ : ∃ l, (t.drop 1).getLast? = some l :=
            ⟨_, List.getLast?_eq_some_getLast hd⟩
          rw [hl2]
          simp only
          by_cases he : B.eq l h = true
          · simp [he]
          · rw [if_neg he]
            have hpos : 0 < (t.drop 1).length := List.length_pos_iff.mpr hd
            obtain ⟨i1, i2⟩ := pointsLoop_spec B hrefl n fuel l (hits ++ t.drop 1)
              (by rw [List.length_append]; omega)
              (Or.inr (by rw [List.getLast?_append_of_ne_nil _ hd, hl2]))
            refine ⟨fun r hr => ?_, i2⟩
            obtain ⟨new, e1, e2⟩ := i1 r hr
            refine ⟨t.drop 1 ++ new, by rw [e1, List.append_assoc], ?_⟩
            rw [List.length_append] at e2
            exact .more _ _ t l new hl ht hl2 (by simpa using he) e2
    · have h0 : pointsLoop B n fuel h hits = .ok hits := by
        rw [pointsLoop.eq_def]
        simp only [if_neg hl]
      rw [h0]
      refine ⟨fun r hr => ⟨[], ?_, .enough _ _ (not_lt.mp hl)⟩, fun he => by simp at he⟩
      simp only [Except.ok.injEq] at hr
      simp [hr]

theorem getPoints_ok (B : Beam H K) (hrefl : ∀ h, B.eq h h = true) (useSeed : Bool)
    (keys : List String) (h : H) (n : Nat) (xs : List (List K))
    (hx : getPoints B useSeed keys h n = .ok xs) : PointsFrom B useSeed keys h n xs := by
  unfold getPoints at hx
  split at hx
  · cases hx
  · rename_i hits hp
    have := (pointsLoop_spec B hrefl n n h (if useSeed then [h] else []) (by omega)
      (by cases useSeed <;> simp)).1 hits hp
    obtain ⟨new, e1, e2⟩ := this
    refine ⟨new, ?_, ?_⟩
    · cases useSeed <;> simpa using e2
    · rw [← e1]
      exact FFTTune.mapErr_ok.mp hx

theorem tracked_length (B : Beam H K) (n : Nat) : ∀ {c : Nat} {h : H} {hits : List H},
    Tracked B n c h hits → n ≤ c + hits.length := by
  intro c h hits ht
  induction ht with
  | enough c h hc => simpa using hc
  | more c h t l rest _ _ _ _ _ ih => rw [List.length_append]; omega

/-- C80, for all hits and trackings: the points of an iteration are the variables of consecutive
tracked hits, and there are at least number_of_points of them. -/
theorem C80_points (B : Beam H K) (hrefl : ∀ h, B.eq h h = true) (useSeed : Bool)
    (keys : List String) (h : H) (n : Nat) (xs : List (List K))
    (hx : getPoints B useSeed keys h n = .ok xs) :
    PointsFrom B useSeed keys h n xs ∧ n ≤ xs.length ∧ ∀ x ∈ xs, x.length = keys.length := by
  have hp := getPoints_ok B hrefl useSeed keys h n xs hx
  refine ⟨hp, ?_, ?_⟩
  · obtain ⟨hits, h1, h2⟩ := hp
    have := tracked_length B n h1
    rw [← h2.length_eq]
    cases useSeed <;> simp at this ⊢
    all_goals omega
  · obtain ⟨hits, _, h2⟩ := hp
    intro x hxm
    obtain ⟨i, hi, rfl⟩ := List.getElem_of_mem hxm
    have h3 := h2.get (i := i) (by rw [h2.length_eq]; exact hi) hi
    simp only [List.get_eq_getElem] at h3
    have h4 := FFTTune.mapErr_ok.mp h3
    exact h4.length_eq.symm

/-- C80, for all hits and trackings that return: collecting the points ends.  (The model's bound on
the number of rounds is never what ends it.) -/
theorem C80_points_end (B : Beam H K) (hrefl : ∀ h, B.eq h h = true)
    (ht : ∀ h, B.track h ≠ .error .Unmodelled) (h : H) (n : Nat) (useSeed : Bool) :
    pointsLoop B n n h (if useSeed then [h] else []) ≠ .error .Unmodelled := by
  intro he
  obtain ⟨g, hg⟩ := (pointsLoop_spec B hrefl n n h (if useSeed then [h] else []) (by omega)
    (by cases useSeed <;> simp)).2 he
  exact ht g hg

/-! ### The ellipse -/

theorem totW_unweighted (points : List (List K)) : totW (unweighted points) = (points.length : K) := by
  unfold totW unweighted
  rw [List.map_snd_zip (by simp)]
  simp

theorem accepted_weights (d : Nat) (points : List (List K)) (eps : K) (k : Nat) :
    ∀ q ∈ accepted d (unweighted points) eps k, q.2 = 1 := by
  intro q hq
  rw [accepted_eq] at hq
  have := (List.mem_filter.mp hq).1
  have h2 := (List.of_mem_zip this).2
  simpa using (List.eq_of_mem_replicate h2)

theorem totW_ones (a : List (List K × K)) (h : ∀ q ∈ a, q.2 = 1) : totW a = (a.length : K) := by
  induction a with
  | nil => simp [totW]
  | cons q r ih =>
    have := ih fun x hx => h x (by simp [hx])
    simp only [totW, List.map_cons, List.sum_cons, List.length_cons] at this ⊢
    rw [this, h q (by simp)]
    push_cast
    ring

/-- the fit without weights, at most ten rounds -/
theorem fit_unweighted {L : LinAlg K} (hL : L.Lawful) {E : Ext K} (hE : E.Lawful) (d : Nat)
    (hd : 0 < d) (points : List (List K)) (hne : points ≠ []) (hp : ∀ p ∈ points, p.length = d)
    (eps : K) : ∃ k, Common.fitEllipse L E points eps none 10 =
        stats d (accepted d (unweighted points) eps k) ∧
      ∀ j < k, (cMat d (accepted d (unweighted points) eps j)).det ≠ 0 := by
  rw [C50_unweighted]
  obtain ⟨_, r, hr, hdet, hend⟩ := C50_fit_ellipse hL hE d hd points hne hp
    (List.replicate points.length 1) (by simp) eps 10
  change ∀ j < r, (cMat d (accepted d (unweighted points) eps j)).det ≠ 0 at hdet
  change FitEnd d (unweighted points) eps 10 r _ at hend
  generalize Common.fitEllipse L E points eps (some (List.replicate points.length 1)) 10 = z at hend
  cases hend with
  | limit h =>
    subst h
    exact ⟨9, rfl, fun j hj => hdet j (by omega)⟩
  | converged q h _ =>
    subst h
    exact ⟨q, rfl, fun j hj => hdet j (by omega)⟩
  | weightless _ h1 h2 =>
    exfalso
    rw [totW_ones _ (accepted_weights d points eps r)] at h2
    have : (accepted d (unweighted points) eps r).length = 0 := by exact_mod_cast h2
    exact h1 (List.length_eq_zero_iff.mp this)
  | singular h1 h2 => exact ⟨r, rfl, hdet⟩

theorem det_div (d : Nat) (a : List (List K × K)) (s : K) :
    (⟨d, d, fun i j => cCov a i j / s⟩ : Mat K).det = (cMat d a).det / s ^ d := by
  rw [Mat.det_eq _ d rfl]
  have : (Matrix.of fun i j : Fin d => cCov a i j / s) = s⁻¹ • cMat d a := by
    ext i j
    simp [cMat, div_eq_inv_mul]
  simp only
  rw [this, Matrix.det_smul, Fintype.card_fin, inv_pow, div_eq_inv_mul]

theorem zip_mean (d : Nat) (a : List (List K × K)) (p : List K) (hp : p.length = d) :
    List.zipWith (· - ·) p (stats d a).1 = List.ofFn fun i : Fin d => p.getD i 0 - cMean a i := by
  apply List.ext_getElem
  · simp [stats, hp]
  · intro i h1 h2
    have hi : i < p.length := by simp at h1; omega
    simp [stats, List.getD_eq_getElem?_getD, hi]

theorem noise_spec {L : LinAlg K} (hL : L.Lawful) (d : Nat) (a : List (List K × K)) (s : K)
    (hs : s ≠ 0) (N : Mat K) (hN : L.inv ⟨d, d, fun i j => cCov a i j / s⟩ = some N)
    (points : List (List K)) (hp : ∀ p ∈ points, p.length = d) :
    noiseList N (stats d a).1 points = points.map fun p => s * chiSq d a p := by
  obtain ⟨hr, hc, hmul⟩ := hL.inv_mul _ N rfl hN
  simp only at hr hc hmul
  have hNA : (s⁻¹ • (Matrix.of fun i j : Fin d => N.entry i j)) * cMat d a = 1 := by
    rw [Matrix.smul_mul]
    ext i j
    have := hmul i j i.2 j.2
    simp only [Mat.mul, hc, Finset.sum_range] at this
    rw [Matrix.smul_apply, Matrix.mul_apply, Matrix.one_apply]
    simp only [cMat, Matrix.of_apply, Fin.ext_iff]
    rw [← this, smul_eq_mul, Finset.mul_sum]
    apply Finset.sum_congr rfl
    intro k _
    rw [div_eq_mul_inv]
    ring
  have hinv : (cMat d a)⁻¹ = s⁻¹ • (Matrix.of fun i j : Fin d => N.entry i j) :=
    Matrix.inv_eq_left_inv hNA
  unfold noiseList
  apply List.map_congr_left
  intro p hpp
  rw [zip_mean d a p (hp p hpp), quad_ofFn]
  unfold chiSq
  rw [hinv, Finset.mul_sum]
  apply Finset.sum_congr rfl
  intro i _
  rw [Finset.mul_sum]
  apply Finset.sum_congr rfl
  intro j _
  simp only [Matrix.smul_apply, Matrix.of_apply, smul_eq_mul]
  field_simp

/-- what calculate_ellipse does, given what the fit returns -/
theorem calculate_spec {L : LinAlg K} (hL : L.Lawful) (E : Ext K) (d : Nat) (hd : 0 < d)
    (it : Iteration K) (hne : it.points ≠ []) (hp : ∀ p ∈ it.points, p.length = d)
    (a : List (List K × K)) (hfit : Common.fitEllipse L E it.points it.epsMax none 10 = stats d a) :
    ((cMat d a).det ≤ 0 ∧ calculateEllipse L E it = (.error .ValueError,
      { it with centre := some (stats d a).1, ellipse := some (stats d a).2 })) ∨
    ∃ s, 0 < s ∧ s ^ d = (cMat d a).det ∧ calculateEllipse L E it = (.ok (),
      { it with centre := some (stats d a).1, ellipse := some (stats d a).2,
                noise := some (it.points.map fun p => s * chiSq d a p) }) := by
  have hdet : (stats d a).2.det = (cMat d a).det := rfl
  by_cases h0 : (cMat d a).det ≤ 0
  · left
    refine ⟨h0, ?_⟩
    unfold calculateEllipse
    simp only
    rw [hfit, if_neg hne, hdet, if_pos h0]
  · right
    rw [not_le] at h0
    have hs1 := hL.root_nonneg d _ h0.le
    have hs2 := hL.root_pow d _ hd.ne' h0.le
    have hs : 0 < L.root d (cMat d a).det := by
      rcases hs1.lt_or_eq with h | h
      · exact h
      · rw [← h, zero_pow hd.ne'] at hs2
        rw [← hs2] at h0
        exact absurd h0 (lt_irrefl _)
    refine ⟨_, hs, hs2, ?_⟩
    generalize hse : L.root d (cMat d a).det = s at hs hs2
    obtain ⟨N, hN⟩ := hL.inv_ok ⟨d, d, fun i j => cCov a i j / s⟩ rfl (by
      rw [det_div]
      exact div_ne_zero h0.ne' (pow_ne_zero _ hs.ne'))
    have hlen : (stats d a).1.length = d := by simp [stats]
    unfold calculateEllipse
    simp only
    rw [hfit, if_neg hne, hdet, if_neg (not_le.mpr h0), hlen, hse]
    have hN' : L.inv ⟨(stats d a).2.rows, (stats d a).2.cols,
        fun i j => (stats d a).2.entry i j / s⟩ = some N := hN
    rw [hN']
    simp only
    rw [noise_spec hL d a s hs.ne' N hN it.points hp]

/-! ### The noise -/

theorem meanNoise_ok (noise : List K) (h : noise ≠ []) : meanNoise noise = .ok (avg noise) := by
  unfold meanNoise
  rw [if_neg h]
  rfl

theorem var_expand (l : List K) (m : K) :
    (l.map fun x => (x - m) ^ 2).sum = (l.map fun x => x * x).sum - 2 * m * l.sum + (l.length : K) * m ^ 2 := by
  induction l with
  | nil => simp
  | cons x r ih =>
    simp only [List.map_cons, List.sum_cons, List.length_cons, ih]
    push_cast
    ring

theorem avg_var (l : List K) (h : l ≠ []) :
    (l.map fun x => x * x).sum / (l.length : K) - avg l ^ 2 = avg (l.map fun x => (x - avg l) ^ 2) := by
  have hn : (l.length : K) ≠ 0 := by
    have : l.length ≠ 0 := by simpa using h
    exact_mod_cast this
  have h1 : avg (l.map fun x => (x - avg l) ^ 2) =
      ((l.map fun x => x * x).sum - 2 * avg l * l.sum + (l.length : K) * avg l ^ 2) / (l.length : K) := by
    rw [← var_expand]
    simp [avg]
  rw [h1]
  unfold avg
  field_simp
  ring

theorem avg_sq_nonneg (l : List K) (m : K) : 0 ≤ avg (l.map fun x => (x - m) ^ 2) := by
  unfold avg
  apply div_nonneg _ (Nat.cast_nonneg _)
  apply List.sum_nonneg
  intro x hx
  obtain ⟨y, _, rfl⟩ := List.mem_map.mp hx
  positivity

/-- C80: get_sigma_noise is the standard deviation of the noise. -/
theorem C80_sigma {E : Ext K} (hE : E.Lawful) (noise : List K) (h : noise ≠ []) :
    ∃ s, sigmaNoise E noise = .ok s ∧ 0 ≤ s ∧ s ^ 2 = avg (noise.map fun x => (x - avg noise) ^ 2) := by
  unfold sigmaNoise
  rw [meanNoise_ok noise h]
  simp only
  rw [avg_var noise h]
  have h0 := avg_sq_nonneg noise (avg noise)
  by_cases hz : avg (noise.map fun x => (x - avg noise) ^ 2) ≤ 0
  · rw [if_pos hz]
    exact ⟨0, rfl, le_rfl, by rw [le_antisymm hz h0]; simp⟩
  · rw [if_neg hz]
    exact ⟨_, rfl, hE.sqrt_nonneg _ h0, by rw [pow_two, hE.sqrt_mul_self _ h0]⟩

example : sigmaNoise realExt [1, 3] = .ok 1 := by
  obtain ⟨s, h1, h2, h3⟩ := C80_sigma realExt_lawful [1, 3] (by simp)
  rw [h1]
  have : s ^ 2 = 1 := by rw [h3]; norm_num [avg]
  congr 1
  nlinarith

/-- C80: without points both raise ValueError. -/
theorem C80_no_noise (E : Ext K) : meanNoise ([] : List K) = .error .ValueError ∧
    sigmaNoise E ([] : List K) = .error .ValueError := ⟨rfl, rfl⟩

/-! ### The generator -/

theorem orbitLoop_spec {L : LinAlg K} (hL : L.Lawful) {E : Ext K} (hE : E.Lawful) (B : Beam H K)
    (hrefl : ∀ h, B.eq h h = true) (epsMax : K) (useSeed : Bool) (keys : List String)
    (hk : keys ≠ []) (n : Nat) (hn : 0 < n) : ∀ (m : Nat) (h : H),
    (orbitLoop L E B epsMax useSeed keys n m h).1.length ≤ m ∧
    (∃ e, (orbitLoop L E B epsMax useSeed keys n m h).2 = .error e) ∧
    Iterates B epsMax useSeed keys n h (orbitLoop L E B epsMax useSeed keys n m h).1
  | 0, h => ⟨by simp [orbitLoop], ⟨_, rfl⟩, trivial⟩
  | m + 1, h => by
    rw [orbitLoop]
    cases hx : getPoints B useSeed keys h n with
    | error e => exact ⟨by simp, ⟨e, rfl⟩, trivial⟩
    | ok xs =>
      simp only
      obtain ⟨p1, p2, p3⟩ := C80_points B hrefl useSeed keys h n xs hx
      have hxs : xs ≠ [] := by
        intro h0
        rw [h0] at p2
        simp at p2
        omega
      obtain ⟨k, hfit, _⟩ := fit_unweighted hL hE keys.length (List.length_pos_iff.mpr hk) xs hxs p3 epsMax
      rcases calculate_spec hL E keys.length (List.length_pos_iff.mpr hk) (newIteration xs epsMax) hxs p3
        _ hfit with ⟨_, hc⟩ | ⟨s, hs1, hs2, hc⟩
      · rw [hc]
        simp only [true_or, if_true]
        split
        · exact ⟨by simp, ⟨_, rfl⟩, trivial⟩
        · exact ⟨by simp, ⟨_, rfl⟩, trivial⟩
      · rw [hc]
        simp only [Option.getD_some]
        have hel : HasEllipse keys.length (⟨xs, epsMax,
            some (stats keys.length (accepted keys.length (unweighted xs) epsMax k)).1,
            some (stats keys.length (accepted keys.length (unweighted xs) epsMax k)).2,
            some (xs.map fun p => s * chiSq keys.length
              (accepted keys.length (unweighted xs) epsMax k) p)⟩ : Iteration K) :=
          ⟨k, s, rfl, rfl, hs1, hs2, rfl⟩
        have hns : (xs.map fun p => s * chiSq keys.length
              (accepted keys.length (unweighted xs) epsMax k) p) ≠ [] := by simpa using hxs
        obtain ⟨sg, g1, g2, g3⟩ := C80_sigma hE _ hns
        simp only [newIteration]
        rw [meanNoise_ok _ hns, g1]
        simp only
        by_cases hlt : avg (xs.map fun p => s * chiSq keys.length
              (accepted keys.length (unweighted xs) epsMax k) p) < sg
        · rw [if_pos hlt]
          exact ⟨by simp, ⟨_, rfl⟩, rfl, p1, hel, fun h => absurd rfl h⟩
        · rw [if_neg hlt]
          cases hset : setAll B (keys.zip (stats keys.length
              (accepted keys.length (unweighted xs) epsMax k)).1) h with
          | error e => exact ⟨by simp, ⟨_, rfl⟩, rfl, p1, hel, fun h => absurd rfl h⟩
          | ok h' =>
            simp only
            obtain ⟨i1, i2, i3⟩ := orbitLoop_spec hL hE B hrefl epsMax useSeed keys hk n hn m h'
            refine ⟨by simpa using i1, i2, rfl, p1, hel, fun _ => ⟨?_, h', hset, i3⟩⟩
            rw [not_lt] at hlt
            simp only [Option.getD_some]
            refine ⟨?_, le_trans g2 hlt⟩
            rw [← g3]
            exact pow_le_pow_left₀ g2 hlt 2

/-- C80, partial.  For all seeds, trackings, variables, numbers of points and of iterations: the
generator yields at most max_iterations iterations; each has the centre, ellipse and noise of the
points tracked from its hit; each but the last has a mean noise that is not below its standard
deviation; and the next hit is the one before with its variables at the centre.  Missing: a normal
end of the generator (C80_ends_false), max_iterations None (C80_none_false), closed orbits that are
met exactly (C80_fixed_false), the RuntimeError of a failed fit (C80_singular_false). -/
theorem C80_partial {L : LinAlg K} (hL : L.Lawful) {E : Ext K} (hE : E.Lawful) (B : Beam H K)
    (hrefl : ∀ h, B.eq h h = true) (seed : H) (epsMax : K) (useSeed : Bool) (keys : List String)
    (hk : keys ≠ []) (n : Nat) (hn : 0 < n) (m : Nat) :
    (findClosedOrbit L E B seed epsMax useSeed keys n (some m)).1.length ≤ m ∧
    Iterates B epsMax useSeed keys n seed
      (findClosedOrbit L E B seed epsMax useSeed keys n (some m)).1 := by
  obtain ⟨h1, _, h3⟩ := orbitLoop_spec hL hE B hrefl epsMax useSeed keys hk n hn m seed
  exact ⟨h1, h3⟩

/-- C80 is false of the end: for no input does the generator end normally, so a `for` loop over it
always raises. -/
theorem C80_ends_false {L : LinAlg K} (hL : L.Lawful) {E : Ext K} (hE : E.Lawful) (B : Beam H K)
    (hrefl : ∀ h, B.eq h h = true) (seed : H) (epsMax : K) (useSeed : Bool) (keys : List String)
    (hk : keys ≠ []) (n : Nat) (hn : 0 < n) (m : Option Nat) :
    (findClosedOrbit L E B seed epsMax useSeed keys n m).2 ≠ .ok () := by
  cases m with
  | none => simp [findClosedOrbit]
  | some m =>
    obtain ⟨_, ⟨e, h2⟩, _⟩ := orbitLoop_spec hL hE B hrefl epsMax useSeed keys hk n hn m seed
    unfold findClosedOrbit
    simp only
    rw [h2]
    simp

/-- C80 is false of max_iterations None, documented as "keep iterating": nothing is yielded and
TypeError raised. -/
theorem C80_none_false (L : LinAlg K) (E : Ext K) (B : Beam H K) (seed : H) (epsMax : K)
    (useSeed : Bool) (keys : List String) (n : Nat) :
    findClosedOrbit L E B seed epsMax useSeed keys n none = ([], .error .TypeError) := rfl

/-- a hit that the tracking returns to exactly cannot be collected from -/
theorem getPoints_fixed (B : Beam H K) (useSeed : Bool) (keys : List String) (h : H) (n : Nat)
    (hn : 1 < n) (t : List H) (l : H) (ht : B.track h = .ok t) (hl : (t.drop 1).getLast? = some l)
    (he : B.eq l h = true) : getPoints B useSeed keys h n = .error .RuntimeError := by
  have hd : t.drop 1 ≠ [] := by
    intro h0
    rw [h0] at hl
    cases hl
  unfold getPoints
  obtain ⟨n, rfl⟩ : ∃ k, n = k + 1 := ⟨n - 1, by omega⟩
  rw [pointsLoop_succ B _ _ _ _ (by cases useSeed <;> (simp; try omega)), ht]
  simp only
  rw [List.getLast?_append_of_ne_nil _ hd, hl]
  simp [he]

/-- C80 is false on the closed orbit itself: for all trackings, when the last hit tracked from the
tested values is equal to the hit they give, check_closed_orbit raises RuntimeError (more than one
point asked for), and so does the generator when it has arrived there. -/
theorem C80_fixed_false (L : LinAlg K) (E : Ext K) (B : Beam H K) (seed h : H) (epsMax : K)
    (useSeed : Bool) (vars : List (String × K)) (n : Nat) (hn : 1 < n) (t : List H) (l : H)
    (hs : setAll B vars seed = .ok h) (ht : B.track h = .ok t)
    (hl : (t.drop 1).getLast? = some l) (he : B.eq l h = true) :
    checkClosedOrbit L E B seed epsMax useSeed vars n = .error .RuntimeError ∧
    ∀ m, 0 < m → findClosedOrbit L E B h epsMax useSeed (vars.map (·.1)) n (some m) =
      ([], .error .RuntimeError) := by
  have hg : ∀ keys, getPoints B useSeed keys h n = .error .RuntimeError := fun keys =>
    getPoints_fixed B useSeed keys h n hn t l ht hl he
  constructor
  · unfold checkClosedOrbit
    simp only [hs, hg]
  · intro m hm
    obtain ⟨m, rfl⟩ : ∃ k, m = k + 1 := ⟨m - 1, by omega⟩
    unfold findClosedOrbit
    simp only
    rw [orbitLoop, hg]

/-- tracking by a rotation about (0, 0): the origin is the closed orbit, and cannot be checked -/
example : checkClosedOrbit realLin realExt
    ({ exBeam with get := fun _ _ => .ok 0, set := fun h _ _ => .ok h } : Beam (ℚ × ℚ) ℝ)
    (0, 0) 1000000 false [] 10 = .error .RuntimeError :=
  (C80_fixed_false realLin realExt _ (0, 0) (0, 0) 1000000 false [] 10 (by norm_num)
    [(0, 0), (0, 0)] (0, 0) rfl (by simp [exBeam]) rfl (by simp [exBeam])).1

theorem fit_singular {L : LinAlg K} (hL : L.Lawful) {E : Ext K} (hE : E.Lawful) (d : Nat)
    (hd : 0 < d) (points : List (List K)) (hne : points ≠ []) (hp : ∀ p ∈ points, p.length = d)
    (eps : K) (h0 : (cMat d (unweighted points)).det = 0) :
    Common.fitEllipse L E points eps none 10 = stats d (unweighted points) := by
  obtain ⟨k, h1, h2⟩ := fit_unweighted hL hE d hd points hne hp eps
  cases k with
  | zero => exact h1
  | succ k => exact absurd h0 (h2 0 (by omega))

/-- C80 is false of a failed fit, documented as RuntimeError: for all trackings, if the points lie on
a line, plane, ... (their covariance matrix is singular), the generator raises ValueError when they
are just as many as asked for and RuntimeError when they are more. -/
theorem C80_singular_false {L : LinAlg K} (hL : L.Lawful) {E : Ext K} (hE : E.Lawful) (B : Beam H K)
    (hrefl : ∀ h, B.eq h h = true) (seed : H) (epsMax : K) (useSeed : Bool) (keys : List String)
    (hk : keys ≠ []) (n : Nat) (hn : 0 < n) (m : Nat) (hm : 0 < m) (xs : List (List K))
    (hx : getPoints B useSeed keys seed n = .ok xs)
    (h0 : (cMat keys.length (unweighted xs)).det = 0) :
    findClosedOrbit L E B seed epsMax useSeed keys n (some m) =
      ([], .error (if xs.length = n then .ValueError else .RuntimeError)) := by
  obtain ⟨p1, p2, p3⟩ := C80_points B hrefl useSeed keys seed n xs hx
  have hxs : xs ≠ [] := by
    intro h0
    rw [h0] at p2
    simp at p2
    omega
  have hpos := List.length_pos_iff.mpr hk
  obtain ⟨m, rfl⟩ : ∃ k, m = k + 1 := ⟨m - 1, by omega⟩
  have hfit := fit_singular hL hE keys.length hpos xs hxs p3 epsMax h0
  have hc : (calculateEllipse L E (newIteration xs epsMax)).1 = .error .ValueError := by
    rcases calculate_spec hL E keys.length hpos (newIteration xs epsMax) hxs p3 _ hfit with
      ⟨_, hc⟩ | ⟨s, hs1, hs2, hc⟩
    · rw [hc]
    · rw [h0] at hs2
      exact absurd hs2 (pow_pos hs1 _).ne'
  unfold findClosedOrbit
  simp only
  rw [orbitLoop, hx]
  simp only
  generalize calculateEllipse L E (newIteration xs epsMax) = z at hc
  obtain ⟨z1, z2⟩ := z
  simp only at hc
  rw [hc]
  simp only [true_or, if_true]
  by_cases hl : xs.length = n
  · rw [if_neg (by omega), if_pos hl]
  · rw [if_pos (by omega), if_neg hl]

/-- C80, for all trackings: check_closed_orbit sets the given values and returns the iteration of the
points tracked from there whenever they can be tracked: its centre and ellipse are the mean and the
covariance matrix of the accepted points, and it has a noise just when the determinant is positive. -/
theorem C80_check {L : LinAlg K} (hL : L.Lawful) {E : Ext K} (hE : E.Lawful) (B : Beam H K)
    (hrefl : ∀ h, B.eq h h = true) (seed h : H) (epsMax : K) (useSeed : Bool)
    (vars : List (String × K)) (hv : vars ≠ []) (n : Nat) (hn : 0 < n) (xs : List (List K))
    (hs : setAll B vars seed = .ok h)
    (hx : getPoints B useSeed (vars.map (·.1)) h n = .ok xs) :
    ∃ it k, checkClosedOrbit L E B seed epsMax useSeed vars n = .ok it ∧
      it.points = xs ∧ PointsFrom B useSeed (vars.map (·.1)) h n xs ∧ it.epsMax = epsMax ∧
      it.centre = some (stats vars.length (accepted vars.length (unweighted it.points) epsMax k)).1 ∧
      it.ellipse = some (stats vars.length (accepted vars.length (unweighted it.points) epsMax k)).2 ∧
      (it.noise ≠ none ↔
        0 < (cMat vars.length (accepted vars.length (unweighted it.points) epsMax k)).det) ∧
      (it.noise ≠ none → HasEllipse vars.length it) := by
  obtain ⟨p1, p2, p3⟩ := C80_points B hrefl useSeed (vars.map (·.1)) h n xs hx
  have hxs : xs ≠ [] := by
    intro h0
    rw [h0] at p2
    simp at p2
    omega
  have hpos := List.length_pos_iff.mpr hv
  rw [List.length_map] at p3
  obtain ⟨k, hfit, _⟩ := fit_unweighted hL hE vars.length hpos xs hxs p3 epsMax
  unfold checkClosedOrbit
  simp only [hs, hx]
  rcases calculate_spec hL E vars.length hpos (newIteration xs epsMax) hxs p3 _ hfit with
    ⟨h0, hc⟩ | ⟨s, hs1, hs2, hc⟩
  · rw [hc]
    refine ⟨_, k, rfl, rfl, p1, rfl, rfl, rfl, ?_, ?_⟩
    · simp only [newIteration, ne_eq, not_true_eq_false, false_iff, not_lt]
      exact h0
    · intro h1
      exact absurd rfl h1
  · rw [hc]
    refine ⟨_, k, rfl, rfl, p1, rfl, rfl, rfl, ?_, fun _ => ⟨k, s, rfl, rfl, hs1, hs2, rfl⟩⟩
    simp only [ne_eq, reduceCtorEq, not_false_eq_true, true_iff]
    show 0 < (cMat vars.length (accepted vars.length (unweighted xs) epsMax k)).det
    rw [← hs2]
    exact pow_pos hs1 _

/-- two points on a line are checked without an error, and give an ellipse without noise -/
example : ∃ it, checkClosedOrbit realLin realExt
      ({ get := fun h k => if k = "x" then .ok (h : ℝ) else .ok 0
         set := fun h k v => .ok (if k = "x" then v else h)
         eq := fun h h' => decide (h = h'), track := fun h => .ok [h, h + 1] } : Beam ℝ ℝ)
      5 10 false [("px", 0), ("x", 1)] 2 = .ok it ∧ it.points = [[0, 2], [0, 3]] := by
  have h1 : ("px" = "x") = False := by decide
  have h2 : ((2 : ℝ) + 1) = 3 := by norm_num
  have h3 : ((1 : ℝ) + 1) = 2 := by norm_num
  have hx : getPoints ({ get := fun h k => if k = "x" then .ok (h : ℝ) else .ok 0
                         set := fun h k v => .ok (if k = "x" then v else h)
                         eq := fun h h' => decide (h = h'), track := fun h => .ok [h, h + 1] } : Beam ℝ ℝ)
      false ["px", "x"] 1 2 = .ok [[0, 2], [0, 3]] := by
    simp [getPoints, pointsLoop, values, FFTTune.mapErr, h1, h2, h3]
  obtain ⟨it, k, g1, g2, _⟩ := C80_check realLin_lawful realExt_lawful
    ({ get := fun h k => if k = "x" then .ok (h : ℝ) else .ok 0
       set := fun h k v => .ok (if k = "x" then v else h)
       eq := fun h h' => decide (h = h'), track := fun h => .ok [h, h + 1] } : Beam ℝ ℝ)
    (fun h => by simp) 5 1 10 false [("px", 0), ("x", 1)] (by simp) 2 (by norm_num) _
    (by simp [setAll, h1]) hx
  exact ⟨it, g1, g2⟩

/-! ### No points cut -/

theorem accepted_all (d : Nat) (points : List (List K)) (eps : K)
    (hall : ∀ p ∈ points, InEllipse 2 d (unweighted points) eps p) : ∀ k,
    accepted d (unweighted points) eps k = unweighted points
  | 0 => rfl
  | k + 1 => by
    rw [accepted, accepted_all d points eps hall k, List.filter_eq_self]
    intro q hq
    have := (List.of_mem_zip hq).1
    simpa using hall q.1 this

theorem unweighted_map_sum (points : List (List K)) (f : List K → K) :
    ((unweighted points).map fun q => q.2 * f q.1).sum = (points.map f).sum := by
  unfold unweighted
  induction points with
  | nil => simp
  | cons p r ih => simp only [List.length_cons, List.replicate_succ, List.zip_cons_cons,
      List.map_cons, List.sum_cons, one_mul, ih]

theorem sum_swap (points : List (List K)) (d : Nat) (f : Fin d → Fin d → List K → K) :
    (points.map fun p => ∑ i, ∑ j, f i j p).sum = ∑ i, ∑ j, (points.map (f i j)).sum := by
  induction points with
  | nil => simp
  | cons p r ih =>
    simp only [List.map_cons, List.sum_cons, ih, Finset.sum_add_distrib]

/-- the mean of chi squared is the dimension -/
theorem avg_chiSq (d : Nat) (points : List (List K)) (hne : points ≠ [])
    (hdet : (cMat d (unweighted points)).det ≠ 0) :
    avg (points.map (chiSq d (unweighted points))) = (d : K) := by
  set a := unweighted points with ha
  have hn : (points.length : K) ≠ 0 := by
    have : points.length ≠ 0 := by simpa using hne
    exact_mod_cast this
  have hcov : ∀ i j : Fin d, (points.map fun p => (p.getD i 0 - cMean a i) * (p.getD j 0 - cMean a j)).sum =
      (points.length : K) * cMat d a j i := by
    intro i j
    have h := unweighted_map_sum points fun p => (p.getD j 0 - cMean a j) * (p.getD i 0 - cMean a i)
    have h2 : cMat d a j i = ((points.map fun p => (p.getD j 0 - cMean a j) *
        (p.getD i 0 - cMean a i)).sum) / (points.length : K) := by
      rw [← h, ← totW_unweighted points]
      simp only [cMat, Matrix.of_apply, cCov, mul_assoc, ← ha]
    rw [h2, mul_div_cancel₀ _ hn]
    congr 1
    apply List.map_congr_left
    intro p _
    ring
  have h1 : (points.map (chiSq d a)).sum =
      ∑ i : Fin d, ∑ j : Fin d, (cMat d a)⁻¹ i j * ((points.length : K) * cMat d a j i) := by
    have := sum_swap points d fun i j p => (p.getD i 0 - cMean a i) * (cMat d a)⁻¹ i j *
      (p.getD j 0 - cMean a j)
    unfold chiSq
    rw [this]
    apply Finset.sum_congr rfl
    intro i _
    apply Finset.sum_congr rfl
    intro j _
    rw [← hcov i j, ← List.sum_map_mul_left]
    congr 1
    apply List.map_congr_left
    intro p _
    ring
  have h2 : ∑ i : Fin d, ∑ j : Fin d, (cMat d a)⁻¹ i j * ((points.length : K) * cMat d a j i) =
      (points.length : K) * (d : K) := by
    have h3 : (cMat d a)⁻¹ * cMat d a = 1 :=
      Matrix.nonsing_inv_mul _ (isUnit_iff_ne_zero.mpr hdet)
    have h4 : ∑ i : Fin d, ((cMat d a)⁻¹ * cMat d a) i i = (d : K) := by
      rw [h3]
      simp
    rw [← h4, Finset.mul_sum]
    apply Finset.sum_congr rfl
    intro i _
    rw [Matrix.mul_apply, Finset.mul_sum]
    apply Finset.sum_congr rfl
    intro j _
    ring
  unfold avg
  rw [List.length_map, h1, h2]
  field_simp

/-- C80, for all points of dimension d that are all inside their own ellipse: the noise can be
calculated, its mean is d |C|^(1/d) with C the covariance matrix of the points, and the centre and
the ellipse are the mean and C. -/
theorem C80_noise {L : LinAlg K} (hL : L.Lawful) {E : Ext K} (hE : E.Lawful) (d : Nat) (hd : 0 < d)
    (points : List (List K)) (hne : points ≠ []) (hp : ∀ p ∈ points, p.length = d) (epsMax : K)
    (hdet : 0 < (cMat d (unweighted points)).det)
    (hall : ∀ p ∈ points, InEllipse 2 d (unweighted points) epsMax p) :
    ∃ it s noise, calculateEllipse L E (newIteration points epsMax) = (.ok (), it) ∧
      it.centre = some ((List.range d).map (cMean (unweighted points))) ∧
      it.ellipse = some ⟨d, d, cCov (unweighted points)⟩ ∧
      0 < s ∧ s ^ d = (cMat d (unweighted points)).det ∧
      it.noise = some noise ∧ noise = (points.map fun p => s * chiSq d (unweighted points) p) ∧
      meanNoise noise = .ok ((d : K) * s) := by
  obtain ⟨k, hfit, _⟩ := fit_unweighted hL hE d hd points hne hp epsMax
  rw [accepted_all d points epsMax hall] at hfit
  rcases calculate_spec hL E d hd (newIteration points epsMax) hne hp _ hfit with
    ⟨h0, _⟩ | ⟨s, hs1, hs2, hc⟩
  · exact absurd h0 (not_le.mpr hdet)
  · refine ⟨_, s, _, hc, rfl, rfl, hs1, hs2, rfl, rfl, ?_⟩
    rw [meanNoise_ok _ (by simpa [newIteration] using hne)]
    congr 1
    have h1 := avg_chiSq d points hne hdet.ne'
    have h2 : ((newIteration points epsMax).points.map fun p => s * chiSq d (unweighted points) p).sum =
        s * (points.map (chiSq d (unweighted points))).sum := List.sum_map_mul_left ..
    unfold avg at h1 ⊢
    rw [List.length_map] at h1 ⊢
    rw [← h1, h2]
    simp only [newIteration]
    ring

/-! ### Linear maps -/

theorem linear_centre (d : Nat) (points : List (List K)) (hne : points ≠ [])
    (c : Fin d → K) (M : Matrix (Fin d) (Fin d) K) (hM : (M - 1).det ≠ 0)
    (hmap : ∀ k < points.length, ∀ i : Fin d,
      (points.getD ((k + 1) % points.length) []).getD i 0 =
        c i + ∑ j, M i j * ((points.getD k []).getD j 0 - c j)) :
    ∀ i : Fin d, cMean (unweighted points) i = c i := by
  have hpos : 0 < points.length := List.length_pos_iff.mpr hne
  have hn : (points.length : K) ≠ 0 := by exact_mod_cast hpos.ne'
  -- deviations from c, as functions of the position
  let y : Nat → Fin d → K := fun k i => (points.getD k []).getD i 0 - c i
  have hy : ∀ k < points.length, y ((k + 1) % points.length) = M.mulVec (y k) := by
    intro k hk
    funext i
    simp only [y, Matrix.mulVec, dotProduct]
    rw [hmap k hk i]
    ring
  let S : Fin d → K := ∑ k ∈ Finset.range points.length, y k
  have hrot : ∑ k ∈ Finset.range points.length, y ((k + 1) % points.length) = S := by
    obtain ⟨N, hN⟩ : ∃ N, points.length = N + 1 := ⟨points.length - 1, by omega⟩
    simp only [S]
    rw [hN, Finset.sum_range_succ, Nat.mod_self, Finset.sum_range_succ']
    congr 1
    apply Finset.sum_congr rfl
    intro k hk
    rw [Nat.mod_eq_of_lt (by have := Finset.mem_range.mp hk; omega)]
  have hMS : M.mulVec S = S := by
    calc M.mulVec S = ∑ k ∈ Finset.range points.length, M.mulVec (y k) := by
          rw [← Matrix.mulVecLin_apply, map_sum]
          rfl
      _ = ∑ k ∈ Finset.range points.length, y ((k + 1) % points.length) :=
          Finset.sum_congr rfl fun k hk => (hy k (Finset.mem_range.mp hk)).symm
      _ = S := hrot
  have hS : S = 0 := by
    have h1 : (M - 1).mulVec S = 0 := by
      rw [Matrix.sub_mulVec, Matrix.one_mulVec, hMS, sub_self]
    exact Matrix.eq_zero_of_mulVec_eq_zero hM h1
  intro i
  have h0 := congrFun hS i
  simp only [S, Finset.sum_apply, y, Pi.zero_apply, Finset.sum_sub_distrib, Finset.sum_const,
    Finset.card_range, nsmul_eq_mul] at h0
  have h1 : ∑ k ∈ Finset.range points.length, (points.getD k []).getD i 0 =
      (points.map fun p => p.getD i 0).sum := by
    clear h0 hS hMS hrot hy hmap hn hpos hne S y
    induction points with
    | nil => simp
    | cons p r ih =>
      rw [List.length_cons, Finset.sum_range_succ']
      simp only [List.getD_cons_succ, List.getD_cons_zero, List.map_cons, List.sum_cons]
      rw [ih, add_comm]
  unfold cMean
  rw [unweighted_map_sum points fun p => p.getD i 0, totW_unweighted, ← h1,
    div_eq_iff hn]
  linear_combination h0

/-- C80, for all linear one-turn maps x -> c + M (x - c) with one fixed point c: if the points of the
first iteration are the positions on successive turns and the last is mapped to the first, none is
cut and they span the space, then the centre of the first iteration is the closed orbit c. -/
theorem C80_linear {L : LinAlg K} (hL : L.Lawful) {E : Ext K} (hE : E.Lawful) (B : Beam H K)
    (hrefl : ∀ h, B.eq h h = true) (seed : H) (epsMax : K) (useSeed : Bool) (keys : List String)
    (hk : keys ≠ []) (n : Nat) (hn : 0 < n) (m : Nat) (hm : 0 < m) (points : List (List K))
    (hx : getPoints B useSeed keys seed n = .ok points)
    (hdet : 0 < (cMat keys.length (unweighted points)).det)
    (hall : ∀ p ∈ points, InEllipse 2 keys.length (unweighted points) epsMax p)
    (c : Fin keys.length → K) (M : Matrix (Fin keys.length) (Fin keys.length) K)
    (hM : (M - 1).det ≠ 0)
    (hmap : ∀ k < points.length, ∀ i : Fin keys.length,
      (points.getD ((k + 1) % points.length) []).getD i 0 =
        c i + ∑ j, M i j * ((points.getD k []).getD j 0 - c j)) :
    ∃ it, (findClosedOrbit L E B seed epsMax useSeed keys n (some m)).1.head? = some it ∧
      it.points = points ∧ it.centre = some (List.ofFn c) := by
  obtain ⟨p1, p2, p3⟩ := C80_points B hrefl useSeed keys seed n points hx
  have hne : points ≠ [] := by
    intro h0
    rw [h0] at p2
    simp at p2
    omega
  obtain ⟨m, rfl⟩ : ∃ k, m = k + 1 := ⟨m - 1, by omega⟩
  have hcen := linear_centre keys.length points hne c M hM hmap
  have hpos := List.length_pos_iff.mpr hk
  obtain ⟨k, hfit, _⟩ := fit_unweighted hL hE keys.length hpos points hne p3 epsMax
  rw [accepted_all _ points epsMax hall] at hfit
  rcases calculate_spec hL E keys.length hpos (newIteration points epsMax) hne p3 _ hfit with
    ⟨h0, _⟩ | ⟨s, hs1, hs2, hc⟩
  · exact absurd h0 (not_le.mpr hdet)
  · refine ⟨(calculateEllipse L E (newIteration points epsMax)).2, ?_, ?_, ?_⟩
    · unfold findClosedOrbit
      simp only
      rw [orbitLoop, hx]
      simp only
      rw [hc]
      simp only
      repeat' split
      all_goals rfl
    · rw [hc]
      rfl
    · rw [hc]
      simp only [stats, Option.some.injEq]
      apply List.ext_getElem
      · simp
      · intro i h1 h2
        simp at h1
        simpa using hcen ⟨i, h1⟩

/-! ### Examples: a quarter turn about (1, 2) -/

/-- hits with two rational numbers, read as reals; tracking returns the hit and the hit one turn
later -/
noncomputable def turnBeam : Beam (ℚ × ℚ) ℝ where
  get h k := if k = "x" then .ok h.1 else if k = "px" then .ok h.2 else .error .KeyError
  set _ _ _ := .error .KeyError
  eq h h' := decide (h = h')
  track h := .ok [h, (3 - h.2, 1 + h.1)]

theorem turn_points : getPoints turnBeam false ["x", "px"] (2, 2) 4 =
    .ok [[1, 3], [0, 2], [1, 1], [2, 2]] := by
  norm_num [getPoints, pointsLoop, turnBeam, values, FFTTune.mapErr, show ("px" = "x") = False by decide]

theorem turn_mean (i : Fin 2) :
    cMean (unweighted [[(1 : ℝ), 3], [0, 2], [1, 1], [2, 2]]) i = ![1, 2] i := by
  fin_cases i <;> simp [cMean, unweighted, totW] <;> norm_num

theorem turn_cov : cMat 2 (unweighted [[(1 : ℝ), 3], [0, 2], [1, 1], [2, 2]]) = !![1 / 2, 0; 0, 1 / 2] := by
  ext i j
  simp only [cMat, cCov, Matrix.of_apply, turn_mean]
  fin_cases i <;> fin_cases j <;> simp [unweighted, totW] <;> norm_num

theorem turn_det : 0 < (cMat 2 (unweighted [[(1 : ℝ), 3], [0, 2], [1, 1], [2, 2]])).det := by
  rw [turn_cov, Matrix.det_fin_two_of]
  norm_num

theorem turn_in : ∀ p ∈ [[(1 : ℝ), 3], [0, 2], [1, 1], [2, 2]],
    InEllipse 2 2 (unweighted [[(1 : ℝ), 3], [0, 2], [1, 1], [2, 2]]) 10 p := by
  intro p hp
  have hinv : (!![1 / 2, 0; 0, 1 / 2] : Matrix (Fin 2) (Fin 2) ℝ)⁻¹ = !![2, 0; 0, 2] := by
    apply Matrix.inv_eq_left_inv
    ext i j
    fin_cases i <;> fin_cases j <;> simp [Matrix.mul_apply, Fin.sum_univ_two]
  refine ⟨1 / 2, by norm_num, ?_, ?_⟩
  · rw [turn_cov, Matrix.det_fin_two_of]
    norm_num
  · rw [turn_cov, hinv]
    simp only [Fin.sum_univ_two, turn_mean]
    simp only [List.mem_cons, List.not_mem_nil, or_false] at hp
    rcases hp with rfl | rfl | rfl | rfl <;> norm_num

theorem turn_refl (h : ℚ × ℚ) : turnBeam.eq h h = true := by simp [turnBeam]

/-- C80_linear: the finder's first centre is the fixed point (1, 2) -/
example : ∃ it, (findClosedOrbit realLin realExt turnBeam (2, 2) 10 false ["x", "px"] 4 (some 100)).1.head? =
    some it ∧ it.centre = some [1, 2] := by
  obtain ⟨it, h1, _, h2⟩ := C80_linear realLin_lawful realExt_lawful turnBeam turn_refl (2, 2) 10 false
    ["x", "px"] (by simp) 4 (by norm_num) 100 (by norm_num) _ turn_points turn_det turn_in ![1, 2]
    (!![0, -1; 1, 0]) (by
      rw [Matrix.det_fin_two]
      norm_num) (by
      intro k hk i
      have hk' : k < 4 := hk
      have hs : ∀ f : Fin ["x", "px"].length → ℝ, ∑ j, f j = f (0 : Fin 2) + f (1 : Fin 2) :=
        fun f => Fin.sum_univ_two f
      rw [hs]
      interval_cases k <;> (fin_cases i <;> norm_num))
  exact ⟨it, h1, by rw [h2]; simp⟩

/-- C80_noise: the mean noise of the four points is 2 |C|^(1/2) = 1 -/
example : ∃ it noise, calculateEllipse realLin realExt
      (newIteration [[(1 : ℝ), 3], [0, 2], [1, 1], [2, 2]] 10) = (.ok (), it) ∧
    it.noise = some noise ∧ meanNoise noise = .ok 1 := by
  obtain ⟨it, s, noise, h1, _, _, h4, h5, h6, _, h8⟩ := C80_noise realLin_lawful realExt_lawful 2
    (by norm_num) [[(1 : ℝ), 3], [0, 2], [1, 1], [2, 2]] (by simp) (by simp) 10 turn_det turn_in
  refine ⟨it, noise, h1, h6, ?_⟩
  rw [h8]
  rw [turn_cov, Matrix.det_fin_two_of] at h5
  have : s = 1 / 2 := by nlinarith
  rw [this]
  norm_num

/-- C80_partial: the hypotheses hold for this beam -/
example : (findClosedOrbit realLin realExt turnBeam (2, 2) 10 false ["x", "px"] 4 (some 100)).1.length ≤ 100 :=
  (C80_partial realLin_lawful realExt_lawful turnBeam turn_refl (2, 2) 10 false ["x", "px"] (by simp) 4
    (by norm_num) 100).1

/-- C80_singular_false: two points lie on a line, which gives ValueError -/
example : findClosedOrbit realLin realExt turnBeam (2, 2) 10 false ["x", "px"] 2 (some 100) =
    ([], .error .ValueError) := by
  have hx : getPoints turnBeam false ["x", "px"] (2, 2) 2 = .ok [[1, 3], [0, 2]] := by
    norm_num [getPoints, pointsLoop, turnBeam, values, FFTTune.mapErr, show ("px" = "x") = False by decide]
  have h := C80_singular_false realLin_lawful realExt_lawful turnBeam turn_refl (2, 2) 10 false
    ["x", "px"] (by simp) 2 (by norm_num) 100 (by norm_num) _ hx (by
      have : cMat 2 (unweighted [[(1 : ℝ), 3], [0, 2]]) = !![1 / 4, 1 / 4; 1 / 4, 1 / 4] := by
        ext i j
        fin_cases i <;> fin_cases j <;>
          simp [cMat, cCov, cMean, unweighted, totW, List.zip, List.replicate] <;> norm_num
      show (cMat 2 (unweighted [[(1 : ℝ), 3], [0, 2]])).det = 0
      rw [this, Matrix.det_fin_two_of]
      norm_num)
  simpa using h

end ClosedOrbit
end Xboa
