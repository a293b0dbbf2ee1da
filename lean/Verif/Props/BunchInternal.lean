import Verif.Model.BunchMore
import Verif.Props.BunchCov
import Verif.Props.BunchList
/-!
C61: the internal covariance matrix of a bunch.
-/
set_option linter.unusedSectionVars false
namespace Xboa
variable {K : Type} [Field K] [LinearOrder K] [IsStrictOrderedRing K]

/-- A bunch with an internal matrix of more than one element raises ValueError for every moment. -/
theorem moment_covs_set (E : Ext K) (w : BWorld K) (b : Bunch K) (M : Mat K)
    (hb : b.covs = some M) (hM : M.rows * M.cols ≠ 1)
    (hW : ¬ |(b.hits.map w.weight).sum| < 1 / 1000000000) (vars : List String)
    (d : List (String × PyVal K)) : Bunch.moment E w b vars d = .error .ValueError := by
  rw [← Bunch.bunchWeight_eq] at hW
  replace hW : ¬ Bunch.weightTiny (Bunch.bunchWeight w b) := hW
  unfold Bunch.moment
  rw [if_neg hW]
  simp [Bunch.internalCov, hb, hM]

theorem mean_covs_set (E : Ext K) (w : BWorld K) (b : Bunch K) (M : Mat K)
    (hb : b.covs = some M) (hM : M.rows * M.cols ≠ 1) (hmeans : b.means = [])
    (hW : ¬ |(b.hits.map w.weight).sum| < 1 / 1000000000) (v : String) (r : List String) :
    Bunch.mean E w b (v :: r) = .error .ValueError := by
  rw [← Bunch.bunchWeight_eq] at hW
  replace hW : ¬ Bunch.weightTiny (Bunch.bunchWeight w b) := hW
  unfold Bunch.mean
  rw [Bunch.meanLoop]
  simp only [List.lookup_nil, hmeans, Bunch.momentWith]
  rw [if_neg hW]
  simp [Bunch.internalCov, hb, hM]


/-- C61_false: `bunch.set_covariance_matrix()` never works.  For every bunch of non tiny weight whose
ten variables can be read it raises ValueError, and it leaves the matrix in place, so that from then on
every moment and mean of the bunch raises ValueError. -/
theorem C61_default_false (E : Ext K) (w : BWorld K) (b : Bunch K) (hb : b.Normal w)
    (hmeans : b.means = []) (hW : ¬ |(b.hits.map w.weight).sum| < 1 / 1000000000)
    (vals : String → Nat → K)
    (hv : ∀ i ∈ b.hits, ∀ v ∈ Bunch.covNames w.geo, Bunch.hitNum E w i v = .ok (vals v i)) :
    ∃ b', Bunch.setCovarianceMatrix E w true none [] b = (.error .ValueError, b') ∧ b'.hits = b.hits ∧
      (∀ vars d, Bunch.moment E w b' vars d = .error .ValueError) ∧
      (∀ v r, Bunch.mean E w b' (v :: r) = .error .ValueError) ∧
      Bunch.covariancesSet b' = .error .ValueError := by
  obtain ⟨M, h1, h2, h3, _⟩ := C21_bunch_entries E w b hb hmeans hW (Bunch.covNames w.geo) [] vals hv (by simp)
  have hl : (Bunch.covNames w.geo).length = 10 := by cases w.geo <;> rfl
  have hM : M.rows * M.cols ≠ 1 := by rw [h2, h3, hl]; decide
  have hcons : ∃ v r, Bunch.covNames w.geo = v :: r := by
    cases w.geo
    · exact ⟨_, _, rfl⟩
    · exact ⟨_, _, rfl⟩
  refine ⟨{ b with covs := some M }, ?_, rfl, ?_, ?_, ?_⟩
  · obtain ⟨v, r, hvr⟩ := hcons
    simp only [Bunch.setCovarianceMatrix, if_true, h1]
    have := mean_covs_set E w { b with covs := some M } M rfl hM hmeans hW v r
    rw [← hvr] at this
    rw [this]
  · exact moment_covs_set E w _ M rfl hM hW
  · exact mean_covs_set E w _ M rfl hM hmeans hW
  · simp [Bunch.covariancesSet, hM]

/-- C61_false: passing a matrix (of more than one element, the documented one is 10 x 10) raises
ValueError and does nothing. -/
theorem C61_matrix_false (E : Ext K) (w : BWorld K) (b : Bunch K) (M : Mat K) (hM : M.rows * M.cols ≠ 1)
    (d : List (String × PyVal K)) :
    Bunch.setCovarianceMatrix E w true (some M) d b = (.error .ValueError, b) := by
  simp [Bunch.setCovarianceMatrix, hM]

/-- C61_partial: `bunch.set_covariance_matrix(False)` always succeeds, and whatever internal matrix and
means were set before, moments are then those of the hits about the mean.
Missing: use of an internal matrix (false). -/
theorem C61_partial (E : Ext K) (w : BWorld K) (b : Bunch K) (hs : b.Sync) (hc : w.hcur = w.bcur)
    (cov : Option (Mat K)) (d : List (String × PyVal K))
    (hW : ¬ |(b.hits.map w.weight).sum| < 1 / 1000000000) (vars : List String) (vals : String → Nat → K)
    (hv : ∀ i ∈ b.hits, ∀ v ∈ vars, Bunch.hitNum E w i v = .ok (vals v i)) :
    ∃ b', Bunch.setCovarianceMatrix E w false cov d b = (.ok (), b') ∧ b'.hits = b.hits ∧
      Bunch.covariancesSet b' = .ok false ∧ Bunch.meansSet b' = false ∧
      Bunch.moment E w b' vars [] = .ok (wmoment b.hits w.weight
        (vars.map (fun v i => vals v i - wmean b.hits w.weight (vals v)))) :=
  ⟨{ b with covs := none, means := [] }, rfl, rfl, rfl, rfl,
    C19_moment_default E w { b with covs := none, means := [] } ⟨hs, hc, rfl⟩ rfl hW vars vals hv⟩

/-- the hits of exBunch meet the hypotheses of C61_default_false -/
example : ∃ b', Bunch.setCovarianceMatrix ratExt exWorld true none [] exBunch = (.error .ValueError, b') ∧
    ∀ vars d, Bunch.moment ratExt exWorld b' vars d = .error .ValueError := by
  obtain ⟨b', h1, _, h2, _⟩ := C61_default_false ratExt exWorld exBunch exBunch_normal rfl exBunch_weight
    (fun v i => if v = "x" then i else if v = "px" then 2 * i else if v = "pz" then 1 else 0)
    (by decide +kernel)
  exact ⟨b', h1, h2⟩
example : Bunch.moment ratExt exWorld { exBunch with covs := some ⟨10, 10, fun _ _ => 0⟩ } ["x", "px"] [] =
    .error .ValueError ∧
    Bunch.moment ratExt exWorld (Bunch.setCovarianceMatrix ratExt exWorld false none []
      { exBunch with covs := some ⟨10, 10, fun _ _ => 0⟩ }).2 ["x", "px"] [] = .ok (4 / 9) := by
  decide +kernel

end Xboa
