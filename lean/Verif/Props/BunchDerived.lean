import Verif.Model.BunchMore
import Verif.Props.BunchCut
import Verif.Props.Optics
import Verif.Props.HitCopy
/-!
C73 (angular momentum), C74 (dispersion), C75 (clearing weights), C76 (choosing and comparing hits).
-/
set_option linter.unusedSectionVars false
namespace Xboa
variable {K : Type} [Field K] [LinearOrder K] [IsStrictOrderedRing K]

/-- Weighted mean of f over the hits of a bunch -/
def average2 (b : Bunch K) (w : BWorld K) (f : Nat → K) : K :=
  (b.hits.map fun i => w.weight i * f i).sum / (b.hits.map w.weight).sum

theorem average2_sub (b : Bunch K) (w : BWorld K) (f g : Nat → K) :
    average2 b w f - average2 b w g = average2 b w (fun i => f i - g i) := by
  unfold average2
  rw [← sub_div]
  congr 1
  induction b.hits with
  | nil => simp
  | cons a t ih => simp only [List.map_cons, List.sum_cons, mul_sub] at ih ⊢; linear_combination ih

theorem average2_add (b : Bunch K) (w : BWorld K) (f g : Nat → K) :
    average2 b w f + average2 b w g = average2 b w (fun i => f i + g i) := by
  unfold average2
  rw [← add_div]
  congr 1
  induction b.hits with
  | nil => simp
  | cons a t ih => simp only [List.map_cons, List.sum_cons, mul_add] at ih ⊢; linear_combination ih

section
variable (E : Ext K) (w : BWorld K) (b : Bunch K) (hb : b.Normal w)
  (hW : ¬ |(b.hits.map w.weight).sum| < 1 / 1000000000) (vals : String → Nat → K)
include hb hW

theorem moment_pair (u v : String) (d : List (String × PyVal K)) (a c : K)
    (hu : ∀ i ∈ b.hits, Bunch.hitNum E w i u = .ok (vals u i))
    (hv : ∀ i ∈ b.hits, Bunch.hitNum E w i v = .ok (vals v i))
    (ha : ∃ p, d.lookup u = some p ∧ p.num? = some a) (hc : ∃ p, d.lookup v = some p ∧ p.num? = some c) :
    Bunch.moment E w b [u, v] d = .ok (average2 b w fun i => (vals u i - a) * (vals v i - c)) := by
  have h1 := C19_moment E w b hb hW [u, v] d vals (fun n => if n = u then a else c)
    (by
      intro i hi n hn
      simp only [List.mem_cons, List.not_mem_nil, or_false] at hn
      rcases hn with rfl | rfl
      · exact hu i hi
      · exact hv i hi)
    (by
      intro n hn
      by_cases h : n = u
      · subst h; simpa using ha
      · have : n = v := by simpa [h] using hn
        subst this; simpa [h] using hc)
  simp only [List.map_cons, List.map_nil, wmoment_pair] at h1
  by_cases h : v = u
  · have hac : a = c := by
      obtain ⟨p, e1, e2⟩ := ha
      obtain ⟨q, e3, e4⟩ := hc
      subst h
      rw [e1] at e3; cases e3
      rw [e2] at e4; exact Option.some.inj e4
    subst hac
    simpa [h, average2] using h1
  · simpa [h, average2] using h1

/-! ### C73 -/

/-- C73: `get_kinetic_angular_momentum(axis)` with momentum variables is the weighted mean of
(x - x0)(py - py0) - (y - y0)(px - px0), for an axis that gives numbers for the four variables. -/
theorem C73_kinetic (hg : w.geo = false)
    (hv : ∀ i ∈ b.hits, ∀ v ∈ ["x", "y", "px", "py"], Bunch.hitNum E w i v = .ok (vals v i))
    (axis : List (String × PyVal K)) (c : String → K)
    (hax : ∀ v ∈ ["x", "y", "px", "py"], ∃ p, axis.lookup v = some p ∧ p.num? = some (c v)) :
    Bunch.kineticAngularMomentum E w b axis = .ok (average2 b w fun i =>
      (vals "x" i - c "x") * (vals "py" i - c "py") - (vals "y" i - c "y") * (vals "px" i - c "px")) := by
  have h1 := moment_pair E w b hb hW vals "x" "py" axis (c "x") (c "py") (fun i hi => hv i hi _ (by simp))
    (fun i hi => hv i hi _ (by simp)) (hax _ (by simp)) (hax _ (by simp))
  have h2 := moment_pair E w b hb hW vals "y" "px" axis (c "y") (c "px") (fun i hi => hv i hi _ (by simp))
    (fun i hi => hv i hi _ (by simp)) (hax _ (by simp)) (hax _ (by simp))
  simp only [Bunch.kineticAngularMomentum, hg, Bool.not_false, if_true, h1, h2, bind, Except.bind, pure,
    Except.pure]
  rw [average2_sub]

/-- C73: with no axis it is taken about x = y = px = py = 0. -/
theorem C73_kinetic_default (hg : w.geo = false)
    (hv : ∀ i ∈ b.hits, ∀ v ∈ ["x", "y", "px", "py"], Bunch.hitNum E w i v = .ok (vals v i)) :
    Bunch.kineticAngularMomentum E w b Bunch.kineticAxis = .ok (average2 b w fun i =>
      vals "x" i * vals "py" i - vals "y" i * vals "px" i) := by
  have := C73_kinetic E w b hb hW vals hg hv Bunch.kineticAxis (fun _ => 0) (by
    intro v hv
    refine ⟨.int 0, ?_, by simp [PyVal.num?]⟩
    simp only [List.mem_cons, List.not_mem_nil, or_false] at hv
    rcases hv with rfl | rfl | rfl | rfl <;> rfl)
  simpa using this

/-- C73: with geometric variables it is the mean of (x - x0)(y' - y0') - (y - y0)(x' - x0') times
the mean of pz. -/
theorem C73_kinetic_geometric (hmeans : b.means = []) (hg : w.geo = true)
    (hv : ∀ i ∈ b.hits, ∀ v ∈ ["x", "y", "x'", "y'", "pz"], Bunch.hitNum E w i v = .ok (vals v i))
    (axis : List (String × PyVal K)) (c : String → K)
    (hax : ∀ v ∈ ["x", "y", "x'", "y'"], ∃ p, axis.lookup v = some p ∧ p.num? = some (c v)) :
    Bunch.kineticAngularMomentum E w b axis = .ok ((average2 b w fun i =>
      (vals "x" i - c "x") * (vals "y'" i - c "y'") - (vals "y" i - c "y") * (vals "x'" i - c "x'")) *
        average2 b w (vals "pz")) := by
  have h1 := moment_pair E w b hb hW vals "x" "y'" axis (c "x") (c "y'") (fun i hi => hv i hi _ (by simp))
    (fun i hi => hv i hi _ (by simp)) (hax _ (by simp)) (hax _ (by simp))
  have h2 := moment_pair E w b hb hW vals "y" "x'" axis (c "y") (c "x'") (fun i hi => hv i hi _ (by simp))
    (fun i hi => hv i hi _ (by simp)) (hax _ (by simp)) (hax _ (by simp))
  have h3 := Bunch.meanOf_ok E w b hb hmeans hW vals "pz" (fun i hi => hv i hi _ (by simp))
  simp only [Bunch.kineticAngularMomentum, hg, Bool.not_true, Bool.false_eq_true, if_false, h1, h2, h3, bind,
    Except.bind, pure, Except.pure]
  rw [average2_sub]
  rfl

/-- C73_partial: `get_canonical_angular_momentum(bz, field_axis, axis)` with momentum variables is the
kinetic one plus c bz / 2 times the mean square distance from the field axis; without bz the field of
the first hit is used.  Missing: geometric variables with the default axis (false). -/
theorem C73_canonical_partial (hg : w.geo = false)
    (hv : ∀ i ∈ b.hits, ∀ v ∈ ["x", "y", "px", "py"], Bunch.hitNum E w i v = .ok (vals v i))
    (axis field : List (String × PyVal K)) (c f : String → K)
    (hax : ∀ v ∈ ["x", "y", "px", "py"], ∃ p, axis.lookup v = some p ∧ p.num? = some (c v))
    (hf : ∀ v ∈ ["x", "y"], ∃ p, field.lookup v = some p ∧ p.num? = some (f v)) (bz : Option K) (z : K)
    (hz : bz = some z ∨ bz = none ∧ ∃ h, b.hits.head? = some h ∧ Bunch.hitNum E w h "bz" = .ok z) :
    Bunch.canonicalAngularMomentum E w b bz field axis = .ok ((average2 b w fun i =>
      (vals "x" i - c "x") * (vals "py" i - c "py") - (vals "y" i - c "y") * (vals "px" i - c "px")) +
      E.cLight * z * (average2 b w fun i => (vals "x" i - f "x") ^ 2 + (vals "y" i - f "y") ^ 2) / 2) := by
  have h1 := C73_kinetic E w b hb hW vals hg hv axis c hax
  have h2 := moment_pair E w b hb hW vals "x" "x" field (f "x") (f "x") (fun i hi => hv i hi _ (by simp))
    (fun i hi => hv i hi _ (by simp)) (hf _ (by simp)) (hf _ (by simp))
  have h3 := moment_pair E w b hb hW vals "y" "y" field (f "y") (f "y") (fun i hi => hv i hi _ (by simp))
    (fun i hi => hv i hi _ (by simp)) (hf _ (by simp)) (hf _ (by simp))
  have key : ∀ z' : K, (do
      let l ← Bunch.kineticAngularMomentum E w b axis
      let xx ← Bunch.moment E w b ["x", "x"] field
      let yy ← Bunch.moment E w b ["y", "y"] field
      return l + E.cLight * z' * (xx + yy) / 2 : Except Err K) = .ok ((average2 b w fun i =>
      (vals "x" i - c "x") * (vals "py" i - c "py") - (vals "y" i - c "y") * (vals "px" i - c "px")) +
      E.cLight * z' * (average2 b w fun i => (vals "x" i - f "x") ^ 2 + (vals "y" i - f "y") ^ 2) / 2) := by
    intro z'
    rw [h1, h2, h3]
    simp only [Except.bind, bind, pure, Except.pure]
    rw [average2_add]
    simp only [pow_two]
  rcases hz with rfl | ⟨rfl, h, hh, hn⟩
  · exact key z
  · obtain ⟨r, hl⟩ : ∃ r, b.hits = h :: r := by
      cases hl : b.hits with
      | nil => rw [hl] at hh; cases hh
      | cons a r => rw [hl] at hh; cases hh; exact ⟨r, rfl⟩
    have e : Bunch.hitNum E w h "bz" = .ok ((w.hits h).d .bz) := rfl
    rw [e] at hn
    cases hn
    rw [← key]
    unfold Bunch.canonicalAngularMomentum
    simp only [hl]
    rfl

/-- C73_false: with geometric variables `get_canonical_angular_momentum()` never gives a value: the
default axis has no x' and y', KeyError. -/
theorem C73_canonical_geometric_false (hg : w.geo = true) (hne : b.hits ≠ []) (bz : Option K)
    (field : List (String × PyVal K)) :
    Bunch.canonicalAngularMomentum E w b bz field Bunch.canonicalAxis = .error .KeyError := by
  rw [← Bunch.bunchWeight_eq] at hW
  replace hW : ¬ Bunch.weightTiny (Bunch.bunchWeight w b) := hW
  have h1 : Bunch.moment E w b ["x", "y'"] Bunch.canonicalAxis = .error .KeyError := by
    unfold Bunch.moment
    rw [if_neg hW]
    simp only [Bunch.internalCov, hb.covs]
    rfl
  have h2 : Bunch.kineticAngularMomentum E w b Bunch.canonicalAxis = .error .KeyError := by
    simp only [Bunch.kineticAngularMomentum, hg, Bool.not_true, Bool.false_eq_true, if_false, h1, bind,
      Except.bind]
  unfold Bunch.canonicalAngularMomentum
  rw [h2]
  cases bz with
  | some z => rfl
  | none =>
    cases hl : b.hits with
    | nil => exact absurd hl hne
    | cons a r => rfl

/-! ### C74 -/

variable (hmeans : b.means = [])
include hmeans

/-- C74: `get_dispersion(q)` is cov(q, E) mean(E) / var(E), and ZeroDivisionError if var(E) = 0. -/
theorem C74_dispersion (q : String)
    (hv : ∀ i ∈ b.hits, ∀ v ∈ [q, "energy"], Bunch.hitNum E w i v = .ok (vals v i)) :
    Bunch.getDispersion E w b q = if wcov b w vals "energy" "energy" = 0 then .error .ZeroDivisionError
      else .ok (wcov b w vals q "energy" * wmean b.hits w.weight (vals "energy") /
        wcov b w vals "energy" "energy") := by
  have h1 := C19_moment_default E w b hb hmeans hW [q, "energy"] vals hv
  have h2 := C19_moment_default E w b hb hmeans hW ["energy", "energy"] vals
    (fun i hi v hv' => hv i hi v (by simp at hv' ⊢; tauto))
  have h3 := Bunch.meanOf_ok E w b hb hmeans hW vals "energy" (fun i hi => hv i hi _ (by simp))
  simp only [Bunch.getDispersion, h1, h2, h3, bind, Except.bind, Bunch.pyDiv]
  rfl

/-- C74: `get_dispersion_prime(q, geometric)` is the same with the momentum of q. -/
theorem C74_dispersion_prime (geometric : Bool) (q p : String) (hp : Bunch.momVar geometric q = .ok p)
    (hv : ∀ i ∈ b.hits, ∀ v ∈ [p, "energy"], Bunch.hitNum E w i v = .ok (vals v i)) :
    Bunch.getDispersionPrime E w b q geometric =
      if wcov b w vals "energy" "energy" = 0 then .error .ZeroDivisionError
      else .ok (wcov b w vals p "energy" * wmean b.hits w.weight (vals "energy") /
        wcov b w vals "energy" "energy") := by
  have h1 := C19_moment_default E w b hb hmeans hW [p, "energy"] vals hv
  have h2 := C19_moment_default E w b hb hmeans hW ["energy", "energy"] vals
    (fun i hi v hv' => hv i hi v (by simp at hv' ⊢; tauto))
  have h3 := Bunch.meanOf_ok E w b hb hmeans hW vals "energy" (fun i hi => hv i hi _ (by simp))
  simp only [Bunch.getDispersionPrime, hp, h1, h2, h3, bind, Except.bind, Bunch.pyDiv]
  rfl

/-- C74_partial: `get_dispersion_rsquared()` is (<r^2 E> - <r^2><E>) mean(E)/var(E), <> raw moments, for
a bunch centred on the axis.  Missing: bunches off axis (false). -/
theorem C74_rsquared_partial
    (hv : ∀ i ∈ b.hits, ∀ v ∈ ["r_squared", "energy", "x", "y"], Bunch.hitNum E w i v = .ok (vals v i))
    (hr : ∀ i ∈ b.hits, vals "r_squared" i = vals "x" i ^ 2 + vals "y" i ^ 2)
    (hx : wmean b.hits w.weight (vals "x") = 0) (hy : wmean b.hits w.weight (vals "y") = 0) :
    Bunch.getDispersionRsquared E w b = if wcov b w vals "energy" "energy" = 0 then .error .ZeroDivisionError
      else .ok (((average2 b w fun i => vals "r_squared" i * vals "energy" i) -
        average2 b w (vals "r_squared") * average2 b w (vals "energy")) * average2 b w (vals "energy") /
        wcov b w vals "energy" "energy") := by
  have h0 := moment_pair E w b hb hW vals "r_squared" "energy" [("r_squared", .flt 0), ("energy", .flt 0)] 0 0
    (fun i hi => hv i hi _ (by simp)) (fun i hi => hv i hi _ (by simp)) ⟨.flt 0, by simp, by simp [PyVal.num?]⟩
    ⟨.flt 0, by simp [List.lookup_cons], by simp [PyVal.num?]⟩
  have h1 := C19_moment_default E w b hb hmeans hW ["x", "x"] vals
    (fun i hi v hv' => hv i hi v (by simp at hv' ⊢; tauto))
  have h1' := C19_moment_default E w b hb hmeans hW ["y", "y"] vals
    (fun i hi v hv' => hv i hi v (by simp at hv' ⊢; tauto))
  have h2 := C19_moment_default E w b hb hmeans hW ["energy", "energy"] vals
    (fun i hi v hv' => hv i hi v (by simp at hv' ⊢; tauto))
  have h3 := Bunch.meanOf_ok E w b hb hmeans hW vals "energy" (fun i hi => hv i hi _ (by simp))
  have hs : wmoment b.hits w.weight (List.map (fun v i => vals v i - wmean b.hits w.weight (vals v)) ["x", "x"]) +
      wmoment b.hits w.weight (List.map (fun v i => vals v i - wmean b.hits w.weight (vals v)) ["y", "y"]) =
      average2 b w (vals "r_squared") := by
    simp only [List.map_cons, List.map_nil, wmoment_pair, hx, hy, sub_zero]
    have := average2_add b w (fun i => vals "x" i * vals "x" i) (fun i => vals "y" i * vals "y" i)
    simp only [average2] at this ⊢
    rw [this]
    congr 2
    apply List.map_congr_left
    intro i hi
    rw [hr i hi]; ring
  simp only [Bunch.getDispersionRsquared, h0, h1, h1', h2, h3, bind, Except.bind, Bunch.pyDiv]
  rw [hs]
  simp only [sub_zero]
  rfl
end

/-- Two hits of weight 1: x = 1, 3 and energy 1, 2. -/
def dispWorld : BWorld ℚ :=
  { hits := fun i => ⟨fun v => match v with
      | .x => if i = 0 then 1 else 3 | .energy => if i = 0 then 1 else 2 | .local_weight => 1
      | .px => 1 | .py => i | .pz => 4 | .bz => 2 | _ => 0, fun _ => 0⟩
    ctx := fun _ => WC.new, hcur := 0, bcur := 0, geo := false }

/-- C74_false: the documented raw moments are not used for <r^2> when the bunch is off axis. -/
theorem C74_rsquared_false : ∃ (w : BWorld ℚ) (b : Bunch ℚ) (vals : String → Nat → ℚ) (d : ℚ), b.Normal w ∧
    b.means = [] ∧ (¬ |(b.hits.map w.weight).sum| < 1 / 1000000000) ∧
    (∀ i ∈ b.hits, ∀ v ∈ ["r_squared", "energy", "x", "y"], Bunch.hitNum ratExt w i v = .ok (vals v i)) ∧
    (∀ i ∈ b.hits, vals "r_squared" i = vals "x" i ^ 2 + vals "y" i ^ 2) ∧
    wcov b w vals "energy" "energy" ≠ 0 ∧ Bunch.getDispersionRsquared ratExt w b = .ok d ∧
    d ≠ ((average2 b w fun i => vals "r_squared" i * vals "energy" i) -
        average2 b w (vals "r_squared") * average2 b w (vals "energy")) * average2 b w (vals "energy") /
        wcov b w vals "energy" "energy" :=
  ⟨dispWorld, exBunch, fun v i => if v = "x" then (if i = 0 then 1 else 3) else if v = "energy" then
      (if i = 0 then 1 else 2) else if v = "y" then 0 else (if i = 0 then 1 else 9), 48,
    ⟨rfl, rfl, rfl⟩, rfl, by decide +kernel, by decide +kernel, by decide +kernel, by decide +kernel,
    by decide +kernel, by decide +kernel⟩

/-- C74_false: after Bunch.set_geometric_momentum(True) the default conjugate momentum of get_beta and the
others is y', but get("dispersion_prime", ["y"]) (and get_dispersion_prime("y")) still uses py: here
y' = py/4, and the result is not the one for y'. -/
theorem C74_prime_default_false (L : LinAlg ℚ) : ∃ (w : BWorld ℚ) (b : Bunch ℚ) (d d' : ℚ), w.geo = true ∧
    Bunch.get L ratExt w b "dispersion_prime" ["y"] = .ok d ∧
    Bunch.getDispersionPrime ratExt w b "y" w.geo = .ok d' ∧ d ≠ d' :=
  ⟨{ dispWorld with geo := true }, exBunch, 3 / 2, 3 / 8, rfl, by
    have : Bunch.get L ratExt { dispWorld with geo := true } exBunch "dispersion_prime" ["y"] =
      Bunch.getDispersionPrime ratExt { dispWorld with geo := true } exBunch "y" false := rfl
    rw [this]; decide +kernel, by decide +kernel, by decide +kernel⟩

example : Bunch.getDispersion ratExt dispWorld exBunch "x" = .ok 3 ∧
    Bunch.kineticAngularMomentum ratExt dispWorld exBunch Bunch.kineticAxis = .ok (3 / 2) ∧
    Bunch.kineticAngularMomentum ratExt { dispWorld with geo := true } exBunch Bunch.kineticAxis = .ok (3 / 2) ∧
    Bunch.canonicalAngularMomentum ratExt dispWorld exBunch none Bunch.fieldAxis Bunch.canonicalAxis =
      .ok (3 / 2 + 5 * ratExt.cLight) := by decide +kernel

/-! ### C75 -/

theorem clearLocal_spec (E : Ext K) : ∀ (l : List Nat) (w : BWorld K),
    ∃ w', Bunch.clearLocal E l w = (.ok (), w') ∧ w'.ctx = w.ctx ∧ w'.hcur = w.hcur ∧ w'.bcur = w.bcur ∧
      w'.geo = w.geo ∧ (∀ i ∈ l, w'.hits i = (w.hits i).setD .local_weight 1) ∧
      ∀ i, i ∉ l → w'.hits i = w.hits i
  | [], w => ⟨w, rfl, rfl, rfl, rfl, rfl, by simp, fun _ _ => rfl⟩
  | i :: r, w => by
    have hstep : w.onHit i (Hit.set E "local_weight" (.int 1)) =
        (.ok (), w.hput i ⟨(w.hits i).setD .local_weight ((1 : Int) : K), w.ctx w.hcur⟩) := rfl
    obtain ⟨w', h1, h2, h3, h4, h5, h6, h7⟩ := clearLocal_spec E r
      (w.hput i ⟨(w.hits i).setD .local_weight ((1 : Int) : K), w.ctx w.hcur⟩)
    have hctx : (w.hput i ⟨(w.hits i).setD .local_weight ((1 : Int) : K), w.ctx w.hcur⟩).ctx = w.ctx := by
      funext c'; by_cases h : c' = w.hcur <;> simp [BWorld.hput, h]
    refine ⟨w', ?_, h2.trans hctx, h3, h4, h5, ?_, ?_⟩
    · rw [Bunch.clearLocal, hstep]; exact h1
    · intro j hj
      by_cases hr : j ∈ r
      · rw [h6 j hr]
        by_cases hji : j = i
        · subst hji; simp [BWorld.hput, Core.setD_setD]
        · simp [BWorld.hput, hji]
      · have hji : j = i := by
          rcases List.mem_cons.mp hj with h | h
          · exact h
          · exact absurd h hr
        subst hji
        rw [h7 j hr]; simp [BWorld.hput]
    · intro j hj
      rw [List.mem_cons, not_or] at hj
      rw [h7 j hj.2]; simp [BWorld.hput, hj.1]

/-- C75: `clear_local_weights()` sets the local weight of every hit of the bunch to 1 and changes
nothing else. -/
theorem C75_local (E : Ext K) (b : Bunch K) (w : BWorld K) :
    ∃ w', Bunch.clearLocal E b.hits w = (.ok (), w') ∧ w'.ctx = w.ctx ∧ w'.hcur = w.hcur ∧ w'.bcur = w.bcur ∧
      (∀ i ∈ b.hits, Bunch.hitNum E w' i "local_weight" = .ok 1 ∧
        ∀ v, v ≠ .local_weight → (w'.hits i).d v = (w.hits i).d v) ∧
      (∀ i, (w'.hits i).i = (w.hits i).i) ∧ ∀ i, i ∉ b.hits → w'.hits i = w.hits i := by
  obtain ⟨w', h1, h2, h3, h4, h5, h6, h7⟩ := clearLocal_spec E b.hits w
  refine ⟨w', h1, h2, h3, h4, ?_, ?_, h7⟩
  · intro i hi
    constructor
    · have : Bunch.hitNum E w' i "local_weight" = .ok ((w'.hits i).d .local_weight) := rfl
      rw [this, h6 i hi]; simp [Core.setD]
    · intro v hv; rw [h6 i hi]; simp [Core.setD, hv]
  · intro i
    by_cases hi : i ∈ b.hits
    · rw [h6 i hi]; rfl
    · rw [h7 i hi]

/-- C75_partial: after `clear_weights()` every hit of the bunch has weight 1, if the current context has
the default weight 1.  Missing: contexts with another default (false, C07); hits outside the bunch
keep their local weight, but lose their global weight. -/
theorem C75_clear_partial (E : Ext K) (b : Bunch K) (w : BWorld K) (hd : (w.ctx w.hcur).dflt = 1) :
    ∃ w', Bunch.clearWeights E b w = (.ok (), w') ∧ (∀ i ∈ b.hits, w'.weight i = 1) ∧
      ∀ i, i ∉ b.hits → w'.hits i = w.hits i ∧ (w'.hview i).globalWeight = 1 := by
  obtain ⟨w', h1, h2, h3, h4, h5, h6, h7⟩ := clearLocal_spec E b.hits w
  have hg : ∀ id, ((Bunch.clearGlobal w').ctx (Bunch.clearGlobal w').hcur).getWeight id = 1 := by
    intro id
    show (if w'.hcur = w'.hcur then (w'.ctx w'.hcur).clearWeights else w'.ctx w'.hcur).getWeight id = 1
    rw [if_pos rfl, WC.getWeight_clear, h2, h3, hd]
  refine ⟨Bunch.clearGlobal w', by rw [Bunch.clearWeights, h1], ?_, ?_⟩
  · intro i hi
    have e : (Bunch.clearGlobal w').hits i = (w.hits i).setD .local_weight 1 := h6 i hi
    simp only [BWorld.weight, BWorld.hview, HS.userWeight, hg, mul_one, e]
    simp [Core.setD]
  · intro i hi
    refine ⟨h7 i hi, ?_⟩
    simp only [BWorld.hview, HS.globalWeight, hg]

/-- C75_false: clear_weights of a bunch changes the weight of a hit that is not in the bunch, and with a
context of another default the hits of the bunch do not get weight 1. -/
theorem C75_clear_false :
    (∃ (w : BWorld ℚ) (b : Bunch ℚ) (i : Nat), i ∉ b.hits ∧ w.weight i = 5 ∧
      (Bunch.clearWeights ratExt b w).2.weight i = 1) ∧
    ∃ (w : BWorld ℚ) (b : Bunch ℚ), ∃ i ∈ b.hits, (Bunch.clearWeights ratExt b w).2.weight i = 0 := by
  refine ⟨⟨{ hits := fun _ => ⟨fun v => match v with | .local_weight => 1 | _ => 0, fun _ => 0⟩
             ctx := fun _ => WC.new.setWeight ⟨0, 0, 0⟩ 5, hcur := 0, bcur := 0, geo := false },
    ⟨[0, 1], [some 0, some 1], none, []⟩, 2, by decide, by decide +kernel, by decide +kernel⟩,
    ⟨{ hits := fun _ => ⟨fun v => match v with | .local_weight => 1 | _ => 0, fun _ => 0⟩
       ctx := fun _ => WC.new.opNot, hcur := 0, bcur := 0, geo := false },
    ⟨[0, 1], [some 0, some 1], none, []⟩, 0, by decide, by decide +kernel⟩⟩

example : (exWorld.ctx exWorld.hcur).dflt = 1 ∧ exWorld.weight 1 = 2 ∧
    (Bunch.clearWeights ratExt exBunch exWorld).2.weight 1 = 1 := ⟨rfl, by decide +kernel, by decide +kernel⟩

/-! ### C76 -/

/-- C76: `get_hits(v, value, comparator)` are the hits with comparator(hit[v], value), in order. -/
theorem C76_get_hits (E : Ext K) (w : BWorld K) (v : String) (value : K) (comp : K → K → Bool) (val : Nat → K) :
    ∀ hits : List Nat, (∀ i ∈ hits, Bunch.hitNum E w i v = .ok (val i)) →
      Bunch.getHits E w v value (okComp comp) hits = .ok (hits.filter fun i => comp (val i) value)
  | [], _ => rfl
  | i :: r, h => by
    have ih := C76_get_hits E w v value comp val r (fun j hj => h j (by simp [hj]))
    rw [Bunch.getHits, h i (by simp)]
    have hc : okComp comp (val i) value = some (comp (val i) value) := rfl
    simp only [hc, ih, List.filter_cons]

/-- C76: `hit_equality` is True iff the bunches have as many hits and the hits at the same place agree in
every listed variable to the default tolerance. -/
theorem C76_equality (w : BWorld K) (dflt : K) (a b : Bunch K) (tol : K) :
    Bunch.hitEquality w dflt a b tol = true ↔ a.hits.length = b.hits.length ∧
      ∀ (k : Nat) (i j : Nat), a.hits[k]? = some i → b.hits[k]? = some j → ∀ n ∈ hitVariables,
        |HS.num (w.hview i) n - HS.num (w.hview j) n| ≤ dflt := by
  unfold Bunch.hitEquality
  by_cases hl : a.hits.length = b.hits.length
  · simp only [ne_eq, hl, not_true_eq_false, if_false, List.all_eq_true, C15_eq_iff, true_and]
    constructor
    · intro h k i j hi hj
      refine h (i, j) ?_
      rw [List.mem_iff_getElem?]
      exact ⟨k, by rw [List.getElem?_zip_eq_some]; exact ⟨hi, hj⟩⟩
    · rintro h ⟨i, j⟩ hp
      obtain ⟨k, hk⟩ := List.mem_iff_getElem?.1 hp
      rw [List.getElem?_zip_eq_some] at hk
      exact h k i j hk.1 hk.2
  · simp [hl]

/-- C76_false: the tolerance given to hit_equality is not used: two hits that differ by 1 in x are not
equal to a tolerance of 10. -/
theorem C76_tolerance_false : ∃ (w : BWorld ℚ) (a b : Bunch ℚ), a.hits.length = b.hits.length ∧
    (∀ (k : Nat) (i j : Nat), a.hits[k]? = some i → b.hits[k]? = some j → ∀ n ∈ hitVariables,
        |HS.num (w.hview i) n - HS.num (w.hview j) n| ≤ 10) ∧
    Bunch.hitEquality w (1 / 1000000000) a b 10 = false := by
  refine ⟨exWorld, ⟨[0], [some 0], none, []⟩, ⟨[1], [some 1], none, []⟩, rfl, ?_, by decide +kernel⟩
  intro k i j hi hj
  cases k with
  | zero =>
    simp only [List.getElem?_cons_zero, Option.some.injEq] at hi hj
    subst hi; subst hj
    decide +kernel
  | succ k => simp at hi

example : Bunch.getHits ratExt exWorld "x" 1 (okComp fun a b => decide (a = b)) [0, 1, 2, 1] = .ok [1, 1] := by
  decide +kernel

end Xboa
