import Verif.Model.BunchMore
import Verif.Props.BunchCut
import Verif.Props.BunchList
import Verif.Props.Optics
/-!
C72: standard deviations and cuts in numbers of standard deviations.
-/
set_option linter.unusedSectionVars false
namespace Xboa
variable {K : Type} [Field K] [LinearOrder K] [IsStrictOrderedRing K]

/-- `s` is the standard deviation of `val` over the hits about `m`:
s >= 0 and s^2 is the weighted mean of (val - m)^2. -/
def IsSigma (hits : List Nat) (wt : Nat → K) (val : Nat → K) (m s : K) : Prop :=
  0 ≤ s ∧ s * s * (hits.map wt).sum = (hits.map fun i => wt i * ((val i - m) * (val i - m))).sum

section
variable {E : Ext K} (hE : E.Lawful) (w : BWorld K) (b : Bunch K) (hb : b.Normal w)
  (hW : ¬ |(b.hits.map w.weight).sum| < 1 / 1000000000) (hw : ∀ i ∈ b.hits, 0 ≤ w.weight i)
  (v : String) (val : Nat → K) (hv : ∀ i ∈ b.hits, Bunch.hitNum E w i v = .ok (val i))
include hE hb hW hw hv

theorem second_moment (m : K) (d : List (String × PyVal K))
    (hd : ∃ p, d.lookup v = some p ∧ p.num? = some m) :
    ∃ x, Bunch.moment E w b [v, v] d = .ok x ∧ 0 ≤ x ∧
      IsSigma b.hits w.weight val m (E.sqrt x) := by
  have hS0 : (b.hits.map w.weight).sum ≠ 0 := by
    intro h; apply hW; rw [h]; norm_num
  have hS : 0 ≤ (b.hits.map w.weight).sum := by
    apply List.sum_nonneg
    intro x hx
    obtain ⟨s, hs', rfl⟩ := List.mem_map.mp hx
    exact hw s hs'
  have h1 := C19_moment E w b hb hW [v, v] d (fun _ => val) (fun _ => m)
    (by intro i hi u hu; simp at hu; subst hu; exact hv i hi)
    (by intro u hu; simp at hu; subst hu; exact hd)
  have h2 : 0 ≤ (b.hits.map fun i => w.weight i * ((val i - m) * (val i - m))).sum := by
    apply List.sum_nonneg
    intro x hx
    obtain ⟨i, hi, rfl⟩ := List.mem_map.mp hx
    exact mul_nonneg (hw i hi) (mul_self_nonneg _)
  simp only [List.map_cons, List.map_nil, wmoment_pair] at h1
  have h3 := div_nonneg h2 hS
  refine ⟨_, h1, h3, hE.sqrt_nonneg _ h3, ?_⟩
  rw [hE.sqrt_mul_self _ h3, div_mul_cancel₀ _ hS0]

/-- C72: `bunch.standard_deviation(v, m)` is the weighted standard deviation about m, for m given as
a number or in a dict. -/
theorem C72_standard_deviation (m : K) (p : PyVal K) (hp : p.num? = some m) :
    ∃ s, Bunch.standardDeviation E w b v (.num p) = .ok s ∧ IsSigma b.hits w.weight val m s ∧
      ∀ d : List (String × PyVal K), d.lookup v = some p →
        Bunch.standardDeviation E w b v (.dict d) = .ok s := by
  obtain ⟨x, h1, h2, h3⟩ := second_moment hE w b hb hW hw v val hv m [(v, p)] ⟨p, by simp, hp⟩
  refine ⟨E.sqrt x, ?_, h3, ?_⟩
  · simp [Bunch.standardDeviation, h1, not_lt.2 h2]
  · intro d hd
    have e1 : Bunch.moment E w b [v, v] d = Bunch.moment E w b [v, v] [(v, p)] := by
      rw [C19_moment E w b hb hW [v, v] d (fun _ => val) (fun _ => m)
        (by intro i hi u hu; simp at hu; subst hu; exact hv i hi)
        (by intro u hu; simp at hu; subst hu; exact ⟨p, hd, hp⟩),
        C19_moment E w b hb hW [v, v] [(v, p)] (fun _ => val) (fun _ => m)
        (by intro i hi u hu; simp at hu; subst hu; exact hv i hi)
        (by intro u hu; simp at hu; subst hu; exact ⟨p, by simp, hp⟩)]
    simp [Bunch.standardDeviation, e1, h1, not_lt.2 h2]

variable (hmeans : b.means = [])
include hmeans

/-- C72: with no mean given it is the standard deviation about the bunch mean. -/
theorem C72_standard_deviation_default :
    ∃ s, Bunch.standardDeviation E w b v (.dict []) = .ok s ∧
      IsSigma b.hits w.weight val (wmean b.hits w.weight val) s := by
  obtain ⟨x, h1, h2, h3⟩ := second_moment hE w b hb hW hw v val hv (wmean b.hits w.weight val)
    [(v, .flt (wmean b.hits w.weight val))] ⟨.flt (wmean b.hits w.weight val), by simp, by simp [PyVal.num?]⟩
  have e1 : Bunch.moment E w b [v, v] [] = .ok x := by
    rw [← h1, C19_moment_default E w b hb hmeans hW [v, v] (fun _ => val)
        (by intro i hi u hu; simp at hu; subst hu; exact hv i hi),
      C19_moment E w b hb hW [v, v] _ (fun _ => val) (fun _ => wmean b.hits w.weight val)
        (by intro i hi u hu; simp at hu; subst hu; exact hv i hi)
        (by intro u hu; simp at hu; subst hu; exact ⟨.flt (wmean b.hits w.weight val), by simp, by simp [PyVal.num?]⟩)]
  exact ⟨E.sqrt x, by simp [Bunch.standardDeviation, e1, not_lt.2 h2], h3⟩

theorem sigma_about_mean : ∃ d x, Bunch.mean E w b [v] = .ok d ∧ Bunch.moment E w b [v, v] d = .ok x ∧
    0 ≤ x ∧ IsSigma b.hits w.weight val (wmean b.hits w.weight val) (E.sqrt x) := by
  obtain ⟨d, h1, h2⟩ := Bunch.mean_ok E w b hb hmeans hW (fun _ => val) [v]
    (by intro i hi u hu; simp at hu; subst hu; exact hv i hi)
  obtain ⟨x, g1, g2, g3⟩ := second_moment hE w b hb hW hw v val hv (wmean b.hits w.weight val) d
    ⟨_, h2 v (by simp), by simp [PyVal.num?]⟩
  exact ⟨d, x, h1, g1, g2, g3⟩

/-- C72: `bunch.cut({v: n}, comparator, True)` sets the local weight to 0 of exactly the hits for which
comparator(hit[v], n * sigma) holds, sigma being the standard deviation about the bunch mean. -/
theorem C72_cut_local (comp : K → K → Bool) (n : K) :
    ∃ s w', IsSigma b.hits w.weight val (wmean b.hits w.weight val) s ∧
      Bunch.cutNsigma E b (okComp comp) false [(v, n)] w = (.ok (), w') ∧
      LocalCut w w' (fun j => j ∈ b.hits ∧ comp (val j) (n * s) = true) := by
  obtain ⟨d, x, h1, h2, h3, h4⟩ := sigma_about_mean hE w b hb hW hw v val hv hmeans
  obtain ⟨w', g1, g2⟩ := C23_local E w b hb v val hv comp (n * E.sqrt x)
  refine ⟨E.sqrt x, w', h4, ?_, g2⟩
  simp only [Bunch.cut] at g1
  simp only [Bunch.cutNsigma, Bunch.cutSigma, h1, h2, not_lt.2 h3, if_false]
  exact g1

/-- C72: the same for a cut on global weights. -/
theorem C72_cut_global (hwf : (w.ctx w.hcur).WF) (comp : K → K → Bool) (n : K) :
    ∃ s w', IsSigma b.hits w.weight val (wmean b.hits w.weight val) s ∧
      Bunch.cutNsigma E b (okComp comp) true [(v, n)] w = (.ok (), w') ∧
      GlobalCut w.hcur w w' (fun id => ∃ j ∈ b.hits, (w.hits j).weightId = id ∧
        comp (val j) (n * s) = true) := by
  obtain ⟨d, x, h1, h2, h3, h4⟩ := sigma_about_mean hE w b hb hW hw v val hv hmeans
  obtain ⟨w', g1, g2⟩ := C23_global E w b hb hwf v val hv comp (n * E.sqrt x)
  refine ⟨E.sqrt x, w', h4, ?_, g2⟩
  simp only [Bunch.cut] at g1
  simp only [Bunch.cutNsigma, Bunch.cutSigma, h1, h2, not_lt.2 h3, if_false]
  exact g1

/-- C72_partial: what `bunch.conditional_remove({v: n}, comparator, True)` does is to keep, in order,
the hits for which comparator(hit[v], n * q) fails, q being the square root of the standard deviation.
Missing: n standard deviations (false). -/
theorem C72_remove_partial (comp : K → K → Bool) (n : K) :
    ∃ s q b', IsSigma b.hits w.weight val (wmean b.hits w.weight val) s ∧ 0 ≤ q ∧ q * q = s ∧
      Bunch.removeNsigma E w (okComp comp) [(v, n)] b = (.ok (), b') ∧ b'.Sync ∧
      b'.hits = b.hits.filter (fun i => ! comp (val i) (n * q)) := by
  obtain ⟨d, x, h1, h2, h3, h4⟩ := sigma_about_mean hE w b hb hW hw v val hv hmeans
  obtain ⟨b', g1, g2, g3, _⟩ := C27_conditional_remove E w (fun _ => val) comp
    [(v, n * E.sqrt (E.sqrt x))] b hb.sync (by intro p hp i hi; simp at hp; subst hp; exact hv i hi)
  refine ⟨E.sqrt x, E.sqrt (E.sqrt x), b', h4, hE.sqrt_nonneg _ h4.1, hE.sqrt_mul_self _ h4.1, ?_, g3, ?_⟩
  · simp only [Bunch.conditionalRemove] at g1
    simp only [Bunch.removeNsigma, Bunch.removeSigma, h1, Bunch.standardDeviation, h2, not_lt.2 h3,
      not_lt.2 h4.1, if_false]
    exact g1
  · rw [g2]; simp
end

/-- Four hits of weight 1 with x = 4, -4, 4, -4, of standard deviation 4. -/
noncomputable def sigmaWorld : BWorld ℝ :=
  { hits := fun i => ⟨fun v => match v with
      | .x => if i = 0 ∨ i = 2 then 4 else -4 | .local_weight => 1 | _ => 0, fun _ => 0⟩
    ctx := fun _ => WC.new, hcur := 0, bcur := 0, geo := false }

theorem sigmaWorld_weight (i : Nat) : sigmaWorld.weight i = 1 := by
  simp [BWorld.weight, BWorld.hview, HS.userWeight, sigmaWorld, WC.new,
    WC.getWeight, WMap.find]

/-- value of x -/
noncomputable def sigmaX (i : Nat) : ℝ := if i = 0 ∨ i = 2 then 4 else -4

theorem sigmaWorld_x (i : Nat) : Bunch.hitNum realExt sigmaWorld i "x" = .ok (sigmaX i) := rfl

theorem sigmaWorld_sigma (s : ℝ) (h : IsSigma exRealBunch.hits sigmaWorld.weight sigmaX
    (wmean exRealBunch.hits sigmaWorld.weight sigmaX) s) : s = 4 := by
  obtain ⟨h0, h1⟩ := h
  simp only [exRealBunch, List.map_cons, List.map_nil, sigmaWorld_weight, wmean, sigmaX] at h1
  norm_num at h1
  nlinarith

theorem sigmaWorld_W : ¬ |(exRealBunch.hits.map sigmaWorld.weight).sum| < 1 / 1000000000 := by
  simp only [exRealBunch, List.map_cons, List.map_nil, sigmaWorld_weight]; norm_num

/-- C72_false: conditional_remove of hits beyond n standard deviations removes others.  Here sigma is 4,
no hit is beyond 1.5 sigma = 6, and two of four hits are removed. -/
theorem C72_remove_false : ∃ (w : BWorld ℝ) (b : Bunch ℝ) (val : Nat → ℝ) (s : ℝ) (b' : Bunch ℝ),
    b.Normal w ∧ b.means = [] ∧ (∀ i ∈ b.hits, Bunch.hitNum realExt w i "x" = .ok (val i)) ∧
    IsSigma b.hits w.weight val (wmean b.hits w.weight val) s ∧
    Bunch.removeNsigma realExt w (okComp fun a c => decide (c < a)) [("x", 3 / 2)] b = (.ok (), b') ∧
    (b.hits.filter fun i => ! decide (3 / 2 * s < val i)) = [0, 1, 2, 3] ∧ b'.hits = [1, 3] := by
  obtain ⟨s, q, b', h1, h2, h3, h4, _, h6⟩ := C72_remove_partial realExt_lawful sigmaWorld exRealBunch
    ⟨rfl, rfl, rfl⟩ sigmaWorld_W (fun i _ => by rw [sigmaWorld_weight]; norm_num) "x" sigmaX
    (fun i _ => sigmaWorld_x i) rfl (fun a c => decide (c < a)) (3 / 2)
  have hs := sigmaWorld_sigma s h1
  subst hs
  have hq : q = 2 := by nlinarith
  subst hq
  refine ⟨sigmaWorld, exRealBunch, sigmaX, 4, b', ⟨rfl, rfl, rfl⟩, rfl, fun i _ => sigmaWorld_x i, h1, h4, ?_, ?_⟩
  · simp only [exRealBunch, List.filter_cons, List.filter_nil, sigmaX]
    norm_num
  · rw [h6]
    simp only [exRealBunch, List.filter_cons, List.filter_nil, sigmaX]
    norm_num

/-- a cut at half a standard deviation -/
example : ∃ w', Bunch.cutNsigma realExt exRealBunch (okComp fun a c => decide (c < a)) false [("x", 1 / 2)]
      sigmaWorld = (.ok (), w') ∧
    (w'.hits 0).d .local_weight = 0 ∧ (w'.hits 1).d .local_weight = 1 := by
  obtain ⟨s, w', h1, h2, h3⟩ := C72_cut_local realExt_lawful sigmaWorld exRealBunch
    ⟨rfl, rfl, rfl⟩ sigmaWorld_W (fun i _ => by rw [sigmaWorld_weight]; norm_num) "x" sigmaX
    (fun i _ => sigmaWorld_x i) rfl (fun a c => decide (c < a)) (1 / 2)
  have hs := sigmaWorld_sigma s h1
  subst hs
  refine ⟨w', h2, ?_, ?_⟩
  · rw [h3.cut 0 ⟨by simp [exRealBunch], by simp [sigmaX]; norm_num⟩]; simp [Core.setD]
  · rw [h3.kept 1 (by simp [sigmaX]; norm_num)]; rfl

end Xboa
