import Verif.Props.Optics
import Verif.Props.BunchCut
import Verif.Props.BunchList
import Verif.Model.Amplitude
import Mathlib.LinearAlgebra.Matrix.NonsingularInverse
import Mathlib.Tactic.FieldSimp
import Mathlib.Tactic.LinearCombination
import Mathlib.Tactic.NormNum
/-
C102: the amplitude variables of a bunch and cuts on them.
-/
set_option linter.unusedSectionVars false
namespace Xboa.Amp
variable {K : Type} [Field K] [LinearOrder K] [IsStrictOrderedRing K]

/-! ### specification -/

/-- The deviation of variable `v` of hit `i` from the mean of the bunch. -/
def dev (b : Bunch K) (w : BWorld K) (vals : String → Nat → K) (i : Nat) (v : String) : K :=
  vals v i - wmean b.hits w.weight (vals v)

/-- The covariance matrix of the bunch in the variables `cl`. -/
def covOf (b : Bunch K) (w : BWorld K) (vals : String → Nat → K) (cl : List String) :
    Matrix (Fin cl.length) (Fin cl.length) K :=
  Matrix.of fun i j => wcov b w vals (cl.getD i "") (cl.getD j "")

/-- `a` is eps * u^T V^-1 u for hit `i`: u the deviations of its variables `cl` from the means, V the
covariance matrix, V^-1 u the vector y with V y = u. -/
def IsAmp (b : Bunch K) (w : BWorld K) (vals : String → Nat → K) (cl : List String) (eps : K)
    (i : Nat) (a : K) : Prop :=
  ∃ y : Fin cl.length → K,
    (∀ j, ∑ k, covOf b w vals cl j k * y k = dev b w vals i (cl.getD j "")) ∧
    a = eps * ∑ j : Fin cl.length, dev b w vals i (cl.getD j "") * y j

/-- `eps` is the emittance in the variables `cl`: its product with the mass (1 with the geometric
convention) is the root of the determinant. -/
def IsEmittance (b : Bunch K) (w : BWorld K) (vals : String → Nat → K) (cl : List String)
    (m eps : K) : Prop :=
  0 ≤ eps * m ∧ (eps * m) ^ cl.length = (covOf b w vals cl).det

/-- `v` asks for the amplitude in these axes: 'amplitude ' and the axes separated by single spaces
(not a Python expression, `ev`), or 'amplitude ' and a Python list of the axes. -/
def AsksFor (ev : String → Option (List String)) (v : String) (axes : List String) : Prop :=
  (v = "amplitude " ++ " ".intercalate axes ∧ ev (" ".intercalate axes) = none) ∨
    ∃ s, v = "amplitude " ++ s ∧ ev s = some axes

/-- there is one amplitude only -/
theorem IsAmp.unique {b : Bunch K} {w : BWorld K} {vals : String → Nat → K} {cl : List String}
    (hD : (covOf b w vals cl).det ≠ 0) {eps : K} {i : Nat} {a a' : K}
    (h : IsAmp b w vals cl eps i a) (h' : IsAmp b w vals cl eps i a') : a = a' := by
  obtain ⟨y, h1, rfl⟩ := h
  obtain ⟨y', h1', rfl⟩ := h'
  have : y = y' := by
    have hinj := Matrix.mulVec_injective_iff_isUnit.mpr
      ((Matrix.isUnit_iff_isUnit_det _).mpr (isUnit_iff_ne_zero.mpr hD))
    apply hinj
    funext j
    exact (h1 j).trans (h1' j).symm
  rw [this]

/-! ### names -/

theorem splitSpace_append (p : List Char) (hp : ' ' ∉ p) (r : List Char) :
    splitSpace (p ++ ' ' :: r) = p :: splitSpace r := by
  have hne : ∀ r : List Char, splitSpace r ≠ [] := by
    intro r
    induction r with
    | nil => simp [splitSpace]
    | cons c r ih =>
      rw [splitSpace]
      split
      · simp
      · split <;> simp
  induction p with
  | nil =>
    rw [List.nil_append, splitSpace]
    cases h : splitSpace r with
    | nil => exact (hne r h).elim
    | cons a l => simp
  | cons c p ih =>
    rw [List.cons_append, splitSpace, ih (fun h => hp (by simp [h]))]
    simp only
    rw [if_neg (fun h => hp (by simp [h]))]

theorem splitSpace_single (p : List Char) (hp : ' ' ∉ p) : splitSpace p = [p] := by
  induction p with
  | nil => rfl
  | cons c p ih =>
    rw [splitSpace, ih (fun h => hp (by simp [h]))]
    simp only
    rw [if_neg (fun h => hp (by simp [h]))]

theorem splitSpace_intercalate (l : List (List Char)) (hl : l ≠ []) (h : ∀ p ∈ l, ' ' ∉ p) :
    splitSpace ([' '].intercalate l) = l := by
  induction l with
  | nil => exact (hl rfl).elim
  | cons p r ih =>
    cases r with
    | nil => simpa [List.intercalate] using splitSpace_single p (h p (by simp))
    | cons q t =>
      have : [' '].intercalate (p :: q :: t) = p ++ ' ' :: [' '].intercalate (q :: t) := by
        simp [List.intercalate, List.intersperse]
      rw [this, splitSpace_append p (h p (by simp)), ih (by simp) (fun x hx => h x (by simp [hx]))]

theorem axis_nospace {a : String} (h : a ∈ Bunch.axisList) : ' ' ∉ a.toList := by
  have : ∀ a ∈ Bunch.axisList, ' ' ∉ a.toList := by decide +kernel
  exact this a h

theorem amplitude_append (s : String) :
    isAmplitude ("amplitude " ++ s) = true ∧ axisPart ("amplitude " ++ s) = s := by
  refine ⟨?_, ?_⟩
  · unfold isAmplitude
    refine decide_eq_true ?_
    rw [String.toList_append]
    exact ⟨[], ' ' :: s.toList, rfl⟩
  · simp [axisPart, String.toList_append]

theorem AsksFor.parts {ev : String → Option (List String)} {v : String} {axes : List String}
    (h : AsksFor ev v axes) (hax : axes ≠ []) (ha : ∀ a ∈ axes, a ∈ Bunch.axisList) :
    isAmplitude v = true ∧ convertAxes ev (axisPart v) = .ok axes := by
  have hpart := amplitude_append
  have hall : axes.all (Bunch.axisList.contains ·) = true := by
    rw [List.all_eq_true]
    intro a h
    simpa using ha a h
  rcases h with ⟨rfl, h2⟩ | ⟨s, rfl, h2⟩
  · refine ⟨(hpart _).1, ?_⟩
    rw [(hpart _).2]
    unfold convertAxes
    rw [h2]
    have : (splitSpace (" ".intercalate axes).toList).map String.ofList = axes := by
      rw [String.toList_intercalate]
      rw [show (" " : String).toList = [' '] from rfl, splitSpace_intercalate _ (by simpa using hax)
        (by simp only [List.mem_map]; rintro p ⟨a, h, rfl⟩; exact axis_nospace (ha a h))]
      simp
    simp only [this]
    rw [if_pos hall]
  · refine ⟨(hpart _).1, ?_⟩
    rw [(hpart _).2]
    unfold convertAxes
    rw [h2]
    simp only
    rw [if_pos hall]

theorem conj_axes {geo : Bool} {axes moms : List String}
    (h : List.Forall₂ (Conjugate geo) axes moms) : ∀ a ∈ axes, a ∈ Bunch.axisList := by
  induction h with
  | nil => simp
  | @cons a m r t hc _ ih =>
    intro a' ha'
    rcases List.mem_cons.mp ha' with rfl | h
    · have := hc.momVar
      unfold Bunch.momVar at this
      split at this
      · rename_i h; simpa using h
      · cases this
    · exact ih a' h

/-! ### the amplitude of a hit -/

/-- The mass an emittance is divided by. -/
def MassFor (w : BWorld K) (b : Bunch K) (m : K) : Prop :=
  m ≠ 0 ∧ (if w.geo then m = 1 else FirstMass w b m)

/-- the emittance and the amplitudes of a bunch, with and without given covariances and means -/
theorem amp_ok {L : LinAlg K} (hL : L.Lawful) (E : Ext K) (w : BWorld K) (b : Bunch K)
    (hb : b.Normal w) (hmeans : b.means = [])
    (hW : ¬ |(b.hits.map w.weight).sum| < 1 / 1000000000) (vals : String → Nat → K)
    (axes moms cl : List String) (hax : axes ≠ []) (hmom : List.Forall₂ (Conjugate w.geo) axes moms)
    (hcl : cl = (axes.zip moms).flatMap fun p => [p.1, p.2])
    (hv : ∀ i ∈ b.hits, ∀ v ∈ cl, Bunch.hitNum E w i v = .ok (vals v i))
    (hD : 0 < (covOf b w vals cl).det) (m : K) (hm : MassFor w b m) :
    ∃ (amp : Nat → K) (eps : K) (M : Mat K) (d : List (String × PyVal K)),
      Bunch.covList w.geo axes = .ok cl ∧
      Bunch.covarianceMatrix E w b cl [] = .ok M ∧ Bunch.mean E w b cl = .ok d ∧
      Bunch.getEmittance L E w b axes none = .ok eps ∧ IsEmittance b w vals cl m eps ∧
      ∀ i ∈ b.hits, IsAmp b w vals cl eps i (amp i) ∧
        Bunch.getAmplitude L E w b i axes = .ok (amp i) ∧
        getAmplitudeWith L E w b i axes none [] = .ok (amp i) ∧
        getAmplitudeWith L E w b i axes (some M) d = .ok (amp i) := by
  obtain ⟨M, h1, h2, h3, h4⟩ := Bunch.emitCov_ok E w b hb hmeans hW vals cl hv
  have h0 : Bunch.covarianceMatrix E w b cl [] = .ok M := by
    simpa [Bunch.emitCov, Bunch.covPicker, hb.covs] using h1
  replace hcl : Bunch.covList w.geo axes = .ok cl := by rw [hcl]; exact covList_conj _ hmom
  have hlen := covList_length w.geo axes cl hcl
  have hn0 : cl.length ≠ 0 := by
    have := List.length_pos_of_ne_nil hax
    omega
  obtain ⟨r, c, e⟩ := M
  simp only at h2 h3 h4
  subst h2 h3
  have hMV : (Matrix.of fun i j : Fin cl.length => e i j) = covOf b w vals cl := by
    ext i j
    exact h4 _ _ i.2 j.2
  have hdet : (⟨cl.length, cl.length, e⟩ : Mat K).det = (covOf b w vals cl).det := by
    unfold Mat.det
    simp only
    rw [hMV]
  set M : Mat K := ⟨cl.length, cl.length, e⟩ with hM
  have hnn : ¬ M.det < 0 := by rw [hdet]; exact not_lt.mpr hD.le
  have hroot : L.root cl.length M.det ^ cl.length = (covOf b w vals cl).det := by
    rw [hL.root_pow _ _ hn0 (not_lt.mp hnn), hdet]
  have hroot0 := hL.root_nonneg cl.length M.det (not_lt.mp hnn)
  obtain ⟨hm0, hm1⟩ := hm
  have hem : ∀ cov, (cov = none ∨ cov = some M) →
      Bunch.getEmittance L E w b axes cov = .ok (L.root cl.length M.det / m) := by
    have hc : ∀ cov, (cov = none ∨ cov = some M) → Bunch.emitCov E w b cl cov = .ok M := by
      rintro cov (rfl | rfl)
      · exact h1
      · rfl
    have hcl' := hcl
    intro cov h
    cases hg : w.geo with
    | true =>
      rw [hg] at hcl'
      rw [hg, if_pos rfl] at hm1
      subst hm1
      simp only [Bunch.getEmittance, hcl', hc cov h, hM, ne_eq, not_true_eq_false, if_false, hn0,
        hg, if_true, div_one]
      rw [← hM, if_neg hnn]
    | false =>
      rw [hg] at hcl'
      rw [hg, if_neg (by simp)] at hm1
      replace hm1 := hm1.firstMass
      cases hh : b.hits with
      | nil => simp [Bunch.firstMass, hh] at hm1
      | cons x r =>
        simp only [Bunch.firstMass, hh, Except.ok.injEq] at hm1
        subst hm1
        simp only [Bunch.getEmittance, hcl', hc cov h, hM, ne_eq, not_true_eq_false, if_false,
          hn0, hg, hh, hm0, Bool.false_eq_true]
        rw [← hM, if_neg hnn]
  obtain ⟨N, hN⟩ := hL.inv_ok M rfl (by rw [hdet]; exact hD.ne')
  obtain ⟨hN1, hN2, hN3⟩ := hL.inv_mul M N rfl hN
  have hNr : N.rows = cl.length := hN1
  obtain ⟨d, hd1, hd2⟩ := Bunch.mean_ok E w b hb hmeans hW vals cl hv
  have hdne : d.isEmpty = false := by
    obtain ⟨v, hv⟩ := List.exists_mem_of_length_pos (Nat.pos_of_ne_zero hn0)
    have := hd2 v hv
    cases d with
    | nil => simp at this
    | cons => rfl
  obtain ⟨l, hl1, hl2⟩ := Bunch.numDict_ok d
    (Bunch.meanLoop_flt E w b hmeans cl [] d (by simp) hd1)
  have hget : ∀ i t, t < cl.length →
      (cl.map fun v => vals v i - Hit.lookup0 l v).getD t 0 = dev b w vals i (cl.getD t "") := by
    intro i t ht
    simp only [dev, List.getD_eq_getElem?_getD, List.getElem?_map, List.getElem?_eq_getElem ht,
      Option.map_some, Option.getD_some]
    rw [hl2 _ _ (hd2 _ (List.getElem_mem ht))]
  refine ⟨fun i => Bunch.quad N (cl.map fun v => vals v i - Hit.lookup0 l v) *
    (L.root cl.length M.det / m), L.root cl.length M.det / m, M, d, hcl, h0, hd1, hem none (.inl rfl),
    ⟨?_, ?_⟩, ?_⟩
  · rw [div_mul_cancel₀ _ hm0]; exact hroot0
  · rw [div_mul_cancel₀ _ hm0]; exact hroot
  intro i hi
  have hvec := get_vector_ok E (w.hview i) (fun v => vals v i) l cl (fun v hvm => hv i hi v hvm)
  refine ⟨?_, ?_, ?_, ?_⟩
  · -- the quadratic form
    let NN : Matrix (Fin cl.length) (Fin cl.length) K := Matrix.of fun j k => N.entry j k
    have hNM : NN * covOf b w vals cl = 1 := by
      rw [← hMV]
      ext j k
      have := hN3 j k j.2 k.2
      simp only [Mat.mul, hN2, hM, Finset.sum_range] at this
      rw [Matrix.mul_apply, Matrix.one_apply]
      simp only [NN, Matrix.of_apply]
      rw [this]
      simp [Fin.ext_iff]
    have hMN := mul_eq_one_comm.mp hNM
    let u : Fin cl.length → K := fun j => dev b w vals i (cl.getD j "")
    refine ⟨NN.mulVec u, ?_, ?_⟩
    · intro j
      have : ((covOf b w vals cl).mulVec (NN.mulVec u)) j = u j := by
        rw [Matrix.mulVec_mulVec, hMN, Matrix.one_mulVec]
      exact this
    · show Bunch.quad N _ * _ = _ * _
      rw [mul_comm (L.root cl.length M.det / m)]
      congr 1
      unfold Bunch.quad
      simp only [List.length_map, Finset.sum_range]
      apply Finset.sum_congr rfl
      intro j _
      rw [Matrix.mulVec, dotProduct, Finset.mul_sum]
      apply Finset.sum_congr rfl
      intro k _
      rw [hget i j j.2, hget i k k.2]
      simp only [NN, u, Matrix.of_apply]
      ring
  · simp only [Bunch.getAmplitude, hcl, hd1, hl1, hvec, h1, hN, hem (some M) (.inr rfl)]
  · simp only [getAmplitudeWith, hcl, bind, Except.bind, List.isEmpty_nil, if_true, meanPicker,
      hmeans, hd1, hl1, hvec, h1, List.length_map, ne_eq]
    rw [hem (some M) (.inr rfl), hN]
    simp only [hNr, not_true_eq_false, if_false]
  · simp only [getAmplitudeWith, hcl, bind, Except.bind, hdne, Bool.false_eq_true, if_false, hl1, hvec,
      Bunch.emitCov, List.length_map, ne_eq]
    rw [hem (some M) (.inr rfl), hN]
    simp only [hNr, not_true_eq_false, if_false]

theorem collectHits_ok (f : Nat → Except Err K) (val : Nat → K) (l : List Nat)
    (h : ∀ i ∈ l, f i = .ok (val i)) : collectHits f l = .ok (l.map val) := by
  induction l with
  | nil => rfl
  | cons i r ih =>
    simp [collectHits, h i (by simp), ih (fun j hj => h j (by simp [hj]))]

/-! ### moments of the amplitude -/

theorem changeVar_ok (f : String → Except Err K) (v : String) (x a : K) (h : f v = .ok x) (k : Nat)
    (c : K) : changeVar f (List.replicate k (v, .flt a)) c = .ok (c * (x - a) ^ k) := by
  induction k generalizing c with
  | zero => simp [changeVar]
  | succ k ih =>
    rw [List.replicate_succ, changeVar, h]
    simp only [Bunch.pySub]
    rw [ih, pow_succ]
    congr 1
    ring

theorem sumVar_ok (L : LinAlg K) (E : Ext K) (ev : String → Option (List String)) (w : BWorld K)
    (b : Bunch K) (v : String) (amp : Nat → K) (a : K) (k : Nat) (l : List Nat)
    (h : ∀ i ∈ l, hitVariable L E ev w b i v none [] = .ok (amp i)) (acc : K) :
    sumVar L E ev w b (List.replicate k (v, .flt a)) l acc =
      .ok (acc + (l.map fun i => w.weight i * (amp i - a) ^ k).sum) := by
  induction l generalizing acc with
  | nil => simp [sumVar]
  | cons i r ih =>
    rw [sumVar, changeVar_ok _ v (amp i) a (h i (by simp))]
    simp only
    rw [ih (fun j hj => h j (by simp [hj]))]
    simp only [List.map_cons, List.sum_cons, mul_one, BWorld.weight, HS.totalWeight_eq, mul_comm]
    rw [add_assoc]

theorem momentVar_ok (L : LinAlg K) (E : Ext K) (ev : String → Option (List String)) (w : BWorld K)
    (b : Bunch K) (hb : b.Normal w) (hW : ¬ |(b.hits.map w.weight).sum| < 1 / 1000000000)
    (v : String) (hA : isAmplitude v = true) (amp : Nat → K)
    (h : ∀ i ∈ b.hits, hitVariable L E ev w b i v none [] = .ok (amp i)) (k : Nat) (hk : k ≠ 0)
    (a : K) : momentVar L E ev w b (List.replicate k v) [(v, .flt a)] =
      .ok (wmean b.hits w.weight fun i => (amp i - a) ^ k) := by
  have hlook : getDblMap.lookup v = none := by
    cases hg : getDblMap.lookup v with
    | none => rfl
    | some g =>
      have hm := Hit.mem_of_lookup hg
      have : ∀ p ∈ getDblMap, isAmplitude p.1 = false := by decide +kernel
      rw [this _ hm] at hA
      cases hA
  have hcore : Bunch.coreMoment w b (List.replicate k v) [(v, .flt a)] = .error .ValueError := by
    obtain ⟨k, rfl⟩ := Nat.exists_eq_succ_of_ne_zero hk
    simp [Bunch.coreMoment, Bunch.floatDict, Bunchcore.getMoment, List.replicate_succ,
      Bunchcore.resolve, hlook]
  have hml : ∀ k, Bunch.meanList [(v, .flt a)] (List.replicate k v) =
      .ok (List.replicate k (.flt a : PyVal K)) := by
    intro k
    induction k with
    | zero => rfl
    | succ k ih => simp [List.replicate_succ, Bunch.meanList, ih]
  have hzip : (List.replicate k v).zip (List.replicate k (.flt a : PyVal K)) =
      List.replicate k (v, .flt a) := by
    simp [List.zip_replicate']
  have hi : Bunch.internalCov w b (List.replicate k v) = .ok none := by
    simp [Bunch.internalCov, hb.covs]
  have hW' : ¬ Bunch.weightTiny (Bunch.bunchWeight w b) := by rw [Bunch.bunchWeight_eq]; exact hW
  have hW0 := Bunch.not_tiny_ne hW'
  simp only [momentVar, hW', if_false, hi, hcore, hml, hzip, sumVar_ok L E ev w b v amp a k b.hits h,
    hW0, zero_add]
  rw [Bunch.bunchWeight_eq]
  rfl

/-! ### C102 -/

section
variable {L : LinAlg K} (hL : L.Lawful) (E : Ext K) (ev : String → Option (List String))
  (w : BWorld K) (b : Bunch K) (hb : b.Normal w) (hmeans : b.means = [])
  (hW : ¬ |(b.hits.map w.weight).sum| < 1 / 1000000000) (vals : String → Nat → K)
  (axes moms cl : List String) (hax : axes ≠ []) (hmom : List.Forall₂ (Conjugate w.geo) axes moms)
  (hcl : cl = (axes.zip moms).flatMap fun p => [p.1, p.2])
  (hv : ∀ i ∈ b.hits, ∀ v ∈ cl, Bunch.hitNum E w i v = .ok (vals v i))
  (hD : 0 < (covOf b w vals cl).det) (m : K) (hm : MassFor w b m)
  (v : String) (hask : AsksFor ev v axes)
include hL hb hmeans hW hax hmom hcl hv hD hm hask

/-- C102: list_get_hit_variable(['amplitude x y']) gives, for every hit of the bunch in turn, the
amplitude eps * u^T V^-1 u relative to the bunch, and get_hit_variable and get_amplitude give the same
value for each hit. -/
theorem C102_partial :
    ∃ (amp : Nat → K) (eps : K), Bunch.getEmittance L E w b axes none = .ok eps ∧
      IsEmittance b w vals cl m eps ∧ (∀ i ∈ b.hits, IsAmp b w vals cl eps i (amp i)) ∧
      listGetVar L E ev w b v = .ok (b.hits.map amp) ∧
      ∀ i ∈ b.hits, hitVariable L E ev w b i v none [] = .ok (amp i) ∧
        Bunch.getAmplitude L E w b i axes = .ok (amp i) := by
  obtain ⟨amp, eps, M, d, h0, h1, h2, h3, h4, h5⟩ :=
    amp_ok hL E w b hb hmeans hW vals axes moms cl hax hmom hcl hv hD m hm
  obtain ⟨hA, hC⟩ := hask.parts hax (conj_axes hmom)
  refine ⟨amp, eps, h3, h4, fun i hi => (h5 i hi).1, ?_, fun i hi => ⟨?_, (h5 i hi).2.1⟩⟩
  · simp only [listGetVar, hA, if_true, hC, h0, h1, h2]
    apply collectHits_ok
    intro i hi
    simp only [hitVariable, hA, if_true, hC]
    exact (h5 i hi).2.2.2
  · simp only [hitVariable, hA, if_true, hC]
    exact (h5 i hi).2.2.1

/-- C102: an amplitude cut sets the local weight of exactly the hits whose amplitude, relative to the
bunch before the cut, meets the comparator to 0, and changes nothing else. -/
theorem C102_cut (comp : K → K → Bool) (c : K) :
    ∃ (eps : K) (amp : Nat → K) (w' : BWorld K), IsEmittance b w vals cl m eps ∧
      (∀ i ∈ b.hits, IsAmp b w vals cl eps i (amp i)) ∧
      cutVar L E ev b (okComp comp) false false [(v, c)] w = (.ok (), w') ∧
      LocalCut w w' (fun j => j ∈ b.hits ∧ comp (amp j) c = true) := by
  obtain ⟨amp, eps, h1, h2, h3, h4, h5⟩ := C102_partial hL E ev w b hb hmeans hW vals axes moms cl hax
    hmom hcl hv hD m hm v hask
  obtain ⟨hA, _⟩ := hask.parts hax (conj_axes hmom)
  have hn : v ∉ Bunch.dblCutNames := by
    intro h
    have : ∀ v ∈ Bunch.dblCutNames, isAmplitude v = false := by decide +kernel
    rw [this v h] at hA
    cases hA
  obtain ⟨w', h6, h7⟩ := Bunch.pyCutLoop_local E comp c (b.hits.zip (b.hits.map amp)) w
  refine ⟨eps, amp, w', h2, h3, ?_, h7.congr ?_⟩
  · simp [cutVar, cutVar1, cutValue, hn, h4, h6]
  · intro j
    simp only [List.mem_zip_map]
    constructor
    · rintro ⟨x, ⟨h, rfl⟩, h'⟩; exact ⟨h, h'⟩
    · rintro ⟨h, h'⟩; exact ⟨_, ⟨h, rfl⟩, h'⟩

/-- C102: a global amplitude cut sets the weight of exactly the tracks with such a hit to 0. -/
theorem C102_global (hwf : (w.ctx w.hcur).WF) (comp : K → K → Bool) (c : K) :
    ∃ (eps : K) (amp : Nat → K) (w' : BWorld K), IsEmittance b w vals cl m eps ∧
      (∀ i ∈ b.hits, IsAmp b w vals cl eps i (amp i)) ∧
      cutVar L E ev b (okComp comp) false true [(v, c)] w = (.ok (), w') ∧
      GlobalCut w.hcur w w' (fun id => ∃ j ∈ b.hits, (w.hits j).trackId = id ∧
        comp (amp j) c = true) := by
  obtain ⟨amp, eps, h1, h2, h3, h4, h5⟩ := C102_partial hL E ev w b hb hmeans hW vals axes moms cl hax
    hmom hcl hv hD m hm v hask
  obtain ⟨hA, _⟩ := hask.parts hax (conj_axes hmom)
  have hn : v ∉ Bunch.dblCutNames := by
    intro h
    have : ∀ v ∈ Bunch.dblCutNames, isAmplitude v = false := by decide +kernel
    rw [this v h] at hA
    cases hA
  obtain ⟨w', h6, h7⟩ := Bunch.pyCutLoop_global E comp c (b.hits.zip (b.hits.map amp)) w hwf
  refine ⟨eps, amp, w', h2, h3, ?_, h7.congr ?_⟩
  · simp [cutVar, cutVar1, cutValue, hn, h4, h6]
  · intro j
    simp only [List.mem_zip_map]
    constructor
    · rintro ⟨k, x, ⟨h, rfl⟩, h'⟩; exact ⟨k, h, h'⟩
    · rintro ⟨k, h, h'⟩; exact ⟨k, _, ⟨h, rfl⟩, h'⟩

/-- C102: conditional_remove on an amplitude keeps exactly the hits whose amplitude relative to the
whole bunch does not meet the comparator, in order. -/
theorem C102_remove (comp : K → K → Bool) (c : K) :
    ∃ (eps : K) (amp : Nat → K) (b' : Bunch K), IsEmittance b w vals cl m eps ∧
      (∀ i ∈ b.hits, IsAmp b w vals cl eps i (amp i)) ∧
      removeVar L E ev w (okComp comp) [(v, c)] b = (.ok (), b') ∧
      b'.hits = b.hits.filter (fun i => ! comp (amp i) c) ∧ b'.Sync := by
  obtain ⟨amp, eps, h1, h2, h3, h4, h5⟩ := C102_partial hL E ev w b hb hmeans hW vals axes moms cl hax
    hmom hcl hv hD m hm v hask
  refine ⟨eps, amp, { b with hits := b.hits.filter (fun i => ! comp (amp i) c)
                             core := Bunch.refill (b.hits.filter (fun i => ! comp (amp i) c)) },
    h2, h3, by simp only [removeVar, removeVar1, h4, Bunch.keepLoop_ok], rfl, Bunch.refill_eq _⟩

/-- C102: the mean of the amplitude over the bunch, bunch.mean(['amplitude x y']), is twice the number
of axes times the emittance. -/
theorem C102_mean :
    ∃ eps, IsEmittance b w vals cl m eps ∧ Bunch.getEmittance L E w b axes none = .ok eps ∧
      meanVar L E ev w b v = .ok (.flt (2 * axes.length * eps)) := by
  obtain ⟨amp, eps, h1, h2, h3, h4, h5⟩ := C102_partial hL E ev w b hb hmeans hW vals axes moms cl hax
    hmom hcl hv hD m hm v hask
  obtain ⟨hA, _⟩ := hask.parts hax (conj_axes hmom)
  obtain ⟨amp', eps', h6, h7, h8⟩ := C58_mean_amplitude hL E w b hb hmeans hW vals axes moms cl hax hmom
    hcl hv hD (by
      obtain ⟨hm0, hm1⟩ := hm
      cases hg : w.geo with
      | true => exact .inl rfl
      | false => rw [hg, if_neg (by simp)] at hm1; exact .inr ⟨m, hm1, hm0⟩)
  rw [h1, Except.ok.injEq] at h6
  subst h6
  refine ⟨eps, h2, h1, ?_⟩
  have hmom1 := momentVar_ok L E ev w b hb hW v hA amp (fun i hi => (h5 i hi).1) 1 (by simp) 0
  simp only [List.replicate_one] at hmom1
  simp only [meanVar, hmeans, List.lookup_nil, hmom1]
  rw [← h8]
  have : ∀ i ∈ b.hits, amp' i = amp i := fun i hi => by
    have := h7 i hi
    rw [(h5 i hi).2, Except.ok.injEq] at this
    exact this.symm
  simp only [wmean, pow_one, sub_zero]
  congr 4
  apply List.map_congr_left
  intro i hi
  rw [this i hi]

/-- C102: with value_is_nsigma_bool the amplitude cut is at `n` standard deviations of the amplitude
over the bunch (its mean is 2 * len(axes) * emittance), not at `n` standard deviations above the
mean. -/
theorem C102_nsigma (hwt : ∀ i ∈ b.hits, 0 ≤ w.weight i) (comp : K → K → Bool) (n : K) :
    ∃ (eps var : K) (amp : Nat → K) (w' : BWorld K), IsEmittance b w vals cl m eps ∧
      (∀ i ∈ b.hits, IsAmp b w vals cl eps i (amp i)) ∧
      var = wmean b.hits w.weight (fun i => (amp i - 2 * axes.length * eps) ^ 2) ∧ 0 ≤ var ∧
      cutVar L E ev b (okComp comp) true false [(v, n)] w = (.ok (), w') ∧
      LocalCut w w' (fun j => j ∈ b.hits ∧ comp (amp j) (n * E.sqrt var) = true) := by
  obtain ⟨eps, e1, e2, e3⟩ := C102_mean hL E ev w b hb hmeans hW vals axes moms cl hax
    hmom hcl hv hD m hm v hask
  obtain ⟨amp, eps', h1, h2, h3, h4, h5⟩ := C102_partial hL E ev w b hb hmeans hW vals axes moms cl hax
    hmom hcl hv hD m hm v hask
  rw [e2, Except.ok.injEq] at h1
  subst h1
  obtain ⟨hA, _⟩ := hask.parts hax (conj_axes hmom)
  have hn : v ∉ Bunch.dblCutNames := by
    intro h
    have : ∀ v ∈ Bunch.dblCutNames, isAmplitude v = false := by decide +kernel
    rw [this v h] at hA
    cases hA
  have hmom2 := momentVar_ok L E ev w b hb hW v hA amp (fun i hi => (h5 i hi).1) 2 (by simp)
    (2 * axes.length * eps)
  simp only [List.replicate_succ, List.replicate_zero] at hmom2
  have hvar : 0 ≤ wmean b.hits w.weight (fun i => (amp i - 2 * axes.length * eps) ^ 2) := by
    unfold wmean
    apply div_nonneg
    · apply List.sum_nonneg
      simp only [List.mem_map]
      rintro x ⟨i, hi, rfl⟩
      exact mul_nonneg (hwt i hi) (sq_nonneg _)
    · apply List.sum_nonneg
      simp only [List.mem_map]
      rintro x ⟨i, hi, rfl⟩
      exact hwt i hi
  obtain ⟨w', h6, h7⟩ := Bunch.pyCutLoop_local E comp
    (n * E.sqrt (wmean b.hits w.weight (fun i => (amp i - 2 * axes.length * eps) ^ 2)))
    (b.hits.zip (b.hits.map amp)) w
  refine ⟨eps, _, amp, w', h2, h3, rfl, hvar, ?_, h7.congr ?_⟩
  · simp [cutVar, cutVar1, cutValue, e3, hmom2, not_lt.mpr hvar, hn, h4, h6]
  · intro j
    simp only [List.mem_zip_map]
    constructor
    · rintro ⟨x, ⟨h, rfl⟩, h'⟩; exact ⟨h, h'⟩
    · rintro ⟨h, h'⟩; exact ⟨_, ⟨h, rfl⟩, h'⟩

end

/-- C102: a name that is not one of the axes x, y, z, t, ct is refused with KeyError, and nothing is
cut or removed. -/
theorem C102_unknown (L : LinAlg K) (E : Ext K) (ev : String → Option (List String)) (w : BWorld K)
    (b : Bunch K) (names : List String) (hne : names ≠ []) (hsp : ∀ a ∈ names, ' ' ∉ a.toList)
    (hev : ev (" ".intercalate names) = none)
    (hbad : ∃ a ∈ names, a ∉ ["x", "y", "z", "t", "ct"]) (comp : K → K → Option Bool)
    (isGlobal : Bool) (c : K) :
    listGetVar L E ev w b ("amplitude " ++ " ".intercalate names) = .error .KeyError ∧
    cutVar L E ev b comp false isGlobal [("amplitude " ++ " ".intercalate names, c)] w =
      (.error .KeyError, w) ∧
    removeVar L E ev w comp [("amplitude " ++ " ".intercalate names, c)] b =
      (.error .KeyError, b) := by
  obtain ⟨hA, hP⟩ := amplitude_append (" ".intercalate names)
  have hC : convertAxes ev (" ".intercalate names) = .error .KeyError := by
    unfold convertAxes
    rw [hev]
    have : (splitSpace (" ".intercalate names).toList).map String.ofList = names := by
      rw [String.toList_intercalate]
      rw [show (" " : String).toList = [' '] from rfl, splitSpace_intercalate _ (by simpa using hne)
        (by simp only [List.mem_map]; rintro p ⟨a, h, rfl⟩; exact hsp a h)]
      simp
    simp only [this]
    rw [if_neg]
    rw [List.all_eq_true]
    intro h
    obtain ⟨a, ha, ha'⟩ := hbad
    exact ha' (by simpa [Bunch.axisList] using h a ha)
  have hl : listGetVar L E ev w b ("amplitude " ++ " ".intercalate names) = .error .KeyError := by
    simp only [listGetVar, hA, if_true, hP, hC]
  have hn : ("amplitude " ++ " ".intercalate names) ∉ Bunch.dblCutNames := by
    intro h
    have : ∀ v ∈ Bunch.dblCutNames, isAmplitude v = false := by decide +kernel
    rw [this _ h] at hA
    cases hA
  refine ⟨hl, ?_, ?_⟩
  · simp only [cutVar, cutVar1, cutValue, Bool.false_eq_true, if_false, List.contains_eq_mem, hn,
      decide_false, hl]
  · simp only [removeVar, removeVar1, hl]

/-! ### cutting twice -/

/-- eight hits: (x, px) = (1, 0), (-1, 0), (0, 1), (0, -1), (20/21, 0), (-20/21, 0), (0, 4/3), (0, -4/3) -/
noncomputable def twiceWorld : BWorld ℝ :=
  { hits := fun i => ⟨fun v => match v with
      | .x => [1, -1, 0, 0, 20 / 21, -20 / 21, 0, 0].getD i 0
      | .px => [0, 0, 1, -1, 0, 0, 4 / 3, -4 / 3].getD i 0
      | .pz => 2 | .mass => 1 | .local_weight => 1 | _ => 0, fun _ => 0⟩
    ctx := fun _ => WC.new, hcur := 0, bcur := 0, geo := false }

/-- the bunch of the eight hits -/
def twiceBunch : Bunch ℝ := ⟨[0, 1, 2, 3, 4, 5, 6, 7], [0, 1, 2, 3, 4, 5, 6, 7].map some, none, []⟩

/-- the values of x and px of the eight hits -/
noncomputable def twiceVals (v : String) (i : Nat) : ℝ :=
  if v = "x" then (twiceWorld.hits i).d .x else (twiceWorld.hits i).d .px

theorem twice_weight (i : Nat) : twiceWorld.weight i = 1 := by
  simp [BWorld.weight, BWorld.hview, HS.userWeight, twiceWorld, WC.new, WC.getWeight, WMap.find]

theorem twice_values (i : Nat) : ∀ v ∈ ["x", "px"],
    Bunch.hitNum realExt twiceWorld i v = .ok (twiceVals v i) := by
  intro v hv
  simp only [List.mem_cons, List.not_mem_nil, or_false] at hv
  rcases hv with rfl | rfl <;> rfl

/-- the determinant in two variables -/
theorem det_two (b : Bunch ℝ) (w : BWorld ℝ) (vals : String → Nat → ℝ) (u v : String) :
    (covOf b w vals [u, v]).det =
      wcov b w vals u u * wcov b w vals v v - wcov b w vals u v * wcov b w vals v u :=
  Matrix.det_fin_two _

/-- the amplitude for a diagonal covariance matrix -/
theorem amp_diag (b : Bunch ℝ) (w : BWorld ℝ) (vals : String → Nat → ℝ) (u v : String) (A B e eps : ℝ)
    (hA : 0 < A) (hB : 0 < B) (hu : wcov b w vals u u = A) (hv : wcov b w vals v v = B)
    (huv : wcov b w vals u v = 0) (he : 0 ≤ e) (he2 : e ^ 2 = A * B)
    (h : IsEmittance b w vals [u, v] 1 eps) (i : Nat) (a : ℝ) (ha : IsAmp b w vals [u, v] eps i a) :
    a = e * (dev b w vals i u ^ 2 / A + dev b w vals i v ^ 2 / B) := by
  have hvu : wcov b w vals v u = 0 := by rw [wcov_comm, huv]
  obtain ⟨h1, h2⟩ := h
  rw [det_two, hu, hv, huv, hvu] at h2
  simp only [mul_one, List.length_cons, List.length_nil] at h1 h2
  have heps : eps = e := by
    have : eps ^ 2 = e ^ 2 := by rw [he2]; simpa using h2
    exact (pow_left_inj₀ h1 he (by norm_num)).mp this
  subst heps
  refine ha.unique (by rw [det_two, hu, hv, huv, hvu]; nlinarith [mul_pos hA hB]) ?_
  refine ⟨![dev b w vals i u / A, dev b w vals i v / B], ?_, ?_⟩
  · intro j
    have hs : ∀ f : Fin 2 → ℝ, ∑ k : Fin 2, f k = f 0 + f 1 := Fin.sum_univ_two
    refine (hs _).trans ?_
    have : j = (0 : Fin 2) ∨ j = (1 : Fin 2) := by
      rcases j with ⟨j, hj⟩
      simp only [List.length_cons, List.length_nil] at hj
      interval_cases j
      · exact .inl rfl
      · exact .inr rfl
    rcases this with rfl | rfl
    · show wcov b w vals u u * (dev b w vals i u / A) + wcov b w vals u v * (dev b w vals i v / B) = _
      rw [hu, huv]
      show _ = dev b w vals i u
      field_simp
      ring
    · show wcov b w vals v u * (dev b w vals i u / A) + wcov b w vals v v * (dev b w vals i v / B) = _
      rw [hv, hvu]
      show _ = dev b w vals i v
      field_simp
      ring
  · congr 1
    have hs : ∀ f : Fin 2 → ℝ, ∑ k : Fin 2, f k = f 0 + f 1 := Fin.sum_univ_two
    refine Eq.symm ((hs _).trans ?_)
    show dev b w vals i u * (dev b w vals i u / A) + dev b w vals i v * (dev b w vals i v / B) = _
    ring

theorem twice_cov : wcov twiceBunch twiceWorld twiceVals "x" "x" = 841 / 1764 ∧
    wcov twiceBunch twiceWorld twiceVals "px" "px" = 25 / 36 ∧
    wcov twiceBunch twiceWorld twiceVals "x" "px" = 0 := by
  have hx : ∀ i, twiceVals "x" i = [1, -1, 0, 0, 20 / 21, -20 / 21, 0, 0].getD i 0 := fun i => rfl
  have hp : ∀ i, twiceVals "px" i = [0, 0, 1, -1, 0, 0, 4 / 3, -4 / 3].getD i 0 := fun i => rfl
  simp only [wcov, wmoment, wmean, twiceBunch, hx, hp, List.map_cons, List.map_nil, twice_weight]
  norm_num
theorem twice_det : 0 < (covOf twiceBunch twiceWorld twiceVals ["x", "px"]).det := by
  rw [det_two, twice_cov.1, twice_cov.2.1, twice_cov.2.2]; norm_num
theorem twice_sum : ¬ |(twiceBunch.hits.map twiceWorld.weight).sum| < 1 / 1000000000 := by
  simp only [twiceBunch, List.map_cons, List.map_nil, twice_weight]; norm_num
theorem twice_conj : List.Forall₂ (Conjugate twiceWorld.geo) ["x"] ["px"] :=
  .cons (by simp [Conjugate, twiceWorld]) .nil
theorem twice_mass : MassFor twiceWorld twiceBunch 1 := ⟨one_ne_zero, ⟨0, rfl, rfl⟩⟩

/-! cases: the eight hits -/

example : ∃ eps, IsEmittance twiceBunch twiceWorld twiceVals ["x", "px"] 1 eps ∧
    Bunch.getEmittance realLin realExt twiceWorld twiceBunch ["x"] none = .ok eps ∧
    meanVar realLin realExt (fun _ => none) twiceWorld twiceBunch "amplitude x" =
      .ok (.flt (2 * (1 : ℕ) * eps)) :=
  C102_mean realLin_lawful realExt (fun _ => none) twiceWorld twiceBunch ⟨rfl, rfl, rfl⟩ rfl twice_sum
    twiceVals ["x"] ["px"] ["x", "px"] (by simp) twice_conj rfl (fun i _ => twice_values i) twice_det 1
    twice_mass "amplitude x" (.inl ⟨by decide, rfl⟩)

/-- with a Python list of axes, two standard deviations -/
example : ∃ (eps var : ℝ) (amp : Nat → ℝ) (w' : BWorld ℝ),
    IsEmittance twiceBunch twiceWorld twiceVals ["x", "px"] 1 eps ∧
    (∀ i ∈ twiceBunch.hits, IsAmp twiceBunch twiceWorld twiceVals ["x", "px"] eps i (amp i)) ∧
    var = wmean twiceBunch.hits twiceWorld.weight (fun i => (amp i - 2 * (1 : ℕ) * eps) ^ 2) ∧ 0 ≤ var ∧
    cutVar realLin realExt (fun s => if s = "['x']" then some ["x"] else none) twiceBunch
      (okComp fun a b => decide (b < a)) true false [("amplitude ['x']", 2)] twiceWorld = (.ok (), w') ∧
    LocalCut twiceWorld w' (fun j => j ∈ twiceBunch.hits ∧
      decide (2 * realExt.sqrt var < amp j) = true) :=
  C102_nsigma realLin_lawful realExt _ twiceWorld twiceBunch ⟨rfl, rfl, rfl⟩ rfl twice_sum
    twiceVals ["x"] ["px"] ["x", "px"] (by simp) twice_conj rfl (fun i _ => twice_values i) twice_det 1
    twice_mass "amplitude ['x']" (.inr ⟨"['x']", by decide, by simp⟩)
    (fun i _ => by rw [twice_weight]; norm_num) _ 2

example : ∃ (eps : ℝ) (amp : Nat → ℝ) (b' : Bunch ℝ),
    IsEmittance twiceBunch twiceWorld twiceVals ["x", "px"] 1 eps ∧
    (∀ i ∈ twiceBunch.hits, IsAmp twiceBunch twiceWorld twiceVals ["x", "px"] eps i (amp i)) ∧
    removeVar realLin realExt (fun _ => none) twiceWorld (okComp fun a b => decide (b < a))
      [("amplitude x", 13 / 10)] twiceBunch = (.ok (), b') ∧
    b'.hits = twiceBunch.hits.filter (fun i => ! decide (13 / 10 < amp i)) ∧ b'.Sync :=
  C102_remove realLin_lawful realExt (fun _ => none) twiceWorld twiceBunch ⟨rfl, rfl, rfl⟩ rfl twice_sum
    twiceVals ["x"] ["px"] ["x", "px"] (by simp) twice_conj rfl (fun i _ => twice_values i) twice_det 1
    twice_mass "amplitude x" (.inl ⟨by decide, rfl⟩) _ _

example : cutVar realLin realExt (fun _ => none) twiceBunch (okComp fun a b => decide (b < a)) false true
    [("amplitude x w", 1)] twiceWorld = (.error .KeyError, twiceWorld) :=
  (C102_unknown realLin realExt (fun _ => none) twiceWorld twiceBunch ["x", "w"] (by simp)
    (by decide +kernel) rfl ⟨"w", by simp, by simp⟩ _ _ 1).2.1

example : ∃ (eps : ℝ) (amp : Nat → ℝ) (w' : BWorld ℝ),
    IsEmittance twiceBunch twiceWorld twiceVals ["x", "px"] 1 eps ∧
    (∀ i ∈ twiceBunch.hits, IsAmp twiceBunch twiceWorld twiceVals ["x", "px"] eps i (amp i)) ∧
    cutVar realLin realExt (fun _ => none) twiceBunch (okComp fun a b => decide (b < a)) false true
      [("amplitude x", 13 / 10)] twiceWorld = (.ok (), w') ∧
    GlobalCut 0 twiceWorld w' (fun id => ∃ j ∈ twiceBunch.hits, (twiceWorld.hits j).trackId = id ∧
      decide (13 / 10 < amp j) = true) :=
  C102_global realLin_lawful realExt (fun _ => none) twiceWorld twiceBunch ⟨rfl, rfl, rfl⟩ rfl twice_sum
    twiceVals ["x"] ["px"] ["x", "px"] (by simp) twice_conj rfl (fun i _ => twice_values i) twice_det 1
    twice_mass "amplitude x" (.inl ⟨by decide, rfl⟩) WC.WF.new _ _

/-- the amplitude greater than 13/10 is cut -/
noncomputable def above (a c : ℝ) : Bool := decide (c < a)

/-- C102 is false when the same amplitude cut is expected to change nothing the second time: hits with
amplitude below the limit before the first cut are above it afterwards. -/
theorem C102_twice_false : ∃ (w w' w'' : BWorld ℝ) (b : Bunch ℝ) (i : Nat), i ∈ b.hits ∧
    (∃ a, a ≤ 13 / 10 ∧ Bunch.getAmplitude realLin realExt w b i ["x"] = .ok a) ∧
    cutVar realLin realExt (fun _ => none) b (okComp above) false false [("amplitude x", 13 / 10)] w =
      (.ok (), w') ∧
    cutVar realLin realExt (fun _ => none) b (okComp above) false false [("amplitude x", 13 / 10)] w' =
      (.ok (), w'') ∧
    w'.weight i = 1 ∧ w''.weight i = 0 := by
  have hask : AsksFor (fun _ => none) "amplitude x" ["x"] := .inl ⟨by decide, rfl⟩
  have hx : ∀ i, twiceVals "x" i = [1, -1, 0, 0, 20 / 21, -20 / 21, 0, 0].getD i 0 := fun i => rfl
  have hp : ∀ i, twiceVals "px" i = [0, 0, 1, -1, 0, 0, 4 / 3, -4 / 3].getD i 0 := fun i => rfl
  -- before the first cut
  have c1 := twice_cov
  have hD1 := twice_det
  have hW1 := twice_sum
  have d1 : ∀ i, dev twiceBunch twiceWorld twiceVals i "x" = twiceVals "x" i ∧
      dev twiceBunch twiceWorld twiceVals i "px" = twiceVals "px" i := by
    intro i
    simp only [dev, wmean, twiceBunch, hx, hp, List.map_cons, List.map_nil, twice_weight]
    norm_num
  have hc1 := twice_conj
  have hm1 := twice_mass
  obtain ⟨eps, amp, w', e1, e2, e3, e4⟩ := C102_cut realLin_lawful realExt (fun _ => none) twiceWorld
    twiceBunch ⟨rfl, rfl, rfl⟩ rfl hW1 twiceVals ["x"] ["px"] ["x", "px"] (by simp) hc1 rfl
    (fun i _ => twice_values i) hD1 1 hm1 "amplitude x" hask above (13 / 10)
  obtain ⟨amp1, eps1, g1, g2, g3, g4, g5⟩ := C102_partial realLin_lawful realExt (fun _ => none)
    twiceWorld twiceBunch ⟨rfl, rfl, rfl⟩ rfl hW1 twiceVals ["x"] ["px"] ["x", "px"] (by simp) hc1 rfl
    (fun i _ => twice_values i) hD1 1 hm1 "amplitude x" hask
  have a1 : ∀ i ∈ twiceBunch.hits, amp i = 145 / 252 * (twiceVals "x" i ^ 2 / (841 / 1764) +
      twiceVals "px" i ^ 2 / (25 / 36)) := by
    intro i hi
    have := amp_diag _ _ _ "x" "px" (841 / 1764) (25 / 36) (145 / 252) eps (by norm_num) (by norm_num)
      c1.1 c1.2.1 c1.2.2 (by norm_num) (by norm_num) e1 i (amp i) (e2 i hi)
    rw [this, (d1 i).1, (d1 i).2]
  have a1' : amp1 2 = 145 / 252 * (twiceVals "x" 2 ^ 2 / (841 / 1764) +
      twiceVals "px" 2 ^ 2 / (25 / 36)) := by
    have := amp_diag _ _ _ "x" "px" (841 / 1764) (25 / 36) (145 / 252) eps1 (by norm_num) (by norm_num)
      c1.1 c1.2.1 c1.2.2 (by norm_num) (by norm_num) g2 2 (amp1 2) (g3 2 (by simp [twiceBunch]))
    rw [this, (d1 2).1, (d1 2).2]
  have hS : ∀ j, (j ∈ twiceBunch.hits ∧ above (amp j) (13 / 10) = true) ↔ j = 6 ∨ j = 7 := by
    intro j
    constructor
    · rintro ⟨hj, h⟩
      rw [a1 j hj] at h
      simp only [twiceBunch, List.mem_cons, List.not_mem_nil, or_false] at hj
      rcases hj with rfl | rfl | rfl | rfl | rfl | rfl | rfl | rfl <;>
        first | exact .inl rfl | exact .inr rfl |
          (exfalso; simp only [above, decide_eq_true_eq, hx, hp] at h; norm_num at h)
    · rintro (rfl | rfl)
      · refine ⟨by simp [twiceBunch], ?_⟩
        rw [a1 6 (by simp [twiceBunch])]
        simp only [above, decide_eq_true_eq, hx, hp]
        norm_num
      · refine ⟨by simp [twiceBunch], ?_⟩
        rw [a1 7 (by simp [twiceBunch])]
        simp only [above, decide_eq_true_eq, hx, hp]
        norm_num
  have hcut := e4.congr hS
  -- before the second cut
  have hw' : ∀ j, w'.weight j = if j = 6 ∨ j = 7 then 0 else 1 := by
    intro j
    obtain ⟨o1, o2, _⟩ := C23_local_observed realExt twiceWorld w' _ hcut j
    by_cases h : j = 6 ∨ j = 7
    · rw [if_pos h]; exact o1 h
    · rw [if_neg h, (o2 h).1]; exact twice_weight j
  have hv' : ∀ i, ∀ v ∈ ["x", "px"], Bunch.hitNum realExt w' i v = .ok (twiceVals v i) := by
    intro i v hv
    rw [(C23_local_observed realExt twiceWorld w' _ hcut i).2.2 v
      (by rintro rfl; simp at hv) (by rintro rfl; simp at hv)]
    exact twice_values i v hv
  have hgeo : w'.geo = false := hcut.geo
  have c2 : wcov twiceBunch w' twiceVals "x" "x" = 841 / 1323 ∧
      wcov twiceBunch w' twiceVals "px" "px" = 1 / 3 ∧
      wcov twiceBunch w' twiceVals "x" "px" = 0 := by
    simp only [wcov, wmoment, wmean, twiceBunch, hx, hp, List.map_cons, List.map_nil, hw']
    norm_num
  have hD2 : 0 < (covOf twiceBunch w' twiceVals ["x", "px"]).det := by
    rw [det_two, c2.1, c2.2.1, c2.2.2]; norm_num
  have hW2 : ¬ |(twiceBunch.hits.map w'.weight).sum| < 1 / 1000000000 := by
    simp only [twiceBunch, List.map_cons, List.map_nil, hw']; norm_num
  have d2 : ∀ i, dev twiceBunch w' twiceVals i "x" = twiceVals "x" i ∧
      dev twiceBunch w' twiceVals i "px" = twiceVals "px" i := by
    intro i
    simp only [dev, wmean, twiceBunch, hx, hp, List.map_cons, List.map_nil, hw']
    norm_num
  have hN2 : Bunch.Normal w' twiceBunch := ⟨rfl, by rw [hcut.hcur, hcut.bcur]; rfl, rfl⟩
  have hm2 : MassFor w' twiceBunch 1 := by
    refine ⟨one_ne_zero, ?_⟩
    rw [hgeo]
    refine ⟨0, rfl, ?_⟩
    rw [hcut.kept 0 (by simp)]
    rfl
  obtain ⟨eps', amp', w'', f1, f2, f3, f4⟩ := C102_cut realLin_lawful realExt (fun _ => none) w'
    twiceBunch hN2 rfl hW2 twiceVals ["x"] ["px"] ["x", "px"] (by simp)
    (.cons (by rw [hgeo]; simp [Conjugate]) .nil) rfl
    (fun i _ => hv' i) hD2 1 hm2 "amplitude x" hask above (13 / 10)
  have a2 : amp' 2 = 29 / 63 * (twiceVals "x" 2 ^ 2 / (841 / 1323) + twiceVals "px" 2 ^ 2 / (1 / 3)) := by
    have := amp_diag _ _ _ "x" "px" (841 / 1323) (1 / 3) (29 / 63) eps' (by norm_num) (by norm_num)
      c2.1 c2.2.1 c2.2.2 (by norm_num) (by norm_num) f1 2 (amp' 2) (f2 2 (by simp [twiceBunch]))
    rw [this, (d2 2).1, (d2 2).2]
  refine ⟨twiceWorld, w', w'', twiceBunch, 2, by simp [twiceBunch],
    ⟨amp1 2, ?_, (g5 2 (by simp [twiceBunch])).2⟩, e3, f3, by rw [hw']; simp, ?_⟩
  · rw [a1']; simp only [hx, hp]; norm_num
  · refine (C23_local_observed realExt w' w'' _ f4 2).1 ⟨by simp [twiceBunch], ?_⟩
    rw [a2]
    simp only [above, decide_eq_true_eq, hx, hp]
    norm_num

end Xboa.Amp
