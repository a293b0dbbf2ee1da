import Verif.Props.Amplitude
import Verif.Props.BunchTransform
import Mathlib.Tactic.FieldSimp
import Mathlib.Tactic.LinearCombination
/-
C113: emittance and amplitudes are invariants of linear maps of determinant 1 or -1; the optics functions
follow the transfer matrix.
-/
set_option linter.unusedSectionVars false
namespace Xboa.Invariants
open Amp Finset
variable {K : Type} [Field K] [LinearOrder K] [IsStrictOrderedRing K]

/-! ### specification -/

/-- The conjugate pairs of variables that a hit holds. -/
def pairs : List (String × String) := [("x", "px"), ("y", "py"), ("z", "pz"), ("t", "energy")]

/-- The phase space variables of these pairs. -/
def phaseSpace (ps : List (String × String)) : List String := ps.flatMap fun p => [p.1, p.2]

/-- The transfer matrix, as a square matrix. -/
def square (n : Nat) (R : Mat K) : Matrix (Fin n) (Fin n) K := Matrix.of fun i j => R.entry i j

/-- The optics functions after a map with matrix R, by the usual rule for (beta, alpha, gamma).  The
functions of xboa are for geometric variables, while the map is one of position and momentum: p and p'
are the mean momenta before and after the map. -/
def FollowsMatrix (R : Mat K) (p p' beta alpha gamma beta' alpha' gamma' : K) : Prop :=
  let r := R.entry
  let (b0, a0, g0) := (beta / p, alpha, gamma * p)
  beta' / p' = r 0 0 ^ 2 * b0 - 2 * (r 0 0 * r 0 1) * a0 + r 0 1 ^ 2 * g0 ∧
  alpha' = -(r 0 0 * r 1 0) * b0 + (r 0 0 * r 1 1 + r 0 1 * r 1 0) * a0 - r 0 1 * r 1 1 * g0 ∧
  gamma' * p' = r 1 0 ^ 2 * b0 - 2 * (r 1 0 * r 1 1) * a0 + r 1 1 ^ 2 * g0

/-! ### covariances and deviations after the map -/

section
variable {E : Ext K} {w w' : BWorld K} {b : Bunch K} (cl : List String) (hnd : cl.Nodup) (R : Mat K)
  (T O : List (String × K)) (vals : String → Nat → K) (hww : w'.weight = w.weight)
  (hS : (b.hits.map w.weight).sum ≠ 0)
include hnd hww hS

theorem dev_moved (i a : Nat) (ha : a < cl.length) :
    dev b w' (movedVals cl R T O vals) i (cl.getD a "") =
      ∑ k ∈ range cl.length, R.entry a k * dev b w vals i (cl.getD k "") := by
  have hmv : movedVals cl R T O vals (cl.getD a "") = fun h => affine cl R T O (fun u => vals u h) a := by
    funext h; rw [movedVals, idxOf_getD hnd ha]
  have hmean := wmean_affine b.hits w.weight hS cl.length (fun j => R.entry a j)
    (fun j => vals (cl.getD j "")) (fun j => dictValue O (cl.getD j ""))
    (dictValue T (cl.getD a "") + dictValue O (cl.getD a ""))
  simp only [dev, hmv, hww]
  simp only [affine, add_assoc]
  rw [hmean, add_sub_add_right_eq_sub, ← Finset.sum_sub_distrib]
  apply Finset.sum_congr rfl
  intro k _
  ring

theorem cov_moved : covOf b w' (movedVals cl R T O vals) cl =
    square cl.length R * covOf b w vals cl * (square cl.length R).transpose := by
  ext i j
  have hd : ∀ a : Fin cl.length, (fun h => movedVals cl R T O vals (cl.getD a "") h -
      wmean b.hits w'.weight (movedVals cl R T O vals (cl.getD a ""))) =
      fun h => ∑ k ∈ range cl.length, R.entry a k *
        (vals (cl.getD k "") h - wmean b.hits w.weight (vals (cl.getD k ""))) := by
    intro a
    funext h
    exact dev_moved cl hnd R T O vals hww hS h a a.2
  have h1 : covOf b w' (movedVals cl R T O vals) cl i j =
      ∑ k ∈ range cl.length, ∑ l ∈ range cl.length,
        R.entry i k * wcov b w vals (cl.getD k "") (cl.getD l "") * R.entry j l := by
    simp only [covOf, Matrix.of_apply, wcov]
    rw [hd i, hd j, hww]
    exact wmoment_bilinear b.hits w.weight cl.length _ _ _
  rw [h1]
  simp only [Matrix.mul_apply, Matrix.transpose_apply, square, covOf, Matrix.of_apply, Finset.sum_mul]
  rw [Finset.sum_comm]
  simp only [Finset.sum_range]

end

theorem det_moved {n : Nat} (A V : Matrix (Fin n) (Fin n) K) :
    (A * V * A.transpose).det = A.det ^ 2 * V.det := by
  rw [Matrix.det_mul, Matrix.det_mul, Matrix.det_transpose]; ring

/-- the quadratic form of the inverse is an invariant -/
theorem form_moved {n : Nat} (A V : Matrix (Fin n) (Fin n) K) (hA : A.det ≠ 0) (u y y' : Fin n → K)
    (hV : V.det ≠ 0) (hy : V.mulVec y = u) (hy' : (A * V * A.transpose).mulVec y' = A.mulVec u) :
    dotProduct (A.mulVec u) y' = dotProduct u y := by
  have hinjA := Matrix.mulVec_injective_iff_isUnit.mpr
    ((Matrix.isUnit_iff_isUnit_det _).mpr (isUnit_iff_ne_zero.mpr hA))
  have hinjV := Matrix.mulVec_injective_iff_isUnit.mpr
    ((Matrix.isUnit_iff_isUnit_det _).mpr (isUnit_iff_ne_zero.mpr hV))
  have h1 : V.mulVec (A.transpose.mulVec y') = u := by
    apply hinjA
    rw [← hy', Matrix.mulVec_mulVec, Matrix.mulVec_mulVec, Matrix.mul_assoc]
  have h2 : A.transpose.mulVec y' = y := hinjV (h1.trans hy.symm)
  rw [← h2, Matrix.dotProduct_mulVec, Matrix.vecMul_transpose]

/-! ### C113 -/

theorem conj_of_pairs {ps : List (String × String)} (hp : ∀ p ∈ ps, p ∈ pairs) :
    List.Forall₂ (Conjugate false) (ps.map (·.1)) (ps.map (·.2)) := by
  induction ps with
  | nil => exact .nil
  | cons p r ih =>
    refine .cons ?_ (ih fun q hq => hp q (by simp [hq]))
    have := hp p (by simp)
    simp only [pairs, List.mem_cons, List.not_mem_nil, or_false] at this
    rcases this with rfl | rfl | rfl | rfl <;> simp [Conjugate]

theorem phaseSpace_zip (ps : List (String × String)) :
    phaseSpace ps = ((ps.map (·.1)).zip (ps.map (·.2))).flatMap fun p => [p.1, p.2] := by
  have : (ps.map (·.1)).zip (ps.map (·.2)) = ps := by
    induction ps with
    | nil => rfl
    | cons p r ih => simp [ih]
  rw [this, phaseSpace]

theorem phaseSpace_mem {ps : List (String × String)} {v : String} (h : v ∈ phaseSpace ps) :
    ∃ p ∈ ps, v = p.1 ∨ v = p.2 := by
  simpa [phaseSpace] using h

theorem phaseSpace_coord {ps : List (String × String)} (hp : ∀ p ∈ ps, p ∈ pairs) :
    ∀ v ∈ phaseSpace ps, v ∈ coordNames ∧ v ≠ "mass" := by
  intro v hv
  obtain ⟨p, h1, h2⟩ := phaseSpace_mem hv
  have := hp p h1
  simp only [pairs, List.mem_cons, List.not_mem_nil, or_false] at this
  rcases this with rfl | rfl | rfl | rfl <;> rcases h2 with rfl | rfl <;> exact ⟨by decide, by decide⟩

theorem phaseSpace_nodup {ps : List (String × String)} (hp : ∀ p ∈ ps, p ∈ pairs) (hnd : ps.Nodup) :
    (phaseSpace ps).Nodup := by
  induction ps with
  | nil => exact List.nodup_nil
  | cons p r ih =>
    rw [List.nodup_cons] at hnd
    have ih := ih (fun q hq => hp q (by simp [hq])) hnd.2
    show ([p.1, p.2] ++ phaseSpace r).Nodup
    rw [List.nodup_append]
    have hdis : ∀ p ∈ pairs, ∀ q ∈ pairs, p ≠ q → p.1 ≠ q.1 ∧ p.1 ≠ q.2 ∧ p.2 ≠ q.1 ∧ p.2 ≠ q.2 := by decide
    have hself : ∀ p ∈ pairs, p.1 ≠ p.2 := by decide
    have h0 := hp p (by simp)
    refine ⟨by simp [hself p h0], ih, ?_⟩
    intro a ha c hc hac
    subst hac
    obtain ⟨q, hq, hq2⟩ := phaseSpace_mem hc
    have hne : p ≠ q := fun h => hnd.1 (h ▸ hq)
    obtain ⟨d1, d2, d3, d4⟩ := hdis p h0 q (hp q (by simp [hq])) hne
    simp only [List.mem_cons, List.not_mem_nil, or_false] at ha
    rcases ha with rfl | rfl
    · rcases hq2 with h | h
      · exact d1 h
      · exact d2 h
    · rcases hq2 with h | h
      · exact d3 h
      · exact d4 h

theorem mass_same {E : Ext K} {w w' : BWorld K} {b : Bunch K} {m : K}
    (h : ∀ i, (Hit.get E "mass" (w'.hview i)).1 = (Hit.get E "mass" (w.hview i)).1)
    (hm : FirstMass w b m) : FirstMass w' b m := by
  obtain ⟨i, h1, h2⟩ := hm
  refine ⟨i, h1, ?_⟩
  have := h i
  have hg : ∀ s : HS K, (Hit.get E "mass" s).1 = .ok (.flt (s.core.d .mass)) := fun s => rfl
  rw [hg, hg] at this
  injection this with this
  injection this with this
  rw [← h2]
  exact this

section
variable {L : LinAlg K} (hL : L.Lawful) (E : Ext K) (w : BWorld K) (b : Bunch K)
  (hb : b.Normal w) (hmeans : b.means = []) (hgeo : w.geo = false)
  (hwf : (w.ctx w.hcur).WF) (hnodup : b.hits.Nodup)
  (hW : ¬ |(b.hits.map w.weight).sum| < 1 / 1000000000) (vals : String → Nat → K)
  (ps : List (String × String)) (hne : ps ≠ []) (hps : ∀ p ∈ ps, p ∈ pairs) (hpsn : ps.Nodup)
  (hv : ∀ i ∈ b.hits, ∀ v ∈ phaseSpace ps, Bunch.hitNum E w i v = .ok (vals v i))
  (hD : 0 < (covOf b w vals (phaseSpace ps)).det) (m : K) (hm : FirstMass w b m ∧ m ≠ 0)
  (R : Mat K) (hr : R.rows = (phaseSpace ps).length) (hc : R.cols = (phaseSpace ps).length)
  (hR : (square (phaseSpace ps).length R).det ≠ 0) (T O : List (String × K))
include hL hb hmeans hgeo hwf hnodup hW hne hps hpsn hv hD hm hr hc hR

/-- **C113, all invertible maps**: `bunch.abelian_transformation(vars, R, T, O)` with the phase space
variables of some axes and any invertible R, T and O succeeds; the 2n-th power of the emittance in these
axes is multiplied by det(R)^2, and the ratio of amplitude and emittance of every hit stays the same. -/
theorem C113_scaling :
    ∃ (w' : BWorld K) (eps eps' : K) (amp amp' : Nat → K),
      Bunch.abelian E (phaseSpace ps) R T O "" b.hits w = (.ok (), w') ∧
      Bunch.getEmittance L E w b (ps.map (·.1)) none = .ok eps ∧
      Bunch.getEmittance L E w' b (ps.map (·.1)) none = .ok eps' ∧
      (eps' * m) ^ (phaseSpace ps).length =
        (square (phaseSpace ps).length R).det ^ 2 * (eps * m) ^ (phaseSpace ps).length ∧
      0 < eps * m ∧ 0 < eps' * m ∧
      ∀ i ∈ b.hits, Bunch.getAmplitude L E w b i (ps.map (·.1)) = .ok (amp i) ∧
        Bunch.getAmplitude L E w' b i (ps.map (·.1)) = .ok (amp' i) ∧ amp' i * eps = amp i * eps' := by
  set cl := phaseSpace ps with hcl
  have hnd := phaseSpace_nodup hps hpsn
  have hco := phaseSpace_coord hps
  have hmom := conj_of_pairs hps
  have hz := phaseSpace_zip ps
  rw [← hgeo] at hmom
  have hax : ps.map (·.1) ≠ [] := by simpa using hne
  have hn0 : cl.length ≠ 0 := by
    cases hp : ps with
    | nil => exact absurd hp hne
    | cons p r => simp [hcl, hp, phaseSpace]
  obtain ⟨w', g1, g2, g3, g4⟩ := C59_hits E w b hwf hnodup cl hnd (fun v hv => (hco v hv).1) R hr hc T O vals hv
  have hww : w'.weight = w.weight := funext g2.weight
  have hS : (b.hits.map w.weight).sum ≠ 0 := by
    intro h; apply hW; rw [h]; norm_num
  have hv' : ∀ i ∈ b.hits, ∀ v ∈ cl, Bunch.hitNum E w' i v = .ok (movedVals cl R T O vals v i) := by
    intro i hi v hvv
    have := g3 i hi _ (List.idxOf_lt_length_of_mem hvv)
    rwa [getD_idxOf hvv] at this
  have hW' : ¬ |(b.hits.map w'.weight).sum| < 1 / 1000000000 := by rw [g2.sum]; exact hW
  have hgeo' : w'.geo = false := g2.geo.trans hgeo
  have hmass' : FirstMass w' b m := mass_same (fun i => g4 i "mass" (by decide)
    (fun h => (hco "mass" h).2 rfl)) hm.1
  have hcov := cov_moved (b := b) cl hnd R T O vals hww hS
  have hdet := congrArg Matrix.det hcov
  rw [det_moved] at hdet
  have hR2 : 0 < (square cl.length R).det ^ 2 := by positivity
  have hD' : 0 < (covOf b w' (movedVals cl R T O vals) cl).det := by
    rw [hdet]; exact mul_pos hR2 hD
  have hmf : MassFor w b m := ⟨hm.2, by rw [hgeo]; exact hm.1⟩
  have hmf' : MassFor w' b m := ⟨hm.2, by rw [hgeo']; exact hmass'⟩
  obtain ⟨amp, eps, M, d, _, _, _, a4, a5, a6⟩ := amp_ok hL E w b hb hmeans hW vals _ _ cl hax hmom hz hv hD m hmf
  obtain ⟨amp', eps', M', d', _, _, _, c4, c5, c6⟩ := amp_ok hL E w' b (g2.normal hb) hmeans hW' _ _ _ cl hax
    (by rw [g2.geo]; exact hmom) hz hv' hD' m hmf'
  have hpow : (eps' * m) ^ cl.length = (square cl.length R).det ^ 2 * (eps * m) ^ cl.length := by
    rw [c5.2, a5.2, hdet]
  have hpos : ∀ e : K, 0 ≤ e → 0 < e ^ cl.length → 0 < e := by
    intro e he h
    rcases he.lt_or_eq with h1 | h1
    · exact h1
    · rw [← h1, zero_pow hn0] at h; exact absurd h (lt_irrefl _)
  refine ⟨w', eps, eps', amp, amp', g1, a4, c4, hpow, hpos _ a5.1 (by rw [a5.2]; exact hD),
    hpos _ c5.1 (by rw [c5.2]; exact hD'), fun i hi => ?_⟩
  obtain ⟨⟨y, y1, y2⟩, y3, _, _⟩ := a6 i hi
  obtain ⟨⟨y', z1, z2⟩, z3, _, _⟩ := c6 i hi
  refine ⟨y3, z3, ?_⟩
  have hu : ∀ a : Fin cl.length, dev b w' (movedVals cl R T O vals) i (cl.getD a "") =
      (square cl.length R).mulVec (fun k => dev b w vals i (cl.getD k "")) a := by
    intro a
    rw [dev_moved cl hnd R T O vals hww hS i a a.2]
    simp only [Matrix.mulVec, dotProduct, square, Matrix.of_apply, Finset.sum_range]
  have hform := form_moved (square cl.length R) (covOf b w vals cl) hR
    (fun k => dev b w vals i (cl.getD k "")) y y' hD.ne' (funext y1) (by
      rw [← hcov]
      funext j
      rw [← hu j]
      exact z1 j)
  rw [y2, z2]
  simp only [hu]
  have h3 : ∑ j, (square cl.length R).mulVec (fun k : Fin cl.length => dev b w vals i (cl.getD k "")) j * y' j =
      ∑ j : Fin cl.length, dev b w vals i (cl.getD j "") * y j := hform
  rw [h3]
  ring

omit hR in
/-- **C113, emittance and amplitudes are invariants**: for a matrix of determinant 1 or -1, any translation
and any origin, the emittance of the bunch and the amplitude of every hit are after the transformation
what they were before. -/
theorem C113_invariant (h1 : (square (phaseSpace ps).length R).det = 1 ∨ (square (phaseSpace ps).length R).det = -1) :
    ∃ (w' : BWorld K) (eps : K) (amp : Nat → K),
      Bunch.abelian E (phaseSpace ps) R T O "" b.hits w = (.ok (), w') ∧
      Bunch.getEmittance L E w b (ps.map (·.1)) none = .ok eps ∧
      Bunch.getEmittance L E w' b (ps.map (·.1)) none = .ok eps ∧
      ∀ i ∈ b.hits, Bunch.getAmplitude L E w b i (ps.map (·.1)) = .ok (amp i) ∧
        Bunch.getAmplitude L E w' b i (ps.map (·.1)) = .ok (amp i) := by
  have hR : (square (phaseSpace ps).length R).det ≠ 0 := by
    rcases h1 with h | h <;> rw [h] <;> norm_num
  obtain ⟨w', eps, eps', amp, amp', e1, e2, e3, e4, e5, e6, e7⟩ :=
    C113_scaling hL E w b hb hmeans hgeo hwf hnodup hW vals ps hne hps hpsn hv hD m hm R hr hc hR T O
  have hsq : (square (phaseSpace ps).length R).det ^ 2 = 1 := by
    rcases h1 with h | h <;> rw [h] <;> norm_num
  rw [hsq, one_mul] at e4
  have hn0 : (phaseSpace ps).length ≠ 0 := by
    cases hp : ps with
    | nil => exact absurd hp hne
    | cons p r => simp [phaseSpace]
  have heq : eps' * m = eps * m := (pow_left_inj₀ e6.le e5.le hn0).mp e4
  have heps : eps' = eps := mul_right_cancel₀ hm.2 heq
  subst heps
  have h0 : eps' ≠ 0 := by
    intro h; rw [h, zero_mul] at e5; exact absurd e5 (lt_irrefl _)
  refine ⟨w', eps', amp, e1, e2, e3, fun i hi => ⟨(e7 i hi).1, ?_⟩⟩
  rw [(e7 i hi).2.1, mul_right_cancel₀ h0 (e7 i hi).2.2]

end

/-! ### lattices -/

/-- One element of a lattice: matrix, translation and origin. -/
structure Element (K : Type) where
  R : Mat K
  T : List (String × K)
  O : List (String × K)

/-- The bunch moved through the elements one after the other with abelian_transformation. -/
def through (E : Ext K) (vars : List String) (hits : List Nat) : List (Element K) → BWorld K → Except Err Unit × BWorld K
  | [], w => (.ok (), w)
  | e :: r, w =>
    match Bunch.abelian E vars e.R e.T e.O "" hits w with
    | (.error x, w') => (.error x, w')
    | (.ok _, w') => through E vars hits r w'

/-- **C113, lattices**: the emittance of the bunch and the amplitude of every hit are the same after any
number of elements, each with a matrix of determinant 1 or -1, any translation and any origin. -/
theorem C113_lattice {L : LinAlg K} (hL : L.Lawful) (E : Ext K) (b : Bunch K) (hmeans : b.means = [])
    (hnodup : b.hits.Nodup) (ps : List (String × String)) (hne : ps ≠ []) (hps : ∀ p ∈ ps, p ∈ pairs)
    (hpsn : ps.Nodup) (m : K) (lattice : List (Element K))
    (hlat : ∀ e ∈ lattice, e.R.rows = (phaseSpace ps).length ∧ e.R.cols = (phaseSpace ps).length ∧
      ((square (phaseSpace ps).length e.R).det = 1 ∨ (square (phaseSpace ps).length e.R).det = -1)) :
    ∀ (w : BWorld K) (vals : String → Nat → K), b.Normal w → w.geo = false → (w.ctx w.hcur).WF →
      ¬ |(b.hits.map w.weight).sum| < 1 / 1000000000 →
      (∀ i ∈ b.hits, ∀ v ∈ phaseSpace ps, Bunch.hitNum E w i v = .ok (vals v i)) →
      0 < (covOf b w vals (phaseSpace ps)).det → FirstMass w b m ∧ m ≠ 0 →
      ∃ (w' : BWorld K) (eps : K) (amp : Nat → K), through E (phaseSpace ps) b.hits lattice w = (.ok (), w') ∧
        Bunch.getEmittance L E w b (ps.map (·.1)) none = .ok eps ∧
        Bunch.getEmittance L E w' b (ps.map (·.1)) none = .ok eps ∧
        ∀ i ∈ b.hits, Bunch.getAmplitude L E w b i (ps.map (·.1)) = .ok (amp i) ∧
          Bunch.getAmplitude L E w' b i (ps.map (·.1)) = .ok (amp i) := by
  induction lattice with
  | nil =>
    intro w vals hb hgeo _ hW hv hD hm
    have hmom := conj_of_pairs hps
    rw [← hgeo] at hmom
    obtain ⟨amp, eps, M, d, _, _, _, a4, a5, a6⟩ := amp_ok hL E w b hb hmeans hW vals _ _ _
      (by simpa using hne) hmom (phaseSpace_zip ps) hv hD m ⟨hm.2, by rw [hgeo]; exact hm.1⟩
    exact ⟨w, eps, amp, rfl, a4, a4, fun i hi => ⟨(a6 i hi).2.1, (a6 i hi).2.1⟩⟩
  | cons e r ih =>
    intro w vals hb hgeo hwf hW hv hD hm
    obtain ⟨hr, hc, h1⟩ := hlat e (by simp)
    obtain ⟨w1, eps, amp, e1, e2, e3, e4⟩ := C113_invariant hL E w b hb hmeans hgeo hwf hnodup hW vals ps hne
      hps hpsn hv hD m hm e.R hr hc e.T e.O h1
    have hnd := phaseSpace_nodup hps hpsn
    have hco := phaseSpace_coord hps
    obtain ⟨w1', g1, g2, g3, g4⟩ := C59_hits E w b hwf hnodup _ hnd (fun v hv => (hco v hv).1) e.R hr hc e.T
      e.O vals hv
    have hw : w1' = w1 := (Prod.ext_iff.mp (g1.symm.trans e1)).2
    subst hw
    have hww : w1'.weight = w.weight := funext g2.weight
    have hS : (b.hits.map w.weight).sum ≠ 0 := by
      intro h; apply hW; rw [h]; norm_num
    have hdet := congrArg Matrix.det (cov_moved (b := b) _ hnd e.R e.T e.O vals hww hS)
    rw [det_moved] at hdet
    have hR2 : (square (phaseSpace ps).length e.R).det ^ 2 = 1 := by
      rcases h1 with h | h <;> rw [h] <;> norm_num
    rw [hR2, one_mul] at hdet
    obtain ⟨w2, eps', amp', f1, f2, f3, f4⟩ := ih (fun e he => hlat e (by simp [he])) w1'
      (movedVals (phaseSpace ps) e.R e.T e.O vals) (g2.normal hb) (g2.geo.trans hgeo)
      (by rw [g2.ctx, g2.hcur]; exact hwf) (by rw [g2.sum]; exact hW)
      (by
        intro i hi v hvv
        have := g3 i hi _ (List.idxOf_lt_length_of_mem hvv)
        rwa [getD_idxOf hvv] at this)
      (by rw [hdet]; exact hD)
      ⟨mass_same (fun i => g4 i "mass" (by decide) (fun h => (hco "mass" h).2 rfl)) hm.1, hm.2⟩
    refine ⟨w2, eps, amp, ?_, e2, ?_, fun i hi => ⟨(e4 i hi).1, ?_⟩⟩
    · simp only [through, e1, f1]
    · rw [f3, ← f2, e3]
    · rw [(f4 i hi).2, ← (f4 i hi).1, (e4 i hi).2]

/-! ### optics functions -/

theorem hitNum_p (E : Ext K) (w : BWorld K) (i : Nat) : ∃ p, Bunch.hitNum E w i "p" = .ok p := ⟨_, rfl⟩

private theorem ok_bind {α β : Type} (a : α) (f : α → Except Err β) : (Except.ok a >>= f) = f a := rfl

/-- the optics functions of a bunch in one plane, normalised variables -/
theorem optics_values {L : LinAlg K} (E : Ext K) (w : BWorld K) (b : Bunch K)
    (hb : b.Normal w) (hmeans : b.means = [])
    (hW : ¬ |(b.hits.map w.weight).sum| < 1 / 1000000000) (vals : String → Nat → K) (a q : String)
    (hq : Conjugate false a q) (hv : ∀ i ∈ b.hits, ∀ v ∈ [a, q], Bunch.hitNum E w i v = .ok (vals v i))
    (mass e p : K) (hm : FirstMass w b mass ∧ mass ≠ 0) (he : Bunch.getEmittance L E w b [a] none = .ok e)
    (he0 : e ≠ 0) (hp : Bunch.meanOf E w b "p" = .ok p) (hp0 : p ≠ 0) :
    Bunch.getBeta L E w b [a] false = .ok (wcov b w vals a a * (p / (e * mass))) ∧
    Bunch.getAlpha L E w b [a] false = .ok (-(wcov b w vals a q / (e * mass))) ∧
    Bunch.getGamma L E w b [a] false = .ok (wcov b w vals q q / (p * mass) / e) := by
  have hq' := hq.momVar
  have hf := hm.1.firstMass
  have hm0 := hm.2
  have va : ∀ i ∈ b.hits, Bunch.hitNum E w i a = .ok (vals a i) := fun i hi => hv i hi a (by simp)
  have vq : ∀ i ∈ b.hits, Bunch.hitNum E w i q = .ok (vals q i) := fun i hi => hv i hi q (by simp)
  have caa := Bunch.cov2_ok E w b hb hmeans hW vals a a va va
  have cqq := Bunch.cov2_ok E w b hb hmeans hW vals q q vq vq
  have caq := Bunch.cov2_ok E w b hb hmeans hW vals a q va vq
  refine ⟨?_, ?_, ?_⟩
  · simp [Bunch.getBeta, he, Bunch.sumAxes, caa, Bunch.pyDiv, ok_bind, he0, hp, hf, hm0]
  · simp [Bunch.getAlpha, he, Bunch.sumAxes, Bunch.axisCov, hq', caq, Bunch.pyDiv, ok_bind, he0, hf, hm0]
  · simp [Bunch.getGamma, he, Bunch.sumAxes, Bunch.momVariance, hq', cqq, Bunch.pyDiv, ok_bind, he0, hp,
      hf, hm0, hp0]

/-- **C113, the optics functions follow the transfer matrix**: in one plane, for a matrix R of determinant
1 or -1, any translation and any origin, and mean momenta that are not 0. -/
theorem C113_optics {L : LinAlg K} (hL : L.Lawful) (E : Ext K) (w : BWorld K) (b : Bunch K)
    (hb : b.Normal w) (hmeans : b.means = []) (hgeo : w.geo = false)
    (hwf : (w.ctx w.hcur).WF) (hnodup : b.hits.Nodup)
    (hW : ¬ |(b.hits.map w.weight).sum| < 1 / 1000000000) (vals : String → Nat → K)
    (a q : String) (haq : (a, q) ∈ pairs)
    (hv : ∀ i ∈ b.hits, ∀ v ∈ [a, q], Bunch.hitNum E w i v = .ok (vals v i))
    (hD : 0 < wcov b w vals a a * wcov b w vals q q - wcov b w vals a q ^ 2)
    (m : K) (hm : FirstMass w b m ∧ m ≠ 0) (R : Mat K) (hr : R.rows = 2) (hc : R.cols = 2)
    (h1 : R.entry 0 0 * R.entry 1 1 - R.entry 0 1 * R.entry 1 0 = 1 ∨
      R.entry 0 0 * R.entry 1 1 - R.entry 0 1 * R.entry 1 0 = -1) (T O : List (String × K)) :
    ∃ (w' : BWorld K) (p p' : K), Bunch.abelian E [a, q] R T O "" b.hits w = (.ok (), w') ∧
      Bunch.meanOf E w b "p" = .ok p ∧ Bunch.meanOf E w' b "p" = .ok p' ∧
      (p ≠ 0 → p' ≠ 0 → ∃ be al ga be' al' ga',
        Bunch.getBeta L E w b [a] false = .ok be ∧ Bunch.getAlpha L E w b [a] false = .ok al ∧
        Bunch.getGamma L E w b [a] false = .ok ga ∧
        Bunch.getBeta L E w' b [a] false = .ok be' ∧ Bunch.getAlpha L E w' b [a] false = .ok al' ∧
        Bunch.getGamma L E w' b [a] false = .ok ga' ∧
        FollowsMatrix R p p' be al ga be' al' ga') := by
  have hps : ∀ x ∈ [(a, q)], x ∈ pairs := by simpa using haq
  have hcl : phaseSpace [(a, q)] = [a, q] := rfl
  have hnd : [a, q].Nodup := hcl ▸ phaseSpace_nodup hps (by simp)
  have hco := phaseSpace_coord hps
  have hq : Conjugate false a q := by
    have := conj_of_pairs hps
    simpa using this
  have hsum : ∀ f : Fin 2 → K, ∑ k : Fin 2, f k = f 0 + f 1 := Fin.sum_univ_two
  have hD' : 0 < (covOf b w vals [a, q]).det := by
    have : (covOf b w vals [a, q]).det =
        wcov b w vals a a * wcov b w vals q q - wcov b w vals a q * wcov b w vals q a := Matrix.det_fin_two _
    rw [this, wcov_comm b w vals q a, ← sq]
    exact hD
  have hdet : (square 2 R).det = R.entry 0 0 * R.entry 1 1 - R.entry 0 1 * R.entry 1 0 := Matrix.det_fin_two _
  obtain ⟨w', eps, eps', amp, amp', e1, e2, e3, e4, e5, e6, e7⟩ :=
    C113_scaling hL E w b hb hmeans hgeo hwf hnodup hW vals [(a, q)] (by simp) hps (by simp) hv hD' m hm R hr hc
      (by
        show (square 2 R).det ≠ 0
        rw [hdet]
        rcases h1 with h | h <;> rw [h] <;> norm_num) T O
  have hsq : (square (phaseSpace [(a, q)]).length R).det ^ 2 = 1 := by
    show (square 2 R).det ^ 2 = 1
    rw [hdet]
    rcases h1 with h | h <;> rw [h] <;> norm_num
  rw [hsq, one_mul] at e4
  have heq : eps' * m = eps * m := (pow_left_inj₀ e6.le e5.le (show (2 : Nat) ≠ 0 by decide)).mp e4
  have heps : eps' = eps := mul_right_cancel₀ hm.2 heq
  subst heps
  have he0 : eps' ≠ 0 := by
    intro h; rw [h, zero_mul] at e5; exact absurd e5 (lt_irrefl _)
  obtain ⟨w'', g1, g2, g3, g4⟩ := C59_hits E w b hwf hnodup [a, q] hnd (fun v hv => (hco v hv).1) R hr hc T O vals hv
  have hw : w'' = w' := by
    have := g1.symm.trans e1
    exact (Prod.ext_iff.mp this).2
  subst hw
  have hww : w''.weight = w.weight := funext g2.weight
  have hS : (b.hits.map w.weight).sum ≠ 0 := by
    intro h; apply hW; rw [h]; norm_num
  have hv' : ∀ i ∈ b.hits, ∀ v ∈ [a, q], Bunch.hitNum E w'' i v = .ok (movedVals [a, q] R T O vals v i) := by
    intro i hi v hvv
    have := g3 i hi _ (List.idxOf_lt_length_of_mem hvv)
    rwa [getD_idxOf hvv] at this
  have hW' : ¬ |(b.hits.map w''.weight).sum| < 1 / 1000000000 := by rw [g2.sum]; exact hW
  have hmass' : FirstMass w'' b m := mass_same (fun i => g4 i "mass" (by decide)
    (fun h => (hco "mass" h).2 rfl)) hm.1
  choose pv hpv using hitNum_p E w
  choose pv' hpv' using hitNum_p E w''
  have hp := Bunch.meanOf_ok E w b hb hmeans hW (fun _ i => pv i) "p" (fun i _ => hpv i)
  have hp' := Bunch.meanOf_ok E w'' b (g2.normal hb) hmeans hW' (fun _ i => pv' i) "p" (fun i _ => hpv' i)
  refine ⟨w'', _, _, e1, hp, hp', fun p0 p0' => ?_⟩
  obtain ⟨o1, o2, o3⟩ := optics_values E w b hb hmeans hW vals a q hq hv m eps' _ hm e2 he0 hp p0
  obtain ⟨n1, n2, n3⟩ := optics_values E w'' b (g2.normal hb) hmeans hW' _ a q hq hv' m eps' _
    ⟨hmass', hm.2⟩ e3 he0 hp' p0'
  refine ⟨_, _, _, _, _, _, o1, o2, o3, n1, n2, n3, ?_⟩
  have hcov := cov_moved (b := b) [a, q] hnd R T O vals hww hS
  have ent : ∀ i j : Fin 2, wcov b w'' (movedVals [a, q] R T O vals) ([a, q].getD i "") ([a, q].getD j "") =
      (R.entry i 0 * wcov b w vals a a + R.entry i 1 * wcov b w vals a q) * R.entry j 0 +
      (R.entry i 0 * wcov b w vals a q + R.entry i 1 * wcov b w vals q q) * R.entry j 1 := by
    intro i j
    have h := congrFun (congrFun hcov i) j
    refine h.trans ?_
    rw [Matrix.mul_apply]
    refine (hsum _).trans ?_
    rw [Matrix.mul_apply, Matrix.mul_apply]
    refine (congrArg₂ (· + ·) (congrArg₂ (· * ·) (hsum _) rfl) (congrArg₂ (· * ·) (hsum _) rfl)).trans ?_
    show (R.entry i 0 * wcov b w vals a a + R.entry i 1 * wcov b w vals q a) * R.entry j 0 +
      (R.entry i 0 * wcov b w vals a q + R.entry i 1 * wcov b w vals q q) * R.entry j 1 = _
    rw [wcov_comm b w vals q a]
  have xaa := ent 0 0
  have xaq := ent 0 1
  have xqq := ent 1 1
  simp only [Fin.val_zero, Fin.val_one, List.getD_cons_zero, List.getD_cons_succ] at xaa xaq xqq
  rw [xaa, xaq, xqq]
  have hm0 := hm.2
  generalize wmean b.hits w.weight (fun i => pv i) = p at *
  generalize wmean b.hits w''.weight (fun i => pv' i) = p' at *
  generalize wcov b w vals a a = A
  generalize wcov b w vals a q = B
  generalize wcov b w vals q q = C
  refine ⟨?_, ?_, ?_⟩
  · field_simp; ring
  · field_simp; ring
  · field_simp; ring

/-! ### example -/

/-- A shear and a swap of x and px: determinants 1 and -1. -/
noncomputable def exLattice : List (Element ℝ) :=
  [⟨⟨2, 2, fun i j => if i = j then 1 else if i < j then 3 else 0⟩, [("x", 5)], []⟩,
   ⟨⟨2, 2, fun i j => if i = j then 0 else 1⟩, [], [("px", 1)]⟩]

/-- the eight hits of `Amp.twiceWorld` -/
example : ∃ (w' : BWorld ℝ) (eps : ℝ) (amp : Nat → ℝ),
    through realExt ["x", "px"] twiceBunch.hits exLattice twiceWorld = (.ok (), w') ∧
    Bunch.getEmittance realLin realExt twiceWorld twiceBunch ["x"] none = .ok eps ∧
    Bunch.getEmittance realLin realExt w' twiceBunch ["x"] none = .ok eps ∧
    ∀ i ∈ twiceBunch.hits, Bunch.getAmplitude realLin realExt twiceWorld twiceBunch i ["x"] = .ok (amp i) ∧
      Bunch.getAmplitude realLin realExt w' twiceBunch i ["x"] = .ok (amp i) := by
  refine C113_lattice realLin_lawful realExt twiceBunch rfl (by decide) [("x", "px")] (by simp) (by decide)
    (by simp) 1 exLattice ?_ twiceWorld twiceVals ⟨rfl, rfl, rfl⟩ rfl WC.WF.new ?_
    (fun i _ v hv => twice_values i v hv) ?_ ⟨⟨0, rfl, rfl⟩, one_ne_zero⟩
  · intro e he
    simp only [exLattice, List.mem_cons, List.not_mem_nil, or_false] at he
    rcases he with rfl | rfl
    · refine ⟨rfl, rfl, .inl ?_⟩
      refine (Matrix.det_fin_two _).trans ?_
      show (1 : ℝ) * 1 - 3 * 0 = 1
      norm_num
    · refine ⟨rfl, rfl, .inr ?_⟩
      refine (Matrix.det_fin_two _).trans ?_
      show (0 : ℝ) * 0 - 1 * 1 = -1
      norm_num
  · exact twice_sum
  · exact twice_det

/-- the optics functions of the same hits after a shear -/
example : ∃ (w' : BWorld ℝ) (p p' : ℝ), Bunch.abelian realExt ["x", "px"]
      ⟨2, 2, fun i j => if i = j then 1 else if i < j then 3 else 0⟩ [("x", 5)] [] "" twiceBunch.hits twiceWorld =
        (.ok (), w') ∧
      Bunch.meanOf realExt twiceWorld twiceBunch "p" = .ok p ∧ Bunch.meanOf realExt w' twiceBunch "p" = .ok p' ∧
      (p ≠ 0 → p' ≠ 0 → ∃ be al ga be' al' ga' : ℝ, Bunch.getBeta realLin realExt twiceWorld twiceBunch ["x"] false = .ok be ∧
        Bunch.getBeta realLin realExt w' twiceBunch ["x"] false = .ok be' ∧
        be' / p' = be / p - 6 * al + 9 * (ga * p) ∧ al' = al - 3 * (ga * p) ∧ ga' * p' = ga * p) := by
  obtain ⟨w', p, p', h1, h2, h3, h4⟩ := C113_optics realLin_lawful realExt twiceWorld twiceBunch ⟨rfl, rfl, rfl⟩ rfl
    rfl WC.WF.new (by decide) twice_sum twiceVals "x" "px" (by decide) (fun i _ v hv => twice_values i v hv)
    (by
      obtain ⟨c1, c2, c3⟩ := twice_cov
      rw [c1, c2, c3]; norm_num) 1 ⟨⟨0, rfl, rfl⟩, one_ne_zero⟩
    ⟨2, 2, fun i j => if i = j then 1 else if i < j then 3 else 0⟩ rfl rfl (.inl (by norm_num)) [("x", 5)] []
  refine ⟨w', p, p', h1, h2, h3, fun hp hp' => ?_⟩
  obtain ⟨be, al, ga, be', al', ga', b1, _, _, b2, _, _, f1, f2, f3⟩ := h4 hp hp'
  refine ⟨be, al, ga, be', al', ga', b1, b2, ?_, ?_, ?_⟩
  · rw [f1]; norm_num
  · rw [f2]; norm_num
  · rw [f3]; norm_num

end Xboa.Invariants
