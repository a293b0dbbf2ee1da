import Verif.Model.DecoupledEmittance
import Verif.Props.Amplitude
import Verif.Props.BunchTransform
import Mathlib.Analysis.Matrix.Spectrum
import Mathlib.Data.List.NodupEquivFin
import Mathlib.Tactic.LinearCombination
import Mathlib.Tactic.NormNum
import Mathlib.Tactic.FinCases
/-
C121: Bunch.get_decoupled_emittance.
-/
set_option linter.unusedSectionVars false
namespace Xboa.Decoupling
open Amp
variable {K : Type} [Field K] [LinearOrder K] [IsStrictOrderedRing K]

/-! ### specification -/

/-- What is assumed of the eigenvalues of numpy.linalg.eig for symmetric matrices: there are as many as rows,
and they are the zeros of the characteristic polynomial with their multiplicities.  Their order is left open. -/
def EigLaw (eig : Mat K → Except Err (List K)) : Prop :=
  ∀ (n : Nat) (M : Mat K), M.rows = n → M.cols = n → (∀ i j, i < n → j < n → M.entry i j = M.entry j i) →
    ∃ ev : List K, eig M = .ok ev ∧ ev.length = n ∧
      ∀ t : K, (Matrix.of fun i j : Fin n => (if i = j then t else 0) - M.entry i j).det =
        (ev.map fun l => t - l).prod

/-! ### lists of axes -/

/-- the order of the axes only changes the order of the variables -/
theorem covList_perm (geo : Bool) {a a' : List String} (h : a.Perm a') :
    ∀ cl, Bunch.covList geo a = .ok cl → ∃ cl', Bunch.covList geo a' = .ok cl' ∧ cl.Perm cl' := by
  induction h with
  | nil => intro cl h; exact ⟨cl, h, .refl _⟩
  | cons x _ ih =>
    intro cl h
    rw [Bunch.covList] at h ⊢
    cases hx : Bunch.momVar geo x with
    | error e => rw [hx] at h; simp at h
    | ok m =>
      rw [hx] at h
      simp only at h ⊢
      split at h
      · simp at h
      · rename_i l hl
        obtain ⟨l', h1, h2⟩ := ih l hl
        cases h
        exact ⟨_, by rw [h1], (h2.cons _).cons _⟩
  | swap x y l =>
    intro cl h
    simp only [Bunch.covList] at h ⊢
    cases hx : Bunch.momVar geo x with
    | error e =>
      cases hy : Bunch.momVar geo y with
      | error e => rw [hy] at h; simp at h
      | ok m => rw [hy, hx] at h; simp at h
    | ok m =>
      cases hy : Bunch.momVar geo y with
      | error e => rw [hy] at h; simp at h
      | ok m' =>
        rw [hy, hx] at h
        simp only at h ⊢
        cases hl : Bunch.covList geo l with
        | error e => rw [hl] at h; simp at h
        | ok l' =>
          rw [hl] at h
          simp only [Except.ok.injEq] at h
          subst h
          refine ⟨_, rfl, ?_⟩
          exact (List.perm_append_comm (l₁ := [y, m']) (l₂ := [x, m])).append_right l'
  | trans _ _ ih1 ih2 =>
    intro cl h
    obtain ⟨c1, h1, h2⟩ := ih1 cl h
    obtain ⟨c2, h3, h4⟩ := ih2 c1 h1
    exact ⟨c2, h3, h2.trans h4⟩

/-- all axes of the loop are marked if the coupled axes are among those of the emittance -/
theorem axisLoop_all (coupled emit : List String) (h : ∀ a ∈ coupled, a ∈ emit) :
    ∀ (l : List String) (s : List String × List Nat), s.2 = List.range s.1.length →
      (l.foldl (Bunch.axisStep coupled emit) s).1 = s.1 ++ l.filter (· ∈ emit) ∧
      (l.foldl (Bunch.axisStep coupled emit) s).2 =
        List.range (l.foldl (Bunch.axisStep coupled emit) s).1.length
  | [], s, hs => by simpa using hs
  | a :: r, s, hs => by
    rw [List.foldl_cons]
    by_cases ha : a ∈ emit
    · have hstep : Bunch.axisStep coupled emit s a = (s.1 ++ [a], List.range (s.1 ++ [a]).length) := by
        simp [Bunch.axisStep, ha, hs, List.range_succ]
      rw [hstep]
      obtain ⟨h1, h2⟩ := axisLoop_all coupled emit h r (s.1 ++ [a], List.range (s.1 ++ [a]).length) rfl
      refine ⟨?_, h2⟩
      rw [h1, List.filter_cons_of_pos (by simpa using ha)]
      simp
    · have hc : a ∉ coupled := fun h' => ha (h a h')
      have hstep : Bunch.axisStep coupled emit s a = s := by simp [Bunch.axisStep, ha, hc]
      rw [hstep, List.filter_cons_of_neg (by simpa using ha)]
      exact axisLoop_all coupled emit h r s hs

theorem pickPairs_append (ev : List K) : ∀ p q : List Nat, Bunch.pickPairs ev (p ++ q) =
    match Bunch.pickPairs ev p, Bunch.pickPairs ev q with
    | .error e, _ => .error e
    | .ok _, .error e => .error e
    | .ok a, .ok b => .ok (a ++ b)
  | [], q => by cases h : Bunch.pickPairs ev q <;> simp [Bunch.pickPairs, h]
  | x :: p, q => by
    have ih := pickPairs_append ev p q
    rw [List.cons_append, Bunch.pickPairs, Bunch.pickPairs]
    cases ev[2 * x]? with
    | none => rfl
    | some a =>
      cases ev[2 * x + 1]? with
      | none => rfl
      | some b =>
        simp only [ih]
        cases Bunch.pickPairs ev p with
        | error e => rfl
        | ok l =>
          cases Bunch.pickPairs ev q <;> rfl

theorem pickPairs_all (ev : List K) : ∀ n, 2 * n ≤ ev.length →
    Bunch.pickPairs ev (List.range n) = .ok (ev.take (2 * n))
  | 0, _ => by simp [Bunch.pickPairs]
  | n + 1, h => by
    rw [List.range_succ, pickPairs_append, pickPairs_all ev n (by omega)]
    have h1 : ev[2 * n]? = some (ev[2 * n]'(by omega)) := List.getElem?_eq_getElem _
    have h2 : ev[2 * n + 1]? = some (ev[2 * n + 1]'(by omega)) := List.getElem?_eq_getElem _
    simp only [Bunch.pickPairs, h1, h2]
    congr 1
    have t1 := List.take_succ_eq_append_getElem (l := ev) (i := 2 * n) (by omega)
    have t2 := List.take_succ_eq_append_getElem (l := ev) (i := 2 * n + 1) (by omega)
    rw [show 2 * (n + 1) = 2 * n + 1 + 1 by ring, t2, t1]
    simp only [List.append_assoc, List.cons_append, List.nil_append]

/-! ### determinants -/

theorem det_diagflat (l : List K) : (Bunch.diagflat l).det = l.prod := by
  have : (Matrix.of fun i j : Fin l.length => (Bunch.diagflat l).entry i j) =
      Matrix.diagonal fun i : Fin l.length => l[i] := by
    ext i j
    by_cases h : i = j
    · subst h; simp [Bunch.diagflat]
    · have : (i : Nat) ≠ j := fun h' => h (Fin.ext h')
      simp [Bunch.diagflat, h, this]
  show Matrix.det (Matrix.of fun i j : Fin l.length => (Bunch.diagflat l).entry i j) = _
  rw [this, Matrix.det_diagonal, ← List.prod_ofFn]
  congr 1
  simp

/-- the determinant is the product of the eigenvalues -/
theorem det_eig {n : Nat} {M : Mat K} (hr : M.rows = n) {ev : List K} (hl : ev.length = n)
    (h : ∀ t : K, (Matrix.of fun i j : Fin n => (if i = j then t else 0) - M.entry i j).det =
      (ev.map fun l => t - l).prod) : M.det = ev.prod := by
  subst hr
  have h0 := h 0
  have e1 : (Matrix.of fun i j : Fin M.rows => (if i = j then (0 : K) else 0) - M.entry i j) =
      -(Matrix.of fun i j : Fin M.rows => M.entry i j) := by
    ext i j; simp
  have e2 : ∀ l : List K, (l.map fun x => 0 - x).prod = (-1) ^ l.length * l.prod := by
    intro l
    induction l with
    | nil => simp
    | cons a r ih => rw [List.map_cons, List.prod_cons, ih, List.prod_cons, List.length_cons, pow_succ]; ring
  rw [e1, Matrix.det_neg, e2, hl, Fintype.card_fin] at h0
  have hne : ((-1 : K) ^ M.rows) ≠ 0 := pow_ne_zero _ (by norm_num)
  exact mul_left_cancel₀ hne h0

/-- no variable comes twice if the determinant is not zero -/
theorem nodup_of_det (f : String → String → K) (l : List String)
    (h : (Matrix.of fun i j : Fin l.length => f (l.getD i "") (l.getD j "")).det ≠ 0) : l.Nodup := by
  rw [List.nodup_iff_injective_get]
  intro i j hij
  by_contra hne
  apply h
  apply Matrix.det_zero_of_row_eq hne
  funext k
  simp only [Matrix.of_apply]
  have : l.getD i "" = l.getD j "" := by simpa using hij
  rw [this]

theorem det_perm (f : String → String → K) {l l' : List String} (h : l.Perm l') (hn : l.Nodup) :
    (Matrix.of fun i j : Fin l.length => f (l.getD i "") (l.getD j "")).det =
      (Matrix.of fun i j : Fin l'.length => f (l'.getD i "") (l'.getD j "")).det := by
  have hn' : l'.Nodup := h.nodup_iff.mp hn
  let e : Fin l.length ≃ Fin l'.length := (List.Nodup.getEquiv l hn).trans
    ((Equiv.subtypeEquivRight fun _ => h.mem_iff).trans (List.Nodup.getEquiv l' hn').symm)
  have he : ∀ i, l'.getD (e i) "" = l.getD i "" := by
    intro i
    have h1 : List.Nodup.getEquiv l' hn' (e i) = Equiv.subtypeEquivRight (fun _ => h.mem_iff)
        (List.Nodup.getEquiv l hn i) := by simp [e]
    have h2 := congrArg Subtype.val h1
    simpa using h2
  rw [← Matrix.det_submatrix_equiv_self e]
  congr 1
  ext i j
  simp only [Matrix.of_apply, Matrix.submatrix_apply, he]

/-! ### C121 -/

/-- C121_partial: if all coupled axes are axes of the emittance, the decoupled emittance is the emittance, for
every order of the eigenvalues and of the axes.
Missing: other coupled axes (C121_order_false, C121_false), a given matrix (C121_matrix_false). -/
theorem C121_partial {L : LinAlg K} (hL : L.Lawful) {eig : Mat K → Except Err (List K)} (heig : EigLaw eig)
    (E : Ext K) (w : BWorld K) (b : Bunch K) (hb : b.Normal w) (hmeans : b.means = [])
    (hW : ¬ |(b.hits.map w.weight).sum| < 1 / 1000000000) (vals : String → Nat → K)
    (coupled emit moms cl : List String) (hax : emit ≠ []) (hmom : List.Forall₂ (Conjugate w.geo) emit moms)
    (hcl : cl = (emit.zip moms).flatMap fun p => [p.1, p.2]) (hc : ∀ a ∈ coupled, a ∈ emit)
    (hv : ∀ i ∈ b.hits, ∀ v ∈ cl, Bunch.hitNum E w i v = .ok (vals v i))
    (hD : 0 < (covOf b w vals cl).det) (m : K) (hm : MassFor w b m) :
    ∃ eps, Bunch.getDecoupledEmittance L eig E w b coupled emit none = .ok eps ∧
      Bunch.getEmittance L E w b emit none = .ok eps ∧ IsEmittance b w vals cl m eps := by
  obtain ⟨_, eps, M0, _, c1, -, -, c4, c5, -⟩ := amp_ok hL E w b hb hmeans hW vals emit moms cl hax hmom hcl hv hD m hm
  have hnd : cl.Nodup := nodup_of_det (wcov b w vals) cl hD.ne'
  have hsub : ∀ a ∈ emit, a ∈ Bunch.axisList := by
    clear hcl hc c1 c4 c5 hax
    induction hmom with
    | nil => intro a ha; simp at ha
    | cons h _ ih =>
      intro a ha
      rcases List.mem_cons.mp ha with rfl | ha
      · have := h.momVar
        unfold Bunch.momVar at this
        split at this
        · rename_i hcon; simpa using hcon
        · simp at this
      · exact ih a ha
  -- the axes of the loop
  obtain ⟨s1, s2⟩ := axisLoop_all coupled emit hc Bunch.axisList ([], []) rfl
  generalize hs : Bunch.axisList.foldl (Bunch.axisStep coupled emit) ([], []) = s at s1 s2
  have hen : emit.Nodup := by
    have hsl : ∀ (a mm : List String), a.length = mm.length →
        a.Sublist ((a.zip mm).flatMap fun p => [p.1, p.2]) := by
      intro a
      induction a with
      | nil => intro mm _; simp
      | cons x r ih =>
        intro mm hl
        cases mm with
        | nil => simp at hl
        | cons y t =>
          simp only [List.zip_cons_cons, List.flatMap_cons, List.cons_append, List.nil_append]
          exact ((ih t (by simpa using hl)).cons y).cons_cons x
    rw [hcl] at hnd
    exact (hsl _ _ hmom.length_eq).nodup hnd
  have hperm : emit.Perm s.1 := by
    rw [s1, List.nil_append]
    rw [List.perm_ext_iff_of_nodup hen (List.Nodup.filter _ (by decide))]
    intro a
    simp only [List.mem_filter, decide_eq_true_eq]
    exact ⟨fun h => ⟨hsub a h, h⟩, fun h => h.2⟩
  obtain ⟨cl', e1, e2⟩ := covList_perm w.geo hperm cl c1
  have hv' : ∀ i ∈ b.hits, ∀ v ∈ cl', Bunch.hitNum E w i v = .ok (vals v i) :=
    fun i hi v hvm => hv i hi v (e2.mem_iff.mpr hvm)
  obtain ⟨M, h1, h2, h3, h4⟩ := Bunch.emitCov_ok E w b hb hmeans hW vals cl' hv'
  obtain ⟨ev, g1, g2, g3⟩ := heig cl'.length M h2 h3 (by
    intro i j hi hj
    rw [h4 i j hi hj, h4 j i hj hi]
    exact wcov_comm b w vals _ _)
  have hdet : M.det = (covOf b w vals cl).det := by
    rw [Bunch.det_toM h2]
    have e : Bunch.toM cl'.length M =
        Matrix.of fun i j : Fin cl'.length => wcov b w vals (cl'.getD i "") (cl'.getD j "") := by
      ext i j
      exact h4 _ _ i.2 j.2
    rw [e]
    exact (det_perm (wcov b w vals) e2 hnd).symm
  have hprod : ev.prod = (covOf b w vals cl).det := by rw [← hdet, det_eig h2 g2 g3]
  have hlen' := covList_length w.geo s.1 cl' e1
  have hlen := covList_length w.geo emit cl c1
  have hpick : Bunch.pickPairs ev s.2 = .ok ev := by
    rw [s2, pickPairs_all ev _ (by rw [g2, hlen'])]
    rw [List.take_of_length_le (by rw [g2, hlen'])]
  have hn0 : cl.length ≠ 0 := by
    have := List.length_pos_of_ne_nil hax
    omega
  have hdd : (Bunch.diagflat ev).det = (covOf b w vals cl).det := by rw [det_diagflat, hprod]
  have hnn : ¬ (Bunch.diagflat ev).det < 0 := by rw [hdd]; exact not_lt.mpr hD.le
  have hroot := hL.root_pow cl.length (Bunch.diagflat ev).det hn0 (not_lt.mp hnn)
  have hroot0 := hL.root_nonneg cl.length (Bunch.diagflat ev).det (not_lt.mp hnn)
  obtain ⟨hm0, hm1⟩ := hm
  have heps : L.root cl.length (Bunch.diagflat ev).det / m = eps := by
    rw [div_eq_iff hm0]
    rw [← pow_left_inj₀ hroot0 c5.1 hn0]
    rw [hroot, hdd, c5.2]
  refine ⟨eps, ?_, c4, c5⟩
  rw [← heps]
  unfold Bunch.getDecoupledEmittance
  simp only [hs, e1, h1, g1, hpick]
  cases hg : w.geo with
  | true =>
    rw [hg, if_pos rfl] at hm1
    rw [hg] at c1
    subst hm1
    simp only [Bunch.getEmittance, c1, Bunch.emitCov, hn0, hg, if_true, div_one, if_false, hnn]
    simp [Bunch.diagflat]
  | false =>
    rw [hg, if_neg (by simp)] at hm1
    rw [hg] at c1
    replace hm1 := hm1.firstMass
    cases hh : b.hits with
    | nil => simp [Bunch.firstMass, hh] at hm1
    | cons x r =>
      simp only [Bunch.firstMass, hh, Except.ok.injEq] at hm1
      subst hm1
      simp only [Bunch.getEmittance, c1, Bunch.emitCov, hn0, hg, if_false, hnn, hh, hm0, Bool.false_eq_true]
      simp [Bunch.diagflat]

/-- C121_matrix_false: no covariance matrix can be given: every matrix of more than one element raises
ValueError. -/
theorem C121_matrix_false (L : LinAlg K) (eig : Mat K → Except Err (List K)) (E : Ext K) (w : BWorld K)
    (b : Bunch K) (coupled emit : List String) (M : Mat K) (hM : M.rows * M.cols ≠ 1) :
    Bunch.getDecoupledEmittance L eig E w b coupled emit (some M) = .error .ValueError := by
  have hok : ∀ (l : List String) (s : List String × List Nat), (∀ a ∈ l, a ∈ Bunch.axisList) →
      (∀ a ∈ s.1, a ∈ Bunch.axisList) → ∀ a ∈ (l.foldl (Bunch.axisStep coupled emit) s).1,
        a ∈ Bunch.axisList := by
    intro l
    induction l with
    | nil => intro s _ h; exact h
    | cons x r ih =>
      intro s h1 h2
      rw [List.foldl_cons]
      refine ih _ (fun a ha => h1 a (by simp [ha])) ?_
      intro a ha
      simp only [Bunch.axisStep] at ha
      split at ha
      · rcases List.mem_append.mp ha with ha | ha
        · exact h2 a ha
        · simp at ha; subst ha; exact h1 a (by simp)
      · exact h2 a ha
  have hcov : ∀ l : List String, (∀ a ∈ l, a ∈ Bunch.axisList) → ∃ cl, Bunch.covList w.geo l = .ok cl := by
    intro l
    induction l with
    | nil => intro _; exact ⟨[], rfl⟩
    | cons x r ih =>
      intro h
      obtain ⟨cl, hcl⟩ := ih fun a ha => h a (by simp [ha])
      have hx : ∃ m, Bunch.momVar w.geo x = .ok m := by
        unfold Bunch.momVar
        rw [if_pos (by simpa using h x (by simp))]
        split
        · exact ⟨_, rfl⟩
        · split <;> exact ⟨_, rfl⟩
      obtain ⟨m, hm⟩ := hx
      exact ⟨x :: m :: cl, by simp only [Bunch.covList, hm, hcl]⟩
  obtain ⟨cl, hcl⟩ := hcov _ (hok Bunch.axisList ([], []) (fun a h => h) (by simp))
  unfold Bunch.getDecoupledEmittance
  simp only [hcl, if_pos hM]

/-! ### a beam in a skew quadrupole -/

/-- the real eigenvalues are a lawful choice -/
noncomputable def realEig (M : Mat ℝ) : Except Err (List ℝ) :=
  open Classical in
  if h : (Matrix.of fun i j : Fin M.rows => M.entry i j).IsHermitian then .ok (List.ofFn h.eigenvalues)
  else .error .LinAlgError

theorem realEig_lawful : EigLaw realEig := by
  intro n M hr hc hs
  subst hr
  have hh : (Matrix.of fun i j : Fin M.rows => M.entry i j).IsHermitian := by
    ext i j
    simp only [Matrix.conjTranspose_apply, Matrix.of_apply, star_trivial]
    exact hs _ _ j.2 i.2
  refine ⟨List.ofFn hh.eigenvalues, by simp only [realEig, hh, dif_pos], by simp, fun t => ?_⟩
  have h1 := congrArg (Polynomial.eval t) hh.charpoly_eq
  rw [Matrix.eval_charpoly, Polynomial.eval_prod] at h1
  have h2 : (Matrix.of fun i j : Fin M.rows => (if i = j then t else 0) - M.entry i j) =
      Matrix.scalar (Fin M.rows) t - Matrix.of fun i j : Fin M.rows => M.entry i j := by
    ext i j
    simp [Matrix.scalar_apply, Matrix.diagonal_apply]
  rw [h2, h1, List.map_ofFn, List.prod_ofFn]
  simp

/-- the same eigenvalues the other way round -/
theorem reverse_lawful {eig : Mat K → Except Err (List K)} (h : EigLaw eig) :
    EigLaw fun M => (eig M).map List.reverse := by
  intro n M h1 h2 h3
  obtain ⟨ev, g1, g2, g3⟩ := h n M h1 h2 h3
  refine ⟨ev.reverse, by simp only [g1, Except.map], by simpa using g2, fun t => ?_⟩
  rw [g3 t, List.map_reverse]
  exact (List.reverse_perm _).prod_eq.symm

/-- eight hits after a thin skew quadrupole of strength k: px has gained k y and py has gained k x -/
noncomputable def skewWorld (k : ℝ) : BWorld ℝ :=
  { hits := fun i => ⟨fun v => match v with
      | .x => [2, -2, 0, 0, 0, 0, 0, 0].getD i 0
      | .px => [0, 0, 2, -2, 0, 0, 0, 0].getD i 0 + k * [0, 0, 0, 0, 4, -4, 0, 0].getD i 0
      | .y => [0, 0, 0, 0, 4, -4, 0, 0].getD i 0
      | .py => [0, 0, 0, 0, 0, 0, 4, -4].getD i 0 + k * [2, -2, 0, 0, 0, 0, 0, 0].getD i 0
      | .pz => 2 | .mass => 1 | .local_weight => 1 | _ => 0, fun _ => 0⟩
    ctx := fun _ => WC.new, hcur := 0, bcur := 0, geo := false }

/-- the values of the four variables -/
noncomputable def skewVals (k : ℝ) (v : String) (i : Nat) : ℝ :=
  if v = "x" then ((skewWorld k).hits i).d .x else if v = "px" then ((skewWorld k).hits i).d .px else
  if v = "y" then ((skewWorld k).hits i).d .y else ((skewWorld k).hits i).d .py

theorem skew_weight (k : ℝ) (i : Nat) : (skewWorld k).weight i = 1 := by
  simp [BWorld.weight, BWorld.hview, HS.userWeight, skewWorld, WC.new, WC.getWeight, WMap.find]

theorem skew_values (k : ℝ) (i : Nat) : ∀ v ∈ ["x", "px", "y", "py"],
    Bunch.hitNum realExt (skewWorld k) i v = .ok (skewVals k v i) := by
  intro v hv
  simp only [List.mem_cons, List.not_mem_nil, or_false] at hv
  rcases hv with rfl | rfl | rfl | rfl <;> rfl

theorem skew_sum (k : ℝ) : ¬ |(twiceBunch.hits.map (skewWorld k).weight).sum| < 1 / 1000000000 := by
  simp only [twiceBunch, List.map_cons, List.map_nil, skew_weight]; norm_num

/-- the covariances -/
noncomputable def skewCov (k : ℝ) : Matrix (Fin 4) (Fin 4) ℝ :=
  !![1, 0, 0, k; 0, 1 + 4 * k ^ 2, 4 * k, 0; 0, 4 * k, 4, 0; k, 0, 0, 4 + k ^ 2]

theorem skew_cov (k : ℝ) (i j : Fin 4) :
    wcov twiceBunch (skewWorld k) (skewVals k) (["x", "px", "y", "py"].getD i "") (["x", "px", "y", "py"].getD j "") =
      skewCov k i j := by
  have hx : ∀ i, skewVals k "x" i = [2, -2, 0, 0, 0, 0, 0, 0].getD i 0 := fun i => rfl
  have hpx : ∀ i, skewVals k "px" i = [0, 0, 2, -2, 0, 0, 0, 0].getD i 0 + k * [0, 0, 0, 0, 4, -4, 0, 0].getD i 0 :=
    fun i => rfl
  have hy : ∀ i, skewVals k "y" i = [0, 0, 0, 0, 4, -4, 0, 0].getD i 0 := fun i => rfl
  have hpy : ∀ i, skewVals k "py" i = [0, 0, 0, 0, 0, 0, 4, -4].getD i 0 + k * [2, -2, 0, 0, 0, 0, 0, 0].getD i 0 :=
    fun i => rfl
  fin_cases i <;> fin_cases j <;>
    simp [wcov, wmoment, wmean, twiceBunch, hx, hpx, hy, hpy, skew_weight, skewCov] <;> ring

theorem skew_det (k t : ℝ) :
    (Matrix.of fun i j : Fin 4 => (if i = j then t else 0) - skewCov k i j).det =
      ((t - 1) * (t - 4 - k ^ 2) - k ^ 2) * ((t - 1 - 4 * k ^ 2) * (t - 4) - 16 * k ^ 2) := by
  simp [Matrix.det_succ_row_zero, Fin.sum_univ_succ, skewCov, Fin.succAbove]
  ring

/-- what get_decoupled_emittance does with this beam -/
theorem skew_result (k : ℝ) {eig : Mat ℝ → Except Err (List ℝ)} (heig : EigLaw eig) :
    ∃ (M : Mat ℝ) (a b c d : ℝ), eig M = .ok [a, b, c, d] ∧
      Bunch.emitCov realExt (skewWorld k) twiceBunch ["x", "px", "y", "py"] none = .ok M ∧
      (∀ t, (t - a) * (t - b) * (t - c) * (t - d) =
        ((t - 1) * (t - 4 - k ^ 2) - k ^ 2) * ((t - 1 - 4 * k ^ 2) * (t - 4) - 16 * k ^ 2)) ∧
      (0 ≤ a * b → ∃ e, Bunch.getDecoupledEmittance realLin eig realExt (skewWorld k) twiceBunch ["x", "y"] ["x"]
        none = .ok e ∧ e ^ 2 = a * b) := by
  obtain ⟨M, h1, h2, h3, h4⟩ := Bunch.emitCov_ok realExt (skewWorld k) twiceBunch ⟨rfl, rfl, rfl⟩ rfl (skew_sum k)
    (skewVals k) ["x", "px", "y", "py"] (fun i _ => skew_values k i)
  have hent : ∀ i j : Fin 4, M.entry i j = skewCov k i j := by
    intro i j
    rw [← skew_cov k i j]
    exact h4 i j i.2 j.2
  obtain ⟨ev, g1, g2, g3⟩ := heig 4 M h2 h3 (by
    intro i j hi hj
    rw [h4 i j hi hj, h4 j i hj hi]
    exact wcov_comm _ _ _ _ _)
  match ev, g1, g2, g3 with
  | [a, b, c, d], g1, _, g3 =>
    refine ⟨M, a, b, c, d, g1, h1, fun t => ?_, fun hab => ?_⟩
    · have := g3 t
      simp only [hent] at this
      rw [skew_det] at this
      rw [this]
      simp
      ring
    · have hs : Bunch.axisList.foldl (Bunch.axisStep ["x", "y"] ["x"]) ([], []) = (["x", "y"], [0]) := by decide
      have hc2 : Bunch.covList false ["x", "y"] = .ok ["x", "px", "y", "py"] := by decide
      have hc1 : Bunch.covList false ["x"] = .ok ["x", "px"] := by decide
      have hg : (skewWorld k).geo = false := rfl
      have hd : (Bunch.diagflat [a, b]).det = a * b := by rw [det_diagflat]; simp
      refine ⟨realLin.root 2 (a * b), ?_, realLin_lawful.root_pow 2 _ (by norm_num) hab⟩
      unfold Bunch.getDecoupledEmittance
      simp only [hs, hg, hc2, h1, g1, Bunch.pickPairs]
      simp only [List.getElem?_cons_zero, Nat.mul_zero, Nat.zero_add, List.getElem?_cons_succ]
      simp only [Bunch.getEmittance, hg, hc1, Bunch.emitCov, hd, not_lt.mpr hab]
      simp [Bunch.diagflat, twiceBunch, skewWorld]

/-- the emittance before the skew quadrupole -/
theorem skew_emittance : Bunch.getEmittance realLin realExt (skewWorld 0) twiceBunch ["x"] none = .ok 1 := by
  have hd : (covOf twiceBunch (skewWorld 0) (skewVals 0) ["x", "px"]).det = 1 := by
    rw [det_two]
    have h1 := skew_cov 0 0 0
    have h2 := skew_cov 0 1 1
    have h3 := skew_cov 0 0 1
    have h4 := skew_cov 0 1 0
    simp [skewCov] at h1 h2 h3 h4
    rw [h1, h2, h3, h4]
    norm_num
  obtain ⟨_, eps, _, _, -, -, -, h4, h5, -⟩ := amp_ok realLin_lawful realExt (skewWorld 0) twiceBunch
    ⟨rfl, rfl, rfl⟩ rfl (skew_sum 0) (skewVals 0) ["x"] ["px"] ["x", "px"] (by simp)
    (.cons (by simp [Conjugate, skewWorld]) .nil) rfl
    (fun i _ v hv => skew_values 0 i v (by simp at hv ⊢; tauto)) (by rw [hd]; norm_num) 1
    ⟨one_ne_zero, ⟨0, rfl, rfl⟩⟩
  rw [h4]
  obtain ⟨p, q⟩ := h5
  rw [hd] at q
  simp at p q
  rcases q with q | q
  · rw [q]
  · rw [q] at p; norm_num at p

/-- C121_order_false: for a beam without any coupling the decoupled emittance of x need not be the emittance of
x: it depends on the order in which the eigenvalues are given. -/
theorem C121_order_false : ∃ (w : BWorld ℝ) (b : Bunch ℝ) (vals : String → Nat → ℝ)
    (eig : Mat ℝ → Except Err (List ℝ)) (e : ℝ), EigLaw eig ∧
    (∀ i, ∀ v ∈ ["x", "px", "y", "py"], Bunch.hitNum realExt w i v = .ok (vals v i)) ∧
    (∀ u ∈ ["x", "px"], ∀ v ∈ ["y", "py"], wcov b w vals u v = 0) ∧
    Bunch.getEmittance realLin realExt w b ["x"] none = .ok 1 ∧
    Bunch.getDecoupledEmittance realLin eig realExt w b ["x", "y"] ["x"] none = .ok e ∧ e ≠ 1 := by
  have hcross : ∀ u ∈ ["x", "px"], ∀ v ∈ ["y", "py"], wcov twiceBunch (skewWorld 0) (skewVals 0) u v = 0 := by
    have h1 := skew_cov 0 0 2
    have h2 := skew_cov 0 0 3
    have h3 := skew_cov 0 1 2
    have h4 := skew_cov 0 1 3
    simp [skewCov] at h1 h2 h3 h4
    intro u hu v hv
    simp only [List.mem_cons, List.not_mem_nil, or_false] at hu hv
    rcases hu with rfl | rfl <;> rcases hv with rfl | rfl <;> assumption
  have hroots : ∀ a b c d : ℝ, (∀ t, (t - a) * (t - b) * (t - c) * (t - d) =
      ((t - 1) * (t - 4 - (0 : ℝ) ^ 2) - 0 ^ 2) * ((t - 1 - 4 * 0 ^ 2) * (t - 4) - 16 * 0 ^ 2)) →
      a * b * (c * d) = 16 ∧ ∀ x, x = a ∨ x = b ∨ x = c ∨ x = d → 0 < x := by
    intro a b c d h
    refine ⟨by have := h 0; norm_num at this; linarith, fun x hx => ?_⟩
    have := h x
    have h0 : (x - a) * (x - b) * (x - c) * (x - d) = 0 := by
      rcases hx with rfl | rfl | rfl | rfl <;> ring
    rw [h0] at this
    have h1 : ((x - 1) * (x - 4)) * ((x - 1) * (x - 4)) = 0 := by linear_combination -this
    have h2 := mul_self_eq_zero.mp h1
    rcases mul_eq_zero.mp h2 with h3 | h3
    · rw [sub_eq_zero.mp h3]; norm_num
    · rw [sub_eq_zero.mp h3]; norm_num
  obtain ⟨M, a, b, c, d, g1, g2, g3, g4⟩ := skew_result 0 realEig_lawful
  obtain ⟨r1, r2⟩ := hroots a b c d g3
  obtain ⟨e, e1, e2⟩ := g4 (mul_pos (r2 a (by simp)) (r2 b (by simp))).le
  by_cases he : e = 1
  · obtain ⟨M', a', b', c', d', k1, k2, k3, k4⟩ := skew_result 0 (reverse_lawful realEig_lawful)
    obtain ⟨q1, q2⟩ := hroots a' b' c' d' k3
    obtain ⟨e', f1, f2⟩ := k4 (mul_pos (q2 a' (by simp)) (q2 b' (by simp))).le
    refine ⟨_, _, _, _, e', reverse_lawful realEig_lawful, skew_values 0, hcross, skew_emittance, f1, ?_⟩
    rintro rfl
    rw [k2] at g2
    cases g2
    simp only [g1, Except.map, Except.ok.injEq, List.reverse_cons, List.reverse_nil, List.nil_append,
      List.cons_append, List.cons.injEq, and_true] at k1
    obtain ⟨rfl, rfl, rfl, rfl⟩ := k1
    rw [he] at e2
    rw [← e2, mul_comm c d, ← f2] at r1
    norm_num at r1
  · exact ⟨_, _, _, _, e, realEig_lawful, skew_values 0, hcross, skew_emittance, e1, he⟩

/-- C121_false: for a coupled beam no order of the eigenvalues gives the emittance that the beam had before it
was coupled: a skew quadrupole (px gains y, py gains x) changes an emittance of 1 without coupling to something
else, whatever eigenvalues are picked. -/
theorem C121_false : ∃ (w w' : BWorld ℝ) (b : Bunch ℝ),
    (∀ i, (w'.hits i).d .x = (w.hits i).d .x ∧ (w'.hits i).d .y = (w.hits i).d .y ∧
      (w'.hits i).d .px = (w.hits i).d .px + (w.hits i).d .y ∧
      (w'.hits i).d .py = (w.hits i).d .py + (w.hits i).d .x) ∧
    Bunch.getEmittance realLin realExt w b ["x"] none = .ok 1 ∧
    ∀ eig : Mat ℝ → Except Err (List ℝ), EigLaw eig →
      ∃ e, Bunch.getDecoupledEmittance realLin eig realExt w' b ["x", "y"] ["x"] none = .ok e ∧ e ≠ 1 := by
  refine ⟨skewWorld 0, skewWorld 1, twiceBunch, fun i => ⟨rfl, rfl, ?_, ?_⟩, skew_emittance, fun eig heig => ?_⟩
  · simp [skewWorld]
  · simp [skewWorld]
  · obtain ⟨M, a, b, c, d, -, -, g3, g4⟩ := skew_result 1 heig
    have hroot : ∀ x, x = a ∨ x = b → (x ^ 2 - 6 * x + 4) * (x ^ 2 - 9 * x + 4) = 0 := by
      intro x hx
      have := g3 x
      have h0 : (x - a) * (x - b) * (x - c) * (x - d) = 0 := by
        rcases hx with rfl | rfl <;> ring
      rw [h0] at this
      linear_combination -this
    have hpos : ∀ x : ℝ, (x ^ 2 - 6 * x + 4) * (x ^ 2 - 9 * x + 4) = 0 → 0 < x := by
      intro x hx
      by_contra hn
      rw [not_lt] at hn
      have h1 : 0 < x ^ 2 - 6 * x + 4 := by nlinarith [sq_nonneg x]
      have h2 : 0 < x ^ 2 - 9 * x + 4 := by nlinarith [sq_nonneg x]
      exact (mul_pos h1 h2).ne' hx
    have ha := hroot a (.inl rfl)
    have hb := hroot b (.inr rfl)
    obtain ⟨e, e1, e2⟩ := g4 (mul_pos (hpos a ha) (hpos b hb)).le
    refine ⟨e, e1, ?_⟩
    rintro rfl
    have hab : a * b = 1 := by rw [← e2]; norm_num
    have hapos := hpos a ha
    rcases mul_eq_zero.mp ha with h1 | h1 <;> rcases mul_eq_zero.mp hb with h2 | h2
    · have h3 : 4 * a ^ 2 - 6 * a + 1 = 0 := by
        linear_combination a ^ 2 * h2 - (a * b + 1 - 6 * a) * hab
      have h4 : a ^ 2 = 1 := by linarith
      have h5 : a = 1 := by nlinarith
      rw [h5] at h1; norm_num at h1
    · have h3 : 4 * a ^ 2 - 9 * a + 1 = 0 := by
        linear_combination a ^ 2 * h2 - (a * b + 1 - 9 * a) * hab
      have h5 : a = 1 := by linarith
      rw [h5] at h1; norm_num at h1
    · have h3 : 4 * a ^ 2 - 6 * a + 1 = 0 := by
        linear_combination a ^ 2 * h2 - (a * b + 1 - 6 * a) * hab
      have h5 : a = 1 / 2 := by linarith
      rw [h5] at h1; norm_num at h1
    · have h3 : 4 * a ^ 2 - 9 * a + 1 = 0 := by
        linear_combination a ^ 2 * h2 - (a * b + 1 - 9 * a) * hab
      have h4 : a ^ 2 = 1 := by linarith
      have h5 : a = 1 := by nlinarith
      rw [h5] at h1; norm_num at h1

/-- C121_partial for the coupled beam, with the axes of the emittance in another order than in the loop -/
example : ∃ eps, Bunch.getDecoupledEmittance realLin realEig realExt (skewWorld 1) twiceBunch ["x"] ["y", "x"]
    none = .ok eps ∧ Bunch.getEmittance realLin realExt (skewWorld 1) twiceBunch ["y", "x"] none = .ok eps := by
  have hperm : ["x", "px", "y", "py"].Perm ["y", "py", "x", "px"] := by decide
  have hdet : (covOf twiceBunch (skewWorld 1) (skewVals 1) ["x", "px", "y", "py"]).det = 16 := by
    have h := skew_det 1 0
    have e : (Matrix.of fun i j : Fin 4 => (if i = j then (0 : ℝ) else 0) - skewCov 1 i j) =
        -(covOf twiceBunch (skewWorld 1) (skewVals 1) ["x", "px", "y", "py"]) := by
      ext i j
      have := skew_cov 1 i j
      simp only [Matrix.of_apply, Matrix.neg_apply, covOf, ite_self, zero_sub, neg_inj]
      exact this.symm
    rw [e] at h
    have h' := Matrix.det_neg (covOf twiceBunch (skewWorld 1) (skewVals 1) ["x", "px", "y", "py"])
    rw [h'] at h
    simp at h
    norm_num at h
    exact h
  obtain ⟨eps, h1, h2, -⟩ := C121_partial realLin_lawful realEig_lawful realExt (skewWorld 1) twiceBunch
    ⟨rfl, rfl, rfl⟩ rfl (skew_sum 1) (skewVals 1) ["x"] ["y", "x"] ["py", "px"] ["y", "py", "x", "px"] (by simp)
    (.cons (by simp [Conjugate, skewWorld]) (.cons (by simp [Conjugate, skewWorld]) .nil)) rfl (by simp)
    (fun i _ v hv => skew_values 1 i v (by simp at hv ⊢; tauto)) (by
      have := det_perm (wcov twiceBunch (skewWorld 1) (skewVals 1)) hperm (by decide)
      unfold covOf at hdet ⊢
      rw [← this, hdet]
      norm_num) 1 ⟨one_ne_zero, ⟨0, rfl, rfl⟩⟩
  exact ⟨eps, h1, h2⟩

end Xboa.Decoupling
