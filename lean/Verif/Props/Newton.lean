import Verif.Model.Newton
import Verif.Props.Optics
import Mathlib.LinearAlgebra.Matrix.NonsingularInverse
import Mathlib.Algebra.Order.Floor.Ring
import Mathlib.Tactic.FieldSimp
import Mathlib.Tactic.LinearCombination
/-
C82: nd_newton_raphson1 and nd_newton_raphson2.
-/
set_option linter.unusedSectionVars false
namespace Xboa
namespace Newton
variable {K : Type} [Field K] [LinearOrder K] [IsStrictOrderedRing K] [FloorRing K]

/-! ### Specification, with vectors `Fin n → K` -/

/-- The matrix of difference quotients of `f` at `x` for the steps `d`. -/
def secant {n : Nat} (f : (Fin n → K) → Fin n → K) (x d : Fin n → K) : Matrix (Fin n) (Fin n) K :=
  Matrix.of fun j i => (f (Function.update x i (x i + d i)) j - f x j) / d i

/-- `Run f tol w m x d r`: with at most `m` steps from `x`, where differences are first taken over `d`
and then over the step before, Newton's method arrives at `r`.  `w` is applied to the values at the
beginning of every step. -/
inductive Run {n : Nat} (f : (Fin n → K) → Fin n → K) (tol : Fin n → K)
    (w : (Fin n → K) → Fin n → K) :
    Nat → (Fin n → K) → (Fin n → K) → (Fin n → K) → Prop
  /-- no steps left -/
  | out (x d) : Run f tol w 0 x d x
  /-- a difference is below 1e-9 -/
  | small (m x d) (i : Fin n) : |d i| < 1 / 1000000000 → Run f tol w (m + 1) x d (w x)
  /-- the matrix is singular -/
  | singular (m x d) : (∀ i, 1 / 1000000000 ≤ |d i|) → (secant f (w x) d).det = 0 →
      Run f tol w (m + 1) x d (w x)
  /-- the function was within the tolerances before the last step -/
  | done (m x d) : (∀ i, 1 / 1000000000 ≤ |d i|) → (secant f (w x) d).det ≠ 0 →
      (∀ i, |f (w x) i| ≤ tol i) →
      Run f tol w (m + 1) x d (w x - (secant f (w x) d)⁻¹.mulVec (f (w x)))
  /-- a further step -/
  | step (m x d r) : (∀ i, 1 / 1000000000 ≤ |d i|) → (secant f (w x) d).det ≠ 0 →
      (∃ i, tol i < |f (w x) i|) →
      Run f tol w m (w x - (secant f (w x) d)⁻¹.mulVec (f (w x)))
        (-(secant f (w x) d)⁻¹.mulVec (f (w x))) r →
      Run f tol w (m + 1) x d r

/-- the values moved by whole periods upper - lower, so that they are at (upper - lower) * lower or
less than a period above -/
def moved {n : Nat} (lo up x : Fin n → K) : Fin n → K := fun i =>
  x i - (up i - lo i) * ((⌊x i / (up i - lo i) - lo i⌋ : Int) : K)

/-- `F` evaluates `f` on every point of a list -/
def Evaluates {n : Nat} (F : List (List K) → Except Err (List (List K)))
    (f : (Fin n → K) → Fin n → K) : Prop :=
  ∀ l : List (Fin n → K), F (l.map List.ofFn) = .ok (l.map fun x => List.ofFn (f x))

/-! ### Proofs -/

theorem getD_ofFn {n : Nat} (x : Fin n → K) (i : Fin n) : (List.ofFn x).getD i 0 = x i := by
  simp [List.getD_eq_getElem?_getD]

theorem getD_ofFn' {n : Nat} (x : Fin n → K) (i : Nat) (hi : i < n) :
    (List.ofFn x).getD i 0 = x ⟨i, hi⟩ := getD_ofFn x ⟨i, hi⟩

theorem neighbours_eq {n : Nat} (x d : Fin n → K) : neighbours (List.ofFn x) (List.ofFn d) =
    (x :: (List.finRange n).map fun i => Function.update x i (x i + d i)).map List.ofFn := by
  unfold neighbours
  rw [List.map_cons]
  congr 1
  rw [List.length_ofFn, ← List.map_coe_finRange_eq_range, List.map_map, List.map_map]
  apply List.map_congr_left
  intro i _
  simp only [Function.comp]
  rw [getD_ofFn, getD_ofFn]
  apply List.ext_getElem
  · simp
  · intro j h1 h2
    simp only [List.length_set, List.length_ofFn] at h1
    rw [List.getElem_set]
    by_cases hij : (i : Nat) = j
    · subst hij
      simp
    · rw [if_neg hij]
      have : (⟨j, h1⟩ : Fin n) ≠ i := fun h => hij (by rw [← h])
      simp [Function.update_of_ne this]

theorem column_eq {n : Nat} (f : (Fin n → K) → Fin n → K) (x d : Fin n → K) (i : Fin n) :
    column ((x :: (List.finRange n).map fun i => Function.update x i (x i + d i)).map
      fun x => List.ofFn (f x)) n i (d i) = .ok (List.ofFn fun j => secant f x d j i) := by
  unfold column
  have h1 : ((x :: (List.finRange n).map fun i => Function.update x i (x i + d i)).map
      fun x => List.ofFn (f x))[(i : Nat) + 1]? =
      some (List.ofFn (f (Function.update x i (x i + d i)))) := by
    simp
  have h0 : ((x :: (List.finRange n).map fun i => Function.update x i (x i + d i)).map
      fun x => List.ofFn (f x))[0]? = some (List.ofFn (f x)) := by simp
  rw [h1, h0]
  have key : ∀ l : List (Fin n), (l.map (fun j : Fin n => (j : Nat))).foldr (fun (j : Nat) (acc : Except Err (List K)) =>
      match (some (List.ofFn (f (Function.update x i (x i + d i))))).bind (·[j]?),
        (some (List.ofFn (f x))).bind (·[j]?), acc with
      | some a, some b, .ok l => .ok ((a - b) / d i :: l)
      | some _, some _, .error e => .error e
      | _, _, _ => .error .IndexError) (.ok []) = .ok (l.map fun j => secant f x d j i) := by
    intro l
    induction l with
    | nil => rfl
    | cons j r ih =>
      rw [List.map_cons, List.foldr_cons, ih]
      simp [secant]
  rw [← List.map_coe_finRange_eq_range, List.ofFn_eq_map (f := fun j => secant f x d j i)]
  exact key (List.finRange n)

theorem columns_eq {n : Nat} (f : (Fin n → K) → Fin n → K) (x d : Fin n → K) (l : List (Fin n)) :
    columns ((x :: (List.finRange n).map fun i => Function.update x i (x i + d i)).map
      fun x => List.ofFn (f x)) n (List.ofFn d) (l.map fun j : Fin n => (j : Nat)) =
    .ok (if ∃ i ∈ l, |d i| < 1 / 1000000000 then none
      else some (l.map fun i => List.ofFn fun j => secant f x d j i)) := by
  induction l with
  | nil => simp [columns]
  | cons i r ih =>
    rw [List.map_cons (f := fun j : Fin n => (j : Nat))]
    have hc : ∀ (Y : List (List K)) (is : List Nat), columns Y n (List.ofFn d) ((i : Nat) :: is) =
        if |d i| < 1 / 1000000000 then .ok none
        else match column Y n i (d i) with
          | .error e => .error e
          | .ok c => match columns Y n (List.ofFn d) is with
            | .error e => .error e
            | .ok none => .ok none
            | .ok (some cs) => .ok (some (c :: cs)) := by
      intro Y is
      rw [← getD_ofFn d i]
      rfl
    rw [hc]
    by_cases hi : |d i| < 1 / 1000000000
    · rw [if_pos hi, if_pos ⟨i, by simp, hi⟩]
    · rw [if_neg hi, column_eq, ih]
      simp only
      by_cases hr : ∃ i ∈ r, |d i| < 1 / 1000000000
      · rw [if_pos hr]
        obtain ⟨k, hk, hk2⟩ := hr
        rw [if_pos ⟨k, by simp [hk], hk2⟩]
      · rw [if_neg hr, if_neg]
        · rfl
        · rintro ⟨k, hk, hk2⟩
          rcases List.mem_cons.mp hk with rfl | hk
          · exact hi hk2
          · exact hr ⟨k, hk, hk2⟩

theorem jacobian_entry {n : Nat} (M : Matrix (Fin n) (Fin n) K) (i j : Fin n) :
    (jacobian ((List.finRange n).map fun i => List.ofFn fun j => M j i)).entry j i = M j i := by
  simp [jacobian, List.getD_eq_getElem?_getD]

theorem jacobian_rows {n : Nat} (M : Matrix (Fin n) (Fin n) K) :
    (jacobian ((List.finRange n).map fun i => List.ofFn fun j => M j i)).rows = n ∧
    (jacobian ((List.finRange n).map fun i => List.ofFn fun j => M j i)).cols = n := by
  simp [jacobian]

theorem jacobian_det {n : Nat} (M : Matrix (Fin n) (Fin n) K) :
    (jacobian ((List.finRange n).map fun i => List.ofFn fun j => M j i)).det = M.det := by
  have h : ∀ (A : Mat K), A.rows = n → (∀ i j : Fin n, A.entry i j = M i j) → A.det = M.det := by
    intro A hr he
    obtain ⟨r, c, e⟩ := A
    simp only at hr
    subst hr
    unfold Mat.det
    congr 1
    ext i j
    exact he i j
  exact h _ (jacobian_rows M).1 fun i j => jacobian_entry M j i

theorem jacobian_inv {L : LinAlg K} (hL : L.Lawful) {n : Nat} (M : Matrix (Fin n) (Fin n) K) :
    (M.det = 0 ∧ L.inv (jacobian ((List.finRange n).map fun i => List.ofFn fun j => M j i)) = none) ∨
    (M.det ≠ 0 ∧ ∃ N, L.inv (jacobian ((List.finRange n).map fun i => List.ofFn fun j => M j i)) =
      some N ∧ ∀ i j : Fin n, N.entry i j = M⁻¹ i j) := by
  obtain ⟨hr, hc⟩ := jacobian_rows M
  cases hN : L.inv (jacobian ((List.finRange n).map fun i => List.ofFn fun j => M j i)) with
  | none =>
    left
    refine ⟨?_, rfl⟩
    by_contra h0
    obtain ⟨N, h⟩ := hL.inv_ok _ (hr.trans hc.symm) (by rw [jacobian_det]; exact h0)
    rw [h] at hN
    cases hN
  | some N =>
    right
    obtain ⟨h1, h2, h3⟩ := hL.inv_mul _ N (hr.trans hc.symm) hN
    have hNM : (Matrix.of fun i j : Fin n => N.entry i j) * M = 1 := by
      ext i j
      have := h3 i j (by rw [hr]; exact i.2) (by rw [hr]; exact j.2)
      simp only [Mat.mul] at this
      rw [h2, hr, Finset.sum_range] at this
      rw [Matrix.mul_apply, Matrix.one_apply]
      simp only [Matrix.of_apply, Fin.ext_iff]
      rw [← this]
      apply Finset.sum_congr rfl
      intro k _
      rw [jacobian_entry]
    have hdet : M.det ≠ 0 := by
      intro h0
      have := congrArg Matrix.det hNM
      rw [Matrix.det_mul, h0, mul_zero, Matrix.det_one] at this
      exact zero_ne_one this
    refine ⟨hdet, N, rfl, fun i j => ?_⟩
    rw [Matrix.inv_eq_left_inv hNM]
    rfl

theorem loop_run {L : LinAlg K} (hL : L.Lawful) {n : Nat}
    (F : List (List K) → Except Err (List (List K))) (f : (Fin n → K) → Fin n → K)
    (hF : Evaluates F f) (tol : Fin n → K) (limits : List (K × K)) (w : (Fin n → K) → Fin n → K)
    (hw : ∀ x, wrap limits (List.ofFn x) = .ok (List.ofFn (w x))) : ∀ (m : Nat) (x d : Fin n → K),
    ∃ r, loop L F (List.ofFn tol) limits m (List.ofFn x) (List.ofFn d) = .ok (List.ofFn r) ∧
      Run f tol w m x d r
  | 0, x, d => ⟨x, rfl, .out x d⟩
  | m + 1, x, d => by
    rw [loop]
    rw [hw]
    simp only
    obtain ⟨z, hz⟩ : ∃ z, w x = z := ⟨_, rfl⟩
    rw [hz]
    rw [neighbours_eq, hF]
    simp only [List.map_cons]
    rw [← List.map_cons (f := fun x => List.ofFn (f x)), List.length_ofFn,
      ← List.map_coe_finRange_eq_range]
    rw [columns_eq]
    by_cases hs : ∃ i ∈ List.finRange n, |d i| < 1 / 1000000000
    · rw [if_pos hs]
      obtain ⟨i, _, hi⟩ := hs
      exact ⟨z, rfl, hz ▸ .small m x d i hi⟩
    · rw [if_neg hs]
      have hbig : ∀ i, 1 / 1000000000 ≤ |d i| := by
        intro i
        by_contra hcon
        exact hs ⟨i, List.mem_finRange i, not_le.mp hcon⟩
      simp only [List.length_ofFn, ne_eq, not_true_eq_false, if_false]
      rcases jacobian_inv hL (secant f z d) with ⟨h0, hi⟩ | ⟨h0, N, hi, hN⟩
      · rw [hi]
        exact ⟨z, rfl, hz ▸ .singular m x d hbig (by rw [hz]; exact h0)⟩
      · rw [hi]
        simp only
        have hd : ((List.finRange n).map (fun j : Fin n => (j : Nat))).map (fun i =>
            -∑ j ∈ Finset.range n, N.entry i j * (List.ofFn (f z)).getD j 0) =
            List.ofFn (-(secant f z d)⁻¹.mulVec (f z)) := by
          rw [List.map_map, List.ofFn_eq_map (f := -(secant f z d)⁻¹.mulVec (f z))]
          apply List.map_congr_left
          intro i _
          simp only [Function.comp, Pi.neg_apply, Matrix.mulVec, dotProduct]
          rw [Finset.sum_range]
          congr 1
          apply Finset.sum_congr rfl
          intro j _
          rw [hN, getD_ofFn]
        have hx : List.zipWith (· + ·) (List.ofFn z) (List.ofFn (-(secant f z d)⁻¹.mulVec (f z))) =
            List.ofFn (z - (secant f z d)⁻¹.mulVec (f z)) := by
          apply List.ext_getElem
          · simp
          · intro i h1 h2
            simp [sub_eq_add_neg]
        have hdone : (((List.finRange n).map (fun j : Fin n => (j : Nat))).all fun i =>
            decide (|(List.ofFn (f z)).getD i 0| ≤ (List.ofFn tol).getD i 0)) =
            decide (∀ i, |f z i| ≤ tol i) := by
          rw [Bool.eq_iff_iff, List.all_eq_true, decide_eq_true_iff]
          constructor
          · intro h i
            have := h i (List.mem_map.mpr ⟨i, List.mem_finRange i, rfl⟩)
            rw [getD_ofFn, getD_ofFn] at this
            simpa using this
          · intro h j hj
            obtain ⟨i, _, rfl⟩ := List.mem_map.mp hj
            rw [getD_ofFn, getD_ofFn]
            simpa using h i
        rw [hd, hx, hdone]
        have hf1 : F [List.ofFn (z - (secant f z d)⁻¹.mulVec (f z))] =
            .ok [List.ofFn (f (z - (secant f z d)⁻¹.mulVec (f z)))] :=
          hF [z - (secant f z d)⁻¹.mulVec (f z)]
        rw [hf1]
        simp only
        by_cases ht : ∀ i, |f z i| ≤ tol i
        · rw [if_pos (by simpa using ht)]
          refine ⟨_, rfl, ?_⟩
          have := Run.done (f := f) (tol := tol) (w := w) m x d hbig (by rw [hz]; exact h0)
            (by rw [hz]; exact ht)
          rw [hz] at this
          exact this
        · rw [if_neg (by simpa using ht)]
          obtain ⟨r, e1, e2⟩ := loop_run hL F f hF tol limits w hw m (z - (secant f z d)⁻¹.mulVec (f z))
            (-(secant f z d)⁻¹.mulVec (f z))
          push Not at ht
          exact ⟨r, e1, .step m x d r hbig (by rw [hz]; exact h0) (by rw [hz]; exact ht)
            (by rw [hz]; exact e2)⟩

theorem wrap_moved {n : Nat} (lo up : Fin n → K) (h : ∀ i, lo i ≠ up i) (x : Fin n → K) :
    wrap (List.ofFn fun i => (lo i, up i)) (List.ofFn x) = .ok (List.ofFn (moved lo up x)) := by
  induction n with
  | zero => simp [wrap]
  | succ n ih =>
    rw [List.ofFn_succ, List.ofFn_succ (f := x), List.ofFn_succ (f := moved lo up x)]
    unfold wrap
    rw [if_neg (sub_ne_zero.mpr (Ne.symm (h 0))),
      ih (fun i => lo i.succ) (fun i => up i.succ) (fun i => h i.succ) (fun i => x i.succ)]
    rfl

/-- C82, partial.  For all functions, starting values, steps, tolerances and numbers of iterations:
nd_newton_raphson2 returns, without an exception, a point that Newton's method with difference
quotients arrives at in at most max_iteration steps; with limits, lower and upper different, the values
are moved by whole periods at the beginning of each step.  Missing: that it is a root
(C82_silent_false) within the tolerances (C82_tolerance_false) and within the limits (C82_wrap_false,
C82_limits_false). -/
theorem C82_partial {L : LinAlg K} (hL : L.Lawful) {n : Nat}
    (F : List (List K) → Except Err (List (List K))) (f : (Fin n → K) → Fin n → K)
    (hF : Evaluates F f) (tol x d : Fin n → K) (m : Nat) :
    (∃ r, newton2 L F (List.ofFn tol) (List.ofFn x) (List.ofFn d) m [] = .ok (List.ofFn r) ∧
      Run f tol id m x d r) ∧
    ∀ lo up : Fin n → K, (∀ i, lo i ≠ up i) →
      ∃ r, newton2 L F (List.ofFn tol) (List.ofFn x) (List.ofFn d) m
          (List.ofFn fun i => (lo i, up i)) = .ok (List.ofFn r) ∧
        Run f tol (moved lo up) m x d r :=
  ⟨loop_run hL F f hF tol [] id (fun x => by cases h : List.ofFn x <;> simp [wrap, h]) m x d,
    fun lo up h => loop_run hL F f hF tol _ _ (wrap_moved lo up h) m x d⟩

theorem secant_affine {n : Nat} (A : Matrix (Fin n) (Fin n) K) (b x d : Fin n → K)
    (hd : ∀ i, d i ≠ 0) : secant (fun x => A.mulVec x + b) x d = A := by
  ext j i
  have h : Function.update x i (x i + d i) = x + Pi.single i (d i) := by
    funext k
    by_cases hk : k = i
    · subst hk; simp
    · simp [hk]
  simp only [secant, Matrix.of_apply, h, Matrix.mulVec_add, Pi.add_apply, Matrix.mulVec_single]
  have := hd i
  field_simp
  simp [mul_comm]

theorem run_root {n : Nat} (f : (Fin n → K) → Fin n → K) (tol : Fin n → K) (x : Fin n → K)
    (hx : f x = 0) : ∀ (m : Nat) (d r : Fin n → K), Run f tol id m x d r → r = x
  | 0, _, _, .out _ _ => rfl
  | _ + 1, _, _, .small _ _ _ _ _ => rfl
  | _ + 1, _, _, .singular _ _ _ _ _ => rfl
  | _ + 1, _, _, .done _ _ _ _ _ _ => by simp [hx]
  | m + 1, _, _, .step _ _ _ _ _ _ _ h => by
    simp only [id, hx, Matrix.mulVec_zero, sub_zero, neg_zero] at h
    exact run_root f tol x hx m _ _ h

/-- C82, for all affine functions A x + b with an invertible matrix: one iteration is enough, and the
value returned is exactly the root, for all starting values, steps of at least 1e-9, tolerances and
numbers of iterations but 0. -/
theorem C82_affine {L : LinAlg K} (hL : L.Lawful) {n : Nat}
    (F : List (List K) → Except Err (List (List K))) (A : Matrix (Fin n) (Fin n) K) (b : Fin n → K)
    (hA : A.det ≠ 0) (hF : Evaluates F fun x => A.mulVec x + b) (tol x d : Fin n → K)
    (hd : ∀ i, 1 / 1000000000 ≤ |d i|) (m : Nat) (hm : 0 < m) :
    ∃ r, newton2 L F (List.ofFn tol) (List.ofFn x) (List.ofFn d) m [] = .ok (List.ofFn r) ∧
      A.mulVec r + b = 0 := by
  obtain ⟨r, h1, h2⟩ := (C82_partial hL F _ hF tol x d m).1
  refine ⟨r, h1, ?_⟩
  have hd0 : ∀ i, d i ≠ 0 := by
    intro i h0
    have := hd i
    rw [h0, abs_zero] at this
    exact absurd this (by norm_num)
  have hsec := secant_affine A b x d hd0
  have hroot : A.mulVec (x - A⁻¹.mulVec (A.mulVec x + b)) + b = 0 := by
    rw [Matrix.mulVec_sub, Matrix.mulVec_mulVec, Matrix.mul_nonsing_inv _ (isUnit_iff_ne_zero.mpr hA),
      Matrix.one_mulVec]
    simp
  cases h2 with
  | out => omega
  | small m x d i hi => exact absurd (hd i) (not_le.mpr hi)
  | singular m x d h h0 => simp only [id, hsec] at h0; exact absurd h0 hA
  | done m x d h h0 ht => simp only [id, hsec]; exact hroot
  | step m x d r h h0 ht hr =>
    simp only [id, hsec] at hr
    rw [run_root (fun x => A.mulVec x + b) tol _ hroot m _ r hr]
    exact hroot

/-- C82, for all functions: a root that is the starting value is returned. -/
theorem C82_root_kept {L : LinAlg K} (hL : L.Lawful) {n : Nat}
    (F : List (List K) → Except Err (List (List K))) (f : (Fin n → K) → Fin n → K)
    (hF : Evaluates F f) (tol x d : Fin n → K) (hx : f x = 0) (m : Nat) :
    newton2 L F (List.ofFn tol) (List.ofFn x) (List.ofFn d) m [] = .ok (List.ofFn x) := by
  obtain ⟨r, h1, h2⟩ := (C82_partial hL F f hF tol x d m).1
  rw [h1, run_root f tol x hx m d r h2]

/-- C82 is false of what is returned, in every dimension and without an exception: for a constant
function, which has no root, the starting value is returned. -/
theorem C82_silent_false {L : LinAlg K} (hL : L.Lawful) {n : Nat} (hn : 0 < n)
    (F : List (List K) → Except Err (List (List K))) (c : Fin n → K) (hF : Evaluates F fun _ => c)
    (tol x d : Fin n → K) (m : Nat) :
    newton2 L F (List.ofFn tol) (List.ofFn x) (List.ofFn d) m [] = .ok (List.ofFn x) := by
  obtain ⟨r, h1, h2⟩ := (C82_partial hL F _ hF tol x d m).1
  have hsec : (secant (fun _ => c) x d).det = 0 := by
    have : secant (fun _ => c) x d = 0 := by
      ext i j
      simp [secant]
    rw [this]
    have : Nonempty (Fin n) := ⟨⟨0, hn⟩⟩
    exact Matrix.det_zero
  have : r = x := by
    cases h2 with
    | out => rfl
    | small => rfl
    | singular => rfl
    | done m x d h h0 ht => exact absurd hsec h0
    | step m x d r h h0 ht hr => exact absurd hsec h0
  rw [h1, this]

/-- a function of one variable that is small at 0 and at 1 -/
noncomputable def smallAt (v : Fin 1 → ℝ) : Fin 1 → ℝ := fun _ =>
  if v 0 = 0 then 1 / 10 else if v 0 = 1 then 101 / 1000 else 5

/-- C82 is false of the tolerances: the value returned is one step further than the one that was
tested.  Here the function is 1/10 at the starting value, the tolerance 1/5, and the function is 5 at
the value returned, for every number of iterations but 0. -/
theorem C82_tolerance_false (m : Nat) (hm : 0 < m)
    (F : List (List ℝ) → Except Err (List (List ℝ))) (hF : Evaluates F smallAt) :
    ∃ r : Fin 1 → ℝ, newton2 realLin F [1 / 5] [0] [1] m [] = .ok (List.ofFn r) ∧
      |smallAt (fun _ => 0) 0| ≤ 1 / 5 ∧ ¬ |smallAt r 0| ≤ 1 / 5 := by
  obtain ⟨r, h1, h2⟩ := (C82_partial realLin_lawful F smallAt hF (fun _ => 1 / 5) (fun _ => 0)
    (fun _ => 1) m).1
  have h0 : smallAt (fun _ => 0) 0 = 1 / 10 := by simp [smallAt]
  have hsec : secant smallAt (fun _ => 0) (fun _ => 1) = !![(1 / 1000 : ℝ)] := by
    ext i j
    fin_cases i
    fin_cases j
    norm_num [secant, smallAt]
  have hdet : (secant smallAt (fun _ => 0) (fun _ => 1)).det ≠ 0 := by
    rw [hsec, Matrix.det_fin_one]
    norm_num
  refine ⟨r, by simpa using h1, by rw [h0]; norm_num, ?_⟩
  cases h2 with
  | out => omega
  | small m x d i hi => norm_num at hi
  | singular m x d h h0 => exact absurd h0 hdet
  | step m x d r h h0' ht hr =>
    obtain ⟨i, hi⟩ := ht
    fin_cases i
    simp only [id, Fin.zero_eta] at hi
    rw [h0] at hi
    norm_num at hi
  | done m x d h h0' ht =>
    have hinv : (!![(1 / 1000 : ℝ)])⁻¹ = !![(1000 : ℝ)] := by
      apply Matrix.inv_eq_left_inv
      ext i j
      fin_cases i
      fin_cases j
      norm_num [Matrix.mul_apply]
    simp only [id]
    rw [hsec, hinv]
    norm_num [Matrix.mulVec, dotProduct, smallAt]

/-- the hypothesis of C82_tolerance_false is met -/
example : Evaluates (fun l => .ok (l.map fun x => List.ofFn (smallAt fun i => x.getD i 0))) smallAt := by
  intro l
  show Except.ok _ = _
  rw [List.map_map]
  congr 1

/-- C82_affine: the root of (x + y - 3, x - y - 1) is (2, 1) -/
example : newton2 realLin (fun l => .ok (l.map fun x => [x.getD 0 0 + x.getD 1 0 - 3, x.getD 0 0 - x.getD 1 0 - 1]))
    [1 / 10, 1 / 10] [0, 0] [1, 1] 10 [] = .ok [2, 1] := by
  obtain ⟨r, h1, h2⟩ := C82_affine realLin_lawful (n := 2)
    (fun l => .ok (l.map fun x => [x.getD 0 0 + x.getD 1 0 - 3, x.getD 0 0 - x.getD 1 0 - 1]))
    (!![1, 1; 1, -1]) ![-3, -1] (by rw [Matrix.det_fin_two_of]; norm_num)
    (by
      intro l
      show Except.ok _ = _
      rw [List.map_map]
      congr 1
      apply List.map_congr_left
      intro x _
      simp [dotProduct, Fin.sum_univ_two, sub_eq_add_neg])
    ![1 / 10, 1 / 10] ![0, 0] ![1, 1] (by intro i; fin_cases i <;> norm_num) 10 (by norm_num)
  have e0 := congrFun h2 0
  have e1 := congrFun h2 1
  simp [dotProduct, Fin.sum_univ_two] at e0 e1
  have r0 : r 0 = 2 := by linarith
  have r1 : r 1 = 1 := by linarith
  have : List.ofFn r = [2, 1] := by simp [r0, r1]
  rw [this] at h1
  simpa using h1

/-! ### Limits -/

/-- C82, for all limits lower < upper and all values: the value is moved by a multiple of the period
upper - lower, to the period that begins at (upper - lower) * lower. -/
theorem C82_wrap_partial (lo up x : K) (h : lo < up) :
    ∃ y, wrap [(lo, up)] [x] = .ok [y] ∧ (∃ k : Int, y = x - (k : K) * (up - lo)) ∧
      (up - lo) * lo ≤ y ∧ y < (up - lo) * lo + (up - lo) := by
  have hd : 0 < up - lo := sub_pos.mpr h
  refine ⟨x - (up - lo) * ((⌊x / (up - lo) - lo⌋ : Int) : K), ?_, ⟨⌊x / (up - lo) - lo⌋, by ring⟩, ?_, ?_⟩
  · unfold wrap
    rw [if_neg hd.ne']
    rfl
  · have h1 := Int.floor_le (x / (up - lo) - lo)
    have h2 := mul_le_mul_of_nonneg_left h1 hd.le
    rw [mul_sub, mul_div_cancel₀ _ hd.ne'] at h2
    linarith
  · have h1 := Int.lt_floor_add_one (x / (up - lo) - lo)
    have h2 := mul_lt_mul_of_pos_left h1 hd
    rw [mul_sub, mul_div_cancel₀ _ hd.ne'] at h2
    linarith

/-- C82: the limits are kept at the start of an iteration for all values just when the lower limit is
0 or the period is 1. -/
theorem C82_wrap_false (lo up : K) (h : lo < up) :
    (∀ x y, wrap [(lo, up)] [x] = .ok [y] → lo ≤ y ∧ y < up) ↔ lo = 0 ∨ up - lo = 1 := by
  have hd : 0 < up - lo := sub_pos.mpr h
  constructor
  · intro hall
    obtain ⟨y, h1, _, h2, h3⟩ := C82_wrap_partial lo up ((up - lo) * lo) h
    have hy : y = (up - lo) * lo := by
      unfold wrap at h1
      rw [if_neg hd.ne', mul_div_cancel_left₀ _ hd.ne', sub_self] at h1
      simp only [wrap, Int.floor_zero, Int.cast_zero, mul_zero, sub_zero, Except.ok.injEq,
        List.cons.injEq, and_true] at h1
      exact h1.symm
    obtain ⟨a1, a2⟩ := hall _ y h1
    rw [hy] at a1 a2
    -- a value just below the end of the period
    by_contra hcon
    push Not at hcon
    have hne : (up - lo - 1) * lo ≠ 0 := mul_ne_zero (sub_ne_zero.mpr hcon.2) hcon.1
    have hge : 0 ≤ (up - lo - 1) * lo := by linarith
    have hpos : 0 < (up - lo - 1) * lo := lt_of_le_of_ne hge (Ne.symm hne)
    -- x = d*lo + d - e with 0 < e ≤ min
    have hex : ∃ e, 0 < e ∧ e ≤ up - lo ∧ e ≤ (up - lo - 1) * lo :=
      ⟨min (up - lo) ((up - lo - 1) * lo), lt_min hd hpos, min_le_left _ _, min_le_right _ _⟩
    obtain ⟨e, e1, e2, e3⟩ := hex
    obtain ⟨z, g1, ⟨k, g2⟩, g3, g4⟩ := C82_wrap_partial lo up ((up - lo) * lo + (up - lo) - e) h
    have hk : k = 0 := by
      have u1 : -(up - lo) < (k : K) * (up - lo) := by linarith
      have u2 : (k : K) * (up - lo) < up - lo := by linarith
      have v1 : (-1 : K) < k := by
        by_contra hc
        have := mul_le_mul_of_nonneg_right (not_lt.mp hc) hd.le
        linarith
      have v2 : (k : K) < 1 := by
        by_contra hc
        have := mul_le_mul_of_nonneg_right (not_lt.mp hc) hd.le
        linarith
      have w1 : -1 < k := by exact_mod_cast v1
      have w2 : k < 1 := by exact_mod_cast v2
      omega
    have hz : z = (up - lo) * lo + (up - lo) - e := by
      rw [g2, hk]
      simp
    have := (hall _ z g1).2
    rw [hz] at this
    linarith
  · intro hor x y hy
    obtain ⟨z, h1, _, h2, h3⟩ := C82_wrap_partial lo up x h
    rw [hy] at h1
    simp only [Except.ok.injEq, List.cons.injEq, and_true] at h1
    subst h1
    rcases hor with h0 | h0
    · subst h0
      simp at h2 h3
      exact ⟨h2, h3⟩
    · rw [h0] at h2 h3
      rw [one_mul] at h2 h3
      exact ⟨h2, by linarith⟩

example : wrap [((-1 : ℚ), 1)] [0] = .ok [-2] := by decide +kernel

/-- C82 is false of the limits of what is returned: values are moved at the beginning of an iteration
only.  For x - 5 and limits 0, 1, one iteration returns 5. -/
theorem C82_limits_false :
    newton2 realLin (fun l => .ok (l.map fun x => [x.getD 0 0 - 5])) [1 / 10] [1 / 2] [1] 1 [(0, 1)] =
      .ok [5] := by
  obtain ⟨r, h1, h2⟩ := (C82_partial realLin_lawful (n := 1)
    (fun l => .ok (l.map fun x => [x.getD 0 0 - 5])) (fun x _ => x 0 - 5)
    (by
      intro l
      show Except.ok _ = _
      rw [List.map_map]
      congr 1)
    (fun _ => 1 / 10) (fun _ => 1 / 2) (fun _ => 1) 1).2 (fun _ => 0) (fun _ => 1) (by simp)
  have hm : moved (n := 1) (K := ℝ) (fun _ => 0) (fun _ => 1) (fun _ => 1 / 2) = fun _ => 1 / 2 := by
    funext i
    have : ⌊(1 / 2 : ℝ)⌋ = 0 := by
      rw [Int.floor_eq_iff]
      norm_num
    simp [moved] at this ⊢
    exact this
  have hsec : secant (fun x (_ : Fin 1) => x 0 - (5 : ℝ)) (fun _ => 1 / 2) (fun _ => 1) = !![1] := by
    ext i j
    fin_cases i
    fin_cases j
    norm_num [secant]
  have hr : r 0 = 5 := by
    cases h2 with
    | small m x d i hi => norm_num at hi
    | singular m x d h h0 =>
      rw [hm, hsec] at h0
      simp at h0
    | done m x d h h0' ht =>
      have := ht 0
      rw [hm] at this
      norm_num at this
    | step m x d r h h0' ht hr =>
      cases hr
      rw [hm, hsec]
      have hinv : (!![(1 : ℝ)])⁻¹ = !![(1 : ℝ)] := by
        apply Matrix.inv_eq_left_inv
        ext i j
        fin_cases i
        fin_cases j
        norm_num [Matrix.mul_apply]
      rw [hinv]
      norm_num [Matrix.mulVec, dotProduct]
  have : List.ofFn r = [5] := by simp [hr]
  rw [this] at h1
  simpa using h1

/-! ### nd_newton_raphson1 -/

/-- C82, for all functions that leave the global variable of the module alone: nd_newton_raphson1 is
nd_newton_raphson2 with the function evaluated at one point after another. -/
theorem C82_wrapper {G : Type} (call : G → List K → PyM G (List K)) (f : G)
    (g : List K → List K) (hcall : ∀ x, call f x f = (.ok (g x), f)) (L : LinAlg K)
    (tol start delta : List K) (m : Nat) (limits : List (K × K)) :
    newton1 L call f tol start delta m limits =
      newton2 L (fun xs => .ok (xs.map g)) tol start delta m limits := by
  have h : ∀ xs, wrapper call xs f = (.ok (xs.map g), f) := by
    intro xs
    induction xs with
    | nil => rfl
    | cons x r ih => simp only [wrapper, hcall, ih, List.map_cons]
  unfold newton1
  simp only [h]

/-- C82 is false of a function that itself finds a root with nd_newton_raphson1: that sets the global
to another function `h`, and all points but the first are evaluated with `h`. -/
theorem C82_nested_false {G : Type} (call : G → List K → PyM G (List K)) (f h : G) (x y : List K)
    (g : List K → List K) (hf : call f x f = (.ok y, h)) (hh : ∀ x, call h x h = (.ok (g x), h))
    (xs : List (List K)) : wrapper call (x :: xs) f = (.ok (y :: xs.map g), h) := by
  have hr : ∀ xs, wrapper call xs h = (.ok (xs.map g), h) := by
    intro xs
    induction xs with
    | nil => rfl
    | cons x r ih => simp only [wrapper, hh, ih, List.map_cons]
  simp only [wrapper, hf, hr]

/-- `true` stands for the outer function x, which uses the inner one (`false`, 100): its neighbouring
point 1 gives 100 -/
example : wrapper (fun (b : Bool) (x : List ℚ) (_ : Bool) =>
    (if b then (Except.ok x, false) else (.ok [100], false))) [[0], [1]] true =
      (.ok [[0], [100]], false) :=
  C82_nested_false _ true false [0] [0] (fun _ => [100]) rfl (fun _ => rfl) [[1]]

end Newton
end Xboa
