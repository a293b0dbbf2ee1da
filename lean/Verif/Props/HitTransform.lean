import Verif.Model.HitTransform
import Verif.Props.MassShell
import Mathlib.Tactic.IntervalCases
import Mathlib.Algebra.BigOperators.Fin
/-!
Property C16: translations and abelian transformations.
-/
set_option linter.unusedSectionVars false
namespace Xboa
variable {K : Type} [Field K] [LinearOrder K] [IsStrictOrderedRing K]

/-- The number read for a double variable. -/
theorem Hit.get_dbl (E : Ext K) (s : HS K) (n : String) (hn : n ∈ dblNames) :
    ∃ a, Hit.get E n s = (.ok (.flt a), s) := by
  obtain ⟨r, _, hrow⟩ := row_dbl n hn
  refine ⟨r.toGet.eval s, ?_⟩
  have : Hitcore.get s n = .ok (.flt (r.toGet.eval s)) := by rw [Hitcore.get_eq, hrow]
  simp [Hit.get, this]

/-- `s` reads `a` for `n`. -/
def Reads (E : Ext K) (s : HS K) (n : String) (a : K) : Prop := (Hit.get E n s).1 = .ok (.flt a)

theorem Reads.get {E : Ext K} {s : HS K} {n : String} {a : K} (hn : n ∈ dblNames)
    (h : Reads E s n a) : Hit.get E n s = (.ok (.flt a), s) := by
  obtain ⟨b, hb⟩ := Hit.get_dbl E s n hn
  unfold Reads at h
  rw [hb] at h ⊢
  simp at h
  rw [h]

theorem Reads.unique {E : Ext K} {s : HS K} {n : String} {a b : K}
    (h : Reads E s n a) (h' : Reads E s n b) : a = b := by
  unfold Reads at h h'
  rw [h] at h'
  simpa using h'

theorem SameExcept.reads {E : Ext K} {vs : List String} {s s' : HS K} (h : SameExcept E vs s s')
    {n : String} {a : K} (hn : n ∈ dblNames) (hv : n ∉ vs) : Reads E s' n a ↔ Reads E s n a := by
  unfold Reads
  rw [h n (dblNames_sub n hn) hv]

theorem SameExcept.refl (E : Ext K) (vs : List String) (s : HS K) : SameExcept E vs s s :=
  fun _ _ _ => rfl

/-- Assignment of a double variable, in terms of readings. -/
theorem Hit.set_dbl (E : Ext K) (s : HS K) (hwf : s.wc.WF) (n : String) (hn : n ∈ dblNames) (a : K) :
    ∃ s', Hit.set E n (.flt a) s = (.ok (), s') ∧ s'.wc.WF ∧ Reads E s' n a ∧ SameExcept E [n] s s' := by
  obtain ⟨s', h1, h2, h3⟩ := C08_set_get_double E s hwf n hn a
  refine ⟨s', h1, ?_, h2, fun m hm hmn => h3 m hm (by simpa using hmn)⟩
  obtain ⟨r, hr, _⟩ := row_dbl n hn
  have : Hit.set E n (.flt a) s = (.ok (), r.exec s a) := by
    simp [Hit.set, Hitcore.set, hr, asDouble]
  rw [this] at h1
  rw [← (Prod.mk.inj h1).2]
  exact DSet.exec_wf s hwf r a

/-! ## translate -/

/-- A translation dictionary: distinct names of stored double variables and floats. -/
def TransDict (d : List (String × K)) : Prop :=
  (d.map Prod.fst).Nodup ∧ ∀ n ∈ d.map Prod.fst, n ∈ dblNames

/-- The dictionary as Python values. -/
def pyDict (d : List (String × K)) : List (String × PyVal K) := d.map (fun p => (p.1, .flt p.2))

theorem translate_go (E : Ext K) : ∀ (d : List (String × K)) (_ : TransDict d) (s : HS K)
    (_ : s.wc.WF), ∃ s', Hit.translate.go E (pyDict d) s = (.ok (), s') ∧ s'.wc.WF ∧
      SameExcept E (d.map Prod.fst) s s' ∧
      ∀ n v, (n, v) ∈ d → ∀ a, Reads E s n a → Reads E s' n (v + a)
  | [], _, s, hwf => ⟨s, rfl, hwf, SameExcept.refl E _ s, by simp⟩
  | (k, v) :: r, hd, s, hwf => by
    obtain ⟨hnd, hsub⟩ := hd
    simp only [List.map_cons, List.nodup_cons, List.mem_cons, forall_eq_or_imp] at hnd hsub
    obtain ⟨a, ha⟩ := Hit.get_dbl E s k hsub.1
    obtain ⟨s1, h1, hwf1, hr1, hse1⟩ := Hit.set_dbl E s hwf k hsub.1 (v + a)
    obtain ⟨s2, h2, hwf2, hse2, hr2⟩ := translate_go E r ⟨hnd.2, hsub.2⟩ s1 hwf1
    refine ⟨s2, ?_, hwf2, ?_, ?_⟩
    · simp [pyDict, Hit.translate.go, ha, Hit.addVal, h1]
      exact h2
    · exact (hse1.trans hse2).mono (by simp)
    · intro n w hnw b hb
      simp only [List.mem_cons, Prod.mk.injEq] at hnw
      rcases hnw with ⟨rfl, rfl⟩ | hnw
      · have : b = a := Reads.unique hb (by unfold Reads; rw [ha])
        subst this
        exact (hse2.reads hsub.1 hnd.1).2 hr1
      · have hn : n ∈ r.map Prod.fst := List.mem_map_of_mem hnw
        have hnk : n ∉ [k] := by
          simp only [List.mem_singleton]
          rintro rfl
          exact hnd.1 hn
        exact hr2 n w hnw b ((hse1.reads (hsub.2 n hn) hnk).2 hb)

/-- C16, translate: with a dictionary of stored variables and no mass shell variable, translate
succeeds, adds the given value to each named variable and changes no other. -/
theorem C16_translate (E : Ext K) (d : List (String × K)) (hd : TransDict d) (s : HS K)
    (hwf : s.wc.WF) :
    ∃ s', Hit.translate E (pyDict d) "" s = (.ok (), s') ∧ s'.wc.WF ∧
      SameExcept E (d.map Prod.fst) s s' ∧
      ∀ n v, (n, v) ∈ d → ∀ a, Reads E s n a → Reads E s' n (v + a) := by
  obtain ⟨s', h1, h2, h3, h4⟩ := translate_go E d hd s hwf
  refine ⟨s', ?_, h2, h3, h4⟩
  simp [Hit.translate, h1, Hit.shell_empty]

/-- C16_partial, translating back: for dictionaries of distinct stored double variables
translating by d and then by -d restores every variable.  Missing: derived variables, for which
it is false (`C16_translate_back_false`). -/
theorem C16_translate_back_partial (E : Ext K) (d : List (String × K)) (hd : TransDict d) (s : HS K)
    (hwf : s.wc.WF) :
    ∃ s' s'', Hit.translate E (pyDict d) "" s = (.ok (), s') ∧
      Hit.translate E (pyDict (d.map (fun p => (p.1, -p.2)))) "" s' = (.ok (), s'') ∧
      ∀ n ∈ hitVariables, (Hit.get E n s'').1 = (Hit.get E n s).1 := by
  have hmap : (d.map (fun p => (p.1, -p.2))).map Prod.fst = d.map Prod.fst := by
    simp [Function.comp_def]
  obtain ⟨s', h1, hwf1, hse1, hr1⟩ := C16_translate E d hd s hwf
  obtain ⟨s'', h2, _, hse2, hr2⟩ := C16_translate E (d.map (fun p => (p.1, -p.2)))
    (by unfold TransDict; rw [hmap]; exact hd) s' hwf1
  refine ⟨s', s'', h1, h2, ?_⟩
  intro n hn
  by_cases hnd : n ∈ d.map Prod.fst
  · obtain ⟨⟨n', v⟩, hmem, rfl⟩ := List.mem_map.1 hnd
    obtain ⟨a, ha⟩ := Hit.get_dbl E s n' (hd.2 _ hnd)
    have hra : Reads E s n' a := by unfold Reads; rw [ha]
    have := hr2 n' (-v) (List.mem_map.2 ⟨(n', v), hmem, rfl⟩) _ (hr1 n' v hmem a hra)
    simp only [neg_add_cancel_left] at this
    unfold Reads at this hra
    rw [this, hra]
  · rw [hse2 n hn (by rw [hmap]; exact hnd), hse1 n hn hnd]

/-- C16 is false for dictionaries with derived variables: translating by {pz: 1, x': 1} and back
moves px from 0 to 1. -/
theorem C16_translate_back_false : ∃ (s s' s'' : HS ℝ),
    Hit.translate realExt [("pz", .flt 1), ("x'", .flt 1)] "" s = (.ok (), s') ∧
    Hit.translate realExt [("pz", .flt (-1)), ("x'", .flt (-1))] "" s' = (.ok (), s'') ∧
    s.core.d .px = 0 ∧ s''.core.d .px = 1 := by
  have hg : ∀ t : HS ℝ, Hit.get realExt "x'" t = Hit.ret Hit.get_xP t := fun _ => rfl
  have hs : ∀ (t : HS ℝ) (a : ℝ), Hit.set realExt "x'" (.flt a) t = Hit.set_xP (.flt a) t :=
    fun _ _ => rfl
  have h2 : ¬ Hit.pzTiny (2 : ℝ) := by unfold Hit.pzTiny; norm_num
  have h1 : ¬ Hit.pzTiny (1 : ℝ) := by unfold Hit.pzTiny; norm_num
  refine ⟨⟨Core.new.setD .pz 1, WC.new⟩,
    ⟨((Core.new.setD .pz 1).setD .pz 2).setD .px 2, WC.new⟩,
    ⟨((((Core.new.setD .pz 1).setD .pz 2).setD .px 2).setD .pz 1).setD .px 1, WC.new⟩, ?_, ?_, ?_, ?_⟩
  · simp [Hit.translate, Hit.translate.go, Hit.addVal, hg, hs, Hit.ret, Hit.get_xP, Hit.divF,
      Hit.set_xP, PyVal.arith, Hit.shell_empty, one_add_one_eq_two, h2, Core.new]
  · have : (-1 : ℝ) + 2 = 1 := by norm_num
    simp [Hit.translate, Hit.translate.go, Hit.addVal, hg, hs, Hit.ret, Hit.get_xP, Hit.divF,
      Hit.set_xP, PyVal.arith, Hit.shell_empty, this, h1, Core.new]
  · simp [Core.new]
  · simp

example : TransDict ([("x", 3), ("energy", -2), ("global_weight", 1)] : List (String × ℚ)) :=
  ⟨by decide, by decide⟩

/-! ## abelian_transformation -/

theorem get_vector_dbl (E : Ext K) (s : HS K) (rd : String → K) : ∀ (vars : List String),
    (∀ n ∈ vars, n ∈ dblNames ∧ Reads E s n (rd n)) →
    Hit.get_vector E vars [] s = (.ok (vars.map rd), s)
  | [], _ => rfl
  | k :: r, h => by
    simp only [List.mem_cons, forall_eq_or_imp] at h
    have ih := get_vector_dbl E s rd r h.2
    simp [Hit.get_vector, Hit.getNum, h.1.2.get h.1.1, ih, Hit.lookup0]

theorem setVector_dbl (E : Ext K) (rows : Nat) (vec : Nat → K) (t o : List (String × K)) :
    ∀ (vars : List String) (i : Nat) (_ : i + vars.length ≤ rows) (_ : vars.Nodup)
      (_ : ∀ n ∈ vars, n ∈ dblNames) (s : HS K) (_ : s.wc.WF),
      ∃ s', Hit.setVector E rows vec t o i vars s = (.ok (), s') ∧ s'.wc.WF ∧
        SameExcept E vars s s' ∧
        ∀ j (hj : j < vars.length), Reads E s' vars[j]
          (vec (i + j) + Hit.lookup0 t vars[j] + Hit.lookup0 o vars[j])
  | [], i, _, _, _, s, hwf => ⟨s, rfl, hwf, SameExcept.refl E _ s, by simp⟩
  | k :: r, i, hi, hnd, hsub, s, hwf => by
    simp only [List.nodup_cons, List.mem_cons, forall_eq_or_imp, List.length_cons] at hnd hsub hi
    obtain ⟨s1, h1, hwf1, hr1, hse1⟩ := Hit.set_dbl E s hwf k hsub.1
      (vec i + Hit.lookup0 t k + Hit.lookup0 o k)
    obtain ⟨s2, h2, hwf2, hse2, hr2⟩ := setVector_dbl E rows vec t o r (i + 1) (by omega) hnd.2 hsub.2
      s1 hwf1
    have hri : ¬ rows ≤ i := by omega
    refine ⟨s2, ?_, hwf2, (hse1.trans hse2).mono (by simp), ?_⟩
    · simp [Hit.setVector, hri, h1, h2]
    · intro j hj
      cases j with
      | zero => exact (hse2.reads hsub.1 hnd.1).2 hr1
      | succ j =>
        have := hr2 j (by simpa using hj)
        simpa [Nat.add_assoc, Nat.add_comm 1 j] using this

/-- C16, abelian_transformation: for distinct stored double variables v_0..v_{n-1} and an n x n
matrix R, V_out - O = R (V_in - O) + T holds componentwise and no other variable changes. -/
theorem C16_abelian (E : Ext K) (s : HS K) (hwf : s.wc.WF) (vars : List String) (hnd : vars.Nodup)
    (hsub : ∀ n ∈ vars, n ∈ dblNames) (R : Mat K) (hr : R.rows = vars.length)
    (hc : R.cols = vars.length) (T O : List (String × K)) (rd : String → K)
    (hrd : ∀ n ∈ vars, Reads E s n (rd n)) :
    ∃ s', Hit.abelian_transformation E vars R T O "" s = (.ok (), s') ∧ s'.wc.WF ∧
      SameExcept E vars s s' ∧
      ∀ i (hi : i < vars.length), Reads E s' vars[i]
        ((∑ j : Fin vars.length, R.entry i j * (rd vars[j] - Hit.lookup0 O vars[j]))
          + Hit.lookup0 T vars[i] + Hit.lookup0 O vars[i]) := by
  have hv := get_vector_dbl E s rd vars (fun n hn => ⟨hsub n hn, hrd n hn⟩)
  obtain ⟨s', h1, h2, h3, h4⟩ := setVector_dbl E R.rows (fun i => ∑ j ∈ Finset.range R.cols,
    R.entry i j * (List.zipWith (fun key a => a - Hit.lookup0 O key) vars (vars.map rd)).getD j 0)
    T O vars 0 (by omega) hnd hsub s hwf
  refine ⟨s', ?_, h2, h3, ?_⟩
  · simp only [Hit.abelian_transformation, PyM.bind_apply, hv, ne_eq]
    rw [if_neg (not_not.2 hc)]
    simp only [PyM.bind_apply, h1, Hit.shell_empty, PyM.pure_apply]
  · intro i hi
    have := h4 i hi
    simp only [Nat.zero_add] at this
    rw [hc, Finset.sum_range] at this
    convert this using 4 with j
    simp [List.getD_eq_getElem?_getD]

/-- C16, inverse: transforming with R, T, O and then with a left inverse of R, translation -T
and origin O + T restores the hit. -/
theorem C16_abelian_inverse (E : Ext K) (s : HS K) (hwf : s.wc.WF) (vars : List String)
    (hnd : vars.Nodup) (hsub : ∀ n ∈ vars, n ∈ dblNames) (R R' : Mat K)
    (hr : R.rows = vars.length ∧ R.cols = vars.length ∧ R'.rows = vars.length ∧ R'.cols = vars.length)
    (hinv : ∀ i k, i < vars.length → k < vars.length →
      ∑ j : Fin vars.length, R'.entry i j * R.entry j k = if i = k then 1 else 0)
    (T O T' O' : List (String × K))
    (hT : ∀ n ∈ vars, Hit.lookup0 T' n = -Hit.lookup0 T n)
    (hO : ∀ n ∈ vars, Hit.lookup0 O' n = Hit.lookup0 O n + Hit.lookup0 T n) :
    ∃ s' s'', Hit.abelian_transformation E vars R T O "" s = (.ok (), s') ∧
      Hit.abelian_transformation E vars R' T' O' "" s' = (.ok (), s'') ∧
      ∀ n ∈ hitVariables, (Hit.get E n s'').1 = (Hit.get E n s).1 := by
  classical
  have hex : ∀ n ∈ vars, ∃ a, Reads E s n a := fun n hn => by
    obtain ⟨a, ha⟩ := Hit.get_dbl E s n (hsub n hn)
    exact ⟨a, by unfold Reads; rw [ha]⟩
  let rd : String → K := fun n => if h : ∃ a, Reads E s n a then h.choose else 0
  have hrd : ∀ n ∈ vars, Reads E s n (rd n) := fun n hn => by
    simp only [rd, dif_pos (hex n hn)]
    exact (hex n hn).choose_spec
  obtain ⟨s', h1, hwf1, hse1, hr1⟩ := C16_abelian E s hwf vars hnd hsub R hr.1 hr.2.1 T O rd hrd
  let rd' : String → K := fun n => if h : ∃ a, Reads E s' n a then h.choose else 0
  have hrd' : ∀ n ∈ vars, Reads E s' n (rd' n) := fun n hn => by
    have hx : ∃ a, Reads E s' n a := by
      obtain ⟨a, ha⟩ := Hit.get_dbl E s' n (hsub n hn)
      exact ⟨a, by unfold Reads; rw [ha]⟩
    simp only [rd', dif_pos hx]
    exact hx.choose_spec
  obtain ⟨s'', h2, _, hse2, hr2⟩ := C16_abelian E s' hwf1 vars hnd hsub R' hr.2.2.1 hr.2.2.2 T' O' rd' hrd'
  refine ⟨s', s'', h1, h2, ?_⟩
  intro n hn
  by_cases hv : n ∈ vars
  · obtain ⟨i, hi, rfl⟩ := List.getElem_of_mem hv
    have hval : ∀ j : Fin vars.length, rd' vars[j] - Hit.lookup0 O' vars[j] =
        ∑ k : Fin vars.length, R.entry j k * (rd vars[k] - Hit.lookup0 O vars[k]) := by
      intro j
      have := Reads.unique (hrd' vars[j] (List.getElem_mem _)) (hr1 j j.2)
      rw [this, show Hit.lookup0 O' vars[j] = _ from hO _ (List.getElem_mem _)]
      simp only [Fin.getElem_fin]
      ring
    have := hr2 i hi
    have hfinal : (∑ j : Fin vars.length, R'.entry i j * (rd' vars[j] - Hit.lookup0 O' vars[j]))
          + Hit.lookup0 T' vars[i] + Hit.lookup0 O' vars[i] = rd vars[i] := by
      have : ∑ j : Fin vars.length, R'.entry i j * (rd' vars[j] - Hit.lookup0 O' vars[j]) =
          rd vars[i] - Hit.lookup0 O vars[i] := by
        simp only [hval, Finset.mul_sum]
        rw [Finset.sum_comm]
        have : ∀ k : Fin vars.length, ∑ j : Fin vars.length,
            R'.entry i j * (R.entry j k * (rd vars[k] - Hit.lookup0 O vars[k])) =
            if (⟨i, hi⟩ : Fin vars.length) = k then (rd vars[k] - Hit.lookup0 O vars[k]) else 0 := by
          intro k
          simp only [← mul_assoc, ← Finset.sum_mul]
          rw [hinv i k hi k.2]
          by_cases hik : i = k
          · have : (⟨i, hi⟩ : Fin vars.length) = k := Fin.ext hik
            rw [if_pos hik, if_pos this, one_mul]
          · have : (⟨i, hi⟩ : Fin vars.length) ≠ k := fun h => hik (by rw [← h])
            rw [if_neg hik, if_neg this, zero_mul]
        simp only [this, Finset.sum_ite_eq, Finset.mem_univ, if_true]
        rfl
      rw [this, hT _ (List.getElem_mem _), hO _ (List.getElem_mem _)]
      ring
    rw [hfinal] at this
    unfold Reads at this
    rw [this, hrd _ (List.getElem_mem _)]
  · rw [hse2 n hn hv, hse1 n hn hv]

/-- Non-vacuity: a drift-like transformation of (x, px) with its inverse. -/
example : ∃ R R' : Mat ℚ, R.rows = 2 ∧ R.cols = 2 ∧ (∀ i k, i < 2 → k < 2 →
      ∑ j : Fin 2, R'.entry i j * R.entry j k = if i = k then 1 else 0) ∧ R.entry 0 1 = 3 := by
  refine ⟨⟨2, 2, fun i j => if i = j then 1 else if i = 0 ∧ j = 1 then 3 else 0⟩,
    ⟨2, 2, fun i j => if i = j then 1 else if i = 0 ∧ j = 1 then -3 else 0⟩, rfl, rfl, ?_, rfl⟩
  intro i k hi hk
  interval_cases i <;> interval_cases k <;> simp [Fin.sum_univ_two]

end Xboa
