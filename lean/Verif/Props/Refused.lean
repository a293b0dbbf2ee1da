import Verif.Props.Amplitude
import Verif.Props.BunchDerived
import Verif.Props.BunchHistogram
import Verif.Props.BunchInternal
import Verif.Props.BunchWrite
import Verif.Props.ClosedOrbit
import Verif.Props.EllipseFunction
import Verif.Props.FFTTune
import Verif.Props.Figures
import Verif.Props.Grid
/-
Calls that are refused, and what they leave behind: further parts of C35, C61, C76, C77, C79, C80, C97,
C102, C108 and C112.
-/
set_option linter.unusedSectionVars false
namespace Xboa
open TextIO

section general
variable {K : Type} [Field K] [LinearOrder K] [IsStrictOrderedRing K]

/-! ### C77 -/

/-- C77: the functions of one variable raise IndexError if they are given none. -/
theorem C77_no_variables (L : LinAlg K) (E : Ext K) (w : BWorld K) (b : Bunch K) (name : String)
    (h : name ∈ ["dispersion", "dispersion_prime", "mean", "standard_deviation"]) :
    Bunch.get L E w b name [] = .error .IndexError := by
  simp only [List.mem_cons, List.not_mem_nil, or_false] at h
  rcases h with rfl | rfl | rfl | rfl <;> rfl

example : Bunch.get anyLin ratExt exWorld exBunch "mean" [] = .error .IndexError :=
  C77_no_variables _ _ _ _ _ (by decide)

/-! ### C76 -/

/-- C76: if the comparator raises for one of the hits, get_hits raises; the hits before do not matter. -/
theorem C76_comparator (E : Ext K) (w : BWorld K) (v : String) (value : K) (comp : K → K → Option Bool)
    (val : Nat → K) : ∀ hits : List Nat, (∀ i ∈ hits, Bunch.hitNum E w i v = .ok (val i)) →
      (∃ i ∈ hits, comp (val i) value = none) →
      Bunch.getHits E w v value comp hits = .error .TypeError
  | [], _, h => by simp at h
  | i :: r, h, hn => by
    rw [Bunch.getHits, h i (by simp)]
    simp only
    cases hc : comp (val i) value with
    | none => rfl
    | some c =>
      obtain ⟨j, hj, hjn⟩ := hn
      have hjr : j ∈ r := by
        rcases List.mem_cons.mp hj with rfl | h
        · rw [hc] at hjn; simp at hjn
        · exact h
      simp only [C76_comparator E w v value comp val r (fun k hk => h k (by simp [hk])) ⟨j, hjr, hjn⟩]

/-- a comparator that raises for 1 only -/
example : Bunch.getHits ratExt exWorld "x" 0 (fun a _ => if a = 1 then none else some true) exBunch.hits =
    .error .TypeError :=
  C76_comparator ratExt exWorld "x" 0 _ (fun i => i) _ (fun i _ => rfl) ⟨1, by decide, by decide +kernel⟩

/-! ### C61 -/

/-- C61: covariances_set can be used as a condition if no matrix is set (it is False) or a matrix of one element
(it is True), for no other matrix. -/
theorem C61_condition (b : Bunch K) (c : Bool) :
    Bunch.covariancesSet b = .ok c ↔
      (b.covs = none ∧ c = false) ∨ (∃ M, b.covs = some M ∧ M.rows * M.cols = 1 ∧ c = true) := by
  unfold Bunch.covariancesSet
  cases h : b.covs with
  | none => simp [eq_comm]
  | some M =>
    by_cases hM : M.rows * M.cols = 1
    · simp only [ne_eq, hM, not_true_eq_false, if_false, Except.ok.injEq, Option.some.injEq]
      exact ⟨fun h => .inr ⟨M, rfl, hM, h.symm⟩, fun h => by
        rcases h with ⟨h, -⟩ | ⟨_, _, _, h⟩
        · simp at h
        · exact h.symm⟩
    · simp only [ne_eq, hM, not_false_eq_true, if_true]
      constructor
      · intro h; simp at h
      · rintro (⟨h, -⟩ | ⟨M', h, h1, -⟩)
        · simp at h
        · simp only [Option.some.injEq] at h
          subst h
          exact absurd h1 hM

example : Bunch.covariancesSet { exBunch with covs := some ⟨1, 1, fun _ _ => 3⟩ } = .ok true :=
  (C61_condition _ _).mpr (.inr ⟨_, rfl, rfl, rfl⟩)

/-! ### C102 -/

/-- C102: a covariance matrix that does not fit the number of axes raises ValueError. -/
theorem C102_size {L : LinAlg K} (hL : L.Lawful) (E : Ext K) (w : BWorld K) (b : Bunch K) (hit : Nat)
    (axes cl : List String) (hcl : Bunch.covList w.geo axes = .ok cl) (vals : String → K)
    (hv : ∀ v ∈ cl, Bunch.hitNum E w hit v = .ok (vals v)) (M : Mat K) (hM : M.rows = M.cols)
    (hdet : M.det ≠ 0) (hsize : M.rows ≠ 2 * axes.length) (d : List (String × K)) (hd : d ≠ []) :
    Amp.getAmplitudeWith L E w b hit axes (some M) (d.map fun p => (p.1, .flt p.2)) =
      .error .ValueError := by
  obtain ⟨N, hN⟩ := hL.inv_ok M hM hdet
  obtain ⟨hN1, -, -⟩ := hL.inv_mul M N hM hN
  have hnum : ∀ d : List (String × K), Bunch.numDict (d.map fun p => (p.1, PyVal.flt p.2)) = .ok d := by
    intro d
    induction d with
    | nil => rfl
    | cons p r ih => simp only [List.map_cons, Bunch.numDict, ih]
  have hne : (d.map fun p => (p.1, PyVal.flt p.2)).isEmpty = false := by
    cases d with
    | nil => exact absurd rfl hd
    | cons => rfl
  have hvec := get_vector_ok E (w.hview hit) vals d cl (fun v h => hv v h)
  have hlen := covList_length w.geo axes cl hcl
  have hbad : N.rows ≠ cl.length := by rw [hN1, hlen]; exact hsize
  unfold Amp.getAmplitudeWith
  simp only [hcl, hne, hnum, hvec, Bunch.emitCov, hN, bind, Except.bind, Bool.false_eq_true,
    if_false, List.length_map, if_pos hbad]

/-- a matrix of three variables for the axis x -/
example : Amp.getAmplitudeWith realLin realExt Amp.twiceWorld Amp.twiceBunch 0 ["x"]
    (some ⟨3, 3, fun i j => if i = j then 1 else 0⟩) ([("x", 0)].map fun p => (p.1, .flt p.2)) = .error .ValueError :=
  C102_size realLin_lawful realExt Amp.twiceWorld Amp.twiceBunch 0 ["x"] ["x", "px"] (by
      simp [Bunch.covList, Bunch.momVar, Bunch.axisList, Amp.twiceWorld]) (fun v => Amp.twiceVals v 0)
    (Amp.twice_values 0) _ rfl (by
      rw [Bunch.det_toM (n := 3) rfl, Matrix.det_fin_three]
      norm_num [Bunch.toM]) (by simp) [("x", 0)] (by simp)

/-! ### C35 -/

/-- C35: with a matrix whose inverse has no zero, and a negative value, at a grid point off the centre make_shell
raises ValueError. -/
theorem C35_indefinite (L : LinAlg K) (E : Ext K) (n : Nat) (A N : Mat K) (hsq : A.rows = A.cols)
    (hinv : L.inv A = some N)
    (hz : ∀ v ∈ Common.makeGrid A.rows n, 1 / 1000000000 < normSq v → Bunch.quad N v ≠ 0)
    (hneg : ∃ v ∈ Common.makeGrid A.rows n, 1 / 1000000000 < normSq v ∧ Bunch.quad N v < 0) :
    Common.makeShell L E n A none = .error .ValueError := by
  have key : ∀ grid : List (List K), (∀ v ∈ grid, 1 / 1000000000 < normSq v → Bunch.quad N v ≠ 0) →
      (∃ v ∈ grid, 1 / 1000000000 < normSq v ∧ Bunch.quad N v < 0) →
      Common.shellLoop E N (List.replicate A.rows 0) grid = .error .ValueError := by
    intro grid
    induction grid with
    | nil => intro _ h; simp at h
    | cons v r ih =>
      intro hz ⟨u, hu, hu1, hu2⟩
      rw [Common.shellLoop]
      by_cases hv : (v.map (fun x => x * x)).sum > 1 / 1000000000
      · rw [if_pos hv]
        by_cases hq : Bunch.quad N v < 0
        · simp only [Common.normaliseVector, if_pos hq]
        · have hur : u ∈ r := by
            rcases List.mem_cons.mp hu with rfl | h
            · exact absurd hu2 hq
            · exact h
          simp only [Common.normaliseVector, if_neg hq, if_neg (hz v (by simp) hv),
            ih (fun x hx => hz x (by simp [hx])) ⟨u, hur, hu1, hu2⟩]
      · rw [if_neg hv]
        have hur : u ∈ r := by
          rcases List.mem_cons.mp hu with rfl | h
          · exact absurd hu1 hv
          · exact h
        exact ih (fun x hx => hz x (by simp [hx])) ⟨u, hur, hu1, hu2⟩
  unfold Common.makeShell
  rw [if_neg (by simpa using hsq), hinv]
  simp only [Option.getD_none, List.length_replicate, ne_eq, not_true_eq_false, if_false]
  exact key _ hz hneg

/-- the matrix (-1) of one variable -/
example : Common.makeShell (⟨fun M => some M, fun _ _ => 0, fun M => (fun _ => 0, M)⟩ : LinAlg ℚ) ratExt 3
    ⟨1, 1, fun _ _ => -1⟩ none = .error .ValueError :=
  C35_indefinite _ _ _ _ _ rfl rfl (by decide +kernel) (by decide +kernel)

end general

/-! ### C97 -/

namespace BunchWrite
variable {K : Type} [Field K] [LinearOrder K] [IsStrictOrderedRing K] [FloorRing K] {W : Type}

/-- C97: hit_write_user changes no hit, also if it raises half way. -/
theorem C97_unchanged (E : Ext K) (T : Text K W) (us : List (String × String)) (fmt : List String)
    (comparator : Bool) (b : Bunch K) (s : WList K W) :
    (hitWriteUser E T us fmt comparator b s).2.hits = s.hits ∧
      (hitWriteUser E T us fmt comparator b s).2.wc = s.wc := by
  have key : ∀ (l : List Nat) (s : WList K W), (userLoop E T us fmt l s).2.hits = s.hits ∧
      (userLoop E T us fmt l s).2.wc = s.wc := by
    intro l
    induction l with
    | nil => intro s; exact ⟨rfl, rfl⟩
    | cons i r ih =>
      intro s
      have h := writeFormatted_hit E T us fmt ⟨s.hits i, s.wc⟩ s.file
      have hupd : (fun j => if j = i then s.hits i else s.hits j) = s.hits := by
        funext j
        split
        · rename_i e; rw [e]
        · rfl
      have hstep : userLoop E T us fmt (i :: r) s =
          match writeFormatted E T us fmt (⟨s.hits i, s.wc⟩, s.file) with
          | (.error e, (h, f)) => (.error e, ⟨fun j => if j = i then h.core else s.hits j, h.wc, f⟩)
          | (.ok _, (h, f)) => userLoop E T us fmt r ⟨fun j => if j = i then h.core else s.hits j, h.wc, f⟩ := rfl
      rw [hstep]
      rcases hw : writeFormatted E T us fmt (⟨s.hits i, s.wc⟩, s.file) with ⟨res, h', f⟩
      rw [hw] at h
      simp only at h
      subst h
      cases res with
      | error e => exact ⟨hupd, rfl⟩
      | ok _ =>
        simp only [hupd]
        exact ih _
  unfold hitWriteUser
  cases comparator
  · exact key _ _
  · exact ⟨rfl, rfl⟩

end BunchWrite

/-! ### C112 -/

namespace Figures
variable {K : Type} [Field K] [LinearOrder K] [IsStrictOrderedRing K]

/-- **C112, size of the points**: a scatter plot with a size for the points raises TypeError and shows nothing. -/
theorem C112_size_false (xs ys : List K) (hx : xs ≠ []) (hl : xs.length = ys.length) (xl yl : String)
    (f : Option Int) (s : State K) :
    (makeScatter xs xl ys yl true f s).1 = .error .TypeError ∧
      Added s (makeScatter xs xl ys yl true f s).2 (target s f) [] := by
  have : ¬ (xs.length = 0 ∨ xs.length ≠ ys.length) := by
    rintro (h | h)
    · exact hx (List.length_eq_zero_iff.mp h)
    · exact h hl
  simp only [makeScatter, if_neg this, if_true]
  exact ⟨(plotOn_error _ _ s).1, (plotOn_error _ _ s).2.1⟩

example : ([1, 2] : List ℚ) ≠ [] ∧ ([1, 2] : List ℚ).length = ([3, 4] : List ℚ).length := by decide +kernel

end Figures

/-! ### C108 -/

namespace EllipseFunction
variable {K : Type} [Field K] [LinearOrder K] [IsStrictOrderedRing K]

/-- C108: with a mean of fewer than two variables, or a matrix of one, IndexError is raised. -/
theorem C108_one_variable {L : LinAlg K} (hL : L.Lawful) {n : Nat} {V : Mat K} (hV : Regular n V)
    {mean : List K} (h : n < 2 ∨ mean.length < 2) (contours : Option (List K))
    (xmin xmax ymin ymax : Option K) :
    makeRootEllipseFunction L mean V contours xmin xmax ymin ymax = .error .IndexError := by
  obtain ⟨N, hN⟩ := hL.inv_ok V (by rw [hV.rows, hV.cols]) hV.det
  obtain ⟨h1, h2, -, -⟩ := inv_entries hL hV hN
  unfold makeRootEllipseFunction
  rw [hN]
  match mean, h with
  | [], _ => rfl
  | [_], _ => rfl
  | m0 :: m1 :: rest, h =>
    have hn : N.rows < 2 ∨ N.cols < 2 := by
      rcases h with h | h
      · exact .inl (by omega)
      · simp at h
    simp only [if_pos hn]

example : makeRootEllipseFunction realLin [3, 4] ⟨1, 1, fun _ _ => 2⟩ none none none none none =
    .error .IndexError :=
  C108_one_variable realLin_lawful (n := 1) ⟨rfl, rfl, fun _ _ _ _ => rfl, by
    rw [Bunch.det_toM (n := 1) rfl, Matrix.det_fin_one]
    norm_num [Bunch.toM]⟩ (.inl (by norm_num)) _ _ _ _ _

end EllipseFunction

/-! ### C80 -/

namespace ClosedOrbit
variable {K : Type} [Field K] [LinearOrder K] [IsStrictOrderedRing K] {H : Type}

/-- C80: how the generator stops.  If the mean noise of the last iteration yielded is below its standard
deviation, the loop over the generator raises RuntimeError; so does it after max_iterations iterations. -/
theorem C80_stop (L : LinAlg K) (E : Ext K) (B : Beam H K) (epsMax : K) (useSeed : Bool)
    (keys : List String) (n : Nat) : ∀ (m : Nat) (h : H) (before : List (Iteration K)) (it : Iteration K),
    (findClosedOrbit L E B h epsMax useSeed keys n (some m)).1 = before ++ [it] →
    (∃ mean sigma, meanNoise (it.noise.getD []) = .ok mean ∧ sigmaNoise E (it.noise.getD []) = .ok sigma ∧
      mean < sigma) ∨ before.length + 1 = m ∧ (∃ mean sigma, meanNoise (it.noise.getD []) = .ok mean ∧
        sigmaNoise E (it.noise.getD []) = .ok sigma) ∧ (∀ h', ∃ h'', setAll B (keys.zip (it.centre.getD [])) h' = .ok h'') →
    (findClosedOrbit L E B h epsMax useSeed keys n (some m)).2 = .error .RuntimeError := by
  intro m
  induction m with
  | zero => intro h before it h1 _; simp [findClosedOrbit, orbitLoop] at h1
  | succ m ih =>
    intro h before it
    simp only [findClosedOrbit] at ih ⊢
    rw [orbitLoop]
    cases hx : getPoints B useSeed keys h n with
    | error e => intro h1; simp at h1
    | ok xs =>
      simp only
      rcases hc : calculateEllipse L E (newIteration xs epsMax) with ⟨res, it0⟩
      cases res with
      | error e =>
        simp only
        split_ifs <;> intro h1 <;> simp at h1
      | ok u =>
        simp only
        cases hm : meanNoise (it0.noise.getD []) with
        | error e =>
          simp only
          intro h1 h2
          have : before = [] ∧ it0 = it := by
            cases before with
            | nil => exact ⟨rfl, by simpa using h1⟩
            | cons a r => simp at h1
          obtain ⟨rfl, rfl⟩ := this
          rcases h2 with ⟨a, b, h, _⟩ | ⟨_, ⟨a, b, h, _⟩, _⟩ <;> rw [hm] at h <;> simp at h
        | ok mean =>
          cases hs : sigmaNoise E (it0.noise.getD []) with
          | error e =>
            simp only
            intro h1 h2
            have : before = [] ∧ it0 = it := by
              cases before with
              | nil => exact ⟨rfl, by simpa using h1⟩
              | cons a r => simp at h1
            obtain ⟨rfl, rfl⟩ := this
            rcases h2 with ⟨a, b, _, h, _⟩ | ⟨_, ⟨a, b, _, h⟩, _⟩ <;> rw [hs] at h <;> simp at h
          | ok sigma =>
            simp only
            by_cases hlt : mean < sigma
            · rw [if_pos hlt]; intro _ _; rfl
            · rw [if_neg hlt]
              cases hset : setAll B (keys.zip (it0.centre.getD [])) h with
              | error e =>
                simp only
                intro h1 h2
                have : before = [] ∧ it0 = it := by
                  cases before with
                  | nil => exact ⟨rfl, by simpa using h1⟩
                  | cons a r => simp at h1
                obtain ⟨rfl, rfl⟩ := this
                rcases h2 with ⟨a, b, h1, h2, h3⟩ | ⟨_, _, hset'⟩
                · rw [hm] at h1; rw [hs] at h2; cases h1; cases h2; exact absurd h3 hlt
                · obtain ⟨h'', e''⟩ := hset' h
                  rw [hset] at e''; simp at e''
              | ok h' =>
                simp only
                intro h1 h2
                cases before with
                | nil =>
                  simp only [List.nil_append, List.cons.injEq] at h1
                  obtain ⟨rfl, h1⟩ := h1
                  rcases h2 with ⟨a, b, g1, g2, g3⟩ | ⟨hl, _, _⟩
                  · rw [hm] at g1; rw [hs] at g2; cases g1; cases g2; exact absurd g3 hlt
                  · simp at hl
                    subst hl
                    rfl
                | cons a r =>
                  simp only [List.cons_append, List.cons.injEq] at h1
                  obtain ⟨rfl, h1⟩ := h1
                  refine ih h' r it h1 ?_
                  rcases h2 with h2 | ⟨hl, h2⟩
                  · exact .inl h2
                  · exact .inr ⟨by simp at hl; omega, h2⟩

/-- the beam of C80_linear with variables that can be set, one iteration -/
example : (findClosedOrbit realLin realExt { turnBeam with set := fun h _ _ => .ok h } (2, 2) 10 false
    ["x", "px"] 4 (some 1)).2 = .error .RuntimeError := by
  have hrefl : ∀ h, ({ turnBeam with set := fun h _ _ => .ok h } : Beam (ℚ × ℚ) ℝ).eq h h = true := turn_refl
  have hset : ∀ (l : List (String × ℝ)) (h : ℚ × ℚ),
      ∃ h', setAll ({ turnBeam with set := fun h _ _ => .ok h } : Beam (ℚ × ℚ) ℝ) l h = .ok h' := by
    intro l
    induction l with
    | nil => exact fun h => ⟨h, rfl⟩
    | cons p r ih => exact fun h => ih h
  obtain ⟨it, h1, h2, -⟩ := C80_linear realLin_lawful realExt_lawful { turnBeam with set := fun h _ _ => .ok h }
    hrefl (2, 2) 10 false ["x", "px"] (by simp) 4 (by norm_num) 1 (by norm_num) _
    (by norm_num [getPoints, pointsLoop, turnBeam, values, FFTTune.mapErr, show ("px" = "x") = False by decide])
    turn_det turn_in ![1, 2] (!![0, -1; 1, 0]) (by
      rw [Matrix.det_fin_two]
      norm_num) (by
      intro k hk i
      have hk' : k < 4 := hk
      have hs : ∀ f : Fin ["x", "px"].length → ℝ, ∑ j, f j = f (0 : Fin 2) + f (1 : Fin 2) :=
        fun f => Fin.sum_univ_two f
      rw [hs]
      interval_cases k <;> (fin_cases i <;> norm_num))
  obtain ⟨g1, g2⟩ := C80_partial realLin_lawful realExt_lawful { turnBeam with set := fun h _ _ => .ok h }
    hrefl (2, 2) 10 false ["x", "px"] (by simp) 4 (by norm_num) 1
  generalize hr : (findClosedOrbit realLin realExt { turnBeam with set := fun h _ _ => .ok h } (2, 2) 10 false
    ["x", "px"] 4 (some 1)).1 = its at h1 g1 g2
  match its, h1, g1, g2 with
  | [a], h1, _, g2 =>
    have ha : a = it := by simpa using h1
    subst ha
    obtain ⟨-, -, ⟨k, s, -, -, -, -, hn⟩, -⟩ := g2
    refine C80_stop realLin realExt _ 10 false ["x", "px"] 4 1 (2, 2) [] a hr (.inr ⟨rfl, ?_, hset _⟩)
    have hne : a.noise.getD [] ≠ [] := by rw [hn, h2]; simp
    obtain ⟨sg, e1, -, -⟩ := C80_sigma realExt_lawful _ hne
    exact ⟨_, sg, meanNoise_ok _ hne, e1⟩

end ClosedOrbit

/-! ### C79 -/

namespace FFTTune
variable {K : Type} [Field K] [LinearOrder K] [IsStrictOrderedRing K]

/-- the data multiplied by the Hanning window 2 sin^2(pi m / n) -/
def windowed (F : Fourier K) (u : List K) : List K :=
  (List.range u.length).map fun m : Nat => 2 * F.sin (F.pi * (m : K) / (u.length : K)) ^ 2 * u.getD m 0

/-- C79: with the Hanning filter the strengths between the points of the spectrum are those of the data
multiplied by the window. -/
theorem C79_hanning (F : Fourier K) (E : Ext K) (u : List K) (k : K) :
    sft F E true u k = strength F E (windowed F u) (k * ((u.length : K) + 1) / (u.length : K)) := by
  have hl : (windowed F u).length = u.length := by simp [windowed]
  have hd : ∀ m ∈ Finset.range u.length, (windowed F u).getD m 0 =
      2 * F.sin (F.pi * (m : K) / (u.length : K)) ^ 2 * u.getD m 0 := by
    intro m hm
    rw [Finset.mem_range] at hm
    simp [windowed, List.getD_eq_getElem?_getD, hm]
  unfold sft strength
  simp only [if_true]
  have := foldl_pair
    (fun p : K × Nat => 2 * F.sin (F.pi * (p.2 : K) / (u.length : K)) ^ 2 * p.1 *
      F.cos (2 * F.pi * (p.2 : K) * k * ((u.length : K) + 1) / (u.length : K)))
    (fun p : K × Nat => 2 * F.sin (F.pi * (p.2 : K) / (u.length : K)) ^ 2 * p.1 *
      F.sin (2 * F.pi * (p.2 : K) * k * ((u.length : K) + 1) / (u.length : K)))
    u.zipIdx 0 0
  rw [this,
    sum_zipIdx (fun a m => 2 * F.sin (F.pi * (m : K) / (u.length : K)) ^ 2 * a *
      F.cos (2 * F.pi * (m : K) * k * ((u.length : K) + 1) / (u.length : K))),
    sum_zipIdx (fun a m => 2 * F.sin (F.pi * (m : K) / (u.length : K)) ^ 2 * a *
      F.sin (2 * F.pi * (m : K) * k * ((u.length : K) + 1) / (u.length : K)))]
  simp only [zero_add, hl]
  have hf : ∀ m : Nat, 2 * F.pi * (m : K) * k * ((u.length : K) + 1) / (u.length : K) =
      2 * F.pi * (k * ((u.length : K) + 1) / (u.length : K)) * (m : K) := by
    intro m; ring
  simp only [hf]
  have hc := Finset.sum_congr rfl fun (m : Nat) hm =>
    congrArg (· * F.cos (2 * F.pi * (k * ((u.length : K) + 1) / (u.length : K)) * (m : K))) (hd m hm)
  have hs := Finset.sum_congr rfl fun (m : Nat) hm =>
    congrArg (· * F.sin (2 * F.pi * (k * ((u.length : K) + 1) / (u.length : K)) * (m : K))) (hd m hm)
  rw [hc, hs]

/-- C79: the Hanning filter is not used for the coarse search: the spectrum whose peaks are looked for is that of the data
without the window, whether the filter is on or off, so that the strengths of the two halves of the search do
not belong to the same data. -/
theorem C79_hanning_spectrum (F : Fourier K) (E : Ext K) (pf : List K → Except Err (List Nat)) (s : State K) :
    (fftFindPeaks F E pf { s with hanning := true }).1 = (fftFindPeaks F E pf { s with hanning := false }).1 ∧
    (fftFindPeaks F E pf { s with hanning := true }).2 =
      { (fftFindPeaks F E pf { s with hanning := false }).2 with hanning := true } := by
  simp only [fftFindPeaks, findPeaks]
  generalize pf _ = found
  cases found with
  | error e => exact ⟨rfl, rfl⟩
  | ok found =>
    simp only
    cases found.insertionSort (· ≤ ·) with
    | nil => exact ⟨rfl, rfl⟩
    | cons a r =>
      simp only
      generalize mapErr _ _ = xs
      cases xs with
      | error e => exact ⟨rfl, rfl⟩
      | ok xs =>
        simp only
        generalize mapErr _ _ = ys
        cases ys with
        | error e => exact ⟨rfl, rfl⟩
        | ok ys => exact ⟨rfl, rfl⟩

end FFTTune
end Xboa
