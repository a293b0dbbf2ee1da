import Verif.Model.Bunch
import Verif.Lemmas.HitNames
import Mathlib.Algebra.BigOperators.Group.List.Lemmas
import Mathlib.Algebra.BigOperators.Ring.List
import Mathlib.Algebra.Order.Ring.Rat
import Mathlib.Data.Rat.Cast.Defs
import Mathlib.Tactic.FieldSimp
import Mathlib.Tactic.Ring
import Mathlib.Tactic.NormNum
import Mathlib.Tactic.Linarith
import Verif.Props.HitStorage
/-
C19 (moments), C20 (partial mean dictionary), C55 (bunch weight).
-/
set_option linter.unusedSectionVars false
namespace Xboa
variable {K : Type} [Field K] [LinearOrder K] [IsStrictOrderedRing K]

/-! ### specification -/

/-- The weighted moment of the functions `fs` over a list of particles with weights `wt`. -/
def wmoment {ι : Type} (l : List ι) (wt : ι → K) (fs : List (ι → K)) : K :=
  (l.map (fun i => wt i * (fs.map (fun f => f i)).prod)).sum / (l.map wt).sum

/-- The weighted mean of one function. -/
def wmean {ι : Type} (l : List ι) (wt : ι → K) (f : ι → K) : K :=
  (l.map (fun i => wt i * f i)).sum / (l.map wt).sum

/-- The weight a hit shows to the user: `hit.get('weight')`. -/
def BWorld.weight (w : BWorld K) (i : Nat) : K := (w.hview i).userWeight

/-- A Python number. -/
def PyVal.num? : PyVal K → Option K
  | .flt v => some v
  | .int n => some (n : K)
  | _ => none

/-- A bunch whose C++ part holds the same hits, in an interpreter where no other weight context
has been installed, and without internal covariance matrix. -/
structure Bunch.Normal (w : BWorld K) (b : Bunch K) : Prop where
  sync : b.core = b.hits.map some
  ctx : w.hcur = w.bcur
  covs : b.covs = none

/-! ### lemmas -/

theorem foldl_add_eq_sum {ι : Type} (f : ι → K) (l : List ι) (a : K) :
    l.foldl (fun acc h => acc + f h) a = a + (l.map f).sum := by
  induction l generalizing a with
  | nil => simp
  | cons h t ih => simp [ih, add_assoc]

theorem foldl_mul_eq_prod {ι : Type} (f : ι → K) (l : List ι) (a : K) :
    l.foldl (fun acc h => acc * f h) a = a * (l.map f).prod := by
  induction l generalizing a with
  | nil => simp
  | cons h t ih => simp [ih, mul_assoc]

theorem Bunchcore.bunchWeight_eq (hs : List (HS K)) :
    Bunchcore.bunchWeight hs = (hs.map HS.userWeight).sum := by
  simp [Bunchcore.bunchWeight, foldl_add_eq_sum, HS.totalWeight_eq]

theorem Bunch.bunchWeight_eq (w : BWorld K) (b : Bunch K) :
    Bunch.bunchWeight w b = (b.hits.map w.weight).sum := by
  simp [Bunch.bunchWeight, foldl_add_eq_sum]
  rfl

theorem Bunchcore.hitTerm_eq (gs : List DGet) (ms : List K) (W : K) (h : HS K) :
    Bunchcore.hitTerm gs ms W h =
      h.userWeight / W * ((gs.zip ms).map (fun p => p.1.eval h - p.2)).prod := by
  simp [Bunchcore.hitTerm, foldl_mul_eq_prod, HS.totalWeight_eq]

theorem sum_div_mul {ι : Type} (l : List ι) (f g : ι → K) (W : K) :
    (l.map (fun i => f i / W * g i)).sum = (l.map (fun i => f i * g i)).sum / W := by
  induction l with
  | nil => simp
  | cons a t ih => simp only [List.map_cons, List.sum_cons, ih]; ring

theorem Bunchcore.visits_sync (w : BWorld K) (l : List Nat) :
    Bunchcore.visits w (l.map some) = l.map w.bview := by
  simp [Bunchcore.visits, List.filterMap_map, Function.comp_def]

theorem Bunchcore.resolve_forall {vars : List String} {gs : List DGet}
    (h : Bunchcore.resolve vars = some gs) :
    List.Forall₂ (fun v g => getDblMap.lookup v = some g) vars gs := by
  induction vars generalizing gs with
  | nil => simp [Bunchcore.resolve] at h; subst h; exact .nil
  | cons v r ih =>
    rw [Bunchcore.resolve] at h
    cases h1 : getDblMap.lookup v with
    | none => simp [h1] at h
    | some g =>
      cases h2 : Bunchcore.resolve r with
      | none => simp [h1, h2] at h
      | some gs' =>
        simp only [h1, h2, Option.some.injEq] at h
        subst h
        exact .cons h1 (ih h2)

theorem Bunch.floatDict_lookup {d : List (String × PyVal K)} {ms : List (String × K)}
    (h : Bunch.floatDict d = some ms) (v : String) :
    d.lookup v = (ms.lookup v).map PyVal.flt := by
  induction d generalizing ms with
  | nil => simp [Bunch.floatDict] at h; subst h; rfl
  | cons p r ih =>
    obtain ⟨k, pv⟩ := p
    cases pv with
    | flt x =>
      rw [Bunch.floatDict] at h
      cases h2 : Bunch.floatDict r with
      | none => simp [h2] at h
      | some r' =>
        simp only [h2, Option.some.injEq] at h
        subst h
        simp only [List.lookup]
        cases v == k
        · exact ih h2
        · rfl
    | int n => simp [Bunch.floatDict] at h
    | cplx => simp [Bunch.floatDict] at h
    | other => simp [Bunch.floatDict] at h

theorem Hit.getNum_dbl (E : Ext K) {v : String} {g : DGet} (h : getDblMap.lookup v = some g)
    (s : HS K) : Hit.getNum E v s = (.ok (g.eval s), s) := by
  simp [Hit.getNum, Hit.get, Hitcore.get, h]

theorem Bunch.hitNum_dbl (E : Ext K) (w : BWorld K) {v : String} {g : DGet}
    (h : getDblMap.lookup v = some g) (i : Nat) : Bunch.hitNum E w i v = .ok (g.eval (w.hview i)) := by
  simp [Bunch.hitNum, Hit.getNum_dbl E h]

theorem BWorld.bview_eq {w : BWorld K} (h : w.hcur = w.bcur) : w.bview = w.hview := by
  funext i; simp [BWorld.bview, BWorld.hview, h]

/-- the C++ moment in closed form -/
theorem Bunchcore.getMoment_eq (hs : List (HS K)) (vars : List String) (gs : List DGet)
    (ms : List (String × K)) (hr : Bunchcore.resolve vars = some gs)
    (hW : (hs.map HS.userWeight).sum ≠ 0) :
    Bunchcore.getMoment hs vars ms = some (.fin
      (wmoment hs HS.userWeight ((gs.zip (Bunchcore.meanVec vars ms)).map
        (fun p h => p.1.eval h - p.2)))) := by
  unfold Bunchcore.getMoment
  rw [hr]
  simp only [Bunchcore.bunchWeight_eq]
  rw [if_neg (fun h => hW h.1), foldl_add_eq_sum, zero_add]
  have : (Bunchcore.hitTerm gs (Bunchcore.meanVec vars ms) (hs.map HS.userWeight).sum) = fun h =>
      h.userWeight / (hs.map HS.userWeight).sum *
        ((gs.zip (Bunchcore.meanVec vars ms)).map (fun p => p.1.eval h - p.2)).prod := by
    funext h; exact Bunchcore.hitTerm_eq _ _ _ _
  rw [this, sum_div_mul]
  simp only [wmoment, List.map_map, Function.comp_def]

theorem Bunch.meanList_ok {d : List (String × PyVal K)} {vars : List String}
    (h : ∀ v ∈ vars, ∃ p, d.lookup v = some p) :
    ∃ ms, Bunch.meanList d vars = .ok ms ∧ List.Forall₂ (fun v p => d.lookup v = some p) vars ms := by
  induction vars with
  | nil => exact ⟨[], rfl, .nil⟩
  | cons v r ih =>
    obtain ⟨p, hp⟩ := h v (by simp)
    obtain ⟨ms, h1, h2⟩ := ih (fun u hu => h u (by simp [hu]))
    exact ⟨p :: ms, by simp [Bunch.meanList, hp, h1], .cons hp h2⟩

theorem Bunch.pySub_num (x : K) {p : PyVal K} {m : K} (h : p.num? = some m) :
    Bunch.pySub x p = .ok (x - m) := by
  cases p <;> simp_all [PyVal.num?, Bunch.pySub]

theorem Bunch.pyChange_ok (E : Ext K) (w : BWorld K) (i : Nat) (vals m : String → K)
    {vars : List String} {ms : List (PyVal K)}
    (hv : ∀ v ∈ vars, Bunch.hitNum E w i v = .ok (vals v))
    (hm : List.Forall₂ (fun v p => PyVal.num? p = some (m v)) vars ms) (c : K) :
    Bunch.pyChange E w i (vars.zip ms) c = .ok (c * (vars.map (fun v => vals v - m v)).prod) := by
  induction hm generalizing c with
  | nil => simp [Bunch.pyChange]
  | @cons v p vs ps hp hrest ih =>
    simp only [List.zip_cons_cons, Bunch.pyChange, hv v (by simp), Bunch.pySub_num _ hp]
    rw [ih (fun u hu => hv u (by simp [hu]))]
    simp [mul_assoc]

theorem Bunch.pySum_ok (E : Ext K) (w : BWorld K) (vals : String → Nat → K) (m : String → K)
    {vars : List String} {ms : List (PyVal K)} (l : List Nat)
    (hv : ∀ i ∈ l, ∀ v ∈ vars, Bunch.hitNum E w i v = .ok (vals v i))
    (hm : List.Forall₂ (fun v p => PyVal.num? p = some (m v)) vars ms) (acc : K) :
    Bunch.pySum E w (vars.zip ms) l acc =
      .ok (acc + (l.map (fun i => w.weight i * (vars.map (fun v => vals v i - m v)).prod)).sum) := by
  induction l generalizing acc with
  | nil => simp [Bunch.pySum]
  | cons i r ih =>
    rw [Bunch.pySum, Bunch.pyChange_ok E w i (fun v => vals v i) m (hv i (by simp)) hm]
    simp only
    rw [ih (fun j hj => hv j (by simp [hj]))]
    simp only [List.map_cons, List.sum_cons, one_mul, BWorld.weight, HS.totalWeight_eq, mul_comm]
    congr 1
    ring

theorem Bunch.not_tiny_ne {W : K} (h : ¬ Bunch.weightTiny W) : W ≠ 0 := by
  intro e
  apply h
  rw [Bunch.weightTiny, e, abs_zero]
  positivity

theorem wmoment_map {ι κ : Type} (l : List ι) (g : ι → κ) (wt : κ → K) (fs : List (κ → K)) :
    wmoment (l.map g) wt fs = wmoment l (fun i => wt (g i)) (fs.map (fun f i => f (g i))) := by
  simp [wmoment, Function.comp_def]

/-- both paths of Bunch.moment give the moment about the numbers in the dictionary -/
theorem Bunch.momentAbout_ok (E : Ext K) (w : BWorld K) (b : Bunch K) (hb : b.Normal w)
    (hW : ¬ Bunch.weightTiny (Bunch.bunchWeight w b)) (vars : List String)
    (d : List (String × PyVal K)) (vals : String → Nat → K) (m : String → K)
    (hv : ∀ i ∈ b.hits, ∀ v ∈ vars, Bunch.hitNum E w i v = .ok (vals v i))
    (hm : ∀ v ∈ vars, ∃ p, d.lookup v = some p ∧ p.num? = some (m v)) :
    Bunch.momentAbout E w b vars d =
      .ok (wmoment b.hits w.weight (vars.map (fun v i => vals v i - m v))) := by
  have hW0 := Bunch.not_tiny_ne hW
  have py : Bunch.pyMoment E w b vars d =
      .ok (wmoment b.hits w.weight (vars.map (fun v i => vals v i - m v))) := by
    obtain ⟨ms, h1, h2⟩ := Bunch.meanList_ok (fun v h => (hm v h).imp fun p hp => hp.1)
    have h3 : List.Forall₂ (fun v p => PyVal.num? p = some (m v)) vars ms := by
      have hvars : ∀ v ∈ vars, ∀ p, d.lookup v = some p → p.num? = some (m v) := by
        intro v hvm p hp
        obtain ⟨p', hp', hn⟩ := hm v hvm
        rw [hp] at hp'; cases hp'; exact hn
      clear h1 hm hv
      induction h2 with
      | nil => exact .nil
      | cons hp _ ih =>
        exact .cons (hvars _ (by simp) _ hp) (ih (fun v hvm => hvars v (by simp [hvm])))
    rw [Bunch.pyMoment, h1]
    simp only
    rw [Bunch.pySum_ok E w vals m b.hits hv h3, ]
    simp only
    rw [if_neg hW0, zero_add, Bunch.bunchWeight_eq, wmoment]
    simp [Function.comp_def]
  unfold Bunch.momentAbout Bunch.coreMoment
  cases hf : Bunch.floatDict d with
  | none => exact py
  | some means =>
    simp only
    cases hr : Bunchcore.resolve vars with
    | none =>
      have : Bunchcore.getMoment (Bunchcore.visits w b.core) vars means = none := by
        simp [Bunchcore.getMoment, hr]
      rw [this]; exact py
    | some gs =>
      have hvis : Bunchcore.visits w b.core = b.hits.map w.hview := by
        rw [hb.sync, Bunchcore.visits_sync, BWorld.bview_eq hb.ctx]
      have hsum : ((b.hits.map w.hview).map HS.userWeight).sum ≠ 0 := by
        rw [Bunch.bunchWeight_eq] at hW0
        rw [List.map_map]; exact hW0
      rw [hvis, Bunchcore.getMoment_eq _ _ _ _ hr hsum, wmoment_map]
      simp only [List.map_map, Function.comp_def]
      congr 1
      have hfs := Bunchcore.resolve_forall hr
      have hgs : ∀ i ∈ b.hits, ((gs.zip (Bunchcore.meanVec vars means)).map
          (fun p => p.1.eval (w.hview i) - p.2)) = vars.map (fun v => vals v i - m v) := by
        intro i hi
        have hv' := hv i hi
        clear hr py hv
        induction hfs with
        | nil => simp [Bunchcore.meanVec]
        | @cons v g vs gs' hg _ ih =>
          have hx := hv' v (by simp)
          rw [Bunch.hitNum_dbl E w hg] at hx
          injection hx with hx
          obtain ⟨p, hp, hn⟩ := hm v (by simp)
          rw [Bunch.floatDict_lookup hf] at hp
          have hmv : (means.lookup v).getD 0 = m v := by
            cases hl : means.lookup v with
            | none => rw [hl] at hp; simp at hp
            | some y => rw [hl] at hp; simp at hp; subst hp; simpa [PyVal.num?] using hn
          have := ih (fun u hu => hm u (by simp [hu])) (fun u hu => hv' u (by simp [hu]))
          simp only [Bunchcore.meanVec, List.map_cons, List.zip_cons_cons, hmv, hx]
          rw [← this]
          rfl
      unfold wmoment
      simp only [List.map_map, Function.comp_def]
      congr 1
      apply congrArg
      apply List.map_congr_left
      intro i hi
      have := hgs i hi
      rw [this]
      rfl

/-! ### C19 -/

/-- C19: for a bunch of any size whose total weight is not tiny, `bunch.moment(vars, d)` with a
dictionary giving a number for every variable is  sum_i w_i prod_v (h_i[v] - d[v]) / sum_i w_i,
whichever of the C++ and Python paths is taken. -/
theorem C19_moment (E : Ext K) (w : BWorld K) (b : Bunch K) (hb : b.Normal w)
    (hW : ¬ |(b.hits.map w.weight).sum| < 1 / 1000000000) (vars : List String)
    (d : List (String × PyVal K)) (vals : String → Nat → K) (m : String → K)
    (hv : ∀ i ∈ b.hits, ∀ v ∈ vars, Bunch.hitNum E w i v = .ok (vals v i))
    (hm : ∀ v ∈ vars, ∃ p, d.lookup v = some p ∧ p.num? = some (m v)) :
    Bunch.moment E w b vars d =
      .ok (wmoment b.hits w.weight (vars.map (fun v i => vals v i - m v))) := by
  rw [← Bunch.bunchWeight_eq] at hW
  replace hW : ¬ Bunch.weightTiny (Bunch.bunchWeight w b) := hW
  have key := Bunch.momentAbout_ok E w b hb hW vars d vals m hv hm
  unfold Bunch.moment
  rw [if_neg hW]
  have hi : Bunch.internalCov w b vars = .ok none := by simp [Bunch.internalCov, hb.covs]
  rw [hi]
  cases d with
  | nil =>
    cases vars with
    | nil => simpa [Bunch.mean, Bunch.meanLoop] using key
    | cons v r => obtain ⟨p, hp, _⟩ := hm v (by simp); simp at hp
  | cons a r => exact key

theorem List.lookup_append_none {α : Type} (l : List (String × α)) (k v : String) (x : α)
    (h : l.lookup k = none) : (l ++ [(v, x)]).lookup k = if k = v then some x else none := by
  induction l with
  | nil => simp only [List.nil_append, List.lookup]; by_cases e : k = v <;> simp [e, beq_eq_false_iff_ne.mpr]
  | cons p r ih =>
    obtain ⟨k', y⟩ := p
    simp only [List.cons_append, List.lookup] at h ⊢
    cases hk : k == k' with
    | true => simp [hk] at h
    | false => simp only [hk] at h ⊢; exact ih h

theorem List.lookup_append_some {α : Type} (l r : List (String × α)) (k : String) (x : α)
    (h : l.lookup k = some x) : (l ++ r).lookup k = some x := by
  induction l with
  | nil => simp at h
  | cons p t ih =>
    obtain ⟨k', y⟩ := p
    simp only [List.cons_append, List.lookup] at h ⊢
    cases hk : k == k' with
    | true => simpa [hk] using h
    | false => simp only [hk] at h ⊢; exact ih h

theorem Bunch.meanLoop_ok (E : Ext K) (w : BWorld K) (b : Bunch K) (hb : b.Normal w)
    (hmeans : b.means = []) (hW : ¬ Bunch.weightTiny (Bunch.bunchWeight w b))
    (vals : String → Nat → K) (vars : List String)
    (hv : ∀ i ∈ b.hits, ∀ v ∈ vars, Bunch.hitNum E w i v = .ok (vals v i)) :
    ∀ acc : List (String × PyVal K),
      (∀ v p, acc.lookup v = some p → p = .flt (wmean b.hits w.weight (vals v))) →
      ∃ d, Bunch.meanLoop E w b vars acc = .ok d ∧
        (∀ v p, d.lookup v = some p → p = .flt (wmean b.hits w.weight (vals v))) ∧
        (∀ v, v ∈ vars ∨ acc.lookup v ≠ none → d.lookup v ≠ none) := by
  induction vars with
  | nil => intro acc hacc; exact ⟨acc, rfl, hacc, by simp⟩
  | cons v r ih =>
    intro acc hacc
    have ih' := ih (fun i hi u hu => hv i hi u (by simp [hu]))
    rw [Bunch.meanLoop]
    cases hl : acc.lookup v with
    | some p =>
      obtain ⟨d, h1, h2, h3⟩ := ih' acc hacc
      refine ⟨d, h1, h2, ?_⟩
      intro u hu
      apply h3
      rcases hu with hu | hu
      · rcases List.mem_cons.mp hu with rfl | hu
        · right; rw [hl]; simp
        · exact .inl hu
      · exact .inr hu
    | none =>
      simp only [hmeans, List.lookup]
      have hmom : Bunch.momentWith E w b [v] [(v, .flt 0)] =
          .ok (wmean b.hits w.weight (vals v)) := by
        unfold Bunch.momentWith
        rw [if_neg hW]
        have hi : Bunch.internalCov w b [v] = .ok none := by simp [Bunch.internalCov, hb.covs]
        rw [hi]
        simp only
        rw [Bunch.momentAbout_ok E w b hb hW [v] [(v, .flt 0)] vals (fun _ => 0)
          (fun i hi u hu => hv i hi u (by simp at hu; simp [hu]))
          (fun u hu => ⟨.flt 0, by simp at hu; simp [hu], by simp [PyVal.num?]⟩)]
        simp [wmoment, wmean]
      rw [hmom]
      simp only
      obtain ⟨d, h1, h2, h3⟩ := ih' (acc ++ [(v, .flt (wmean b.hits w.weight (vals v)))]) (by
        intro u p hp
        cases hu : acc.lookup u with
        | some q => rw [List.lookup_append_some _ _ _ _ hu] at hp; cases hp; exact hacc u _ hu
        | none =>
          rw [List.lookup_append_none _ _ _ _ hu] at hp
          by_cases e : u = v
          · rw [if_pos e] at hp; cases hp; rw [e]
          · rw [if_neg e] at hp; cases hp)
      refine ⟨d, h1, h2, ?_⟩
      intro u hu
      apply h3
      rcases hu with hu | hu
      · rcases List.mem_cons.mp hu with rfl | hu
        · right; rw [List.lookup_append_none _ _ _ _ hl]; simp
        · exact .inl hu
      · right
        cases hq : acc.lookup u with
        | none => exact absurd hq hu
        | some q => rw [List.lookup_append_some _ _ _ _ hq]; simp

/-- C19: with no dictionary the moment is taken about the weighted bunch means. -/
theorem C19_moment_default (E : Ext K) (w : BWorld K) (b : Bunch K) (hb : b.Normal w)
    (hmeans : b.means = []) (hW : ¬ |(b.hits.map w.weight).sum| < 1 / 1000000000)
    (vars : List String) (vals : String → Nat → K)
    (hv : ∀ i ∈ b.hits, ∀ v ∈ vars, Bunch.hitNum E w i v = .ok (vals v i)) :
    Bunch.moment E w b vars [] =
      .ok (wmoment b.hits w.weight
        (vars.map (fun v i => vals v i - wmean b.hits w.weight (vals v)))) := by
  rw [← Bunch.bunchWeight_eq] at hW
  replace hW : ¬ Bunch.weightTiny (Bunch.bunchWeight w b) := hW
  unfold Bunch.moment
  rw [if_neg hW]
  have hi : Bunch.internalCov w b vars = .ok none := by simp [Bunch.internalCov, hb.covs]
  rw [hi]
  obtain ⟨d, h1, h2, h3⟩ := Bunch.meanLoop_ok E w b hb hmeans hW vals vars hv [] (by simp)
  rw [← Bunch.mean] at h1
  simp only [h1]
  apply Bunch.momentAbout_ok E w b hb hW vars d vals _ hv
  intro v hvm
  cases hl : d.lookup v with
  | none => exact absurd hl (h3 v (.inl hvm))
  | some p => exact ⟨p, rfl, by rw [h2 v p hl]; rfl⟩

/-- C19: a bunch whose total weight is (nearly) zero raises ZeroDivisionError. -/
theorem C19_zero_weight (E : Ext K) (w : BWorld K) (b : Bunch K)
    (hW : |(b.hits.map w.weight).sum| < 1 / 1000000000) (vars : List String)
    (d : List (String × PyVal K)) : Bunch.moment E w b vars d = .error .ZeroDivisionError := by
  rw [← Bunch.bunchWeight_eq] at hW
  replace hW : Bunch.weightTiny (Bunch.bunchWeight w b) := hW
  unfold Bunch.moment
  rw [if_pos hW]

theorem wmoment_order_and_zero_weight (l l' : List Nat) (wt : Nat → K) (fs fs' : List (Nat → K)) :
    (l.Perm l' → wmoment l wt fs = wmoment l' wt fs) ∧
    (fs.Perm fs' → wmoment l wt fs = wmoment l wt fs') ∧
    (wmoment (l.filter (fun i => wt i ≠ 0)) wt fs = wmoment l wt fs) := by
  refine ⟨?_, ?_, ?_⟩
  · intro h
    unfold wmoment
    rw [(h.map _).sum_eq, (h.map wt).sum_eq]
  · intro h
    unfold wmoment
    congr 2
    apply List.map_congr_left
    intro i _
    rw [(h.map (fun f => f i)).prod_eq]
  · have drop : ∀ g : Nat → K, ((l.filter (fun i => wt i ≠ 0)).map (fun i => wt i * g i)).sum
        = (l.map (fun i => wt i * g i)).sum := by
      intro g
      induction l with
      | nil => rfl
      | cons i r ih =>
        by_cases h : wt i = 0
        · rw [List.filter_cons_of_neg (by simp [h]), ih]; simp [h]
        · rw [List.filter_cons_of_pos (by simp [h])]; simp only [List.map_cons, List.sum_cons, ih]
    unfold wmoment
    rw [drop]
    have := drop (fun _ => 1)
    simp only [mul_one] at this
    rw [this]

/-- C19: the moment does not depend on the order of the hits in the bunch nor on the order of the
variables. -/
theorem C19_order (E : Ext K) (w : BWorld K) (b b' : Bunch K) (hb : b.Normal w) (hb' : b'.Normal w)
    (hW : ¬ |(b.hits.map w.weight).sum| < 1 / 1000000000) (vars vars' : List String)
    (d : List (String × PyVal K)) (vals : String → Nat → K) (m : String → K)
    (hv : ∀ i ∈ b.hits, ∀ v ∈ vars, Bunch.hitNum E w i v = .ok (vals v i))
    (hm : ∀ v ∈ vars, ∃ p, d.lookup v = some p ∧ p.num? = some (m v))
    (hh : b'.hits.Perm b.hits) (hvars : vars'.Perm vars) :
    Bunch.moment E w b' vars' d = Bunch.moment E w b vars d := by
  rw [C19_moment E w b hb hW vars d vals m hv hm,
    C19_moment E w b' hb' (by rwa [(hh.map w.weight).sum_eq]) vars' d vals m
      (fun i hi v hvm => hv i (hh.mem_iff.mp hi) v (hvars.mem_iff.mp hvm))
      (fun v hvm => hm v (hvars.mem_iff.mp hvm)),
    (wmoment_order_and_zero_weight b'.hits b.hits w.weight _ []).1 hh,
    (wmoment_order_and_zero_weight b.hits [] w.weight _ _).2.1 (hvars.map _)]

/-- C19: removing the hits of zero weight from the bunch leaves every moment unchanged. -/
theorem C19_weightless_hits (E : Ext K) (w : BWorld K) (b b' : Bunch K) (hb : b.Normal w)
    (hb' : b'.Normal w) (hW : ¬ |(b.hits.map w.weight).sum| < 1 / 1000000000) (vars : List String)
    (d : List (String × PyVal K)) (vals : String → Nat → K) (m : String → K)
    (hv : ∀ i ∈ b.hits, ∀ v ∈ vars, Bunch.hitNum E w i v = .ok (vals v i))
    (hm : ∀ v ∈ vars, ∃ p, d.lookup v = some p ∧ p.num? = some (m v))
    (hh : b'.hits = b.hits.filter (fun i => w.weight i ≠ 0)) :
    Bunch.moment E w b' vars d = Bunch.moment E w b vars d := by
  have hsum : (b'.hits.map w.weight).sum = (b.hits.map w.weight).sum := by
    rw [hh]
    induction b.hits with
    | nil => rfl
    | cons i r ih =>
      by_cases h : w.weight i = 0
      · rw [List.filter_cons_of_neg (by simp [h]), ih]; simp [h]
      · rw [List.filter_cons_of_pos (by simp [h])]; simp only [List.map_cons, List.sum_cons, ih]
  rw [C19_moment E w b hb hW vars d vals m hv hm,
    C19_moment E w b' hb' (by rwa [hsum]) vars d vals m
      (fun i hi v hvm => hv i (by rw [hh] at hi; exact List.mem_of_mem_filter hi) v hvm) hm,
    hh, (wmoment_order_and_zero_weight b.hits [] w.weight _ []).2.2]

/-! ### non-vacuity -/

/-- Example world: hit i has x = i, px = 2 i, pz = 1 and local weight i + 1. -/
def exWorld : BWorld ℚ :=
  { hits := fun i => ⟨fun v => match v with
      | .x => i | .px => 2 * i | .pz => 1 | .local_weight => i + 1 | _ => 0, fun _ => 0⟩
    ctx := fun _ => WC.new, hcur := 0, bcur := 0, geo := false }
/-- Example bunch of the hits 0 and 1. -/
def exBunch : Bunch ℚ := ⟨[0, 1], [some 0, some 1], none, []⟩

theorem exBunch_normal : exBunch.Normal exWorld := ⟨rfl, rfl, rfl⟩
theorem exBunch_weight : ¬ |(exBunch.hits.map exWorld.weight).sum| < 1 / 1000000000 := by
  decide +kernel

/-- C++ path: float means of stored variables -/
example : Bunch.moment ratExt exWorld exBunch ["x", "px"] [("x", .flt 0), ("px", .flt 1)]
    = .ok (2 / 3) := by
  rw [C19_moment ratExt exWorld exBunch exBunch_normal exBunch_weight ["x", "px"]
    [("x", .flt 0), ("px", .flt 1)] (fun v i => if v = "x" then i else 2 * i)
    (fun v => if v = "x" then 0 else 1) (by decide +kernel) (by
      intro v hv
      simp only [List.mem_cons, List.not_mem_nil, or_false] at hv
      rcases hv with rfl | rfl
      · exact ⟨.flt 0, rfl, by simp [PyVal.num?]⟩
      · exact ⟨.flt 1, rfl, by simp [PyVal.num?]⟩)]
  decide +kernel
/-- Python path: a derived variable (x' = px/pz) and an int mean -/
example : Bunch.moment ratExt exWorld exBunch ["x'", "x"] [("x'", .int 1), ("x", .flt 0)]
    = .ok (2 / 3) := by decide +kernel
/-- about the bunch means -/
example : Bunch.moment ratExt exWorld exBunch ["x", "px"] [] = .ok (4 / 9) := by decide +kernel

/-! ### C20 -/

/-- C20 as documented: "Assume bunch mean if no value is specified". -/
def DocumentedMean (b : Bunch K) (w : BWorld K) (vals : String → Nat → K)
    (d : List (String × PyVal K)) (v : String) : K :=
  match d.lookup v with
  | some p => p.num?.getD 0
  | none => wmean b.hits w.weight (vals v)

/-- C20 is false: with a dictionary for x only, the mean of px is taken as 0. -/
theorem C20_false : ∃ (w : BWorld ℚ) (b : Bunch ℚ) (vars : List String)
    (d : List (String × PyVal ℚ)) (vals : String → Nat → ℚ), b.Normal w ∧ b.means = [] ∧
    (¬ |(b.hits.map w.weight).sum| < 1 / 1000000000) ∧
    (∀ i ∈ b.hits, ∀ v ∈ vars, Bunch.hitNum ratExt w i v = .ok (vals v i)) ∧
    Bunch.moment ratExt w b vars d ≠
      .ok (wmoment b.hits w.weight (vars.map (fun v i => vals v i - DocumentedMean b w vals d v))) := by
  refine ⟨exWorld, exBunch, ["x", "px"], [("x", .flt 0)],
    fun v i => if v = "x" then i else 2 * i, exBunch_normal, rfl, exBunch_weight, ?_, ?_⟩
  · decide +kernel
  · decide +kernel

/-- C20_partial: the documented behaviour holds when the dictionary is empty or complete.
Missing: dictionaries that define some of the variables only (false). -/
theorem C20_partial (E : Ext K) (w : BWorld K) (b : Bunch K) (hb : b.Normal w)
    (hmeans : b.means = []) (hW : ¬ |(b.hits.map w.weight).sum| < 1 / 1000000000)
    (vars : List String) (d : List (String × PyVal K)) (vals : String → Nat → K)
    (hv : ∀ i ∈ b.hits, ∀ v ∈ vars, Bunch.hitNum E w i v = .ok (vals v i))
    (hd : d = [] ∨ ∀ v ∈ vars, ∃ p, d.lookup v = some p ∧ p.num? ≠ none) :
    Bunch.moment E w b vars d =
      .ok (wmoment b.hits w.weight (vars.map (fun v i => vals v i - DocumentedMean b w vals d v))) := by
  rcases hd with rfl | hd
  · rw [C19_moment_default E w b hb hmeans hW vars vals hv]
    simp [DocumentedMean]
  · apply C19_moment E w b hb hW vars d vals _ hv
    intro v hvm
    obtain ⟨p, hp, hn⟩ := hd v hvm
    refine ⟨p, hp, ?_⟩
    rw [DocumentedMean, hp]
    cases h : p.num? with
    | none => exact absurd h hn
    | some x => simp [h]

/-- C20, what happens instead: stored double variables missing from a non-empty dictionary of
floats are taken about 0. -/
theorem C20_missing_is_zero (E : Ext K) (w : BWorld K) (b : Bunch K) (hb : b.Normal w)
    (hW : ¬ |(b.hits.map w.weight).sum| < 1 / 1000000000)
    (vars : List String) (d : List (String × K)) (hd : d ≠ []) (vals : String → Nat → K)
    (hv : ∀ i ∈ b.hits, ∀ v ∈ vars, Bunch.hitNum E w i v = .ok (vals v i))
    (hs : ∀ v ∈ vars, (getDblMap.lookup v).isSome) :
    Bunch.moment E w b vars (d.map (fun p => (p.1, .flt p.2))) =
      .ok (wmoment b.hits w.weight (vars.map (fun v i => vals v i - (d.lookup v).getD 0))) := by
  -- the same call with the missing means filled in as 0 resolves to the same C++ call
  have hfd : ∀ l : List (String × K), Bunch.floatDict (l.map (fun p => (p.1, .flt p.2))) = some l := by
    intro l
    induction l with
    | nil => rfl
    | cons p r ih => simp [Bunch.floatDict, ih]
  have hlook : ∀ (l : List (String × K)) v, (l.map (fun p => (p.1, PyVal.flt p.2))).lookup v
      = (l.lookup v).map .flt := fun l v => Bunch.floatDict_lookup (hfd l) v
  let d' : List (String × K) := d ++ (vars.filter (fun v => (d.lookup v).isNone)).map (fun v => (v, 0))
  have hl0 : ∀ (l : List String) v, v ∈ l →
      (l.map (fun v => (v, (0 : K)))).lookup v = some 0 := by
    intro l v
    induction l with
    | nil => simp
    | cons a r ih =>
      intro h
      simp only [List.map_cons, List.lookup]
      cases hk : v == a with
      | true => rfl
      | false =>
        rcases List.mem_cons.mp h with rfl | h
        · simp at hk
        · exact ih h
  have happ : ∀ (l r : List (String × K)) v, l.lookup v = none → (l ++ r).lookup v = r.lookup v := by
    intro l r v
    induction l with
    | nil => simp
    | cons p t ih =>
      obtain ⟨k', y⟩ := p
      simp only [List.cons_append, List.lookup]
      cases hk : v == k' with
      | true => simp
      | false => exact ih
  have hd' : ∀ v ∈ vars, d'.lookup v = some ((d.lookup v).getD 0) := by
    intro v hvm
    cases h : d.lookup v with
    | some x => exact List.lookup_append_some _ _ _ _ h
    | none =>
      rw [happ _ _ _ h]
      exact hl0 _ _ (by simp [hvm, h])
  have full := C19_moment E w b hb hW vars (d'.map (fun p => (p.1, .flt p.2))) vals
    (fun v => (d.lookup v).getD 0) hv (fun v hvm => ⟨.flt _, by rw [hlook, hd' v hvm]; rfl, rfl⟩)
  rw [← full]
  have hmv : Bunchcore.meanVec vars d = Bunchcore.meanVec vars d' := by
    apply List.map_congr_left
    intro v hvm
    rw [hd' v hvm]; rfl
  have hres : ∃ gs, Bunchcore.resolve vars = some gs := by
    clear full hmv hd' hv
    induction vars with
    | nil => exact ⟨[], rfl⟩
    | cons v r ih =>
      obtain ⟨gs, hgs⟩ := ih (fun u hu => hs u (by simp [hu]))
      have := hs v (by simp)
      cases hg : getDblMap.lookup v with
      | none => rw [hg] at this; cases this
      | some g => exact ⟨g :: gs, by simp [Bunchcore.resolve, hg, hgs]⟩
  obtain ⟨gs, hgs⟩ := hres
  have hgm : Bunchcore.getMoment (Bunchcore.visits w b.core) vars d =
      Bunchcore.getMoment (Bunchcore.visits w b.core) vars d' := by
    simp only [Bunchcore.getMoment, hmv]
  have hcm : Bunch.coreMoment w b vars (d.map (fun p => (p.1, .flt p.2))) =
      Bunch.coreMoment w b vars (d'.map (fun p => (p.1, .flt p.2))) := by
    simp only [Bunch.coreMoment, hfd, hgm]
  have hne : ∃ r, Bunch.coreMoment w b vars (d'.map (fun p => (p.1, .flt p.2))) = .ok r := by
    simp only [Bunch.coreMoment, hfd]
    have : ∃ r, Bunchcore.getMoment (Bunchcore.visits w b.core) vars d' = some r := by
      simp only [Bunchcore.getMoment, hgs]
      split
      · exact ⟨_, rfl⟩
      · exact ⟨_, rfl⟩
    obtain ⟨r, hr⟩ := this
    exact ⟨r, by rw [hr]⟩
  have hma : Bunch.momentAbout E w b vars (d.map (fun p => (p.1, .flt p.2))) =
      Bunch.momentAbout E w b vars (d'.map (fun p => (p.1, .flt p.2))) := by
    obtain ⟨r, hr⟩ := hne
    simp only [Bunch.momentAbout, hcm, hr]
    cases r <;> rfl
  have hmom : ∀ l : List (String × K), l ≠ [] →
      Bunch.moment E w b vars (l.map (fun p => (p.1, .flt p.2))) =
      Bunch.momentAbout E w b vars (l.map (fun p => (p.1, .flt p.2))) := by
    intro l hl
    have hW' : ¬ Bunch.weightTiny (Bunch.bunchWeight w b) := by
      rw [Bunch.bunchWeight_eq]; exact hW
    have hi : Bunch.internalCov w b vars = .ok none := by simp [Bunch.internalCov, hb.covs]
    unfold Bunch.moment
    rw [if_neg hW', hi]
    cases l with
    | nil => exact absurd rfl hl
    | cons p r => rfl
  rw [hmom d hd, hmom d' (by simp [d', hd]), hma]

/-! ### C55 -/

/-- C55: bunch_weight() is the sum of the weights of the hits, on the Python and the C++ side, and
does not depend on the order of the hits. -/
theorem C55_bunch_weight (w : BWorld K) (b : Bunch K) :
    Bunch.bunchWeight w b = (b.hits.map w.weight).sum ∧
    (b.Normal w → Bunchcore.bunchWeight (Bunchcore.visits w b.core) = (b.hits.map w.weight).sum) ∧
    (∀ b' : Bunch K, b'.hits.Perm b.hits → Bunch.bunchWeight w b' = Bunch.bunchWeight w b) := by
  refine ⟨Bunch.bunchWeight_eq w b, ?_, ?_⟩
  · intro hb
    rw [hb.sync, Bunchcore.visits_sync, BWorld.bview_eq hb.ctx, Bunchcore.bunchWeight_eq,
      List.map_map]
    rfl
  · intro b' h
    rw [Bunch.bunchWeight_eq, Bunch.bunchWeight_eq, (h.map w.weight).sum_eq]

example : Bunch.bunchWeight exWorld exBunch = 3 := by decide +kernel

end Xboa
