import Verif.Props.BunchTransform
import Verif.Props.HitShell
/-!
C105: moving a bunch (translate, abelian_transformation, transform_to) with a mass shell variable.
-/
set_option linter.unusedSectionVars false
namespace Xboa
namespace BunchShell
open Finset
variable {K : Type} [Field K] [LinearOrder K] [IsStrictOrderedRing K]

/-! ### specification -/

/-- The variables for which the mass shell condition never raises, and 'p' for a hit with enough energy;
`moved` are the variables that were changed just before. -/
def Possible (v : String) (moved : List String) (s : HS K) : Prop :=
  v ∈ ["px", "py", "pz", "energy"] ∨
    (v = "p" ∧ "energy" ∉ moved ∧ "mass" ∉ moved ∧ s.core.d .mass ^ 2 ≤ s.core.d .energy ^ 2)

/-- The hit `s'` is the hit `s` put on the mass shell with the variable `v`: nothing but `v` has changed (px, py,
pz for 'p', which keep their direction); E^2 = p^2 + m^2, except that a component of the momentum is 0 when
there is no energy left for it. -/
structure OnShellBy (E : Ext K) (v : String) (s s' : HS K) : Prop where
  frame : SameExcept E (shellTouches v) s s'
  shell : s'.OnShell ∨ (v ∈ ["px", "py", "pz"] ∧ Reads E s' v 0 ∧ s'.core.d .energy ^ 2 ≤
    s'.core.d .px ^ 2 + s'.core.d .py ^ 2 + s'.core.d .pz ^ 2 + s'.core.d .mass ^ 2 + 1 / 1000000)
  direction : v = "p" → s.core.d .px ^ 2 + s.core.d .py ^ 2 + s.core.d .pz ^ 2 ≠ 0 →
      ∃ k, 0 ≤ k ∧ s'.core.d .px = s.core.d .px * k ∧ s'.core.d .py = s.core.d .py * k ∧
        s'.core.d .pz = s.core.d .pz * k

/-! ### one hit -/

theorem touches_coord {v : String} (hv : v ∈ ["px", "py", "pz", "energy"] ∨ v = "p") :
    ∀ n ∈ shellTouches v, n ∈ coordNames := by
  simp only [List.mem_cons, List.not_mem_nil, or_false] at hv
  rcases hv with (rfl | rfl | rfl | rfl) | rfl <;> decide

theorem Possible.coord {v : String} {moved : List String} {s : HS K} (h : Possible v moved s) :
    ∀ n ∈ shellTouches v, n ∈ coordNames := touches_coord (h.imp id fun h => h.1)

theorem sameExcept_energy {E : Ext K} {vs : List String} {s s' : HS K} (h : SameExcept E vs s s')
    (he : "energy" ∉ vs) : s'.core.d .energy = s.core.d .energy := by
  have := h "energy" (by decide) he
  simpa using this

theorem sameExcept_mass {E : Ext K} {vs : List String} {s s' : HS K} (h : SameExcept E vs s s')
    (he : "mass" ∉ vs) : s'.core.d .mass = s.core.d .mass := by
  have := h "mass" (by decide) he
  simpa using this

theorem shell_step {E : Ext K} (hE : E.Lawful) {v : String} {moved : List String} {s s1 : HS K}
    (h : SameExcept E moved s s1) (hp : Possible v moved s) :
    ∃ r s', Hit.mass_shell_condition E v s1 = (.ok r, s') ∧ s'.wc = s1.wc ∧ OnShellBy E v s1 s' := by
  rcases hp with hv | ⟨rfl, he, hm, hle⟩
  · obtain ⟨r, c, h1, h2, h3, h4⟩ := HitShell.shell_ok hE (m := v) (by simp at hv ⊢; tauto) s1
    have ht : shellTouches v = [v] := by
      simp only [List.mem_cons, List.not_mem_nil, or_false] at hv
      rcases hv with rfl | rfl | rfl | rfl <;> rfl
    refine ⟨r, _, h1, rfl, ht ▸ h2, ?_, ?_⟩
    · by_cases e : v = "energy"
      · exact .inl (h3 e).1
      · have hv' : v ∈ ["px", "py", "pz"] := by simp at hv ⊢; tauto
        obtain ⟨x, hx, hcase⟩ := h4 hv'
        rcases hcase with hc | ⟨rfl, hc⟩
        · exact .inl hc.1
        · exact .inr ⟨hv', hx, hc⟩
    · rintro rfl; simp at hv
  · have hneg : ¬ (s1.core.d .energy - s1.core.d .mass) * (s1.core.d .energy + s1.core.d .mass) < 0 := by
      rw [sameExcept_energy h he, sameExcept_mass h hm]
      have : (s.core.d .energy - s.core.d .mass) * (s.core.d .energy + s.core.d .mass) =
        s.core.d .energy ^ 2 - s.core.d .mass ^ 2 := by ring
      rw [this]; linarith
    obtain ⟨k, pz0, hset, _⟩ := Hit.set_p_cases hE s1 (E.sqrt ((s1.core.d .energy -
        s1.core.d .mass) * (s1.core.d .energy + s1.core.d .mass)))
    have hs := Hit.shell_p_pos E s1 _ hneg hset
    obtain ⟨g1, g2, g3, g4⟩ := C12_true hE s1 _ "p" hs
    exact ⟨_, _, hs, g3, g2, .inl g1, g4⟩

/-! ### all hits -/

/-- the exact effect of a loop over hits in which no call fails and none changes the weights of tracks -/
theorem loop_exact (m : PyM (HS K) Unit) (f : List Nat → BWorld K → Except Err Unit × BWorld K)
    (f0 : ∀ w, f [] w = (.ok (), w))
    (f1 : ∀ i r w, f (i :: r) w = match w.onHit i m with
      | (.error e, w') => (.error e, w')
      | (.ok _, w') => f r w') :
    ∀ (l : List Nat) (_ : l.Nodup) (w : BWorld K)
      (_ : ∀ i ∈ l, ∃ s', m (w.hview i) = (.ok (), s') ∧ s'.wc = w.ctx w.hcur),
      f l w = (.ok (), { w with hits := fun j => if j ∈ l then (m (w.hview j)).2.core else w.hits j })
  | [], _, w, _ => by rw [f0]; simp
  | i :: r, hl, w, hm => by
    rw [List.nodup_cons] at hl
    obtain ⟨s', h1, h2⟩ := hm i (by simp)
    have hput : w.hput i s' = { w with hits := fun j => if j = i then s'.core else w.hits j } := by
      have : (fun c => if c = w.hcur then s'.wc else w.ctx c) = w.ctx := by
        funext c; split_ifs with h
        · rw [h, h2]
        · rfl
      simp only [BWorld.hput, this]
    have hview : ∀ j, j ≠ i → (w.hput i s').hview j = w.hview j := by
      intro j hj; rw [hput]; simp [BWorld.hview, hj]
    rw [f1, BWorld.onHit, h1]
    show f r (w.hput i s') = _
    rw [loop_exact m f f0 f1 r hl.2 (w.hput i s') (by
      intro j hj
      have hji : j ≠ i := fun e => hl.1 (e ▸ hj)
      rw [hview j hji, hput]
      exact hm j (by simp [hj]))]
    congr 1
    simp only [hput, BWorld.mk.injEq, and_true]
    funext j
    by_cases e : j = i
    · subst e; simp [hl.1, h1]
    · by_cases hj : j ∈ r
      · have := hview j e
        rw [hput] at this
        simp [hj, e, this]
      · simp [hj, e]

theorem sameExcept_ints {E : Ext K} {vs : List String} (hvs : ∀ v ∈ vs, v ∈ coordNames) {s s' : HS K}
    (h : SameExcept E vs s s') : s'.core.i = s.core.i := by
  have key : ∀ name, name ∈ hitVariables → name ∉ coordNames → (Hit.get E name s').1 = (Hit.get E name s).1 :=
    fun name h1 h2 => h name h1 fun h3 => h2 (hvs _ h3)
  funext v
  cases v with
  | spill => have := key "spill" (by decide) (by decide); simpa using this
  | event => have := key "event_number" (by decide) (by decide); simpa using this
  | particle => have := key "particle_number" (by decide) (by decide); simpa using this
  | station => have := key "station" (by decide) (by decide); simpa using this
  | status => have := key "status" (by decide) (by decide); simpa using this
  | pid => have := key "pid" (by decide) (by decide); simpa using this

theorem weight_of_sameExcept {E : Ext K} {vs : List String} (hvs : ∀ v ∈ vs, v ∈ coordNames) {s s' : HS K}
    (h : SameExcept E vs s s') (hwc : s'.wc = s.wc) : s'.userWeight = s.userWeight := by
  have hi := sameExcept_ints hvs h
  have hl : s'.core.d .local_weight = s.core.d .local_weight := by
    have := h "local_weight" (by decide) fun hc => absurd (hvs _ hc) (by decide)
    simpa using this
  simp only [HS.userWeight, Core.trackId, hl, hwc, hi]

/-- Moving hits and putting them on the mass shell one by one is the same as moving them all and then
putting them all on the mass shell. -/
theorem after_shell {E : Ext K} (hE : E.Lawful) (v : String) (moved : List String)
    (hmoved : ∀ n ∈ moved, n ∈ coordNames) (m1 : PyM (HS K) Unit) (m : String → PyM (HS K) Unit)
    (he : ∀ v s, m v s = (m1 >>= fun _ => (Hit.mass_shell_condition E v >>= fun _ => pure ())) s)
    (F : String → List Nat → BWorld K → Except Err Unit × BWorld K)
    (f0 : ∀ v w, F v [] w = (.ok (), w))
    (f1 : ∀ v i r w, F v (i :: r) w = match w.onHit i (m v) with
      | (.error e, w') => (.error e, w')
      | (.ok _, w') => F v r w')
    (l : List Nat) (hl : l.Nodup) (w : BWorld K)
    (hm1 : ∀ i ∈ l, ∃ s', m1 (w.hview i) = (.ok (), s') ∧ s'.wc = w.ctx w.hcur ∧
      SameExcept E moved (w.hview i) s')
    (hp : ∀ i ∈ l, Possible v moved (w.hview i)) :
    ∃ w1 w', F "" l w = (.ok (), w1) ∧ F v l w = (.ok (), w') ∧ SameWeights l w w1 ∧ SameWeights l w w' ∧
      ∀ i ∈ l, m1 (w.hview i) = (.ok (), w1.hview i) ∧ OnShellBy E v (w1.hview i) (w'.hview i) := by
  have k0 : ∀ i ∈ l, ∃ s', m1 (w.hview i) = (.ok (), s') ∧ m "" (w.hview i) = (.ok (), s') ∧
      s'.wc = w.ctx w.hcur ∧ SameExcept E moved (w.hview i) s' := by
    intro i hi
    obtain ⟨s', a1, a2, a3⟩ := hm1 i hi
    refine ⟨s', a1, ?_, a2, a3⟩
    rw [he, PyM.bind_apply, a1]
    simp [PyM.bind_apply, Hit.shell_empty]
  have k1 : ∀ i ∈ l, ∃ s1 s', m1 (w.hview i) = (.ok (), s1) ∧ m v (w.hview i) = (.ok (), s') ∧
      s'.wc = w.ctx w.hcur ∧ OnShellBy E v s1 s' ∧
      SameExcept E (moved ++ shellTouches v) (w.hview i) s' := by
    intro i hi
    obtain ⟨s1, a1, a2, a3⟩ := hm1 i hi
    obtain ⟨r, s', b1, b2, b3⟩ := shell_step hE a3 (hp i hi)
    refine ⟨s1, s', a1, ?_, b2.trans a2, b3, a3.trans b3.frame⟩
    rw [he, PyM.bind_apply, a1]
    simp only [PyM.bind_apply, b1]
    rfl
  have e0 := loop_exact (m "") (F "") (f0 "") (f1 "") l hl w fun i hi => by
    obtain ⟨s', _, a2, a3, _⟩ := k0 i hi
    exact ⟨s', a2, a3⟩
  have e1 := loop_exact (m v) (F v) (f0 v) (f1 v) l hl w fun i hi => by
    obtain ⟨_, s', _, a2, a3, _⟩ := k1 i hi
    exact ⟨s', a2, a3⟩
  have hview : ∀ (x : String) (i : Nat) (_ : i ∈ l) (s' : HS K), m x (w.hview i) = (.ok (), s') →
      s'.wc = w.ctx w.hcur →
      BWorld.hview { w with hits := fun j => if j ∈ l then (m x (w.hview j)).2.core else w.hits j } i = s' := by
    intro x i hi s' h1 h2
    simp only [BWorld.hview, if_pos hi]
    show (⟨(m x (w.hview i)).2.core, w.ctx w.hcur⟩ : HS K) = s'
    rw [h1, ← h2]
  refine ⟨_, _, e0, e1, ⟨rfl, rfl, rfl, rfl, fun j hj => by simp [hj], fun j => ?_⟩,
    ⟨rfl, rfl, rfl, rfl, fun j hj => by simp [hj], fun j => ?_⟩, fun i hi => ?_⟩
  · by_cases hj : j ∈ l
    · obtain ⟨s', _, a2, a3, a4⟩ := k0 j hj
      rw [BWorld.weight, hview "" j hj s' a2 a3, BWorld.weight]
      exact weight_of_sameExcept hmoved a4 a3
    · simp [BWorld.weight, BWorld.hview, hj]
  · by_cases hj : j ∈ l
    · obtain ⟨_, s', _, a2, a3, _, a4⟩ := k1 j hj
      rw [BWorld.weight, hview v j hj s' a2 a3, BWorld.weight]
      refine weight_of_sameExcept (fun n hn => ?_) a4 a3
      rcases List.mem_append.1 hn with h | h
      · exact hmoved n h
      · exact (hp j hj).coord n h
    · simp [BWorld.weight, BWorld.hview, hj]
  · obtain ⟨s', a1, a2, a3, _⟩ := k0 i hi
    obtain ⟨s1, s2, b1, b2, b3, b4, _⟩ := k1 i hi
    rw [a1] at b1
    cases b1
    rw [hview "" i hi s' a2 a3, hview v i hi s2 b2 b3]
    exact ⟨a1, b4⟩

/-! ### translate -/

theorem go_wc (E : Ext K) : ∀ (d : List (String × K)) (_ : ∀ n ∈ d.map Prod.fst, n ∈ coordNames) (s : HS K),
    (Hit.translate.go E (pyDict d) s).2.wc = s.wc
  | [], _, _ => rfl
  | (k, v) :: r, h, s => by
    simp only [List.map_cons, List.mem_cons, forall_eq_or_imp] at h
    obtain ⟨a, ha⟩ := Hit.get_dbl E s k (coordNames_row k h.1).1
    obtain ⟨dv, _, hs⟩ := Hit.set_coord E h.1 (v + a) s
    have := go_wc E r h.2 { s with core := s.core.setD dv (v + a) }
    simp only [pyDict] at this
    simp [pyDict, Hit.translate.go, ha, Hit.addVal, hs, this]

/-- C105: `bunch.translate(d, v)`.  `w1` is what the translation alone makes of the hits; then every hit is put
on the mass shell with `v`.  Weights, contexts and all other hits are as before. -/
theorem C105_translate {E : Ext K} (hE : E.Lawful) (w : BWorld K) (hwf : (w.ctx w.hcur).WF) (b : Bunch K)
    (hnodup : b.hits.Nodup) (d : List (String × K)) (hd : (d.map Prod.fst).Nodup)
    (hn : ∀ n ∈ d.map Prod.fst, n ∈ coordNames) (v : String)
    (hp : ∀ i ∈ b.hits, Possible v (d.map Prod.fst) (w.hview i)) :
    ∃ w1 w' : BWorld K, Bunch.translate E (pyDict d) "" b.hits w = (.ok (), w1) ∧
      (∀ i ∈ b.hits, SameExcept E (d.map Prod.fst) (w.hview i) (w1.hview i) ∧
        ∀ n x, (n, x) ∈ d → ∀ a, Reads E (w.hview i) n a → Reads E (w1.hview i) n (x + a)) ∧
      Bunch.translate E (pyDict d) v b.hits w = (.ok (), w') ∧ SameWeights b.hits w w' ∧
      ∀ i ∈ b.hits, OnShellBy E v (w1.hview i) (w'.hview i) := by
  have key : ∀ i ∈ b.hits, ∃ s', Hit.translate.go E (pyDict d) (w.hview i) = (.ok (), s') ∧
      s'.wc = w.ctx w.hcur ∧ SameExcept E (d.map Prod.fst) (w.hview i) s' ∧
      ∀ n x, (n, x) ∈ d → ∀ a, Reads E (w.hview i) n a → Reads E s' n (x + a) := by
    intro i _
    obtain ⟨s', h1, _, h3, h4⟩ := translate_go E d ⟨hd, fun n h => (coordNames_row n (hn n h)).1⟩ (w.hview i) hwf
    have := go_wc E d hn (w.hview i)
    rw [h1] at this
    exact ⟨s', h1, this, h3, h4⟩
  obtain ⟨w1, w', h1, h2, _, h4, h5⟩ := after_shell hE v (d.map Prod.fst) hn (Hit.translate.go E (pyDict d))
    (fun v => Hit.translate E (pyDict d) v) (fun _ _ => rfl) (fun v => Bunch.translate E (pyDict d) v)
    (fun _ _ => rfl) (fun _ _ _ _ => rfl) b.hits hnodup w
    (fun i hi => by obtain ⟨s', a, b, c, _⟩ := key i hi; exact ⟨s', a, b, c⟩) hp
  refine ⟨w1, w', h1, fun i hi => ?_, h2, h4, fun i hi => (h5 i hi).2⟩
  obtain ⟨s', a1, _, a3, a4⟩ := key i hi
  rw [(h5 i hi).1] at a1
  cases a1
  exact ⟨a3, a4⟩

/-! ### linear maps -/

theorem abelian_split (E : Ext K) (vars : List String) (R : Mat K) (T O : List (String × K)) (v : String)
    (s : HS K) : Hit.abelian_transformation E vars R T O v s =
      (Hit.abelian_transformation E vars R T O "" >>= fun _ =>
        (Hit.mass_shell_condition E v >>= fun _ => pure ())) s := by
  simp only [Hit.abelian_transformation, PyM.bind_apply]
  cases Hit.get_vector E vars [] s with
  | mk r s1 =>
    cases r with
    | error e => rfl
    | ok vec =>
      by_cases hc : R.cols ≠ vars.length
      · simp only [if_pos hc]; rfl
      · simp only [if_neg hc, PyM.bind_apply]
        cases Hit.setVector E R.rows (fun i => ∑ j ∈ range R.cols, R.entry i j *
          (List.zipWith (fun key a => a - Hit.lookup0 O key) vars vec).getD j 0) T O 0 vars s1 with
        | mk r s2 =>
          cases r with
          | error e => rfl
          | ok _ => simp only [Hit.shell_empty]; rfl

section
variable {E : Ext K} (hE : E.Lawful) (w : BWorld K) (b : Bunch K) (hwf : (w.ctx w.hcur).WF)
  (hnodup : b.hits.Nodup) (vars : List String) (hnd : vars.Nodup) (hsub : ∀ n ∈ vars, n ∈ coordNames)
  (T O : List (String × K)) (vals : String → Nat → K)
  (hv : ∀ i ∈ b.hits, ∀ v ∈ vars, Bunch.hitNum E w i v = .ok (vals v i)) (v : String)
  (hp : ∀ i ∈ b.hits, Possible v vars (w.hview i))
include hE hwf hnodup hnd hsub hv hp

/-- C105: `bunch.abelian_transformation(vars, R, T, O, v)`.  `w1` is what the linear map alone makes of the
hits; then every hit is put on the mass shell with `v`; so the variables of the list other than `v` get the
values of the linear map.  Weights, contexts and all other hits are as before. -/
theorem C105_linear (R : Mat K) (hr : R.rows = vars.length) (hc : R.cols = vars.length) :
    ∃ w1 w' : BWorld K, Bunch.abelian E vars R T O "" b.hits w = (.ok (), w1) ∧
      Bunch.abelian E vars R T O v b.hits w = (.ok (), w') ∧ SameWeights b.hits w w' ∧
      (∀ i ∈ b.hits, OnShellBy E v (w1.hview i) (w'.hview i)) ∧
      (∀ i ∈ b.hits, ∀ a, a < vars.length → vars.getD a "" ∉ shellTouches v →
        Bunch.hitNum E w' i (vars.getD a "") = .ok (affine vars R T O (fun u => vals u i) a)) ∧
      ∀ i, ∀ n ∈ hitVariables, n ∉ vars → n ∉ shellTouches v →
        (Hit.get E n (w'.hview i)).1 = (Hit.get E n (w.hview i)).1 := by
  have key : ∀ i ∈ b.hits, ∃ s', Hit.abelian_transformation E vars R T O "" (w.hview i) = (.ok (), s') ∧
      s'.wc = w.ctx w.hcur ∧ SameExcept E vars (w.hview i) s' ∧
      ∀ a, a < vars.length → Reads E s' (vars.getD a "") (affine vars R T O (fun u => vals u i) a) := by
    intro i hi
    obtain ⟨s', h1, h2, _, _, h5, h6⟩ := abelian_hit E (w.hview i) hwf vars hnd hsub R hr hc T O
      (fun u => vals u i) fun n hn => getNum_reads (coordNames_row n (hsub n hn)).1 (hv i hi n hn)
    exact ⟨s', h1, h2, h5, h6⟩
  obtain ⟨w1, w', h1, h2, _, h4, h5⟩ := after_shell hE v vars hsub
    (Hit.abelian_transformation E vars R T O "") (fun v => Hit.abelian_transformation E vars R T O v)
    (abelian_split E vars R T O) (fun v => Bunch.abelian E vars R T O v)
    (fun _ _ => rfl) (fun _ _ _ _ => rfl) b.hits hnodup w
    (fun i hi => by obtain ⟨s', a, b, c, _⟩ := key i hi; exact ⟨s', a, b, c⟩) hp
  have hw1 : ∀ i ∈ b.hits, SameExcept E vars (w.hview i) (w1.hview i) ∧ ∀ a, a < vars.length →
      Reads E (w1.hview i) (vars.getD a "") (affine vars R T O (fun u => vals u i) a) := by
    intro i hi
    obtain ⟨s', a1, _, a3, a4⟩ := key i hi
    rw [(h5 i hi).1] at a1
    cases a1
    exact ⟨a3, a4⟩
  refine ⟨w1, w', h1, h2, h4, fun i hi => (h5 i hi).2, fun i hi a ha hav => ?_, fun i n hn hnv hnt => ?_⟩
  · have hm : vars.getD a "" ∈ vars := by simp [List.getD_eq_getElem?_getD, ha]
    have hdb := (coordNames_row _ (hsub _ hm)).1
    exact (((h5 i hi).2.frame.reads hdb hav).2 ((hw1 i hi).2 a ha)).getNum hdb
  · by_cases hi : i ∈ b.hits
    · rw [(h5 i hi).2.frame n hn hnt, (hw1 i hi).1 n hn hnv]
    · simp only [BWorld.hview, h4.others i hi, h4.ctx, h4.hcur]

variable {L : LinAlg K} (hL : L.Lawful) (hG : Bunch.EighLawful L)
  (hb : b.Normal w) (hmeans : b.means = []) (hW : ¬ |(b.hits.map w.weight).sum| < 1 / 1000000000)
  (hne : vars ≠ []) (target : Mat K) (t1 : target.rows = vars.length) (t2 : target.cols = vars.length)
  (ts : (Bunch.toM vars.length target).transpose = Bunch.toM vars.length target)
  (tp : PosDefinite vars.length (Bunch.toM vars.length target))
include hL hG hb hmeans hW hne t1 t2 ts tp

/-- C105: `bunch.transform_to(vars, target, T, {}, v)` for `v` (for 'p': px, py and pz) outside the list: the
covariance matrix of the list becomes a multiple of the target with the same determinant as before, exactly
as without `v`, and every hit is on the mass shell. -/
theorem C105_partial (M : Mat K) (hM : Bunch.covarianceMatrix E w b vars [] = .ok M)
    (cp : PosDefinite vars.length (Bunch.toM vars.length M)) (hdis : ∀ n ∈ shellTouches v, n ∉ vars) :
    ∃ (w1 w' : BWorld K) (R M' : Mat K) (c : K),
      Bunch.transformTo L E b vars target T [] "" w = (.ok (), w1) ∧
      Bunch.transformTo L E b vars target T [] v w = (.ok (), w') ∧ SameWeights b.hits w w' ∧
      (∀ i ∈ b.hits, OnShellBy E v (w1.hview i) (w'.hview i)) ∧
      (∀ i ∈ b.hits, ∀ a, a < vars.length →
        Bunch.hitNum E w' i (vars.getD a "") = .ok (affine vars R T [] (fun u => vals u i) a)) ∧
      Bunch.covarianceMatrix E w' b vars [] = .ok M' ∧ 0 < c ∧
      (∀ i j, i < vars.length → j < vars.length → M'.entry i j = c * target.entry i j) ∧
      M'.det = M.det := by
  obtain ⟨w0, R0, M0, c, g1, g2, g3, g4, _, g6, g7, g8, g9, g10, g11, g12⟩ := C62_default hL hG hE w b hwf hnodup
    hb hmeans hW vars hne hnd hsub T vals hv target t1 t2 ts tp M hM cp
  obtain ⟨M1, m1, m2, m3, m4⟩ := C21_bunch_entries E w b hb hmeans hW vars [] vals hv (by simp)
  rw [hM] at m1
  cases m1
  have cs : (Bunch.toM vars.length M).transpose = Bunch.toM vars.length M := by
    ext i j
    simp only [Matrix.transpose_apply, Bunch.toM, Matrix.of_apply]
    rw [m4 j i j.2 i.2, m4 i j i.2 j.2]
    exact (wmoment_order_and_zero_weight b.hits [] w.weight _ _).2.1 (List.Perm.swap _ _ _)
  have hn : vars.length ≠ 0 := fun h => hne (List.length_eq_zero_iff.1 h)
  obtain ⟨R, _, r1, r2, r3, _⟩ := Bunch.transformMatrix_ok hL hG hE hn M target m2 m3 t1 t2 cs ts cp tp
  obtain ⟨w1, w', k1, k2, k3, k4, k5, _⟩ := C105_linear hE w b hwf hnodup vars hnd hsub T [] vals hv v hp R r2 r3
  have e1 : Bunch.transformTo L E b vars target T [] "" w = (.ok (), w1) := by
    unfold Bunch.transformTo
    rw [List.map_nil, hM]
    simp only [r1]
    exact k1
  have e2 : Bunch.transformTo L E b vars target T [] v w = (.ok (), w') := by
    unfold Bunch.transformTo
    rw [List.map_nil, hM]
    simp only [r1]
    exact k2
  rw [g1] at e1
  cases e1
  have hin : ∀ a, a < vars.length → vars.getD a "" ∈ vars := by
    intro a ha; simp [List.getD_eq_getElem?_getD, ha]
  have kk : ∀ i ∈ b.hits, ∀ a, a < vars.length →
      Bunch.hitNum E w' i (vars.getD a "") = .ok (affine vars R T [] (fun u => vals u i) a) :=
    fun i hi a ha => k5 i hi a ha fun h => hdis _ h (hin a ha)
  have same : ∀ i ∈ b.hits, ∀ u ∈ vars, Bunch.hitNum E w' i u = .ok (movedVals vars R0 T [] vals u i) ∧
      Bunch.hitNum E w0 i u = .ok (movedVals vars R0 T [] vals u i) := by
    intro i hi u hu
    have hdb := (coordNames_row u (hsub u hu)).1
    have a1 := g6 i hi _ (List.idxOf_lt_length_of_mem hu)
    rw [getD_idxOf hu] at a1
    refine ⟨?_, a1⟩
    have a2 := getNum_reads hdb a1
    exact (((k4 i hi).frame.reads hdb fun h => hdis _ h hu).2 a2).getNum hdb
  have hweq : w'.weight = w0.weight := funext fun j => (k3.weight j).trans (g2.weight j).symm
  have hW' : ¬ |(b.hits.map w'.weight).sum| < 1 / 1000000000 := by rw [k3.sum]; exact hW
  have hW0 : ¬ |(b.hits.map w0.weight).sum| < 1 / 1000000000 := by rw [g2.sum]; exact hW
  obtain ⟨M2, n1, n2, n3, n4⟩ := C21_bunch_entries E w' b (k3.normal hb) hmeans hW' vars [] _
    (fun i hi u hu => (same i hi u hu).1) (by simp)
  obtain ⟨M3, o1, o2, o3, o4⟩ := C21_bunch_entries E w0 b (g2.normal hb) hmeans hW0 vars [] _
    (fun i hi u hu => (same i hi u hu).2) (by simp)
  rw [g7] at o1
  cases o1
  have ent : ∀ i j, i < vars.length → j < vars.length → M2.entry i j = M0.entry i j := by
    intro i j hi hj
    rw [n4 i j hi hj, o4 i j hi hj]
    simp only [DocumentedMean, hweq]
  refine ⟨w0, w', R, M2, c, g1, e2, k3, k4, kk, n1, g8, fun i j hi hj => ?_, ?_⟩
  · rw [ent i j hi hj, g11 i j hi hj]
  · rw [← g12, Bunch.det_toM n2, Bunch.det_toM o2]
    congr 1
    ext i j
    exact ent i j i.2 j.2

end

/-! ### what is false -/

theorem setVector_ignores (E : Ext K) (rows : Nat) (vec : Nat → K) (T O : List (String × K)) (n : String) (x : K) :
    ∀ (vars : List String) (_ : n ∉ vars) (i : Nat),
      Hit.setVector E rows vec ((n, x) :: T) O i vars = Hit.setVector E rows vec T O i vars
  | [], _, _ => rfl
  | k :: r, h, i => by
    rw [List.mem_cons, not_or] at h
    have hk : (k == n) = false := by simpa using fun e => h.1 e.symm
    simp only [Hit.setVector, setVector_ignores E rows vec T O n x r h.2, Hit.lookup0, List.lookup_cons, hk]

/-- C105 is false of the code: transform_to "then will add 10 to pz" (documentation of
`transform_to(['x','px'], ..., {'pz':10}, ...)`) does not happen.  A translation of a variable outside the
list changes nothing at all, for every bunch, list, target, translation, origin and mass shell variable. -/
theorem C105_translation_false (L : LinAlg K) (E : Ext K) (b : Bunch K) (vars : List String) (target : Mat K)
    (T O : List (String × K)) (v : String) (n : String) (hn : n ∉ vars) (x : K) (w : BWorld K) :
    Bunch.transformTo L E b vars target ((n, x) :: T) O v w = Bunch.transformTo L E b vars target T O v w := by
  have hit : ∀ R, Hit.abelian_transformation E vars R ((n, x) :: T) O v =
      Hit.abelian_transformation E vars R T O v := by
    intro R
    simp only [Hit.abelian_transformation, setVector_ignores E _ _ T O n x vars hn]
  have loop : ∀ R l w, Bunch.abelian E vars R ((n, x) :: T) O v l w = Bunch.abelian E vars R T O v l w := by
    intro R l
    induction l with
    | nil => intro w; rfl
    | cons i r ih => intro w; simp only [Bunch.abelian, hit, ih]
  simp only [Bunch.transformTo, loop]

/-- C105 is false of the code for 'p': at the first hit whose energy is less than its mass
abelian_transformation raises IndexError; the hits before it have been moved, it has px = -1 and the hits
after it have not been moved. -/
theorem C105_p_false {E : Ext K} (hE : E.Lawful) (w : BWorld K) (hwf : (w.ctx w.hcur).WF) (pre post : List Nat)
    (bad : Nat) (hnodup : (pre ++ bad :: post).Nodup) (vars : List String) (hnd : vars.Nodup)
    (hsub : ∀ n ∈ vars, n ∈ coordNames) (hev : "energy" ∉ vars) (hmv : "mass" ∉ vars) (T O : List (String × K))
    (vals : String → Nat → K)
    (hv : ∀ i ∈ pre ++ bad :: post, ∀ u ∈ vars, Bunch.hitNum E w i u = .ok (vals u i))
    (hpre : ∀ i ∈ pre, (w.hits i).d .mass ^ 2 ≤ (w.hits i).d .energy ^ 2)
    (hbad : (w.hits bad).d .energy ^ 2 < (w.hits bad).d .mass ^ 2)
    (R : Mat K) (hr : R.rows = vars.length) (hc : R.cols = vars.length) :
    ∃ w', Bunch.abelian E vars R T O "p" (pre ++ bad :: post) w = (.error .IndexError, w') ∧
      (∀ i ∈ pre, ∀ a, a < vars.length → vars.getD a "" ∉ ["px", "py", "pz"] →
        Bunch.hitNum E w' i (vars.getD a "") = .ok (affine vars R T O (fun u => vals u i) a)) ∧
      (w'.hits bad).d .px = -1 ∧ ∀ i ∈ post, w'.hits i = w.hits i := by
  have app : ∀ l r w w', Bunch.abelian E vars R T O "p" l w = (.ok (), w') →
      Bunch.abelian E vars R T O "p" (l ++ r) w = Bunch.abelian E vars R T O "p" r w' := by
    intro l
    induction l with
    | nil => intro r w w' h; cases h; rfl
    | cons i t ih =>
      intro r w w' h
      simp only [Bunch.abelian, List.cons_append] at h ⊢
      cases hx : w.onHit i (Hit.abelian_transformation E vars R T O "p") with
      | mk res w2 =>
        cases res with
        | error e => simp [hx] at h
        | ok u => simp only [hx] at h ⊢; exact ih r w2 w' h
  rw [List.nodup_append] at hnodup
  obtain ⟨n1, n2, n3⟩ := hnodup
  rw [List.nodup_cons] at n2
  have hdis : ∀ i ∈ bad :: post, i ∉ pre := fun i hi hp => n3 i hp i hi rfl
  obtain ⟨w1, w2, _, h2, h3, _, h5, _⟩ := C105_linear hE w { Bunch.new with hits := pre } hwf n1 vars hnd hsub
    T O vals (fun i hi => hv i (List.mem_append_left _ hi)) "p"
    (fun i hi => .inr ⟨rfl, hev, hmv, hpre i hi⟩) R hr hc
  have hbv : w2.hview bad = w.hview bad := by
    simp only [BWorld.hview, h3.others bad (hdis bad (by simp)), h3.ctx, h3.hcur]
  obtain ⟨s', a1, a2, _, _, a5, _⟩ := abelian_hit E (w.hview bad) hwf vars hnd hsub R hr hc T O
    (fun u => vals u bad) fun n hn => getNum_reads (coordNames_row n (hsub n hn)).1
      (hv bad (by simp) n hn)
  have hneg : (s'.core.d .energy - s'.core.d .mass) * (s'.core.d .energy + s'.core.d .mass) < 0 := by
    rw [sameExcept_energy a5 hev, sameExcept_mass a5 hmv]
    have : (w.hits bad).d .energy ^ 2 - (w.hits bad).d .mass ^ 2 < 0 := by linarith
    calc _ = (w.hits bad).d .energy ^ 2 - (w.hits bad).d .mass ^ 2 := by simp only [BWorld.hview]; ring
      _ < 0 := this
  have hfail := Hit.shell_p_neg hE s' hneg
  set s2 : HS K := ⟨(if E.sqrt (s'.core.d .px ^ 2 + s'.core.d .py ^ 2 + s'.core.d .pz ^ 2) = 0 then
    s'.core.setD .pz 1 else s'.core).setD .px (-1), s'.wc⟩ with hs2
  have hrun : Hit.abelian_transformation E vars R T O "p" (w.hview bad) = (.error .IndexError, s2) := by
    rw [abelian_split, PyM.bind_apply, a1]
    simp only [PyM.bind_apply, hfail]
  refine ⟨w2.hput bad s2, ?_, ?_, ?_, ?_⟩
  · rw [app _ _ _ _ h2, Bunch.abelian, BWorld.onHit, hbv, hrun]
  · intro i hi a ha hna
    have := h5 i hi a ha hna
    have hib : i ≠ bad := fun e => hdis bad (by simp) (e ▸ hi)
    have hview : (w2.hput bad s2).hview i = w2.hview i := by
      have hw : s2.wc = w2.ctx w2.hcur := by rw [h3.ctx, h3.hcur]; exact a2
      simp [BWorld.hview, BWorld.hput, hib, hw]
    unfold Bunch.hitNum at this ⊢
    rw [hview]; exact this
  · simp [BWorld.hput, hs2]
  · intro i hi
    have hib : i ≠ bad := fun e => n2.1 (e ▸ hi)
    simp [BWorld.hput, hib, h3.others i (hdis i (by simp [hi]))]

/-! ### non-vacuity -/

/-- hits with energies to spare, and one (number 2) with less energy than mass -/
noncomputable def exWorldE : BWorld ℝ :=
  { hits := fun i => ⟨fun v => match v with
      | .x => i | .px => 1 | .pz => 2 | .mass => 3 | .energy => if i = 2 then 1 else 5
      | .local_weight => 1 | _ => 0, fun _ => 0⟩
    ctx := fun _ => WC.new, hcur := 0, bcur := 0, geo := false }

/-- Non-vacuity of C105_translate, with 'p' and with 'pz'. -/
example (v : String) (hv : v ∈ ["p", "pz"]) : ∃ w1 w' : BWorld ℝ,
    Bunch.translate realExt (pyDict [("x", 1), ("px", 2)]) "" [0, 1] exWorldE = (.ok (), w1) ∧
    Bunch.translate realExt (pyDict [("x", 1), ("px", 2)]) v [0, 1] exWorldE = (.ok (), w') ∧
    Reads realExt (w'.hview 1) "x" 2 ∧ OnShellBy realExt v (w1.hview 1) (w'.hview 1) := by
  obtain ⟨w1, w', h1, h2, h3, _, h5⟩ := C105_translate realExt_lawful exWorldE WC.WF.new
    { Bunch.new with hits := [0, 1] } (by decide) [("x", 1), ("px", 2)] (by decide) (by decide) v (by
      intro i hi
      simp only [List.mem_cons, List.not_mem_nil, or_false] at hv hi
      rcases hv with rfl | rfl
      · refine .inr ⟨rfl, by decide, by decide, ?_⟩
        rcases hi with rfl | rfl <;> norm_num [exWorldE, BWorld.hview]
      · exact .inl (by decide))
  refine ⟨w1, w', h1, h3, ?_, h5 1 (by simp)⟩
  have hx : Reads realExt (exWorldE.hview 1) "x" 1 := by
    have : Reads realExt (exWorldE.hview 1) "x" ((exWorldE.hits 1).d .x) := rfl
    simpa [exWorldE] using this
  have := (h2 1 (by simp)).2 "x" 1 (by simp) 1 hx
  rw [show (1 : ℝ) + 1 = 2 by norm_num] at this
  refine ((h5 1 (by simp)).frame.reads (by decide) ?_).2 this
  simp only [List.mem_cons, List.not_mem_nil, or_false] at hv
  rcases hv with rfl | rfl <;> decide

/-- Non-vacuity of C105_p_false: hit 0 is moved, hit 2 fails, hit 1 stays. -/
example : ∃ w', Bunch.abelian realExt ["x"] ⟨1, 1, fun _ _ => 2⟩ [] [] "p" [0, 2, 1] exWorldE =
    (.error .IndexError, w') ∧ (w'.hits 2).d .px = -1 ∧ w'.hits 1 = exWorldE.hits 1 := by
  obtain ⟨w', h1, _, h3, h4⟩ := C105_p_false realExt_lawful exWorldE WC.WF.new [0] [1] 2 (by decide) ["x"]
    (by decide) (by decide) (by decide) (by decide) [] [] (fun _ i => i) (by
      intro i _ u hu
      simp only [List.mem_singleton] at hu
      subst hu
      rfl) (by intro i hi; simp only [List.mem_singleton] at hi; subst hi; norm_num [exWorldE])
    (by norm_num [exWorldE]) ⟨1, 1, fun _ _ => 2⟩ rfl rfl
  exact ⟨w', h1, h3, h4 1 (by simp)⟩

/-- Non-vacuity of C105_linear and C105_partial: the covariances of x and px become a multiple of those
asked for, and the energies are those of the new momenta. -/
example : ∃ w' M' c, Bunch.transformTo realEigh realExt exRealBunch ["x", "px"] exTarget [("x", 3)] [] "energy"
      exRealWorld = (.ok (), w') ∧
    Bunch.covarianceMatrix realExt w' exRealBunch ["x", "px"] [] = .ok M' ∧ 0 < c ∧
    M'.entry 0 0 = c * 2 ∧ M'.entry 0 1 = c * 1 ∧ ∀ i ∈ exRealBunch.hits, (w'.hview i).OnShell := by
  have hW : ¬ |(exRealBunch.hits.map exRealWorld.weight).sum| < 1 / 1000000000 := by
    simp only [exRealBunch, List.map_cons, List.map_nil, exReal_weight]; norm_num
  have hv : ∀ i ∈ exRealBunch.hits, ∀ v ∈ ["x", "px"],
      Bunch.hitNum realExt exRealWorld i v = .ok (exRealVals v i) :=
    fun i _ v hv => exReal_values i v (by simp at hv ⊢; tauto)
  obtain ⟨M, m1, m2, m3, m4⟩ := C21_bunch_entries realExt exRealWorld exRealBunch ⟨rfl, rfl, rfl⟩ rfl hW
    ["x", "px"] [] exRealVals hv (by simp)
  have e00 : M.entry 0 0 = 1 / 2 := (m4 0 0 (by simp) (by simp)).trans exReal_cov.1
  have e11 : M.entry 1 1 = 1 / 2 := (m4 1 1 (by simp) (by simp)).trans exReal_cov.2.1
  have e01 : M.entry 0 1 = 0 := (m4 0 1 (by simp) (by simp)).trans exReal_cov.2.2
  have e10 : M.entry 1 0 = 0 := (m4 1 0 (by simp) (by simp)).trans (by
    have := wcov_comm exRealBunch exRealWorld exRealVals "x" "px"
    rw [exReal_cov.2.2] at this
    exact this.symm)
  obtain ⟨w1, w', R, M', c, _, h1, _, h2, _, h4, h5, h6, _⟩ := C105_partial realExt_lawful exRealWorld
    exRealBunch WC.WF.new (by decide) ["x", "px"] (by decide) (by decide) [("x", 3)] exRealVals hv "energy"
    (fun _ _ => .inl (by decide)) realEigh_lawful realEigh_eigh ⟨rfl, rfl, rfl⟩ rfl hW
    (by simp) exTarget rfl rfl
    (by
      ext i j
      fin_cases i <;> fin_cases j <;> simp [Bunch.toM, exTarget])
    (two_posDefinite _ (by simp [exTarget]) (by simp [exTarget]) (by norm_num [exTarget])) M m1
    (two_posDefinite _ (by rw [e00]; norm_num) (by rw [e01, e10]) (by rw [e00, e01, e11]; norm_num))
    (by decide)
  refine ⟨w', M', c, h1, h4, h5, ?_, ?_, fun i hi => ?_⟩
  · rw [h6 0 0 (by simp) (by simp)]; simp [exTarget]
  · rw [h6 0 1 (by simp) (by simp)]; simp [exTarget]
  · exact (h2 i hi).shell.resolve_right fun h => absurd h.1 (by decide)

end BunchShell
end Xboa
