import Verif.Model.BunchCopy
import Verif.Props.HitCopy
import Verif.Props.BunchSplit
/-!
C88: Bunch.deepcopy and Bunch.new_from_hits make new hits that equal the old ones.
-/
set_option linter.unusedSectionVars false
namespace Xboa
namespace BunchCopy
variable {K : Type} [Field K] [LinearOrder K] [IsStrictOrderedRing K]

/-! ### specification -/

/-- The global weight of a track as the hits see it. -/
def trackWeight (w : BWorld K) (id : HitId) : K := (w.ctx w.hcur).getWeight id

/-- The weight of the last of the hits that belongs to another track than (0,0,0); what track (0,0,0)
has if there is none. -/
def lastOther (w : BWorld K) (hits : List Nat) : K :=
  hits.foldl (fun a i => if (w.hits i).trackId = ⟨0, 0, 0⟩ then a else trackWeight w (w.hits i).trackId)
    (trackWeight w ⟨0, 0, 0⟩)

/-- What two worlds share, apart from hits and weights of the current context. -/
structure SameFrame (w w' : BWorld K) : Prop where
  hcur : w'.hcur = w.hcur
  bcur : w'.bcur = w.bcur
  geo : w'.geo = w.geo
  ctx : ∀ c, c ≠ w.hcur → w'.ctx c = w.ctx c
  wf : (w.ctx w.hcur).WF → (w'.ctx w'.hcur).WF

theorem SameFrame.refl (w : BWorld K) : SameFrame w w := ⟨rfl, rfl, rfl, fun _ _ => rfl, id⟩

theorem SameFrame.trans {a b c : BWorld K} (h : SameFrame a b) (g : SameFrame b c) : SameFrame a c :=
  ⟨g.hcur.trans h.hcur, g.bcur.trans h.bcur, g.geo.trans h.geo, fun x hx => by
    rw [g.ctx x (by rw [h.hcur]; exact hx), h.ctx x hx], fun hw => g.wf (h.wf hw)⟩

/-! ### one new hit -/

/-- the world after object `k` was made as a copy of a hit with members `c` and global weight `g` -/
theorem made (w : BWorld K) (hw : (w.ctx w.hcur).WF) (k : Nat) (c : Core K) (g : K) :
    let w' := w.hput k ⟨c, (w.ctx w.hcur).setWeight ⟨0, 0, 0⟩ g⟩
    SameFrame w w' ∧ w'.hits k = c ∧ (∀ i, i ≠ k → w'.hits i = w.hits i) ∧
      ∀ id, trackWeight w' id = if id = ⟨0, 0, 0⟩ then g else trackWeight w id := by
  refine ⟨⟨rfl, rfl, rfl, fun x hx => ?_, fun h => ?_⟩, ?_, fun i hi => ?_, fun id => ?_⟩
  · simp only [BWorld.hput, if_neg hx]
  · simp only [BWorld.hput, if_true]
    exact h.setWeight _ _
  · simp only [BWorld.hput, if_true]
  · simp only [BWorld.hput, if_neg hi]
  · simp only [trackWeight, BWorld.hput, if_true]
    rw [WC.getWeight_setWeight hw]

/-! ### the two passes -/

theorem evalHits_ok (E : Ext K) (w0 : BWorld K) : ∀ (l : List Nat) (_ : ∀ i ∈ l, (w0.hits i).InRange)
    (k : Nat) (w : BWorld K) (_ : (w.ctx w.hcur).WF),
    ∃ w', evalHits E (l.map fun i => Hit.dict_from_hit (w0.hview i)) k w =
        (.ok (List.range' k l.length), w') ∧ SameFrame w w' ∧
      (∀ j (hj : j < l.length), w'.hits (k + j) = w0.hits l[j]) ∧
      (∀ i, (i < k ∨ k + l.length ≤ i) → w'.hits i = w.hits i) ∧
      ∀ id, trackWeight w' id = if id = ⟨0, 0, 0⟩ then
        l.foldl (fun _ i => trackWeight w0 (w0.hits i).trackId) (trackWeight w ⟨0, 0, 0⟩)
        else trackWeight w id
  | [], _, k, w, _ => ⟨w, rfl, SameFrame.refl w, by simp, fun _ _ => rfl, fun id => by
      split_ifs with h
      · rw [h]; rfl
      · rfl⟩
  | i :: r, hr, k, w, hw => by
    simp only [List.mem_cons, forall_eq_or_imp] at hr
    have h1 := Hit.new_from_copy E (w0.hview i) (w.hview k) hr.1
    obtain ⟨m1, m2, m3, m4⟩ := made w hw k (w0.hits i) (w0.hview i).globalWeight
    obtain ⟨w', g1, g2, g3, g4, g5⟩ := evalHits_ok E w0 r hr.2 (k + 1) _ (m1.wf hw)
    have h2 : w.onHit k (Hit.new_from_dict E (Hit.dict_from_hit (w0.hview i)) "") =
        (.ok (), w.hput k ⟨w0.hits i, (w.ctx w.hcur).setWeight ⟨0, 0, 0⟩ (w0.hview i).globalWeight⟩) := by
      rw [BWorld.onHit, h1]; rfl
    refine ⟨w', ?_, m1.trans g2, ?_, ?_, ?_⟩
    · rw [List.map_cons, evalHits, h2]
      simp only [g1, List.length_cons, List.range'_succ]
    · intro j hj
      match j with
      | 0 => rw [Nat.add_zero, g4 k (by omega), m2]; rfl
      | j + 1 =>
        have := g3 j (by simpa using hj)
        rw [show k + (j + 1) = k + 1 + j by omega, this]; rfl
    · intro x hx
      simp only [List.length_cons] at hx
      rw [g4 x (by omega), m3 x (by omega)]
    · intro id
      rw [g5 id]
      simp only [m4, if_true, List.foldl_cons]
      split_ifs <;> rfl

theorem copyLoop_ok (E : Ext K) : ∀ (l : List Nat) (k : Nat) (b : Bunch K) (w : BWorld K)
    (_ : ∀ i ∈ l, (w.hits i).InRange ∧ i < k) (_ : (w.ctx w.hcur).WF) (_ : b.Sync),
    ∃ b' w', copyLoop E l k b w = (.ok b', w') ∧ b'.Sync ∧ b'.hits = b.hits ++ List.range' k l.length ∧
      b'.covs = b.covs ∧ b'.means = b.means ∧ SameFrame w w' ∧
      (∀ j (hj : j < l.length), w'.hits (k + j) = w.hits l[j]) ∧
      (∀ i, (i < k ∨ k + l.length ≤ i) → w'.hits i = w.hits i) ∧
      ∀ id, trackWeight w' id = if id = ⟨0, 0, 0⟩ then lastOther w l else trackWeight w id
  | [], k, b, w, _, _, hb => ⟨b, w, rfl, hb, by simp, rfl, rfl, SameFrame.refl w, by simp,
      fun _ _ => rfl, fun id => by
        split_ifs with h
        · rw [h]; rfl
        · rfl⟩
  | i :: r, k, b, w, hr, hw, hb => by
    simp only [List.mem_cons, forall_eq_or_imp] at hr
    have h1 := Hit.new_from_copy E (w.hview i) (w.hview k) hr.1.1
    obtain ⟨m1, m2, m3, m4⟩ := made w hw k (w.hits i) (w.hview i).globalWeight
    have h2 : w.onHit k (Hit.new_from_dict E (Hit.dict_from_hit (w.hview i)) "") =
        (.ok (), w.hput k ⟨w.hits i, (w.ctx w.hcur).setWeight ⟨0, 0, 0⟩ (w.hview i).globalWeight⟩) := by
      rw [BWorld.onHit, h1]; rfl
    obtain ⟨b', w', g1, g2, g3, g4, g5, g6, g7, g8, g9⟩ := copyLoop_ok E r (k + 1) (b.append k) _
      (fun x hx => by rw [m3 x (by have := (hr.2 x hx).2; omega)]; exact ⟨(hr.2 x hx).1, by have := (hr.2 x hx).2; omega⟩)
      (m1.wf hw) (hb.append k)
    refine ⟨b', w', ?_, g2, ?_, g4, g5, m1.trans g6, ?_, ?_, ?_⟩
    · rw [copyLoop, h2]; exact g1
    · rw [g3, (Bunch.append_covs b k).1, List.length_cons, List.range'_succ, List.append_assoc]; rfl
    · intro j hj
      match j with
      | 0 => rw [Nat.add_zero, g8 k (by omega), m2]; rfl
      | j + 1 =>
        have hj' : j < r.length := by simpa using hj
        have := g7 j hj'
        rw [show k + (j + 1) = k + 1 + j by omega, this, m3 _ (by
          have := (hr.2 _ (List.getElem_mem hj')).2
          omega)]
        rfl
    · intro x hx
      simp only [List.length_cons] at hx
      rw [g8 x (by omega), m3 x (by omega)]
    · intro id
      rw [g9 id]
      split_ifs with h
      · have hg : (w.hview i).globalWeight = trackWeight w (w.hits i).trackId := rfl
        have key : ∀ (l : List Nat), (∀ x ∈ l, x < k) → ∀ a,
            l.foldl (fun a i_1 => if ((w.hput k ⟨w.hits i, (w.ctx w.hcur).setWeight ⟨0, 0, 0⟩
              (w.hview i).globalWeight⟩).hits i_1).trackId = ⟨0, 0, 0⟩ then a else
              trackWeight (w.hput k ⟨w.hits i, (w.ctx w.hcur).setWeight ⟨0, 0, 0⟩
              (w.hview i).globalWeight⟩) ((w.hput k ⟨w.hits i, (w.ctx w.hcur).setWeight ⟨0, 0, 0⟩
              (w.hview i).globalWeight⟩).hits i_1).trackId) a =
            l.foldl (fun a i_1 => if (w.hits i_1).trackId = ⟨0, 0, 0⟩ then a else
              trackWeight w (w.hits i_1).trackId) a := by
          intro l
          induction l with
          | nil => intro _ a; rfl
          | cons y t ih =>
            intro hl a
            simp only [List.mem_cons, forall_eq_or_imp] at hl
            simp only [List.foldl_cons]
            rw [m3 y (by omega), m4]
            split_ifs with hy <;> exact ih hl.2 _
        unfold lastOther
        rw [key r (fun x hx => (hr.2 x hx).2), List.foldl_cons, m4, if_pos rfl, hg]
        split_ifs with hi
        · rw [hi]
        · rfl
      · rw [m4, if_neg h]

/-! ### C88 -/

/-- C88, new_from_hits: the bunch holds one new hit for each hit of the list, with the same members,
in order.  No existing hit changes, nor the weight of any track but (0,0,0), which gets that of the
last hit of another track. -/
theorem C88_new_from_hits (E : Ext K) (hits : List Nat) (covs : Option (Mat K))
    (means : List (String × PyVal K)) (first : Nat) (w : BWorld K) (hw : (w.ctx w.hcur).WF)
    (hr : ∀ i ∈ hits, (w.hits i).InRange ∧ i < first) :
    ∃ b w', newFromHits E hits covs means first w = (.ok b, w') ∧ b.Sync ∧
      b.hits = List.range' first hits.length ∧ b.covs = covs ∧ b.means = means ∧ SameFrame w w' ∧
      (∀ j (hj : j < hits.length), w'.hits (first + j) = w.hits hits[j]) ∧
      (∀ i < first, w'.hits i = w.hits i) ∧
      (∀ id, id ≠ ⟨0, 0, 0⟩ → trackWeight w' id = trackWeight w id) ∧
      trackWeight w' ⟨0, 0, 0⟩ = lastOther w hits := by
  obtain ⟨b, w', g1, g2, g3, g4, g5, g6, g7, g8, g9⟩ := copyLoop_ok E hits first Bunch.new w hr hw rfl
  refine ⟨{ b with covs := covs, means := means }, w', ?_, g2, by simpa [Bunch.new] using g3, rfl, rfl, g6,
    g7, fun i hi => g8 i (.inl hi), fun id hid => ?_, ?_⟩
  · rw [newFromHits, g1]
  · rw [g9, if_neg hid]
  · rw [g9, if_pos rfl]

theorem fold_first (w : BWorld K) (l : List Nat) :
    l.foldl (fun a i => if (w.hits i).trackId = ⟨0, 0, 0⟩ then a else trackWeight w (w.hits i).trackId)
      (l.foldl (fun _ i => trackWeight w (w.hits i).trackId) (trackWeight w ⟨0, 0, 0⟩)) = lastOther w l := by
  by_cases h : ∃ i ∈ l, (w.hits i).trackId ≠ ⟨0, 0, 0⟩
  · have key : ∀ l : List Nat, (∃ i ∈ l, (w.hits i).trackId ≠ ⟨0, 0, 0⟩) → ∀ a b : K,
        l.foldl (fun a i => if (w.hits i).trackId = ⟨0, 0, 0⟩ then a else trackWeight w (w.hits i).trackId) a =
        l.foldl (fun a i => if (w.hits i).trackId = ⟨0, 0, 0⟩ then a else trackWeight w (w.hits i).trackId) b := by
      intro l
      induction l with
      | nil => rintro ⟨i, hi, _⟩; simp at hi
      | cons y t ih =>
        rintro ⟨i, hi, hne⟩ a b
        simp only [List.foldl_cons]
        by_cases hy : (w.hits y).trackId = ⟨0, 0, 0⟩
        · rw [if_pos hy, if_pos hy]
          rcases List.mem_cons.mp hi with rfl | hi
          · exact absurd hy hne
          · exact ih ⟨i, hi, hne⟩ a b
        · rw [if_neg hy, if_neg hy]
    exact key l h _ _
  · push Not at h
    have key : ∀ l : List Nat, (∀ i ∈ l, (w.hits i).trackId = ⟨0, 0, 0⟩) →
        l.foldl (fun _ i => trackWeight w (w.hits i).trackId) (trackWeight w ⟨0, 0, 0⟩) =
          trackWeight w ⟨0, 0, 0⟩ := by
      intro l
      induction l with
      | nil => intro _; rfl
      | cons y t ih =>
        intro hl
        simp only [List.mem_cons, forall_eq_or_imp] at hl
        rw [List.foldl_cons, hl.1]
        exact ih hl.2
    rw [key l h]
    rfl

theorem foldl_congr_range (w w' : BWorld K) (f : K → HitId → K) : ∀ (l l' : List Nat)
    (_ : l.length = l'.length)
    (_ : ∀ j (hj : j < l.length) (hj' : j < l'.length), w'.hits l'[j] = w.hits l[j]) (a : K),
    l'.foldl (fun a i => f a (w'.hits i).trackId) a = l.foldl (fun a i => f a (w.hits i).trackId) a
  | [], [], _, _, _ => rfl
  | x :: l, y :: l', hl, h, a => by
    have h0 := h 0 (by simp) (by simp)
    simp only [List.getElem_cons_zero] at h0
    simp only [List.foldl_cons, h0]
    exact foldl_congr_range w w' f l l' (by simpa using hl)
      (fun j hj hj' => by
        have := h (j + 1) (by simpa using hj) (by simpa using hj')
        simpa only [List.getElem_cons_succ] using this) _

/-- C88_partial, deepcopy: unless a covariance matrix of more than one element is recorded, deepcopy
returns a bunch of new hits with the same members in the same order, the same recorded means and
covariances.  No existing hit changes, nor the weight of any track but (0,0,0), which gets that of the
last hit of another track.
Missing: a recorded covariance matrix (false, C88_covs_false); the weight of track (0,0,0) (false,
C88_weight_false). -/
theorem C88_partial (E : Ext K) (b : Bunch K) (first : Nat) (w : BWorld K) (hw : (w.ctx w.hcur).WF)
    (hr : ∀ i ∈ b.hits, (w.hits i).InRange ∧ i < first)
    (hc : ∀ m, b.covs = some m → m.rows * m.cols = 1) :
    ∃ b' w', deepcopy E b first w = (.ok b', w') ∧ b'.Sync ∧
      b'.hits = List.range' (first + b.hits.length) b.hits.length ∧ b'.covs = b.covs ∧
      b'.means = b.means ∧ SameFrame w w' ∧
      (∀ j (hj : j < b.hits.length) (hj' : j < b'.hits.length), w'.hits b'.hits[j] = w.hits b.hits[j]) ∧
      (∀ i < first, w'.hits i = w.hits i) ∧
      (∀ id, id ≠ ⟨0, 0, 0⟩ → trackWeight w' id = trackWeight w id) ∧
      trackWeight w' ⟨0, 0, 0⟩ = lastOther w b.hits := by
  obtain ⟨w1, a1, a2, a3, a4, a5⟩ := evalHits_ok E w b.hits (fun i hi => (hr i hi).1) first w hw
  have hlen : (List.range' first b.hits.length).length = b.hits.length := List.length_range'
  obtain ⟨b', w', g1, g2, g3, g4, g5, g6, g7, g8, g9, g10⟩ := C88_new_from_hits E
    (List.range' first b.hits.length) b.covs b.means (first + b.hits.length) w1 (a2.wf hw) (by
      intro i hi
      obtain ⟨j, hj, rfl⟩ := List.mem_range'.mp hi
      rw [one_mul, a3 j hj]
      exact ⟨(hr _ (List.getElem_mem hj)).1, by omega⟩)
  rw [hlen] at g3
  refine ⟨b', w', ?_, g2, g3, g4, g5, a2.trans g6, ?_, ?_, ?_, ?_⟩
  · have ht : covsTest b.covs = .ok () := by
      unfold covsTest
      split
      · rfl
      · next m hm => rw [if_pos (hc m hm)]
    rw [deepcopy, ht]
    simp only [a1, hlen, g1]
  · intro j hj hj'
    have e : b'.hits[j] = first + b.hits.length + j := by
      simp only [g3, List.getElem_range', one_mul]
    rw [e, g7 j (by rw [hlen]; exact hj)]
    simp only [List.getElem_range', one_mul]
    exact a3 j hj
  · intro i hi
    rw [g8 i (by omega), a4 i (.inl hi)]
  · intro id hid
    rw [g9 id hid, a5, if_neg hid]
  · rw [g10, ← fold_first w b.hits]
    have h0 := a5 ⟨0, 0, 0⟩
    rw [if_pos rfl] at h0
    unfold lastOther
    rw [← h0]
    have h1 := foldl_congr_range w w1 (fun a id => if id = ⟨0, 0, 0⟩ then a else trackWeight w id) b.hits
      (List.range' first b.hits.length) hlen.symm (fun j hj hj' => by
        simp only [List.getElem_range', one_mul]
        exact a3 j hj) (trackWeight w1 ⟨0, 0, 0⟩)
    rw [← h1]
    congr 1
    funext a i
    split_ifs with h
    · rfl
    · rw [a5, if_neg h]

/-- the means of a bunch equal themselves -/
theorem meansEq_self (tol : K) (htol : 0 ≤ tol) (means : List (String × PyVal K))
    (hk : (means.map Prod.fst).Nodup) (hv : ∀ p ∈ means, (∃ a, p.2 = .flt a) ∨ ∃ n, p.2 = .int n) :
    ∀ l, (∀ p ∈ l, p ∈ means) → Bunch.meansEq tol means l = .ok true
  | [], _ => rfl
  | (k, v) :: r, h => by
    have hm := h (k, v) (by simp)
    have hl : means.lookup k = some v := by
      clear h hv
      induction means with
      | nil => simp at hm
      | cons p t ih =>
        obtain ⟨k', v'⟩ := p
        simp only [List.map_cons, List.nodup_cons] at hk
        rcases List.mem_cons.mp hm with e | hm'
        · cases e; simp [List.lookup]
        · have hne : ¬ k = k' := by
            rintro rfl
            exact hk.1 (List.mem_map_of_mem (f := Prod.fst) hm')
          simp only [List.lookup, beq_eq_false_iff_ne.mpr hne]
          exact ih hk.2 hm'
    have ih := meansEq_self tol htol means hk hv r (fun p hp => h p (by simp [hp]))
    rw [Bunch.meansEq, hl]
    rcases hv _ hm with ⟨a, ha⟩ | ⟨n, hn⟩
    · simp only at ha; subst ha
      simp [not_lt.mpr htol, ih]
    · simp only at hn; subst hn
      simp [not_lt.mpr htol, ih]

/-- C88: the copy equals the original in the sense of Bunch.__eq__, for any tolerance >= 0 (without
recorded covariances; recorded means are a dictionary of numbers). -/
theorem C88_equal (E : Ext K) (b : Bunch K) (first : Nat) (w : BWorld K) (hw : (w.ctx w.hcur).WF)
    (hr : ∀ i ∈ b.hits, (w.hits i).InRange ∧ i < first) (hc : b.covs = none)
    (hk : (b.means.map Prod.fst).Nodup)
    (hv : ∀ p ∈ b.means, (∃ a, p.2 = .flt a) ∨ ∃ n, p.2 = .int n) (tol : K) (htol : 0 ≤ tol) :
    ∃ b' w', deepcopy E b first w = (.ok b', w') ∧ Bunch.eq w' tol b b' = .ok true ∧
      Bunch.eq w' tol b' b = .ok true ∧ ∀ i ∈ b'.hits, i ∉ b.hits := by
  obtain ⟨b', w', g1, g2, g3, g4, g5, g6, g7, g8, _, _⟩ := C88_partial E b first w hw hr (by simp [hc])
  have hlen : b'.hits.length = b.hits.length := by rw [g3, List.length_range']
  have hm := meansEq_self tol htol b.means hk hv b.means (fun _ h => h)
  have hall : ∀ j (hj : j < b.hits.length) (hj' : j < b'.hits.length),
      w'.hits b'.hits[j] = w'.hits b.hits[j] := by
    intro j hj hj'
    rw [g7 j hj hj', g8 _ (hr _ (List.getElem_mem hj)).2]
  refine ⟨b', w', g1, ?_, ?_, ?_⟩
  · simp only [Bunch.eq, hlen, ne_eq, not_true_eq_false, if_false, g5, hm, g4, hc, Bunch.covsEq,
      Except.ok.injEq, List.all_eq_true]
    intro p hp
    obtain ⟨j, hj, rfl⟩ := List.getElem_of_mem hp
    simp only [List.length_zip] at hj
    simp only [List.getElem_zip]
    rw [hall j (by omega) (by omega)]
    exact (C15_refl_symm _ _ (w'.hits b.hits[j]) tol htol).1
  · simp only [Bunch.eq, hlen, ne_eq, not_true_eq_false, if_false, g5, hm, g4, hc, Bunch.covsEq,
      Except.ok.injEq, List.all_eq_true]
    intro p hp
    obtain ⟨j, hj, rfl⟩ := List.getElem_of_mem hp
    simp only [List.length_zip] at hj
    simp only [List.getElem_zip]
    rw [hall j (by omega) (by omega)]
    exact (C15_refl_symm _ _ (w'.hits b.hits[j]) tol htol).1
  · intro i hi h
    rw [g3] at hi
    obtain ⟨j, hj, rfl⟩ := List.mem_range'.mp hi
    have := (hr _ h).2
    omega

/-- C88 is false when a covariance matrix is recorded (set_covariance_matrix with two variables or
more): deepcopy raises ValueError, whatever the hits are. -/
theorem C88_covs_false (E : Ext K) (b : Bunch K) (first : Nat) (w : BWorld K) (m : Mat K)
    (hm : b.covs = some m) (h : 1 < m.rows * m.cols) :
    deepcopy E b first w = (.error .ValueError, w) := by
  have : covsTest b.covs = .error .ValueError := by
    rw [hm]
    show (if m.rows * m.cols = 1 then Except.ok () else if m.rows * m.cols = 0 then
      Except.error Err.Unmodelled else Except.error Err.ValueError) = _
    rw [if_neg (by omega), if_neg (by omega)]
  rw [deepcopy, this]

/-- A hit of event 5 and a hit without event number; event 5 has global weight 3. -/
def exTracks : BWorld ℚ :=
  { hits := fun i => if i = 0 then (Core.new.setI .event 5).setD .x 2 else Core.new
    ctx := fun _ => WC.new.setWeight ⟨0, 0, 5⟩ 3, hcur := 0, bcur := 0, geo := false }

/-- C88 is false for the weights: the deepcopy of a bunch changes the weight of hit 1 of the original
bunch (and of its copy) from 1 to 3. -/
theorem C88_weight_false :
    let r := deepcopy ratExt ⟨[0, 1], [some 0, some 1], none, []⟩ 2 exTracks
    r.1.toOption.map (fun b => b.hits) = some [4, 5] ∧
      (Hit.get ratExt "weight" (exTracks.hview 1)).1.toOption = some (.flt 1) ∧
      (Hit.get ratExt "weight" (r.2.hview 1)).1.toOption = some (.flt 3) ∧
      (Hit.get ratExt "weight" (r.2.hview 5)).1.toOption = some (.flt 3) := by decide +kernel

/-! ### cases -/

theorem exTracks_ok : (exTracks.ctx exTracks.hcur).WF ∧
    ∀ i ∈ [0, 1], (exTracks.hits i).InRange ∧ i < 2 := by
  refine ⟨(WC.WF.new).setWeight _ _, ?_⟩
  simp only [List.forall_mem_cons]
  refine ⟨⟨?_, by decide⟩, ⟨?_, by decide⟩, by simp⟩
  · intro v; cases v <;> decide
  · intro v; cases v <;> decide

example : ∃ b' w', deepcopy ratExt ⟨[0, 1], [some 0, some 1], none, [("x", .flt 2)]⟩ 2 exTracks = (.ok b', w') ∧
    Bunch.eq w' (1 / 1000000000) ⟨[0, 1], [some 0, some 1], none, [("x", .flt 2)]⟩ b' = .ok true ∧
    Bunch.eq w' (1 / 1000000000) b' ⟨[0, 1], [some 0, some 1], none, [("x", .flt 2)]⟩ = .ok true ∧
    ∀ i ∈ b'.hits, i ∉ [0, 1] :=
  C88_equal ratExt ⟨[0, 1], [some 0, some 1], none, [("x", .flt 2)]⟩ 2 exTracks exTracks_ok.1 exTracks_ok.2 rfl
    (by simp) (by simp) (1 / 1000000000) (by norm_num)

example : ∃ b w', newFromHits ratExt [1, 0, 1] none [] 2 exTracks = (.ok b, w') ∧ b.hits = [2, 3, 4] ∧
    w'.hits 3 = exTracks.hits 0 ∧ trackWeight w' ⟨0, 0, 0⟩ = 3 := by
  obtain ⟨b, w', h1, _, h3, _, _, _, h7, _, _, h10⟩ := C88_new_from_hits ratExt [1, 0, 1] none [] 2 exTracks
    exTracks_ok.1 (fun i hi => exTracks_ok.2 i (by
      simp only [List.mem_cons, List.not_mem_nil, or_false] at hi ⊢; omega))
  exact ⟨b, w', h1, h3, h7 1 (by simp), by rw [h10]; decide +kernel⟩

end BunchCopy
end Xboa
