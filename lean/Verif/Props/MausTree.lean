import Verif.Model.MausTree
import Verif.Props.HitStorage
import Mathlib.Data.List.Perm.Basic
/-!
C42 (the MAUS tree) and C68 (reading MAUS json files).
-/
set_option linter.unusedSectionVars false
namespace Xboa
open Maus
variable {K : Type} [Field K] [LinearOrder K] [IsStrictOrderedRing K]

/-! ### C42 -/

/-- `gs` is the list `l` split into groups with equal `f`: every element is in exactly one group, in
the order of the list, groups are not empty, elements with equal `f` are in the same group, and the
groups are in the order of their first elements. -/
structure Grouped {α : Type} (f : α → Int) (l : List α) (gs : List (List α)) : Prop where
  perm : gs.flatten.Perm l
  order : ∀ g ∈ gs, g.Sublist l
  nonempty : ∀ g ∈ gs, g ≠ []
  same : ∀ g ∈ gs, ∀ a ∈ g, ∀ b ∈ g, f a = f b
  diff : gs.Pairwise fun g g' => ∀ a ∈ g, ∀ b ∈ g', f a ≠ f b
  first : (gs.filterMap List.head?).Sublist l

/-- What the file says about a hit in format maus_json_virtual_hit. -/
def virtualHitDoc (h : HS K) : Tree K := .hit
  [("position", .vec [("x", .flt (h.core.d .x)), ("y", .flt (h.core.d .y)), ("z", .flt (h.core.d .z))]),
   ("momentum", .vec [("x", .flt (h.core.d .px)), ("y", .flt (h.core.d .py)),
     ("z", .flt (h.core.d .pz))]),
   ("b_field", .vec [("x", .flt (h.core.d .bx)), ("y", .flt (h.core.d .«by»)),
     ("z", .flt (h.core.d .bz))]),
   ("e_field", .vec [("x", .flt (h.core.d .ex)), ("y", .flt (h.core.d .ey)),
     ("z", .flt (h.core.d .ez))]),
   ("station_id", .num (.int (h.core.i .station))), ("particle_id", .num (.int (h.core.i .pid))),
   ("track_id", .num (.int (h.core.i .particle))), ("time", .num (.flt (h.core.d .t))),
   ("mass", .num (.flt (h.core.d .mass))), ("charge", .num (.flt (h.core.d .charge))),
   ("proper_time", .num (.flt (h.core.d .proper_time))),
   ("path_length", .num (.flt (h.core.d .path_length)))]

/-- What the file says about a hit in format maus_json_primary. -/
def primaryDoc (h : HS K) : Tree K := .hit
  [("position", .vec [("x", .flt (h.core.d .x)), ("y", .flt (h.core.d .y)), ("z", .flt (h.core.d .z))]),
   ("momentum", .vec [("x", .flt (h.core.d .px)), ("y", .flt (h.core.d .py)),
     ("z", .flt (h.core.d .pz))]),
   ("particle_id", .num (.int (h.core.i .pid))), ("time", .num (.flt (h.core.d .t))),
   ("energy", .num (.flt (h.core.d .energy)))]

theorem hitTree_virtual (E : Ext K) (h : HS K) :
    hitTree E "maus_json_virtual_hit" h = .ok (virtualHitDoc h) := rfl
theorem hitTree_primary (E : Ext K) (h : HS K) :
    hitTree E "maus_json_primary" h = .ok (primaryDoc h) := rfl
theorem item_event (E : Ext K) (h : HS K) :
    item E h "event_number" = .ok (.int (h.core.i .event)) := rfl
theorem item_particle (E : Ext K) (h : HS K) :
    item E h "particle_number" = .ok (.int (h.core.i .particle)) := rfl

theorem mapE_ok {α β : Type} (f : α → Except Err β) (g : α → β) : ∀ l : List α,
    (∀ a ∈ l, f a = .ok (g a)) → mapE f l = .ok (l.map g)
  | [], _ => rfl
  | a :: r, h => by
    simp [mapE, h a (by simp), mapE_ok f g r fun b hb => h b (by simp [hb])]

/-- The dictionary of groups while the loop runs. -/
structure GroupDict {α : Type} (f : α → Int) (l : List α) (d : List (Val K × List α)) : Prop where
  grouped : Grouped f l (d.map Prod.snd)
  keys : ∀ p ∈ d, ∀ a ∈ p.2, p.1 = .int (f a)

theorem groupInsert_perm {α β : Type} [DecidableEq β] (k : β) (a : α) : ∀ d : List (β × List α),
    ((groupInsert d k a).map Prod.snd).flatten.Perm ((d.map Prod.snd).flatten ++ [a])
  | [] => by simp [groupInsert]
  | (k', g) :: r => by
    rw [groupInsert]
    split
    · simp only [List.map_cons, List.flatten_cons, List.append_assoc]
      exact List.Perm.append_left _ List.perm_append_comm
    · simp only [List.map_cons, List.flatten_cons, List.append_assoc]
      exact List.Perm.append_left _ (groupInsert_perm k a r)

/-- a group after an insertion is an old one, an old one with the key and the new element, or new -/
theorem mem_groupInsert {α β : Type} [DecidableEq β] (k : β) (a : α) (d : List (β × List α))
    (p : β × List α) (hp : p ∈ groupInsert d k a) :
    p ∈ d ∨ (∃ g, (k, g) ∈ d ∧ p = (k, g ++ [a])) ∨ p = (k, [a]) := by
  induction d with
  | nil => simp [groupInsert] at hp; simp [hp]
  | cons q r ih =>
    obtain ⟨k', g⟩ := q
    rw [groupInsert] at hp
    split at hp
    · rename_i hk
      subst hk
      rcases List.mem_cons.mp hp with rfl | hp
      · exact .inr (.inl ⟨g, by simp, rfl⟩)
      · exact .inl (by simp [hp])
    · rcases List.mem_cons.mp hp with rfl | hp
      · exact .inl (by simp)
      · rcases ih hp with h | ⟨g', h, e⟩ | h
        · exact .inl (by simp [h])
        · exact .inr (.inl ⟨g', by simp [h], e⟩)
        · exact .inr (.inr h)

theorem groupInsert_heads {α β : Type} [DecidableEq β] (k : β) (a : α) :
    ∀ d : List (β × List α), (∀ p ∈ d, p.2 ≠ []) →
      ((groupInsert d k a).map Prod.snd).filterMap List.head? =
        (d.map Prod.snd).filterMap List.head? ∨
      ((groupInsert d k a).map Prod.snd).filterMap List.head? =
        (d.map Prod.snd).filterMap List.head? ++ [a]
  | [], _ => .inr (by simp [groupInsert])
  | (k', g) :: r, h => by
    have hg : g ≠ [] := h (k', g) (by simp)
    obtain ⟨b, t, rfl⟩ := List.exists_cons_of_ne_nil hg
    rw [groupInsert]
    split
    · exact .inl (by simp)
    · rcases groupInsert_heads k a r (fun p hp => h p (by simp [hp])) with e | e
      · exact .inl (by simp only [List.map_cons, List.filterMap_cons, List.head?_cons, e])
      · exact .inr (by simp only [List.map_cons, List.filterMap_cons, List.head?_cons, e,
          List.cons_append])

theorem groupInsert_diff {α : Type} (f : α → Int) (a : α) : ∀ d : List (Val K × List α),
    (∀ p ∈ d, p.2 ≠ [] ∧ ∀ b ∈ p.2, p.1 = .int (f b)) →
    (d.map Prod.snd).Pairwise (fun g g' => ∀ a ∈ g, ∀ b ∈ g', f a ≠ f b) →
    ((groupInsert d (.int (f a)) a).map Prod.snd).Pairwise
      (fun g g' => ∀ a ∈ g, ∀ b ∈ g', f a ≠ f b)
  | [], _, _ => by simp [groupInsert]
  | (k', g) :: r, hk, hd => by
    simp only [List.map_cons, List.pairwise_cons, List.mem_map, forall_exists_index, and_imp] at hd
    have hk' := hk (k', g) (by simp)
    rw [groupInsert]
    split
    · rename_i e
      simp only [List.map_cons, List.pairwise_cons]
      refine ⟨?_, hd.2⟩
      intro g' hg' x hx y hy
      obtain ⟨p, hp, rfl⟩ := List.mem_map.mp hg'
      rcases List.mem_append.mp hx with hx | hx
      · exact hd.1 _ p hp rfl x hx y hy
      · simp only [List.mem_singleton] at hx
        subst hx
        obtain ⟨b, hb⟩ := List.exists_mem_of_ne_nil _ hk'.1
        have hb' := hk'.2 b hb
        rw [← e] at hb'
        injection hb' with hb'
        rw [hb']
        exact hd.1 _ p hp rfl b hb y hy
    · rename_i e
      simp only [List.map_cons, List.pairwise_cons]
      refine ⟨?_, groupInsert_diff f a r (fun p hp => hk p (by simp [hp])) hd.2⟩
      intro g' hg' x hx y hy
      have hxk := hk'.2 x hx
      obtain ⟨p, hp, rfl⟩ := List.mem_map.mp hg'
      rcases mem_groupInsert _ _ _ _ hp with h | ⟨g'', h, e'⟩ | h
      · exact hd.1 _ p h rfl x hx y hy
      · rw [e'] at hy
        rcases List.mem_append.mp hy with hy | hy
        · exact hd.1 _ _ h rfl x hx y hy
        · simp only [List.mem_singleton] at hy
          subst hy
          intro hxy
          exact e ((congrArg Val.int hxy.symm).trans hxk.symm)
      · rw [h] at hy
        simp only [List.mem_singleton] at hy
        subst hy
        intro hxy
        exact e ((congrArg Val.int hxy.symm).trans hxk.symm)

theorem GroupDict.insert {α : Type} {f : α → Int} {l : List α} {d : List (Val K × List α)}
    (g : GroupDict f l d) (a : α) : GroupDict f (l ++ [a]) (groupInsert d (.int (f a)) a) := by
  have hne : ∀ p ∈ d, p.2 ≠ [] := fun p hp => g.grouped.nonempty _ (List.mem_map_of_mem hp)
  refine ⟨⟨?_, ?_, ?_, ?_, ?_, ?_⟩, ?_⟩
  · exact (groupInsert_perm _ a d).trans (List.Perm.append_right _ g.grouped.perm)
  · intro x hx
    obtain ⟨p, hp, rfl⟩ := List.mem_map.mp hx
    rcases mem_groupInsert _ _ _ _ hp with h | ⟨g', h, rfl⟩ | rfl
    · exact (g.grouped.order _ (List.mem_map_of_mem h)).trans (List.sublist_append_left _ _)
    · exact (g.grouped.order _ (List.mem_map_of_mem h)).append (List.Sublist.refl _)
    · exact List.sublist_append_right _ _
  · intro x hx
    obtain ⟨p, hp, rfl⟩ := List.mem_map.mp hx
    rcases mem_groupInsert _ _ _ _ hp with h | ⟨g', h, rfl⟩ | rfl
    · exact hne p h
    · simp
    · simp
  · intro x hx b hb c hc
    obtain ⟨p, hp, rfl⟩ := List.mem_map.mp hx
    rcases mem_groupInsert _ _ _ _ hp with h | ⟨g', h, rfl⟩ | rfl
    · exact g.grouped.same _ (List.mem_map_of_mem h) b hb c hc
    · have : ∀ z ∈ g' ++ [a], f z = f a := by
        intro z hz
        rcases List.mem_append.mp hz with hz | hz
        · have := g.keys _ h z hz
          injection this with this
          exact this.symm
        · simp only [List.mem_singleton] at hz
          rw [hz]
      rw [this b hb, this c hc]
    · simp only [List.mem_singleton] at hb hc
      rw [hb, hc]
  · exact groupInsert_diff f a d (fun p hp => ⟨hne p hp, g.keys p hp⟩) g.grouped.diff
  · rcases groupInsert_heads (.int (f a) : Val K) a d hne with e | e
    · rw [e]; exact g.grouped.first.trans (List.sublist_append_left _ _)
    · rw [e]; exact g.grouped.first.append (List.Sublist.refl _)
  · intro p hp b hb
    rcases mem_groupInsert _ _ _ _ hp with h | ⟨g', h, rfl⟩ | rfl
    · exact g.keys p h b hb
    · rcases List.mem_append.mp hb with hb | hb
      · exact g.keys _ h b hb
      · simp only [List.mem_singleton] at hb
        rw [hb]
    · simp only [List.mem_singleton] at hb
      rw [hb]

/-- splitting by an integer variable groups the hits -/
theorem splitByEquality_grouped (E : Ext K) (v : String) (f : HS K → Int)
    (hf : ∀ h, item E h v = .ok (.int (f h))) (hits : List (HS K)) :
    ∃ gs, splitByEquality E v hits = .ok gs ∧ Grouped f hits gs := by
  have : ∀ (r done : List (HS K)) (d : List (Val K × List (HS K))), GroupDict f done d →
      ∃ d', Maus.splitLoop E v r d = .ok d' ∧ GroupDict f (done ++ r) d' := by
    intro r
    induction r with
    | nil => intro done d g; exact ⟨d, rfl, by simpa using g⟩
    | cons h r ih =>
      intro done d g
      obtain ⟨d', h1, h2⟩ := ih (done ++ [h]) _ (g.insert h)
      exact ⟨d', by rw [Maus.splitLoop, hf h]; exact h1, by simpa using h2⟩
  obtain ⟨d, h1, h2⟩ := this hits [] []
    ⟨⟨by simp, by simp, by simp, by simp, by simp, by simp⟩, by simp⟩
  exact ⟨d.map Prod.snd, by rw [splitByEquality, h1], by simpa using h2.grouped⟩

/-- C42, virtual hits: for all lists of hits there is a tree.  It has an entry for each group of hits
with the same event_number; this has an entry for each group of hits of that event with the same
particle_number; this lists the hits of the group.  Groups are not empty, hold every hit exactly once
(`Grouped`) and are in the order of first appearance. -/
theorem C42_virtual_hits (E : Ext K) (hits : List (HS K)) :
    ∃ (events : List (List (HS K))) (tracks : List (HS K) → List (List (HS K))),
      Grouped (fun h => h.core.i .event) hits events ∧
      (∀ g ∈ events, Grouped (fun h => h.core.i .particle) g (tracks g)) ∧
      getMausTree E hits "maus_json_virtual_hit" =
        .ok (.list (events.map fun g => .dict "mc_events" (.list ((tracks g).map fun t =>
          .dict "virtual_hits" (.list (t.map virtualHitDoc)))))) := by
  obtain ⟨events, he, hg⟩ := splitByEquality_grouped E "event_number" _ (item_event E) hits
  choose tracks ht hs using splitByEquality_grouped E "particle_number" _ (item_particle E)
  refine ⟨events, tracks, hg, fun g _ => hs g, ?_⟩
  have h3 : ∀ t, treeRec E "maus_json_virtual_hit" [.key "virtual_hits", .split "station"] t =
      .ok (.dict "virtual_hits" (.list (t.map virtualHitDoc))) := by
    intro t
    rw [treeRec, treeRec]
    rw [mapE_ok (hitTree E "maus_json_virtual_hit") virtualHitDoc t
      (fun h _ => hitTree_virtual E h)]
  have h2 : ∀ g, treeRec E "maus_json_virtual_hit" [.key "mc_events", .split "particle_number",
      .key "virtual_hits", .split "station"] g =
      .ok (.dict "mc_events" (.list ((tracks g).map fun t =>
        .dict "virtual_hits" (.list (t.map virtualHitDoc))))) := by
    intro g
    rw [treeRec, treeRec]
    simp only [ht g, mapE_ok _ _ _ fun t _ => h3 t]
  show treeRec E "maus_json_virtual_hit" [.split "event_number", .key "mc_events",
    .split "particle_number", .key "virtual_hits", .split "station"] hits = _
  rw [treeRec]
  simp only [he, mapE_ok _ _ _ fun g _ => h2 g]

/-- groups of elements that all differ have one element each -/
theorem Grouped.singletons {α : Type} {f : α → Int} {l : List α} {gs : List (List α)}
    (g : Grouped f l gs) (h : l.Pairwise fun a b => f a ≠ f b) : gs = l.map fun a => [a] := by
  have h1 : ∀ x ∈ gs, ∃ a, x = [a] := by
    intro x hx
    match hx' : x, g.nonempty x hx with
    | [a], _ => exact ⟨a, rfl⟩
    | a :: b :: r, _ =>
      have hs := h.sublist (g.order _ hx)
      simp only [List.pairwise_cons, List.mem_cons] at hs
      exact absurd (g.same _ hx a (by simp) b (by simp)) (hs.1 b (.inl rfl))
  have h2 : ∀ gs : List (List α), (∀ x ∈ gs, ∃ a, x = [a]) →
      gs = (gs.filterMap List.head?).map (fun a => [a]) ∧
      (gs.filterMap List.head?).length = gs.flatten.length := by
    intro gs
    induction gs with
    | nil => simp
    | cons x r ih =>
      intro h
      obtain ⟨a, rfl⟩ := h x (by simp)
      obtain ⟨h3, h4⟩ := ih (fun y hy => h y (by simp [hy]))
      constructor
      · simp only [List.filterMap_cons, List.head?_cons, List.map_cons]
        rw [← h3]
      · simp [h4, Nat.add_comm]
  obtain ⟨h3, h4⟩ := h2 gs h1
  rw [g.perm.length_eq] at h4
  rw [h3, g.first.eq_of_length h4]

/-- The hits have different event or particle numbers. -/
def AllDiffer (hits : List (HS K)) : Prop :=
  hits.Pairwise fun a b => ¬ (a.core.i .event = b.core.i .event ∧
    a.core.i .particle = b.core.i .particle)

theorem treeRec_primary (E : Ext K) (g : List (HS K)) :
    ∃ gs, Grouped (fun h => h.core.i .particle) g gs ∧
      treeRec E "maus_json_primary" [.key "mc_events", .split "particle_number", .key "primary"] g =
        match mapE (treeRec E "maus_json_primary" [.key "primary"]) gs with
        | .error e => .error e
        | .ok l => .ok (.dict "mc_events" (.list l)) := by
  obtain ⟨gs, h1, h2⟩ := splitByEquality_grouped E "particle_number" _ (item_particle E) g
  refine ⟨gs, h2, ?_⟩
  rw [treeRec, treeRec]
  simp only [h1]
  cases mapE (treeRec E "maus_json_primary" [.key "primary"]) gs <;> rfl

theorem treeRec_one (E : Ext K) (h : HS K) :
    treeRec E "maus_json_primary" [.key "primary"] [h] = .ok (.dict "primary" (primaryDoc h)) := by
  rw [treeRec, hitTree_primary]

/-- C42, primaries: if no two hits have the same event and particle number the tree has an entry for
each group of hits with the same event_number, and this lists the hits of the group. -/
theorem C42_primaries (E : Ext K) (hits : List (HS K)) (hd : AllDiffer hits) :
    ∃ events : List (List (HS K)), Grouped (fun h => h.core.i .event) hits events ∧
      getMausTree E hits "maus_json_primary" =
        .ok (.list (events.map fun g => .dict "mc_events" (.list (g.map fun h =>
          .dict "primary" (primaryDoc h))))) := by
  obtain ⟨events, he, hg⟩ := splitByEquality_grouped E "event_number" _ (item_event E) hits
  refine ⟨events, hg, ?_⟩
  have h2 : ∀ g ∈ events, treeRec E "maus_json_primary"
      [.key "mc_events", .split "particle_number", .key "primary"] g =
      .ok (.dict "mc_events" (.list (g.map fun h => .dict "primary" (primaryDoc h)))) := by
    intro g hgm
    obtain ⟨gs, h1, h3⟩ := treeRec_primary E g
    have hp : g.Pairwise fun a b => a.core.i .particle ≠ b.core.i .particle := by
      have := hd.sublist (hg.order g hgm)
      refine List.Pairwise.imp_of_mem (fun {a b} ha hb hab => ?_) this
      intro e
      exact hab ⟨hg.same g hgm a ha b hb, e⟩
    rw [h3, h1.singletons hp, mapE_ok _ (fun t => match t with
      | [h] => .dict "primary" (primaryDoc h)
      | _ => .list []) _ (by
        intro t ht
        obtain ⟨h, _, rfl⟩ := List.mem_map.mp ht
        exact treeRec_one E h)]
    simp only [List.map_map, Function.comp_def]
  show treeRec E "maus_json_primary" [.split "event_number", .key "mc_events",
    .split "particle_number", .key "primary"] hits = _
  rw [treeRec]
  simp only [he, mapE_ok _ _ _ h2]

theorem mapE_error {α β : Type} (f : α → Except Err β) (e : Err) : ∀ l : List α,
    (∀ a ∈ l, (∃ b, f a = .ok b) ∨ f a = .error e) → (∃ a ∈ l, f a = .error e) →
    mapE f l = .error e
  | [], _, h => by obtain ⟨a, ha, _⟩ := h; simp at ha
  | a :: r, h, hx => by
    rw [mapE]
    rcases h a (by simp) with ⟨b, hb⟩ | hb
    · rw [hb]
      have : ∃ a ∈ r, f a = .error e := by
        obtain ⟨c, hc, hce⟩ := hx
        rcases List.mem_cons.mp hc with rfl | hc
        · rw [hb] at hce; cases hce
        · exact ⟨c, hc, hce⟩
      simp only [mapE_error f e r (fun c hc => h c (by simp [hc])) this]
    · rw [hb]

theorem mapE_cases {α β : Type} (f : α → Except Err β) (e : Err) (l : List α)
    (h : ∀ a ∈ l, (∃ b, f a = .ok b) ∨ f a = .error e) :
    (∃ bs, mapE f l = .ok bs) ∧ (∀ a ∈ l, ∃ b, f a = .ok b) ∨
      mapE f l = .error e ∧ ∃ a ∈ l, f a = .error e := by
  by_cases hx : ∃ a ∈ l, f a = .error e
  · exact .inr ⟨mapE_error f e l h hx, hx⟩
  · left
    have hall : ∀ a ∈ l, ∃ b, f a = .ok b := fun a ha => (h a ha).resolve_right fun he => hx ⟨a, ha, he⟩
    refine ⟨?_, hall⟩
    clear h hx
    induction l with
    | nil => exact ⟨[], rfl⟩
    | cons a r ih =>
      obtain ⟨b, hb⟩ := hall a (by simp)
      obtain ⟨bs, hbs⟩ := ih (fun c hc => hall c (by simp [hc]))
      exact ⟨b :: bs, by simp [mapE, hb, hbs]⟩

/-- C42, primaries: if two hits have the same event and particle number, IOError is raised (there is
room for one primary), so no hit is dropped silently. -/
theorem C42_primaries_repeated (E : Ext K) (hits : List (HS K)) (hd : ¬ AllDiffer hits) :
    getMausTree E hits "maus_json_primary" = .error .IOError := by
  obtain ⟨events, he, hg⟩ := splitByEquality_grouped E "event_number" _ (item_event E) hits
  have hone : ∀ t : List (HS K), t ≠ [] →
      (∃ b, treeRec E "maus_json_primary" [.key "primary"] t = .ok b) ∧ t.length = 1 ∨
      treeRec E "maus_json_primary" [.key "primary"] t = .error .IOError ∧ t.length ≠ 1 := by
    intro t ht
    match t, ht with
    | [h], _ => exact .inl ⟨⟨_, treeRec_one E h⟩, rfl⟩
    | a :: b :: r, _ => exact .inr ⟨by rw [treeRec] <;> simp, by simp⟩
  have hev : ∀ g, (∃ b, treeRec E "maus_json_primary"
        [.key "mc_events", .split "particle_number", .key "primary"] g = .ok b) ∧
        g.Pairwise (fun a b => a.core.i .particle ≠ b.core.i .particle) ∨
      treeRec E "maus_json_primary"
        [.key "mc_events", .split "particle_number", .key "primary"] g = .error .IOError := by
    intro g
    obtain ⟨gs, h1, h3⟩ := treeRec_primary E g
    rcases mapE_cases (treeRec E "maus_json_primary" [.key "primary"]) .IOError gs
      (fun t ht => (hone t (h1.nonempty t ht)).imp And.left And.left) with ⟨⟨bs, hbs⟩, hall⟩ | ⟨h, _⟩
    · left
      refine ⟨⟨_, by rw [h3, hbs]⟩, ?_⟩
      have hlen : ∀ t ∈ gs, t.length = 1 := by
        intro t ht
        rcases hone t (h1.nonempty t ht) with h | h
        · exact h.2
        · obtain ⟨b, hb⟩ := hall t ht
          rw [hb] at h
          cases h.1
      rw [← h1.perm.pairwise_iff (fun {a b} hab => Ne.symm hab), List.pairwise_flatten]
      refine ⟨fun t ht => ?_, h1.diff⟩
      match t, hlen t ht with
      | [a], _ => simp
    · right
      rw [h3, h]
  show treeRec E "maus_json_primary" [.split "event_number", .key "mc_events",
    .split "particle_number", .key "primary"] hits = _
  rw [treeRec]
  simp only [he]
  rcases mapE_cases (treeRec E "maus_json_primary"
    [.key "mc_events", .split "particle_number", .key "primary"]) .IOError events
    (fun g _ => (hev g).imp And.left id) with ⟨_, hall⟩ | ⟨h, _⟩
  · exfalso
    apply hd
    unfold AllDiffer
    rw [← hg.perm.pairwise_iff (fun {a b} hab h => hab ⟨h.1.symm, h.2.symm⟩), List.pairwise_flatten]
    constructor
    · intro g hgm
      rcases hev g with h | h
      · exact h.2.imp fun hab h => hab h.2
      · obtain ⟨b, hb⟩ := hall g hgm
        rw [hb] at h
        cases h
    · exact hg.diff.imp fun h a ha b hb hab => h a ha b hb hab.1
  · rw [h]

/-- C42, the file: each event is one line, numbered from zero (the event number itself is not
written). -/
theorem C42_file (E : Ext K) (hits : List (HS K)) (type : String) (l : List (Tree K))
    (h : getMausTree E hits type = .ok (.list l)) :
    ∃ ls, writeMaus E hits type = .ok ls ∧ ls.map Spill.body = l ∧
      (∀ s ∈ ls, s.eventType = "Spill") ∧ ls.map Spill.spillNumber = List.range l.length := by
  refine ⟨l.zipIdx.map fun p => ⟨"Spill", p.2, p.1⟩, by rw [writeMaus, h], ?_, ?_, ?_⟩
  · simp [List.map_map, Function.comp_def]
  · intro s hs
    obtain ⟨p, _, rfl⟩ := List.mem_map.mp hs
    rfl
  · simp [List.map_map, Function.comp_def, List.range_eq_range']

/-- Three hits: events 7, 2, 7, particles 1, 1, 1. -/
def exTreeHits : List (HS ℚ) :=
  [⟨((Core.new).setI .event 7).setI .particle 1, WC.new⟩, ⟨((Core.new).setI .event 2).setI .particle 1, WC.new⟩,
   ⟨(((Core.new).setI .event 7).setI .particle 1).setI .station 5, WC.new⟩]

example : (splitByEquality ratExt "event_number" exTreeHits).toOption.map
    (List.map (List.map fun h => (h.core.i .event, h.core.i .station))) =
    some [[(7, 0), (7, 5)], [(2, 0)]] := by decide +kernel
example : ¬ AllDiffer exTreeHits := by unfold AllDiffer exTreeHits; decide +kernel
example : AllDiffer (exTreeHits.take 2) := by unfold AllDiffer exTreeHits; decide +kernel

end Xboa
