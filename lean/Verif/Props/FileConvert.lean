import Verif.Model.FileConvert
import Verif.Props.BunchWrite
import Verif.Props.BunchTransform
/-!
C104: the program File_Convert, from a control file and beam files to a beam file.
-/
set_option linter.unusedSectionVars false
namespace Xboa.FileConvert
open TextIO BunchRead BunchWrite
variable {K : Type} [Field K] [LinearOrder K] [IsStrictOrderedRing K] [FloorRing K] {W : Type}

/-! ### the control file -/

/-- No line has this keyword. -/
def Silent (ctrl : List (List String)) (key : String) : Prop := ∀ l ∈ ctrl, l.head? ≠ some key

/-- The last line with this keyword gives the value `v`. -/
def Says (ctrl : List (List String)) (key v : String) : Prop :=
  ∃ pre rest post, ctrl = pre ++ (key :: v :: rest) :: post ∧ Silent post key ∧
    ∀ l ∈ pre, l.head? = some key → 2 ≤ l.length

/-- There is one line with this keyword, with these words after it. -/
def Once (ctrl : List (List String)) (key : String) (ws : List String) : Prop :=
  ∃ pre post, ctrl = pre ++ (key :: ws) :: post ∧ Silent pre key ∧ Silent post key

theorem silent_cons {l : List String} {r : List (List String)} {key : String} (h : Silent (l :: r) key) :
    l.head? ≠ some key ∧ Silent r key := ⟨h l (by simp), fun m hm => h m (by simp [hm])⟩

theorem setting_silent {α : Type} (key : String) (f : List String → Except Err α) :
    ∀ (ctrl : List (List String)) (_ : Silent ctrl key) (x : α), setting key f ctrl x = .ok x
  | [], _, _ => rfl
  | l :: r, h, x => by
    obtain ⟨h1, h2⟩ := silent_cons h
    rw [setting, if_neg h1]; exact setting_silent key f r h2 x

theorem setting_append {α : Type} (key : String) (f : List String → Except Err α) (post : List (List String)) :
    ∀ (pre : List (List String)) (_ : ∀ l ∈ pre, l.head? = some key → ∃ y, f l = .ok y) (x : α),
      ∃ y, setting key f (pre ++ post) x = setting key f post y
  | [], _, x => ⟨x, rfl⟩
  | l :: r, h, x => by
    rw [List.cons_append, setting]
    split
    · rename_i hl
      obtain ⟨y, hy⟩ := h l (by simp) hl
      rw [hy]
      exact setting_append key f post r (fun m hm => h m (by simp [hm])) y
    · exact setting_append key f post r (fun m hm => h m (by simp [hm])) x

theorem setting_says {ctrl : List (List String)} {key v : String} (h : Says ctrl key v) (x : String) :
    setting key (word · 1) ctrl x = .ok v := by
  obtain ⟨pre, rest, post, rfl, h1, h2⟩ := h
  obtain ⟨y, hy⟩ := setting_append key (word · 1) ((key :: v :: rest) :: post) pre (by
    intro l hl hk
    have := h2 l hl hk
    match l, this with
    | _ :: b :: _, _ => exact ⟨b, rfl⟩) x
  rw [hy, setting, if_pos List.head?_cons]
  exact setting_silent key _ post h1 v

theorem setting_once {α : Type} {ctrl : List (List String)} {key : String} {ws : List String}
    (h : Once ctrl key ws) (f : List String → Except Err α) (y : α) (hy : f (key :: ws) = .ok y) (x : α) :
    setting key f ctrl x = .ok y := by
  obtain ⟨pre, post, rfl, h1, h2⟩ := h
  obtain ⟨z, hz⟩ := setting_append key f ((key :: ws) :: post) pre (fun l hl hk => absurd hk (h1 l hl)) x
  rw [hz, setting, if_pos List.head?_cons]
  simp only [hy]
  exact setting_silent key _ post h2 y

/-! ### hits that are read hold 32 bit integers -/

theorem line_inRange {E : Ext K} {T : Text K W} {format : String} {vars : List String}
    (hfv : (format, vars) ∈ lineFormats) {ws : List W} {c : HS K} (h : HitOfLine E T format ws c) :
    c.core.InRange := by
  intro v
  by_cases hv : v = .pid
  · subst hv
    have hp : ("pid", (1 : K)) ∈ columns format := by
      simp only [lineFormats, List.mem_cons, Prod.mk.injEq, List.not_mem_nil, or_false] at hfv
      rcases hfv with ⟨rfl, _⟩ | ⟨rfl, _⟩ | ⟨rfl, _⟩ | ⟨rfl, _⟩ | ⟨rfl, _⟩ <;> simp [columns]
    obtain ⟨w, hw⟩ := forall₂_mem h.pid hp
    obtain ⟨n, hn, hc⟩ := hw rfl
    have t1 : ∀ p ∈ Common.icoolPidToPdg, -2147483648 ≤ p.2 ∧ p.2 < 2147483648 := by decide +kernel
    have t2 : ∀ p ∈ Common.marsPidToPdg, -2147483648 ≤ p.2 ∧ p.2 < 2147483648 := by decide +kernel
    unfold CodeFor codes at hc
    split_ifs at hc
    · exact t1 _ hc
    · exact t2 _ hc
    · simp only at hc; rw [hc]; exact hn.2
  · by_cases hn : ∀ p ∈ (columns format : List (String × K)), keyTable.lookup p.1 ≠ some (.i v)
    · rw [h.otherInt v hv hn]; cases v <;> simp [Core.new]
    · push Not at hn
      obtain ⟨p, hp, hk⟩ := hn
      have hm := lookup_mem_keys keyTable _ _ hk
      have hne : p.1 ∉ ["pid", "energy"] := by
        simp only [List.mem_cons, List.not_mem_nil, or_false, not_or]
        constructor <;> intro e <;> rw [e] at hk <;> simp [keyTable, List.lookup] at hk
        exact hv hk.symm
      obtain ⟨w, hw⟩ := forall₂_mem h.cols hp
      obtain ⟨g1, g2, g3⟩ := get_key E p.1 _ hm c
      rcases hw hne with e | ⟨_, n, hn, hg⟩ | ⟨e, _⟩
      · exact absurd e g3
      · rw [g1] at hg
        simp only [Except.ok.injEq, Val.int.injEq] at hg
        rw [hg]; exact hn.2
      · exact absurd (g2.2 ⟨v, rfl⟩) e

/-! ### loops over the hits of a bunch -/

/-- every hit is handed to `m`; a hit after it is related to the hit before, nothing else changes -/
theorem loop_world {α : Type} (m : PyM (HS K) α) (f : List Nat → BWorld K → Except Err Unit × BWorld K)
    (f0 : ∀ w, f [] w = (.ok (), w))
    (f1 : ∀ i r w, f (i :: r) w = match w.onHit i m with
      | (.error e, w') => (.error e, w')
      | (.ok _, w') => f r w')
    (R : HS K → HS K → Prop)
    (hm : ∀ s : HS K, s.wc.WF → ∃ a s', m s = (.ok a, s') ∧ s'.wc = s.wc ∧ R s s') :
    ∀ (l : List Nat) (_ : l.Nodup) (w : BWorld K) (_ : (w.ctx w.hcur).WF),
      ∃ w', f l w = (.ok (), w') ∧ w'.ctx = w.ctx ∧ w'.hcur = w.hcur ∧
        (∀ j, j ∉ l → w'.hits j = w.hits j) ∧ ∀ i ∈ l, R (w.hview i) (w'.hview i)
  | [], _, w, _ => ⟨w, f0 w, rfl, rfl, fun _ _ => rfl, by simp⟩
  | i :: r, hl, w, hwf => by
    rw [List.nodup_cons] at hl
    obtain ⟨a, s', h1, h2, h3⟩ := hm (w.hview i) hwf
    have hctx : (w.hput i s').ctx = w.ctx := by
      funext c
      by_cases e : c = w.hcur
      · subst e
        show (if w.hcur = w.hcur then s'.wc else w.ctx w.hcur) = w.ctx w.hcur
        rw [if_pos rfl, h2]; rfl
      · simp only [BWorld.hput, if_neg e]
    have hself : (w.hput i s').hview i = s' := by
      simp only [BWorld.hview, hctx]
      have e1 : (w.hput i s').hits i = s'.core := by simp [BWorld.hput]
      have e2 : (w.hput i s').hcur = w.hcur := rfl
      rw [e1, e2]
      show (⟨s'.core, w.ctx w.hcur⟩ : HS K) = s'
      rw [show w.ctx w.hcur = s'.wc from h2.symm]
    obtain ⟨w', g1, g2, g3, g4, g5⟩ := loop_world m f f0 f1 R hm r hl.2 (w.hput i s') (by rw [hctx]; exact hwf)
    refine ⟨w', ?_, g2.trans hctx, g3, ?_, ?_⟩
    · rw [f1, BWorld.onHit, h1]; exact g1
    · intro j hj
      rw [List.mem_cons, not_or] at hj
      rw [g4 j hj.2]
      simp [BWorld.hput, hj.1]
    · intro j hj
      by_cases e : j = i
      · subst e
        have : w'.hview j = (w.hput j s').hview j := by simp only [BWorld.hview, g2, g3, g4 j hl.1]
        rw [this, hself]; exact h3
      · have hjr : j ∈ r := (List.mem_cons.mp hj).resolve_left e
        have hv : (w.hput i s').hview j = w.hview j := by
          have : (w.hput i s').hits j = w.hits j := by simp [BWorld.hput, e]
          simp only [BWorld.hview, hctx, this]
          rfl
        have := g5 j hjr
        rwa [hv] at this

/-- `s'` is the hit `s` moved by the dictionary `d`: each variable of `d` gets its value added, no other
variable changes. -/
def Shifted (E : Ext K) (d : List (String × K)) (s s' : HS K) : Prop :=
  SameExcept E (d.map Prod.fst) s s' ∧ ∀ n v, (n, v) ∈ d → ∀ a, Reads E s n a → Reads E s' n (v + a)

/-- `s'` is the hit `s` after the mass shell condition on `v`: it is on the mass shell, or `v` is 0; no other
variable changes. -/
def Shelled (E : Ext K) (v : String) (s s' : HS K) : Prop :=
  SameExcept E [v] s s' ∧ (s'.OnShell ∨ Reads E s' v 0)

theorem go_wc (E : Ext K) : ∀ (d : List (String × K)) (_ : ∀ n ∈ d.map Prod.fst, n ∈ coordNames) (s : HS K),
    (Hit.translate.go E (pyDict d) s).2.wc = s.wc
  | [], _, _ => rfl
  | (k, v) :: r, h, s => by
    simp only [List.map_cons, List.mem_cons, forall_eq_or_imp] at h
    obtain ⟨a, ha⟩ := Hit.get_dbl E s k (coordNames_row k h.1).1
    obtain ⟨dv, _, hs⟩ := Hit.set_coord E h.1 (v + a) s
    have := go_wc E r h.2 { s with core := s.core.setD dv (v + a) }
    simp only [pyDict] at this
    simp [pyDict, Hit.translate.go, ha, Hit.addVal, hs, this]

theorem translate_world (E : Ext K) (d : List (String × K)) (hd : (d.map Prod.fst).Nodup)
    (hn : ∀ n ∈ d.map Prod.fst, n ∈ coordNames) (l : List Nat) (hl : l.Nodup) (w : BWorld K)
    (hwf : (w.ctx w.hcur).WF) :
    ∃ w', Bunch.translate E (d.map fun p => (p.1, PyVal.flt p.2)) "" l w = (.ok (), w') ∧ w'.ctx = w.ctx ∧
      w'.hcur = w.hcur ∧ (∀ j, j ∉ l → w'.hits j = w.hits j) ∧
      ∀ i ∈ l, Shifted E d (w.hview i) (w'.hview i) := by
  refine loop_world (Hit.translate E (pyDict d) "") _ (fun _ => rfl) (fun i r w => ?_) _ ?_ l hl w hwf
  · rw [Bunch.translate, pyDict]
    cases w.onHit i (Hit.translate E (d.map fun p => (p.1, PyVal.flt p.2)) "") with
    | mk x w' => cases x <;> rfl
  · intro s hs
    obtain ⟨s', h1, h2, h3, h4⟩ := translate_go E d
      ⟨hd, fun n h => (coordNames_row n (hn n h)).1⟩ s hs
    have := go_wc E d hn s
    rw [h1] at this
    exact ⟨(), s', by simp [Hit.translate, h1, Hit.shell_empty], this, h3, h4⟩

theorem shell_world {E : Ext K} (hE : E.Lawful) (v : String) (hv : v ∈ ["px", "py", "pz", "energy"])
    (l : List Nat) (hl : l.Nodup) (w : BWorld K) (hwf : (w.ctx w.hcur).WF) :
    ∃ w', shellLoop E v l w = (.ok (), w') ∧ w'.ctx = w.ctx ∧
      w'.hcur = w.hcur ∧ (∀ j, j ∉ l → w'.hits j = w.hits j) ∧
      ∀ i ∈ l, Shelled E v (w.hview i) (w'.hview i) := by
  refine loop_world (Hit.mass_shell_condition E v) _ (fun _ => rfl) (fun i r w => ?_) _ ?_ l hl w hwf
  · rw [shellLoop]
    cases w.onHit i (Hit.mass_shell_condition E v) with
    | mk x w' => cases x <;> rfl
  · intro s hs
    have key : ∃ a s', Hit.mass_shell_condition E v s = (.ok (some a), s') := by
      simp only [List.mem_cons, List.not_mem_nil, or_false] at hv
      rcases hv with rfl | rfl | rfl | rfl
      · rw [Hit.shell_px]; split <;> exact ⟨_, _, rfl⟩
      · rw [Hit.shell_py]; split <;> exact ⟨_, _, rfl⟩
      · rw [Hit.shell_pz]; split <;> exact ⟨_, _, rfl⟩
      · rw [Hit.shell_energy]; exact ⟨_, _, rfl⟩
    obtain ⟨a, s', h⟩ := key
    refine ⟨_, s', h, ?_⟩
    have hp : shellTouches v = [v] := by
      simp only [List.mem_cons, List.not_mem_nil, or_false] at hv
      rcases hv with rfl | rfl | rfl | rfl <;> rfl
    cases a with
    | true =>
      obtain ⟨h1, h2, h3, _⟩ := C12_true hE s s' v h
      exact ⟨h3, hp ▸ h2, .inl h1⟩
    | false =>
      obtain ⟨_, h2, h3, h4⟩ := C12_false_result hE s s' v h
      exact ⟨h4, h3, .inr h2⟩

theorem sameExcept_ints {E : Ext K} {vs : List String} (hvs : ∀ v ∈ vs, v ∈ coordNames) {s s' : HS K}
    (h : SameExcept E vs s s') : s'.core.i = s.core.i := by
  have key : ∀ name, name ∈ hitVariables → name ∉ coordNames → (Hit.get E name s').1 = (Hit.get E name s).1 :=
    fun name h1 h2 => h name h1 fun h3 => h2 (hvs _ h3)
  funext v
  cases v with
  | spill => have := key "spill" (by decide) (by decide); simpa using this
  | event => have := key "event_number" (by decide) (by decide); simpa using this
  | particle => have := key "particle_number" (by decide) (by decide); simpa using this
  | station => have := key "station" (by decide) (by decide); simpa using this
  | status => have := key "status" (by decide) (by decide); simpa using this
  | pid => have := key "pid" (by decide) (by decide); simpa using this

/-! ### the file that is written -/

/-- The file holds these hits in the format: read back, it gives the hits that the format can express, in
order of station (those of one station in the order given), each with the same values of all variables of
the format. -/
def Conveys (E : Ext K) (T : Text K W) (format : String) (vars : List String) (wc : WC K)
    (cores : List (Core K)) (file : List (Line W)) : Prop :=
  ∀ (first : Nat) (w2 : BWorld K), ∃ (order : List (Core K)) (b : Bunch K) (w3 : BWorld K),
    order.Perm cores ∧ order.Pairwise (fun a c => a.i .station ≤ c.i .station) ∧
    (∀ st, order.filter (fun c => decide (c.i .station = st)) =
      cores.filter fun c => decide (c.i .station = st)) ∧
    newFromRead E T format (fun _ => true) [file] first w2 = (.ok b, w3) ∧ b.Sync ∧
    List.Forall₂ (fun c j => ∀ n ∈ vars, (Hit.get E n (w3.hview j)).1 = (Hit.get E n ⟨c, wc⟩).1)
      (order.filter fun c => decide (Expressible format (c.i .pid))) b.hits

theorem filter_map' {α β : Type} (f : α → β) (p : β → Bool) (l : List α) :
    (l.map f).filter p = (l.filter fun a => p (f a)).map f := by
  induction l with
  | nil => rfl
  | cons a r ih => by_cases h : p (f a) <;> simp [h, ih]

theorem writeOutput_ok {E : Ext K} (hE : E.Lawful) {T : Text K W} (hT : T.Lawful)
    (words : String → List W) {ctrl : List (List String)} {name format : String} {vars : List String}
    (hfv : (format, vars) ∈ lineFormats) (h1 : Says ctrl "file_out" name)
    (h2 : Says ctrl "format_out" format) (g4 : String) (hg : g4 ∈ unitNames)
    (hg2 : format = "g4beamline_bl_track_file" → g4 = "mm") (b : Bunch K) (w : BWorld K)
    (hs : ∀ i ∈ b.hits, (w.hits i).InRange) :
    ∃ file, writeOutput E T words ctrl g4 b w = (.ok (name, file), w) ∧
      Conveys E T format vars (w.ctx w.hcur) (b.hits.map w.hits) file := by
  obtain ⟨file, f1, f2⟩ := read_back E hE T hT words g4 format hg hg2 vars hfv none
    (by simp) b.hits w hs
  have hft : format ∈ fileTypes := by
    have := List.mem_map_of_mem (f := Prod.fst) hfv
    simpa [lineFormats, fileTypes] using this
  refine ⟨file, ?_, fun first w2 => ?_⟩
  · simp only [writeOutput, setting_says h1, setting_says h2, hitWrite, if_neg (not_not.mpr hft), f1]
  · obtain ⟨order, b', w3, n, o1, o2, o3, r1, r2, -, -, -, -, r7⟩ := f2 first w2
    refine ⟨order.map w.hits, b', w3, o1.map _, ?_, fun st => ?_, r1, r2, ?_⟩
    · rw [List.pairwise_map]; exact o2
    · rw [filter_map', filter_map', o3 st]
    · rw [filter_map', List.forall₂_map_left_iff]
      exact r7.imp fun i j h => h.1

/-! ### the steps without effect -/

theorem plots_silent (pe : List String → Err) (doIn : Bool) : ∀ (ctrl : List (List String))
    (_ : Silent ctrl (if doIn then "histogram_in" else "histogram_out"))
    (_ : Silent ctrl (if doIn then "scatter_in" else "scatter_out")), plots pe doIn ctrl = .ok ()
  | [], _, _ => rfl
  | l :: r, h1, h2 => by
    obtain ⟨a1, a2⟩ := silent_cons h1
    obtain ⟨b1, b2⟩ := silent_cons h2
    rw [plots, if_neg (by simp only [not_or]; exact ⟨a1, b1⟩)]
    exact plots_silent pe doIn r a2 b2

theorem rotate_silent (L : LinAlg K) (E : Ext K) (pf : String → Option K) (ctrl : List (List String))
    (h1 : Silent ctrl "rotate") (h2 : Silent ctrl "origin") (b : Bunch K) (w : BWorld K) :
    rotate L E pf ctrl b w = (.ok (), w) := by
  have ho : ∀ (c : List (List String)), Silent c "origin" → ∀ d, originOf pf c d = .ok d := by
    intro c
    induction c with
    | nil => intro _ d; rfl
    | cons l r ih =>
      intro h d
      obtain ⟨a1, a2⟩ := silent_cons h
      rw [originOf, if_neg a1]; exact ih a2 d
  have hv : (ctrl.flatMap fun l => if l.head? = some "rotate" then l.tail else []) = [] := by
    rw [List.flatMap_eq_nil_iff]
    intro l hl
    rw [if_neg (h1 l hl)]
  simp only [rotate, ho ctrl h2, hv, List.length_nil, Nat.zero_le, if_true]

/-- The control file asks for the translation `d`: one line of names and numbers, or none. -/
def Moves (pf : String → Option K) (ctrl : List (List String)) (d : List (String × K)) : Prop :=
  (Silent ctrl "translate" ∧ d = []) ∨ ∃ ps : List (String × String × K),
    Once ctrl "translate" (ps.flatMap fun p => [p.1, p.2.1]) ∧ (∀ p ∈ ps, pf p.2.1 = some p.2.2) ∧
    d = ps.map fun p => (p.1, p.2.2)

theorem dictSet_new (d : List (String × K)) (k : String) (v : K) (h : k ∉ d.map Prod.fst) :
    Common.dictSet d k v = d ++ [(k, v)] := by
  rw [Common.dictSet, if_neg]
  simp only [List.any_eq_true, decide_eq_true_eq, not_exists, not_and]
  exact fun p hp e => h (e ▸ List.mem_map_of_mem hp)

theorem pairs_ok (pf : String → Option K) : ∀ (ps : List (String × String × K)) (d : List (String × K))
    (_ : ∀ p ∈ ps, pf p.2.1 = some p.2.2) (_ : ((d.map Prod.fst) ++ ps.map Prod.fst).Nodup),
    pairs pf (ps.flatMap fun p => [p.1, p.2.1]) d = .ok (d ++ ps.map fun p => (p.1, p.2.2))
  | [], d, _, _ => by simp [pairs]
  | p :: r, d, h, hn => by
    have h1 := h p (by simp)
    have hk : p.1 ∉ d.map Prod.fst := by
      intro e
      exact (List.nodup_append.mp hn).2.2 _ e _ (by simp) rfl
    have ih := pairs_ok pf r (d ++ [(p.1, p.2.2)]) (fun q hq => h q (by simp [hq])) (by simpa using hn)
    rw [List.flatMap_cons, List.cons_append, List.cons_append, List.nil_append, pairs]
    simp only [h1]
    rw [dictSet_new d _ _ hk, ih]
    simp

theorem translationOf_silent (pf : String → Option K) : ∀ (ctrl : List (List String))
    (_ : Silent ctrl "translate") (d : List (String × K)), translationOf pf ctrl d = .ok d
  | [], _, _ => rfl
  | l :: r, h, d => by
    obtain ⟨h1, h2⟩ := silent_cons h
    rw [translationOf, if_neg h1]; exact translationOf_silent pf r h2 d

theorem translationOf_append (pf : String → Option K) (post : List (List String)) :
    ∀ (ctrl : List (List String)) (_ : Silent ctrl "translate") (d : List (String × K)),
      translationOf pf (ctrl ++ post) d = translationOf pf post d
  | [], _, _ => rfl
  | l :: r, h, d => by
    obtain ⟨h1, h2⟩ := silent_cons h
    rw [List.cons_append, translationOf, if_neg h1]; exact translationOf_append pf post r h2 d

theorem translationOf_moves {pf : String → Option K} {ctrl : List (List String)} {d : List (String × K)}
    (h : Moves pf ctrl d) (hd : (d.map Prod.fst).Nodup) : translationOf pf ctrl [] = .ok d := by
  rcases h with ⟨h, rfl⟩ | ⟨ps, ⟨pre, post, rfl, h1, h2⟩, h3, rfl⟩
  · exact translationOf_silent pf ctrl h []
  · have := pairs_ok pf ps [] h3 (by simpa [Function.comp_def] using hd)
    rw [translationOf_append pf _ pre h1, translationOf, if_pos List.head?_cons, List.tail_cons, this]
    simp only [List.nil_append]
    exact translationOf_silent pf post h2 _

/-- The control file asks for the mass shell condition on this variable, or for none. -/
def Condition (ctrl : List (List String)) : Option String → Prop
  | none => Silent ctrl "mass_shell_condition"
  | some v => ∃ pre rest post, ctrl = pre ++ ("mass_shell_condition" :: v :: rest) :: post ∧
      Silent pre "mass_shell_condition"

theorem find_append (key : String) (l : List String) (post : List (List String)) (hl : l.head? = some key) :
    ∀ (pre : List (List String)) (_ : Silent pre key),
      (pre ++ l :: post).find? (fun l => decide (l.head? = some key)) = some l
  | [], _ => by simp [hl]
  | m :: r, h => by
    obtain ⟨h1, h2⟩ := silent_cons h
    rw [List.cons_append, List.find?_cons_of_neg (by simpa using h1)]
    exact find_append key l post hl r h2

/-! ### the unit of length in G4Beamline files -/

/-- No line of the files names a unit of length other than mm. -/
def InMm (fs : List (List (Line W))) : Prop := ∀ f ∈ fs, ∀ l ∈ f, ∀ u ∈ l.unit, u = "mm"

/-- The units of length the files name are units of the package. -/
def KnownUnits (fs : List (List (Line W))) : Prop := ∀ f ∈ fs, ∀ l ∈ f, ∀ u ∈ l.unit, u ∈ unitNames

theorem unit_keeps (P : String → Prop) (format : String) : ∀ (fs : List (List (Line W)))
    (_ : ∀ f ∈ fs, ∀ l ∈ f, ∀ u ∈ l.unit, P u) (g : String) (_ : P g),
    P (fs.foldl (fun g f => (setupFile format f g).2) g) := by
  have h1 : ∀ (ls : List (Line W)), (∀ l ∈ ls, ∀ u ∈ l.unit, P u) → ∀ g, P g →
      P (ls.foldl (fun u l => if l.hash then l.unit.getD u else u) g) := by
    intro ls
    induction ls with
    | nil => intro _ g hg; exact hg
    | cons l r ih =>
      intro hl g hg
      rw [List.foldl_cons]
      refine ih (fun m hm => hl m (by simp [hm])) _ ?_
      split
      · cases hu : l.unit with
        | none => exact hg
        | some u => exact hl l (by simp) u (by simp [hu])
      · exact hg
  intro fs
  induction fs with
  | nil => intro _ g hg; exact hg
  | cons f r ih =>
    intro h g hg
    rw [List.foldl_cons]
    refine ih (fun k hk => h k (by simp [hk])) _ ?_
    rw [setupFile]
    split
    · exact hg
    · split
      · exact h1 _ (fun l hl => h f (by simp) l (List.mem_of_mem_drop hl)) g hg
      · exact hg

/-! ### reading the input -/

/-- The control file asks for the hits of this station, or for all. -/
def StationIn (pi : String → Option Int) (ctrl : List (List String)) : Option Int → Prop
  | none => Silent ctrl "station_in"
  | some st => ∃ s rest, Once ctrl "station_in" (s :: rest) ∧ pi s = some st

/-- The hits asked for. -/
def chosen (station : Option Int) (hs : List (Core K)) : List (Core K) :=
  hs.filter fun c => decide (∀ st ∈ station, c.i .station = st)

theorem range_map_hits {cores : List (Core K)} {first : Nat} {w w' : BWorld K}
    (h : Placed cores first w w') : (List.range' first cores.length).map w'.hits = cores := by
  apply List.ext_getElem
  · simp
  · intro j h1 h2
    simp only [List.getElem_map, List.getElem_range']
    rw [Nat.one_mul]
    exact h.new j h2

theorem readInput_ok {E : Ext K} (hE : E.Lawful) {T : Text K W} (pi : String → Option Int)
    {ctrl : List (List String)} {files : Files W} {name format : String} {vars : List String}
    (hfv : (format, vars) ∈ lineFormats) (h1 : Says ctrl "file_in" name)
    (h2 : Says ctrl "format_in" format) (station : Option Int) (h3 : StationIn pi ctrl station)
    (hf : files name ≠ []) (hku : KnownUnits (files name))
    (hl : ∀ file ∈ files name, ∀ ws ∈ dataLines format file,
      ws.length = (columns format : List (String × K)).length → WellFormed (K := K) T format ws)
    (first : Nat) (w : BWorld K) :
    ∃ hs : List (Core K),
      List.Forall₂ (fun ws c => HitOfLine E T format ws ⟨c, w.ctx w.hcur⟩)
        (((files name).flatMap (dataLines format)).filter fun ws =>
          decide (ws.length = (columns format : List (String × K)).length)) hs ∧
      (station ≠ none → chosen station hs = [] →
        (readInput E T pi ctrl files "mm" first w).1 = .error .KeyError) ∧
      (station = none ∨ chosen station hs ≠ [] →
        ∃ b g w', readInput E T pi ctrl files "mm" first w = (.ok (b, g), w') ∧ g ∈ unitNames ∧
          (InMm (files name) → g = "mm") ∧ w'.ctx = w.ctx ∧ w'.hcur = w.hcur ∧ b.hits.Nodup ∧ b.hits.map w'.hits = chosen station hs) := by
  have hchk : checkRead format (files name) = .ok () := by
    have hft : format ∈ fileTypes := by
      have := List.mem_map_of_mem (f := Prod.fst) hfv
      simpa [lineFormats, fileTypes] using this
    have hmaus : hasSub "maus" format = false := by
      simp only [lineFormats, List.mem_cons, Prod.mk.injEq, List.not_mem_nil, or_false] at hfv
      rcases hfv with ⟨rfl, _⟩ | ⟨rfl, _⟩ | ⟨rfl, _⟩ | ⟨rfl, _⟩ | ⟨rfl, _⟩ <;> decide
    simp [checkRead, hmaus, hft, hf]
  have hg1 := unit_keeps (· ∈ unitNames) format (files name) hku "mm" (by decide)
  have hg2 := fun hm : InMm (files name) => unit_keeps (· = "mm") format (files name) hm "mm" rfl
  generalize hg : (files name).foldl (fun g f => (setupFile format f g).2) "mm" = g at hg1 hg2
  cases station with
  | none =>
    obtain ⟨hs, g1, b, w', g2, _, g4, g5⟩ := newFromRead_ok E hE T format vars hfv (fun _ => true)
      (files name) hl first w
    simp only [List.filter_true] at g4 g5
    refine ⟨hs, g1, fun h => absurd rfl h, fun _ => ⟨b, g, w', ?_, hg1, hg2, g5.ctx, g5.hcur, ?_, ?_⟩⟩
    · simp only [readInput, setting_says h1, setting_says h2, setting_silent _ _ ctrl h3, hchk, g2, hg]
    · rw [g4]; exact List.nodup_range'
    · rw [g4, range_map_hits g5]; simp [chosen]
  | some st =>
    obtain ⟨s, rest, ho, hp⟩ := h3
    have hset : setting "station_in" (fun l => (number pi l 1).map some) ctrl none = .ok (some st) :=
      setting_once ho _ _ (by simp [number, word, hp, Except.map]) none
    obtain ⟨hs, g1, d, w', g2, g5, g6⟩ := C89_dict E hE T format vars hfv "station" (fun _ => true)
      (files name) hl first w (fun c => (c.i .station : K)) (fun c => by simp [Hit.getNum])
      (fun c => c.i .station) (fun c => by
        unfold IsTrunc
        exact ⟨fun _ => ⟨le_rfl, by linarith⟩, fun _ => ⟨le_rfl, by linarith⟩⟩)
    simp only [List.filter_true] at g5 g6
    have hmap := range_map_hits g5
    have hch : chosen (some st) hs = ((List.range' first hs.length).filter fun i =>
        decide ((w'.hits i).i .station = st)).map w'.hits := by
      conv_lhs => rw [← hmap]
      rw [chosen, filter_map']
      simp
    have hread : readInput E T pi ctrl files "mm" first w =
        match d.lookup st with
        | none => (.error .KeyError, w')
        | some b => (.ok (b, g), w') := by
      simp only [readInput, setting_says h1, setting_says h2, hset, hchk, g2, hg]
      cases d.lookup st <;> rfl
    refine ⟨hs, g1, fun _ he => ?_, fun hne => ?_⟩
    · have hnone : d.lookup st = none := by
        rw [List.lookup_eq_none_iff]
        intro p hpd
        by_contra hc
        have hst : st = p.1 := by simpa using hc
        have := g6.nonempty p hpd
        rw [g6.hits p hpd, ← hst] at this
        rw [hch, List.map_eq_nil_iff] at he
        exact this he
      rw [hread, hnone]
    · have hne' := hne.resolve_left (by simp)
      rw [hch] at hne'
      rw [ne_eq, List.map_eq_nil_iff] at hne'
      obtain ⟨i, hi⟩ := List.exists_mem_of_ne_nil _ hne'
      rw [List.mem_filter, decide_eq_true_eq] at hi
      have hk := g6.covered i hi.1
      rw [hi.2] at hk
      obtain ⟨b, hb1, hb2⟩ := lookup_of_mem g6.nodup hk
      refine ⟨b, g, w', by rw [hread, hb1], hg1, hg2, g5.ctx, g5.hcur, ?_, ?_⟩
      · rw [g6.hits _ hb2]; exact List.Nodup.filter _ List.nodup_range'
      · rw [g6.hits _ hb2, hch]

/-! ### C104 -/

/-- What becomes of a hit between reading and writing. -/
def Worked (E : Ext K) (wc : WC K) (d : List (String × K)) (shell : Option String) (c c' : Core K) : Prop :=
  ∃ m, Shifted E d ⟨c, wc⟩ ⟨m, wc⟩ ∧
    match shell with
    | none => c' = m
    | some v => Shelled E v ⟨m, wc⟩ ⟨c', wc⟩

theorem forall₂_map_both {α β γ : Type} {R : β → γ → Prop} {f : α → β} {g : α → γ} :
    ∀ {l : List α}, (∀ a ∈ l, R (f a) (g a)) → List.Forall₂ R (l.map f) (l.map g)
  | [], _ => .nil
  | a :: r, h => .cons (h a (by simp)) (forall₂_map_both fun b hb => h b (by simp [hb]))

/-- C104_partial: a control file that names the files and their formats, and maybe a station, a
translation and a mass shell condition, on well formed input.  The hits are those of the input lines; with
a station that none has there is a KeyError; otherwise the file written holds, in the output format, the
hits of the station moved by the translation and then put on the mass shell.  Missing: rotations
(`C104_rotate`), plots (`C104_plots_false`), G4Beamline input in cm (`C104_cm_false`), the condition on 'p'
and MAUS files. -/
theorem C104_partial (V : Env K W) (hE : V.E.Lawful) (hT : V.T.Lawful) {ctrl : List (List String)}
    {files : Files W} {nameIn nameOut A B : String} {varsA varsB : List String}
    (hA : (A, varsA) ∈ lineFormats) (hB : (B, varsB) ∈ lineFormats)
    (h1 : Says ctrl "file_in" nameIn) (h2 : Says ctrl "format_in" A)
    (h3 : Says ctrl "file_out" nameOut) (h4 : Says ctrl "format_out" B)
    (station : Option Int) (h5 : StationIn V.pi ctrl station)
    (h6 : ∀ key ∈ ["rotate", "origin", "histogram_in", "histogram_out", "scatter_in", "scatter_out"],
      Silent ctrl key)
    (d : List (String × K)) (h7 : Moves V.pf ctrl d) (hd : (d.map Prod.fst).Nodup)
    (hdn : ∀ n ∈ d.map Prod.fst, n ∈ coordNames)
    (shell : Option String) (h8 : Condition ctrl shell)
    (h9 : ∀ v ∈ shell, v ∈ ["px", "py", "pz", "energy"])
    (hf : files nameIn ≠ []) (hku : KnownUnits (files nameIn))
    (hm : B = "g4beamline_bl_track_file" → InMm (files nameIn))
    (hl : ∀ file ∈ files nameIn, ∀ ws ∈ dataLines A file,
      ws.length = (columns A : List (String × K)).length → WellFormed (K := K) V.T A ws)
    (first : Nat) (w : BWorld K) (hwf : (w.ctx w.hcur).WF) :
    ∃ hs : List (Core K),
      List.Forall₂ (fun ws c => HitOfLine V.E V.T A ws ⟨c, w.ctx w.hcur⟩)
        (((files nameIn).flatMap (dataLines A)).filter fun ws =>
          decide (ws.length = (columns A : List (String × K)).length)) hs ∧
      (station ≠ none → chosen station hs = [] →
        (convert V ctrl files "mm" first w).1 = .error .KeyError) ∧
      (station = none ∨ chosen station hs ≠ [] →
        ∃ out file w', convert V ctrl files "mm" first w = (.ok (nameOut, file), w') ∧
          List.Forall₂ (Worked V.E (w.ctx w.hcur) d shell) (chosen station hs) out ∧
          Conveys V.E V.T B varsB (w.ctx w.hcur) out file) := by
  obtain ⟨hs, g1, g2, g3⟩ := readInput_ok hE (T := V.T) V.pi hA h1 h2 station h5 hf hku hl first w
  refine ⟨hs, g1, fun ha hb => ?_, fun ha => ?_⟩
  · have := g2 ha hb
    rw [convert]
    revert this
    generalize readInput V.E V.T V.pi ctrl files "mm" first w = z
    intro this
    obtain ⟨r, z2⟩ := z
    cases r with
    | error e => simpa using this
    | ok x => simp at this
  obtain ⟨b, g, w1, r1, u1, u2, r2, r3, r4, r5⟩ := g3 ha
  have hwf1 : (w1.ctx w1.hcur).WF := by rw [r2, r3]; exact hwf
  have hr1 : ∀ i ∈ b.hits, (w1.hits i).InRange := by
    intro i hi
    have hc : w1.hits i ∈ chosen station hs := by rw [← r5]; exact List.mem_map_of_mem hi
    obtain ⟨ws, _, hw⟩ := forall₂_mem_right g1 (List.mem_of_mem_filter hc)
    exact line_inRange hA hw
  have p1 := plots_silent V.plotErr true ctrl (h6 "histogram_in" (by decide)) (h6 "scatter_in" (by decide))
  have p2 := plots_silent V.plotErr false ctrl (h6 "histogram_out" (by decide)) (h6 "scatter_out" (by decide))
  have p3 := rotate_silent V.L V.E V.pf ctrl (h6 "rotate" (by decide)) (h6 "origin" (by decide)) b w1
  obtain ⟨w2, t1, t2, t3, t4, t5⟩ := translate_world V.E d hd hdn b.hits r4 w1 hwf1
  have ht : translate V.E V.pf ctrl b w1 = (.ok (), w2) := by
    simp only [translate, translationOf_moves h7 hd, t1]
  have hwf2 : (w2.ctx w2.hcur).WF := by rw [t2, t3]; exact hwf1
  have hi2 : ∀ i ∈ b.hits, (w2.hits i).i = (w1.hits i).i := fun i hi => sameExcept_ints hdn (t5 i hi).1
  have hm3 : ∃ w3, massShell V.E ctrl b w2 = (.ok (), w3) ∧ w3.ctx = w2.ctx ∧ w3.hcur = w2.hcur ∧
      (∀ i ∈ b.hits, (w3.hits i).i = (w2.hits i).i) ∧
      ∀ i ∈ b.hits, match shell with
        | none => w3.hits i = w2.hits i
        | some v => Shelled V.E v (w2.hview i) (w3.hview i) := by
    cases shell with
    | none =>
      have : ctrl.find? (fun l => decide (l.head? = some "mass_shell_condition")) = none := by
        rw [List.find?_eq_none]
        intro l hl
        simpa using h8 l hl
      exact ⟨w2, by simp only [massShell, this], rfl, rfl, fun _ _ => rfl, fun _ _ => rfl⟩
    | some v =>
      obtain ⟨pre, rest, post, rfl, hpre⟩ := h8
      have hv := h9 v rfl
      obtain ⟨w3, s1, s2, s3, _, s5⟩ := shell_world hE v hv b.hits r4 w2 hwf2
      refine ⟨w3, ?_, s2, s3, fun i hi => sameExcept_ints (vs := [v]) ?_ (s5 i hi).1, s5⟩
      · rw [massShell, find_append _ _ post List.head?_cons pre hpre]
        simp only [word, List.getElem?_cons_succ, List.getElem?_cons_zero]
        exact s1
      · intro u hu
        rw [List.mem_singleton] at hu
        subst hu
        simp only [List.mem_cons, List.not_mem_nil, or_false] at hv
        rcases hv with rfl | rfl | rfl | rfl <;> decide
  obtain ⟨w3, m1, m2, m3, m4, m5⟩ := hm3
  obtain ⟨file, f1, f2⟩ := writeOutput_ok hE hT V.words hB h3 h4 g u1
    (fun e => u2 (hm e)) b w3 (by
    intro i hi v
    rw [m4 i hi, hi2 i hi]; exact hr1 i hi v)
  have hc3 : w3.ctx w3.hcur = w.ctx w.hcur := by rw [m2, m3, t2, t3, r2, r3]
  have hc2 : w2.ctx w2.hcur = w.ctx w.hcur := by rw [t2, t3, r2, r3]
  have hc1 : w1.ctx w1.hcur = w.ctx w.hcur := by rw [r2, r3]
  rw [hc3] at f2
  refine ⟨_, file, w3, ?_, ?_, f2⟩
  · simp only [convert, r1, p1, p2, p3, ht, m1, f1]
  · rw [← r5]
    refine forall₂_map_both fun i hi => ⟨w2.hits i, ?_, ?_⟩
    · have := t5 i hi
      simp only [BWorld.hview, hc1, hc2] at this
      exact this
    · have := m5 i hi
      cases shell with
      | none => exact this
      | some v =>
        simp only [BWorld.hview, hc2, hc3] at this
        exact this

/-! ### rotations -/

/-- The lines with the keyword origin are these names and numbers. -/
def Origins (pf : String → Option K) (ctrl : List (List String)) (o : List (String × K)) : Prop :=
  ∃ ps : List (String × String × K),
    (ctrl.filter fun l => decide (l.head? = some "origin")) = ps.map (fun p => ["origin", p.1, p.2.1]) ∧
    (∀ p ∈ ps, pf p.2.1 = some p.2.2) ∧ o = ps.map fun p => (p.1, p.2.2)

/-- A line about the covariance of these two variables. -/
def About (a b : String) (l : List String) : Prop :=
  ∃ p q rest, l = "covariance" :: p :: q :: rest ∧ ((p = a ∧ q = b) ∨ (p = b ∧ q = a))

/-- The covariance lines give this matrix: the last line about two variables counts, 0 if there is none. -/
structure Target (pf : String → Option K) (ctrl : List (List String)) (vars : List String)
    (m : Nat → Nat → K) : Prop where
  lines : ∀ l ∈ ctrl, l.head? = some "covariance" → ∃ p q s rest x, l = "covariance" :: p :: q :: s :: rest ∧
    p ∈ vars ∧ q ∈ vars ∧ pf s = some x
  given : ∀ i j, i < vars.length → j < vars.length → ∀ pre l post s x, ctrl = pre ++ l :: post →
    About (vars.getD i "") (vars.getD j "") l → l[3]? = some s → pf s = some x →
    (∀ l' ∈ post, ¬ About (vars.getD i "") (vars.getD j "") l') → m i j = x
  zero : ∀ i j, i < vars.length → j < vars.length →
    (∀ l ∈ ctrl, ¬ About (vars.getD i "") (vars.getD j "") l) → m i j = 0

theorem originOf_origins {pf : String → Option K} : ∀ (ctrl : List (List String))
    (ps : List (String × String × K)) (acc : List (String × K))
    (_ : (ctrl.filter fun l => decide (l.head? = some "origin")) = ps.map (fun p => ["origin", p.1, p.2.1]))
    (_ : ∀ p ∈ ps, pf p.2.1 = some p.2.2) (_ : (acc.map Prod.fst ++ ps.map Prod.fst).Nodup),
    originOf pf ctrl acc = .ok (acc ++ ps.map fun p => (p.1, p.2.2))
  | [], ps, acc, h, _, _ => by
    have : ps = [] := by simpa using h.symm
    subst this
    simp [originOf]
  | l :: r, ps, acc, h, hp, hn => by
    by_cases hl : l.head? = some "origin"
    · rw [List.filter_cons_of_pos (by simpa using hl)] at h
      cases ps with
      | nil => simp at h
      | cons p t =>
        rw [List.map_cons, List.cons.injEq] at h
        obtain ⟨h1, h2⟩ := h
        have hk : p.1 ∉ acc.map Prod.fst := by
          intro e
          exact (List.nodup_append.mp hn).2.2 _ e _ (by simp) rfl
        have ih := originOf_origins r t (acc ++ [(p.1, p.2.2)]) h2 (fun q hq => hp q (by simp [hq]))
          (by simpa using hn)
        rw [originOf, if_pos hl, h1]
        simp only [word, number, List.getElem?_cons_succ, List.getElem?_cons_zero, hp p (by simp)]
        rw [dictSet_new acc _ _ hk, ih]
        simp
    · rw [List.filter_cons_of_neg (by simpa using hl)] at h
      rw [originOf, if_neg hl]
      exact originOf_origins r ps acc h hp hn

theorem targetOf_ok (pf : String → Option K) (vars : List String) (hnd : vars.Nodup) :
    ∀ (ctrl : List (List String)) (_ : ∀ l ∈ ctrl, l.head? = some "covariance" →
        ∃ p q s rest x, l = "covariance" :: p :: q :: s :: rest ∧ p ∈ vars ∧ q ∈ vars ∧ pf s = some x)
      (m0 : Nat → Nat → K) (_ : ∀ i j, m0 i j = m0 j i),
      ∃ m, targetOf pf vars ctrl m0 = .ok m ∧ (∀ i j, m i j = m j i) ∧
        (∀ i j, i < vars.length → j < vars.length → ∀ pre l post s x, ctrl = pre ++ l :: post →
          About (vars.getD i "") (vars.getD j "") l → l[3]? = some s → pf s = some x →
          (∀ l' ∈ post, ¬ About (vars.getD i "") (vars.getD j "") l') → m i j = x) ∧
        ∀ i j, i < vars.length → j < vars.length →
          (∀ l ∈ ctrl, ¬ About (vars.getD i "") (vars.getD j "") l) → m i j = m0 i j
  | [], _, m0, hs => ⟨m0, rfl, hs, fun i j _ _ pre l post s x h => by simp at h, fun _ _ _ _ _ => rfl⟩
  | l :: r, hl, m0, hs => by
    have hr : ∀ k ∈ r, k.head? = some "covariance" → _ := fun k hk => hl k (by simp [hk])
    by_cases hc : l.head? = some "covariance"
    · obtain ⟨p, q, s, rest, x, rfl, hp, hq, hx⟩ := hl l (by simp) hc
      have hp' := List.idxOf_lt_length_of_mem hp
      have hq' := List.idxOf_lt_length_of_mem hq
      obtain ⟨m, m1, m2, m3, m4⟩ := targetOf_ok pf vars hnd r hr
        (fun a b => if (a = vars.idxOf p ∧ b = vars.idxOf q) ∨ (a = vars.idxOf q ∧ b = vars.idxOf p) then x
          else m0 a b) (fun i j => by
          rw [hs i j]
          congr 1
          apply propext
          tauto)
      have hiff : ∀ i j, i < vars.length → j < vars.length →
          (About (vars.getD i "") (vars.getD j "") ("covariance" :: p :: q :: s :: rest) ↔
            (i = vars.idxOf p ∧ j = vars.idxOf q) ∨ (i = vars.idxOf q ∧ j = vars.idxOf p)) := by
        intro i j hi hj
        have e : ∀ (i : Nat) (v : String), i < vars.length → v ∈ vars →
            (v = vars.getD i "" ↔ i = vars.idxOf v) := by
          intro i v hi hv
          constructor
          · intro h; rw [h, idxOf_getD hnd hi]
          · intro h; rw [h, getD_idxOf hv]
        simp only [About, List.cons.injEq, true_and]
        constructor
        · rintro ⟨p', q', r', ⟨rfl, rfl, _⟩, h⟩
          rw [e i p hi hp, e j q hj hq, e j p hj hp, e i q hi hq] at h
          tauto
        · intro h
          refine ⟨p, q, s :: rest, ⟨rfl, rfl, rfl⟩, ?_⟩
          rw [e i p hi hp, e j q hj hq, e j p hj hp, e i q hi hq]
          tauto
      refine ⟨m, ?_, m2, ?_, ?_⟩
      · rw [targetOf, if_pos hc]
        simp only [word, number, List.getElem?_cons_succ, List.getElem?_cons_zero, hx, hp, hq, and_self,
          if_true]
        exact m1
      · intro i j hi hj pre l post s' x' he ha h3 hx' hpost
        cases pre with
        | nil =>
          simp only [List.nil_append, List.cons.injEq] at he
          obtain ⟨rfl, rfl⟩ := he
          simp only [List.getElem?_cons_succ, List.getElem?_cons_zero, Option.some.injEq] at h3
          subst h3
          rw [hx, Option.some.injEq] at hx'
          subst hx'
          rw [m4 i j hi hj hpost, if_pos ((hiff i j hi hj).mp ha)]
        | cons a pre =>
          simp only [List.cons_append, List.cons.injEq] at he
          exact m3 i j hi hj pre l post s' x' he.2 ha h3 hx' hpost
      · intro i j hi hj hno
        rw [m4 i j hi hj (fun k hk => hno k (by simp [hk])),
          if_neg (fun h => hno _ (by simp) ((hiff i j hi hj).mpr h))]
    · obtain ⟨m, m1, m2, m3, m4⟩ := targetOf_ok pf vars hnd r hr m0 hs
      refine ⟨m, by rw [targetOf, if_neg hc]; exact m1, m2, ?_, fun i j hi hj hno =>
        m4 i j hi hj (fun k hk => hno k (by simp [hk]))⟩
      intro i j hi hj pre l' post s' x' he ha h3 hx' hpost
      cases pre with
      | nil =>
        simp only [List.nil_append, List.cons.injEq] at he
        obtain ⟨rfl, rfl⟩ := he
        obtain ⟨p, q, rest, rfl, _⟩ := ha
        simp at hc
      | cons a pre =>
        simp only [List.cons_append, List.cons.injEq] at he
        exact m3 i j hi hj pre l' post s' x' he.2 ha h3 hx' hpost

theorem flatMap_once {ctrl : List (List String)} {key : String} {ws : List String} (h : Once ctrl key ws) :
    (ctrl.flatMap fun l => if l.head? = some key then l.tail else []) = ws := by
  obtain ⟨pre, post, rfl, h1, h2⟩ := h
  have e : ∀ c : List (List String), Silent c key →
      (c.flatMap fun l => if l.head? = some key then l.tail else []) = [] := by
    intro c hc
    rw [List.flatMap_eq_nil_iff]
    intro l hl
    rw [if_neg (hc l hl)]
  rw [List.flatMap_append, List.flatMap_cons, e pre h1, e post h2]
  simp

section
open Matrix
variable {L : LinAlg K} (hL : L.Lawful) (hG : Bunch.EighLawful L) {E : Ext K} (hE : E.Lawful)
  (w : BWorld K) (b : Bunch K) (hwf : (w.ctx w.hcur).WF) (hnodup : b.hits.Nodup)
  (hb : b.Normal w) (hmeans : b.means = []) (hW : ¬ |(b.hits.map w.weight).sum| < 1 / 1000000000)
  (vars : List String) (hlen : 2 ≤ vars.length) (hnd : vars.Nodup) (hsub : ∀ n ∈ vars, n ∈ coordNames)
  (vals : String → Nat → K)
  (hv : ∀ i ∈ b.hits, ∀ v ∈ vars, Bunch.hitNum E w i v = .ok (vals v i))
  (pf : String → Option K) (ctrl : List (List String)) (h1 : Once ctrl "rotate" vars)
  (o : List (String × K)) (h2 : Origins pf ctrl o) (ho : (o.map Prod.fst).Nodup)
  (m : Nat → Nat → K) (h3 : Target pf ctrl vars m)
  (tp : PosDefinite vars.length (Bunch.toM vars.length ⟨vars.length, vars.length, m⟩))
  (M : Mat K) (hM : Bunch.covarianceMatrix E w b vars [] = .ok M)
  (cp : PosDefinite vars.length (Bunch.toM vars.length M))
include hL hG hE hwf hnodup hb hmeans hW hlen hnd hsub hv h1 h2 ho h3 tp hM cp

/-- C104, rotations: with a rotate line, covariance lines that give a positive definite matrix, and a bunch
with a positive definite covariance matrix, the step succeeds, the covariance matrix of the bunch becomes a
positive multiple of the one asked for, with the emittance conserved; every hit is moved by one map of
determinant ±1 about zero, and then by the values of the origin lines. -/
theorem C104_rotate :
    ∃ (w' : BWorld K) (R M' : Mat K) (c : K), rotate L E pf ctrl b w = (.ok (), w') ∧ SameWeights b.hits w w' ∧ |R.det| = 1 ∧
      R.rows = vars.length ∧
      (∀ i ∈ b.hits, ∀ a, a < vars.length → Bunch.hitNum E w' i (vars.getD a "") =
        .ok ((∑ j ∈ Finset.range vars.length, R.entry a j * vals (vars.getD j "") i) +
          dictValue o (vars.getD a ""))) ∧
      Bunch.covarianceMatrix E w' b vars [] = .ok M' ∧ 0 < c ∧
      (∀ i j, i < vars.length → j < vars.length → M'.entry i j = c * m i j) ∧ M'.det = M.det := by
  obtain ⟨ps, q1, q2, rfl⟩ := h2
  have horig := originOf_origins ctrl ps [] q1 q2 (by simpa [Function.comp_def] using ho)
  obtain ⟨m', n1, n2, n3, n4⟩ := targetOf_ok pf vars hnd ctrl h3.lines (fun _ _ => 0) (fun _ _ => rfl)
  have hmm : ∀ i j, i < vars.length → j < vars.length → m' i j = m i j := by
    intro i j hi hj
    by_cases hno : ∀ l ∈ ctrl, ¬ About (vars.getD i "") (vars.getD j "") l
    · rw [n4 i j hi hj hno, h3.zero i j hi hj hno]
    · -- the last such line
      have last : ∀ c : List (List String), (¬ ∀ l ∈ c, ¬ About (vars.getD i "") (vars.getD j "") l) →
          ∃ pre l post, c = pre ++ l :: post ∧ About (vars.getD i "") (vars.getD j "") l ∧
            ∀ l' ∈ post, ¬ About (vars.getD i "") (vars.getD j "") l' := by
        intro c
        induction c with
        | nil => intro h; exact absurd (by simp) h
        | cons l r ih =>
          intro h
          by_cases hr : ∀ l ∈ r, ¬ About (vars.getD i "") (vars.getD j "") l
          · refine ⟨[], l, r, rfl, ?_, hr⟩
            by_contra hl
            exact h (by simpa using ⟨hl, hr⟩)
          · obtain ⟨pre, k, post, rfl, h2, h3⟩ := ih hr
            exact ⟨l :: pre, k, post, rfl, h2, h3⟩
      obtain ⟨pre, l, post, rfl, hl, hpost⟩ := last ctrl hno
      obtain ⟨p, q, rest, rfl, hpq⟩ := id hl
      obtain ⟨p', q', s, rest', x, he, _, _, hx⟩ := h3.lines ("covariance" :: p :: q :: rest) (by simp) List.head?_cons
      simp only [List.cons.injEq, true_and] at he
      obtain ⟨rfl, rfl, rfl⟩ := he
      rw [n3 i j hi hj pre _ post s x rfl hl rfl hx hpost, h3.given i j hi hj pre _ post s x rfl hl rfl hx hpost]
  have htM : Bunch.toM vars.length ⟨vars.length, vars.length, m'⟩ =
      Bunch.toM vars.length (⟨vars.length, vars.length, m⟩ : Mat K) := by
    ext i j
    simp only [Bunch.toM, of_apply]
    exact hmm i j i.2 j.2
  obtain ⟨w', R, M', c, k1, k2, k3, k4, k5, k6, k7, k8, k9, k10, k11, k12⟩ := C62_default hL hG hE w b hwf
    hnodup hb hmeans hW vars (by intro e; rw [e] at hlen; simp at hlen) hnd hsub
    (ps.map fun p => (p.1, p.2.2)) vals hv ⟨vars.length, vars.length, m'⟩ rfl rfl
    (by ext i j; simp only [transpose_apply, Bunch.toM, of_apply]; exact n2 _ _) (htM ▸ tp) M hM cp
  have hvals : ∀ i ∈ b.hits, ∀ v ∈ vars, Bunch.hitNum E w' i v =
      .ok (movedVals vars R (ps.map fun p => (p.1, p.2.2)) [] vals v i) := by
    intro i hi v hvv
    have := k6 i hi _ (List.idxOf_lt_length_of_mem hvv)
    rw [getD_idxOf hvv] at this
    exact this
  obtain ⟨M2, c1, _⟩ := C21_bunch_entries E w' b (k2.normal hb) hmeans (by rw [k2.sum]; exact hW) vars
    ((ps.map fun p => (p.1, p.2.2)).map fun p => (p.1, PyVal.flt p.2)) _ hvals (by
      intro v _ p hp
      rw [lookup_map_flt] at hp
      obtain ⟨x, _, rfl⟩ := Option.map_eq_some_iff.1 hp
      simp [PyVal.num?])
  refine ⟨w', R, M', c, ?_, k2, k5, k3, ?_, k7, k8, ?_, k12⟩
  · simp only [List.nil_append] at horig
    simp only [rotate, flatMap_once h1, horig, n1, k1, c1]
    rw [if_neg (by omega)]
  · intro i hi a ha
    rw [k6 i hi a ha]
    simp [affine, dictValue]
  · intro i j hi hj
    rw [k11 i j hi hj]
    exact congrArg _ (hmm i j hi hj)

/-- C104, origins, is false of the code: the rotation is not about the origin given.  A hit that sits at the
origin asked for is moved away from it whenever that is not zero (the origin is handed to transform_to as a
translation). -/
theorem C104_origin_false (i : Nat) (hi : i ∈ b.hits) (hat : ∀ v ∈ vars, vals v i = dictValue o v)
    (hnz : ∃ v ∈ vars, dictValue o v ≠ 0) :
    ∃ w', rotate L E pf ctrl b w = (.ok (), w') ∧
      ¬ ∀ v ∈ vars, Bunch.hitNum E w' i v = .ok (dictValue o v) := by
  obtain ⟨w', R, M', c, k1, _, k3, k4, k5, _⟩ := C104_rotate hL hG hE w b hwf hnodup hb hmeans hW vars hlen
    hnd hsub vals hv pf ctrl h1 o h2 ho m h3 tp M hM cp
  refine ⟨w', k1, fun hall => ?_⟩
  have hin : ∀ j, j < vars.length → vars.getD j "" ∈ vars := by
    intro j hj; simp [List.getD_eq_getElem?_getD, hj]
  have hz : (Bunch.toM vars.length R).mulVec (fun j => dictValue o (vars.getD j "")) = 0 := by
    funext a
    have e1 := k5 i hi a a.2
    rw [hall _ (hin a a.2)] at e1
    simp only [Except.ok.injEq] at e1
    have e2 : ∑ j ∈ Finset.range vars.length, R.entry a j * vals (vars.getD j "") i = 0 := by
      linarith
    rw [Finset.sum_range] at e2
    simp only [mulVec, dotProduct, Bunch.toM, of_apply, Pi.zero_apply]
    rw [← e2]
    exact Finset.sum_congr rfl fun j _ => by rw [hat _ (hin j j.2)]
  have hdet : (Bunch.toM vars.length R).det ≠ 0 := by
    rw [← Bunch.det_toM k4]
    intro e
    rw [e] at k3
    simp at k3
  have := Matrix.eq_zero_of_mulVec_eq_zero hdet hz
  obtain ⟨v, hvv, hne⟩ := hnz
  have h := congrFun this ⟨vars.idxOf v, List.idxOf_lt_length_of_mem hvv⟩
  simp only [Pi.zero_apply] at h
  rw [getD_idxOf hvv] at h
  exact hne h

end

/-! ### plots -/

theorem plots_asked (pe : List String → Err) (doIn : Bool) : ∀ (ctrl : List (List String)) (l : List String)
    (_ : l ∈ ctrl) (_ : l.head? = some (if doIn then "histogram_in" else "histogram_out") ∨
      l.head? = some (if doIn then "scatter_in" else "scatter_out")), ∃ e, plots pe doIn ctrl = .error e
  | [], l, h, _ => by simp at h
  | k :: r, l, h, hl => by
    rw [plots]
    by_cases hk : k.head? = some (if doIn then "histogram_in" else "histogram_out") ∨
      k.head? = some (if doIn then "scatter_in" else "scatter_out")
    · exact ⟨_, if_pos hk⟩
    · rw [if_neg hk]
      rcases List.mem_cons.mp h with rfl | h
      · exact absurd hl hk
      · exact plots_asked pe doIn r l h hl

/-- C104, plots, is false of the code: a control file that asks for any plot never gives an output file,
whatever else it says and whatever the input. -/
theorem C104_plots_false (V : Env K W) (ctrl : List (List String)) (files : Files W) (g4 : String)
    (l : List String) (hl : l ∈ ctrl)
    (hk : l.head? ∈ [some "histogram_in", some "scatter_in", some "histogram_out", some "scatter_out"])
    (first : Nat) (w : BWorld K) : ∃ e, (convert V ctrl files g4 first w).1 = .error e := by
  rw [convert]
  generalize readInput V.E V.T V.pi ctrl files g4 first w = z1
  obtain ⟨_ | ⟨b, g⟩, w1⟩ := z1
  · exact ⟨_, rfl⟩
  simp only
  have hp : (∃ e, plots V.plotErr true ctrl = .error e) ∨ ∃ e, plots V.plotErr false ctrl = .error e := by
    simp only [List.mem_cons, List.not_mem_nil, or_false] at hk
    rcases hk with h | h | h | h
    · exact .inl (plots_asked _ _ ctrl l hl (.inl h))
    · exact .inl (plots_asked _ _ ctrl l hl (.inr h))
    · exact .inr (plots_asked _ _ ctrl l hl (.inl h))
    · exact .inr (plots_asked _ _ ctrl l hl (.inr h))
  cases h1 : plots V.plotErr true ctrl with
  | error e => exact ⟨_, rfl⟩
  | ok u =>
    obtain ⟨e, he⟩ := hp.resolve_left (by rw [h1]; simp)
    simp only [he]
    generalize rotate V.L V.E V.pf ctrl b w1 = z2
    obtain ⟨_ | _, w2⟩ := z2
    · exact ⟨_, rfl⟩
    simp only
    generalize translate V.E V.pf ctrl b w2 = z3
    obtain ⟨_ | _, w3⟩ := z3
    · exact ⟨_, rfl⟩
    simp only
    generalize massShell V.E ctrl b w3 = z4
    obtain ⟨_ | _, w4⟩ := z4
    · exact ⟨_, rfl⟩
    exact ⟨_, rfl⟩

/-! ### comments -/

/-- A word of a control file: no blanks and no comment characters. -/
def IsWord (s : List Char) : Prop := s ≠ [] ∧ ∀ c ∈ s, c.isWhitespace = false ∧ c ≠ '#' ∧ c ≠ '!'

/-- White space. -/
def Blank (s : List Char) : Prop := ∀ c ∈ s, c.isWhitespace = true

theorem splitGo_word (ws : List Char) (h : ∀ c ∈ ws, c.isWhitespace = false) :
    ∀ (cur rest : List Char), splitGo cur (ws ++ rest) = splitGo (cur ++ ws) rest := by
  induction ws with
  | nil => intro cur rest; simp
  | cons c r ih =>
    intro cur rest
    rw [List.cons_append, splitGo, if_neg (by simp [h c (by simp)]),
      ih (fun d hd => h d (by simp [hd]))]
    simp

theorem splitGo_blank (bs : List Char) (h : Blank bs) :
    ∀ (rest : List Char), splitGo [] (bs ++ rest) = splitGo [] rest := by
  induction bs with
  | nil => intro rest; rfl
  | cons c r ih =>
    intro rest
    rw [List.cons_append, splitGo, if_pos (h c (by simp)), if_pos rfl, List.nil_append,
      ih (fun d hd => h d (by simp [hd]))]

theorem splitGo_gap (cur : List Char) (hc : cur ≠ []) (bs : List Char) (h : Blank bs) (hb : bs ≠ [])
    (rest : List Char) : splitGo cur (bs ++ rest) = cur :: splitGo [] rest := by
  cases bs with
  | nil => exact absurd rfl hb
  | cons c r =>
    rw [List.cons_append, splitGo, if_pos (h c (by simp)), if_neg hc,
      splitGo_blank r (fun d hd => h d (by simp [hd]))]
    rfl

theorem splitGo_line : ∀ (items : List (List Char × List Char)) (tail : List Char) (_ : Blank tail)
    (_ : ∀ p ∈ items, p.1 ≠ [] ∧ Blank p.1 ∧ IsWord p.2) (cur : List Char) (_ : cur ≠ []),
    splitGo cur (items.flatMap (fun p => p.1 ++ p.2) ++ tail) = cur :: items.map Prod.snd
  | [], tail, ht, _, cur, hc => by
    cases tail with
    | nil => simp [splitGo, hc]
    | cons c r =>
      have := splitGo_gap cur hc (c :: r) ht (by simp) []
      simpa [splitGo] using this
  | p :: r, tail, ht, h, cur, hc => by
    obtain ⟨h1, h2, h3⟩ := h p (by simp)
    rw [List.flatMap_cons, List.append_assoc, List.append_assoc, splitGo_gap cur hc p.1 h2 h1,
      splitGo_word p.2 (fun c hcc => (h3.2 c hcc).1), List.nil_append,
      splitGo_line r tail ht (fun q hq => h q (by simp [hq])) p.2 h3.1]
    rfl

theorem takeWhile_until (p : Char → Bool) (l r : List Char) (hl : ∀ c ∈ l, p c = true)
    (hr : ∀ c ∈ r.head?, p c = false) : (l ++ r).takeWhile p = l := by
  rw [List.takeWhile_append_of_pos hl]
  cases r with
  | nil => simp
  | cons c t => simp [hr c rfl]

/-- C104, the control file: a line is its words, whatever white space lies before, between and after them;
all from the first '#' or '!' on is ignored. -/
theorem C104_comments (lead : List Char) (hlead : Blank lead) (first : List Char) (hfirst : IsWord first)
    (items : List (List Char × List Char)) (h : ∀ p ∈ items, p.1 ≠ [] ∧ Blank p.1 ∧ IsWord p.2)
    (tail : List Char) (ht : Blank tail) (comment : List Char)
    (hc : comment = [] ∨ ∃ t, comment = '#' :: t ∨ comment = '!' :: t) :
    controlLine (String.ofList (lead ++ first ++ items.flatMap (fun p => p.1 ++ p.2) ++ tail ++ comment)) =
      String.ofList first :: items.map (fun p => String.ofList p.2) ∧
    controlLine (String.ofList (lead ++ comment)) = [] := by
  have hbl : ∀ c : Char, c.isWhitespace = true → c ≠ '#' ∧ c ≠ '!' := by
    intro c hw
    constructor <;> rintro rfl <;> revert hw <;> decide
  have key : ∀ body : List Char, (∀ c ∈ body, c ≠ '#' ∧ c ≠ '!') →
      ((body ++ comment).takeWhile (· ≠ '#')).takeWhile (· ≠ '!') = body := by
    intro body hb
    have h1 : ∀ c ∈ body, (fun c : Char => decide (c ≠ '#')) c = true := fun c hc => by simpa using (hb c hc).1
    have h2 : ∀ c ∈ body, (fun c : Char => decide (c ≠ '!')) c = true := fun c hc => by simpa using (hb c hc).2
    have h3 : body.takeWhile (· ≠ '!') = body := by
      have := takeWhile_until _ body [] h2 (by simp)
      rwa [List.append_nil] at this
    rcases hc with rfl | ⟨t, rfl | rfl⟩
    · rw [takeWhile_until _ _ _ h1 (by simp), h3]
    · rw [takeWhile_until _ _ _ h1 (by simp), h3]
    · rw [List.takeWhile_append_of_pos h1]
      rw [List.takeWhile_cons_of_pos (by decide)]
      exact takeWhile_until _ _ _ h2 (by simp)
  have hbody : ∀ c ∈ lead ++ first ++ items.flatMap (fun p => p.1 ++ p.2) ++ tail, c ≠ '#' ∧ c ≠ '!' := by
    intro c hcm
    simp only [List.mem_append, List.mem_flatMap] at hcm
    rcases hcm with ((hm | hm) | ⟨p, hp, hm | hm⟩) | hm
    · exact hbl c (hlead c hm)
    · exact (hfirst.2 c hm).2
    · exact hbl c ((h p hp).2.1 c hm)
    · exact ((h p hp).2.2.2 c hm).2
    · exact hbl c (ht c hm)
  constructor
  · rw [controlLine, String.toList_ofList, key _ hbody, splitBlank, List.append_assoc, List.append_assoc,
      splitGo_blank lead hlead, splitGo_word first (fun c hcc => (hfirst.2 c hcc).1),
      List.nil_append, splitGo_line items tail ht h first hfirst.1]
    simp
  · rw [controlLine, String.toList_ofList, key lead (fun c hcm => hbl c (hlead c hcm)), splitBlank]
    have := splitGo_blank lead hlead []
    rw [List.append_nil] at this
    rw [this]
    rfl

/-! ### units of G4Beamline files -/

/-- C104, units, is false of the code: a G4Beamline file that says in its header that lengths are in cm is
converted (here to any other format) as if they were in mm: with v in the x column the hit written has
x = v mm, not 10 v mm. -/
theorem C104_cm_false (V : Env K W) (hE : V.E.Lawful) (hT : V.T.Lawful) {ctrl : List (List String)}
    {files : Files W} {nameIn nameOut B : String} {varsB : List String}
    (hB : (B, varsB) ∈ lineFormats) (hne : B ≠ "g4beamline_bl_track_file")
    (h1 : Says ctrl "file_in" nameIn) (h2 : Says ctrl "format_in" "g4beamline_bl_track_file")
    (h3 : Says ctrl "file_out" nameOut) (h4 : Says ctrl "format_out" B)
    (h6 : ∀ key ∈ ["station_in", "rotate", "origin", "translate", "mass_shell_condition", "histogram_in",
      "histogram_out", "scatter_in", "scatter_out"], Silent ctrl key)
    (hw rest : List W) (x : W)
    (hfile : files nameIn = [[⟨true, some "cm", hw⟩, ⟨false, none, x :: rest⟩]])
    (hl : WellFormed (K := K) V.T "g4beamline_bl_track_file" (x :: rest)) (v : K)
    (hx : V.T.parseFlt x = some v) (hv : v ≠ 0) (first : Nat) (w : BWorld K) (hwf : (w.ctx w.hcur).WF) :
    ∃ c file w', convert V ctrl files "mm" first w = (.ok (nameOut, file), w') ∧
      Conveys V.E V.T B varsB (w.ctx w.hcur) [c] file ∧
      (Hit.get V.E "x" ⟨c, w.ctx w.hcur⟩).1 = .ok (.flt v) ∧
      (Hit.get V.E "x" ⟨c, w.ctx w.hcur⟩).1 ≠ .ok (.flt (10 * v)) := by
  have hdl : (files nameIn).flatMap (dataLines "g4beamline_bl_track_file") = [x :: rest] := by
    rw [hfile]; simp [dataLines]
  obtain ⟨hs, g1, _, g3⟩ := C104_partial V hE hT (files := files) (A := "g4beamline_bl_track_file")
    (varsA := ["x", "y", "z", "px", "py", "pz", "p", "t", "ct", "pid",
      "eventNumber", "event_number", "particleNumber", "particle_number", "local_weight"])
    (by simp [lineFormats]) hB h1 h2 h3 h4 none
    (h6 "station_in" (by decide)) (fun key hk => h6 key (by
      simp only [List.mem_cons, List.not_mem_nil, or_false] at hk ⊢; tauto)) []
    (.inl ⟨h6 "translate" (by decide), rfl⟩) (by simp) (by simp) none (h6 "mass_shell_condition" (by decide))
    (by simp) (by rw [hfile]; simp) (by
      intro f hf l hll u hu
      rw [hfile, List.mem_singleton] at hf
      subst hf
      simp only [List.mem_cons, List.not_mem_nil, or_false] at hll
      rcases hll with rfl | rfl
      · rw [Option.mem_some_iff] at hu; subst hu; decide
      · simp at hu) (fun e => absurd e hne) (by
      intro f hf ws hws _
      have : ws ∈ (files nameIn).flatMap (dataLines "g4beamline_bl_track_file") :=
        List.mem_flatMap.mpr ⟨f, hf, hws⟩
      rw [hdl, List.mem_singleton] at this
      rw [this]; exact hl) first w hwf
  obtain ⟨out, file, w', c1, c2, c3⟩ := g3 (.inl rfl)
  rw [hdl, List.filter_cons_of_pos (by simpa using hl.length_eq.symm), List.filter_nil] at g1
  obtain ⟨c, hc, he⟩ : ∃ c, HitOfLine V.E V.T "g4beamline_bl_track_file" (x :: rest) ⟨c, w.ctx w.hcur⟩ ∧
      hs = [c] := by
    cases g1 with
    | cons a b => cases b; exact ⟨_, a, rfl⟩
  subst he
  have hcx : (Hit.get V.E "x" ⟨c, w.ctx w.hcur⟩).1 = .ok (.flt v) := by
    have := hc.cols
    simp only [columns, String.reduceEq, if_true, if_false] at this
    cases this with
    | cons a b =>
      rcases a (by simp) with e | ⟨e, _⟩ | ⟨_, u, hu, hg⟩
      · simp at e
      · exact absurd e (show "x" ∉ intColumns by decide)
      · rw [hx, Option.some.injEq] at hu
        rw [hg, hu, mul_one]
  have hch : chosen none [c] = [c] := by simp [chosen]
  rw [hch] at c2
  obtain ⟨o, ho, he⟩ : ∃ o, Worked V.E (w.ctx w.hcur) [] none c o ∧ out = [o] := by
    cases c2 with
    | cons a b => cases b; exact ⟨_, a, rfl⟩
  subst he
  obtain ⟨m, hm1, rfl⟩ := ho
  have hox : (Hit.get V.E "x" ⟨o, w.ctx w.hcur⟩).1 = .ok (.flt v) :=
    (hm1.1 "x" (by decide) (by simp)).trans hcx
  refine ⟨o, file, w', c1, c3, hox, ?_⟩
  rw [hox]
  simp only [ne_eq, Except.ok.injEq, Val.flt.injEq]
  intro e
  apply hv
  linarith

/-! ### examples -/

/-- numbers of the examples -/
noncomputable def exNumber (s : String) : Option ℝ :=
  if s = "1" then some 1 else if s = "2" then some 2 else if s = "5" then some 5 else none

noncomputable def exEnv : Env ℝ (Int ⊕ ℝ) :=
  ⟨realExt, realEigh, realText, fun _ => [], exNumber, fun s => if s = "0" then some 0 else none,
    fun _ => .AttributeError⟩

/-- a muon at x = 3 -/
noncomputable def exLine : List (Int ⊕ ℝ) :=
  [.inr 3, .inr 0, .inr 0, .inr 10, .inr 0, .inr 200, .inr 1, .inl 13, .inl 1, .inl 1, .inl 0, .inr 1]

theorem exLine_ok : WellFormed (K := ℝ) realText "g4beamline_bl_track_file" exLine := by
  have hi : ∀ n : Int, -2147483648 ≤ n ∧ n < 2147483648 → WordInt realText (.inl n) n :=
    fun n hn => ⟨Or.inl rfl, hn⟩
  have hf : ∀ v : ℝ, ∃ a, realText.parseFlt (.inr v) = some a := fun v => ⟨v, rfl⟩
  simp only [WellFormed, columns, reduceIte, String.reduceEq, List.forall₂_cons,
    List.forall₂_nil_right_iff, and_true, exLine]
  refine ⟨⟨Or.inr (Or.inr ⟨by decide, hf _⟩), by simp⟩, ⟨Or.inr (Or.inr ⟨by decide, hf _⟩), by simp⟩,
    ⟨Or.inr (Or.inr ⟨by decide, hf _⟩), by simp⟩, ⟨Or.inr (Or.inr ⟨by decide, hf _⟩), by simp⟩,
    ⟨Or.inr (Or.inr ⟨by decide, hf _⟩), by simp⟩, ⟨Or.inr (Or.inr ⟨by decide, hf _⟩), by simp⟩,
    ⟨Or.inr (Or.inr ⟨by decide, hf _⟩), by simp⟩,
    ⟨Or.inr (Or.inl ⟨by decide, _, hi 13 (by decide)⟩), fun _ n _ => ⟨n, by simp [CodeFor, codes]⟩⟩,
    ⟨Or.inr (Or.inl ⟨by decide, _, hi 1 (by decide)⟩), by simp⟩,
    ⟨Or.inr (Or.inl ⟨by decide, _, hi 1 (by decide)⟩), by simp⟩, ⟨Or.inl rfl, by simp⟩,
    ⟨Or.inr (Or.inr ⟨by decide, hf _⟩), by simp⟩⟩

def exControl : List (List String) :=
  [["file_in", "old.dat"], ["file_in", "in.dat"], ["format_in", "g4beamline_bl_track_file"],
   ["file_out", "for003.dat"], ["format_out", "icool_for003"], ["station_in", "0"],
   ["translate", "x", "5", "t", "2"], ["mass_shell_condition", "pz"]]

/-- Non-vacuity of C104_partial (with a station, a translation and the mass shell condition). -/
example : Says exControl "file_in" "in.dat" ∧ Says exControl "format_in" "g4beamline_bl_track_file" ∧
    Says exControl "file_out" "for003.dat" ∧ Says exControl "format_out" "icool_for003" ∧
    StationIn exEnv.pi exControl (some 0) ∧
    (∀ key ∈ ["rotate", "origin", "histogram_in", "histogram_out", "scatter_in", "scatter_out"],
      Silent exControl key) ∧
    Moves exEnv.pf exControl [("x", 5), ("t", 2)] ∧ Condition exControl (some "pz") ∧
    exEnv.E.Lawful ∧ exEnv.T.Lawful ∧
    ∃ files : Files (Int ⊕ ℝ), files "in.dat" ≠ [] ∧ KnownUnits (files "in.dat") ∧
      (∀ file ∈ files "in.dat", ∀ ws ∈ dataLines "g4beamline_bl_track_file" file,
        WellFormed (K := ℝ) realText "g4beamline_bl_track_file" ws) ∧
      exLine ∈ (files "in.dat").flatMap (dataLines "g4beamline_bl_track_file") := by
  refine ⟨⟨[["file_in", "old.dat"]], [], _, rfl, by unfold Silent; decide, by decide⟩,
    ⟨_, [], _, (by rfl : exControl = [["file_in", "old.dat"], ["file_in", "in.dat"]] ++ _ :: _),
      by unfold Silent; decide, by decide⟩,
    ⟨_, [], _, (by rfl : exControl = exControl.take 3 ++ _ :: exControl.drop 4), by unfold Silent; decide,
      by decide⟩,
    ⟨_, [], _, (by rfl : exControl = exControl.take 4 ++ _ :: exControl.drop 5), by unfold Silent; decide,
      by decide⟩,
    ⟨"0", [], ⟨_, _, (by rfl : exControl = exControl.take 5 ++ _ :: exControl.drop 6),
      by unfold Silent; decide, by unfold Silent; decide⟩, rfl⟩, by unfold Silent; decide,
    .inr ⟨[("x", "5", 5), ("t", "2", 2)], ⟨_, _, (by rfl : exControl = exControl.take 6 ++ _ :: exControl.drop 7),
      by unfold Silent; decide, by unfold Silent; decide⟩, by simp [exEnv, exNumber], rfl⟩,
    ⟨_, [], _, (by rfl : exControl = exControl.take 7 ++ _ :: exControl.drop 8), by unfold Silent; decide⟩,
    realExt_lawful, realText_lawful, fun _ => [[⟨true, some "mm", []⟩, ⟨false, none, exLine⟩]],
    by simp, ?_, ?_, by simp [dataLines]⟩
  · intro f hf l hl u hu
    rw [List.mem_singleton] at hf
    subst hf
    simp only [List.mem_cons, List.not_mem_nil, or_false] at hl
    rcases hl with rfl | rfl
    · rw [Option.mem_some_iff] at hu; subst hu; decide
    · simp at hu
  · intro f hf ws hws
    rw [List.mem_singleton] at hf
    subst hf
    simp [dataLines] at hws
    rw [hws]; exact exLine_ok

/-- Non-vacuity of C104_cm_false: the line has the first word 3. -/
example : realText.parseFlt (exLine.headD (.inl 0)) = some 3 ∧ (3 : ℝ) ≠ 0 := ⟨rfl, by norm_num⟩

theorem target_of (pf : String → Option K) (vars : List String) (hnd : vars.Nodup) (ctrl : List (List String))
    (h : ∀ l ∈ ctrl, l.head? = some "covariance" →
      ∃ p q s rest x, l = "covariance" :: p :: q :: s :: rest ∧ p ∈ vars ∧ q ∈ vars ∧ pf s = some x) :
    ∃ m, targetOf pf vars ctrl (fun _ _ => 0) = .ok m ∧ Target pf ctrl vars m := by
  obtain ⟨m, m1, _, m3, m4⟩ := targetOf_ok pf vars hnd ctrl h (fun _ _ => 0) (fun _ _ => rfl)
  exact ⟨m, m1, h, m3, m4⟩

def exRotate : List (List String) :=
  [["rotate", "x", "px"], ["origin", "x", "1"], ["covariance", "x", "x", "2"], ["covariance", "px", "x", "1"],
   ["covariance", "px", "px", "1"]]

/-- Non-vacuity of C104_rotate and C104_origin_false: four hits, one at the origin asked for. -/
example : ∃ w', rotate realEigh realExt exNumber exRotate exRealBunch exRealWorld = (.ok (), w') ∧
    ¬ ∀ v ∈ ["x", "px"], Bunch.hitNum realExt w' 0 v = .ok (dictValue [("x", (1 : ℝ))] v) := by
  have hW : ¬ |(exRealBunch.hits.map exRealWorld.weight).sum| < 1 / 1000000000 := by
    simp only [exRealBunch, List.map_cons, List.map_nil, exReal_weight]; norm_num
  have hv : ∀ i ∈ exRealBunch.hits, ∀ v ∈ ["x", "px"],
      Bunch.hitNum realExt exRealWorld i v = .ok (exRealVals v i) :=
    fun i _ v hv => exReal_values i v (by simp at hv ⊢; tauto)
  obtain ⟨M, m1, m2, m3, m4⟩ := C21_bunch_entries realExt exRealWorld exRealBunch ⟨rfl, rfl, rfl⟩ rfl hW
    ["x", "px"] [] exRealVals hv (by simp)
  have e00 : M.entry 0 0 = 1 / 2 := (m4 0 0 (by simp) (by simp)).trans exReal_cov.1
  have e11 : M.entry 1 1 = 1 / 2 := (m4 1 1 (by simp) (by simp)).trans exReal_cov.2.1
  have e01 : M.entry 0 1 = 0 := (m4 0 1 (by simp) (by simp)).trans exReal_cov.2.2
  have e10 : M.entry 1 0 = 0 := (m4 1 0 (by simp) (by simp)).trans (by
    have := wcov_comm exRealBunch exRealWorld exRealVals "x" "px"
    rw [exReal_cov.2.2] at this
    exact this.symm)
  obtain ⟨m, t1, t2⟩ := target_of exNumber ["x", "px"] (by decide) exRotate (by
    intro l hl hc
    simp only [exRotate, List.mem_cons, List.not_mem_nil, or_false] at hl
    rcases hl with rfl | rfl | rfl | rfl | rfl
    · simp at hc
    · simp at hc
    · exact ⟨_, _, _, [], 2, rfl, by simp, by simp, by simp [exNumber]⟩
    · exact ⟨_, _, _, [], 1, rfl, by simp, by simp, by simp [exNumber]⟩
    · exact ⟨_, _, _, [], 1, rfl, by simp, by simp, by simp [exNumber]⟩)
  have hm : m 0 0 = 2 ∧ m 0 1 = 1 ∧ m 1 0 = 1 ∧ m 1 1 = 1 := by
    simp [targetOf, exRotate, word, number, exNumber, List.idxOf, List.findIdx, List.findIdx.go] at t1
    subst t1
    simp
  refine C104_origin_false realEigh_lawful realEigh_eigh realExt_lawful exRealWorld exRealBunch WC.WF.new
    (by decide) ⟨rfl, rfl, rfl⟩ rfl hW ["x", "px"] (by simp) (by decide) (by decide) exRealVals hv exNumber
    exRotate ⟨[], _, rfl, by simp [Silent], by unfold Silent; decide⟩ [("x", 1)]
    ⟨[("x", "1", 1)], by decide, by simp [exNumber], rfl⟩ (by simp) m t2
    (two_posDefinite _ (by simp [hm]) (by simp [hm]) (by norm_num [hm])) M m1
    (two_posDefinite _ (by rw [e00]; norm_num) (by rw [e01, e10]) (by rw [e00, e01, e11]; norm_num)) 0
    (by simp [exRealBunch]) ?_ ⟨"x", by simp, by simp [dictValue, List.lookup]⟩
  intro v hvv
  simp only [List.mem_cons, List.not_mem_nil, or_false] at hvv
  rcases hvv with rfl | rfl <;> simp [exRealVals, exRealWorld, dictValue, List.lookup]

/-- Non-vacuity of C104_comments and C104_plots_false. -/
example : controlLine "  rotate \t x  px ! about # the origin\n" = ["rotate", "x", "px"] ∧
    controlLine "# histogram_in x mm" = [] ∧ ["histogram_in", "x", "mm"].head? = some "histogram_in" := by
  decide +kernel

end Xboa.FileConvert
