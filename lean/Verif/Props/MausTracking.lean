import Verif.Model.MausTracking
import Verif.Props.MausRoot
/-!
C52: random seeds and spill numbers of MAUSTracking.
-/
set_option linter.unusedSectionVars false
namespace Xboa
open Root MausTracking
variable {K : Type} [Field K] [LinearOrder K] [IsStrictOrderedRing K]

/-- What is sent to MAUS for a hit. -/
def docSpec (h : HS K) (seed : Int) : Doc K :=
  ⟨⟨h.core.d .x, h.core.d .y, h.core.d .z⟩, ⟨h.core.d .px, h.core.d .py, h.core.d .pz⟩, h.core.i .pid,
    h.core.d .energy, h.core.d .t, seed⟩

/-- The hits of a call. -/
def callHits : Call K → List (HS K)
  | .one h => [h]
  | .many hs => hs

theorem docOf_ok (E : Ext K) (h : HS K) (seed : Int) : docOf E h seed = .ok (docSpec h seed) := by
  simp only [docOf, getV3, getFlt, getInt, Hit.get_x, Hit.get_y, Hit.get_z, Hit.get_px, Hit.get_py,
    Hit.get_pz, Hit.get_pid, Hit.get_energy, Hit.get_t]
  rfl

theorem primaries_ok (E : Ext K) : ∀ (hs : List (HS K)) (s : State K),
    primaries E hs s = (.ok (hs.zipIdx.map fun p => docSpec p.1 (s.seed + p.2)),
      { s with seed := s.seed + hs.length })
  | [], s => by
    rw [primaries, PyM.pure_apply]
    simp
  | h :: r, s => by
    have h1 : hitToPrimary E h s = (.ok (docSpec h s.seed), { s with seed := s.seed + 1 }) := by
      rw [hitToPrimary, docOf_ok]
    rw [primaries, PyM.bind_ok h1, PyM.bind_ok (primaries_ok E r _), PyM.pure_apply]
    simp only [List.zipIdx_cons', List.map_cons, List.map_map, Function.comp_def, List.length_cons,
      Nat.cast_add, Nat.cast_one, Nat.cast_zero, Int.add_zero, Prod.mk.injEq, Except.ok.injEq,
      List.cons.injEq, true_and, State.mk.injEq, and_true, Prod.map]
    refine ⟨?_, by omega⟩
    apply List.map_congr_left
    intro p _
    congr 1
    omega

/-- a call sends its hits, with the next seeds -/
theorem call_sent (E : Ext K) (wc : WC K)
    (sim : List (List (Doc K)) → List (Doc K) → Except Err (List (Event K))) (c : Call K) (s : State K) :
    (call E wc sim c s).2.seed = s.seed + (callHits c).length ∧
    (call E wc sim c s).2.sent =
      s.sent ++ [(callHits c).zipIdx.map fun p => docSpec p.1 (s.seed + p.2)] := by
  have hmany : ∀ hs, (trackMany E wc sim hs s).2.seed = s.seed + hs.length ∧
      (trackMany E wc sim hs s).2.sent =
        s.sent ++ [hs.zipIdx.map fun p => docSpec p.1 (s.seed + p.2)] := by
    intro hs
    rw [trackMany, primaries_ok]
    simp only
    split
    · exact ⟨rfl, rfl⟩
    · split
      · exact ⟨rfl, rfl⟩
      · exact ⟨rfl, rfl⟩
  cases c with
  | many hs => exact hmany hs
  | one h =>
    have := hmany [h]
    simp only [call, trackOne]
    revert this
    generalize trackMany E wc sim [h] s = r
    intro this
    rcases r with ⟨e | l, s'⟩
    · exact this
    · rcases l with _ | ⟨l, _⟩
      · exact this
      · exact this

/-- C52, seeds: through any history of calls on one object, whether they raise or not and whatever MAUS
answers, MAUS gets the hits of all calls in order, and the n-th of them with the initial seed plus n; so no
seed is used twice. -/
theorem C52_seeds (E : Ext K) (wc : WC K)
    (sim : List (List (Doc K)) → List (Doc K) → Except Err (List (Event K))) (seed : Int)
    (calls : List (Call K)) :
    let sent := (run E wc sim calls (init seed)).2.sent
    sent.map List.length = calls.map (fun c => (callHits c).length) ∧
    sent.flatten = (calls.flatMap callHits).zipIdx.map (fun p => docSpec p.1 (seed + p.2)) ∧
    (sent.flatten.map fun d => d.seed).Nodup := by
  have key : ∀ (calls : List (Call K)) (s : State K),
      (run E wc sim calls s).2.sent.map List.length =
        s.sent.map List.length ++ calls.map (fun c => (callHits c).length) ∧
      (run E wc sim calls s).2.sent.flatten = s.sent.flatten ++
        (calls.flatMap callHits).zipIdx.map (fun p => docSpec p.1 (s.seed + p.2)) := by
    intro calls
    induction calls with
    | nil => intro s; simp [run]
    | cons c r ih =>
      intro s
      obtain ⟨h1, h2⟩ := call_sent E wc sim c s
      obtain ⟨h3, h4⟩ := ih (call E wc sim c s).2
      have hrun : (run E wc sim (c :: r) s).2 = (run E wc sim r (call E wc sim c s).2).2 := rfl
      rw [hrun, h3, h4, h1, h2]
      constructor
      · simp
      · rw [List.flatten_append, List.flatMap_cons, List.zipIdx_append, List.map_append]
        simp only [List.flatten_cons, List.flatten_nil, List.append_nil, List.append_assoc]
        congr 2
        rw [Nat.zero_add, List.zipIdx_eq_map_add (i := (callHits c).length), List.map_map]
        apply List.map_congr_left
        intro p _
        simp only [Function.comp_apply, Nat.cast_add]
        congr 1
        omega
  obtain ⟨h1, h2⟩ := key calls (init seed)
  have h2' : (run E wc sim calls (init seed)).2.sent.flatten =
    (calls.flatMap callHits).zipIdx.map (fun p => docSpec p.1 (seed + p.2)) := by
    rw [h2]; rfl
  refine ⟨by rw [h1]; rfl, h2', ?_⟩
  rw [h2', List.map_map]
  have : (fun d : Doc K => d.seed) ∘ (fun p : HS K × Nat => docSpec p.1 (seed + p.2)) =
      (fun n : Nat => seed + (n : Int)) ∘ Prod.snd := rfl
  rw [this, ← List.map_map, List.zipIdx_map_snd]
  refine List.Nodup.map ?_ List.nodup_range'
  intro a b h
  simp only at h
  omega

/-! ### what comes back -/

/-- The pid is in the tables of masses and charges. -/
def Known (pid : Int) : Prop :=
  (Common.pdgPidToMass.lookup |pid|).isSome ∧ (Common.pdgPidToCharge.lookup pid).isSome

instance (pid : Int) : Decidable (Known pid) := inferInstanceAs (Decidable (_ ∧ _))

/-- What a primary that MAUS returns is converted to. -/
def primaryHitSpec (wc : WC K) (spill : Int) (event : Nat) (p : Primary K) : HS K :=
  ⟨⟨fun
    | .x => p.pos.x | .y => p.pos.y | .z => p.pos.z | .t => p.time
    | .px => p.mom.x | .py => p.mom.y | .pz => p.mom.z | .energy => p.energy
    | .mass => tableMass p.pid | .charge => tableCharge p.pid
    | .local_weight => 1
    | .bx | .by | .bz | .ex | .ey | .ez | .sx | .sy | .sz | .path_length | .proper_time | .e_dep => 0,
   fun
    | .spill => spill | .event => event | .particle => 1 | .pid => p.pid | .status => 0
    | .station => -1⟩, wc⟩

/-- What a virtual hit that MAUS returns is converted to. -/
def virtualHitSpec (E : Ext K) (wc : WC K) (spill : Int) (event : Nat) (v : VHit K) : HS K :=
  ⟨⟨fun
    | .x => v.pos.x | .y => v.pos.y | .z => v.pos.z | .t => v.time
    | .px => v.mom.x | .py => v.mom.y | .pz => v.mom.z
    | .energy => E.sqrt (tableMass v.pid * tableMass v.pid + v.mom.x * v.mom.x + v.mom.y * v.mom.y +
        v.mom.z * v.mom.z)
    | .mass => tableMass v.pid | .charge => tableCharge v.pid
    | .local_weight => 1
    | .bx | .by | .bz | .ex | .ey | .ez | .sx | .sy | .sz | .path_length | .proper_time | .e_dep => 0,
   fun
    | .spill => spill | .event => event | .particle => v.track | .pid => v.pid | .status => 0
    | .station => v.station⟩, wc⟩

theorem massOf_known {pid : Int} (h : Known pid) :
    massOf (K := K) (.int pid) = .ok (.flt (tableMass pid)) := by
  obtain ⟨m, hm⟩ := Option.isSome_iff_exists.mp h.1
  simp only [massOf, tableMass, hm, Option.getD_some]

theorem chargeOf_known {pid : Int} (h : Known pid) : ∃ q : Int, (q : K) = tableCharge pid ∧
    chargeOf (K := K) (.int pid) = .ok (.int q) := by
  obtain ⟨q, hq⟩ := Option.isSome_iff_exists.mp h.2
  exact ⟨q, by simp only [tableCharge, hq, Option.getD_some], by simp only [chargeOf, hq]⟩

theorem lift_ok {σ α : Type} {x : Except Err α} {a : α} (h : x = .ok a) (s : σ) :
    lift x s = (.ok a, s) := by
  rw [lift, h]

theorem primaryToHit_ok (E : Ext K) (wc : WC K) (spill : Int) (event : Nat) (p : Primary K)
    (h1 : IsInt32 spill) (h2 : event < 2147483648) (h3 : IsInt32 p.pid) (hk : Known p.pid) :
    primaryToHit E wc spill p event 1 = .ok (primaryHitSpec wc spill event p) := by
  have h2' : -2147483648 ≤ (event : Int) ∧ (event : Int) < 2147483648 := by omega
  obtain ⟨q, hq, hq'⟩ := chargeOf_known (K := K) hk
  have hfirst : ∃ c : Core K, Hit.setAll E [("x", .flt p.pos.x), ("px", .flt p.mom.x),
      ("y", .flt p.pos.y), ("py", .flt p.mom.y), ("z", .flt p.pos.z), ("pz", .flt p.mom.z),
      ("pid", .int p.pid), ("energy", .flt p.energy), ("t", .flt p.time)] ⟨Core.new, wc⟩ =
        (.ok (), ⟨c, wc⟩) ∧
      (((((c.setD .mass (tableMass p.pid)).setD .charge (tableCharge p.pid)).setI .particle 1).setI
        .event event).setI .spill spill).setI .station (-1) = (primaryHitSpec wc spill event p).core := by
    refine ⟨?c, ?eq, ?rest⟩
    case eq =>
      refine (setAll_d fun s => Hit.set_x E s _).trans ?_
      refine (setAll_d fun s => Hit.set_px E s _).trans ?_
      refine (setAll_d fun s => Hit.set_y E s _).trans ?_
      refine (setAll_d fun s => Hit.set_py E s _).trans ?_
      refine (setAll_d fun s => Hit.set_z E s _).trans ?_
      refine (setAll_d fun s => Hit.set_pz E s _).trans ?_
      refine (setAll_i fun s => Hit.set_pid E s _ h3).trans ?_
      refine (setAll_d fun s => Hit.set_energy E s _).trans ?_
      refine (setAll_d fun s => Hit.set_t E s _).trans ?_
      rfl
    apply Core.ext'
    · intro v; cases v <;> rfl
    · intro v; cases v <;> rfl
  obtain ⟨c, hc, hspec⟩ := hfirst
  rw [primaryToHit]
  refine newObject_ok ?_
  refine (PyM.bind_ok hc).trans ?_
  refine (PyM.bind_ok (lift_ok (massOf_known hk) _)).trans ?_
  refine (PyM.bind_ok (Hit.set_mass E _ _)).trans ?_
  refine (PyM.bind_ok (lift_ok hq' _)).trans ?_
  refine (PyM.bind_ok (Hit.set_charge_int E _ _)).trans ?_
  refine (setAll_i fun s => Hit.set_particle_number E s _ (by decide)).trans ?_
  refine (setAll_i fun s => Hit.set_event_number E s _ h2').trans ?_
  refine (setAll_i fun s => Hit.set_spill E s _ h1).trans ?_
  refine (setAll_i fun s => Hit.set_station E s _ (by decide)).trans ?_
  rw [hq]
  refine Prod.ext rfl ?_
  show HS.mk _ wc = _
  rw [hspec]
  rfl

theorem virtualToHit_ok (E : Ext K) (wc : WC K) (spill : Int) (event : Nat) (p : VHit K)
    (h1 : IsInt32 spill) (h2 : event < 2147483648) (h3 : IsInt32 p.pid) (h4 : IsInt32 p.track)
    (h5 : IsInt32 p.station) (hk : Known p.pid) :
    virtualToHit E wc spill p event = .ok (virtualHitSpec E wc spill event p) := by
  have h2' : -2147483648 ≤ (event : Int) ∧ (event : Int) < 2147483648 := by omega
  obtain ⟨q, hq, hq'⟩ := chargeOf_known (K := K) hk
  have hfirst : ∃ c : Core K, Hit.setAll E [("x", .flt p.pos.x), ("px", .flt p.mom.x),
      ("y", .flt p.pos.y), ("py", .flt p.mom.y), ("z", .flt p.pos.z), ("pz", .flt p.mom.z),
      ("pid", .int p.pid), ("t", .flt p.time)] ⟨Core.new, wc⟩ =
        (.ok (), ⟨c, wc⟩) ∧ ∃ c' : Core K, Hit.setAll E [("particle_number", .int p.track),
        ("event_number", .int event), ("spill", .int spill), ("station", .int p.station)]
        ⟨(c.setD .mass (tableMass p.pid)).setD .charge (tableCharge p.pid), wc⟩ = (.ok (), ⟨c', wc⟩) ∧
        c'.setD .energy (E.sqrt (c'.d .mass * c'.d .mass + c'.d .px * c'.d .px +
          c'.d .py * c'.d .py + c'.d .pz * c'.d .pz)) = (virtualHitSpec E wc spill event p).core := by
    refine ⟨?c, ?eq, ?rest⟩
    case eq =>
      refine (setAll_d fun s => Hit.set_x E s _).trans ?_
      refine (setAll_d fun s => Hit.set_px E s _).trans ?_
      refine (setAll_d fun s => Hit.set_y E s _).trans ?_
      refine (setAll_d fun s => Hit.set_py E s _).trans ?_
      refine (setAll_d fun s => Hit.set_z E s _).trans ?_
      refine (setAll_d fun s => Hit.set_pz E s _).trans ?_
      refine (setAll_i fun s => Hit.set_pid E s _ h3).trans ?_
      refine (setAll_d fun s => Hit.set_t E s _).trans ?_
      rfl
    refine ⟨?c', ?eq', ?rest'⟩
    case eq' =>
      refine (setAll_i fun s => Hit.set_particle_number E s _ h4).trans ?_
      refine (setAll_i fun s => Hit.set_event_number E s _ h2').trans ?_
      refine (setAll_i fun s => Hit.set_spill E s _ h1).trans ?_
      refine (setAll_i fun s => Hit.set_station E s _ h5).trans ?_
      rfl
    apply Core.ext'
    · intro v; cases v <;> rfl
    · intro v; cases v <;> rfl
  obtain ⟨c, hc, c', hc', hspec⟩ := hfirst
  rw [← hq] at hc'
  rw [virtualToHit]
  refine newObject_ok ?_
  refine (PyM.bind_ok hc).trans ?_
  refine (PyM.bind_ok (lift_ok (massOf_known hk) _)).trans ?_
  refine (PyM.bind_ok (Hit.set_mass E _ _)).trans ?_
  refine (PyM.bind_ok (lift_ok hq' _)).trans ?_
  refine (PyM.bind_ok (Hit.set_charge_int E _ _)).trans ?_
  refine (PyM.bind_ok hc').trans ?_
  refine (PyM.bind_ok (Hit.shell_energy E _)).trans ?_
  rw [PyM.pure_apply, hspec]
  rfl

/-- The pids of an event are in the tables. -/
def MausTracking.Event.known (e : Event K) : Prop :=
  Known e.primary.pid ∧ ∀ v ∈ e.virtuals.getD [], Known v.pid

/-- An event can be held in Hits. -/
def MausTracking.Event.fits (e : Event K) : Prop :=
  IsInt32 e.primary.pid ∧ ∀ v ∈ e.virtuals.getD [], IsInt32 v.pid ∧ IsInt32 v.track ∧ IsInt32 v.station

/-- What an event is converted to. -/
def eventSpec (E : Ext K) (wc : WC K) (spill : Int) (event : Nat) (e : Event K) : List (HS K) :=
  primaryHitSpec wc spill event e.primary ::
    (e.virtuals.getD []).map (virtualHitSpec E wc spill event)

theorem build_ok {α β : Type} (f : α → Except Err β) (g : α → β) : ∀ l : List α,
    (∀ a ∈ l, f a = .ok (g a)) → build (l.map f) = .ok (l.map g)
  | [], _ => rfl
  | a :: r, h => by
    rw [List.map_cons, h a (by simp), build, build_ok f g r fun b hb => h b (by simp [hb]),
      List.map_cons]

theorem build_error {α β : Type} (f : α → Except Err β) (e : Err) : ∀ l : List α,
    (∀ a ∈ l, f a = .error e ∨ ∃ b, f a = .ok b) → (∃ a ∈ l, f a = .error e) →
    build (l.map f) = .error e
  | [], _, h => by simp at h
  | a :: r, h, h' => by
    rw [List.map_cons]
    rcases h a (by simp) with ha | ⟨b, hb⟩
    · rw [ha, build]
    · obtain ⟨x, hx, hx'⟩ := h'
      rcases List.mem_cons.mp hx with rfl | hx
      · rw [hb] at hx'
        cases hx'
      · rw [hb, build, build_error f e r (fun y hy => h y (by simp [hy])) ⟨x, hx, hx'⟩]

/-- a pid that is not known stops at the mass or at the charge -/
theorem unknown_stops (E : Ext K) {pid : Int} (hk : ¬ Known pid) (s : HS K) (f : PyM (HS K) Unit) :
    ∃ s', (do
      let m ← lift (massOf (.int pid))
      Hit.set E "mass" m
      let q ← lift (chargeOf (.int pid))
      Hit.set E "charge" q
      f : PyM (HS K) Unit) s = (.error .KeyError, s') := by
  by_cases hm : (Common.pdgPidToMass.lookup |pid|).isSome
  · obtain ⟨m, hm⟩ := Option.isSome_iff_exists.mp hm
    have hmass : massOf (K := K) (.int pid) = .ok (.flt ((m : K) / 1000000000)) := by
      simp only [massOf, hm]
    have hq : Common.pdgPidToCharge.lookup pid = none := by
      cases hq : Common.pdgPidToCharge.lookup pid with
      | none => rfl
      | some q => exact absurd ⟨by simp [hm], by simp [hq]⟩ hk
    have hcharge : chargeOf (K := K) (.int pid) = .error .KeyError := by
      simp only [chargeOf, hq]
    refine ⟨?s', ?eq⟩
    case eq =>
      refine (PyM.bind_ok (lift_ok hmass _)).trans ?_
      refine (PyM.bind_ok (Hit.set_mass E _ _)).trans ?_
      rw [PyM.bind_apply, lift, hcharge]
  · have hm : Common.pdgPidToMass.lookup |pid| = none := by
      simpa only [Bool.not_eq_true, Option.isSome_eq_false_iff, Option.isNone_iff_eq_none] using hm
    have hmass : massOf (K := K) (.int pid) = .error .KeyError := by
      simp only [massOf, hm]
    exact ⟨s, by rw [PyM.bind_apply, lift, hmass]⟩

theorem primaryToHit_unknown (E : Ext K) (wc : WC K) (spill : Int) (event : Nat) (p : Primary K)
    (h3 : IsInt32 p.pid) (hk : ¬ Known p.pid) :
    primaryToHit E wc spill p event 1 = .error .KeyError := by
  have hfirst : ∃ c : Core K, Hit.setAll E [("x", .flt p.pos.x), ("px", .flt p.mom.x),
      ("y", .flt p.pos.y), ("py", .flt p.mom.y), ("z", .flt p.pos.z), ("pz", .flt p.mom.z),
      ("pid", .int p.pid), ("energy", .flt p.energy), ("t", .flt p.time)] ⟨Core.new, wc⟩ =
        (.ok (), ⟨c, wc⟩) := by
    refine ⟨?c, ?eq⟩
    case eq =>
      refine (setAll_d fun s => Hit.set_x E s _).trans ?_
      refine (setAll_d fun s => Hit.set_px E s _).trans ?_
      refine (setAll_d fun s => Hit.set_y E s _).trans ?_
      refine (setAll_d fun s => Hit.set_py E s _).trans ?_
      refine (setAll_d fun s => Hit.set_z E s _).trans ?_
      refine (setAll_d fun s => Hit.set_pz E s _).trans ?_
      refine (setAll_i fun s => Hit.set_pid E s _ h3).trans ?_
      refine (setAll_d fun s => Hit.set_energy E s _).trans ?_
      refine (setAll_d fun s => Hit.set_t E s _).trans ?_
      rfl
  obtain ⟨c, hc⟩ := hfirst
  obtain ⟨s', hs'⟩ := unknown_stops E hk (⟨c, wc⟩ : HS K)
    (Hit.setAll E [("particle_number", .int 1), ("event_number", .int event), ("spill", .int spill),
      ("station", .int (-1))])
  rw [primaryToHit, Maus.newObject, PyM.bind_ok hc, hs']

theorem virtualToHit_unknown (E : Ext K) (wc : WC K) (spill : Int) (event : Nat) (p : VHit K)
    (h3 : IsInt32 p.pid) (hk : ¬ Known p.pid) :
    virtualToHit E wc spill p event = .error .KeyError := by
  have hfirst : ∃ c : Core K, Hit.setAll E [("x", .flt p.pos.x), ("px", .flt p.mom.x),
      ("y", .flt p.pos.y), ("py", .flt p.mom.y), ("z", .flt p.pos.z), ("pz", .flt p.mom.z),
      ("pid", .int p.pid), ("t", .flt p.time)] ⟨Core.new, wc⟩ = (.ok (), ⟨c, wc⟩) := by
    refine ⟨?c, ?eq⟩
    case eq =>
      refine (setAll_d fun s => Hit.set_x E s _).trans ?_
      refine (setAll_d fun s => Hit.set_px E s _).trans ?_
      refine (setAll_d fun s => Hit.set_y E s _).trans ?_
      refine (setAll_d fun s => Hit.set_py E s _).trans ?_
      refine (setAll_d fun s => Hit.set_z E s _).trans ?_
      refine (setAll_d fun s => Hit.set_pz E s _).trans ?_
      refine (setAll_i fun s => Hit.set_pid E s _ h3).trans ?_
      refine (setAll_d fun s => Hit.set_t E s _).trans ?_
      rfl
  obtain ⟨c, hc⟩ := hfirst
  obtain ⟨s', hs'⟩ := unknown_stops E hk (⟨c, wc⟩ : HS K) (do
    Hit.setAll E [("particle_number", .int p.track), ("event_number", .int event), ("spill", .int spill),
      ("station", .int p.station)]
    let _ ← Hit.mass_shell_condition E "energy")
  rw [virtualToHit, Maus.newObject, PyM.bind_ok hc, hs']

theorem eventToHits_known (E : Ext K) (wc : WC K) (spill : Int) (event : Nat) (e : Event K)
    (h1 : IsInt32 spill) (h2 : event < 2147483648) (h3 : e.fits) (hk : e.known) :
    eventToHits E wc spill e event = .ok (eventSpec E wc spill event e) := by
  rw [eventToHits, primaryToHit_ok E wc spill event e.primary h1 h2 h3.1 hk.1]
  obtain ⟨p, vs⟩ := e
  cases vs with
  | none => rfl
  | some vs =>
    have := build_ok (fun v => virtualToHit E wc spill v event) (virtualHitSpec E wc spill event) vs (by
      intro v hv
      obtain ⟨h4, h5, h6⟩ := h3.2 v hv
      exact virtualToHit_ok E wc spill event v h1 h2 h4 h5 h6 (hk.2 v hv))
    simp only [this]
    rfl

theorem eventToHits_unknown (E : Ext K) (wc : WC K) (spill : Int) (event : Nat) (e : Event K)
    (h1 : IsInt32 spill) (h2 : event < 2147483648) (h3 : e.fits) (hk : ¬ e.known) :
    eventToHits E wc spill e event = .error .KeyError := by
  by_cases hp : Known e.primary.pid
  · have hv : ∃ v ∈ e.virtuals.getD [], ¬ Known v.pid := by
      by_contra hcon
      push Not at hcon
      exact hk ⟨hp, hcon⟩
    rw [eventToHits, primaryToHit_ok E wc spill event e.primary h1 h2 h3.1 hp]
    obtain ⟨p, vs⟩ := e
    cases vs with
    | none => simp at hv
    | some vs =>
      obtain ⟨v, hv, hv'⟩ := hv
      have := build_error (fun v => virtualToHit E wc spill v event) .KeyError vs (by
        intro v hv
        obtain ⟨h4, h5, h6⟩ := h3.2 v hv
        by_cases hk : Known v.pid
        · exact .inr ⟨_, virtualToHit_ok E wc spill event v h1 h2 h4 h5 h6 hk⟩
        · exact .inl (virtualToHit_unknown E wc spill event v h4 hk))
        ⟨v, hv, virtualToHit_unknown E wc spill event v (h3.2 v hv).1 hv'⟩
      simp only [this]
  · rw [eventToHits, primaryToHit_unknown E wc spill event e.primary h3.1 hp]

/-- The answer of MAUS can be held in Hits. -/
def Fits (events : List (Event K)) : Prop :=
  events.length < 2147483648 ∧ ∀ e ∈ events, e.fits

open Classical in
/-- C52, results: what track_many returns and leaves behind, for all hits, answers of MAUS and states.  The
answer is converted event by event, with the spill number of the object; only then it becomes `last` and
the spill number goes up by one.  If MAUS raises, or returns a particle that is not in the tables
(KeyError), only the seed changes. -/
theorem C52_track_many (E : Ext K) (wc : WC K)
    (sim : List (List (Doc K)) → List (Doc K) → Except Err (List (Event K))) (hits : List (HS K))
    (s : State K) (h1 : IsInt32 s.spill) (hf : ∀ sent docs events, sim sent docs = .ok events → Fits events) :
    trackMany E wc sim hits s =
      let docs := hits.zipIdx.map fun p => docSpec p.1 (s.seed + p.2)
      let s' : State K := { s with seed := s.seed + hits.length, sent := s.sent ++ [docs] }
      match sim s.sent docs with
      | .error e => (.error e, s')
      | .ok events =>
        if ∀ e ∈ events, e.known then
          let l := events.zipIdx.map fun p => eventSpec E wc s.spill p.2 p.1
          (.ok l, { s' with last := l, spill := s.spill + 1 })
        else (.error .KeyError, s') := by
  rw [trackMany, primaries_ok]
  simp only
  cases hs : sim s.sent (hits.zipIdx.map fun p => docSpec p.1 (s.seed + p.2)) with
  | error e => rfl
  | ok events =>
    simp only
    obtain ⟨hl, hfe⟩ := hf _ _ _ hs
    have hidx : ∀ p ∈ events.zipIdx, p.2 < 2147483648 ∧ p.1 ∈ events := by
      intro p hp
      obtain ⟨h4, h5⟩ := List.mem_zipIdx' (x := p.1) (i := p.2) hp
      exact ⟨by omega, h5 ▸ List.getElem_mem h4⟩
    by_cases hk : ∀ e ∈ events, e.known
    · rw [if_pos hk]
      have := build_ok (fun p : Event K × Nat => eventToHits E wc s.spill p.1 p.2)
        (fun p => eventSpec E wc s.spill p.2 p.1) events.zipIdx (by
        intro p hp
        obtain ⟨h2, h3⟩ := hidx p hp
        exact eventToHits_known E wc s.spill p.2 p.1 h1 h2 (hfe _ h3) (hk _ h3))
      simp only [this]
    · rw [if_neg hk]
      push Not at hk
      obtain ⟨e, he, hk⟩ := hk
      obtain ⟨n, hn, hn'⟩ := List.mem_iff_getElem.mp he
      have := build_error (fun p : Event K × Nat => eventToHits E wc s.spill p.1 p.2) .KeyError
        events.zipIdx (by
          intro p hp
          obtain ⟨h2, h3⟩ := hidx p hp
          by_cases hk : p.1.known
          · exact .inr ⟨_, eventToHits_known E wc s.spill p.2 p.1 h1 h2 (hfe _ h3) hk⟩
          · exact .inl (eventToHits_unknown E wc s.spill p.2 p.1 h1 h2 (hfe _ h3) hk))
        ⟨(e, n), by rw [← hn']; simp [List.mem_zipIdx_iff_getElem?, hn],
          eventToHits_unknown E wc s.spill n e h1 (by omega) (hfe _ he) hk⟩
      simp only [this]

/-- the hits that a call returns carry the spill number of the object, which then goes up -/
theorem call_spill (E : Ext K) (wc : WC K)
    (sim : List (List (Doc K)) → List (Doc K) → Except Err (List (Event K))) (c : Call K)
    (s : State K) (h1 : IsInt32 s.spill) (hf : ∀ sent docs events, sim sent docs = .ok events → Fits events) :
    s.spill ≤ (call E wc sim c s).2.spill ∧ (call E wc sim c s).2.spill ≤ s.spill + 1 ∧
    ∀ l : List (List (HS K)), (call E wc sim c s).1 = .ok l → (call E wc sim c s).2.spill = s.spill + 1 ∧
      ∀ (n : Nat) (x : List (HS K)), l[n]? = some x → ∀ h ∈ x, h.core.i .spill = s.spill ∧ h.core.i .event = n := by
  have hmany : ∀ hs, s.spill ≤ (trackMany E wc sim hs s).2.spill ∧
      (trackMany E wc sim hs s).2.spill ≤ s.spill + 1 ∧
      ∀ l : List (List (HS K)), (trackMany E wc sim hs s).1 = .ok l → (trackMany E wc sim hs s).2.spill = s.spill + 1 ∧
        ∀ (n : Nat) (x : List (HS K)), l[n]? = some x → ∀ h ∈ x, h.core.i .spill = s.spill ∧ h.core.i .event = n := by
    intro hs
    rw [C52_track_many E wc sim hs s h1 hf]
    simp only
    split
    · refine ⟨le_refl _, by simp, ?_⟩
      intro l hl
      cases hl
    · split
      · refine ⟨by simp, le_refl _, ?_⟩
        intro l hl
        refine ⟨rfl, ?_⟩
        simp only [Except.ok.injEq] at hl
        subst hl
        intro n x hx h hh
        simp only [List.getElem?_map, List.getElem?_zipIdx, Option.map_map, Option.map_eq_some_iff,
          Function.comp_apply, Nat.zero_add] at hx
        obtain ⟨e, _, rfl⟩ := hx
        simp only [eventSpec, List.mem_cons, List.mem_map] at hh
        rcases hh with rfl | ⟨v, _, rfl⟩
        · exact ⟨rfl, rfl⟩
        · exact ⟨rfl, rfl⟩
      · refine ⟨le_refl _, by simp, ?_⟩
        intro l hl
        cases hl
  cases c with
  | many hs => exact hmany hs
  | one h =>
    have := hmany [h]
    simp only [call, trackOne]
    revert this
    generalize trackMany E wc sim [h] s = r
    intro this
    rcases r with ⟨e | l, s'⟩
    · refine ⟨this.1, this.2.1, ?_⟩
      intro l hl
      cases hl
    · rcases l with _ | ⟨l, r⟩
      · refine ⟨this.1, this.2.1, ?_⟩
        intro l hl
        cases hl
      · refine ⟨this.1, this.2.1, ?_⟩
        intro l' hl
        simp only [Except.ok.injEq] at hl
        subst hl
        obtain ⟨h2, h3⟩ := this.2.2 _ rfl
        refine ⟨h2, ?_⟩
        intro n x hx
        have hn : n = 0 := by
          by_contra hn
          rw [List.getElem?_eq_none (by simp; omega)] at hx
          cases hx
        subst hn
        exact h3 0 x (by simpa using hx)

/-- C52, spill numbers: through any history of less than 2^31 calls on one object, whether they raise or
not and whatever MAUS answers, all hits that a call returns have larger spill numbers than all hits that
earlier calls returned; and the event number of a hit is the position of its list. -/
theorem C52_spills (E : Ext K) (wc : WC K)
    (sim : List (List (Doc K)) → List (Doc K) → Except Err (List (Event K)))
    (hf : ∀ sent docs events, sim sent docs = .ok events → Fits events) (seed : Int)
    (calls : List (Call K)) (hlen : calls.length < 2147483648) :
    let rs := (run E wc sim calls (init seed)).1
    rs.length = calls.length ∧
    rs.Pairwise (fun a b => ∀ l l' : List (List (HS K)), a = .ok l → b = .ok l' → ∀ h ∈ l.flatten, ∀ h' ∈ l'.flatten,
      h.core.i .spill < h'.core.i .spill) ∧
    ∀ r ∈ rs, ∀ l : List (List (HS K)), r = .ok l → ∀ (n : Nat) (x : List (HS K)), l[n]? = some x → ∀ h ∈ x, h.core.i .event = n := by
  have key : ∀ (calls : List (Call K)) (s : State K), 0 ≤ s.spill →
      s.spill + calls.length < 2147483648 →
      (run E wc sim calls s).1.length = calls.length ∧
      (run E wc sim calls s).1.Pairwise (fun a b => ∀ l l' : List (List (HS K)), a = .ok l → b = .ok l' →
        ∀ h ∈ l.flatten, ∀ h' ∈ l'.flatten, h.core.i .spill < h'.core.i .spill) ∧
      (∀ r ∈ (run E wc sim calls s).1, ∀ l : List (List (HS K)), r = .ok l → ∀ (n : Nat) (x : List (HS K)), l[n]? = some x → ∀ h ∈ x,
        h.core.i .event = n) ∧
      ∀ r ∈ (run E wc sim calls s).1, ∀ l : List (List (HS K)), r = .ok l → ∀ h ∈ l.flatten, s.spill ≤ h.core.i .spill := by
    intro calls
    induction calls with
    | nil => intro s _ _; simp [run]
    | cons c r ih =>
      intro s h0 hlen
      simp only [List.length_cons, Nat.cast_add, Nat.cast_one] at hlen
      obtain ⟨h1, h2, h3⟩ := call_spill E wc sim c s (by unfold IsInt32; omega) hf
      obtain ⟨h4, h5, h6, h7⟩ := ih (call E wc sim c s).2 (by omega) (by omega)
      have hrun : (run E wc sim (c :: r) s).1 =
        (call E wc sim c s).1 :: (run E wc sim r (call E wc sim c s).2).1 := rfl
      have hmem : ∀ l : List (List (HS K)), ∀ h ∈ l.flatten, ∃ (n : Nat) (x : List (HS K)), l[n]? = some x ∧ h ∈ x := by
        intro l h hh
        obtain ⟨x, hx, hx'⟩ := List.mem_flatten.mp hh
        obtain ⟨n, hn⟩ := List.mem_iff_getElem?.mp hx
        exact ⟨n, x, hn, hx'⟩
      rw [hrun]
      refine ⟨by simp [h4], List.pairwise_cons.mpr ⟨?_, h5⟩, ?_, ?_⟩
      · intro b hb l l' hl hl' h hh h' hh'
        obtain ⟨n, x, hx, hx'⟩ := hmem l h hh
        obtain ⟨h8, h9⟩ := h3 l hl
        have := (h9 n x hx h hx').1
        have := h7 b hb l' hl' h' hh'
        omega
      · intro b hb l hl n x hx h hh
        rcases List.mem_cons.mp hb with rfl | hb
        · exact ((h3 l hl).2 n x hx h hh).2
        · exact h6 b hb l hl n x hx h hh
      · intro b hb l hl h hh
        rcases List.mem_cons.mp hb with rfl | hb
        · obtain ⟨n, x, hx, hx'⟩ := hmem l h hh
          have := ((h3 l hl).2 n x hx h hx').1
          omega
        · have := h7 b hb l hl h hh
          omega
  obtain ⟨h1, h2, h3, _⟩ := key calls (init seed) (le_refl _) (by simp only [init]; omega)
  exact ⟨h1, h2, h3⟩

-- a simulation that returns each particle at one station further on, and fails if there are none
example : ∃ sim : List (List (Doc ℝ)) → List (Doc ℝ) → Except Err (List (Event ℝ)),
    (∀ sent docs events, sim sent docs = .ok events → Fits events) ∧
    (∃ docs e, sim [] docs = .ok [e] ∧ e.known ∧ e.virtuals.isSome) ∧
    sim [] [] = .error .RuntimeError := by
  refine ⟨fun _ docs => if docs = [] then .error .RuntimeError else .ok ((docs.take 1000).map fun d =>
    ⟨⟨d.pos, d.mom, -13, d.energy, d.time⟩, some [⟨d.pos, d.mom, -13, d.time, 1, 2⟩]⟩), ?_, ?_, by simp⟩
  · intro sent docs events h
    simp only at h
    split at h
    · cases h
    · simp only [Except.ok.injEq] at h
      subst h
      refine ⟨by simp only [List.length_map, List.length_take]; omega, ?_⟩
      intro e he
      obtain ⟨d, _, rfl⟩ := List.mem_map.mp he
      simp [MausTracking.Event.fits, IsInt32]
  · refine ⟨[⟨⟨1, 2, 3⟩, ⟨10, 20, 200⟩, -13, 226, 5, 0⟩], _, rfl, ?_, rfl⟩
    have h : Known (-13) := by decide +kernel
    simp [MausTracking.Event.known, h]

end Xboa
