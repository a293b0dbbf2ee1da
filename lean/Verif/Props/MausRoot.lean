import Verif.Model.MausRoot
import Verif.Props.MausRead
import Verif.Props.Tune
import Verif.Props.TextIO
import Verif.Props.MassShell
/-!
C53 (station numbers of track points), C69 (primaries), C70 (virtual hits and steps) and C71
(reconstructed tracks) of MAUS ROOT files.
-/
set_option linter.unusedSectionVars false
namespace Xboa
open Root
variable {K : Type} [Field K] [LinearOrder K] [IsStrictOrderedRing K]

/-- A C int. -/
def IsInt32 (n : Int) : Prop := -2147483648 ≤ n ∧ n < 2147483648

/-- The hits with `test_function(hit) == True`, and the first `number` of them if it is not negative. -/
def Root.select (test : Option (HS K → Bool)) (number : Int) (hs : List (HS K)) : List (HS K) :=
  let l := hs.filter fun h => test.all fun f => f h
  if number < 0 then l else l.take number.toNat

theorem collect_ok {α : Type} (f : α → Except Err (HS K)) (g : α → HS K) : ∀ l : List α,
    (∀ a ∈ l, f a = .ok (g a)) → collect (l.map f) = (.ok (), l.map g)
  | [], _ => rfl
  | a :: r, h => by
    rw [List.map_cons, h a (by simp), collect, collect_ok f g r fun b hb => h b (by simp [hb]),
      List.map_cons]

theorem PyM.bind_ok {σ α β : Type} {m : PyM σ α} {f : α → PyM σ β} {s s' : σ} {a : α}
    (h : m s = (.ok a, s')) : (m >>= f) s = f a s' := by
  rw [PyM.bind_apply, h]

theorem newObject_ok {m : PyM (HS K) Unit} {s s' : HS K} (h : m s = (.ok (), s')) :
    Maus.newObject m s = .ok s' := by
  rw [Maus.newObject, h]

theorem test_filter (test : Option (HS K → Bool)) (hs : List (HS K)) :
    passing test hs = hs.filter fun h => test.all fun f => f h := by
  cases test with
  | none => simp [passing]
  | some f => simp [passing]

/-- reading one type when all spills can be read -/
theorem readKind_ok (read : Spill K → Except Err Unit × List (HS K)) (test : Option (HS K → Bool))
    (number : Int) (f : Spill K → List (HS K)) : ∀ (tree : List (Spill K)) (acc : List (HS K)),
    (∀ s ∈ tree, read s = (.ok (), f s)) → (0 ≤ number → acc.length ≤ number.toNat) →
    readKind read test number tree acc = .ok (if number < 0
      then acc ++ (tree.flatMap f).filter (fun h => test.all fun t => t h)
      else (acc ++ (tree.flatMap f).filter (fun h => test.all fun t => t h)).take number.toNat)
  | [], acc, _, hn => by
    rw [readKind]
    split
    · simp
    · simp [List.take_of_length_le (hn (by omega))]
  | s :: r, acc, hl, hn => by
    rw [readKind]
    by_cases hneg : number < 0
    · have ih := readKind_ok read test number f r
        (acc ++ (f s).filter (fun h => test.all fun t => t h))
        (fun x hx => hl x (by simp [hx])) (by omega)
      simp only [hneg, true_or, if_true, hl s (by simp), test_filter]
      simp only [hneg, if_true] at ih
      rw [ih, List.flatMap_cons, List.filter_append, List.append_assoc]
    · by_cases hlt : (acc.length : Int) < number
      · have ih := readKind_ok read test number f r
          ((acc ++ (f s).filter (fun h => test.all fun t => t h)).take number.toNat)
          (fun x hx => hl x (by simp [hx])) (fun _ => by rw [List.length_take]; omega)
        simp only [hneg, hlt, or_true, if_true, hl s (by simp), if_false, test_filter]
        simp only [hneg, if_false] at ih
        rw [ih, List.flatMap_cons, List.filter_append, ← List.append_assoc]
        congr 1
        rw [List.take_append, List.take_take, Nat.min_self]
        conv_rhs => rw [List.take_append]
        congr 2
        rw [List.length_take]
        omega
      · have hlen : acc.length = number.toNat := by
          have := hn (by omega)
          omega
        simp only [hneg, hlt, or_false, if_false]
        rw [← hlen, List.take_left']
        rfl

theorem readMausRoot_one (pep479 : Bool) (E : Ext K) (wc : WC K) (cut : K) (k : Kind)
    (test : Option (HS K → Bool)) (number : Int) (tree : List (Spill K)) (f : Spill K → List (HS K))
    (h : ∀ s ∈ tree, readSpill pep479 E wc cut k s = (.ok (), f s)) :
    readMausRoot pep479 E wc cut (some [k]) test number tree =
      .ok (select test number (tree.flatMap f)) := by
  rw [readMausRoot, Option.getD_some, readKinds, readKind_ok _ test number f tree [] h (by simp)]
  simp only [List.nil_append, readKinds, select]

/-! ### C70 -/

/-- What a virtual hit is read as. -/
def virtualSpec (E : Ext K) (wc : WC K) (spill : Int) (event : Nat) (v : Virtual K) : HS K :=
  ⟨⟨fun
    | .x => v.pos.x | .y => v.pos.y | .z => v.pos.z | .t => v.time
    | .px => v.mom.x | .py => v.mom.y | .pz => v.mom.z
    | .bx => v.b.x | .by => v.b.y | .bz => v.b.z | .ex => v.e.x | .ey => v.e.y | .ez => v.e.z
    | .energy => E.sqrt (v.mass * v.mass + v.mom.x * v.mom.x + v.mom.y * v.mom.y + v.mom.z * v.mom.z)
    | .mass => v.mass | .charge => v.charge
    | .proper_time => v.properTime | .path_length => v.pathLength
    | .local_weight => 1
    | .sx | .sy | .sz | .e_dep => 0,
   fun
    | .spill => spill | .event => event | .particle => v.track | .station => v.station
    | .pid => v.pid | .status => 0⟩, wc⟩

theorem virtualHit_ok (E : Ext K) (wc : WC K) (spill : Int) (event : Nat) (v : Virtual K)
    (h1 : IsInt32 spill) (h2 : event < 2147483648) (h3 : IsInt32 v.pid) (h4 : IsInt32 v.station)
    (h5 : IsInt32 v.track) : virtualHit E wc spill event v = .ok (virtualSpec E wc spill event v) := by
  have h2' : -2147483648 ≤ (event : Int) ∧ (event : Int) < 2147483648 := by omega
  have hs : ∃ c : Core K, Hit.setAll E (virtualVars spill event v) ⟨Core.new, wc⟩ = (.ok (), ⟨c, wc⟩) ∧
      c.setD .energy (E.sqrt (c.d .mass * c.d .mass + c.d .px * c.d .px +
        c.d .py * c.d .py + c.d .pz * c.d .pz)) = (virtualSpec E wc spill event v).core := by
    refine ⟨?c, ?eq, ?rest⟩
    case eq =>
      unfold virtualVars
      refine (setAll_d fun s => Hit.set_x E s _).trans ?_
      refine (setAll_d fun s => Hit.set_y E s _).trans ?_
      refine (setAll_d fun s => Hit.set_z E s _).trans ?_
      refine (setAll_d fun s => Hit.set_px E s _).trans ?_
      refine (setAll_d fun s => Hit.set_py E s _).trans ?_
      refine (setAll_d fun s => Hit.set_pz E s _).trans ?_
      refine (setAll_d fun s => Hit.set_bx E s _).trans ?_
      refine (setAll_d fun s => Hit.set_by E s _).trans ?_
      refine (setAll_d fun s => Hit.set_bz E s _).trans ?_
      refine (setAll_d fun s => Hit.set_ex E s _).trans ?_
      refine (setAll_d fun s => Hit.set_ey E s _).trans ?_
      refine (setAll_d fun s => Hit.set_ez E s _).trans ?_
      refine (setAll_i fun s => Hit.set_pid E s _ h3).trans ?_
      refine (setAll_i fun s => Hit.set_station E s _ h4).trans ?_
      refine (setAll_i fun s => Hit.set_particle_number E s _ h5).trans ?_
      refine (setAll_d fun s => Hit.set_t E s _).trans ?_
      refine (setAll_d fun s => Hit.set_mass E s _).trans ?_
      refine (setAll_d fun s => Hit.set_charge E s _).trans ?_
      refine (setAll_d fun s => Hit.set_proper_time E s _).trans ?_
      refine (setAll_d fun s => Hit.set_path_length E s _).trans ?_
      refine (setAll_i fun s => Hit.set_spill E s _ h1).trans ?_
      refine (setAll_i fun s => Hit.set_event_number E s _ h2').trans ?_
      rfl
    apply Core.ext'
    · intro v; cases v <;> rfl
    · intro v; cases v <;> rfl
  obtain ⟨c, hc, he⟩ := hs
  rw [virtualHit, Maus.newObject, PyM.bind_apply, hc]
  simp only [PyM.bind_apply, Hit.shell_energy, PyM.pure_apply]
  rw [he]
  rfl

/-- The virtual hits in a file can be held in a Hit. -/
def VirtualsFit (tree : List (Spill K)) : Prop :=
  ∀ s ∈ tree, IsInt32 s.number ∧ s.mcEvents.length < 2147483648 ∧ ∀ e ∈ s.mcEvents, ∀ v ∈ e.virtuals,
    IsInt32 v.pid ∧ IsInt32 v.station ∧ IsInt32 v.track

/-- C70, virtual hits: for all files, test functions and numbers of hits, read_maus_root_file returns
every virtual hit of every event of every spill, in order, that passes the test (the first `number` of
them); the hit holds the data of the virtual hit, the number of the spill, the position of the event in
the spill, and energy = sqrt(mass² + p²). -/
theorem C70_virtual_hits (pep479 : Bool) (E : Ext K) (wc : WC K) (cut : K)
    (test : Option (HS K → Bool)) (number : Int) (tree : List (Spill K)) (hf : VirtualsFit tree) :
    readMausRoot pep479 E wc cut (some [.virtualHit]) test number tree =
      .ok (select test number (tree.flatMap fun s => s.mcEvents.zipIdx.flatMap fun ev =>
        ev.1.virtuals.map (virtualSpec E wc s.number ev.2))) := by
  apply readMausRoot_one
  intro s hs
  obtain ⟨h1, h2, h3⟩ := hf s hs
  have hidx : ∀ p ∈ s.mcEvents.zipIdx, p.1 ∈ s.mcEvents ∧ p.2 < 2147483648 := by
    intro p hp
    obtain ⟨h4, h5⟩ := List.mem_zipIdx' (x := p.1) (i := p.2) hp
    exact ⟨h5 ▸ List.getElem_mem h4, by omega⟩
  have key := collect_ok (fun q : Nat × Virtual K => virtualHit E wc s.number q.1 q.2)
    (fun q => virtualSpec E wc s.number q.1 q.2)
    (s.mcEvents.zipIdx.flatMap fun ev => ev.1.virtuals.map fun v => (ev.2, v)) (by
      intro q hq
      simp only [List.mem_flatMap, List.mem_map] at hq
      obtain ⟨ev, hev, v, hv, rfl⟩ := hq
      obtain ⟨h4, h5⟩ := hidx ev hev
      obtain ⟨h6, h7, h8⟩ := h3 _ h4 v hv
      exact virtualHit_ok E wc s.number ev.2 v h1 h5 h6 h7 h8)
  rw [List.map_flatMap, List.map_flatMap] at key
  simpa only [List.map_map, Function.comp_def, readSpill, readVirtualHits] using key

/-- What a step is read as. -/
def stepSpec (E : Ext K) (wc : WC K) (spill : Int) (event : Nat) (t : Track K) (i : Nat) (s : Step K)
    (mass charge : K) : HS K :=
  ⟨⟨fun
    | .x => s.pos.x | .y => s.pos.y | .z => s.pos.z | .t => s.time
    | .px => s.mom.x | .py => s.mom.y | .pz => s.mom.z
    | .bx => s.b.x | .by => s.b.y | .bz => s.b.z | .ex => s.e.x | .ey => s.e.y | .ez => s.e.z
    | .sx => s.spin.x | .sy => s.spin.y | .sz => s.spin.z
    | .energy => E.sqrt (mass * mass + s.mom.x * s.mom.x + s.mom.y * s.mom.y + s.mom.z * s.mom.z)
    | .mass => mass | .charge => charge
    | .proper_time => s.properTime | .path_length => s.pathLength
    | .local_weight => 1
    | .e_dep => 0,
   fun
    | .spill => spill | .event => event | .particle => t.id | .station => i
    | .pid => t.pid | .status => 0⟩, wc⟩

theorem Hit.set_charge_int (E : Ext K) (s : HS K) (n : Int) :
    Hit.set E "charge" (.int n) s = (.ok (), { s with core := s.core.setD .charge n }) := rfl

theorem stepHit_ok (E : Ext K) (wc : WC K) (spill : Int) (event : Nat) (t : Track K) (i : Nat)
    (s : Step K) (h1 : IsInt32 spill) (h2 : event < 2147483648) (h3 : IsInt32 t.pid)
    (h4 : i < 2147483648) (h5 : IsInt32 t.id) (m : Nat) (q : Int)
    (hm : Common.pdgPidToMass.lookup |t.pid| = some m)
    (hq : Common.pdgPidToCharge.lookup t.pid = some q) :
    stepHit E wc spill event t i s =
      .ok (stepSpec E wc spill event t i s ((m : K) / 1000000000) q) := by
  have h2' : -2147483648 ≤ (event : Int) ∧ (event : Int) < 2147483648 := by omega
  have h4' : -2147483648 ≤ (i : Int) ∧ (i : Int) < 2147483648 := by omega
  have hs : ∃ c : Core K, Hit.setAll E (stepVars t i s) ⟨Core.new, wc⟩ = (.ok (), ⟨c, wc⟩) ∧
      c.i .pid = t.pid ∧ ∀ m q, ∃ c' : Core K, Hit.setAll E [("proper_time", .flt s.properTime),
        ("path_length", .flt s.pathLength), ("spill", .int spill), ("event_number", .int event)]
        ⟨(c.setD .mass m).setD .charge q, wc⟩ = (.ok (), ⟨c', wc⟩) ∧
        c'.setD .energy (E.sqrt (c'.d .mass * c'.d .mass + c'.d .px * c'.d .px +
          c'.d .py * c'.d .py + c'.d .pz * c'.d .pz)) =
          (stepSpec E wc spill event t i s m q).core := by
    refine ⟨?c, ?eq, ?rest⟩
    case eq =>
      unfold stepVars
      refine (setAll_d fun s => Hit.set_x E s _).trans ?_
      refine (setAll_d fun s => Hit.set_y E s _).trans ?_
      refine (setAll_d fun s => Hit.set_z E s _).trans ?_
      refine (setAll_d fun s => Hit.set_t E s _).trans ?_
      refine (setAll_d fun s => Hit.set_px E s _).trans ?_
      refine (setAll_d fun s => Hit.set_py E s _).trans ?_
      refine (setAll_d fun s => Hit.set_pz E s _).trans ?_
      refine (setAll_d fun s => Hit.set_bx E s _).trans ?_
      refine (setAll_d fun s => Hit.set_by E s _).trans ?_
      refine (setAll_d fun s => Hit.set_bz E s _).trans ?_
      refine (setAll_d fun s => Hit.set_ex E s _).trans ?_
      refine (setAll_d fun s => Hit.set_ey E s _).trans ?_
      refine (setAll_d fun s => Hit.set_ez E s _).trans ?_
      refine (setAll_d fun s => Hit.set_sx E s _).trans ?_
      refine (setAll_d fun s => Hit.set_sy E s _).trans ?_
      refine (setAll_d fun s => Hit.set_sz E s _).trans ?_
      refine (setAll_i fun s => Hit.set_station E s _ h4').trans ?_
      refine (setAll_i fun s => Hit.set_pid E s _ h3).trans ?_
      refine (setAll_i fun s => Hit.set_particle_number E s _ h5).trans ?_
      rfl
    refine ⟨rfl, fun m q => ⟨?c', ?eq', ?rest'⟩⟩
    case eq' =>
      refine (setAll_d fun s => Hit.set_proper_time E s _).trans ?_
      refine (setAll_d fun s => Hit.set_path_length E s _).trans ?_
      refine (setAll_i fun s => Hit.set_spill E s _ h1).trans ?_
      refine (setAll_i fun s => Hit.set_event_number E s _ h2').trans ?_
      rfl
    apply Core.ext'
    · intro v; cases v <;> rfl
    · intro v; cases v <;> rfl
  obtain ⟨c, hc, hpid, hc'⟩ := hs
  obtain ⟨c', h6, h7⟩ := hc' ((m : K) / 1000000000) q
  have hmass : massOf (K := K) (.int (c.i .pid)) = .ok (.flt ((m : K) / 1000000000)) := by
    simp only [massOf, hpid, hm]
  have hcharge : chargeOf (K := K) (.int (c.i .pid)) = .ok (.int q) := by
    simp only [chargeOf, hpid, hq]
  have hpid' : (c.setD .mass ((m : K) / 1000000000)).i .pid = c.i .pid := rfl
  have hlift : ∀ (x : PyVal K) (e : Except Err (PyVal K)) (s : HS K), e = .ok x →
      lift e s = (.ok x, s) := fun x e s h => by rw [lift, h]
  rw [stepHit]
  refine newObject_ok ?_
  refine (PyM.bind_ok hc).trans ?_
  refine (PyM.bind_ok (Hit.get_pid E _)).trans ?_
  refine (PyM.bind_ok (hlift _ _ _ hmass)).trans ?_
  refine (PyM.bind_ok (Hit.set_mass E _ _)).trans ?_
  refine (PyM.bind_ok (Hit.get_pid E _)).trans ?_
  refine (PyM.bind_ok (hlift _ _ _ hcharge)).trans ?_
  refine (PyM.bind_ok (Hit.set_charge_int E _ _)).trans ?_
  refine (PyM.bind_ok h6).trans ?_
  refine (PyM.bind_ok (Hit.shell_energy E _)).trans ?_
  rw [PyM.pure_apply, h7]
  rfl

/-- The steps in a file can be held in a Hit, and the tables have the masses and charges. -/
def StepsFit (tree : List (Spill K)) : Prop :=
  ∀ s ∈ tree, IsInt32 s.number ∧ s.mcEvents.length < 2147483648 ∧ ∀ e ∈ s.mcEvents, ∀ t ∈ e.tracks,
    IsInt32 t.pid ∧ IsInt32 t.id ∧ t.steps.length < 2147483648 ∧
    (Common.pdgPidToMass.lookup |t.pid|).isSome ∧ (Common.pdgPidToCharge.lookup t.pid).isSome

/-- C70, steps: for all files whose particles are in the tables, every step of every track is read, in
order; `station` is the position of the step in the track, mass and charge are those of the tables. -/
theorem C70_steps_partial (pep479 : Bool) (E : Ext K) (wc : WC K) (cut : K)
    (test : Option (HS K → Bool)) (number : Int) (tree : List (Spill K)) (hf : StepsFit tree) :
    readMausRoot pep479 E wc cut (some [.step]) test number tree =
      .ok (select test number (tree.flatMap fun s => s.mcEvents.zipIdx.flatMap fun ev =>
        ev.1.tracks.flatMap fun t => t.steps.zipIdx.map fun p =>
          stepSpec E wc s.number ev.2 t p.2 p.1 (tableMass t.pid) (tableCharge t.pid))) := by
  apply readMausRoot_one
  intro s hs
  obtain ⟨h1, h2, h3⟩ := hf s hs
  have key := collect_ok
    (fun q : Nat × Track K × Step K × Nat => stepHit E wc s.number q.1 q.2.1 q.2.2.2 q.2.2.1)
    (fun q => stepSpec E wc s.number q.1 q.2.1 q.2.2.2 q.2.2.1 (tableMass q.2.1.pid)
      (tableCharge q.2.1.pid))
    (s.mcEvents.zipIdx.flatMap fun ev => ev.1.tracks.flatMap fun t => t.steps.zipIdx.map
      fun p => (ev.2, t, p)) (by
      intro q hq
      simp only [List.mem_flatMap, List.mem_map] at hq
      obtain ⟨ev, hev, t, ht, p, hp, rfl⟩ := hq
      obtain ⟨h4, h5⟩ := List.mem_zipIdx' (x := ev.1) (i := ev.2) hev
      obtain ⟨h6, h7⟩ := List.mem_zipIdx' (x := p.1) (i := p.2) hp
      obtain ⟨h8, h9, h10, h11, h12⟩ := h3 ev.1 (h5 ▸ List.getElem_mem h4) t ht
      obtain ⟨m, hm⟩ := Option.isSome_iff_exists.mp h11
      obtain ⟨q, hq⟩ := Option.isSome_iff_exists.mp h12
      have := stepHit_ok E wc s.number ev.2 t p.2 p.1 h1 (by omega) h8 (by omega) h9 m q hm hq
      simpa only [tableMass, tableCharge, hm, hq, Option.getD_some] using this)
  rw [List.map_flatMap, List.map_flatMap] at key
  simpa only [List.map_map, List.map_flatMap, Function.comp_def, readSpill, readSteps] using key

/-- C70_steps_false: a file with a step of a particle that is not in the table of masses cannot be read: KeyError,
whatever else is in the file. -/
theorem C70_steps_false (pep479 : Bool) (E : Ext K) (wc : WC K) (cut : K)
    (test : Option (HS K → Bool)) (number : Int) (hn : number ≠ 0) (spill : Int) (t : Track K)
    (s : Step K) (ss : List (Step K)) (h3 : IsInt32 t.pid) (h5 : IsInt32 t.id)
    (hs : t.steps = s :: ss) (hpid : Common.pdgPidToMass.lookup |t.pid| = none)
    (vs : List (Virtual K)) (ts : List (Track K)) (p : Primary K) (es : List (MCEvent K))
    (rs : List (ReconEvent K)) (rest : List (Spill K)) :
    readMausRoot pep479 E wc cut (some [.step]) test number
      (⟨spill, ⟨vs, t :: ts, p⟩ :: es, rs⟩ :: rest) = .error .KeyError := by
  have hc : ∃ c : Core K, Hit.setAll E (stepVars t 0 s) ⟨Core.new, wc⟩ = (.ok (), ⟨c, wc⟩) ∧
      c.i .pid = t.pid := by
    refine ⟨?c, ?eq, ?rest⟩
    case eq =>
      unfold stepVars
      refine (setAll_d fun s => Hit.set_x E s _).trans ?_
      refine (setAll_d fun s => Hit.set_y E s _).trans ?_
      refine (setAll_d fun s => Hit.set_z E s _).trans ?_
      refine (setAll_d fun s => Hit.set_t E s _).trans ?_
      refine (setAll_d fun s => Hit.set_px E s _).trans ?_
      refine (setAll_d fun s => Hit.set_py E s _).trans ?_
      refine (setAll_d fun s => Hit.set_pz E s _).trans ?_
      refine (setAll_d fun s => Hit.set_bx E s _).trans ?_
      refine (setAll_d fun s => Hit.set_by E s _).trans ?_
      refine (setAll_d fun s => Hit.set_bz E s _).trans ?_
      refine (setAll_d fun s => Hit.set_ex E s _).trans ?_
      refine (setAll_d fun s => Hit.set_ey E s _).trans ?_
      refine (setAll_d fun s => Hit.set_ez E s _).trans ?_
      refine (setAll_d fun s => Hit.set_sx E s _).trans ?_
      refine (setAll_d fun s => Hit.set_sy E s _).trans ?_
      refine (setAll_d fun s => Hit.set_sz E s _).trans ?_
      refine (setAll_i fun s => Hit.set_station E s _ (by decide)).trans ?_
      refine (setAll_i fun s => Hit.set_pid E s _ h3).trans ?_
      refine (setAll_i fun s => Hit.set_particle_number E s _ h5).trans ?_
      rfl
    rfl
  obtain ⟨c, hc, hp⟩ := hc
  have hmass : massOf (K := K) (.int (c.i .pid)) = .error .KeyError := by
    simp only [massOf, hp, hpid]
  have h1 : stepHit E wc spill 0 t 0 s = .error .KeyError := by
    rw [stepHit, Maus.newObject, PyM.bind_ok hc, PyM.bind_ok (Hit.get_pid E _), PyM.bind_apply, lift,
      hmass]
  have hcond : number < 0 ∨ (([] : List (HS K)).length : Int) < number := by
    simp only [List.length_nil, Int.natCast_zero]
    omega
  simp only [readMausRoot, Option.getD_some, readKinds, readKind, hcond, if_true, readSpill, readSteps,
    List.zipIdx_cons, List.flatMap_cons, hs, List.map_cons, List.cons_append, h1, collect]

/-! ### C69 -/

/-- What a primary is read as: `p` is the factor by which the momentum is scaled, `pz` the z component
before that. -/
def primarySpec (wc : WC K) (spill : Int) (event : Nat) (p : Primary K) (charge k pz : K) : HS K :=
  ⟨⟨fun
    | .x => p.pos.x | .y => p.pos.y | .z => p.pos.z | .t => p.time
    | .px => p.mom.x * k | .py => p.mom.y * k | .pz => pz * k
    | .energy => p.energy
    | .mass => tableMass p.pid | .charge => charge
    | .local_weight => 1
    | .bx | .by | .bz | .ex | .ey | .ez | .sx | .sy | .sz | .proper_time | .path_length | .e_dep => 0,
   fun
    | .spill => spill | .event => event | .particle => 0 | .station => 0
    | .pid => p.pid | .status => 0⟩, wc⟩

theorem primary_before (E : Ext K) (wc : WC K) (spill : Int) (event : Nat) (p : Primary K)
    (h1 : IsInt32 spill) (h2 : event < 2147483648) (h3 : IsInt32 p.pid)
    (r : Except Err Unit) (s' : HS K)
    (hr : (do let _ ← Hit.mass_shell_condition E "p" : PyM (HS K) Unit)
      (primarySpec wc spill event p 0 1 p.mom.z) = (r, s')) :
    primaryHit E wc spill event p = match r with
      | .error e => .error e
      | .ok _ => .ok s' := by
  have h2' : -2147483648 ≤ (event : Int) ∧ (event : Int) < 2147483648 := by omega
  have hc : ∃ c : Core K, Hit.setAll E (primaryVars spill event p) ⟨Core.new, wc⟩ = (.ok (), ⟨c, wc⟩) ∧
      c.i .pid = p.pid ∧ c.d .charge = 0 ∧
      (c.setD .mass (tableMass p.pid)).setD .charge 0 = (primarySpec wc spill event p 0 1 p.mom.z).core := by
    refine ⟨?c, ?eq, ?rest⟩
    case eq =>
      unfold primaryVars
      refine (setAll_d fun s => Hit.set_x E s _).trans ?_
      refine (setAll_d fun s => Hit.set_y E s _).trans ?_
      refine (setAll_d fun s => Hit.set_z E s _).trans ?_
      refine (setAll_d fun s => Hit.set_px E s _).trans ?_
      refine (setAll_d fun s => Hit.set_py E s _).trans ?_
      refine (setAll_d fun s => Hit.set_pz E s _).trans ?_
      refine (setAll_i fun s => Hit.set_pid E s _ h3).trans ?_
      refine (setAll_d fun s => Hit.set_energy E s _).trans ?_
      refine (setAll_i fun s => Hit.set_spill E s _ h1).trans ?_
      refine (setAll_i fun s => Hit.set_event_number E s _ h2').trans ?_
      refine (setAll_d fun s => Hit.set_t E s _).trans ?_
      rfl
    refine ⟨rfl, rfl, ?_⟩
    apply Core.ext'
    · intro v
      cases v <;> first | rfl | exact (mul_one _).symm
    · intro v; cases v <;> rfl
  obtain ⟨c, hc, hpid, hq, he⟩ := hc
  have hmass : orZero (massOf (K := K) (.int (c.i .pid))) = .ok (.flt (tableMass p.pid)) := by
    simp only [massOf, hpid, tableMass]
    cases Common.pdgPidToMass.lookup |p.pid| with
    | none => simp [orZero]
    | some m => simp [orZero]
  have hcharge : orZero (chargeOf (K := K) (.flt (c.d .charge))) = .ok (.int 0) := by
    rw [hq]
    simp [chargeOf, Common.pdgPidToCharge, orZero]
  have hlift : ∀ (x : PyVal K) (e : Except Err (PyVal K)) (s : HS K), e = .ok x →
      lift e s = (.ok x, s) := fun x e s h => by rw [lift, h]
  have hrun : (do
    Hit.setAll E (primaryVars spill event p)
    let pid ← Hit.get E "pid"
    let m ← lift (orZero (massOf pid))
    Hit.set E "mass" m
    let charge ← Hit.get E "charge"
    let q ← lift (orZero (chargeOf charge))
    Hit.set E "charge" q
    let _ ← Hit.mass_shell_condition E "p" : PyM (HS K) Unit) ⟨Core.new, wc⟩ = (r, s') := by
    refine (PyM.bind_ok hc).trans ?_
    refine (PyM.bind_ok (Hit.get_pid E _)).trans ?_
    refine (PyM.bind_ok (hlift _ _ _ hmass)).trans ?_
    refine (PyM.bind_ok (Hit.set_mass E _ _)).trans ?_
    refine (PyM.bind_ok (Hit.get_charge E _)).trans ?_
    refine (PyM.bind_ok (hlift _ _ _ hcharge)).trans ?_
    refine (PyM.bind_ok (Hit.set_charge_int E _ _)).trans ?_
    have e : (⟨(c.setD .mass (tableMass p.pid)).setD .charge ((0 : Int) : K), wc⟩ : HS K) =
        primarySpec wc spill event p 0 1 p.mom.z := by
      rw [Int.cast_zero, he]
      rfl
    exact (congrArg _ e).trans hr
  rw [primaryHit, Maus.newObject, hrun]
  cases r <;> rfl

/-- `h` is what the primary `p` is read as: position, time, energy and pid are those of the primary, the
mass is that of the table (0 if the pid is not there), the charge is 0, and the momentum has the
direction of the primary's (the z axis if that is zero) and lies on the mass shell. -/
def PrimaryRead (wc : WC K) (spill : Int) (event : Nat) (p : Primary K) (h : HS K) : Prop :=
  ∃ k pz, h = primarySpec wc spill event p 0 k pz ∧ 0 ≤ k ∧
    ((p.mom.x ^ 2 + p.mom.y ^ 2 + p.mom.z ^ 2 ≠ 0 ∧ pz = p.mom.z) ∨
      (p.mom.x ^ 2 + p.mom.y ^ 2 + p.mom.z ^ 2 = 0 ∧ pz = 1)) ∧
    (p.mom.x * k) ^ 2 + (p.mom.y * k) ^ 2 + (pz * k) ^ 2 = p.energy ^ 2 - tableMass p.pid ^ 2

/-- The energy of a primary is enough for its mass. -/
def EnoughEnergy (p : Primary K) : Prop :=
  0 ≤ (p.energy - tableMass p.pid) * (p.energy + tableMass p.pid)

theorem primaryHit_ok {E : Ext K} (hE : E.Lawful) (wc : WC K) (spill : Int) (event : Nat)
    (p : Primary K) (h1 : IsInt32 spill) (h2 : event < 2147483648) (h3 : IsInt32 p.pid)
    (h4 : EnoughEnergy p) :
    ∃ h, primaryHit E wc spill event p = .ok h ∧ PrimaryRead wc spill event p h := by
  obtain ⟨k, pz0, h5, h6, h7, h8⟩ := Hit.set_p_cases hE (primarySpec wc spill event p 0 1 p.mom.z)
    (E.sqrt ((p.energy - tableMass p.pid) * (p.energy + tableMass p.pid)))
  have hm : Hit.mass_shell_condition E "p" (primarySpec wc spill event p 0 1 p.mom.z) =
      (.ok (some true), _) := Hit.shell_p_pos E _ _ (not_lt.mpr h4) h5
  have hx : (primarySpec wc spill event p 0 1 p.mom.z).core.d .px = p.mom.x := mul_one _
  have hy : (primarySpec wc spill event p 0 1 p.mom.z).core.d .py = p.mom.y := mul_one _
  have hz : (primarySpec wc spill event p 0 1 p.mom.z).core.d .pz = p.mom.z := mul_one _
  rw [hx, hy, hz] at h6
  rw [hx, hy, sq (E.sqrt _), hE.sqrt_mul_self _ h4] at h8
  refine ⟨_, primary_before E wc spill event p h1 h2 h3 (.ok ()) _ (PyM.bind_ok hm), k, pz0, ?_,
    h7 (hE.sqrt_nonneg _ h4), h6, by rw [h8]; ring⟩
  rw [hx, hy]
  have : ∀ (a b : HS K), a.core = b.core → a.wc = b.wc → a = b := by
    rintro ⟨a, b⟩ ⟨c, d⟩ rfl rfl
    rfl
  apply this
  · apply Core.ext'
    · intro v; cases v <;> rfl
    · intro v; cases v <;> rfl
  · rfl

/-- The primaries in a file can be held in a Hit. -/
def PrimariesFit (tree : List (Spill K)) : Prop :=
  ∀ s ∈ tree, IsInt32 s.number ∧ s.mcEvents.length < 2147483648 ∧ ∀ e ∈ s.mcEvents, IsInt32 e.primary.pid

/-- C69_partial: for all files whose primaries have enough energy, the primary of each event is read, in
order, as `PrimaryRead` says.  Missing: the charge, which is 0 for all of them (`C69_false`), and files with
a primary whose energy is below its mass (`C69_truncated_false`). -/
theorem C69_partial (pep479 : Bool) {E : Ext K} (hE : E.Lawful) (wc : WC K) (cut : K)
    (test : Option (HS K → Bool)) (number : Int) (tree : List (Spill K)) (hf : PrimariesFit tree)
    (he : ∀ s ∈ tree, ∀ e ∈ s.mcEvents, EnoughEnergy e.primary) :
    ∃ g : Int → Nat → Primary K → HS K,
      (∀ s ∈ tree, ∀ ev ∈ s.mcEvents.zipIdx,
        PrimaryRead wc s.number ev.2 ev.1.primary (g s.number ev.2 ev.1.primary)) ∧
      readMausRoot pep479 E wc cut (some [.primary]) test number tree =
        .ok (select test number (tree.flatMap fun s => s.mcEvents.zipIdx.map fun ev =>
          g s.number ev.2 ev.1.primary)) := by
  have hall : ∀ (spill : Int) (event : Nat) (p : Primary K), ∃ h, IsInt32 spill → event < 2147483648 →
      IsInt32 p.pid → EnoughEnergy p →
      primaryHit E wc spill event p = .ok h ∧ PrimaryRead wc spill event p h := by
    intro spill event p
    by_cases h : IsInt32 spill ∧ event < 2147483648 ∧ IsInt32 p.pid ∧ EnoughEnergy p
    · obtain ⟨h1, h2, h3, h4⟩ := h
      obtain ⟨x, hx⟩ := primaryHit_ok hE wc spill event p h1 h2 h3 h4
      exact ⟨x, fun _ _ _ _ => hx⟩
    · exact ⟨⟨Core.new, wc⟩, fun h1 h2 h3 h4 => absurd ⟨h1, h2, h3, h4⟩ h⟩
  choose g hg using hall
  have hidx : ∀ s ∈ tree, ∀ ev ∈ s.mcEvents.zipIdx,
      primaryHit E wc s.number ev.2 ev.1.primary = .ok (g s.number ev.2 ev.1.primary) ∧
      PrimaryRead wc s.number ev.2 ev.1.primary (g s.number ev.2 ev.1.primary) := by
    intro s hs ev hev
    obtain ⟨h1, h2, h3⟩ := hf s hs
    obtain ⟨h4, h5⟩ := List.mem_zipIdx' (x := ev.1) (i := ev.2) hev
    have hmem : ev.1 ∈ s.mcEvents := h5 ▸ List.getElem_mem h4
    exact hg _ _ _ h1 (by omega) (h3 _ hmem) (he s hs _ hmem)
  refine ⟨g, fun s hs ev hev => (hidx s hs ev hev).2, ?_⟩
  apply readMausRoot_one
  intro s hs
  exact collect_ok _ _ _ fun ev hev => (hidx s hs ev hev).1

/-- C69_false: a primary with a charge in the table of charges is read with another charge, 0. -/
theorem C69_false (pep479 : Bool) {E : Ext K} (hE : E.Lawful) (wc : WC K) (cut : K) (spill : Int)
    (h1 : IsInt32 spill) (p : Primary K) (h2 : IsInt32 p.pid) (h3 : EnoughEnergy p)
    (hq : (tableCharge p.pid : K) ≠ 0) (vs : List (Virtual K)) (ts : List (Track K))
    (rs : List (ReconEvent K)) :
    ∃ h, readMausRoot pep479 E wc cut (some [.primary]) none (-1) [⟨spill, [⟨vs, ts, p⟩], rs⟩] =
      .ok [h] ∧ h.core.i .pid = p.pid ∧ h.core.d .charge = 0 ∧ h.core.d .charge ≠ tableCharge p.pid := by
  obtain ⟨g, hg, hr⟩ := C69_partial pep479 hE wc cut none (-1) [⟨spill, [⟨vs, ts, p⟩], rs⟩]
    (by
      intro s hs
      simp only [List.mem_singleton] at hs
      subst hs
      exact ⟨h1, by simp, fun e he => by simp only [List.mem_singleton] at he; subst he; exact h2⟩)
    (by
      intro s hs e he
      simp only [List.mem_singleton] at hs
      subst hs
      simp only [List.mem_singleton] at he
      subst he
      exact h3)
  obtain ⟨k, pz, he, _⟩ := hg _ (List.mem_singleton.mpr rfl) (⟨vs, ts, p⟩, 0) (by simp)
  refine ⟨g spill 0 p, ?_, ?_, ?_, ?_⟩
  · rw [hr]
    simp [select]
  · simp only at he
    rw [he]
    rfl
  · simp only at he
    rw [he]
    rfl
  · simp only at he
    rw [he]
    exact fun h => hq h.symm

/-- reading stops at a spill with an IndexError -/
theorem readKind_stop (read : Spill K → Except Err Unit × List (HS K)) (test : Option (HS K → Bool))
    (number : Int) (s : Spill K) (rest : List (Spill K)) (hs : (read s).1 = .error .IndexError) :
    ∀ (pre : List (Spill K)) (acc : List (HS K)),
      readKind read test number (pre ++ s :: rest) acc = readKind read test number pre acc
  | [], acc => by
    rw [List.nil_append, readKind, readKind]
    split
    · split
      · rfl
      · rename_i e x h h'
        rw [h'] at hs
        simp only [Except.error.injEq] at hs
        exact absurd hs h
      · rename_i h
        rw [h] at hs
        cases hs
    · rfl
  | a :: r, acc => by
    rw [List.cons_append, readKind, readKind]
    split
    · split
      · rfl
      · rfl
      · exact readKind_stop read test number s rest hs r _
    · rfl

theorem collect_error (e : Err) (x : Except Err (HS K)) (hx : x = .error e) (r : List (Except Err (HS K))) :
    ∀ l : List (Except Err (HS K)), (∀ y ∈ l, ∃ h, y = .ok h) → (collect (l ++ x :: r)).1 = .error e
  | [], _ => by rw [hx]; rfl
  | y :: l, h => by
    obtain ⟨a, rfl⟩ := h y (by simp)
    rw [List.cons_append, collect]
    exact collect_error e x hx r l fun z hz => h z (by simp [hz])

/-- C69_truncated_false: if the energy of a primary is below its mass, reading ends there without an error: the primaries
of this spill and of all spills after it are left out. -/
theorem C69_truncated_false (pep479 : Bool) {E : Ext K} (hE : E.Lawful) (wc : WC K) (cut : K)
    (test : Option (HS K → Bool)) (number : Int) (pre rest : List (Spill K)) (s : Spill K)
    (hf : PrimariesFit [s]) (es es' : List (MCEvent K)) (e : MCEvent K)
    (hs : s.mcEvents = es ++ e :: es') (hes : ∀ x ∈ es, EnoughEnergy x.primary)
    (he : ¬ EnoughEnergy e.primary) :
    readMausRoot pep479 E wc cut (some [.primary]) test number (pre ++ s :: rest) =
      readMausRoot pep479 E wc cut (some [.primary]) test number pre := by
  obtain ⟨h1, h2, h3⟩ := hf s (by simp)
  have hidx : ∀ ev ∈ s.mcEvents.zipIdx, ev.2 < 2147483648 ∧ IsInt32 ev.1.primary.pid := by
    intro ev hev
    obtain ⟨h4, h5⟩ := List.mem_zipIdx' (x := ev.1) (i := ev.2) hev
    exact ⟨by omega, h3 _ (h5 ▸ List.getElem_mem h4)⟩
  have hstop : (readSpill pep479 E wc cut .primary s).1 = .error .IndexError := by
    have hz : s.mcEvents.zipIdx = es.zipIdx ++ (e, es.length) :: es'.zipIdx (es.length + 1) := by
      rw [hs, List.zipIdx_append, List.zipIdx_cons, Nat.zero_add]
    rw [readSpill, readPrimaries]
    rw [hz] at hidx ⊢
    rw [List.map_append, List.map_cons]
    apply collect_error
    · obtain ⟨h4, h5⟩ := hidx (e, es.length) (by simp)
      have h6 := Hit.shell_p_neg hE (primarySpec wc s.number es.length e.primary 0 1 e.primary.mom.z)
        (not_le.mp he)
      have h7 : (do let _ ← Hit.mass_shell_condition E "p" : PyM (HS K) Unit)
          (primarySpec wc s.number es.length e.primary 0 1 e.primary.mom.z) =
          (.error .IndexError, (Hit.mass_shell_condition E "p"
            (primarySpec wc s.number es.length e.primary 0 1 e.primary.mom.z)).2) := by
        rw [PyM.bind_apply, h6]
      exact primary_before E wc s.number es.length e.primary h1 h4 h5 _ _ h7
    · intro y hy
      obtain ⟨ev, hev, rfl⟩ := List.mem_map.mp hy
      obtain ⟨h4, h5⟩ := hidx ev (by simp [hev])
      obtain ⟨h6, h7⟩ := List.mem_zipIdx' (x := ev.1) (i := ev.2) hev
      obtain ⟨h, hh, _⟩ := primaryHit_ok hE wc s.number ev.2 ev.1.primary h1 h4 h5
        (hes _ (h7 ▸ List.getElem_mem h6))
      exact ⟨h, hh⟩
  simp only [readMausRoot, Option.getD_some, readKinds, readKind_stop _ test number s rest hstop pre]

/-! ### C53 -/

theorem stationOf_ok (a b c : Int) (h : 0 ≤ a ∧ a ≤ 10 ∧ 0 ≤ b ∧ b ≤ 10 ∧ 0 ≤ c ∧ c ≤ 10) :
    stationOf a b c = .ok (90000 + 100 * a + 10 * b + c) := by
  rw [stationOf, if_neg (by omega)]
  congr 1
  ring

/-- The numbers of tracker, station and plane are accepted. -/
def PointFits (p : TrackPoint K) : Prop :=
  0 ≤ p.tracker ∧ p.tracker ≤ 10 ∧ 0 ≤ p.station ∧ p.station ≤ 10 ∧ 0 ≤ p.plane ∧ p.plane ≤ 10

/-- What a track point is read as. -/
def pointSpec (wc : WC K) (spill : Int) (event track : Nat) (t : K) (p : TrackPoint K) : HS K :=
  ⟨⟨fun
    | .x => p.pos.x | .y => p.pos.y | .z => p.pos.z | .t => t
    | .px => p.mom.x | .py => p.mom.y | .pz => p.mom.z
    | .local_weight => 1
    | .energy | .bx | .by | .bz | .ex | .ey | .ez | .sx | .sy | .sz | .path_length | .proper_time
    | .e_dep | .charge | .mass => 0,
   fun
    | .spill => spill | .event => event | .particle => track | .pid => 0 | .status => 0
    | .station => 90000 + 100 * p.tracker + 10 * p.station + p.plane⟩, wc⟩

theorem HS.ext' {a b : HS K} (hd : ∀ v, a.core.d v = b.core.d v) (hi : ∀ v, a.core.i v = b.core.i v)
    (hw : a.wc = b.wc) : a = b := by
  obtain ⟨c, w⟩ := a
  obtain ⟨c', w'⟩ := b
  have : c = c' := Core.ext' hd hi
  subst this
  simp only at hw
  subst hw
  rfl

theorem pointHit_ok (E : Ext K) (wc : WC K) (spill : Int) (i : Nat) (p : TrackPoint K)
    (h1 : IsInt32 spill) (h2 : i < 2147483648) (hp : PointFits p) :
    pointHit E wc spill i p = .ok (pointSpec wc spill 0 i 0 p) := by
  have h2' : -2147483648 ≤ (i : Int) ∧ (i : Int) < 2147483648 := by omega
  have h3 : -2147483648 ≤ 90000 + 100 * p.tracker + 10 * p.station + p.plane ∧
      90000 + 100 * p.tracker + 10 * p.station + p.plane < 2147483648 := by
    unfold PointFits at hp
    omega
  rw [pointHit, stationOf_ok _ _ _ hp]
  refine newObject_ok ?_
  refine (setAll_i fun s => Hit.set_station E s _ h3).trans ?_
  refine (setAll_d fun s => Hit.set_x E s _).trans ?_
  refine (setAll_d fun s => Hit.set_y E s _).trans ?_
  refine (setAll_d fun s => Hit.set_z E s _).trans ?_
  refine (setAll_d fun s => Hit.set_px E s _).trans ?_
  refine (setAll_d fun s => Hit.set_py E s _).trans ?_
  refine (setAll_d fun s => Hit.set_pz E s _).trans ?_
  refine (setAll_i fun s => Hit.set_spill E s _ h1).trans ?_
  refine (setAll_i fun s => Hit.set_particle_number E s _ h2').trans ?_
  refine Prod.ext rfl (HS.ext' ?_ ?_ rfl)
  · intro v; cases v <;> rfl
  · intro v; cases v <;> rfl

/-- C53_partial: if the numbers of station and plane are below 10, the station number of a hit determines
tracker, station and plane of the track point.  Missing: the value 10, which is accepted
(`C53_false`). -/
theorem C53_partial (E : Ext K) (wc : WC K) (spill spill' : Int) (i i' : Nat) (p p' : TrackPoint K)
    (h1 : IsInt32 spill ∧ IsInt32 spill') (h2 : i < 2147483648 ∧ i' < 2147483648) (hp : PointFits p)
    (hp' : PointFits p') (h10 : p.station < 10 ∧ p.plane < 10 ∧ p'.station < 10 ∧ p'.plane < 10) :
    ∃ h h', pointHit E wc spill i p = .ok h ∧ pointHit E wc spill' i' p' = .ok h' ∧
      (h.core.i .station = h'.core.i .station →
        p.tracker = p'.tracker ∧ p.station = p'.station ∧ p.plane = p'.plane) := by
  refine ⟨_, _, pointHit_ok E wc spill i p h1.1 h2.1 hp, pointHit_ok E wc spill' i' p' h1.2 h2.2 hp', ?_⟩
  intro h
  have h' : 90000 + 100 * p.tracker + 10 * p.station + p.plane =
    90000 + 100 * p'.tracker + 10 * p'.station + p'.plane := h
  unfold PointFits at hp hp'
  omega

/-- Track points with other numbers raise ValueError. -/
theorem C53_rejected_partial (E : Ext K) (wc : WC K) (spill : Int) (i : Nat) (p : TrackPoint K)
    (hp : ¬ PointFits p) : pointHit E wc spill i p = .error .ValueError := by
  rw [pointHit, stationOf, if_pos (by unfold PointFits at hp; omega)]

/-- C53_false: plane 10 of station 0 and plane 0 of station 1 are both accepted and get the same
number. -/
theorem C53_false (E : Ext K) (wc : WC K) (pos mom : V3 K) :
    ∃ (p p' : TrackPoint K) (h h' : HS K), pointHit E wc 0 0 p = .ok h ∧ pointHit E wc 0 0 p' = .ok h' ∧
      h.core.i .station = h'.core.i .station ∧ p.station ≠ p'.station ∧ p.plane ≠ p'.plane := by
  refine ⟨⟨0, 0, 10, pos, mom⟩, ⟨0, 1, 0, pos, mom⟩, _, _,
    pointHit_ok E wc 0 0 _ (by unfold IsInt32; decide) (by decide) (by simp [PointFits]),
    pointHit_ok E wc 0 0 _ (by unfold IsInt32; decide) (by decide) (by simp [PointFits]), rfl,
    by simp, by simp⟩

/-! ### C71 -/

/-- The reconstructed data in a file can be held in a Hit. -/
def ReconFits (tree : List (Spill K)) : Prop :=
  ∀ s ∈ tree, IsInt32 s.number ∧ s.reconEvents.length < 2147483648 ∧ ∀ r ∈ s.reconEvents,
    r.tracks.length < 2147483648 ∧ ∀ t ∈ r.tracks, ∀ p ∈ t.points, PointFits p

/-- The points of the tracks that pass the cut on the P value, with the number of their track. -/
def goodPoints (cut : K) (tracks : List (SciFiTrack K)) : List (Nat × TrackPoint K) :=
  (tracks.zipIdx.filter fun t => ¬ (0 < cut ∧ t.1.pValue < cut)).flatMap
    fun t => t.1.points.map fun p => (t.2, p)

theorem points_collect (E : Ext K) (wc : WC K) (cut : K) (spill : Int) (tracks : List (SciFiTrack K))
    (h1 : IsInt32 spill) (h2 : tracks.length < 2147483648)
    (h3 : ∀ t ∈ tracks, ∀ p ∈ t.points, PointFits p) :
    collect (tracks.zipIdx.flatMap fun t =>
      if 0 < cut ∧ t.1.pValue < cut then [] else t.1.points.map (pointHit E wc spill t.2)) =
      (.ok (), (goodPoints cut tracks).map fun q => pointSpec wc spill 0 q.1 0 q.2) := by
  have key := collect_ok (fun q : Nat × TrackPoint K => pointHit E wc spill q.1 q.2)
    (fun q => pointSpec wc spill 0 q.1 0 q.2) (goodPoints cut tracks) (by
      intro q hq
      simp only [goodPoints, List.mem_flatMap, List.mem_filter, List.mem_map] at hq
      obtain ⟨t, ⟨ht, _⟩, p, hp, rfl⟩ := hq
      obtain ⟨h4, h5⟩ := List.mem_zipIdx' (x := t.1) (i := t.2) ht
      exact pointHit_ok E wc spill t.2 p h1 (by omega) (h3 _ (h5 ▸ List.getElem_mem h4) p hp))
  rw [← key]
  congr 1
  rw [goodPoints, List.map_flatMap]
  generalize tracks.zipIdx = l
  induction l with
  | nil => rfl
  | cons t r ih =>
    rw [List.flatMap_cons, ih, List.filter_cons]
    split_ifs with h h' h'
    · simp [h] at h'
    · rfl
    · simp only [List.flatMap_cons, List.map_map, Function.comp_def]
    · simp [h] at h'

/-- C71_false: since Python 3.7 reconstructed tracks cannot be read: any file in which some spill has a
reconstructed event gives RuntimeError ("generator raised StopIteration"), for both types. -/
theorem C71_false (E : Ext K) (wc : WC K) (cut : K) (k : Kind)
    (hk : k = .scifiTrackpoint ∨ k = .scifiAndTof) (test : Option (HS K → Bool)) (number : Int)
    (hn : number ≠ 0) (tree : List (Spill K)) (hf : ReconFits tree)
    (hne : ∃ s ∈ tree, s.reconEvents ≠ []) :
    readMausRoot true E wc cut (some [k]) test number tree = .error .RuntimeError := by
  have hcond : number < 0 ∨ (([] : List (HS K)).length : Int) < number := by
    simp only [List.length_nil, Int.natCast_zero]
    omega
  have hread : ∀ s ∈ tree, readSpill true E wc cut k s = match s.reconEvents with
      | [] => (.ok (), [])
      | _ :: _ => (.error .RuntimeError, []) := by
    intro s hs
    obtain ⟨h1, _, h3⟩ := hf s hs
    have : ∀ tof, readRecon true E wc cut tof s.number 0 s.reconEvents = match s.reconEvents with
      | [] => (.ok (), [])
      | _ :: _ => (.error .RuntimeError, []) := by
      intro tof
      cases hr : s.reconEvents with
      | nil => rfl
      | cons r rs =>
        obtain ⟨h4, h5⟩ := h3 r (by rw [hr]; simp)
        simp only [readRecon, reconHits, trackPoints, points_collect E wc cut s.number r.tracks h1 h4 h5,
          if_true]
    rcases hk with rfl | rfl
    · exact this false
    · exact this true
  have hloop : ∀ (tree : List (Spill K)), (∀ s ∈ tree, readSpill true E wc cut k s =
      match s.reconEvents with
      | [] => (.ok (), [])
      | _ :: _ => (.error .RuntimeError, [])) → (∃ s ∈ tree, s.reconEvents ≠ []) →
      readKind (readSpill true E wc cut k) test number tree [] = .error .RuntimeError := by
    intro tree
    induction tree with
    | nil => rintro _ ⟨s, hs, _⟩; simp at hs
    | cons s r ih =>
      intro hread hne
      rw [readKind, if_pos hcond]
      have hs := hread s (by simp)
      cases hr : s.reconEvents with
      | nil =>
        rw [hr] at hs
        have hp : passing test ([] : List (HS K)) = [] := by cases test <;> rfl
        simp only [hs, hp, List.append_nil, List.take_nil, ite_self]
        refine ih (fun x hx => hread x (by simp [hx])) ?_
        obtain ⟨x, hx, hx'⟩ := hne
        rcases List.mem_cons.mp hx with rfl | hx
        · exact absurd hr hx'
        · exact ⟨x, hx, hx'⟩
      | cons a b =>
        rw [hr] at hs
        simp only [hs]
  rw [readMausRoot, Option.getD_some, readKinds, hloop tree hread hne]

/-- The difference of two times, if both exist. -/
def between (a b : Option K) : Option K :=
  match a, b with
  | some a, some b => some (b - a)
  | _, _ => none

/-- The time from TOF0 to TOF1: of the first space points; if a detector has none, between the mean
times of the slab hits; if a detector has none, between the mean times of the digits. -/
def timeOfFlight (r : ReconEvent K) : Option K :=
  ((between r.tof0.head? r.tof1.head?).or (between (average r.tof0Slabs) (average r.tof1Slabs))).or
    (between (average r.tof0Digits) (average r.tof1Digits))

theorem deltaT_head (r : ReconEvent K) : (deltaT r).head? = timeOfFlight r := by
  have hm : ∀ (a : K) (l : List K), average (a :: l) = some (meanOf (a :: l)) := by
    intro a l
    rw [meanOf, average, List.sum_eq_foldl]
    simp
  have hn : average ([] : List K) = none := rfl
  simp only [deltaT, timeOfFlight, tofPoints, tofMeans]
  rcases r.tof0 with _ | ⟨a, as⟩ <;> rcases r.tof1 with _ | ⟨b, bs⟩ <;>
  rcases r.tof0Slabs with _ | ⟨a', as'⟩ <;> rcases r.tof1Slabs with _ | ⟨b', bs'⟩ <;>
  rcases r.tof0Digits with _ | ⟨a'', as''⟩ <;> rcases r.tof1Digits with _ | ⟨b'', bs''⟩ <;>
  simp [hm, hn, between]

theorem setEach_ok (E : Ext K) (key : String) (value : PyVal K) {α : Type} (f g : α → HS K) :
    ∀ l : List α, (∀ a ∈ l, Hit.set E key value (f a) = (.ok (), g a)) →
      setEach E key value (l.map f) = .ok (l.map g)
  | [], _ => rfl
  | a :: r, h => by
    rw [List.map_cons, setEach, newObject_ok (h a (by simp)),
      setEach_ok E key value f g r fun b hb => h b (by simp [hb]), List.map_cons]

/-- What a reconstructed event is read as. -/
def reconSpec (wc : WC K) (cut : K) (tof : Bool) (spill : Int) (event : Nat) (r : ReconEvent K) :
    List (HS K) :=
  if tof then
    match timeOfFlight r with
    | none => []
    | some t => (goodPoints cut r.tracks).map fun q => pointSpec wc spill event q.1 t q.2
  else (goodPoints cut r.tracks).map fun q => pointSpec wc spill event q.1 0 q.2

theorem reconHits_ok (E : Ext K) (wc : WC K) (cut : K) (tof : Bool) (spill : Int) (event : Nat)
    (r : ReconEvent K) (h1 : IsInt32 spill) (h2 : event < 2147483648)
    (h3 : r.tracks.length < 2147483648) (h4 : ∀ t ∈ r.tracks, ∀ p ∈ t.points, PointFits p) :
    reconHits false E wc cut tof spill event r = .ok (reconSpec wc cut tof spill event r) := by
  have h2' : -2147483648 ≤ (event : Int) ∧ (event : Int) < 2147483648 := by omega
  have hset := setEach_ok E "event_number" (.int event)
    (fun q : Nat × TrackPoint K => pointSpec wc spill 0 q.1 0 q.2)
    (fun q => pointSpec wc spill event q.1 0 q.2) (goodPoints cut r.tracks) (by
      intro q _
      rw [Hit.set_event_number E _ _ h2']
      refine Prod.ext rfl (HS.ext' ?_ ?_ rfl)
      · intro v; rfl
      · intro v; cases v <;> rfl)
  have hsett := fun t => setEach_ok E "t" (.flt t)
    (fun q : Nat × TrackPoint K => pointSpec wc spill event q.1 0 q.2)
    (fun q => pointSpec wc spill event q.1 t q.2) (goodPoints cut r.tracks) (by
      intro q _
      rw [Hit.set_t E]
      refine Prod.ext rfl (HS.ext' ?_ ?_ rfl)
      · intro v; cases v <;> rfl
      · intro v; rfl)
  rw [reconHits, trackPoints, points_collect E wc cut spill r.tracks h1 h3 h4]
  simp only [Bool.false_eq_true, if_false, List.length_map, hset, reconSpec, ← deltaT_head]
  by_cases h0 : (goodPoints cut r.tracks).length = 0
  · rw [if_pos h0]
    rw [List.length_eq_zero_iff] at h0
    simp only [h0, List.map_nil]
    cases tof with
    | false => simp
    | true => cases (deltaT r).head? <;> simp
  · rw [if_neg h0]
    cases tof with
    | false => simp
    | true =>
      simp only [Bool.true_eq_false, if_false, if_true]
      cases hd : deltaT r with
      | nil => simp
      | cons t ts => simp only [List.head?_cons, hsett]

/-- C71_partial: before Python 3.7, for all files: every point of the tracks that pass the cut on the P
value is read, in order, with the number of the spill, the position of the event in the spill and of the
track in the event; for the type with TOF `t` is the time of flight, and events without it are left out.
Missing: Python 3.7 and later (`C71_false`). -/
theorem C71_partial (E : Ext K) (wc : WC K) (cut : K) (tof : Bool) (test : Option (HS K → Bool))
    (number : Int) (tree : List (Spill K)) (hf : ReconFits tree) :
    readMausRoot false E wc cut (some [if tof then .scifiAndTof else .scifiTrackpoint]) test number tree =
      .ok (select test number (tree.flatMap fun s => s.reconEvents.zipIdx.flatMap fun r =>
        reconSpec wc cut tof s.number r.2 r.1)) := by
  apply readMausRoot_one
  intro s hs
  obtain ⟨h1, h2, h3⟩ := hf s hs
  have key : ∀ (rs : List (ReconEvent K)) (n : Nat), n + rs.length < 2147483648 →
      (∀ r ∈ rs, r.tracks.length < 2147483648 ∧ ∀ t ∈ r.tracks, ∀ p ∈ t.points, PointFits p) →
      readRecon false E wc cut tof s.number n rs = (.ok (), (rs.zipIdx n).flatMap fun r =>
        reconSpec wc cut tof s.number r.2 r.1) := by
    intro rs
    induction rs with
    | nil => intro n _ _; rfl
    | cons r rs ih =>
      intro n hn hr
      simp only [List.length_cons] at hn
      obtain ⟨h4, h5⟩ := hr r (by simp)
      simp only [readRecon, reconHits_ok E wc cut tof s.number n r h1 (by omega) h4 h5,
        ih (n + 1) (by omega) (fun x hx => hr x (by simp [hx])), List.zipIdx_cons, List.flatMap_cons]
  have := key s.reconEvents 0 (by omega) h3
  cases tof <;> exact this

/-! ### several types -/

/-- reading one type, with a test and a number, when it can be read without them -/
theorem readKind_select (read : Spill K → Except Err Unit × List (HS K)) (test : Option (HS K → Bool))
    (number : Int) : ∀ (tree : List (Spill K)) (a l acc : List (HS K)),
    readKind read none (-1) tree a = .ok (a ++ l) → (0 ≤ number → acc.length ≤ number.toNat) →
    readKind read test number tree acc = .ok (if number < 0
      then acc ++ l.filter (fun h => test.all fun t => t h)
      else (acc ++ l.filter (fun h => test.all fun t => t h)).take number.toNat)
  | [], a, l, acc, h, hn => by
    rw [readKind, Except.ok.injEq, eq_comm] at h
    replace h := List.append_right_eq_self.mp h
    subst h
    rw [readKind]
    split
    · simp
    · simp [List.take_of_length_le (hn (by omega))]
  | s :: r, a, l, acc, h, hn => by
    have hstop : ¬ (number < 0 ∨ (acc.length : Int) < number) → readKind read test number (s :: r) acc =
        .ok (if number < 0 then acc ++ l.filter (fun h => test.all fun t => t h)
          else (acc ++ l.filter (fun h => test.all fun t => t h)).take number.toNat) := by
      intro hc
      have hlen : acc.length = number.toNat := by
        have := hn (by omega)
        omega
      rw [readKind, if_neg hc, if_neg (by omega), ← hlen, List.take_left']
      rfl
    by_cases hc : number < 0 ∨ (acc.length : Int) < number
    · rw [readKind, if_pos (by omega)] at h
      rw [readKind, if_pos hc]
      split at h
      · rename_i x hx
        rw [Except.ok.injEq, eq_comm] at h
        replace h := List.append_right_eq_self.mp h
        subst h
        split
        · simp
        · simp [List.take_of_length_le (hn (by omega))]
      · cases h
      · rename_i x hs hx
        simp only [test_filter]
        rw [if_pos (by omega)] at h
        -- the rest appends to what was read so far
        have happ : ∃ l', l = hs ++ l' := by
          obtain ⟨l', hl'⟩ := readKind_append read r (a ++ passing none hs) _ h
          refine ⟨l', ?_⟩
          simpa only [passing, List.append_assoc, List.append_cancel_left_eq] using hl'
        obtain ⟨l', rfl⟩ := happ
        simp only [passing] at h
        rw [← List.append_assoc] at h
        by_cases hneg : number < 0
        · have ih := readKind_select read test number r _ l'
            (acc ++ hs.filter (fun h => test.all fun t => t h)) h (by omega)
          simp only [hneg, if_true] at ih ⊢
          rw [ih, List.filter_append, List.append_assoc]
        · have ih := readKind_select read test number r _ l'
            ((acc ++ hs.filter (fun h => test.all fun t => t h)).take number.toNat) h
            (fun _ => by rw [List.length_take]; omega)
          simp only [hneg, if_false] at ih ⊢
          rw [ih, List.filter_append, ← List.append_assoc]
          congr 1
          rw [List.take_append, List.take_take, Nat.min_self]
          conv_rhs => rw [List.take_append]
          congr 2
          rw [List.length_take]
          omega
    · exact hstop hc
where
  readKind_append (read : Spill K → Except Err Unit × List (HS K)) : ∀ (tree : List (Spill K))
      (a b : List (HS K)), readKind read none (-1) tree a = .ok b → ∃ l, b = a ++ l
    | [], a, b, h => by
      rw [readKind, Except.ok.injEq] at h
      exact ⟨[], by simp [h]⟩
    | s :: r, a, b, h => by
      rw [readKind, if_pos (by omega)] at h
      split at h
      · rw [Except.ok.injEq] at h
        exact ⟨[], by simp [h]⟩
      · cases h
      · rw [if_pos (by omega)] at h
        obtain ⟨l, rfl⟩ := readKind_append read r _ _ h
        exact ⟨_, List.append_assoc _ _ _⟩

/-- C70, types: if each type can be read on its own, reading several types with a test function and a
number of hits gives the hits of the first type, then those of the second and so on, those that pass the
test, up to the number. -/
theorem C70_types (pep479 : Bool) (E : Ext K) (wc : WC K) (cut : K) (kinds : List Kind)
    (test : Option (HS K → Bool)) (number : Int) (tree : List (Spill K)) (l : Kind → List (HS K))
    (h : ∀ k ∈ kinds, readMausRoot pep479 E wc cut (some [k]) none (-1) tree = .ok (l k)) :
    readMausRoot pep479 E wc cut (some kinds) test number tree =
      .ok (select test number (kinds.flatMap l)) := by
  have hone : ∀ k ∈ kinds, readKind (readSpill pep479 E wc cut k) none (-1) tree [] = .ok ([] ++ l k) := by
    intro k hk
    have := h k hk
    rw [readMausRoot, Option.getD_some, readKinds] at this
    split at this
    · cases this
    · rename_i heq
      rw [heq]
      exact this
  have key : ∀ (ks : List Kind) (acc : List (HS K)), (∀ k ∈ ks, k ∈ kinds) →
      (0 ≤ number → acc.length ≤ number.toNat) →
      readKinds pep479 E wc cut test number tree ks acc = .ok (if number < 0
      then acc ++ (ks.flatMap l).filter (fun h => test.all fun t => t h)
      else (acc ++ (ks.flatMap l).filter (fun h => test.all fun t => t h)).take number.toNat) := by
    intro ks
    induction ks with
    | nil =>
      intro acc _ hn
      rw [readKinds]
      split
      · simp
      · simp [List.take_of_length_le (hn (by omega))]
    | cons k r ih =>
      intro acc hk hn
      rw [readKinds, readKind_select _ test number tree [] (l k) acc (hone k (hk k (by simp))) hn]
      by_cases hneg : number < 0
      · have ih := ih (acc ++ (l k).filter (fun h => test.all fun t => t h))
          (fun x hx => hk x (by simp [hx])) (by omega)
        simp only [hneg, if_true] at ih ⊢
        rw [ih, List.flatMap_cons, List.filter_append, List.append_assoc]
      · have ih := ih ((acc ++ (l k).filter (fun h => test.all fun t => t h)).take number.toNat)
          (fun x hx => hk x (by simp [hx])) (fun _ => by rw [List.length_take]; omega)
        simp only [hneg, if_false] at ih ⊢
        rw [ih, List.flatMap_cons, List.filter_append, ← List.append_assoc]
        congr 1
        rw [List.take_append, List.take_take, Nat.min_self]
        conv_rhs => rw [List.take_append]
        congr 2
        rw [List.length_take]
        omega
  rw [readMausRoot, Option.getD_some, key kinds [] (fun _ h => h) (by simp)]
  simp only [List.nil_append, select]

/-! ### cases that meet the hypotheses -/

namespace Root

/-- a muon -/
noncomputable def muon : Primary ℝ := ⟨⟨1, 2, 3⟩, ⟨10, 20, 200⟩, -13, 226, 5⟩
/-- a muon with less energy than its mass -/
noncomputable def slow : Primary ℝ := ⟨⟨1, 2, 3⟩, ⟨10, 20, 200⟩, -13, 50, 5⟩
/-- a spill with a primary, two virtual hits, a step of a particle `pid` and a reconstructed track -/
noncomputable def spill (p : Primary ℝ) (pid : Int) : Spill ℝ :=
  ⟨7, [⟨[⟨⟨1, 2, 3⟩, ⟨10, 20, 200⟩, ⟨0, 0, 4⟩, ⟨0, 0, 0⟩, -13, 1, 1, 5, 105, 1, 2, 3⟩,
        ⟨⟨1, 2, 4⟩, ⟨10, 20, 200⟩, ⟨0, 0, 4⟩, ⟨0, 0, 0⟩, -13, 2, 1, 5, 105, 1, 2, 3⟩],
       [⟨pid, 1, [⟨⟨1, 2, 3⟩, 5, ⟨10, 20, 200⟩, ⟨0, 0, 4⟩, ⟨0, 0, 0⟩, ⟨0, 0, 1⟩, 2, 3⟩]⟩], p⟩],
   [⟨[⟨1 / 2, [⟨0, 1, 2, ⟨1, 2, 3⟩, ⟨10, 20, 200⟩⟩, ⟨1, 5, 0, ⟨1, 2, 3⟩, ⟨10, 20, 200⟩⟩]⟩],
     [], [30], [1, 3], [30, 34], [], []⟩]⟩

theorem muon_mass : (tableMass (-13) : ℝ) = 105658366800 / 1000000000 := by
  have h : Common.pdgPidToMass.lookup 13 = some 105658366800 := by decide +kernel
  rw [tableMass, show |(-13 : Int)| = 13 from rfl, h]
  norm_num

end Root

example : VirtualsFit [spill muon (-13)] := by
  simp [VirtualsFit, spill, IsInt32]

theorem Root.stepsFit : StepsFit [spill muon (-13)] := by
  have h1 : (Common.pdgPidToMass.lookup |-13|).isSome := by decide +kernel
  have h2 : (Common.pdgPidToCharge.lookup (-13)).isSome := by decide +kernel
  simpa [StepsFit, spill, IsInt32] using And.intro h1 h2

-- a step of a particle that is not in the table: a Lambda baryon or a sigma, here pid 1000
example (wc : WC ℝ) : readMausRoot true realExt wc 0 (some [.step]) none (-1) [spill muon 1000] =
    .error .KeyError :=
  C70_steps_false true realExt wc 0 none (-1) (by decide) 7 _ _ _ (by simp [IsInt32]) (by simp [IsInt32])
    rfl (by decide +kernel) _ _ _ _ _ _

example : PrimariesFit [spill muon (-13)] ∧ EnoughEnergy muon ∧ ¬ EnoughEnergy slow := by
  refine ⟨by simp [PrimariesFit, spill, muon, IsInt32], ?_, ?_⟩
  · show (0 : ℝ) ≤ (226 - tableMass (-13)) * (226 + tableMass (-13))
    rw [muon_mass]
    norm_num
  · show ¬ (0 : ℝ) ≤ (50 - tableMass (-13)) * (50 + tableMass (-13))
    rw [muon_mass]
    norm_num

example : (tableCharge (-13) : ℝ) ≠ 0 := by
  have h : Common.pdgPidToCharge.lookup (-13) = some 1 := by decide +kernel
  rw [tableCharge, h]
  norm_num

example : ReconFits [spill muon (-13)] ∧ ∃ s ∈ [spill muon (-13)], s.reconEvents ≠ [] := by
  simp [ReconFits, spill, IsInt32, PointFits]

-- the space points of TOF0 are missing: the time of flight is that between the slab hits
example : (spill muon (-13)).reconEvents.map timeOfFlight = [some 30] := by
  simp [spill, timeOfFlight, between, average]
  norm_num

-- reading several types at once
example (wc : WC ℝ) : ∃ l, readMausRoot true realExt wc 0 (some [.virtualHit, .step]) none 3
    [spill muon (-13)] = .ok l ∧ l.length = 3 := by
  have hv := C70_virtual_hits true realExt wc 0 none (-1) [spill muon (-13)]
    (by simp [VirtualsFit, spill, IsInt32])
  have hs := C70_steps_partial true realExt wc 0 none (-1) [spill muon (-13)] Root.stepsFit
  obtain ⟨v, hv, hv'⟩ : ∃ v, readMausRoot true realExt wc 0 (some [.virtualHit]) none (-1)
    [spill muon (-13)] = .ok v ∧ v.length = 2 := ⟨_, hv, by simp [select, spill]⟩
  obtain ⟨w, hw, hw'⟩ : ∃ w, readMausRoot true realExt wc 0 (some [.step]) none (-1)
    [spill muon (-13)] = .ok w ∧ w.length = 1 := ⟨_, hs, by simp [select, spill]⟩
  refine ⟨_, C70_types true realExt wc 0 [.virtualHit, .step] none 3 _
    (fun k => if k = .virtualHit then v else w) ?_, ?_⟩
  · intro k hk
    simp only [List.mem_cons, List.not_mem_nil, or_false] at hk
    rcases hk with rfl | rfl
    · exact hv
    · exact hw
  · simp [select, hv', hw']

end Xboa
