import Verif.Model.MultiMaus
import Verif.Props.MausTracking
import Verif.Props.Tracking
/-!
C119: random seeds and event numbers when MAUS tracks in several processes.
-/
set_option linter.unusedSectionVars false
namespace Xboa
open Root MausTracking
variable {K : Type} [Field K] [LinearOrder K] [IsStrictOrderedRing K]

theorem runJob_sent (E : Ext K) (wc : WC K)
    (sim : List (List (Doc K)) → List (Doc K) → Except Err (List (Event K))) (s : State K)
    (chunk : List (HS K)) :
    (MultiMaus.runJob E wc sim s chunk).2.sent =
      [chunk.zipIdx.map fun p => docSpec p.1 (s.seed + p.2)] :=
  (call_sent E wc sim (.many chunk) (MultiMaus.copied (MultiMaus.copied s))).2

/-- C119_partial, what is sent: with the integer division of Python 2 the hits are shared out to `n`
processes, and the MAUS of each process gets its hits in order, with seeds that count up from the seed of
the object that MultiTrack was made with, for every process from the same number.
Missing: that the processes have different seeds (false, C119_false), and Python 3 (C49_false). -/
theorem C119_sent_partial (E : Ext K) (wc : WC K)
    (sim : List (List (Doc K)) → List (Doc K) → Except Err (List (Event K))) (s : State K)
    (n : Nat) (hn : 1 ≤ n) (hits : List (HS K)) :
    ∃ chunks : List (List (HS K)), chunks.length = n ∧ chunks.flatten = hits ∧
      (∀ c ∈ chunks, c.length = hits.length / n ∨ c.length = hits.length / n + 1) ∧
      MultiMaus.sentBy .py2 E wc sim n s hits =
        .ok (chunks.map fun c => [c.zipIdx.map fun p => docSpec p.1 (s.seed + p.2)]) := by
  obtain ⟨cs, h1, h2, h3, h4⟩ := C49_split_partial hits n hn
  refine ⟨cs, h2, h3, h4, ?_⟩
  simp only [MultiMaus.sentBy, h1, Except.ok.injEq]
  exact List.map_congr_left fun c _ => runJob_sent E wc sim s c

/-- C119_partial, one process: the seeds of one call are the seed of the object plus 0, 1, 2, ..., all
different.
Missing: two or more processes (false, C119_false). -/
theorem C119_partial (E : Ext K) (wc : WC K)
    (sim : List (List (Doc K)) → List (Doc K) → Except Err (List (Event K))) (s : State K)
    (hits : List (HS K)) :
    ∃ sent, MultiMaus.sentBy .py2 E wc sim 1 s hits = .ok [sent] ∧
      sent.flatten.map (fun d => d.seed) = (List.range hits.length).map (fun k : Nat => s.seed + (k : Int)) ∧
      (sent.flatten.map fun d => d.seed).Nodup := by
  obtain ⟨cs, h1, h2, _, h4⟩ := C119_sent_partial E wc sim s 1 le_rfl hits
  obtain ⟨c, rfl⟩ := List.length_eq_one_iff.mp h1
  simp only [List.flatten_cons, List.flatten_nil, List.append_nil] at h2
  subst h2
  have h5 : (c.zipIdx.map fun p => docSpec p.1 (s.seed + p.2)).map (fun d => d.seed) =
      (List.range c.length).map (fun k : Nat => s.seed + (k : Int)) := by
    rw [List.map_map]
    have : (fun d : Doc K => d.seed) ∘ (fun p : HS K × Nat => docSpec p.1 (s.seed + p.2)) =
        (fun k : Nat => s.seed + (k : Int)) ∘ Prod.snd := rfl
    rw [this, ← List.map_map, List.zipIdx_map_snd, List.range_eq_range']
  refine ⟨_, h4, ?_, ?_⟩
  · simpa using h5
  · simp only [List.flatten_cons, List.flatten_nil, List.append_nil, h5]
    refine List.Nodup.map ?_ List.nodup_range
    intro a b h
    simp only at h
    omega

/-- C119 fails for two or more processes: whatever MAUS answers, if there is a hit for each of the processes,
every process sends its first hit with the same seed, that of the object. -/
theorem C119_false (E : Ext K) (wc : WC K)
    (sim : List (List (Doc K)) → List (Doc K) → Except Err (List (Event K))) (s : State K)
    (n : Nat) (hn : 2 ≤ n) (hits : List (HS K)) (hl : n ≤ hits.length) :
    ∃ sent, MultiMaus.sentBy .py2 E wc sim n s hits = .ok sent ∧ sent.length = n ∧
      (∀ p ∈ sent, ∃ d r, p = [d :: r] ∧ d.seed = s.seed) ∧
      ¬ (sent.flatMap fun p => p.flatten.map fun d => d.seed).Nodup := by
  obtain ⟨cs, h1, h2, h3, h4⟩ := C119_sent_partial E wc sim s n (by omega) hits
  have hpos : 1 ≤ hits.length / n := (Nat.one_le_div_iff (by omega)).mpr hl
  have hfirst : ∀ p ∈ (cs.map fun c => [c.zipIdx.map fun p => docSpec p.1 (s.seed + p.2)]),
      ∃ d r, p = [d :: r] ∧ d.seed = s.seed := by
    intro p hp
    obtain ⟨c, hc, rfl⟩ := List.mem_map.mp hp
    cases c with
    | nil => rcases h3 [] hc with h | h <;> simp only [List.length_nil] at h <;> omega
    | cons a r =>
      refine ⟨_, _, by rw [List.zipIdx_cons, List.map_cons], ?_⟩
      simp [docSpec]
  refine ⟨_, h4, by simp [h1], hfirst, ?_⟩
  match cs, h1, hfirst with
  | [], h1, _ => simp only [List.length_nil] at h1; omega
  | [_], h1, _ => simp only [List.length_cons, List.length_nil] at h1; omega
  | a :: b :: r, _, hfirst =>
    obtain ⟨d, t, hd, hd'⟩ := hfirst _ (List.mem_cons_self)
    obtain ⟨e, u, he, he'⟩ := hfirst _ (List.mem_cons_of_mem _ List.mem_cons_self)
    simp only [List.map_cons, List.flatMap_cons] at hd he ⊢
    rw [hd, he]
    simp [hd', he']

/-- C119 fails for the results too: processes that get the same hits get the same answer of MAUS, random or
not, and it has the same spill and event numbers; so MultiTrack returns one answer many times. -/
theorem C119_same_false (E : Ext K) (wc : WC K)
    (sim : List (List (Doc K)) → List (Doc K) → Except Err (List (Event K)))
    (hf : ∀ sent docs events, sim sent docs = .ok events → Fits events) (s : State K)
    (h1 : IsInt32 s.spill) (h : HS K) (n per : Nat) (hn : 1 ≤ n) (finish : Nat → Nat)
    (events : List (Event K))
    (hs : sim [] ((List.range per).map fun k : Nat => docSpec h (s.seed + (k : Int))) = .ok events)
    (hk : ∀ e ∈ events, e.known) :
    ∃ js, MultiMaus.jobs .py2 E wc sim n finish s (List.replicate (n * per) h) = .ok js ∧
      ∃ fuel t, Tracking.poll fuel 0 js = some t ∧
        Tracking.getReturnValue t js = (List.replicate n
          (events.zipIdx.map fun p => eventSpec E wc s.spill p.2 p.1)).flatten := by
  obtain ⟨cs, h2, h3, h4, h5⟩ := C49_split_partial (List.replicate (n * per) h) n hn
  have hmem : ∀ c ∈ cs, c = List.replicate c.length h := by
    intro c hc
    apply List.eq_replicate_of_mem
    intro a ha
    have : a ∈ cs.flatten := List.mem_flatten.mpr ⟨c, hc, ha⟩
    rw [h4] at this
    exact (List.mem_replicate.mp this).2
  have hge : ∀ c ∈ cs, per ≤ c.length := by
    intro c hc
    have := h5 c hc
    rw [List.length_replicate, Nat.mul_div_cancel_left _ (by omega)] at this
    omega
  have hsum : (cs.map List.length).sum = n * per := by
    rw [← List.length_flatten, h4, List.length_replicate]
  have heq : ∀ (l : List (List (HS K))), (∀ c ∈ l, per ≤ c.length) →
      (l.map List.length).sum = l.length * per → ∀ c ∈ l, c.length = per := by
    intro l
    have hge' : ∀ l : List (List (HS K)), (∀ c ∈ l, per ≤ c.length) →
        l.length * per ≤ (l.map List.length).sum := by
      intro l
      induction l with
      | nil => intro _; simp
      | cons a r ih =>
        intro g
        have g1 := g a List.mem_cons_self
        have g2 := ih fun c hc => g c (List.mem_cons_of_mem _ hc)
        simp only [List.length_cons, List.map_cons, List.sum_cons, Nat.succ_mul]
        omega
    induction l with
    | nil => intro _ _ c hc; simp at hc
    | cons a r ih =>
      intro g gs
      have g1 := g a List.mem_cons_self
      have g2 := hge' r fun c hc => g c (List.mem_cons_of_mem _ hc)
      simp only [List.length_cons, List.map_cons, List.sum_cons, Nat.succ_mul] at gs
      intro c hc
      rcases List.mem_cons.mp hc with rfl | hc
      · omega
      · exact ih (fun c hc => g c (List.mem_cons_of_mem _ hc)) (by omega) c hc
  have hall : ∀ c ∈ cs, c = List.replicate per h := by
    intro c hc
    have := heq cs hge (by rw [hsum, h3]) c hc
    rw [hmem c hc, this]
  have hrun : (MultiMaus.runJob E wc sim s (List.replicate per h)).1 =
      .ok (events.zipIdx.map fun p => eventSpec E wc s.spill p.2 p.1) := by
    rw [MultiMaus.runJob, C52_track_many E wc sim _ (MultiMaus.copied (MultiMaus.copied s)) h1 hf]
    have : ((List.replicate per h).zipIdx.map fun p =>
        docSpec p.1 ((MultiMaus.copied (MultiMaus.copied s)).seed + p.2)) =
        (List.range per).map fun k : Nat => docSpec h (s.seed + (k : Int)) := by
      apply List.ext_getElem
      · simp
      · intro i _ _
        simp only [List.getElem_map, List.getElem_zipIdx, List.getElem_replicate, Nat.zero_add,
          List.getElem_range]
        rfl
    simp only [this]
    have hsent : (MultiMaus.copied (MultiMaus.copied s)).sent = [] := rfl
    rw [hsent, hs]
    simp only
    rw [if_pos hk]
    rfl
  refine ⟨_, by simp only [MultiMaus.jobs, h2]; rfl, ?_⟩
  obtain ⟨⟨fuel, t, g1⟩, g2⟩ := C49_order (cs.zipIdx.map fun c => MultiMaus.job E wc sim s (finish c.2) c.1)
  refine ⟨fuel, t, g1, ?_⟩
  rw [g2 fuel t g1, List.flatMap_map, List.flatMap_def]
  congr 1
  have : ∀ c ∈ cs.zipIdx, (MultiMaus.job E wc sim s (finish c.2) c.1).value.getD [] =
      events.zipIdx.map fun p => eventSpec E wc s.spill p.2 p.1 := by
    intro c hc
    obtain ⟨g3, g4⟩ := List.mem_zipIdx' (x := c.1) (i := c.2) hc
    have : c.1 = List.replicate per h := by
      rw [g4]; exact hall _ (List.getElem_mem g3)
    simp only [MultiMaus.job, this, hrun, Option.getD_some]
  rw [List.map_congr_left this]
  apply List.eq_replicate_iff.mpr
  refine ⟨by simp [h3], ?_⟩
  intro b hb
  obtain ⟨_, _, rfl⟩ := List.mem_map.mp hb
  rfl

/-! ### cases -/

/-- a hit with the given x, for the cases -/
def C119case.hit (x : ℚ) : HS ℚ := { core := Core.new.setD .x x, wc := WC.new }

/-- case for C119_sent_partial, C119_partial and C119_false: five hits, seed 7, in two processes the seeds are
7, 8, 9 and 7, 8, in one process 7 to 11 -/
example :
    (match MultiMaus.sentBy .py2 ratExt WC.new (fun _ _ => .error .RuntimeError) 2 ⟨7, 3, [], []⟩
        ([1, 2, 3, 4, 5].map C119case.hit) with
      | .ok l => l.map fun p => p.flatten.map fun d => (d.pos.x, d.seed)
      | .error _ => []) = [[(1, 7), (2, 8), (3, 9)], [(4, 7), (5, 8)]] ∧
    (match MultiMaus.sentBy .py2 ratExt WC.new (fun _ _ => .error .RuntimeError) 1 ⟨7, 3, [], []⟩
        ([1, 2, 3, 4, 5].map C119case.hit) with
      | .ok l => l.map fun p => p.flatten.map fun d => (d.pos.x, d.seed)
      | .error _ => []) = [[(1, 7), (2, 8), (3, 9), (4, 10), (5, 11)]] := by
  decide +kernel

/-- case for C119_same_false: a MAUS that returns the particle at a station further on by as much as the
seed; three processes with one hit each -/
example : ∃ (sim : List (List (Doc ℚ)) → List (Doc ℚ) → Except Err (List (Event ℚ))) (events : List (Event ℚ)),
    (∀ sent docs events, sim sent docs = .ok events → Fits events) ∧
    sim [] ((List.range 1).map fun k : Nat => docSpec (C119case.hit 2) (7 + (k : Int))) = .ok events ∧
    events ≠ [] ∧ ∀ e ∈ events, e.known := by
  refine ⟨fun _ docs => .ok ((docs.take 1000).map fun d =>
    ⟨⟨d.pos, d.mom, -13, d.energy, d.time⟩,
      some [⟨⟨d.pos.x, d.pos.y, d.pos.z + d.seed⟩, d.mom, -13, d.time, 1, 2⟩]⟩), _, ?_, rfl, by simp, ?_⟩
  · intro sent docs events h
    simp only [Except.ok.injEq] at h
    subst h
    refine ⟨by simp only [List.length_map, List.length_take]; omega, ?_⟩
    intro e he
    obtain ⟨d, _, rfl⟩ := List.mem_map.mp he
    simp [MausTracking.Event.fits, IsInt32]
  · intro e he
    obtain ⟨d, _, rfl⟩ := List.mem_map.mp he
    have h : Known (-13) := by decide +kernel
    simp [MausTracking.Event.known, h]

end Xboa
