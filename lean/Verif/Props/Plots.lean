import Verif.Model.Plots
import Verif.Props.Hist
import Mathlib.Data.Rat.Floor
import Mathlib.Tactic.Linarith
/-!
C98: histograms of a bunch.  C99: graphs over bunches.  C100: scatter plots.  C101: multigraphs.
-/
set_option linter.unusedSectionVars false
namespace Xboa
namespace Plots
variable {K : Type} [Field K] [LinearOrder K] [IsStrictOrderedRing K] {H : Type}

/-! ### specification -/

/-- on the axis, item `h` is at `v`: its value divided by the units -/
def At (a : Axis H K) (h : H) (v : K) : Prop := ∃ r u, a.value h = .ok r ∧ a.unit = some u ∧ v = r / u

/-- where ROOT puts an entry: in a bin if lo <= x < hi, else in the under- or overflow -/
def InBins (lim : K × K) (x : K) : Prop := lim.1 ≤ x ∧ x < lim.2

/-- the label of an axis -/
def Label (name units : String) : String := if units = "" then name else name ++ " [" ++ units ++ "]"

/-- the points of the items that have both coordinates, in order -/
inductive Pairs (x y : Axis H K) : List H → List (K × K) → Prop
  | nil : Pairs x y [] []
  | both {b bs a c ps} : At x b a → At y b c → Pairs x y bs ps → Pairs x y (b :: bs) ((a, c) :: ps)
  | skip {b bs ps} : (∀ a c, ¬ (At x b a ∧ At y b c)) → Pairs x y bs ps → Pairs x y (b :: bs) ps

/-- the same points in order of x; points at the same x stay in order -/
structure SortedByX (g ps : List (K × K)) : Prop where
  sorted : g.Pairwise (fun p q => p.1 ≤ q.1)
  perm : g.Perm ps
  stable : ∀ k, g.filter (fun p => decide (p.1 = k)) = ps.filter (fun p => decide (p.1 = k))

/-! ### lemmas -/

theorem get_of_at {a : Axis H K} {h : H} {v : K} (hv : At a h v) : a.get h = .ok v := by
  obtain ⟨r, u, h1, h2, rfl⟩ := hv
  simp [Axis.get, h1, h2]

theorem at_of_get {a : Axis H K} {h : H} {v : K} (hv : a.get h = .ok v) : At a h v := by
  unfold Axis.get at hv
  split at hv
  · cases hv
  · rename_i r hr
    split at hv
    · cases hv
    · rename_i u hu
      simp only [Except.ok.injEq] at hv
      exact ⟨r, u, hr, hu, hv.symm⟩

theorem list_ok (a : Axis H K) (v : H → K) : ∀ hits : List H, (∀ h ∈ hits, At a h (v h)) →
    a.list hits = .ok (hits.map v)
  | [], _ => rfl
  | h :: hs, hv => by
    have h1 := get_of_at (hv h (by simp))
    have h2 := list_ok a v hs (fun k hk => hv k (by simp [hk]))
    simp [Axis.list, h1, h2]

theorem label_eq (a : Axis H K) : a.label "" = Label a.name a.units := by
  unfold Axis.label Label
  split <;> simp

theorem encloses_congr {lo hi margin : K} {l l' : List K} (h : Encloses lo hi l margin)
    (hp : ∀ x, x ∈ l' ↔ x ∈ l) : Encloses lo hi l' margin :=
  ⟨fun x hx => h.mem x ((hp x).mp hx), h.wide,
    fun a b ha hb hab => h.exact a b ((hp a).mp ha) ((hp b).mp hb) (fun x hx => hab x ((hp x).mpr hx)),
    fun a b ha hb hab => h.narrow a b ((hp a).mp ha) ((hp b).mp hb) (fun x hx => hab x ((hp x).mpr hx))⟩

/-- the values of the hits of weight above 1e-6 -/
def heavyValues (weight v : H → K) (hits : List H) : List K :=
  (hits.filter fun h => decide (1 / 1000000 < weight h)).map v

theorem heavy_eq (weight v : H → K) : ∀ hits : List H,
    Common.heavy (hits.map weight) (hits.map v) = heavyValues weight v hits
  | [] => rfl
  | h :: hs => by
    have := heavy_eq weight v hs
    unfold heavyValues at this ⊢
    simp only [List.map_cons, Common.heavy, this, List.filter_cons, gt_iff_lt, decide_eq_true_eq]
    split <;> simp

theorem minMax_hits (weight v : H → K) (hits : List H) (xmin xmax : Option K) :
    Common.minMax (hits.map weight) 0 xmin xmax (hits.map v) =
      (.ok (xmin.getD (Common.limits (heavyValues weight v hits) 0 none none).1,
        xmax.getD (Common.limits (heavyValues weight v hits) 0 none none).2), hits.map v) := by
  simp only [Common.minMax, List.length_map, if_true, heavy_eq]
  rfl

theorem hist_one (weight vx : H → K) (hits : List H) (hne : hits ≠ []) (n : Option Int) (ny : Option Int)
    (xl yl : String) (xmin xmax ymin ymax : Option K) :
    (makeRootHistogram xl n yl ny (hits.map weight) xmin xmax ymin ymax (hits.map vx, [])).1 =
      match n with
      | none => .error .TypeError
      | some n => .ok ⟨n, (xmin.getD (Common.limits (heavyValues weight vx hits) 0 none none).1,
          xmax.getD (Common.limits (heavyValues weight vx hits) 0 none none).2), none,
          hits.map (fun h => (vx h, none, weight h)), xl, ""⟩ := by
  have hlen : ¬ ([] : List K).length = (hits.map vx).length := by
    simpa [eq_comm] using hne
  cases n with
  | none => simp only [makeRootHistogram, if_neg hlen, minMax_hits]
  | some n =>
    simp only [makeRootHistogram, if_neg hlen, minMax_hits]
    simp only [List.length_map, if_true, List.zip_map', List.map_map]
    rfl

theorem hist_two (weight vx vy : H → K) (hits : List H) (n m : Int)
    (xl yl : String) (xmin xmax ymin ymax : Option K) :
    (makeRootHistogram xl (some n) yl (some m) (hits.map weight) xmin xmax ymin ymax
        (hits.map vx, hits.map vy)).1 =
      .ok ⟨n, (xmin.getD (Common.limits (heavyValues weight vx hits) 0 none none).1,
          xmax.getD (Common.limits (heavyValues weight vx hits) 0 none none).2),
          some (m, ymin.getD (Common.limits (heavyValues weight vy hits) 0 none none).1,
            ymax.getD (Common.limits (heavyValues weight vy hits) 0 none none).2),
          hits.map (fun h => (vx h, some (vy h), weight h)), xl, yl⟩ := by
  simp only [makeRootHistogram, List.length_map, if_true, minMax_hits, List.zip_map', List.map_map]
  rfl

/-! ### C98 -/

/-- C98_partial: a histogram of one variable of a bunch that is not empty is filled with every hit
once, in order, at its value in the units given and with its weight; it has the bins asked for, one
for every ten hits by default, and the limits asked for; by default the closed interval between the
limits contains the hits of weight above 1e-6 and is their range.
Missing: that the bins contain them (false, see C98_largest_false), hits of negative weight (false,
see C98_negative_false), empty bunches (false, see C98_empty_false). -/
theorem C98_partial [FloorRing K] (pow07 : K → K) (weight : H → K) (hits : List H) (hne : hits ≠ [])
    (x : Axis H K) (vx : H → K) (hx : ∀ h ∈ hits, At x h (vx h)) (nx ny : Option Int) (draw : String)
    (xmin xmax ymin ymax : Option K) :
    ∃ g lo hi, rootHistogram pow07 weight hits x none nx ny draw xmin xmax ymin ymax = .ok g ∧
      g.fills = hits.map (fun h => (vx h, none, weight h)) ∧ g.y = none ∧
      g.nx = nx.getD ⌊(hits.length : K) / 10⌋ ∧ g.xlim = (xmin.getD lo, xmax.getD hi) ∧
      Encloses lo hi (heavyValues weight vx hits) 0 ∧ g.xlabel = Label x.name x.units := by
  have h := hist_one weight vx hits hne (some (nx.getD ⌊(hits.length : K) / 10⌋)) ny
    (Label x.name x.units) "" xmin xmax ymin ymax
  exact ⟨_, _, _, by simp only [rootHistogram, list_ok x vx hits hx, label_eq]; exact h,
    rfl, rfl, rfl, rfl, limits_encloses (heavyValues weight vx hits) 0 le_rfl, rfl⟩

/-- C98_two_dimensions: with a second variable (and no draw option) the histogram is filled with
every hit once, in order, at both values and with its weight, within the limits asked for or the
range of the hits of weight above 1e-6. -/
theorem C98_two_dimensions [FloorRing K] (pow07 : K → K) (weight : H → K) (hits : List H)
    (x y : Axis H K) (vx vy : H → K) (hx : ∀ h ∈ hits, At x h (vx h)) (hy : ∀ h ∈ hits, At y h (vy h))
    (nx ny : Option Int) (xmin xmax ymin ymax : Option K) :
    ∃ g lo hi lo' hi' n, rootHistogram pow07 weight hits x (some y) nx ny "" xmin xmax ymin ymax = .ok g ∧
      g.fills = hits.map (fun h => (vx h, some (vy h), weight h)) ∧
      g.nx = nx.getD n ∧ g.y = some (ny.getD n, ymin.getD lo', ymax.getD hi') ∧
      g.xlim = (xmin.getD lo, xmax.getD hi) ∧
      Encloses lo hi (heavyValues weight vx hits) 0 ∧ Encloses lo' hi' (heavyValues weight vy hits) 0 ∧
      g.xlabel = Label x.name x.units ∧ g.ylabel = Label y.name y.units := by
  have h := hist_two weight vx vy hits (nx.getD ⌊pow07 (hits.length : K) / 10⌋)
    (ny.getD ⌊pow07 (hits.length : K) / 10⌋) (Label x.name x.units) (Label y.name y.units)
    xmin xmax ymin ymax
  exact ⟨_, _, _, _, _, ⌊pow07 (hits.length : K) / 10⌋, by
    simp only [rootHistogram, list_ok x vx hits hx, list_ok y vy hits hy, label_eq, if_true]; exact h,
    rfl, rfl, rfl, rfl, limits_encloses (heavyValues weight vx hits) 0 le_rfl,
    limits_encloses (heavyValues weight vy hits) 0 le_rfl, rfl, rfl⟩

theorem above_limit [FloorRing K] (pow07 : K → K) (weight : H → K) (hits : List H)
    (x : Axis H K) (vx : H → K) (hx : ∀ h ∈ hits, At x h (vx h)) (nx ny : Option Int) (draw : String)
    (xmin ymin ymax : Option K) (a b c : H) (ha : a ∈ hits) (hb : b ∈ hits) (hc : c ∈ hits)
    (wa : 1 / 1000000 < weight a) (wb : 1 / 1000000 < weight b)
    (hab : ∀ h ∈ hits, 1 / 1000000 < weight h → vx a ≤ vx h ∧ vx h ≤ vx b)
    (hspread : 1 / 1000000000 ≤ vx b - vx a) (hcb : vx b ≤ vx c) :
    ∃ g, rootHistogram pow07 weight hits x none nx ny draw xmin none ymin ymax = .ok g ∧
      (vx c, none, weight c) ∈ g.fills ∧ ¬ InBins g.xlim (vx c) := by
  obtain ⟨g, lo, hi, h1, h2, -, -, h3, h4, -⟩ := C98_partial pow07 weight hits
    (List.ne_nil_of_mem ha) x vx hx nx ny draw xmin none ymin ymax
  have mem : ∀ h, h ∈ hits → 1 / 1000000 < weight h → vx h ∈ heavyValues weight vx hits := by
    intro h hh hw
    exact List.mem_map.mpr ⟨h, List.mem_filter.mpr ⟨hh, by simpa using hw⟩, rfl⟩
  have he := h4.exact (vx a) (vx b) (mem a ha wa) (mem b hb wb) (by
    intro v hv
    obtain ⟨h, hh, rfl⟩ := List.mem_map.mp hv
    have := List.mem_filter.mp hh
    exact hab h this.1 (by simpa using this.2)) (by simpa using hspread)
  refine ⟨g, h1, ?_, ?_⟩
  · rw [h2]
    exact List.mem_map.mpr ⟨c, hc, rfl⟩
  · rw [h3]
    rintro ⟨-, h⟩
    simp only [Option.getD_none, he.2, mul_zero, add_zero] at h
    exact absurd h (not_lt.mpr hcb)

/-- C98 is false: ROOT's bins do not include the upper limit, which is the largest value of a hit of
weight above 1e-6.  Whenever these hits spread by 1e-9 or more and no xmax is given, every hit with
the largest value is in the overflow of the histogram, not in a bin. -/
theorem C98_largest_false [FloorRing K] (pow07 : K → K) (weight : H → K) (hits : List H)
    (x : Axis H K) (vx : H → K) (hx : ∀ h ∈ hits, At x h (vx h)) (nx ny : Option Int) (draw : String)
    (xmin ymin ymax : Option K) (a b : H) (ha : a ∈ hits) (hb : b ∈ hits)
    (wa : 1 / 1000000 < weight a) (wb : 1 / 1000000 < weight b)
    (hab : ∀ h ∈ hits, 1 / 1000000 < weight h → vx a ≤ vx h ∧ vx h ≤ vx b)
    (hspread : 1 / 1000000000 ≤ vx b - vx a) :
    ∃ g, rootHistogram pow07 weight hits x none nx ny draw xmin none ymin ymax = .ok g ∧
      (vx b, none, weight b) ∈ g.fills ∧ ¬ InBins g.xlim (vx b) :=
  above_limit pow07 weight hits x vx hx nx ny draw xmin ymin ymax a b b ha hb hb wa wb hab hspread le_rfl

/-- C98 is false: hits of negative weight do not count for the limits: such a hit above the others is
in the overflow of the histogram. -/
theorem C98_negative_false [FloorRing K] (pow07 : K → K) (weight : H → K) (hits : List H)
    (x : Axis H K) (vx : H → K) (hx : ∀ h ∈ hits, At x h (vx h)) (nx ny : Option Int) (draw : String)
    (xmin ymin ymax : Option K) (a b c : H) (ha : a ∈ hits) (hb : b ∈ hits) (hc : c ∈ hits)
    (wa : 1 / 1000000 < weight a) (wb : 1 / 1000000 < weight b) (_wc : weight c < 0)
    (hab : ∀ h ∈ hits, 1 / 1000000 < weight h → vx a ≤ vx h ∧ vx h ≤ vx b)
    (hspread : 1 / 1000000000 ≤ vx b - vx a) (hcb : vx b < vx c) :
    ∃ g, rootHistogram pow07 weight hits x none nx ny draw xmin none ymin ymax = .ok g ∧
      (vx c, none, weight c) ∈ g.fills ∧ ¬ InBins g.xlim (vx c) :=
  above_limit pow07 weight hits x vx hx nx ny draw xmin ymin ymax a b c ha hb hc wa wb hab hspread hcb.le

/-- C98 is false: when a draw option is given the second variable is forgotten: the result is the
histogram of the first variable, if the number of bins is given, and TypeError otherwise. -/
theorem C98_draw_option_false [FloorRing K] (pow07 : K → K) (weight : H → K) (hits : List H)
    (hne : hits ≠ []) (x y : Axis H K) (vx : H → K) (hx : ∀ h ∈ hits, At x h (vx h)) (ny : Option Int)
    (draw : String) (hd : draw ≠ "") (xmin xmax ymin ymax : Option K) :
    (∀ n, ∃ g, rootHistogram pow07 weight hits x (some y) (some n) ny draw xmin xmax ymin ymax = .ok g ∧
      g.y = none ∧ g.fills = hits.map (fun h => (vx h, none, weight h))) ∧
    rootHistogram pow07 weight hits x (some y) none ny draw xmin xmax ymin ymax = .error .TypeError := by
  constructor
  · intro n
    refine ⟨⟨n, (xmin.getD (Common.limits (heavyValues weight vx hits) 0 none none).1,
        xmax.getD (Common.limits (heavyValues weight vx hits) 0 none none).2), none,
        hits.map (fun h => (vx h, none, weight h)), Label x.name x.units, ""⟩, ?_, rfl, rfl⟩
    simp only [rootHistogram, list_ok x vx hits hx, if_neg hd, label_eq]
    exact hist_one weight vx hits hne (some n) ny _ _ xmin xmax ymin ymax
  · simp only [rootHistogram, list_ok x vx hits hx, if_neg hd, label_eq]
    exact hist_one weight vx hits hne none ny _ _ xmin xmax ymin ymax

/-- C98 is false: the histogram of one variable of an empty bunch raises TypeError, because no data
is as many as no second data. -/
theorem C98_empty_false [FloorRing K] (pow07 : K → K) (weight : H → K) (x : Axis H K) (nx : Option Int)
    (draw : String) (xmin xmax ymin ymax : Option K) :
    rootHistogram pow07 weight [] x none nx none draw xmin xmax ymin ymax = .error .TypeError := by
  have := minMax_hits weight weight ([] : List H) xmin xmax
  have := minMax_hits weight weight ([] : List H) ymin ymax
  simp_all [rootHistogram, Axis.list, makeRootHistogram]

/-- C98 is false: with fewer than ten hits the histogram is made with no bins. -/
theorem C98_few_false [FloorRing K] (pow07 : K → K) (weight : H → K) (hits : List H) (hne : hits ≠ [])
    (hfew : hits.length < 10) (x : Axis H K) (vx : H → K) (hx : ∀ h ∈ hits, At x h (vx h))
    (ny : Option Int) (draw : String) (xmin xmax ymin ymax : Option K) :
    ∃ g, rootHistogram pow07 weight hits x none none ny draw xmin xmax ymin ymax = .ok g ∧ g.nx = 0 := by
  obtain ⟨g, lo, hi, h1, -, -, h2, -⟩ := C98_partial pow07 weight hits hne x vx hx none ny draw
    xmin xmax ymin ymax
  refine ⟨g, h1, ?_⟩
  rw [h2, Option.getD_none, Int.floor_eq_zero_iff]
  have : (hits.length : K) < 10 := by exact_mod_cast hfew
  constructor
  · positivity
  · rw [div_lt_one (by norm_num)]
    exact this

/-- C98 is false for matplotlib: with fewer than ten hits of non-zero weight nothing is drawn. -/
theorem C98_matplot_few_false [FloorRing K] (weight : H → K) (hits : List H) (x : Axis H K)
    (hfew : (hits.filter fun h => decide (|weight h| > 0)).length < 10) (drawn : List (K × K))
    (h : matplotHistogram weight hits x = .ok drawn) : drawn = [] := by
  have hn : ⌊((hits.filter fun h => decide (|weight h| > 0)).length : K) / 10 + 1⌋ = 1 := by
    have h2 : ((hits.filter fun h => decide (|weight h| > 0)).length : K) < 10 := by exact_mod_cast hfew
    have h1 : (0 : K) ≤ ((hits.filter fun h => decide (|weight h| > 0)).length : K) := by positivity
    rw [Int.floor_eq_iff]
    generalize ((hits.filter fun h => decide (|weight h| > 0)).length : K) = n at *
    constructor
    · have : 0 ≤ n / 10 := by positivity
      push_cast; linarith
    · have : n / 10 < 1 := by rw [div_lt_one (by norm_num)]; exact h2
      push_cast; linarith
  unfold matplotHistogram at h
  simp only [hn, Int.toNat_one] at h
  split at h
  · cases h
  · unfold Hist.makeHistogram at h
    split at h
    · cases h
    · simp only [one_ne_zero, if_false] at h
      split at h
      · cases h
      · split at h
        · cases h
        · simp only [Except.ok.injEq] at h
          rw [← h]
          simp [Hist.binned, Hist.equalEdges]

/-- an axis, in cm, on which hits that are a position and a weight are at their position -/
def cmAxis : Axis (ℚ × ℚ) ℚ := ⟨"x", "cm", some 10, fun h => .ok h.1⟩

/-- case for C98_partial, C98_largest_false: eleven hits, the last at the upper limit -/
example : (rootHistogram id Prod.snd ((List.range 11).map fun (i : Nat) => (10 * (i : ℚ), (1 : ℚ)))
      cmAxis none none none "" none none none none).toOption.map
        (fun g => (g.nx, g.xlim, g.fills.length, g.xlabel)) = some (1, (0, 10), 11, "x [cm]") := by
  decide +kernel

/-- case for C98_negative_false, C98_few_false -/
example : (rootHistogram id Prod.snd [(10, 1), (30, 1), (500, -1)] cmAxis none none none "" none none
      none none).toOption.map (fun g => (g.nx, g.xlim, g.fills.map (·.1))) =
    some (0, (1, 3), [1, 3, 50]) := by decide +kernel

/-- case for C98_two_dimensions and C98_draw_option_false -/
example : rootHistogram id Prod.snd [(10, 1), (30, 1)] cmAxis
        (some ⟨"weight", "", some 1, fun h => .ok h.2⟩) (some 5) (some 6) "" none none none (some 7) =
      .ok ⟨5, (1, 3), some (6, 0, 7), [(1, some 1, 1), (3, some 1, 1)], "x [cm]", "weight"⟩ ∧
    rootHistogram id Prod.snd [(10, 1), (30, 1)] cmAxis
        (some ⟨"weight", "", some 1, fun h => .ok h.2⟩) (some 5) (some 6) "LEGO" none none none none =
      .ok ⟨5, (1, 3), none, [(1, none, 1), (3, none, 1)], "x [cm]", ""⟩ := by decide +kernel

/-- case for C98_matplot_few_false -/
example : matplotHistogram Prod.snd [(10, 1), (30, 1), (500, (1 : ℚ))] cmAxis = .ok [] := by decide +kernel

/-! ### make_root_graph -/

theorem sort_two (xs ys : List K) (hl : xs.length = ys.length) :
    ∃ o0 o1, Common.multisort [xs, ys] = .ok [o0, o1] ∧ o0.length = xs.length ∧ o1.length = ys.length ∧
      o0.Perm xs ∧ o1.Perm ys ∧ SortedByX (o0.zip o1) (xs.zip ys) := by
  obtain ⟨o0, orest, h1, h2, h3, h4, h5, h6, h7⟩ := C31_multisort xs [ys] (by simp [hl])
  have : ∃ o1, orest = [o1] ∧ o1.length = ys.length := by
    cases orest with
    | nil => simp at h4
    | cons o1 r =>
      cases r with
      | nil => exact ⟨o1, rfl, by simpa [h2] using h4⟩
      | cons _ _ => simp at h4
  obtain ⟨o1, rfl, h8⟩ := this
  have e1 := rowsOf_two xs ys hl
  have e2 := rowsOf_two o0 o1 (by omega)
  rw [h2] at e2
  have hp : (o0.zip o1).Perm (xs.zip ys) := by
    have := h6.map (fun r => (r.getD 0 0, r.getD 1 0))
    rwa [e1, e2] at this
  have px : o0.Perm xs := by
    have := hp.map Prod.fst
    rwa [List.map_fst_zip (by omega), List.map_fst_zip (by omega)] at this
  have py : o1.Perm ys := by
    have := hp.map Prod.snd
    rwa [List.map_snd_zip (by omega), List.map_snd_zip (by omega)] at this
  refine ⟨o0, o1, h1, h2, h8, px, py, ?_, hp, ?_⟩
  · have : (o0.zip o1).map Prod.fst = o0 := List.map_fst_zip (by omega)
    rw [← this, List.pairwise_map] at h3
    exact h3
  · intro k
    have key : ∀ c0 c1 : List K, c0.length = xs.length →
        (rowsOf [c0, c1] xs.length).map (fun r => (r.getD 0 0, r.getD 1 0)) = c0.zip c1 →
        (c0.zip c1).filter (fun p => decide (p.1 = k)) =
          ((rowsOf [c0, c1] xs.length).filter (fun r => decide (r.head? = some k))).map
            (fun r => (r.getD 0 0, r.getD 1 0)) := by
      intro c0 c1 hc he
      rw [← he, List.filter_map]
      congr 1
      apply List.filter_congr
      intro r hr
      obtain ⟨i, _, rfl⟩ := List.mem_map.mp hr
      simp [rowAt]
    rw [key o0 o1 h2 e2, key xs ys rfl e1, h7 k]

/-- what make_root_graph makes of two lists -/
structure ShowsRoot (g : RootGraph K) (xs ys : List K) (xmin xmax ymin ymax : Option K) : Prop where
  bins : g.axes.nx = 1000 ∧ g.axes.fills = []
  xlim : ∃ lo hi, Encloses lo hi xs (1 / 10) ∧ g.axes.xlim = (xmin.getD lo, xmax.getD hi)
  ylim : ∃ lo hi, Encloses lo hi ys (1 / 10) ∧ g.axes.y = some (1000, ymin.getD lo, ymax.getD hi)

theorem minMax_some (xs : List K) (hx : xs ≠ []) (a b : Option K) :
    Common.minMax [] (1 / 10) a b xs =
      (.ok (a.getD (Common.limits xs (1 / 10) none none).1, b.getD (Common.limits xs (1 / 10) none none).2),
        xs) := by
  have : ¬ ([] : List K).length = xs.length := by
    rw [List.length_nil]; exact fun h => hx (List.length_eq_zero_iff.mp h.symm)
  simp only [Common.minMax, if_neg this, Common.appendHeavy]
  rfl

theorem makeRootGraph_ok (xl yl : String) (sort : Bool) (xs ys : List K) (hx : xs ≠ [])
    (hl : xs.length = ys.length) (xmin xmax ymin ymax : Option K) :
    ∃ g, makeRootGraph xl yl sort xmin xmax ymin ymax (xs, ys) = (.ok g, (xs, ys)) ∧
      ShowsRoot g xs ys xmin xmax ymin ymax ∧ g.axes.xlabel = xl ∧ g.axes.ylabel = yl ∧
      (sort = true → SortedByX g.points (xs.zip ys)) ∧ (sort = false → g.points = xs.zip ys) := by
  have hx0 : ¬ (xs.length = 0 ∨ xs.length ≠ ys.length) := by
    rintro (h | h)
    · exact hx (List.length_eq_zero_iff.mp h)
    · exact h hl
  have hy : ys ≠ [] := fun h => hx (List.length_eq_zero_iff.mp (by rw [hl, h]; rfl))
  have hm : (0 : K) ≤ 1 / 10 := by norm_num
  have fin : ∀ o0 o1 : List K, o0.Perm xs → o1.Perm ys →
      (if sort then Common.multisort [xs, ys] else .ok [xs, ys]) = .ok [o0, o1] →
      ∃ g, makeRootGraph xl yl sort xmin xmax ymin ymax (xs, ys) = (.ok g, (xs, ys)) ∧
        ShowsRoot g xs ys xmin xmax ymin ymax ∧ g.axes.xlabel = xl ∧ g.axes.ylabel = yl ∧
        g.points = o0.zip o1 := by
    intro o0 o1 px py hs
    have n0 : o0 ≠ [] := fun h => hx (by rw [h] at px; exact px.nil_eq.symm)
    have n1 : o1 ≠ [] := fun h => hy (by rw [h] at py; exact py.nil_eq.symm)
    have e : ∀ (a b c d : K), makeRootHistogram xl (some 1000) yl (some 1000) [] (some a) (some b)
        (some c) (some d) (([] : List K), []) = (.ok ⟨1000, (a, b), some (1000, c, d), [], xl, yl⟩, ([], [])) := by
      intro a b c d
      simp [makeRootHistogram, Common.minMax, Common.limits]
    refine ⟨⟨⟨1000, _, some (1000, _), [], xl, yl⟩, o0.zip o1⟩, ?_, ⟨⟨rfl, rfl⟩,
      ⟨_, _, (limits_encloses o0 _ hm).perm px.symm, rfl⟩,
      ⟨_, _, (limits_encloses o1 _ hm).perm py.symm, rfl⟩⟩, rfl, rfl, rfl⟩
    simp only [makeRootGraph, if_neg hx0, hs, minMax_some o0 n0, minMax_some o1 n1, e]
  cases sort with
  | false =>
    obtain ⟨g, h1, h2, h3, h4, h5⟩ := fin xs ys (List.Perm.refl _) (List.Perm.refl _) rfl
    exact ⟨g, h1, h2, h3, h4, by simp, fun _ => h5⟩
  | true =>
    obtain ⟨o0, o1, h1, -, -, px, py, h6⟩ := sort_two xs ys hl
    obtain ⟨g, g1, g2, g3, g4, g5⟩ := fin o0 o1 px py h1
    exact ⟨g, g1, g2, g3, g4, fun _ => g5 ▸ h6, by simp⟩

/-! ### C99 -/

theorem pairs_exist (x y : Axis H K) : ∀ bs : List H, ∃ ps, Pairs x y bs ps
  | [] => ⟨[], .nil⟩
  | b :: bs => by
    obtain ⟨ps, hps⟩ := pairs_exist x y bs
    by_cases h : ∃ a c, At x b a ∧ At y b c
    · obtain ⟨a, c, h1, h2⟩ := h
      exact ⟨_, .both h1 h2 hps⟩
    · push Not at h
      exact ⟨ps, .skip (fun a c ⟨h1, h2⟩ => h a c h1 h2) hps⟩

theorem graphLoop_eq (x y : Axis H K) : ∀ (bs : List H) (ps : List (K × K)), Pairs x y bs ps →
    ∀ xs ys : List K, xs.length = ys.length →
      graphLoop x y bs xs ys = (xs ++ ps.map Prod.fst, ys ++ ps.map Prod.snd)
  | [], ps, h, xs, ys, _ => by cases h; simp [graphLoop]
  | b :: bs, ps, h, xs, ys, hl => by
    cases h with
    | both h1 h2 h3 =>
      rw [graphLoop, get_of_at h1]
      simp only [get_of_at h2]
      rw [graphLoop_eq x y bs _ h3 _ _ (by simp [hl])]
      simp
    | skip h1 h2 =>
      have e1 : dropUnpaired xs ys = (xs, ys) := by simp [dropUnpaired, hl]
      rw [graphLoop]
      split
      · rw [e1]; exact graphLoop_eq x y bs ps h2 xs ys hl
      · rename_i v hv
        split
        · have e2 : dropUnpaired (xs ++ [v]) ys = (xs, ys) := by simp [dropUnpaired, hl]
          rw [e2]; exact graphLoop_eq x y bs ps h2 xs ys hl
        · rename_i u hu
          exact absurd ⟨at_of_get hv, at_of_get hu⟩ (h1 v u)

theorem zip_fst_snd : ∀ ps : List (K × K), (ps.map Prod.fst).zip (ps.map Prod.snd) = ps
  | [] => rfl
  | p :: ps => by simp [zip_fst_snd ps]

/-- the label of an axis of a graph: variable( axes ) [units] -/
def GraphLabel (name : String) (axes : List String) (units : String) : String :=
  Label (name ++ "( " ++ String.join (axes.map fun a => a ++ " ") ++ ")") units

theorem foldl_join : ∀ (l : List String) (s : String),
    l.foldl (fun s v => s ++ (v ++ " ")) s = s ++ String.join (l.map fun a => a ++ " ")
  | [], s => by simp [String.join]
  | a :: l, s => by
    rw [List.foldl_cons, foldl_join l, List.map_cons, String.join_cons, String.append_assoc]

theorem graphLabel_eq (a : Axis H K) (axes : List String) :
    graphLabel a axes = GraphLabel a.name axes a.units := by
  unfold graphLabel GraphLabel Label
  simp only [foldl_join]

/-- C99_partial: without comparator, root_graph draws one point for every bunch for which both
quantities can be calculated, in order of x and for equal x in the order of the bunches, on axes
that extend a tenth beyond the outermost points unless limits are given; the bunches for which one
of them raises are left out.  Missing: comparators (false, see C99_comparator_false). -/
theorem C99_partial (bunches : List H) (x y : Axis H K) (xaxes yaxes : List String) (ps : List (K × K))
    (hps : Pairs x y bunches ps) (hne : ps ≠ []) (xmin xmax ymin ymax : Option K) :
    ∃ g, rootGraph bunches x y xaxes yaxes false xmin xmax ymin ymax = .ok g ∧
      SortedByX g.points ps ∧ ShowsRoot g (ps.map Prod.fst) (ps.map Prod.snd) xmin xmax ymin ymax ∧
      g.axes.xlabel = GraphLabel x.name xaxes x.units ∧ g.axes.ylabel = GraphLabel y.name yaxes y.units := by
  have e := graphLoop_eq x y bunches ps hps [] [] rfl
  rw [List.nil_append, List.nil_append] at e
  obtain ⟨g, h1, h2, h3, h4, h5, -⟩ := makeRootGraph_ok (graphLabel x xaxes) (graphLabel y yaxes) true
    (ps.map Prod.fst) (ps.map Prod.snd) (by simpa using hne) (by simp) xmin xmax ymin ymax
  refine ⟨g, ?_, ?_, h2, ?_, ?_⟩
  · simp only [rootGraph, e, Bool.not_false, h1, Bool.false_eq_true, if_false]
  · have := h5 rfl
    rwa [zip_fst_snd] at this
  · rw [h3, graphLabel_eq]
  · rw [h4, graphLabel_eq]

/-- C99: for every collection of bunches there are such points; without any of them root_graph raises
IndexError. -/
theorem C99_no_points (bunches : List H) (x y : Axis H K) (xaxes yaxes : List String)
    (h : ∀ b ∈ bunches, ∀ a c, ¬ (At x b a ∧ At y b c)) (xmin xmax ymin ymax : Option K) :
    rootGraph bunches x y xaxes yaxes false xmin xmax ymin ymax = .error .IndexError := by
  have hp : Pairs x y bunches [] := by
    induction bunches with
    | nil => exact .nil
    | cons b bs ih => exact .skip (h b (by simp)) (ih fun b hb => h b (by simp [hb]))
  have e := graphLoop_eq x y bunches [] hp [] [] rfl
  rw [List.nil_append, List.nil_append] at e
  simp [rootGraph, e, makeRootGraph]

/-- C99 is false: with a comparator both graphs raise TypeError, whatever the bunches. -/
theorem C99_comparator_false (bunches : List H) (x y : Axis H K) (xaxes yaxes : List String)
    (xmin xmax ymin ymax : Option K) :
    rootGraph bunches x y xaxes yaxes true xmin xmax ymin ymax = .error .TypeError ∧
    matplotGraph bunches x y true = .error .TypeError := ⟨rfl, rfl⟩

theorem scatterLoop_eq (weight : H → K) (x y : Axis H K) (vx vy : H → K) (incl : Bool) :
    ∀ (hs : List H), (∀ h ∈ hs, (1 / 1000000000 < |weight h| ∨ incl = true) → At x h (vx h) ∧ At y h (vy h)) →
    ∀ xs ys : List K, scatterLoop weight x y incl hs xs ys =
      .ok (xs ++ (hs.filter fun h => decide (1 / 1000000000 < |weight h| ∨ incl = true)).map vx,
        ys ++ (hs.filter fun h => decide (1 / 1000000000 < |weight h| ∨ incl = true)).map vy)
  | [], _, xs, ys => by simp [scatterLoop]
  | h :: hs, hv, xs, ys => by
    have ih := scatterLoop_eq weight x y vx vy incl hs (fun k hk => hv k (by simp [hk]))
    rw [scatterLoop]
    by_cases hw : 1 / 1000000000 < |weight h| ∨ incl = true
    · obtain ⟨h1, h2⟩ := hv h (by simp) hw
      rw [if_pos hw, get_of_at h1]
      simp only [get_of_at h2, ih]
      rw [List.filter_cons_of_pos (by simpa using hw)]
      simp
    · rw [if_neg hw, ih, List.filter_cons_of_neg (by simpa using hw)]

theorem scatterLoop_error (weight : H → K) (x y : Axis H K) (b : H) :
    ∀ (hs : List H), b ∈ hs → (∀ a c, ¬ (At x b a ∧ At y b c)) →
    ∀ xs ys : List K, ∃ e, scatterLoop weight x y true hs xs ys = .error e
  | [], hb, _, _, _ => by cases hb
  | h :: hs, hb, hv, xs, ys => by
    rw [scatterLoop, if_pos (.inr rfl)]
    split
    · exact ⟨_, rfl⟩
    · rename_i v hv'
      split
      · exact ⟨_, rfl⟩
      · rename_i u hu
        rcases List.mem_cons.mp hb with rfl | hb
        · exact absurd ⟨at_of_get hv', at_of_get hu⟩ (hv v u)
        · exact scatterLoop_error weight x y b hs hb hv _ _

theorem makeMatplotGraph_ok (sort : Bool) (xs ys : List K) (hx : xs ≠ []) (hl : xs.length = ys.length) :
    ∃ g, makeMatplotGraph sort (xs, ys) = (.ok g, (g.xs, g.ys)) ∧ SortedByX (g.xs.zip g.ys) (xs.zip ys) ∧
      g.xs.length = g.ys.length ∧
      Encloses g.xlim.1 g.xlim.2 xs (1 / 10) ∧ Encloses g.ylim.1 g.ylim.2 ys (1 / 10) := by
  have hx0 : ¬ (xs.length = 0 ∨ xs.length ≠ ys.length) := by
    rintro (h | h)
    · exact hx (List.length_eq_zero_iff.mp h)
    · exact h hl
  have hy : ys ≠ [] := fun h => hx (List.length_eq_zero_iff.mp (by rw [hl, h]; rfl))
  have hm : (0 : K) ≤ 1 / 10 := by norm_num
  obtain ⟨o0, o1, h1, l0, l1, px, py, h6⟩ := sort_two xs ys hl
  have n0 : o0 ≠ [] := fun h => hx (by rw [h] at px; exact px.nil_eq.symm)
  have n1 : o1 ≠ [] := fun h => hy (by rw [h] at py; exact py.nil_eq.symm)
  simp only [makeMatplotGraph, if_neg hx0, h1, minMax_plain o0 n0, minMax_plain o1 n1]
  exact ⟨⟨o0, o1, _, _⟩, rfl, h6, by rw [l0, l1, hl], (limits_encloses _ _ hm).perm px.symm,
    (limits_encloses _ _ hm).perm py.symm⟩

/-- C99_matplot: matplot_graph draws the same points if both quantities can be calculated for all
bunches, and raises if one of them cannot. -/
theorem C99_matplot (bunches : List H) (hne : bunches ≠ []) (x y : Axis H K) :
    (∀ vx vy : H → K, (∀ b ∈ bunches, At x b (vx b) ∧ At y b (vy b)) →
      ∃ g, matplotGraph bunches x y false = .ok g ∧
        SortedByX (g.xs.zip g.ys) (bunches.map fun b => (vx b, vy b)) ∧ g.xs.length = g.ys.length ∧
        Encloses g.xlim.1 g.xlim.2 (bunches.map vx) (1 / 10) ∧
        Encloses g.ylim.1 g.ylim.2 (bunches.map vy) (1 / 10)) ∧
    ((∃ b ∈ bunches, ∀ a c, ¬ (At x b a ∧ At y b c)) → ∃ e, matplotGraph bunches x y false = .error e) := by
  constructor
  · intro vx vy hv
    have e := scatterLoop_eq (fun _ => (0 : K)) x y vx vy true bunches (fun b hb _ => hv b hb) [] []
    simp only [or_true, decide_true, List.filter_true, List.nil_append] at e
    obtain ⟨g, h1, h2, h3, h4, h5⟩ := makeMatplotGraph_ok true (bunches.map vx) (bunches.map vy)
      (by simpa using hne) (by simp)
    refine ⟨g, ?_, ?_, h3, h4, h5⟩
    · simp only [matplotGraph, Bool.false_eq_true, if_false, e, h1]
    · rwa [List.zip_map'] at h2
  · rintro ⟨b, hb, hv⟩
    obtain ⟨e, he⟩ := scatterLoop_error (fun _ => (0 : K)) x y b bunches hb hv [] []
    exact ⟨e, by simp only [matplotGraph, Bool.false_eq_true, if_false, he]⟩

/-- case for C99_partial and C99_matplot: four bunches, one without y -/
def bunchX : Axis (ℚ × Option ℚ) ℚ := ⟨"mean", "m", some 1000, fun b => .ok b.1⟩
/-- its y axis -/
def bunchY : Axis (ℚ × Option ℚ) ℚ :=
  ⟨"emittance", "", some 1, fun b => match b.2 with | some v => .ok v | none => .error .ZeroDivisionError⟩

example : Pairs bunchX bunchY [(3000, some 1), (2000, none), (1000, some 5)] [(3, 1), (1, 5)] := by
  refine .both ⟨3000, 1000, rfl, rfl, by norm_num⟩ ⟨1, 1, rfl, rfl, by norm_num⟩ (.skip ?_ (.both
    ⟨1000, 1000, rfl, rfl, by norm_num⟩ ⟨5, 1, rfl, rfl, by norm_num⟩ .nil))
  rintro a c ⟨-, r, u, h, -⟩
  cases h

/-! ### C100 -/

/-- C100_partial: a scatter plot has one point for every hit, or for every hit whose weight differs
from 0 by more than 1e-9 if include_weightless is False, in order of x, on axes that extend a tenth
beyond the outermost points unless limits are given.
Missing: that hits of negative weight are left out with include_weightless False (false, see
C100_negative_false), the version for matplotlib (false, see C100_matplot_false). -/
theorem C100_partial (weight : H → K) (hits : List H) (x y : Axis H K) (incl : Bool) (vx vy : H → K)
    (kept : List H)
    (hk : kept = hits.filter fun h => decide (1 / 1000000000 < |weight h| ∨ incl = true)) (hne : kept ≠ [])
    (hv : ∀ h ∈ kept, At x h (vx h) ∧ At y h (vy h)) (xmin xmax ymin ymax : Option K) :
    ∃ g, rootScatterGraph weight hits x y incl xmin xmax ymin ymax = .ok g ∧
      SortedByX g.points (kept.map fun h => (vx h, vy h)) ∧
      ShowsRoot g (kept.map vx) (kept.map vy) xmin xmax ymin ymax ∧
      g.axes.xlabel = Label x.name x.units ∧ g.axes.ylabel = Label y.name y.units := by
  subst hk
  have e := scatterLoop_eq weight x y vx vy incl hits (fun h hh hw => hv h
    (List.mem_filter.mpr ⟨hh, by simpa using hw⟩)) [] []
  simp only [List.nil_append] at e
  obtain ⟨g, h1, h2, h3, h4, h5, -⟩ := makeRootGraph_ok (x.label "") (y.label "") true
    ((hits.filter fun h => decide (1 / 1000000000 < |weight h| ∨ incl = true)).map vx)
    ((hits.filter fun h => decide (1 / 1000000000 < |weight h| ∨ incl = true)).map vy)
    (by simpa only [ne_eq, List.map_eq_nil_iff] using hne) (by simp) xmin xmax ymin ymax
  refine ⟨g, ?_, ?_, h2, by rw [h3, label_eq], by rw [h4, label_eq]⟩
  · simp only [rootScatterGraph, e, h1]
  · have := h5 rfl
    rwa [List.zip_map'] at this

/-- C100: without hits to plot, IndexError is raised. -/
theorem C100_no_points (weight : H → K) (hits : List H) (x y : Axis H K) (incl : Bool)
    (h : ∀ h ∈ hits, |weight h| ≤ 1 / 1000000000 ∧ incl = false) (xmin xmax ymin ymax : Option K) :
    rootScatterGraph weight hits x y incl xmin xmax ymin ymax = .error .IndexError := by
  have e := scatterLoop_eq weight x y (fun _ => 0) (fun _ => 0) incl hits (fun k hk hw => by
    obtain ⟨h1, h2⟩ := h k hk
    rcases hw with hw | hw
    · exact absurd hw (not_lt.mpr h1)
    · rw [h2] at hw; cases hw) [] []
  have hf : (hits.filter fun h => decide (1 / 1000000000 < |weight h| ∨ incl = true)) = [] := by
    rw [List.filter_eq_nil_iff]
    intro k hk
    obtain ⟨h1, h2⟩ := h k hk
    simp only [decide_eq_true_eq, not_or]
    exact ⟨not_lt.mpr h1, by rw [h2]; simp⟩
  rw [hf] at e
  simp [rootScatterGraph, e, makeRootGraph]

/-- C100 is false: with include_weightless False, which is documented to leave out hits of weight
<= 0, a hit of weight below -1e-9 is plotted. -/
theorem C100_negative_false (weight : H → K) (hits : List H) (x y : Axis H K) (vx vy : H → K)
    (hv : ∀ h ∈ hits, At x h (vx h) ∧ At y h (vy h)) (h : H) (hh : h ∈ hits)
    (hw : weight h < -(1 / 1000000000)) (xmin xmax ymin ymax : Option K) :
    ∃ g, rootScatterGraph weight hits x y false xmin xmax ymin ymax = .ok g ∧ (vx h, vy h) ∈ g.points := by
  have hk : h ∈ hits.filter fun h => decide (1 / 1000000000 < |weight h| ∨ false = true) := by
    refine List.mem_filter.mpr ⟨hh, ?_⟩
    have := neg_le_abs (weight h)
    simp only [decide_eq_true_eq]
    exact .inl (by linarith)
  obtain ⟨g, h1, h2, -⟩ := C100_partial weight hits x y false vx vy _ rfl (List.ne_nil_of_mem hk)
    (fun k hk => hv k (List.mem_filter.mp hk).1) xmin xmax ymin ymax
  exact ⟨g, h1, h2.perm.mem_iff.mpr (List.mem_map.mpr ⟨h, hk, rfl⟩)⟩

/-- C100 is false: matplot_scatter_graph labels both axes with the name of the x axis and never
returns; it raises TypeError after having drawn the points. -/
theorem C100_matplot_false (weight : H → K) (hits : List H) (x y : Axis H K) (incl : Bool)
    (vx vy : H → K) (kept : List H)
    (hk : kept = hits.filter fun h => decide (1 / 1000000000 < |weight h| ∨ incl = true)) (hne : kept ≠ [])
    (hv : ∀ h ∈ kept, At x h (vx h) ∧ At y h (vy h)) :
    ∃ s, matplotScatterGraph weight hits x y incl = (some s, .error .TypeError) ∧
      s.xs = kept.map vx ∧ s.ys = kept.map vy ∧ s.ylabel = s.xlabel := by
  subst hk
  have e := scatterLoop_eq weight x y vx vy incl hits (fun h hh hw => hv h
    (List.mem_filter.mpr ⟨hh, by simpa using hw⟩)) [] []
  simp only [List.nil_append] at e
  have hl : ¬ ((hits.filter fun h => decide (1 / 1000000000 < |weight h| ∨ incl = true)).map vx).length = 0 := by
    simpa only [List.length_map, List.length_eq_zero_iff] using hne
  refine ⟨⟨_, _, x.label " ", x.label " "⟩, ?_, rfl, rfl, rfl⟩
  simp only [matplotScatterGraph, e, makeMatplotScatter, if_neg hl]
  simp

/-- case for C100_partial, C100_negative_false and C100_matplot_false -/
example : (matplotScatterGraph Prod.snd [(30, 1), (20, 0), (10, -1)] cmAxis
      ⟨"weight", "", some (1 : ℚ), fun h => .ok h.2⟩ false).1.map (fun s => (s.xs, s.ys, s.xlabel, s.ylabel)) =
    some ([3, 1], [1, -1], "x [cm] ", "x [cm] ") := by decide +kernel

/-! ### C101 -/

theorem setPoints_ok : ∀ xs ys : List K, xs.length ≤ ys.length → setPoints xs ys = .ok (xs.zip ys)
  | [], _, _ => by simp [setPoints]
  | _ :: _, [], h => by simp at h
  | x :: xs, y :: ys, h => by
    simp [setPoints, setPoints_ok xs ys (by simpa using h)]

theorem setGraphs_ok : ∀ xss yss : List (List K), List.Forall₂ (fun xs ys => xs.length ≤ ys.length) xss yss →
    setGraphs xss yss = .ok (List.zipWith List.zip xss yss)
  | _, _, .nil => by simp [setGraphs]
  | xs :: xss, ys :: yss, .cons h hs => by
    rw [setGraphs.eq_def]
    simp [setPoints_ok xs ys h, setGraphs_ok xss yss hs]

theorem minMax_any (l : List K) : (Common.minMax [] (1 / 10) none none l).1 =
    .ok (Common.limits l (1 / 10) none none) := by
  by_cases h : l = []
  · subst h; simp [Common.minMax, Common.heavy]
  · rw [minMax_plain l h]

/-- C101_partial: make_root_multigraph draws one graph for each pair of lists, with the points in the
order given, on axes that extend a tenth beyond the outermost points of all lists; the lists are only
read.  Missing: make_matplot_multigraph leaving the lists alone (false, see C101_false). -/
theorem C101_partial (xss yss : List (List K))
    (h : List.Forall₂ (fun xs ys => xs.length ≤ ys.length) xss yss) :
    ∃ xl yl, makeRootMultigraph xss yss = .ok (xl, yl, List.zipWith List.zip xss yss) ∧
      Encloses xl.1 xl.2 xss.flatten (1 / 10) ∧ Encloses yl.1 yl.2 yss.flatten (1 / 10) := by
  have hm : (0 : K) ≤ 1 / 10 := by norm_num
  refine ⟨_, _, ?_, limits_encloses xss.flatten _ hm, limits_encloses yss.flatten _ hm⟩
  simp only [makeRootMultigraph, minMax_any, setGraphs_ok xss yss h]

theorem setPoints_short : ∀ xs ys : List K, ys.length < xs.length → setPoints xs ys = .error .IndexError
  | [], _, h => by simp at h
  | _ :: _, [], _ => by simp [setPoints]
  | x :: xs, y :: ys, h => by
    simp [setPoints, setPoints_short xs ys (by simpa using h)]

/-- C101: if one of the lists of y values is shorter than its list of x values, IndexError is raised. -/
theorem C101_raises (a b : List (List K)) (xs ys : List K) (c d : List (List K))
    (h : List.Forall₂ (fun xs ys => xs.length ≤ ys.length) a b) (hl : ys.length < xs.length) :
    makeRootMultigraph (a ++ xs :: c) (b ++ ys :: d) = .error .IndexError := by
  have : setGraphs (a ++ xs :: c) (b ++ ys :: d) = .error .IndexError := by
    induction h with
    | nil => rw [List.nil_append, List.nil_append, setGraphs.eq_def]; simp [setPoints_short xs ys hl]
    | cons h1 _ ih => rw [List.cons_append, List.cons_append, setGraphs.eq_def]; simp [setPoints_ok _ _ h1, ih]
  simp only [makeRootMultigraph, minMax_any, this]

theorem plotAll_ok : ∀ xss yss : List (List K), List.Forall₂ (fun xs ys => xs.length = ys.length) xss yss →
    ∃ gs, plotAll xss yss = (.ok gs, gs.map Prod.fst, gs.map Prod.snd) ∧
      List.Forall₂ (fun g ps => g.1.length = g.2.length ∧ SortedByX (g.1.zip g.2) ps) gs
        (List.zipWith List.zip xss yss)
  | _, _, .nil => ⟨[], by simp [plotAll], by simp⟩
  | xs :: xss, ys :: yss, .cons h hs => by
    obtain ⟨o0, o1, h1, l0, l1, -, -, h6⟩ := sort_two xs ys h
    obtain ⟨gs, g1, g2⟩ := plotAll_ok xss yss hs
    have hl : o0.length = o1.length := by omega
    refine ⟨(o0, o1) :: gs, ?_, ?_⟩
    · rw [plotAll, h1]
      simp only [if_pos hl, g1, List.map_cons]
    · simp only [List.zipWith_cons_cons]
      exact .cons ⟨hl, h6⟩ g2

/-- C101_matplot: make_matplot_multigraph draws one graph for each pair of lists of the same length,
each in order of x, on axes that extend a tenth beyond the outermost points of all lists; the caller's
lists end up in the order drawn. -/
theorem C101_matplot (xss yss : List (List K))
    (h : List.Forall₂ (fun xs ys => xs.length = ys.length) xss yss) :
    ∃ xl yl gs, makeMatplotMultigraph (xss, yss) = (.ok (xl, yl, gs), gs.map Prod.fst, gs.map Prod.snd) ∧
      List.Forall₂ (fun g ps => g.1.length = g.2.length ∧ SortedByX (g.1.zip g.2) ps) gs
        (List.zipWith List.zip xss yss) ∧
      Encloses xl.1 xl.2 xss.flatten (1 / 10) ∧ Encloses yl.1 yl.2 yss.flatten (1 / 10) := by
  have hm : (0 : K) ≤ 1 / 10 := by norm_num
  obtain ⟨gs, h1, h2⟩ := plotAll_ok xss yss h
  refine ⟨_, _, gs, ?_, h2, limits_encloses xss.flatten _ hm, limits_encloses yss.flatten _ hm⟩
  simp only [makeMatplotMultigraph, minMax_any, h1]

/-- C101 is false: make_matplot_multigraph changes the caller's lists whenever one of the lists of x
values was not in order. -/
theorem C101_false (xss yss : List (List K))
    (h : List.Forall₂ (fun xs ys => xs.length = ys.length) xss yss)
    (hs : ∃ xs ∈ xss, ¬ xs.Pairwise (· ≤ ·)) :
    (makeMatplotMultigraph (xss, yss)).2 ≠ (xss, yss) := by
  obtain ⟨xl, yl, gs, h1, h2, -⟩ := C101_matplot xss yss h
  rw [h1]
  intro he
  simp only [Prod.mk.injEq] at he
  obtain ⟨xs, hx, hx'⟩ := hs
  rw [← he.1] at hx
  obtain ⟨g, hg, rfl⟩ := List.mem_map.mp hx
  obtain ⟨i, hi, rfl⟩ := List.getElem_of_mem hg
  have hp := List.forall₂_iff_get.mp h2
  have := (hp.2 i hi (hp.1 ▸ hi)).2.sorted
  have hl := (hp.2 i hi (hp.1 ▸ hi)).1
  apply hx'
  have e : (gs[i].1.zip gs[i].2).map Prod.fst = gs[i].1 := List.map_fst_zip (by
    simp only [List.get_eq_getElem] at hl; omega)
  rw [← e, List.pairwise_map]
  exact this

/-- case for C101_partial: two graphs -/
example : (makeRootMultigraph [[3, 1], [(2 : ℚ)]] [[5, 6], [4, 4]]).toOption =
      some ((4 / 5, 16 / 5), (19 / 5, 31 / 5), [[(3, 5), (1, 6)], [(2, 4)]]) ∧
    ¬ [3, (1 : ℚ)].Pairwise (· ≤ ·) := by
  decide +kernel

end Plots
end Xboa
