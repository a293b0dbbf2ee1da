import Verif.Model.FFTTune
import Verif.Props.PeakFinder
import Verif.Props.MassShell
import Mathlib.RingTheory.RootsOfUnity.Complex
import Mathlib.Analysis.SpecialFunctions.Trigonometric.Basic
import Mathlib.Algebra.Order.Archimedean.Basic
import Mathlib.Tactic.FieldSimp
import Mathlib.Tactic.LinearCombination
/-
C79: what FFTTuneFinder.get_tune returns.
-/
set_option linter.unusedSectionVars false
namespace Xboa
namespace FFTTune
variable {K : Type} [Field K] [LinearOrder K] [IsStrictOrderedRing K]

/-! ### Specification -/

/-- |sum_m u_m exp(2 pi i f m)|: how strongly the frequency `f`, in turns per sample, is present in
the data. -/
def strength (F : Fourier K) (E : Ext K) (u : List K) (f : K) : K :=
  E.sqrt ((∑ m ∈ Finset.range u.length, u.getD m 0 * F.cos (2 * F.pi * f * (m : K))) ^ 2 +
    (∑ m ∈ Finset.range u.length, u.getD m 0 * F.sin (2 * F.pi * f * (m : K))) ^ 2)

/-- What is assumed of numpy.fft.rfft: it is the discrete Fourier transform at the frequencies i/n,
i = 0 ... n/2. -/
def RfftLaw (F : Fourier K) : Prop :=
  ∀ u : List K, u ≠ [] → F.rfft u = (List.range (u.length / 2 + 1)).map fun (i : Nat) =>
    (∑ m ∈ Finset.range u.length, u.getD m 0 * F.cos (2 * F.pi * ((i : K) / (u.length : K)) * (m : K)),
     -∑ m ∈ Finset.range u.length, u.getD m 0 * F.sin (2 * F.pi * ((i : K) / (u.length : K)) * (m : K)))

/-- The data get_tune works with: the last value is dropped if there is an even number. -/
def used (u : List K) : List K := if u.length % 2 = 0 then u.dropLast else u

/-- Every point of the frequency table holds the strength of the frequency `x (n+1)/n` at the position
`x`. -/
def Table (F : Fourier K) (E : Ext K) (u : List K) (s : State K) : Prop :=
  s.ky = s.kx.map fun x => strength F E u (x * ((u.length : K) + 1) / (u.length : K))

/-! ### Python lists -/

theorem pyAt_mem {l : List K} {i : Int} {x : K} (h : pyAt l i = .ok x) : x ∈ l := by
  unfold pyAt at h
  generalize (if i < 0 then i + (l.length : Int) else i) = j at h
  simp only at h
  split at h
  · cases h
  · split at h
    · cases h
    · rename_i y hy
      cases h
      exact List.mem_of_getElem? hy

theorem pyAt_nat (l : List K) (i : Nat) (h : i < l.length) : pyAt l (i : Int) = .ok l[i] := by
  unfold pyAt
  have h0 : ¬ ((i : Int) < 0) := by omega
  simp only [h0, if_false, Int.toNat_natCast, List.getElem?_eq_getElem h]

theorem pyAt_nat_ok {l : List K} {i : Nat} {x : K} (h : pyAt l (i : Int) = .ok x) :
    l[i]? = some x := by
  unfold pyAt at h
  have h0 : ¬ ((i : Int) < 0) := by omega
  simp only [h0, if_false, Int.toNat_natCast] at h
  split at h
  · cases h
  · rename_i y hy
    cases h
    exact hy

theorem pyAt_err {l : List K} {i : Int} {e : Err} (h : pyAt l i = .error e) : e = .IndexError := by
  unfold pyAt at h
  generalize (if i < 0 then i + (l.length : Int) else i) = j at h
  simp only at h
  split at h
  · cases h; rfl
  · split at h
    · cases h; rfl
    · cases h

theorem indexOf_ok {x : K} : ∀ {l : List K} {i : Nat}, indexOf x l = .ok i →
    ∃ h : i < l.length, l[i] = x
  | [], _, h => by cases h
  | a :: r, i, h => by
    unfold indexOf at h
    split at h
    · rename_i hax
      cases h
      exact ⟨by simp, by simpa using hax⟩
    · cases hr : indexOf x r with
      | error e => rw [hr] at h; cases h
      | ok j =>
        rw [hr] at h
        cases h
        obtain ⟨hj, hx⟩ := indexOf_ok hr
        exact ⟨by simpa using hj, by simpa using hx⟩

theorem indexOf_first {x : K} : ∀ {l : List K} {i : Nat}, indexOf x l = .ok i →
    ∀ j (h : j < l.length), j < i → l[j] ≠ x
  | [], _, h => by cases h
  | a :: r, i, h => by
    unfold indexOf at h
    split at h
    · cases h; intro j _ hj; omega
    · rename_i hax
      cases hr : indexOf x r with
      | error e => rw [hr] at h; cases h
      | ok k =>
        rw [hr] at h
        cases h
        intro j hj hjk
        cases j with
        | zero => simpa using hax
        | succ j => simpa using indexOf_first hr j (by simpa using hj) (by simp at hjk; omega)

theorem indexOf_mem {x : K} : ∀ {l : List K}, x ∈ l → ∃ i, indexOf x l = .ok i
  | [], h => by simp at h
  | a :: r, h => by
    unfold indexOf
    split
    · exact ⟨0, rfl⟩
    · rename_i hax
      rcases List.mem_cons.mp h with rfl | h
      · exact absurd rfl hax
      · obtain ⟨i, hi⟩ := indexOf_mem h
        exact ⟨i + 1, by rw [hi]; rfl⟩

theorem indexOf_err {x : K} : ∀ {l : List K} {e : Err}, indexOf x l = .error e →
    e = .ValueError ∧ x ∉ l
  | [], _, h => by cases h; simp
  | a :: r, e, h => by
    refine ⟨?_, fun hm => ?_⟩
    · unfold indexOf at h
      split at h
      · cases h
      · cases hr : indexOf x r with
        | error e' =>
          rw [hr] at h
          cases h
          exact (indexOf_err hr).1
        | ok j => rw [hr] at h; cases h
    · obtain ⟨i, hi⟩ := indexOf_mem hm
      rw [hi] at h
      cases h

theorem mapErr_ok {α β : Type} {f : α → Except Err β} : ∀ {l : List α} {bs : List β},
    mapErr f l = .ok bs ↔ List.Forall₂ (fun a b => f a = .ok b) l bs
  | [], bs => by
    constructor
    · intro h; cases h; exact .nil
    · intro h; cases h; rfl
  | a :: r, bs => by
    unfold mapErr
    constructor
    · intro h
      split at h
      · cases h
      · rename_i b hb
        split at h
        · cases h
        · rename_i bs' hbs
          cases h
          exact .cons hb (mapErr_ok.mp hbs)
    · intro h
      cases h with
      | cons hb hbs => simp only [hb, mapErr_ok.mpr hbs]

theorem mapErr_err {α β : Type} {f : α → Except Err β} : ∀ {l : List α} {e : Err},
    mapErr f l = .error e → ∃ a ∈ l, f a = .error e
  | [], _, h => by cases h
  | a :: r, e, h => by
    unfold mapErr at h
    split at h
    · rename_i e' he
      cases h
      exact ⟨a, by simp, he⟩
    · split at h
      · rename_i e' he
        cases h
        obtain ⟨a', ha, hf⟩ := mapErr_err he
        exact ⟨a', by simp [ha], hf⟩
      · cases h

theorem mapErr_total {α β : Type} {f : α → Except Err β} (l : List α)
    (h : ∀ a ∈ l, ∃ b, f a = .ok b) : ∃ bs, mapErr f l = .ok bs := by
  cases hm : mapErr f l with
  | ok bs => exact ⟨bs, rfl⟩
  | error e =>
    obtain ⟨a, ha, hf⟩ := mapErr_err hm
    obtain ⟨b, hb⟩ := h a ha
    rw [hb] at hf
    cases hf

theorem maxOf_spec (a : K) (r : List K) :
    maxOf a r ∈ a :: r ∧ ∀ x ∈ a :: r, x ≤ maxOf a r := by
  induction r generalizing a with
  | nil => simp [maxOf]
  | cons b r ih =>
    have hstep : maxOf a (b :: r) = maxOf (if a < b then b else a) r := rfl
    rw [hstep]
    obtain ⟨h1, h2⟩ := ih (if a < b then b else a)
    constructor
    · rcases List.mem_cons.mp h1 with h | h
      · rw [h]; split <;> simp
      · simp [h]
    · intro x hx
      have hm := h2 (if a < b then b else a) (by simp)
      rcases List.mem_cons.mp hx with rfl | hx
      · refine le_trans ?_ hm
        split
        · rename_i h; exact h.le
        · exact le_rfl
      · rcases List.mem_cons.mp hx with rfl | hx
        · refine le_trans ?_ hm
          split
          · exact le_rfl
          · rename_i h; exact not_lt.mp h
        · exact h2 x (by simp [hx])

/-! ### The Fourier transforms -/

theorem foldl_pair {α : Type} (f g : α → K) (l : List α) (a b : K) :
    l.foldl (fun (acc : K × K) p => (acc.1 + f p, acc.2 + g p)) (a, b) =
      (a + (l.map f).sum, b + (l.map g).sum) := by
  induction l generalizing a b with
  | nil => simp
  | cons x l ih => simp only [List.foldl_cons, ih, List.map_cons, List.sum_cons, add_assoc]

theorem sum_zipIdx (f : K → Nat → K) (l : List K) (k : Nat) :
    ((l.zipIdx k).map fun p => f p.1 p.2).sum =
      ∑ m ∈ Finset.range l.length, f (l.getD m 0) (k + m) := by
  induction l generalizing k with
  | nil => simp
  | cons a l ih =>
    rw [List.zipIdx_cons, List.map_cons, List.sum_cons, ih, List.length_cons, Finset.sum_range_succ']
    simp only [List.getD_cons_succ, List.getD_cons_zero, add_zero]
    rw [add_comm]
    congr 1
    refine Finset.sum_congr rfl fun m _ => ?_
    congr 1
    omega

theorem sft_eq (F : Fourier K) (E : Ext K) (u : List K) (k : K) :
    sft F E false u k = strength F E u (k * ((u.length : K) + 1) / (u.length : K)) := by
  unfold sft strength
  simp only [Bool.false_eq_true, if_false]
  have := foldl_pair
    (fun p : K × Nat => 1 * p.1 * F.cos (2 * F.pi * (p.2 : K) * k * ((u.length : K) + 1) / (u.length : K)))
    (fun p : K × Nat => 1 * p.1 * F.sin (2 * F.pi * (p.2 : K) * k * ((u.length : K) + 1) / (u.length : K)))
    u.zipIdx 0 0
  rw [this,
    sum_zipIdx (fun a m => 1 * a * F.cos (2 * F.pi * (m : K) * k * ((u.length : K) + 1) / (u.length : K))),
    sum_zipIdx (fun a m => 1 * a * F.sin (2 * F.pi * (m : K) * k * ((u.length : K) + 1) / (u.length : K)))]
  simp only [zero_add, one_mul]
  have hf : ∀ m : Nat, 2 * F.pi * (m : K) * k * ((u.length : K) + 1) / (u.length : K) =
      2 * F.pi * (k * ((u.length : K) + 1) / (u.length : K)) * (m : K) := by
    intro m; ring
  simp only [hf]

/-- the number of points of the spectrum of `n` values -/
def bins (n : Nat) : Nat := n / 2 + 1

/-- The tables that _fft_find_peaks makes from `n` values, n odd: position i/(n+1), value the
strength of the frequency i/n. -/
def Spectrum (F : Fourier K) (E : Ext K) (u : List K) (s : State K) : Prop :=
  s.kx = (List.range (bins u.length)).map (fun (i : Nat) => (i : K) / ((u.length : K) + 1)) ∧
  s.ky = (List.range (bins u.length)).map (fun (i : Nat) => strength F E u ((i : K) / (u.length : K)))

theorem Spectrum.table {F : Fourier K} {E : Ext K} {u : List K} {s : State K}
    (h : Spectrum F E u s) : Table F E u s := by
  unfold Table
  rw [h.1, h.2, List.map_map]
  refine List.map_congr_left fun i _ => ?_
  have h1 : ((u.length : K) + 1) ≠ 0 := by positivity
  simp only [Function.comp_apply]
  rw [div_mul_cancel₀ _ h1]

/-- _find_peaks only touches the lists of peaks -/
def SameTables (s s' : State K) : Prop :=
  s'.u = s.u ∧ s'.up = s.up ∧ s'.hanning = s.hanning ∧ s'.kx = s.kx ∧ s'.ky = s.ky ∧ s'.tune = s.tune

theorem findPeaks_same (pf : List K → Except Err (List Nat)) (s : State K) :
    SameTables s (findPeaks pf s).2 := by
  unfold findPeaks
  split
  · exact ⟨rfl, rfl, rfl, rfl, rfl, rfl⟩
  · split
    · exact ⟨rfl, rfl, rfl, rfl, rfl, rfl⟩
    · simp only
      split
      · exact ⟨rfl, rfl, rfl, rfl, rfl, rfl⟩
      · split <;> exact ⟨rfl, rfl, rfl, rfl, rfl, rfl⟩

theorem fft_spectrum (F : Fourier K) (E : Ext K) (hF : RfftLaw F)
    (pf : List K → Except Err (List Nat)) (s : State K) (u : List K) (hu : s.u = some u)
    (hodd : u.length % 2 = 1) :
    ∃ s0, Spectrum F E u s0 ∧ s0.u = some u ∧ s0.px = s.px ∧ s0.py = s.py ∧ s0.hanning = s.hanning ∧
      s0.up = s.up ∧ s0.tune = s.tune ∧ fftFindPeaks F E pf s = findPeaks pf s0 := by
  have hne : u ≠ [] := by rintro rfl; simp at hodd
  have hr := hF u hne
  have hlen : (F.rfft u).length = u.length / 2 + 1 := by rw [hr]; simp
  refine ⟨{ s with
      kx := (List.range (F.rfft (s.u.getD [])).length).map fun (i : Nat) =>
        (i : K) / 2 / ((F.rfft (s.u.getD [])).length : K)
      ky := (F.rfft (s.u.getD [])).map fun z => E.sqrt (z.1 ^ 2 + z.2 ^ 2) },
    ⟨?_, ?_⟩, hu, rfl, rfl, rfl, rfl, rfl, rfl⟩
  · simp only [hu, Option.getD_some, hlen, bins]
    refine List.map_congr_left fun i _ => ?_
    have h2 : u.length + 1 = 2 * (u.length / 2 + 1) := by omega
    have h3 : ((u.length : K) + 1) = 2 * ((u.length / 2 + 1 : Nat) : K) := by exact_mod_cast h2
    rw [h3, div_div]
  · simp only [hu, Option.getD_some, hr, List.map_map, bins]
    refine List.map_congr_left fun i _ => ?_
    simp only [Function.comp_apply, strength]
    congr 1
    ring

/-! ### Refining a peak -/

/-- the state after a point has been put into the bracket -/
def ins (F : Fourier K) (E : Ext K) (s : State K) (b : Bracket K) : State K :=
  { s with
    kx := pyInsert s.kx b.right ((b.xa + b.xb) / 2)
    ky := pyInsert s.ky b.right (sft F E s.hanning (s.u.getD []) ((b.xa + b.xb) / 2)) }

theorem refine_ok (F : Fourier K) (E : Ext K) (tol : K) (fuel : Nat) (k : K) (s : State K)
    (b : Bracket K) (hb : bracket s k = .ok b) :
    refine F E tol (fuel + 1) k s =
      if |b.xb - b.xa| < tol then (pyAt s.kx b.i, s)
      else if sft F E s.hanning (s.u.getD []) ((b.xa + b.xb) / 2) > b.ya ∧
          sft F E s.hanning (s.u.getD []) ((b.xa + b.xb) / 2) > b.yb then
        match pyAt (ins F E s b).kx b.right with
        | .error e => (.error e, ins F E s b)
        | .ok x => refine F E tol fuel x (ins F E s b)
      else if b.ya > sft F E s.hanning (s.u.getD []) ((b.xa + b.xb) / 2) ∧
          b.yb > sft F E s.hanning (s.u.getD []) ((b.xa + b.xb) / 2) then
        match indexOf b.ya (ins F E s b).ky with
        | .error e => (.error e, ins F E s b)
        | .ok ia =>
          match pyAt (ins F E s b).kx ia with
          | .error e => (.error e, ins F E s b)
          | .ok xa' =>
            match refine F E tol fuel xa' (ins F E s b) with
            | (.error e, s2) => (.error e, s2)
            | (.ok _, s2) =>
              match indexOf b.yb s2.ky with
              | .error e => (.error e, s2)
              | .ok ib =>
                match pyAt s2.kx ib with
                | .error e => (.error e, s2)
                | .ok xb' => refine F E tol fuel xb' s2
      else if b.ya > b.yb then
        match pyAt (ins F E s b).kx b.i with
        | .error e => (.error e, ins F E s b)
        | .ok x => refine F E tol fuel x (ins F E s b)
      else
        match pyAt (ins F E s b).kx (b.i + 1) with
        | .error e => (.error e, ins F E s b)
        | .ok x => refine F E tol fuel x (ins F E s b) := by
  rw [refine]
  beta_reduce
  rw [hb]
  rfl

theorem refine_cases (F : Fourier K) (E : Ext K) (tol : K) (fuel : Nat) (k : K) (s : State K) :
    (∃ e, (e = .IndexError ∨ (e = .ValueError ∧ k ∉ s.kx)) ∧
      refine F E tol (fuel + 1) k s = (.error e, s)) ∨
    (∃ b, bracket s k = .ok b ∧ |b.xb - b.xa| < tol ∧
      refine F E tol (fuel + 1) k s = (pyAt s.kx b.i, s)) ∨
    (∃ b, bracket s k = .ok b ∧ ¬ |b.xb - b.xa| < tol ∧
      ((∃ e, (e = .IndexError ∨ (e = .ValueError ∧ b.ya ∉ (ins F E s b).ky)) ∧
          refine F E tol (fuel + 1) k s = (.error e, ins F E s b)) ∨
       (∃ x ∈ (ins F E s b).kx,
          refine F E tol (fuel + 1) k s = refine F E tol fuel x (ins F E s b)) ∨
       (∃ x ∈ (ins F E s b).kx, ∃ e s2, refine F E tol fuel x (ins F E s b) = (.error e, s2) ∧
          refine F E tol (fuel + 1) k s = (.error e, s2)) ∨
       (∃ x ∈ (ins F E s b).kx, ∃ a s2, refine F E tol fuel x (ins F E s b) = (.ok a, s2) ∧
          ((∃ e, (e = .IndexError ∨ (e = .ValueError ∧ b.yb ∉ s2.ky)) ∧
              refine F E tol (fuel + 1) k s = (.error e, s2)) ∨
           ∃ x' ∈ s2.kx, refine F E tol (fuel + 1) k s = refine F E tol fuel x' s2)))) := by
  cases hb : bracket s k with
  | error e =>
    refine .inl ⟨e, ?_, by rw [refine]; simp only [hb]⟩
    unfold bracket at hb
    split at hb
    · rename_i e' he
      cases hb
      exact .inr (indexOf_err he)
    · left
      simp only at hb
      split at hb
      · split at hb
        · split at hb <;> cases hb; rfl
        · split at hb <;> cases hb; rfl
      · cases hb; rfl
  | ok b =>
    by_cases ht : |b.xb - b.xa| < tol
    · refine .inr (.inl ⟨b, rfl, ht, ?_⟩)
      rw [refine_ok F E tol fuel k s b hb, if_pos ht]
    · refine .inr (.inr ⟨b, rfl, ht, ?_⟩)
      rw [refine_ok F E tol fuel k s b hb, if_neg ht]
      generalize sft F E s.hanning (s.u.getD []) ((b.xa + b.xb) / 2) = newY
      by_cases h1 : newY > b.ya ∧ newY > b.yb
      · rw [if_pos h1]
        cases hp : pyAt (ins F E s b).kx b.right with
        | error e => exact .inl ⟨e, .inl (pyAt_err hp), rfl⟩
        | ok x => exact .inr (.inl ⟨x, pyAt_mem hp, rfl⟩)
      · rw [if_neg h1]
        by_cases h2 : b.ya > newY ∧ b.yb > newY
        · rw [if_pos h2]
          cases hi : indexOf b.ya (ins F E s b).ky with
          | error e => exact .inl ⟨e, .inr (indexOf_err hi), rfl⟩
          | ok ia =>
            simp only
            cases hp : pyAt (ins F E s b).kx ia with
            | error e => exact .inl ⟨e, .inl (pyAt_err hp), rfl⟩
            | ok x =>
              simp only
              cases hr : refine F E tol fuel x (ins F E s b) with
              | mk r s2 =>
                cases r with
                | error e => exact .inr (.inr (.inl ⟨x, pyAt_mem hp, e, s2, hr, rfl⟩))
                | ok a =>
                  refine .inr (.inr (.inr ⟨x, pyAt_mem hp, a, s2, hr, ?_⟩))
                  simp only
                  cases hj : indexOf b.yb s2.ky with
                  | error e => exact .inl ⟨e, .inr (indexOf_err hj), rfl⟩
                  | ok ib =>
                    simp only
                    cases hq : pyAt s2.kx ib with
                    | error e => exact .inl ⟨e, .inl (pyAt_err hq), rfl⟩
                    | ok x' => exact .inr ⟨x', pyAt_mem hq, rfl⟩
        · rw [if_neg h2]
          by_cases h3 : b.ya > b.yb
          · rw [if_pos h3]
            cases hp : pyAt (ins F E s b).kx b.i with
            | error e => exact .inl ⟨e, .inl (pyAt_err hp), rfl⟩
            | ok x => exact .inr (.inl ⟨x, pyAt_mem hp, rfl⟩)
          · rw [if_neg h3]
            cases hp : pyAt (ins F E s b).kx (b.i + 1) with
            | error e => exact .inl ⟨e, .inl (pyAt_err hp), rfl⟩
            | ok x => exact .inr (.inl ⟨x, pyAt_mem hp, rfl⟩)

/-- What refining leaves in place: everything but the tables, which only grow and keep their law. -/
def Grown (F : Fourier K) (E : Ext K) (s s' : State K) : Prop :=
  s'.u = s.u ∧ s'.up = s.up ∧ s'.hanning = s.hanning ∧ s'.px = s.px ∧ s'.py = s.py ∧ s'.tune = s.tune ∧
  (∀ x ∈ s.kx, x ∈ s'.kx) ∧ (∀ y ∈ s.ky, y ∈ s'.ky) ∧
  ∀ u, s.u = some u → s.hanning = false → Table F E u s → Table F E u s'

theorem Grown.refl (F : Fourier K) (E : Ext K) (s : State K) : Grown F E s s :=
  ⟨rfl, rfl, rfl, rfl, rfl, rfl, fun _ h => h, fun _ h => h, fun _ _ _ h => h⟩

theorem Grown.trans {F : Fourier K} {E : Ext K} {s s' s'' : State K} (h : Grown F E s s')
    (g : Grown F E s' s'') : Grown F E s s'' := by
  obtain ⟨a1, a2, a3, a4, a5, a6, a7, a8, a9⟩ := h
  obtain ⟨b1, b2, b3, b4, b5, b6, b7, b8, b9⟩ := g
  exact ⟨b1.trans a1, b2.trans a2, b3.trans a3, b4.trans a4, b5.trans a5, b6.trans a6,
    fun x hx => b7 x (a7 x hx), fun y hy => b8 y (a8 y hy),
    fun u hu hh ht => b9 u (a1.trans hu) (a3.trans hh) (a9 u hu hh ht)⟩

theorem mem_pyInsert {l : List K} {i : Int} {x y : K} (h : y ∈ l) : y ∈ pyInsert l i x := by
  unfold pyInsert
  rw [← List.take_append_drop i.toNat l] at h
  rcases List.mem_append.mp h with h | h
  · exact List.mem_append.mpr (.inl h)
  · exact List.mem_append.mpr (.inr (List.mem_cons_of_mem _ h))

theorem ins_grown (F : Fourier K) (E : Ext K) (s : State K) (b : Bracket K) :
    Grown F E s (ins F E s b) := by
  refine ⟨rfl, rfl, rfl, rfl, rfl, rfl, fun x hx => mem_pyInsert hx, fun y hy => mem_pyInsert hy, ?_⟩
  intro u hu hh ht
  unfold Table at ht ⊢
  simp only [ins, ht, hu, hh, Option.getD_some, sft_eq]
  simp only [pyInsert, List.map_append, List.map_cons, List.map_take, List.map_drop]

theorem refine_grown (F : Fourier K) (E : Ext K) (tol : K) : ∀ (fuel : Nat) (k : K) (s : State K),
    Grown F E s (refine F E tol fuel k s).2 ∧
      ∀ x, (refine F E tol fuel k s).1 = .ok x → x ∈ (refine F E tol fuel k s).2.kx
  | 0, k, s => ⟨Grown.refl F E s, fun x h => by cases h⟩
  | fuel + 1, k, s => by
    have hins := ins_grown F E s
    rcases refine_cases F E tol fuel k s with ⟨e, _, h⟩ | ⟨b, _, _, h⟩ | ⟨b, _, _, h⟩
    · rw [h]
      exact ⟨Grown.refl F E s, fun x hx => by cases hx⟩
    · rw [h]
      exact ⟨Grown.refl F E s, fun x hx => pyAt_mem hx⟩
    · rcases h with ⟨e, _, h⟩ | ⟨x, _, h⟩ | ⟨x, _, e, s2, h2, h⟩ | ⟨x, _, a, s2, h2, h⟩
      · rw [h]
        exact ⟨hins b, fun x hx => by cases hx⟩
      · rw [h]
        obtain ⟨g1, g2⟩ := refine_grown F E tol fuel x (ins F E s b)
        exact ⟨(hins b).trans g1, g2⟩
      · rw [h]
        obtain ⟨g1, _⟩ := refine_grown F E tol fuel x (ins F E s b)
        rw [h2] at g1
        exact ⟨(hins b).trans g1, fun x hx => by cases hx⟩
      · obtain ⟨g1, _⟩ := refine_grown F E tol fuel x (ins F E s b)
        rw [h2] at g1
        rcases h with ⟨e, _, h⟩ | ⟨x', _, h⟩
        · rw [h]
          exact ⟨(hins b).trans g1, fun x hx => by cases hx⟩
        · rw [h]
          obtain ⟨k1, k2⟩ := refine_grown F E tol fuel x' s2
          exact ⟨((hins b).trans g1).trans k1, k2⟩

theorem bracket_mem {s : State K} {k : K} {b : Bracket K} (h : bracket s k = .ok b) :
    b.ya ∈ s.ky ∧ b.yb ∈ s.ky := by
  unfold bracket at h
  split at h
  · cases h
  · simp only at h
    split at h
    · rename_i h0 h1 h2
      split at h
      · split at h
        · cases h; exact ⟨pyAt_mem h1, pyAt_mem h2⟩
        · cases h
      · split at h
        · cases h; exact ⟨pyAt_mem h0, pyAt_mem h1⟩
        · cases h
    · cases h

/-- a ValueError cannot happen while a point of the table is refined -/
theorem refine_no_valueError (F : Fourier K) (E : Ext K) (tol : K) : ∀ (fuel : Nat) (k : K)
    (s : State K), k ∈ s.kx → (refine F E tol fuel k s).1 ≠ .error .ValueError
  | 0, k, s, _ => by simp [refine]
  | fuel + 1, k, s, hk => by
    have hins := ins_grown F E s
    rcases refine_cases F E tol fuel k s with ⟨e, he, h⟩ | ⟨b, _, _, h⟩ | ⟨b, hb, _, h⟩
    · rw [h]
      rcases he with rfl | ⟨_, hn⟩
      · simp
      · exact absurd hk hn
    · rw [h]
      intro hp
      cases pyAt_err hp
    · obtain ⟨hya, hyb⟩ := bracket_mem hb
      rcases h with ⟨e, he, h⟩ | ⟨x, hx, h⟩ | ⟨x, hx, e, s2, h2, h⟩ | ⟨x, hx, a, s2, h2, h⟩
      · rw [h]
        rcases he with rfl | ⟨_, hn⟩
        · simp
        · exact absurd ((hins b).2.2.2.2.2.2.2.1 _ hya) hn
      · rw [h]
        exact refine_no_valueError F E tol fuel x _ hx
      · rw [h]
        have := refine_no_valueError F E tol fuel x _ hx
        rw [h2] at this
        exact this
      · have g1 := (refine_grown F E tol fuel x (ins F E s b)).1
        rw [h2] at g1
        rcases h with ⟨e, he, h⟩ | ⟨x', hx', h⟩
        · rw [h]
          rcases he with rfl | ⟨_, hn⟩
          · simp
          · exact absurd (((hins b).trans g1).2.2.2.2.2.2.2.1 _ hyb) hn
        · rw [h]
          exact refine_no_valueError F E tol fuel x' s2 hx'

/-- with a tolerance that is not positive the refinement never comes to an end -/
theorem refine_never (F : Fourier K) (E : Ext K) (tol : K) (ht : tol ≤ 0) : ∀ (fuel : Nat) (k : K)
    (s : State K) (x : K), (refine F E tol fuel k s).1 ≠ .ok x
  | 0, k, s, x => by simp [refine]
  | fuel + 1, k, s, x => by
    rcases refine_cases F E tol fuel k s with ⟨e, he, h⟩ | ⟨b, _, hlt, h⟩ | ⟨b, hb, _, h⟩
    · rw [h]; simp
    · exact absurd (lt_of_lt_of_le hlt ht) (not_lt.mpr (abs_nonneg _))
    · rcases h with ⟨e, he, h⟩ | ⟨x1, hx, h⟩ | ⟨x1, hx, e, s2, h2, h⟩ | ⟨x1, hx, a, s2, h2, h⟩
      · rw [h]; simp
      · rw [h]; exact refine_never F E tol ht fuel x1 _ x
      · rw [h]; simp
      · rcases h with ⟨e, he, h⟩ | ⟨x', hx', h⟩
        · rw [h]; simp
        · rw [h]; exact refine_never F E tol ht fuel x' s2 x

/-! ### The refinement ends -/

theorem refine_mono (F : Fourier K) (E : Ext K) (tol : K) : ∀ (fuel : Nat) (k : K) (s : State K),
    (refine F E tol fuel k s).1 ≠ .error .RuntimeError →
      refine F E tol (fuel + 1) k s = refine F E tol fuel k s
  | 0, k, s, h => by simp [refine] at h
  | fuel + 1, k, s, h => by
    cases hb : bracket s k with
    | error e =>
      rw [refine, refine]
      beta_reduce
      rw [hb]
    | ok b =>
      rw [refine_ok F E tol fuel k s b hb] at h ⊢
      rw [refine_ok F E tol (fuel + 1) k s b hb]
      split_ifs at h ⊢
      · rfl
      · cases hp : pyAt (ins F E s b).kx b.right with
        | error e => rfl
        | ok x => rw [hp] at h; exact refine_mono F E tol fuel x _ h
      · cases hi : indexOf b.ya (ins F E s b).ky with
        | error e => rfl
        | ok ia =>
          rw [hi] at h
          simp only at h ⊢
          cases hp : pyAt (ins F E s b).kx ia with
          | error e => rfl
          | ok x =>
            rw [hp] at h
            simp only at h ⊢
            have ih := refine_mono F E tol fuel x (ins F E s b)
            cases hr : refine F E tol fuel x (ins F E s b) with
            | mk r s2 =>
              rw [hr] at ih h
              cases r with
              | error e => rw [ih h]
              | ok a =>
                rw [ih (by simp)]
                simp only at h ⊢
                cases hj : indexOf b.yb s2.ky with
                | error e => rfl
                | ok ib =>
                  rw [hj] at h
                  simp only at h ⊢
                  cases hq : pyAt s2.kx ib with
                  | error e => rfl
                  | ok x' => rw [hq] at h; exact refine_mono F E tol fuel x' s2 h
      · cases hp : pyAt (ins F E s b).kx b.i with
        | error e => rfl
        | ok x => rw [hp] at h; exact refine_mono F E tol fuel x _ h
      · cases hp : pyAt (ins F E s b).kx (b.i + 1) with
        | error e => rfl
        | ok x => rw [hp] at h; exact refine_mono F E tol fuel x _ h

/-- how many points can be put into a gap of width `g < tol * 2 ^ lvl` by halving -/
def room (tol : K) : Nat → K → Nat
  | 0, _ => 0
  | lvl + 1, g => if g < tol then 0 else 1 + 2 * room tol lvl (g / 2)

theorem room_succ (tol : K) : ∀ (lvl : Nat) (g : K), g < tol * 2 ^ lvl →
    room tol (lvl + 1) g = room tol lvl g
  | 0, g, h => by
    have hg : g < tol := by simpa using h
    have h1 : room tol (0 + 1) g = if g < tol then 0 else 1 + 2 * room tol 0 (g / 2) := rfl
    rw [h1, if_pos hg, room]
  | lvl + 1, g, h => by
    have h1 : ∀ m, room tol (m + 1) g = if g < tol then 0 else 1 + 2 * room tol m (g / 2) :=
      fun _ => rfl
    rw [h1, h1]
    split
    · rfl
    · rw [room_succ tol lvl (g / 2) (by rw [pow_succ] at h; linarith)]

theorem room_halve (tol : K) (lvl : Nat) (g : K) (h : g < tol * 2 ^ lvl) (hg : ¬ g < tol) :
    room tol lvl g = 1 + 2 * room tol lvl (g / 2) := by
  cases lvl with
  | zero => simp at h; exact absurd h hg
  | succ lvl =>
    have h2 : g / 2 < tol * 2 ^ lvl := by rw [pow_succ] at h; linarith
    rw [room_succ tol lvl (g / 2) h2, room, if_neg hg]

/-- room in the gaps along a list that is entered from `a` -/
def pathRoom (tol : K) (lvl : Nat) : K → List K → Nat
  | _, [] => 0
  | a, b :: r => room tol lvl |b - a| + pathRoom tol lvl b r

/-- room in the gaps round a list, the last point being followed by the first -/
def cycleRoom (tol : K) (lvl : Nat) (l : List K) : Nat := pathRoom tol lvl (l.getLastD 0) l

theorem pathRoom_append (tol : K) (lvl : Nat) (a : K) (l r : List K) :
    pathRoom tol lvl a (l ++ r) = pathRoom tol lvl a l + pathRoom tol lvl (l.getLastD a) r := by
  induction l generalizing a with
  | nil => simp [pathRoom]
  | cons b l ih =>
    rw [List.cons_append, pathRoom, pathRoom, ih, List.getLastD_cons]
    omega

theorem cycleRoom_insert (tol : K) (lvl : Nat) (A B : List K) (xa xb : K)
    (ha : xa = A.getLastD ((A ++ xb :: B).getLastD 0)) (hlt : |xb - xa| < tol * 2 ^ lvl)
    (hge : ¬ |xb - xa| < tol) :
    cycleRoom tol lvl (A ++ (xa + xb) / 2 :: xb :: B) + 1 = cycleRoom tol lvl (A ++ xb :: B) := by
  have hlast : (A ++ (xa + xb) / 2 :: xb :: B).getLastD 0 = (A ++ xb :: B).getLastD 0 := by
    simp [List.getLastD_eq_getLast?, List.getLast?_append, List.getLast?_cons]
  unfold cycleRoom
  rw [hlast, pathRoom_append, pathRoom_append, ← ha]
  have h1 : |(xa + xb) / 2 - xa| = |xb - xa| / 2 := by
    rw [show (xa + xb) / 2 - xa = (xb - xa) / 2 by ring, abs_div, abs_of_pos (by norm_num : (0 : K) < 2)]
  have h2 : |xb - (xa + xb) / 2| = |xb - xa| / 2 := by
    rw [show xb - (xa + xb) / 2 = (xb - xa) / 2 by ring, abs_div, abs_of_pos (by norm_num : (0 : K) < 2)]
  simp only [pathRoom, h1, h2]
  rw [room_halve tol lvl _ hlt hge]
  omega

theorem bracket_at {s : State K} {k : K} {b : Bracket K} (h : bracket s k = .ok b) :
    0 ≤ b.right ∧ pyAt s.kx (b.right - 1) = .ok b.xa ∧ pyAt s.kx b.right = .ok b.xb := by
  unfold bracket at h
  split at h
  · cases h
  · rename_i i0 hi0
    simp only at h
    split at h
    · rename_i h0 h1 h2
      have hi : 0 ≤ (if i0 + 1 = s.ky.length then (i0 : Int) - 1 else i0) := by
        split
        · rename_i hl
          by_contra hneg
          have hz : i0 = 0 := by omega
          rw [if_pos hl] at h0
          subst hz
          unfold pyAt at h0
          have : (((0 : Nat) : Int) - 1 - 1 + (s.ky.length : Int)) < 0 := by omega
          have h3 : (((0 : Nat) : Int) - 1 - 1) < 0 := by omega
          simp only [h3, if_true, this] at h0
          cases h0
        · omega
      generalize (if i0 + 1 = s.ky.length then (i0 : Int) - 1 else i0) = i at h hi
      split at h
      · split at h
        · rename_i hx hy
          cases h
          exact ⟨by simp only; omega, by simpa using hx, hy⟩
        · cases h
      · split at h
        · rename_i hx hy
          cases h
          exact ⟨hi, hx, hy⟩
        · cases h
    · cases h

theorem pyAt_split {l : List K} {r : Int} {xa xb : K} (hr : 0 ≤ r) (ha : pyAt l (r - 1) = .ok xa)
    (hb : pyAt l r = .ok xb) :
    ∃ A B, l = A ++ xb :: B ∧ l.take r.toNat = A ∧ l.drop r.toNat = xb :: B ∧
      xa = A.getLastD (l.getLastD 0) := by
  obtain ⟨n, rfl⟩ := Int.eq_ofNat_of_zero_le hr
  have hn := pyAt_nat_ok hb
  obtain ⟨hlt, hx⟩ := List.getElem?_eq_some_iff.mp hn
  have hd : l.drop n = xb :: l.drop (n + 1) := by rw [List.drop_eq_getElem_cons hlt, hx]
  refine ⟨l.take n, l.drop (n + 1), ?_, rfl, hd, ?_⟩
  · rw [← hd, List.take_append_drop]
  · cases n with
    | zero =>
      unfold pyAt at ha
      have h3 : (((0 : Nat) : Int) - 1) < 0 := by omega
      have h4 : ¬ ((((0 : Nat) : Int) - 1 + (l.length : Int)) < 0) := by omega
      simp only [h3, if_true, h4, if_false] at ha
      split at ha
      · cases ha
      · rename_i y hy
        cases ha
        rw [show (((0 : Nat) : Int) - 1 + (l.length : Int)).toNat = l.length - 1 by omega] at hy
        rw [List.take_zero, List.getLastD_nil, List.getLastD_eq_getLast?, List.getLast?_eq_getElem?, hy]
        rfl
    | succ m =>
      rw [show (((m + 1 : Nat) : Int) - 1) = (m : Int) by omega] at ha
      have hm := pyAt_nat_ok ha
      rw [List.getLastD_eq_getLast?, List.getLast?_eq_getElem?]
      rw [List.length_take, show min (m + 1) l.length - 1 = m by omega, List.getElem?_take,
        if_pos (by omega), hm]
      rfl

/-- all the positions lie in [0, W) -/
def Within (W : K) (s : State K) : Prop := ∀ x ∈ s.kx, 0 ≤ x ∧ x < W

theorem ins_room (F : Fourier K) (E : Ext K) (tol W : K) (lvl : Nat) (hW : W ≤ tol * 2 ^ lvl)
    (s : State K) (k : K) (b : Bracket K) (hb : bracket s k = .ok b) (hs : Within W s)
    (hge : ¬ |b.xb - b.xa| < tol) :
    Within W (ins F E s b) ∧
      cycleRoom tol lvl (ins F E s b).kx + 1 = cycleRoom tol lvl s.kx := by
  obtain ⟨hr, ha, hb'⟩ := bracket_at hb
  obtain ⟨A, B, hl, hA, hB, hxa⟩ := pyAt_split hr ha hb'
  obtain ⟨a0, a1⟩ := hs _ (pyAt_mem ha)
  obtain ⟨b0, b1⟩ := hs _ (pyAt_mem hb')
  have hkx : (ins F E s b).kx = A ++ (b.xa + b.xb) / 2 :: b.xb :: B := by
    simp only [ins, pyInsert, hA, hB]
  constructor
  · intro x hx
    rw [hkx] at hx
    rcases List.mem_append.mp hx with hx | hx
    · exact hs x (by rw [hl]; simp [hx])
    · rcases List.mem_cons.mp hx with rfl | hx
      · constructor <;> linarith
      · exact hs x (by rw [hl]; exact List.mem_append.mpr (.inr hx))
  · rw [hkx]
    conv_rhs => rw [hl]
    refine cycleRoom_insert tol lvl A B b.xa b.xb (by rw [← hl]; exact hxa) ?_ hge
    refine lt_of_lt_of_le ?_ hW
    rw [abs_lt]
    constructor <;> linarith

theorem refine_ends (F : Fourier K) (E : Ext K) (tol W : K) (lvl : Nat) (hW : W ≤ tol * 2 ^ lvl) :
    ∀ (fuel : Nat) (k : K) (s : State K), Within W s → cycleRoom tol lvl s.kx < fuel →
      (refine F E tol fuel k s).1 ≠ .error .RuntimeError ∧ Within W (refine F E tol fuel k s).2 ∧
        cycleRoom tol lvl (refine F E tol fuel k s).2.kx ≤ cycleRoom tol lvl s.kx
  | 0, k, s, _, h => by omega
  | fuel + 1, k, s, hs, h => by
    rcases refine_cases F E tol fuel k s with ⟨e, he, hr⟩ | ⟨b, _, _, hr⟩ | ⟨b, hb, hge, hr⟩
    · rw [hr]
      refine ⟨?_, hs, le_rfl⟩
      rcases he with rfl | ⟨rfl, _⟩ <;> simp
    · rw [hr]
      refine ⟨fun hp => ?_, hs, le_rfl⟩
      cases pyAt_err hp
    · obtain ⟨hw, hroom⟩ := ins_room F E tol W lvl hW s k b hb hs hge
      have ih := fun x => refine_ends F E tol W lvl hW fuel x (ins F E s b) hw (by omega)
      rcases hr with ⟨e, he, hr⟩ | ⟨x, hx, hr⟩ | ⟨x, hx, e, s2, h2, hr⟩ | ⟨x, hx, a, s2, h2, hr⟩
      · rw [hr]
        refine ⟨?_, hw, by simp only; omega⟩
        rcases he with rfl | ⟨rfl, _⟩ <;> simp
      · rw [hr]
        obtain ⟨i1, i2, i3⟩ := ih x
        exact ⟨i1, i2, by omega⟩
      · rw [hr]
        obtain ⟨i1, i2, i3⟩ := ih x
        rw [h2] at i1 i2 i3
        exact ⟨i1, i2, by omega⟩
      · obtain ⟨i1, i2, i3⟩ := ih x
        rw [h2] at i1 i2 i3
        rcases hr with ⟨e, he, hr⟩ | ⟨x', hx', hr⟩
        · rw [hr]
          refine ⟨?_, i2, by simp only at i3 ⊢; omega⟩
          rcases he with rfl | ⟨rfl, _⟩ <;> simp
        · rw [hr]
          simp only at i2 i3
          obtain ⟨j1, j2, j3⟩ := refine_ends F E tol W lvl hW fuel x' s2 i2 (by omega)
          exact ⟨j1, j2, by omega⟩

/-! ### The steps of get_tune -/

theorem getMaxPeak_ok {s s' : State K} {i : Nat} (h : getMaxPeak s = (.ok i, s')) :
    ∃ t, s' = { s with tune := some t } ∧ s.px ≠ [] ∧ (∀ p ∈ s.px, p ∈ s.kx) ∧ s.kx[i]? = some t ∧
      (∀ g : K → K, s.ky = s.kx.map g →
        (∃ p ∈ s.px, g p = g t) ∧ (∀ p ∈ s.px, g p ≤ g t) ∧
        ∀ j (_ : j < s.kx.length), j < i → g s.kx[j] ≠ g t) := by
  unfold getMaxPeak at h
  split at h
  · cases h
  · rename_i is his
    split at h
    · cases h
    · cases h
    · rename_i a r hys
      split at h
      · cases h
      · rename_i j hj
        split at h
        · cases h
        · rename_i t ht
          cases h
          have f1 := mapErr_ok.mp his
          have f2 := mapErr_ok.mp hys
          have hmem : ∀ p ∈ s.px, p ∈ s.kx := by
            intro p hp
            obtain ⟨k, hk⟩ := List.mem_iff_getElem.mp hp
            obtain ⟨hk1, hk2⟩ := hk
            have := (List.forall₂_iff_get.mp f1).2 k hk1 (by rw [← f1.length_eq]; exact hk1)
            obtain ⟨g1, g2⟩ := indexOf_ok this
            simp only [List.get_eq_getElem, hk2] at g2
            rw [← g2]
            exact List.getElem_mem _
          refine ⟨t, rfl, ?_, hmem, pyAt_nat_ok ht, ?_⟩
          · intro hnil
            rw [hnil] at f1
            cases f1
            cases f2
          · intro g hg
            have hall : List.Forall₂ (fun p y => g p = y) s.px (a :: r) := by
              rw [List.forall₂_iff_get]
              refine ⟨f1.length_eq.trans f2.length_eq, fun k h1 h2 => ?_⟩
              have h3 : k < is.length := by rw [← f1.length_eq]; exact h1
              have e1 := (List.forall₂_iff_get.mp f1).2 k h1 h3
              have e2 := (List.forall₂_iff_get.mp f2).2 k h3 h2
              obtain ⟨g1, g2⟩ := indexOf_ok e1
              have e3 := pyAt_nat_ok e2
              rw [hg, List.getElem?_map, List.getElem?_eq_getElem g1, g2] at e3
              exact Option.some.inj e3
            obtain ⟨m1, m2⟩ := maxOf_spec a r
            obtain ⟨j1, j2⟩ := indexOf_ok hj
            have hgt : g t = maxOf a r := by
              have e3 := pyAt_nat_ok ht
              rw [← j2]
              simp only [hg, List.getElem_map]
              congr 1
              have hjk : i < s.kx.length := by rw [hg] at j1; simpa using j1
              rw [List.getElem?_eq_getElem hjk] at e3
              exact (Option.some.inj e3).symm
            refine ⟨?_, ?_, ?_⟩
            · obtain ⟨k, hk1, hk2⟩ := List.mem_iff_getElem.mp m1
              have h1 : k < s.px.length := by rw [hall.length_eq]; exact hk1
              refine ⟨s.px[k], List.getElem_mem _, ?_⟩
              have := (List.forall₂_iff_get.mp hall).2 k h1 hk1
              simp only [List.get_eq_getElem] at this
              rw [this, hk2, hgt]
            · intro p hp
              obtain ⟨k, hk1, hk2⟩ := List.mem_iff_getElem.mp hp
              have h1 : k < (a :: r).length := by rw [← hall.length_eq]; exact hk1
              have := (List.forall₂_iff_get.mp hall).2 k hk1 h1
              simp only [List.get_eq_getElem, hk2] at this
              rw [this, hgt]
              exact m2 _ (List.getElem_mem _)
            · intro k hk hki
              rw [hgt]
              have hk' : k < s.ky.length := by rw [hg]; simpa using hk
              have := indexOf_first hj k hk' hki
              simpa only [hg, List.getElem_map] using this

theorem getMaxPeak_total (s : State K) (hne : s.px ≠ []) (hp : ∀ p ∈ s.px, p ∈ s.kx)
    (hlen : s.kx.length = s.ky.length) : ∃ i s', getMaxPeak s = (.ok i, s') := by
  obtain ⟨is, his⟩ := mapErr_total (f := fun x => indexOf x s.kx) s.px fun p h => indexOf_mem (hp p h)
  have f1 := mapErr_ok.mp his
  have hlt : ∀ i ∈ is, i < s.kx.length := by
    intro i hi
    obtain ⟨k, hk1, hk2⟩ := List.mem_iff_getElem.mp hi
    have := (List.forall₂_iff_get.mp f1).2 k (by rw [f1.length_eq]; exact hk1) hk1
    simp only [List.get_eq_getElem, hk2] at this
    exact (indexOf_ok this).1
  obtain ⟨ys, hys⟩ := mapErr_total (f := fun i : Nat => pyAt s.ky i) is
    fun i h => ⟨_, pyAt_nat s.ky i (by rw [← hlen]; exact hlt i h)⟩
  have f2 := mapErr_ok.mp hys
  cases ys with
  | nil =>
    have h0 := f1.length_eq.trans f2.length_eq
    exact absurd (List.length_eq_zero_iff.mp h0) hne
  | cons a r =>
    have hmem : maxOf a r ∈ s.ky := by
      obtain ⟨k, hk1, hk2⟩ := List.mem_iff_getElem.mp (maxOf_spec a r).1
      have := (List.forall₂_iff_get.mp f2).2 k (by rw [f2.length_eq]; exact hk1) hk1
      simp only [List.get_eq_getElem, hk2] at this
      exact pyAt_mem this
    obtain ⟨j, hj⟩ := indexOf_mem hmem
    have hjl := (indexOf_ok hj).1
    refine ⟨j, { s with tune := some (s.kx[j]'(by rw [hlen]; exact hjl)) }, ?_⟩
    unfold getMaxPeak
    rw [his]
    simp only [hys, hj, pyAt_nat s.kx j (by rw [hlen]; exact hjl)]

theorem getMaxPeak_err {s s' : State K} {e : Err} (h : getMaxPeak s = (.error e, s')) :
    (e = .ValueError ∨ e = .IndexError) ∧ s' = s := by
  unfold getMaxPeak at h
  split at h
  · rename_i e' he
    cases h
    obtain ⟨a, _, ha⟩ := mapErr_err he
    exact ⟨.inl (indexOf_err ha).1, rfl⟩
  · split at h
    · rename_i e' he
      cases h
      obtain ⟨a, _, ha⟩ := mapErr_err he
      exact ⟨.inr (pyAt_err ha), rfl⟩
    · cases h; exact ⟨.inl rfl, rfl⟩
    · split at h
      · rename_i e' he
        cases h
        exact ⟨.inl (indexOf_err he).1, rfl⟩
      · split at h
        · rename_i e' he
          cases h
          exact ⟨.inr (pyAt_err he), rfl⟩
        · cases h

theorem getMaxPeak_nil (s : State K) (h : s.px = []) : getMaxPeak s = (.error .ValueError, s) := by
  unfold getMaxPeak
  rw [h]
  rfl

/-- What the refinement of the peaks leaves in place. -/
def Refined (F : Fourier K) (E : Ext K) (s s' : State K) : Prop :=
  s'.u = s.u ∧ s'.up = s.up ∧ s'.hanning = s.hanning ∧ s'.tune = s.tune ∧
  s'.px.length = s.px.length ∧ (∀ p ∈ s'.px, p ∈ s'.kx) ∧
  ∀ u, s.u = some u → s.hanning = false → Table F E u s → Table F E u s'

theorem refineOne_spec (F : Fourier K) (E : Ext K) (tol : K) (fuel i : Nat) (s : State K)
    (hp : ∀ p ∈ s.px, p ∈ s.kx) : Refined F E s (refineOne F E tol fuel i s).2 := by
  have hrefl : Refined F E s s := ⟨rfl, rfl, rfl, rfl, rfl, hp, fun _ _ _ h => h⟩
  unfold refineOne
  cases hk : pyAt s.px i with
  | error e => exact hrefl
  | ok k =>
    simp only
    obtain ⟨⟨a1, a2, a3, a4, a5, a6, a7, a8, a9⟩, hx⟩ := refine_grown F E tol fuel k s
    cases hr : refine F E tol fuel k s with
    | mk r s1 =>
      rw [hr] at a1 a2 a3 a4 a5 a6 a7 a8 a9 hx
      simp only at a1 a2 a3 a4 a5 a6 a7 a8 a9
      have h1 : Refined F E s s1 :=
        ⟨a1, a2, a3, a6, by rw [a4], fun p h => a7 p (hp p (a4 ▸ h)), a9⟩
      cases r with
      | error e => cases e <;> exact h1
      | ok x =>
        simp only
        have hxm := hx x rfl
        simp only at hxm
        have h2 : Refined F E s { s1 with px := s1.px.set i x } := by
          refine ⟨a1, a2, a3, a6, by simp [a4], fun p h => ?_, a9⟩
          rcases List.mem_or_eq_of_mem_set h with h | rfl
          · exact a7 p (hp p (a4 ▸ h))
          · exact hxm
        cases indexOf x s1.kx with
        | error e => cases e <;> exact h2
        | ok j =>
          simp only
          cases pyAt s1.ky j with
          | error e => cases e <;> exact h2
          | ok y => exact h2

theorem Refined.trans {F : Fourier K} {E : Ext K} {s s' s'' : State K} (h : Refined F E s s')
    (g : Refined F E s' s'') : Refined F E s s'' := by
  obtain ⟨a1, a2, a3, a4, a5, a6, a7⟩ := h
  obtain ⟨b1, b2, b3, b4, b5, b6, b7⟩ := g
  exact ⟨b1.trans a1, b2.trans a2, b3.trans a3, b4.trans a4, b5.trans a5, b6,
    fun u hu hh ht => b7 u (a1.trans hu) (a3.trans hh) (a7 u hu hh ht)⟩

theorem refineAll_spec (F : Fourier K) (E : Ext K) (tol : K) (fuel : Nat) : ∀ (l : List Nat)
    (s : State K), (∀ p ∈ s.px, p ∈ s.kx) → Refined F E s (refineAll F E tol fuel l s).2
  | [], s, hp => ⟨rfl, rfl, rfl, rfl, rfl, hp, fun _ _ _ h => h⟩
  | i :: r, s, hp => by
    have h1 := refineOne_spec F E tol fuel i s hp
    rw [refineAll]
    beta_reduce
    cases hr : refineOne F E tol fuel i s with
    | mk a s1 =>
      rw [hr] at h1
      cases a with
      | error e => exact h1
      | ok b => exact h1.trans (refineAll_spec F E tol fuel r s1 h1.2.2.2.2.2.1)

/-- get_tune, once the last value of an even number of values is gone -/
def tuneOf (F : Fourier K) (E : Ext K) (pf : List K → Except Err (List Nat)) (fuel : Nat) (tol : K)
    (s1 : State K) : Except Err (Option K) × State K :=
  match fftFindPeaks F E pf s1 with
  | (.error e, s2) => (.error e, s2)
  | (.ok _, s2) =>
    match getMaxPeak s2 with
    | (.error e, s3) => (.error e, s3)
    | (.ok _, s3) =>
      if tol < 1 / (s3.kx.length : K) then
        match refineAll F E tol fuel (List.range s3.px.length) s3 with
        | (.error e, s6) => (.error e, s6)
        | (.ok _, s6) =>
          match getMaxPeak s6 with
          | (.error e, s7) => (.error e, s7)
          | (.ok _, s7) => (.ok s7.tune, s7)
      else (.ok s3.tune, s3)

theorem getMaxPeak_again {s s' : State K} {i : Nat} (h : getMaxPeak s = (.ok i, s')) :
    getMaxPeak s' = (.ok i, s') := by
  obtain ⟨t, rfl, _⟩ := getMaxPeak_ok h
  have hc : ∀ o : Option K, (getMaxPeak { s with tune := o }) =
      match getMaxPeak s with
      | (.ok i, s'') => (.ok i, s'')
      | (.error e, _) => (.error e, { s with tune := o }) := by
    intro o
    unfold getMaxPeak
    simp only
    cases mapErr (fun x => indexOf x s.kx) s.px with
    | error e => rfl
    | ok is =>
      simp only
      cases mapErr (fun i : Nat => pyAt s.ky i) is with
      | error e => rfl
      | ok ys =>
        cases ys with
        | nil => rfl
        | cons a r =>
          simp only
          cases indexOf (maxOf a r) s.ky with
          | error e => rfl
          | ok j =>
            simp only
            cases pyAt s.kx j with
            | error e => rfl
            | ok t => rfl
  rw [hc, h]

theorem getTune_eq (F : Fourier K) (E : Ext K) (pf : List K → Except Err (List Nat)) (fuel : Nat)
    (tol : Option K) (s s1 : State K) (h : trim s = (.ok (), s1)) :
    getTune F E pf fuel tol s =
      tuneOf F E pf fuel (tol.getD (1 / ((s1.u.getD []).length : K) / 100)) s1 := by
  unfold getTune tuneOf
  rw [h]
  simp only
  generalize tol.getD (1 / ((s1.u.getD []).length : K) / 100) = tl
  cases fftFindPeaks F E pf s1 with
  | mk r s2 =>
    cases r with
    | error e => rfl
    | ok _ =>
      simp only
      cases hm : getMaxPeak s2 with
      | mk r s3 =>
        cases r with
        | error e => rfl
        | ok i =>
          have hpx : s3.px ≠ [] := by
            obtain ⟨t, rfl, hne, _⟩ := getMaxPeak_ok hm
            exact hne
          simp only [hpx, if_false, getMaxPeak_again hm]
          rfl

theorem trim_ok (s : State K) (u : List K) (hu : s.u = some u) {s1 : State K}
    (h : trim s = (.ok (), s1)) :
    s1 = { s with
      u := some (used u)
      up := if u.length % 2 = 0 then s.up.map List.dropLast else s.up } ∧ (used u).length % 2 = 1 := by
  unfold trim at h
  rw [hu] at h
  simp only at h
  unfold used
  by_cases he : u.length % 2 = 0
  · rw [if_pos he] at h
    simp only [if_pos he]
    have hup : s.up ≠ some [] := by
      intro hn
      rw [hn] at h
      cases h
    have h' : (if u = [] then ((.error .IndexError : Except Err Unit), { s with up := s.up.map List.dropLast })
        else (.ok (), { s with up := s.up.map List.dropLast, u := some u.dropLast })) = (.ok (), s1) := by
      rw [← h]
      cases hc : s.up with
      | none => rw [hu]
      | some l =>
        cases l with
        | nil => exact absurd hc hup
        | cons a l => rw [hu]
    split at h'
    · cases h'
    · rename_i hne
      cases h'
      refine ⟨rfl, ?_⟩
      have := List.length_pos_iff.mpr hne
      rw [List.length_dropLast]
      omega
  · rw [if_neg he] at h
    cases h
    simp only [if_neg he]
    exact ⟨by cases s; simp_all, by omega⟩

/-! ### Properties -/

theorem tuneOf_ok (F : Fourier K) (E : Ext K) (hF : RfftLaw F)
    (pf : List K → Except Err (List Nat)) (fuel : Nat) (tol : K) (s1 s' : State K) (v : List K)
    (t : Option K) (hv : s1.u = some v) (hodd : v.length % 2 = 1) (hh : s1.hanning = false)
    (h : tuneOf F E pf fuel tol s1 = (.ok t, s')) :
    s'.u = s1.u ∧ s'.up = s1.up ∧ Table F E v s' ∧ s'.tune = t ∧ s'.px ≠ [] ∧
      (∀ p ∈ s'.px, p ∈ s'.kx) ∧
      ∃ x, t = some x ∧ x ∈ s'.kx ∧
        ∀ g : K → K, s'.ky = s'.kx.map g → (∃ p ∈ s'.px, g p = g x) ∧ ∀ p ∈ s'.px, g p ≤ g x := by
  obtain ⟨s0, hsp, b1, b2, b3, b4, b5, b6, hf⟩ := fft_spectrum F E hF pf s1 v hv hodd
  obtain ⟨c1, c2, c3, c4, c5, c6⟩ := findPeaks_same pf s0
  unfold tuneOf at h
  rw [hf] at h
  cases hr : findPeaks pf s0 with
  | mk r s2 =>
    rw [hr] at h c1 c2 c3 c4 c5 c6
    simp only at c1 c2 c3 c4 c5 c6
    have ht2 : Table F E v s2 := by
      have := hsp.table
      unfold Table at this ⊢
      rw [c5, c4, this]
    cases r with
    | error e => cases h
    | ok _ =>
      simp only at h
      cases hm : getMaxPeak s2 with
      | mk r s3 =>
        rw [hm] at h
        cases r with
        | error e => cases h
        | ok i =>
          obtain ⟨t3, hs3, hne3, hmem3, hk3, hg3⟩ := getMaxPeak_ok hm
          have ht3 : Table F E v s3 := by rw [hs3]; exact ht2
          simp only at h
          split at h
          · have href := refineAll_spec F E tol fuel (List.range s3.px.length) s3 (by rw [hs3]; exact hmem3)
            cases hra : refineAll F E tol fuel (List.range s3.px.length) s3 with
            | mk r s6 =>
              rw [hra] at h href
              obtain ⟨d1, d2, d3, d4, d5, d6, d7⟩ := href
              simp only at d1 d2 d3 d4 d5 d6 d7
              cases r with
              | error e => cases h
              | ok _ =>
                simp only at h
                cases hm7 : getMaxPeak s6 with
                | mk r s7 =>
                  rw [hm7] at h
                  cases r with
                  | error e => cases h
                  | ok i7 =>
                    cases h
                    obtain ⟨t7, hs7, hne7, hmem7, hk7, hg7⟩ := getMaxPeak_ok hm7
                    subst hs7
                    have ht6 := d7 v (by rw [hs3]; exact c1.trans b1)
                      (by rw [hs3]; exact c3.trans (b4.trans hh)) ht3
                    refine ⟨?_, ?_, ht6, rfl, hne7, hmem7, t7, rfl, List.mem_of_getElem? hk7, ?_⟩
                    · rw [show _ = s6.u from rfl, d1, hs3, show _ = s2.u from rfl, c1, b1, hv]
                    · rw [show _ = s6.up from rfl, d2, hs3, show _ = s2.up from rfl, c2, b5]
                    · intro g hg
                      exact ⟨(hg7 g hg).1, (hg7 g hg).2.1⟩
          · cases h
            subst hs3
            refine ⟨c1.trans (b1.trans hv.symm), c2.trans b5, ht3, rfl, hne3, hmem3, t3, rfl,
              List.mem_of_getElem? hk3, ?_⟩
            intro g hg
            exact ⟨(hg3 g hg).1, (hg3 g hg).2.1⟩

theorem getTune_trim {F : Fourier K} {E : Ext K} {pf : List K → Except Err (List Nat)} {fuel : Nat}
    {tol : Option K} {s s' : State K} {t : Option K} (h : getTune F E pf fuel tol s = (.ok t, s')) :
    ∃ s1, trim s = (.ok (), s1) := by
  cases ht : trim s with
  | mk r s1 =>
    cases r with
    | ok _ => exact ⟨s1, rfl⟩
    | error e =>
      unfold getTune at h
      rw [ht] at h
      cases h

/-- C79_partial: whenever get_tune returns (hanning filter off), the tune `x` that it returns is one of
the positions of its table; the value of the table at every position `p` is the strength with which
the frequency p (n+1)/n is present in the data, n being the odd number of values used; no peak is
stronger than the frequency x (n+1)/n and one of them is as strong.  The data are left as they were,
but for the last value when there was an even number of them.
Missing: that `x` itself is the frequency (false, see C79_biased_false) and that it is not 0 (false,
see C79_zero_false). -/
theorem C79_partial (F : Fourier K) (E : Ext K) (hF : RfftLaw F)
    (pf : List K → Except Err (List Nat)) (fuel : Nat) (tol : Option K) (s s' : State K) (u : List K)
    (t : Option K) (hu : s.u = some u) (hh : s.hanning = false)
    (h : getTune F E pf fuel tol s = (.ok t, s')) :
    s'.u = some (used u) ∧ (used u).length % 2 = 1 ∧ Table F E (used u) s' ∧
      s'.up = (if u.length % 2 = 0 then s.up.map List.dropLast else s.up) ∧
      ∃ x, t = some x ∧ s'.tune = some x ∧ x ∈ s'.kx ∧ (∀ p ∈ s'.px, p ∈ s'.kx) ∧
        (∃ p ∈ s'.px, strength F E (used u) (p * ((used u).length + 1) / (used u).length) =
          strength F E (used u) (x * ((used u).length + 1) / (used u).length)) ∧
        ∀ p ∈ s'.px, strength F E (used u) (p * ((used u).length + 1) / (used u).length) ≤
          strength F E (used u) (x * ((used u).length + 1) / (used u).length) := by
  obtain ⟨s1, ht⟩ := getTune_trim h
  obtain ⟨hs1, hodd⟩ := trim_ok s u hu ht
  rw [getTune_eq F E pf fuel tol s s1 ht] at h
  obtain ⟨a1, a2, a3, a4, a5, a6, x, rfl, a7, a8⟩ :=
    tuneOf_ok F E hF pf fuel _ s1 s' (used u) t (by rw [hs1]) hodd (by rw [hs1]; exact hh) h
  obtain ⟨g1, g2⟩ := a8 _ a3
  exact ⟨by rw [a1, hs1], hodd, a3, by rw [a2, hs1], x, rfl, a4, a7, a6, g1, g2⟩

theorem mapErr_pyAt (l : List K) : ∀ (is : List Nat), (∀ i ∈ is, i < l.length) →
    mapErr (fun i : Nat => pyAt l i) is = .ok (is.map fun i => l.getD i 0)
  | [], _ => rfl
  | i :: r, h => by
    have hi := h i (by simp)
    unfold mapErr
    rw [pyAt_nat l i hi, mapErr_pyAt l r fun j hj => h j (by simp [hj])]
    simp only [List.map_cons]
    rw [List.getD_eq_getElem?_getD, List.getElem?_eq_getElem hi]
    rfl

/-- The peaks that are kept: all those that were found but the one at frequency 0. -/
theorem findPeaks_spec (pf : List K → Except Err (List Nat)) (s : State K) (found : List Nat)
    (hf : pf s.ky = .ok found) (hnd : found.Nodup) (hlt : ∀ j ∈ found, j < s.ky.length)
    (hlen : s.kx.length = s.ky.length) (hne : found ≠ []) :
    ∃ is : List Nat, (∀ i, i ∈ is ↔ i ∈ found ∧ i ≠ 0) ∧
      findPeaks pf s = (.ok (), { s with
        px := is.map fun i => s.kx.getD i 0
        py := is.map fun i => s.ky.getD i 0 }) := by
  have hperm := List.perm_insertionSort (· ≤ ·) found
  have hsort := List.pairwise_insertionSort (· ≤ ·) found
  cases hs : found.insertionSort (· ≤ ·) with
  | nil =>
    rw [hs] at hperm
    exact absurd (List.nil_perm.mp hperm) hne
  | cons a r =>
    rw [hs] at hperm hsort
    have hmem : ∀ i, i ∈ (if a = 0 then r else a :: r) ↔ i ∈ found ∧ i ≠ 0 := by
      intro i
      rw [← hperm.mem_iff]
      have hnd' : (a :: r).Nodup := hperm.nodup_iff.mpr hnd
      rw [List.nodup_cons] at hnd'
      rw [List.pairwise_cons] at hsort
      split
      · rename_i h0
        subst h0
        constructor
        · intro hi
          refine ⟨by simp [hi], fun h => hnd'.1 (h ▸ hi)⟩
        · rintro ⟨hi, hi0⟩
          rcases List.mem_cons.mp hi with h | h
          · exact absurd h hi0
          · exact h
      · rename_i h0
        constructor
        · intro hi
          refine ⟨hi, fun h => ?_⟩
          subst h
          rcases List.mem_cons.mp hi with h | h
          · exact h0 h.symm
          · have := hsort.1 0 h
            omega
        · exact fun h => h.1
    refine ⟨if a = 0 then r else a :: r, hmem, ?_⟩
    have hl1 : ∀ i ∈ (if a = 0 then r else a :: r), i < s.ky.length := fun i hi =>
      hlt i ((hmem i).mp hi).1
    unfold findPeaks
    rw [hf]
    simp only [hs]
    rw [mapErr_pyAt s.kx _ (fun i hi => by rw [hlen]; exact hl1 i hi), mapErr_pyAt s.ky _ hl1]

/-- The spectrum of the data as get_tune first makes it. -/
def spectrum (F : Fourier K) (E : Ext K) (u : List K) : List K :=
  (List.range (bins u.length)).map fun (i : Nat) => strength F E u ((i : K) / (u.length : K))

theorem spectrum_getD {s : State K} {F : Fourier K} {E : Ext K} {u : List K}
    (h : Spectrum F E u s) (i : Nat) (hi : i < bins u.length) :
    s.kx.getD i 0 = (i : K) / ((u.length : K) + 1) := by
  rw [h.1, List.getD_eq_getElem?_getD, List.getElem?_map, List.getElem?_range hi]
  rfl

/-- C79, exact law of get_tune without refinement (tolerance at least one bin): if the peak finder
finds, in the spectrum of an odd number n of values, at least one peak other than that at frequency
0, then the tune returned is i/(n+1), where i/n is the lowest of the frequencies of the spectrum that
are as strong as the strongest of these peaks. -/
theorem C79_coarse (F : Fourier K) (E : Ext K) (hF : RfftLaw F)
    (pf : List K → Except Err (List Nat)) (fuel : Nat) (tol : K) (s : State K) (u : List K)
    (hu : s.u = some u) (hodd : u.length % 2 = 1) (htol : 1 / (bins u.length : K) ≤ tol)
    (found : List Nat) (hfound : pf (spectrum F E u) = .ok found) (hnd : found.Nodup)
    (hlt : ∀ j ∈ found, j < bins u.length) (hpk : ∃ j ∈ found, j ≠ 0) :
    ∃ i, i < bins u.length ∧
      (getTune F E pf fuel (some tol) s).1 = .ok (some ((i : K) / ((u.length : K) + 1))) ∧
      (∃ j ∈ found, j ≠ 0 ∧ strength F E u ((j : K) / (u.length : K)) =
        strength F E u ((i : K) / (u.length : K))) ∧
      (∀ j ∈ found, j ≠ 0 → strength F E u ((j : K) / (u.length : K)) ≤
        strength F E u ((i : K) / (u.length : K))) ∧
      ∀ k < i, strength F E u ((k : K) / (u.length : K)) ≠ strength F E u ((i : K) / (u.length : K)) := by
  have htrim : trim s = (.ok (), s) := by
    unfold trim
    rw [hu]
    simp only
    rw [if_neg (by omega)]
  rw [getTune_eq F E pf fuel (some tol) s s htrim]
  obtain ⟨s0, hsp, b1, b2, b3, b4, b5, b6, hf⟩ := fft_spectrum F E hF pf s u hu hodd
  have hky : s0.ky = spectrum F E u := hsp.2
  have hlen : s0.kx.length = s0.ky.length := by rw [hsp.1, hsp.2]; simp
  have hlky : s0.ky.length = bins u.length := by rw [hsp.2]; simp
  obtain ⟨is, his, hfp⟩ := findPeaks_spec pf s0 found (by rw [hky]; exact hfound) hnd
    (fun j hj => by rw [hlky]; exact hlt j hj) hlen (by obtain ⟨j, hj, _⟩ := hpk; rintro rfl; simp at hj)
  obtain ⟨j0, hj0, hj00⟩ := hpk
  have hpx : ∀ p, p ∈ is.map (fun i => s0.kx.getD i 0) →
      ∃ j ∈ found, j ≠ 0 ∧ p = (j : K) / ((u.length : K) + 1) := by
    intro p hp
    obtain ⟨j, hj, rfl⟩ := List.mem_map.mp hp
    obtain ⟨h1, h2⟩ := (his j).mp hj
    exact ⟨j, h1, h2, spectrum_getD hsp j (hlt j h1)⟩
  have hpx' : ∀ j ∈ found, j ≠ 0 → (j : K) / ((u.length : K) + 1) ∈ is.map (fun i => s0.kx.getD i 0) := by
    intro j hj hj'
    exact List.mem_map.mpr ⟨j, (his j).mpr ⟨hj, hj'⟩, spectrum_getD hsp j (hlt j hj)⟩
  have hkxm : ∀ j : Nat, j < bins u.length → (j : K) / ((u.length : K) + 1) ∈ s0.kx := by
    intro j hj
    rw [hsp.1]
    exact List.mem_map.mpr ⟨j, List.mem_range.mpr hj, rfl⟩
  obtain ⟨i, s3, hm⟩ := getMaxPeak_total
    { s0 with px := is.map fun i => s0.kx.getD i 0, py := is.map fun i => s0.ky.getD i 0 }
    (by intro h0; have := hpx' j0 hj0 hj00; simp only at h0; rw [h0] at this; simp at this)
    (by intro p hp; obtain ⟨j, h1, _, rfl⟩ := hpx p hp; exact hkxm j (hlt j h1)) hlen
  obtain ⟨t, hs3, hne3, hmem3, hk3, hg3⟩ := getMaxPeak_ok hm
  have hil : i < bins u.length := by
    obtain ⟨h1, _⟩ := List.getElem?_eq_some_iff.mp hk3
    simpa only [hsp.1, List.length_map, List.length_range] using h1
  have ht : t = (i : K) / ((u.length : K) + 1) := by
    simp only at hk3
    rw [← spectrum_getD hsp i hil, List.getD_eq_getElem?_getD, hk3]
    rfl
  have hn : (u.length : K) + 1 ≠ 0 := by positivity
  have hg := hg3 _ hsp.table
  simp only at hg
  obtain ⟨⟨p, hp, hpe⟩, hple, hfirst⟩ := hg
  rw [ht, div_mul_cancel₀ _ hn] at hpe hple hfirst
  refine ⟨i, hil, ?_, ?_, ?_, ?_⟩
  · unfold tuneOf
    rw [hf, hfp]
    simp only [hm, Option.getD_some]
    have hkl : s3.kx.length = bins u.length := by rw [hs3]; simp [hsp.1]
    rw [if_neg (by rw [hkl]; exact not_lt.mpr htol), hs3, ht]
  · obtain ⟨j, h1, h2, rfl⟩ := hpx p hp
    rw [div_mul_cancel₀ _ hn] at hpe
    exact ⟨j, h1, h2, hpe⟩
  · intro j hj hj'
    have := hple _ (hpx' j hj hj')
    rwa [div_mul_cancel₀ _ hn] at this
  · intro k hk
    have hkl : k < s0.kx.length := by rw [hsp.1]; simp; omega
    have := hfirst k hkl hk
    have hke : s0.kx[k] = (k : K) / ((u.length : K) + 1) := by
      rw [← spectrum_getD hsp k (by omega), List.getD_eq_getElem?_getD, List.getElem?_eq_getElem hkl]
      rfl
    rwa [hke, div_mul_cancel₀ _ hn] at this

/-- C79: a new finder whose peak finder finds nothing (or only the frequency 0) raises ValueError; the
slow Fourier transform that the code has for this case is never reached. -/
theorem C79_no_peaks (F : Fourier K) (E : Ext K) (hF : RfftLaw F)
    (pf : List K → Except Err (List Nat)) (fuel : Nat) (tol : Option K) (u : List K)
    (up : Option (List K)) (hanning : Bool) (hodd : u.length % 2 = 1)
    (hfound : pf (spectrum F E u) = .ok [] ∨ pf (spectrum F E u) = .ok [0]) :
    (getTune F E pf fuel tol (new (some u) up hanning)).1 = .error .ValueError := by
  have htrim : trim (new (some u) up hanning) = (.ok (), new (some u) up hanning) := by
    unfold trim new
    simp only
    rw [if_neg (by omega)]
  rw [getTune_eq F E pf fuel tol _ _ htrim]
  obtain ⟨s0, hsp, b1, b2, b3, b4, b5, b6, hf⟩ :=
    fft_spectrum F E hF pf (new (some u) up hanning) u rfl hodd
  have hky : s0.ky = spectrum F E u := hsp.2
  have hpx : ∃ s2, findPeaks pf s0 = (.ok (), s2) ∧ s2.px = [] := by
    rcases hfound with h | h
    · exact ⟨s0, by unfold findPeaks; rw [hky, h]; rfl, b2⟩
    · exact ⟨{ s0 with px := [], py := [] }, by unfold findPeaks; rw [hky, h]; rfl, rfl⟩
  obtain ⟨s2, h2, h3⟩ := hpx
  unfold tuneOf
  rw [hf, h2]
  simp only [getMaxPeak_nil s2 h3]

/-- C79_stale_false: "get_tune raises an error when there is no peak" is false of a finder that is used
again: if the new data have no peak, the peaks of the earlier data are used and a tune is returned. -/
theorem C79_stale_false (F : Fourier K) (E : Ext K) (hF : RfftLaw F)
    (pf : List K → Except Err (List Nat)) (fuel : Nat) (tol : K) (s : State K) (u : List K)
    (hu : s.u = some u) (hodd : u.length % 2 = 1) (htol : 1 / (bins u.length : K) ≤ tol)
    (hfound : pf (spectrum F E u) = .ok []) (hold : s.px ≠ [])
    (hgrid : ∀ p ∈ s.px, ∃ i, i < bins u.length ∧ p = (i : K) / ((u.length : K) + 1)) :
    ∃ x, (getTune F E pf fuel (some tol) s).1 = .ok (some x) := by
  have htrim : trim s = (.ok (), s) := by
    unfold trim
    rw [hu]
    simp only
    rw [if_neg (by omega)]
  rw [getTune_eq F E pf fuel (some tol) s s htrim]
  obtain ⟨s0, hsp, b1, b2, b3, b4, b5, b6, hf⟩ := fft_spectrum F E hF pf s u hu hodd
  have hky : s0.ky = spectrum F E u := hsp.2
  have hlen : s0.kx.length = s0.ky.length := by rw [hsp.1, hsp.2]; simp
  have hfp : findPeaks pf s0 = (.ok (), s0) := by unfold findPeaks; rw [hky, hfound]; rfl
  obtain ⟨i, s3, hm⟩ := getMaxPeak_total s0 (by rw [b2]; exact hold)
    (by
      intro p hp
      rw [b2] at hp
      obtain ⟨j, hj, rfl⟩ := hgrid p hp
      rw [hsp.1]
      exact List.mem_map.mpr ⟨j, List.mem_range.mpr hj, rfl⟩) hlen
  obtain ⟨t, hs3, _⟩ := getMaxPeak_ok hm
  refine ⟨t, ?_⟩
  unfold tuneOf
  rw [hf, hfp]
  simp only [hm, Option.getD_some]
  have hkl : s3.kx.length = bins u.length := by rw [hs3]; simp [hsp.1]
  rw [if_neg (by rw [hkl]; exact not_lt.mpr htol), hs3]

theorem refineOne_mono (F : Fourier K) (E : Ext K) (tol : K) (fuel i : Nat) (s : State K)
    (h : (refineOne F E tol fuel i s).1 ≠ .error .RuntimeError) :
    refineOne F E tol (fuel + 1) i s = refineOne F E tol fuel i s := by
  unfold refineOne at h ⊢
  cases hk : pyAt s.px i with
  | error e => rfl
  | ok k =>
    rw [hk] at h
    simp only at h ⊢
    rw [refine_mono F E tol fuel k s]
    intro hr
    cases hrr : refine F E tol fuel k s with
    | mk r s1 =>
      rw [hrr] at hr h
      simp only at hr
      subst hr
      exact h rfl

theorem refineOne_ends (F : Fourier K) (E : Ext K) (tol W : K) (lvl : Nat) (hW : W ≤ tol * 2 ^ lvl)
    (fuel i : Nat) (s : State K) (hs : Within W s) (hfuel : cycleRoom tol lvl s.kx < fuel) :
    (refineOne F E tol fuel i s).1 ≠ .error .RuntimeError ∧
      Within W (refineOne F E tol fuel i s).2 ∧
      cycleRoom tol lvl (refineOne F E tol fuel i s).2.kx ≤ cycleRoom tol lvl s.kx := by
  unfold refineOne
  cases hk : pyAt s.px i with
  | error e =>
    refine ⟨fun hp => ?_, hs, le_rfl⟩
    cases pyAt_err hk
    cases hp
  | ok k =>
    simp only
    obtain ⟨i1, i2, i3⟩ := refine_ends F E tol W lvl hW fuel k s hs hfuel
    cases hr : refine F E tol fuel k s with
    | mk r s1 =>
      rw [hr] at i1 i2 i3
      simp only at i1 i2 i3
      cases r with
      | error e => cases e <;> first | exact absurd rfl i1 | exact ⟨by simp, i2, i3⟩
      | ok x =>
        simp only
        cases hi : indexOf x s1.kx with
        | error e => cases (indexOf_err hi).1; exact ⟨by simp, i2, i3⟩
        | ok j =>
          simp only
          cases hq : pyAt s1.ky j with
          | error e => cases pyAt_err hq; exact ⟨by simp, i2, i3⟩
          | ok y => exact ⟨by simp, i2, i3⟩

theorem refineAll_ends (F : Fourier K) (E : Ext K) (tol W : K) (lvl : Nat) (hW : W ≤ tol * 2 ^ lvl)
    (fuel : Nat) : ∀ (l : List Nat) (s : State K), Within W s → cycleRoom tol lvl s.kx < fuel →
      (refineAll F E tol fuel l s).1 ≠ .error .RuntimeError ∧
        refineAll F E tol (fuel + 1) l s = refineAll F E tol fuel l s
  | [], s, _, _ => ⟨by simp [refineAll], rfl⟩
  | i :: r, s, hs, hfuel => by
    obtain ⟨h1, h2, h3⟩ := refineOne_ends F E tol W lvl hW fuel i s hs hfuel
    have hm := refineOne_mono F E tol fuel i s h1
    rw [refineAll, refineAll]
    beta_reduce
    rw [hm]
    cases hr : refineOne F E tol fuel i s with
    | mk a s1 =>
      rw [hr] at h1 h2 h3
      cases a with
      | error e => exact ⟨h1, rfl⟩
      | ok _ => exact refineAll_ends F E tol W lvl hW fuel r s1 h2 (lt_of_le_of_lt h3 hfuel)

/-- C79, termination: for every positive tolerance (the default is positive) the refinement ends. If
Python allows enough nested calls, get_tune does not run out of them, and the number allowed does
not change what it returns. -/
theorem C79_ends [Archimedean K] (F : Fourier K) (E : Ext K) (hF : RfftLaw F)
    (pf : List K → Except Err (List Nat)) (hpf : ∀ l, pf l ≠ .error .RuntimeError)
    (tol : Option K) (htol : ∀ a, tol = some a → 0 < a) (s : State K) :
    ∃ N, ∀ fuel ≥ N, (getTune F E pf fuel tol s).1 ≠ .error .RuntimeError ∧
      getTune F E pf fuel tol s = getTune F E pf N tol s := by
  cases ht : trim s with
  | mk r s1 =>
    cases r with
    | error e =>
      have he : e ≠ .RuntimeError := by
        unfold trim at ht
        split at ht
        · cases ht; simp
        · split at ht
          · split at ht
            · cases ht; simp
            · simp only at ht
              split at ht
              · cases ht; simp
              · cases ht
          · cases ht
      have hget : ∀ fuel, getTune F E pf fuel tol s = (.error e, s1) := by
        intro fuel
        unfold getTune
        rw [ht]
      exact ⟨0, fun fuel _ => ⟨by rw [hget]; simpa using he, by rw [hget, hget]⟩⟩
    | ok _ =>
      cases hu : s.u with
      | none => unfold trim at ht; rw [hu] at ht; cases ht
      | some u =>
        obtain ⟨hs1, hodd⟩ := trim_ok s u hu ht
        have hu1 : s1.u = some (used u) := by rw [hs1]
        have hpos : 0 < tol.getD (1 / ((s1.u.getD []).length : K) / 100) := by
          cases tol with
          | some a => exact htol a rfl
          | none =>
            rw [Option.getD_none, hu1, Option.getD_some]
            have h0 : 0 < (used u).length := by omega
            have : (0 : K) < ((used u).length : K) := by exact_mod_cast h0
            positivity
        simp only [getTune_eq F E pf _ tol s s1 ht]
        generalize tol.getD (1 / ((s1.u.getD []).length : K) / 100) = tl at hpos
        obtain ⟨lvl, hlvl⟩ := pow_unbounded_of_one_lt (1 / tl) (one_lt_two : (1 : K) < 2)
        have hW : (1 : K) ≤ tl * 2 ^ lvl := by
          rw [div_lt_iff₀ hpos] at hlvl
          linarith
        obtain ⟨s0, hsp, b1, b2, b3, b4, b5, b6, hf⟩ := fft_spectrum F E hF pf s1 (used u) hu1 hodd
        obtain ⟨c1, c2, c3, c4, c5, c6⟩ := findPeaks_same pf s0
        have hwithin : Within 1 s0 := by
          intro x hx
          rw [hsp.1] at hx
          obtain ⟨i, hi, rfl⟩ := List.mem_map.mp hx
          have hi' := List.mem_range.mp hi
          have hn : (0 : K) < ((used u).length : K) + 1 := by positivity
          refine ⟨by positivity, ?_⟩
          rw [div_lt_one hn]
          have : i < (used u).length + 1 := by unfold bins at hi'; omega
          exact_mod_cast this
        have hstep : ∀ fuel, cycleRoom tl lvl s0.kx < fuel →
            (tuneOf F E pf fuel tl s1).1 ≠ .error .RuntimeError ∧
            tuneOf F E pf (fuel + 1) tl s1 = tuneOf F E pf fuel tl s1 := by
          intro fuel hfuel
          unfold tuneOf
          rw [hf]
          cases hr : findPeaks pf s0 with
          | mk r s2 =>
            rw [hr] at c4
            cases r with
            | error e =>
              refine ⟨?_, rfl⟩
              simp only [ne_eq, Except.error.injEq]
              rintro rfl
              unfold findPeaks at hr
              split at hr
              · rename_i e he
                cases hr
                exact hpf _ he
              · split at hr
                · cases hr
                · simp only at hr
                  split at hr
                  · rename_i e he
                    cases hr
                    obtain ⟨a, _, ha⟩ := mapErr_err he
                    cases pyAt_err ha
                  · split at hr
                    · rename_i e he
                      cases hr
                      obtain ⟨a, _, ha⟩ := mapErr_err he
                      cases pyAt_err ha
                    · cases hr
            | ok _ =>
              simp only
              cases hm : getMaxPeak s2 with
              | mk r s3 =>
                cases r with
                | error e =>
                  refine ⟨?_, rfl⟩
                  obtain ⟨he | he, _⟩ := getMaxPeak_err hm <;> rw [he] <;> simp
                | ok i =>
                  obtain ⟨t, hs3, _⟩ := getMaxPeak_ok hm
                  have hk3 : s3.kx = s0.kx := by rw [hs3]; exact c4
                  simp only
                  split
                  · obtain ⟨e1, e2⟩ := refineAll_ends F E tl 1 lvl hW fuel
                      (List.range s3.px.length) s3 (by intro x hx; rw [hk3] at hx; exact hwithin x hx)
                      (by rw [hk3]; exact hfuel)
                    rw [e2]
                    refine ⟨?_, rfl⟩
                    cases hra : refineAll F E tl fuel (List.range s3.px.length) s3 with
                    | mk r s6 =>
                      rw [hra] at e1
                      cases r with
                      | error e => simpa using e1
                      | ok _ =>
                        simp only
                        cases hm7 : getMaxPeak s6 with
                        | mk r s7 =>
                          cases r with
                          | error e => obtain ⟨he | he, _⟩ := getMaxPeak_err hm7 <;> rw [he] <;> simp
                          | ok _ => simp
                  · exact ⟨by simp, rfl⟩
        refine ⟨cycleRoom tl lvl s0.kx + 1, fun fuel hfuel => ⟨(hstep fuel hfuel).1, ?_⟩⟩
        induction fuel, hfuel using Nat.le_induction with
        | base => rfl
        | succ m hm ih => rw [(hstep m hm).2]; exact ih

/-- C79: with a tolerance that is not positive get_tune never returns a tune, however many nested calls
Python allows. -/
theorem C79_tolerance (F : Fourier K) (E : Ext K)
    (pf : List K → Except Err (List Nat)) (fuel : Nat) (tol : K) (htol : tol ≤ 0) (s : State K)
    (t : Option K) : (getTune F E pf fuel (some tol) s).1 ≠ .ok t := by
  intro h
  cases hg : getTune F E pf fuel (some tol) s with
  | mk r s' =>
    rw [hg] at h
    simp only at h
    subst h
    obtain ⟨s1, ht⟩ := getTune_trim hg
    rw [getTune_eq F E pf fuel (some tol) s s1 ht, Option.getD_some] at hg
    unfold tuneOf at hg
    cases hr : fftFindPeaks F E pf s1 with
    | mk r s2 =>
      rw [hr] at hg
      cases r with
      | error e => cases hg
      | ok _ =>
        simp only at hg
        cases hm : getMaxPeak s2 with
        | mk r s3 =>
          rw [hm] at hg
          cases r with
          | error e => cases hg
          | ok i =>
            obtain ⟨x, hs3, hne, hmem, hk, _⟩ := getMaxPeak_ok hm
            have hl : 0 < s3.kx.length := by
              rw [hs3]
              exact List.length_pos_of_mem (List.mem_of_getElem? hk)
            have hlt : tol < 1 / (s3.kx.length : K) := by
              have : (0 : K) < (s3.kx.length : K) := by exact_mod_cast hl
              exact lt_of_le_of_lt htol (by positivity)
            simp only at hg
            rw [if_pos hlt] at hg
            have hp : s3.px.length ≠ 0 := by
              rw [hs3]
              exact fun h0 => hne (List.length_eq_zero_iff.mp h0)
            obtain ⟨m, hm⟩ := Nat.exists_eq_succ_of_ne_zero hp
            have hpp : 0 < s3.px.length := by omega
            have hone : ∀ u, (refineOne F E tol fuel 0 s3).1 ≠ .ok u := by
              intro _ hok
              unfold refineOne at hok
              have h0 := pyAt_nat s3.px 0 hpp
              rw [h0] at hok
              simp only at hok
              have hkm : s3.px[0] ∈ s3.kx := by
                have hm3 : ∀ p ∈ s3.px, p ∈ s3.kx := by rw [hs3]; exact hmem
                exact hm3 _ (List.getElem_mem hpp)
              have n1 := refine_no_valueError F E tol fuel s3.px[0] s3 hkm
              have n2 := refine_never F E tol htol fuel s3.px[0] s3
              cases hrr : refine F E tol fuel s3.px[0] s3 with
              | mk r s4 =>
                rw [hrr] at n1 n2 hok
                cases r with
                | ok x => exact n2 x rfl
                | error e => cases e <;> first | exact n1 rfl | cases hok
            rw [hm, List.range_succ_eq_map, refineAll] at hg
            beta_reduce at hg
            cases hro : refineOne F E tol fuel 0 s3 with
            | mk r s4 =>
              rw [hro] at hone hg
              cases r with
              | ok a => exact hone a rfl
              | error e => cases hg

/-- C79: asking again gives the same tune and changes nothing. -/
theorem C79_again (F : Fourier K) (E : Ext K) (pf : List K → Except Err (List Nat)) (fuel : Nat)
    (tol : Option K) (u : List K) (up : Option (List K)) (hanning : Bool) (s' : State K)
    (t : Option K) (h : getTune F E pf fuel tol (new (some u) up hanning) = (.ok t, s')) :
    getTune F E pf fuel tol s' = (.ok t, s') := by
  obtain ⟨s1, ht⟩ := getTune_trim h
  obtain ⟨hs1, hodd⟩ := trim_ok _ u rfl ht
  have hpx1 : s1.px = [] := by rw [hs1]; rfl
  have hu1 : s1.u = some (used u) := by rw [hs1]
  rw [getTune_eq F E pf fuel tol _ s1 ht] at h
  -- what the call leaves behind differs from what it starts with only in the lists it makes anew
  have hkeep : s'.u = s1.u ∧ s'.up = s1.up ∧ s'.hanning = s1.hanning := by
    unfold tuneOf at h
    have hsame : ∀ st : State K, st.u = s1.u ∧ st.up = s1.up ∧ st.hanning = s1.hanning →
        SameTables st (findPeaks pf st).2 → (findPeaks pf st).2.u = s1.u ∧
          (findPeaks pf st).2.up = s1.up ∧ (findPeaks pf st).2.hanning = s1.hanning :=
      fun st h1 h2 => ⟨h2.1.trans h1.1, h2.2.1.trans h1.2.1, h2.2.2.1.trans h1.2.2⟩
    have h2 : (fftFindPeaks F E pf s1).2.u = s1.u ∧ (fftFindPeaks F E pf s1).2.up = s1.up ∧
        (fftFindPeaks F E pf s1).2.hanning = s1.hanning := by
      unfold fftFindPeaks
      exact hsame _ ⟨rfl, rfl, rfl⟩ (findPeaks_same pf _)
    cases hr : fftFindPeaks F E pf s1 with
    | mk r s2 =>
      rw [hr] at h h2
      simp only at h2
      cases r with
      | error e => cases h
      | ok _ =>
        simp only at h
        cases hm : getMaxPeak s2 with
        | mk r s3 =>
          rw [hm] at h
          cases r with
          | error e => cases h
          | ok i =>
            obtain ⟨x, hs3, hne, hmem, hk, _⟩ := getMaxPeak_ok hm
            have h3 : s3.u = s1.u ∧ s3.up = s1.up ∧ s3.hanning = s1.hanning := by rw [hs3]; exact h2
            simp only at h
            split at h
            · have href := refineAll_spec F E (tol.getD (1 / ((s1.u.getD []).length : K) / 100)) fuel
                (List.range s3.px.length) s3 (by rw [hs3]; exact hmem)
              cases hra : refineAll F E (tol.getD (1 / ((s1.u.getD []).length : K) / 100)) fuel
                (List.range s3.px.length) s3 with
              | mk r s6 =>
                rw [hra] at h href
                cases r with
                | error e => cases h
                | ok _ =>
                  simp only at h
                  cases hm7 : getMaxPeak s6 with
                  | mk r s7 =>
                    rw [hm7] at h
                    cases r with
                    | error e => cases h
                    | ok _ =>
                      cases h
                      obtain ⟨x7, hs7, _⟩ := getMaxPeak_ok hm7
                      rw [hs7]
                      exact ⟨href.1.trans h3.1, href.2.1.trans h3.2.1, href.2.2.1.trans h3.2.2⟩
            · cases h
              exact h3
  have htrim : trim s' = (.ok (), s') := by
    unfold trim
    rw [hkeep.1, hu1]
    simp only
    rw [if_neg (by omega)]
  rw [getTune_eq F E pf fuel tol s' s' htrim, hkeep.1]
  have hall : tuneOf F E pf fuel (tol.getD (1 / ((s1.u.getD []).length : K) / 100)) s' =
      tuneOf F E pf fuel (tol.getD (1 / ((s1.u.getD []).length : K) / 100)) s1 := by
    have hfp : ∀ st : State K, st.u = s1.u → st.up = s1.up → st.hanning = s1.hanning →
        ∀ s2, fftFindPeaks F E pf s1 = (.ok (), s2) → s2.px ≠ [] →
          ∃ o, fftFindPeaks F E pf st = (.ok (), { s2 with tune := o }) := by
      intro st e1 e2 e3 s2 hr hne
      unfold fftFindPeaks at hr ⊢
      simp only at hr ⊢
      rw [e1]
      generalize (F.rfft (s1.u.getD [])).map (fun z => E.sqrt (z.1 ^ 2 + z.2 ^ 2)) = ky at hr ⊢
      generalize (List.range (F.rfft (s1.u.getD [])).length).map
        (fun (i : Nat) => (i : K) / 2 / ((F.rfft (s1.u.getD [])).length : K)) = kx at hr ⊢
      unfold findPeaks at hr ⊢
      simp only at hr ⊢
      cases hp : pf ky with
      | error e => rw [hp] at hr; cases hr
      | ok found =>
        rw [hp] at hr
        simp only at hr ⊢
        cases hs : found.insertionSort (· ≤ ·) with
        | nil =>
          rw [hs] at hr
          cases hr
          exact absurd hpx1 hne
        | cons a r =>
          rw [hs] at hr
          simp only at hr ⊢
          cases hx : mapErr (fun i : Nat => pyAt kx i) (if a = 0 then r else a :: r) with
          | error e => rw [hx] at hr; cases hr
          | ok xs =>
            rw [hx] at hr
            simp only at hr ⊢
            cases hy : mapErr (fun i : Nat => pyAt ky i) (if a = 0 then r else a :: r) with
            | error e => rw [hy] at hr; cases hr
            | ok ys =>
              rw [hy] at hr
              cases hr
              refine ⟨st.tune, ?_⟩
              simp only [Prod.mk.injEq, true_and]
              rw [← e1, ← e2, ← e3]
    have hmp : ∀ (s2 s3 : State K) (i : Nat) (o : Option K), getMaxPeak s2 = (.ok i, s3) →
        getMaxPeak { s2 with tune := o } = (.ok i, s3) := by
      intro s2 s3 i o hm
      unfold getMaxPeak at hm ⊢
      simp only at hm ⊢
      cases h1 : mapErr (fun x => indexOf x s2.kx) s2.px with
      | error e => rw [h1] at hm; cases hm
      | ok is =>
        rw [h1] at hm
        simp only at hm ⊢
        cases h2 : mapErr (fun i : Nat => pyAt s2.ky i) is with
        | error e => rw [h2] at hm; cases hm
        | ok ys =>
          rw [h2] at hm
          cases ys with
          | nil => cases hm
          | cons a r =>
            simp only at hm ⊢
            cases h3 : indexOf (maxOf a r) s2.ky with
            | error e => rw [h3] at hm; cases hm
            | ok j =>
              rw [h3] at hm
              simp only at hm ⊢
              cases h4 : pyAt s2.kx j with
              | error e => rw [h4] at hm; cases hm
              | ok t => rw [h4] at hm; exact hm
    unfold tuneOf at h ⊢
    cases hr : fftFindPeaks F E pf s1 with
    | mk r s2 =>
      rw [hr] at h
      cases r with
      | error e => cases h
      | ok _ =>
        simp only at h
        cases hm : getMaxPeak s2 with
        | mk r s3 =>
          rw [hm] at h
          cases r with
          | error e => cases h
          | ok i =>
            obtain ⟨x, hs3, hne, _⟩ := getMaxPeak_ok hm
            obtain ⟨o, ho⟩ := hfp s' hkeep.1 hkeep.2.1 hkeep.2.2 s2 hr hne
            rw [ho]
            simp only [hmp s2 s3 i o hm, hm]
  rw [hall]
  exact h

end FFTTune
end Xboa
