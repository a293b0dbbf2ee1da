import Verif.Props.FFTTune
/-
C79: the tune of a signal that is a constant plus a cosine.
-/
set_option linter.unusedSectionVars false
namespace Xboa
namespace FFTTune

/-- The external functions over the reals; numpy.fft.rfft is the discrete Fourier transform. -/
noncomputable def realFourier : Fourier ℝ where
  pi := Real.pi
  cos := Real.cos
  sin := Real.sin
  rfft u := (List.range (u.length / 2 + 1)).map fun (i : Nat) =>
    (∑ m ∈ Finset.range u.length, u.getD m 0 * Real.cos (2 * Real.pi * ((i : ℝ) / (u.length : ℝ)) * (m : ℝ)),
     -∑ m ∈ Finset.range u.length, u.getD m 0 * Real.sin (2 * Real.pi * ((i : ℝ) / (u.length : ℝ)) * (m : ℝ)))
  trunc x := if 0 ≤ x then ⌊x⌋ else ⌈x⌉

theorem realFourier_law : RfftLaw realFourier := fun _ _ => rfl

/-- The default peak finder, WindowPeakFinder(5, 0., 1). -/
noncomputable def defaultFinder : List ℝ → Except Err (List Nat) := PeakFinder.window realExt 5 0 1

/-- `n` samples of a + b cos(2 pi (j/n) m): a signal whose frequency is j/n turns per sample. -/
noncomputable def signal (n : Nat) (a b : ℝ) (j : Nat) : List ℝ :=
  (List.range n).map fun (m : Nat) => a + b * Real.cos (2 * Real.pi * ((j : ℝ) / (n : ℝ)) * (m : ℝ))

/-- sum over the n-th roots of unity of the k-th powers -/
theorem root_sum (n k : Nat) (hn : 0 < n) :
    ∑ m ∈ Finset.range n, Complex.exp (2 * Real.pi * Complex.I * ((k : ℂ) / n) * m) =
      if n ∣ k then (n : ℂ) else 0 := by
  have hz := Complex.isPrimitiveRoot_exp n hn.ne'
  have hterm : ∀ m : Nat, Complex.exp (2 * Real.pi * Complex.I * ((k : ℂ) / n) * m) =
      (Complex.exp (2 * Real.pi * Complex.I / n) ^ k) ^ m := by
    intro m
    rw [← Complex.exp_nat_mul, ← Complex.exp_nat_mul]
    congr 1
    ring
  simp only [hterm]
  split
  · rename_i hd
    rw [(hz.pow_eq_one_iff_dvd k).mpr hd]
    simp
  · rename_i hd
    have h1 : Complex.exp (2 * Real.pi * Complex.I / n) ^ k ≠ 1 := fun h =>
      hd ((hz.pow_eq_one_iff_dvd k).mp h)
    have h2 := mul_geom_sum (Complex.exp (2 * Real.pi * Complex.I / n) ^ k) n
    rw [← pow_mul, mul_comm k n, pow_mul, hz.pow_eq_one, one_pow, sub_self] at h2
    rcases mul_eq_zero.mp h2 with h | h
    · exact absurd (sub_eq_zero.mp h) h1
    · exact h

theorem cos_sum (n k : Nat) (hn : 0 < n) :
    ∑ m ∈ Finset.range n, Real.cos (2 * Real.pi * ((k : ℝ) / n) * m) =
      if n ∣ k then (n : ℝ) else 0 := by
  have h := congrArg Complex.re (root_sum n k hn)
  rw [Complex.re_sum] at h
  have he : ∀ m : Nat, (Complex.exp (2 * Real.pi * Complex.I * ((k : ℂ) / n) * m)).re =
      Real.cos (2 * Real.pi * ((k : ℝ) / n) * m) := by
    intro m
    rw [show (2 * Real.pi * Complex.I * ((k : ℂ) / n) * m : ℂ) =
      ((2 * Real.pi * ((k : ℝ) / n) * m : ℝ) : ℂ) * Complex.I by push_cast; ring]
    exact Complex.exp_ofReal_mul_I_re _
  simp only [he] at h
  rw [h]
  split <;> simp

theorem sin_sum (n k : Nat) (hn : 0 < n) :
    ∑ m ∈ Finset.range n, Real.sin (2 * Real.pi * ((k : ℝ) / n) * m) = 0 := by
  have h := congrArg Complex.im (root_sum n k hn)
  rw [Complex.im_sum] at h
  have he : ∀ m : Nat, (Complex.exp (2 * Real.pi * Complex.I * ((k : ℂ) / n) * m)).im =
      Real.sin (2 * Real.pi * ((k : ℝ) / n) * m) := by
    intro m
    rw [show (2 * Real.pi * Complex.I * ((k : ℂ) / n) * m : ℂ) =
      ((2 * Real.pi * ((k : ℝ) / n) * m : ℝ) : ℂ) * Complex.I by push_cast; ring]
    exact Complex.exp_ofReal_mul_I_im _
  simp only [he] at h
  rw [h]
  split <;> simp

theorem signal_length (n : Nat) (a b : ℝ) (j : Nat) : (signal n a b j).length = n := by
  simp [signal]

theorem signal_getD (n : Nat) (a b : ℝ) (j m : Nat) (hm : m < n) :
    (signal n a b j).getD m 0 = a + b * Real.cos (2 * Real.pi * ((j : ℝ) / (n : ℝ)) * (m : ℝ)) := by
  rw [signal, List.getD_eq_getElem?_getD, List.getElem?_map, List.getElem?_range hm]
  rfl

/-- The spectrum of a constant plus a cosine. -/
theorem strength_signal (n j i : Nat) (a b : ℝ) (hodd : n % 2 = 1) (hj : 0 < j) (hjn : j ≤ n / 2)
    (hi : i ≤ n / 2) :
    strength realFourier realExt (signal n a b j) ((i : ℝ) / (n : ℝ)) =
      |(if i = 0 then n * a else 0) + (if i = j then n * b / 2 else 0)| := by
  have hn : 0 < n := by omega
  have hn' : (n : ℝ) ≠ 0 := by exact_mod_cast hn.ne'
  have hp : ∀ k m : Nat, k ≤ n → Real.cos (2 * Real.pi * (((n - k : Nat) : ℝ) / n) * m) =
      Real.cos (2 * Real.pi * ((k : ℝ) / n) * m) ∧
      Real.sin (2 * Real.pi * (((n - k : Nat) : ℝ) / n) * m) =
      -Real.sin (2 * Real.pi * ((k : ℝ) / n) * m) := by
    intro k m hk
    rw [Nat.cast_sub hk]
    have he : 2 * Real.pi * (((n : ℝ) - k) / n) * m = (m : ℝ) * (2 * Real.pi) - 2 * Real.pi * ((k : ℝ) / n) * m := by
      field_simp
    rw [he, Real.cos_nat_mul_two_pi_sub, Real.sin_nat_mul_two_pi_sub]
    exact ⟨rfl, rfl⟩
  have hc : ∑ m ∈ Finset.range n, (signal n a b j).getD m 0 *
      Real.cos (2 * Real.pi * ((i : ℝ) / n) * m) =
      (if i = 0 then n * a else 0) + (if i = j then n * b / 2 else 0) := by
    have h1 : ∀ m ∈ Finset.range n, (signal n a b j).getD m 0 *
        Real.cos (2 * Real.pi * ((i : ℝ) / n) * m) =
        a * Real.cos (2 * Real.pi * ((i : ℝ) / n) * m) +
        (b / 2) * Real.cos (2 * Real.pi * (((i + j : Nat) : ℝ) / n) * m) +
        (b / 2) * Real.cos (2 * Real.pi * (((i + (n - j) : Nat) : ℝ) / n) * m) := by
      intro m hm
      rw [signal_getD n a b j m (Finset.mem_range.mp hm)]
      have e1 : 2 * Real.pi * (((i + j : Nat) : ℝ) / n) * m =
          2 * Real.pi * ((i : ℝ) / n) * m + 2 * Real.pi * ((j : ℝ) / n) * m := by push_cast; ring
      have e2 : 2 * Real.pi * (((i + (n - j) : Nat) : ℝ) / n) * m =
          2 * Real.pi * ((i : ℝ) / n) * m + 2 * Real.pi * (((n - j : Nat) : ℝ) / n) * m := by
        rw [Nat.cast_add]; ring
      rw [e1, e2, Real.cos_add, Real.cos_add, (hp j m (by omega)).1, (hp j m (by omega)).2]
      ring
    rw [Finset.sum_congr rfl h1, Finset.sum_add_distrib, Finset.sum_add_distrib, ← Finset.mul_sum,
      ← Finset.mul_sum, ← Finset.mul_sum, cos_sum n i hn, cos_sum n (i + j) hn, cos_sum n (i + (n - j)) hn]
    have d1 : (n ∣ i) ↔ i = 0 := by
      constructor
      · intro h
        exact Nat.eq_zero_of_dvd_of_lt h (by omega)
      · rintro rfl; exact dvd_zero n
    have d2 : ¬ n ∣ i + j := by
      intro h
      have := Nat.eq_zero_of_dvd_of_lt h (by omega)
      omega
    have d3 : (n ∣ i + (n - j)) ↔ i = j := by
      constructor
      · rintro ⟨c, hc⟩
        have hc1 : c < 2 := by
          by_contra hge
          have : n * 2 ≤ n * c := Nat.mul_le_mul_left n (by omega)
          omega
        have hc0 : c ≠ 0 := by rintro rfl; omega
        have : c = 1 := by omega
        subst this
        omega
      · rintro rfl
        exact ⟨1, by omega⟩
    rw [if_neg d2]
    simp only [d1, d3]
    split_ifs <;> ring
  have hs : ∑ m ∈ Finset.range n, (signal n a b j).getD m 0 *
      Real.sin (2 * Real.pi * ((i : ℝ) / n) * m) = 0 := by
    have h1 : ∀ m ∈ Finset.range n, (signal n a b j).getD m 0 *
        Real.sin (2 * Real.pi * ((i : ℝ) / n) * m) =
        a * Real.sin (2 * Real.pi * ((i : ℝ) / n) * m) +
        (b / 2) * Real.sin (2 * Real.pi * (((i + j : Nat) : ℝ) / n) * m) +
        (b / 2) * Real.sin (2 * Real.pi * (((i + (n - j) : Nat) : ℝ) / n) * m) := by
      intro m hm
      rw [signal_getD n a b j m (Finset.mem_range.mp hm)]
      have e1 : 2 * Real.pi * (((i + j : Nat) : ℝ) / n) * m =
          2 * Real.pi * ((i : ℝ) / n) * m + 2 * Real.pi * ((j : ℝ) / n) * m := by push_cast; ring
      have e2 : 2 * Real.pi * (((i + (n - j) : Nat) : ℝ) / n) * m =
          2 * Real.pi * ((i : ℝ) / n) * m + 2 * Real.pi * (((n - j : Nat) : ℝ) / n) * m := by
        rw [Nat.cast_add]; ring
      rw [e1, e2, Real.sin_add, Real.sin_add, (hp j m (by omega)).1, (hp j m (by omega)).2]
      ring
    rw [Finset.sum_congr rfl h1, Finset.sum_add_distrib, Finset.sum_add_distrib, ← Finset.mul_sum,
      ← Finset.mul_sum, ← Finset.mul_sum, sin_sum n i hn, sin_sum n (i + j) hn, sin_sum n (i + (n - j)) hn]
    ring
  have hlen := signal_length n a b j
  unfold strength
  simp only [hlen]
  change Real.sqrt ((∑ m ∈ Finset.range n, (signal n a b j).getD m 0 *
      Real.cos (2 * Real.pi * ((i : ℝ) / n) * m)) ^ 2 + (∑ m ∈ Finset.range n, (signal n a b j).getD m 0 *
      Real.sin (2 * Real.pi * ((i : ℝ) / n) * m)) ^ 2) = _
  rw [hc, hs]
  simp only [ne_eq, OfNat.ofNat_ne_zero, not_false_eq_true, zero_pow, add_zero, Real.sqrt_sq_eq_abs]

theorem spectrum_signal_getD (n j : Nat) (a b : ℝ) (i : Nat) (hi : i < bins n) :
    (spectrum realFourier realExt (signal n a b j)).getD i 0 =
      strength realFourier realExt (signal n a b j) ((i : ℝ) / (n : ℝ)) := by
  unfold spectrum
  rw [List.getD_eq_getElem?_getD, List.getElem?_map, List.getElem?_range (by rw [signal_length]; exact hi),
    signal_length]
  rfl

/-- the default finder finds the peak of the cosine -/
theorem signal_peak (n j : Nat) (a b : ℝ) (hodd : n % 2 = 1) (hn : 5 ≤ n) (hj : 0 < j)
    (hjn : j ≤ n / 2) (hb : b ≠ 0) (hsep : a = 0 ∨ 5 ≤ j) :
    ∃ found, defaultFinder (spectrum realFourier realExt (signal n a b j)) = .ok found ∧
      found.Nodup ∧ (∀ k ∈ found, k < bins (signal n a b j).length) ∧ j ∈ found := by
  have hlen : (spectrum realFourier realExt (signal n a b j)).length = bins n := by
    simp [spectrum, signal_length]
  have hbins : bins n = n / 2 + 1 := rfl
  have hne : spectrum realFourier realExt (signal n a b j) ≠ [] := by
    rw [← List.length_pos_iff, hlen]; omega
  obtain ⟨p, h1, h2, h3⟩ := C44_sound realExt 5 (by norm_num) 0 1 (by norm_num) _ hne
  obtain ⟨q, g1, g2⟩ := C44_partial realExt 5 0 (by norm_num)
    (spectrum realFourier realExt (signal n a b j)) (by rw [hlen]; omega) j (by rw [hlen]; omega) (by
      intro k hk hkj hk1 hk2
      rw [hlen] at hk
      rw [spectrum_signal_getD n j a b k hk, spectrum_signal_getD n j a b j (by omega),
        strength_signal n j k a b hodd hj hjn (by omega), strength_signal n j j a b hodd hj hjn hjn,
        if_neg hkj, if_pos rfl, if_neg (by omega : ¬ j = 0)]
      have hk0 : (if k = 0 then (n : ℝ) * a else 0) = 0 := by
        rcases hsep with h | h
        · rw [h]; simp
        · rw [if_neg (by omega)]
      rw [hk0, add_zero, abs_zero, zero_add, abs_pos]
      have : (n : ℝ) ≠ 0 := by
        have : n ≠ 0 := by omega
        exact_mod_cast this
      positivity)
  rw [h1] at g1
  cases g1
  refine ⟨p, h1, h2, fun k hk => ?_, g2⟩
  have := (h3 k hk).1
  rw [hlen] at this
  rwa [signal_length]

theorem htol_signal (n : Nat) (a b tol : ℝ) (j : Nat) (h : 1 / (bins n : ℝ) ≤ tol) :
    1 / (bins (signal n a b j).length : ℝ) ≤ tol := by rwa [signal_length]

/-- C79_biased_false: "get_tune returns the frequency of the signal" is false.  For every odd number
n >= 5 of samples of a cosine of frequency j/n, with the default peak finder and a tolerance of a bin
or more, the tune returned is j/(n+1). -/
theorem C79_biased_false (n j : Nat) (b : ℝ) (hodd : n % 2 = 1) (hn : 5 ≤ n) (hj : 0 < j)
    (hjn : j ≤ n / 2) (hb : b ≠ 0) (fuel : Nat) (tol : ℝ) (htol : 1 / (bins n : ℝ) ≤ tol) :
    (getTune realFourier realExt defaultFinder fuel (some tol)
      (new (some (signal n 0 b j)) none false)).1 = .ok (some ((j : ℝ) / ((n : ℝ) + 1))) ∧
    (j : ℝ) / ((n : ℝ) + 1) ≠ (j : ℝ) / (n : ℝ) := by
  obtain ⟨found, f1, f2, f3, f4⟩ := signal_peak n j 0 b hodd hn hj hjn hb (.inl rfl)
  obtain ⟨i, hi, hres, _, hle, _⟩ := C79_coarse realFourier realExt realFourier_law defaultFinder fuel
    tol (new (some (signal n 0 b j)) none false) (signal n 0 b j) rfl (by rw [signal_length]; exact hodd)
    (htol_signal n 0 b tol j htol) found f1 f2 f3 ⟨j, f4, hj.ne'⟩
  have hn0 : (0 : ℝ) < n := by
    have : 0 < n := by omega
    exact_mod_cast this
  have hj0 : (0 : ℝ) < j := by exact_mod_cast hj
  rw [signal_length] at hi hres
  have h := hle j f4 hj.ne'
  rw [signal_length, strength_signal n j j 0 b hodd hj hjn hjn,
    strength_signal n j i 0 b hodd hj hjn (by unfold bins at hi; omega)] at h
  have hij : i = j := by
    by_contra hne
    simp only [mul_zero, ite_self, if_true, hne, if_false, add_zero, zero_add, abs_zero] at h
    have : 0 < |(n : ℝ) * b / 2| := by positivity
    linarith
  subst hij
  refine ⟨hres, ?_⟩
  intro he
  rw [div_eq_div_iff (by positivity) (by positivity)] at he
  nlinarith

/-- C79_zero_false: "the tune returned is not 0" is false.  For a constant a plus a cosine of
amplitude 2a the tune returned is 0, though there is a peak at the frequency j/n. -/
theorem C79_zero_false (n j : Nat) (a : ℝ) (hodd : n % 2 = 1) (hj : 5 ≤ j)
    (hjn : j ≤ n / 2) (ha : a ≠ 0) (fuel : Nat) (tol : ℝ) (htol : 1 / (bins n : ℝ) ≤ tol) :
    (getTune realFourier realExt defaultFinder fuel (some tol)
      (new (some (signal n a (2 * a) j)) none false)).1 = .ok (some 0) := by
  obtain ⟨found, f1, f2, f3, f4⟩ := signal_peak n j a (2 * a) hodd (by omega) (by omega) hjn
    (by simpa using ha) (.inr hj)
  obtain ⟨i, hi, hres, _, hle, hfirst⟩ := C79_coarse realFourier realExt realFourier_law defaultFinder
    fuel tol (new (some (signal n a (2 * a) j)) none false) (signal n a (2 * a) j) rfl
    (by rw [signal_length]; exact hodd) (htol_signal n a (2 * a) tol j htol) found f1 f2 f3
    ⟨j, f4, by omega⟩
  have hn0 : (0 : ℝ) < n := by
    have : 0 < n := by omega
    exact_mod_cast this
  rw [signal_length] at hi hres
  have hib : i ≤ n / 2 := by unfold bins at hi; omega
  have h := hle j f4 (by omega)
  rw [signal_length, strength_signal n j j a (2 * a) hodd (by omega) hjn hjn,
    strength_signal n j i a (2 * a) hodd (by omega) hjn hib] at h
  have hi0 : i = 0 := by
    by_contra hne
    have h0 := hfirst 0 (by omega)
    rw [signal_length, strength_signal n j 0 a (2 * a) hodd (by omega) hjn (by omega),
      strength_signal n j i a (2 * a) hodd (by omega) hjn hib] at h0
    by_cases hij : i = j
    · subst hij
      simp only [if_true, if_neg hne, if_neg (Ne.symm hne), add_zero, zero_add] at h0
      exact h0 (by congr 1; ring)
    · simp only [if_neg hne, if_neg hij, if_true, add_zero, abs_zero, if_neg (show ¬ j = 0 by omega),
        zero_add] at h
      have : 0 < |(n : ℝ) * (2 * a) / 2| := by positivity
      linarith
  subst hi0
  simpa using hres

example : (getTune realFourier realExt defaultFinder 1000 (some 1)
    (new (some (signal 21 0 3 4)) none false)).1 = .ok (some ((4 : Nat) / ((21 : Nat) + 1))) :=
  (C79_biased_false 21 4 3 (by norm_num) (by norm_num) (by norm_num) (by norm_num) (by norm_num) 1000 1
    (by norm_num [bins])).1

example : (getTune realFourier realExt defaultFinder 1000 (some 1)
    (new (some (signal 21 3 (2 * 3) 7)) none false)).1 = .ok (some 0) :=
  C79_zero_false 21 7 3 (by norm_num) (by norm_num) (by norm_num) (by norm_num) 1000 1
    (by norm_num [bins])

/-- a case that meets the hypotheses of C79_partial, C79_again and C79_coarse -/
example : ∃ s', getTune realFourier realExt defaultFinder 1000 (some 1)
    (new (some (signal 21 0 3 4)) none false) = (.ok (some ((4 : Nat) / ((21 : Nat) + 1))), s') :=
  ⟨_, Prod.ext (C79_biased_false 21 4 3 (by norm_num) (by norm_num) (by norm_num) (by norm_num)
    (by norm_num) 1000 1 (by norm_num [bins])).1 rfl⟩

/-- a case of C79_no_peaks: constant data have no peak that is not at 0 -/
example (fuel : Nat) (tol : Option ℝ) :
    (getTune realFourier realExt (fun _ => .ok []) fuel tol (new (some [1, 1, 1]) none false)).1 =
      .error .ValueError :=
  C79_no_peaks realFourier realExt realFourier_law _ fuel tol [1, 1, 1] none false (by norm_num) (.inl rfl)

/-- a case of C79_stale_false -/
example : ∃ x, (getTune realFourier realExt (fun _ => .ok []) 1000 (some 1)
    { new (some [1, 1, 1]) none false with px := [1 / 4] }).1 = .ok (some x) :=
  C79_stale_false realFourier realExt realFourier_law _ 1000 1 _ [1, 1, 1] rfl (by norm_num)
    (by norm_num [bins]) rfl (by simp) (by
      intro p hp
      refine ⟨1, by norm_num [bins], ?_⟩
      rw [List.mem_singleton.mp hp]
      norm_num)

theorem defaultFinder_err (l : List ℝ) : defaultFinder l ≠ .error .RuntimeError := by
  by_cases h : l = []
  · subst h
    simp [defaultFinder, PeakFinder.window, PeakFinder.rangeStep, List.range_succ,
      PeakFinder.windowLoop, PeakFinder.windowStep]
  · obtain ⟨p, h1, _⟩ := C44_sound realExt 5 (by norm_num) 0 1 (by norm_num) l h
    rw [defaultFinder, h1]
    simp

/-- a case of C79_ends: the default tolerance and the default peak finder -/
example (s : State ℝ) :
    ∃ N, ∀ fuel ≥ N, (getTune realFourier realExt defaultFinder fuel none s).1 ≠ .error .RuntimeError ∧
      getTune realFourier realExt defaultFinder fuel none s =
        getTune realFourier realExt defaultFinder N none s :=
  C79_ends realFourier realExt realFourier_law defaultFinder defaultFinder_err none (by simp) s

end FFTTune
end Xboa
