import Verif.TF.Bandpass
import Mathlib.Tactic.FieldSimp
import Mathlib.Tactic.Positivity

/-!
# Properties of the response of a sub-band (claim C124)
-/

namespace Verif.TF

/-! ## Specification -/

/-- Amplitude of the filter of coefficients `a` at `x` sub-bands from the centre of the sub-band: sixteen coefficients for one sub-band. -/
noncomputable def filterAt (a : List ℝ) (x : ℝ) : ℂ :=
  ((List.range a.length).map fun k : Nat => ((a.getD k 0 : ℝ) : ℂ) * Complex.exp (-(2 * Real.pi * Complex.I * (16 * x * k / a.length)))).sum

/-- Power received at `x` sub-bands from the centre, the neighbouring sub-bands being folded (`s` sub-bands away). -/
noncomputable def power (a : List ℝ) (x s : ℝ) : ℝ := ‖filterAt a x‖ ^ 2 + ‖filterAt a (x - s)‖ ^ 2 + ‖filterAt a (x + s)‖ ^ 2

/-! ## Lemmas -/

theorem exp_period (x : ℂ) (m : ℤ) : Complex.exp (-(2 * Real.pi * Complex.I * (x + m))) = Complex.exp (-(2 * Real.pi * Complex.I * x)) := by
  rw [show -(2 * (Real.pi : ℂ) * Complex.I * (x + m)) = -(2 * Real.pi * Complex.I * x) + ((-m : ℤ) : ℂ) * (2 * Real.pi * Complex.I) by push_cast; ring]
  rw [Complex.exp_add, Complex.exp_int_mul_two_pi_mul_I, mul_one]

/-- Terms of the transform by relative frequency. -/
theorem fourier_at (a : List ℝ) (o : Nat) (ho : 0 < o) (ha : 0 < a.length) (j : Nat) (m : ℤ) :
    fourier a (o * a.length) j = filterAt a (((j : ℝ) - m * (o * a.length)) / (16 * o)) := by
  unfold fourier filterAt
  congr 1
  refine List.map_congr_left fun k _ => ?_
  congr 1
  rw [← exp_period (((16 : ℂ) * (((((j : ℝ) - m * (o * a.length)) / (16 * o) : ℝ)) : ℂ) * k / a.length)) (m * k)]
  congr 4
  have h1 : (o : ℂ) ≠ 0 := by exact_mod_cast ho.ne'
  have h2 : (a.length : ℂ) ≠ 0 := by exact_mod_cast ha.ne'
  push_cast
  field_simp
  ring

theorem highRes_length (a : List ℝ) (n : Nat) : (highRes a n).length = n / 16 * a.length := by simp [highRes]

theorem highRes_get (a : List ℝ) (n i : Nat) (hn : 16 ≤ n) (ha : 0 < a.length) (h : i < n / 16 * a.length) (m : ℤ) :
    (highRes a n)[i]? = some (filterAt a (((i : ℝ) - m * ((n / 16 : Nat) * a.length)) / (16 * (n / 16 : Nat)))) := by
  have ho : 0 < n / 16 := by omega
  rw [← fourier_at a (n / 16) ho ha i m]
  simp [highRes, List.getElem?_map, List.getElem?_range h]

/-- There are enough terms. -/
theorem enough (a : List ℝ) (n : Nat) (hn : 16 ≤ n) (ha : 64 ≤ a.length) : 2 * n ≤ n / 16 * a.length := by
  have h1 : n / 16 * 64 ≤ n / 16 * a.length := Nat.mul_le_mul_left _ ha
  omega

theorem filter_conj (a : List ℝ) (x : ℝ) : filterAt a (-x) = (starRingEnd ℂ) (filterAt a x) := by
  unfold filterAt
  rw [map_list_sum, List.map_map]
  congr 1
  refine List.map_congr_left fun k _ => ?_
  show _ = (starRingEnd ℂ) _
  rw [map_mul, Complex.conj_ofReal, ← Complex.exp_conj]
  congr 2
  have h2 : (starRingEnd ℂ) 2 = 2 := Complex.conj_ofNat 2
  have h16 : (starRingEnd ℂ) 16 = 16 := Complex.conj_ofNat 16
  simp [Complex.conj_ofReal, map_mul, map_neg, Complex.conj_I, map_div₀, h2, h16]
  ring

theorem filter_norm (a : List ℝ) (x : ℝ) : ‖filterAt a (-x)‖ = ‖filterAt a x‖ := by
  rw [filter_conj, Complex.norm_conj]

theorem power_neg (a : List ℝ) (x s : ℝ) : power a (-x) s = power a x s := by
  unfold power
  rw [filter_norm, show -x - s = -(x + s) by ring, filter_norm, show -x + s = -(x - s) by ring, filter_norm]
  ring

theorem power_nonneg (a : List ℝ) (x s : ℝ) : 0 ≤ power a x s := by unfold power; positivity

/-- Bands of the transform, `c` being the relative frequency of channel `i`. -/
theorem middle_get (a : List ℝ) (n i : Nat) (hn : 16 ≤ n) (he : n % 2 = 0) (ha : 64 ≤ a.length) (hi : i < n) :
    (middleBand a n).getD i 0 = filterAt a (((i : ℝ) - (n / 2 : Nat)) / (16 * (n / 16 : Nat))) := by
  have hen := enough a n hn ha
  have hap : 0 < a.length := by omega
  set L := n / 16 * a.length with hL
  have hlen : (lastItems (n / 2) (highRes a n)).length = n / 2 := by
    simp only [lastItems, List.length_drop, highRes_length]
    omega
  rw [List.getD_eq_getElem?_getD]
  unfold middleBand
  by_cases h : i < n / 2
  · rw [List.getElem?_append_left (by rw [hlen]; exact h)]
    unfold lastItems
    rw [List.getElem?_drop, highRes_length, ← hL, highRes_get a n _ hn hap (by omega) 1, Option.getD_some]
    congr 2
    have : ((L - n / 2 + i : Nat) : ℝ) = (L : ℝ) - (n / 2 : Nat) + i := by
      push_cast [Nat.cast_sub (show n / 2 ≤ L by omega)]; ring
    rw [this, hL]
    push_cast
    ring
  · rw [List.getElem?_append_right (by rw [hlen]; omega), hlen, List.getElem?_take_of_lt (by omega), highRes_get a n _ hn hap (by omega) 0,
      Option.getD_some]
    congr 2
    rw [Nat.cast_sub (by omega)]
    simp

theorem right_get (a : List ℝ) (n i : Nat) (hn : 16 ≤ n) (he : n % 2 = 0) (ha : 64 ≤ a.length) (hi : i < n) :
    (rightBand a n).getD i 0 = filterAt a (((i : ℝ) - (n / 2 : Nat)) / (16 * (n / 16 : Nat)) + n / (16 * (n / 16 : Nat))) := by
  have hen := enough a n hn ha
  have hap : 0 < a.length := by omega
  rw [List.getD_eq_getElem?_getD]
  unfold rightBand
  rw [List.getElem?_take_of_lt hi, List.getElem?_drop, highRes_get a n _ hn hap (by omega) 0, Option.getD_some]
  congr 1
  rw [← add_div]
  congr 1
  have h2 : (n : ℝ) = 2 * ((n / 2 : Nat) : ℝ) := by exact_mod_cast (by omega : n = 2 * (n / 2))
  push_cast
  rw [h2]
  ring

theorem left_get (a : List ℝ) (n i : Nat) (hn : 16 ≤ n) (he : n % 2 = 0) (ha : 64 ≤ a.length) (hi : i < n) :
    (leftBand a n).getD i 0 = filterAt a (((i : ℝ) - (n / 2 : Nat)) / (16 * (n / 16 : Nat)) - n / (16 * (n / 16 : Nat))) := by
  have hen := enough a n hn ha
  have hap : 0 < a.length := by omega
  set L := n / 16 * a.length with hL
  rw [List.getD_eq_getElem?_getD]
  unfold leftBand lastItems butLast
  rw [List.getElem?_drop, List.length_take, highRes_length, ← hL, Nat.min_eq_left (by omega), List.getElem?_take_of_lt (by omega),
    highRes_get a n _ hn hap (by omega) 1, Option.getD_some]
  congr 1
  rw [← sub_div]
  congr 1
  have : ((L - n / 2 - n + i : Nat) : ℝ) = (L : ℝ) - (n / 2 : Nat) - n + i := by
    push_cast [Nat.cast_sub (show n / 2 ≤ L by omega), Nat.cast_sub (show n ≤ L - n / 2 by omega)]; ring
  rw [this, hL]
  push_cast
  ring

/-! ## Properties -/

/-- C124 (partial). For each even number of channels, from 16, there is one value for each channel: the inverse of the power received at
the place of the channel in the sub-band, in units of sub-bands **cut in `16 ⌊n / 16⌋` channels**. This is the place of the channel
for the multiples of 16 only. -/
theorem bandpass_partial (a : List ℝ) (ha : 64 ≤ a.length) (n : Nat) (hn : 16 ≤ n) (he : n % 2 = 0) :
    ∃ l, bandpass a n = .ok l ∧ l.length = n ∧
      ∀ i < n, l.getD i 0 = 2 ^ 50 / power a (((i : ℝ) - (n / 2 : Nat)) / (16 * (n / 16 : Nat))) (n / (16 * (n / 16 : Nat))) := by
  refine ⟨_, if_neg (by omega), by simp, fun i hi => ?_⟩
  rw [List.getD_eq_getElem?_getD, List.getElem?_map, List.getElem?_range hi, Option.map_some, Option.getD_some,
    middle_get a n i hn he ha hi, left_get a n i hn he ha hi, right_get a n i hn he ha hi]
  rw [div_pow, Real.sq_sqrt (by positivity)]
  unfold power
  norm_num

/-- C124. For multiples of 16 the value is the one of the place of the channel: sub-bands cut in more channels have the same response. -/
theorem bandpass_exact (a : List ℝ) (ha : 64 ≤ a.length) (o : Nat) (ho : 0 < o) :
    ∃ l, bandpass a (16 * o) = .ok l ∧ l.length = 16 * o ∧
      ∀ i < 16 * o, l.getD i 0 = 2 ^ 50 / power a ((i : ℝ) / (16 * o : Nat) - 1 / 2) 1 := by
  obtain ⟨l, h1, h2, h3⟩ := bandpass_partial a ha (16 * o) (by omega) (by omega)
  refine ⟨l, h1, h2, fun i hi => ?_⟩
  rw [h3 i hi]
  have e1 : 16 * o / 16 = o := by omega
  have e2 : 16 * o / 2 = 8 * o := by omega
  have h0 : (o : ℝ) ≠ 0 := by exact_mod_cast ho.ne'
  rw [e1, e2]
  congr 2
  · push_cast; field_simp; ring
  · push_cast; field_simp

/-- C124. The response is symmetric: the channels at the same distance of the central one (rank `n / 2`) have the same value. -/
theorem bandpass_symmetric (a : List ℝ) (ha : 64 ≤ a.length) (n : Nat) (hn : 16 ≤ n) (he : n % 2 = 0) (j : Nat) (hj : j < n / 2) :
    ∃ l, bandpass a n = .ok l ∧ l.getD (n / 2 + j) 0 = l.getD (n / 2 - j) 0 := by
  obtain ⟨l, h1, h2, h3⟩ := bandpass_partial a ha n hn he
  refine ⟨l, h1, ?_⟩
  rw [h3 _ (by omega), h3 _ (by omega)]
  congr 1
  rw [← power_neg]
  congr 1
  rw [Nat.cast_sub (by omega)]
  push_cast
  ring

/-- C124. Other numbers of channels are refused. -/
theorem bandpass_refused (a : List ℝ) (n : Nat) (h : n < 16 ∨ n % 2 ≠ 0) : bandpass a n = .error .valueError := if_pos h

/-- Coefficients of the witness. -/
def twoTaps : List ℝ := [1, 0, 1] ++ List.replicate 61 0

theorem twoTaps_at (x : ℝ) : filterAt twoTaps x = 1 + Complex.exp (-(Real.pi * Complex.I * x)) := by
  unfold filterAt
  rw [show List.range twoTaps.length = [0, 1, 2] ++ (List.range 61).map (fun k => k + 3) by decide +kernel, List.map_append, List.sum_append,
    List.map_map]
  rw [List.sum_eq_zero (l := List.map _ (List.range 61))]
  · simp only [List.map_cons, List.map_nil, List.sum_cons, List.sum_nil]
    simp only [twoTaps, List.length_append, List.length_cons, List.length_nil, List.length_replicate, List.cons_append, List.getD_cons_zero,
      List.getD_cons_succ]
    push_cast
    simp only [mul_zero, zero_div, neg_zero, Complex.exp_zero, mul_one, add_zero, zero_mul, zero_add, one_mul]
    congr 3
    ring
  · intro c hc
    obtain ⟨k, hk, rfl⟩ := List.mem_map.1 hc
    have h0 : twoTaps.getD (k + 3) 0 = 0 := by
      show ((1 : ℝ) :: 0 :: 1 :: List.replicate 61 0).getD (k + 3) 0 = 0
      rw [List.getD_cons_succ, List.getD_cons_succ, List.getD_cons_succ, List.getD_eq_getElem?_getD]
      rw [List.getElem?_replicate]
      split_ifs <;> rfl
    show ((twoTaps.getD (k + 3) 0 : ℝ) : ℂ) * _ = 0
    rw [h0]
    simp

theorem twoTaps_norm (x : ℝ) : ‖filterAt twoTaps x‖ ^ 2 = 2 + 2 * Real.cos (Real.pi * x) := by
  rw [twoTaps_at, ← Complex.normSq_eq_norm_sq, Complex.normSq_apply]
  have : -((Real.pi : ℂ) * Complex.I * x) = ((-(Real.pi * x) : ℝ) : ℂ) * Complex.I := by push_cast; ring
  rw [this]
  simp only [Complex.add_re, Complex.add_im, Complex.one_re, Complex.one_im, Complex.exp_ofReal_mul_I_re, Complex.exp_ofReal_mul_I_im]
  rw [Real.cos_neg, Real.sin_neg]
  nlinarith [Real.sin_sq_add_cos_sq (Real.pi * x)]

/-- C124 (violated). With 24 channels, accepted, the central channel may get half of the value it has with 16 or 48 channels: the response
of the neighbouring sub-bands is taken 24 channels away in a sub-band cut in 16. -/
theorem bandpass_stretched_violated : ∃ (a : List ℝ) (l16 l24 l48 : List ℝ), 64 ≤ a.length ∧ bandpass a 16 = .ok l16 ∧ bandpass a 24 = .ok l24 ∧
    bandpass a 48 = .ok l48 ∧ l16.getD 8 0 = 2 ^ 48 ∧ l48.getD 24 0 = 2 ^ 48 ∧ l24.getD 12 0 = 2 ^ 47 := by
  have ha : 64 ≤ twoTaps.length := by decide +kernel
  obtain ⟨l16, h1, -, h1'⟩ := bandpass_exact twoTaps ha 1 (by decide)
  obtain ⟨l48, h2, -, h2'⟩ := bandpass_exact twoTaps ha 3 (by decide)
  obtain ⟨l24, h3, -, h3'⟩ := bandpass_partial twoTaps ha 24 (by decide) (by decide)
  have c32 : Real.cos (Real.pi * (3 / 2)) = 0 := by
    rw [show Real.pi * (3 / 2) = Real.pi / 2 + Real.pi by ring, Real.cos_add_pi, Real.cos_pi_div_two, neg_zero]
  refine ⟨twoTaps, l16, l24, l48, ha, h1, h3, h2, ?_, ?_, ?_⟩
  · rw [h1' 8 (by decide)]
    unfold power
    rw [twoTaps_norm, twoTaps_norm, twoTaps_norm]
    norm_num
  · rw [h2' 24 (by decide)]
    unfold power
    rw [twoTaps_norm, twoTaps_norm, twoTaps_norm]
    norm_num
  · rw [h3' 12 (by decide)]
    unfold power
    rw [twoTaps_norm, twoTaps_norm, twoTaps_norm]
    norm_num
    rw [c32]
    norm_num

/-! ## The hypotheses can be met -/

example : 64 ≤ twoTaps.length ∧ (16 : Nat) ≤ 24 ∧ 24 % 2 = 0 ∧ (3 : Nat) < 24 / 2 := ⟨by decide +kernel, by decide, by decide, by decide⟩

/-- C124 (violated), for every accepted number of channels which is not a multiple of 16: all the channels but the central one are corrected for a place further from the centre of the
sub-band than theirs, by the same factor for all, and the first channel for a place out of the sub-band. -/
theorem bandpass_place_violated (a : List ℝ) (ha : 64 ≤ a.length) (n : Nat) (hn : 16 ≤ n) (he : n % 2 = 0) (h16 : n % 16 ≠ 0) :
    ∃ l, ∃ k : ℝ, 1 < k ∧ bandpass a n = .ok l ∧ l.length = n ∧
      (∀ i < n, l.getD i 0 = 2 ^ 50 / power a (k * (((i : ℝ) - (n / 2 : Nat)) / n)) k) ∧
      (∀ i < n, i ≠ n / 2 → |((i : ℝ) - (n / 2 : Nat)) / n| < |k * (((i : ℝ) - (n / 2 : Nat)) / n)|) ∧
      k * (((0 : Nat) - ((n / 2 : Nat) : ℝ)) / n) < - 1 / 2 := by
  obtain ⟨l, h1, h2, h3⟩ := bandpass_partial a ha n hn he
  have hq : 0 < n / 16 := Nat.div_pos hn (by norm_num)
  have hm : (0 : ℝ) < 16 * (n / 16 : Nat) := by positivity
  have hlt : 16 * (n / 16) < n := by omega
  have hlt' : (16 : ℝ) * (n / 16 : Nat) < n := by exact_mod_cast hlt
  have hn0 : (0 : ℝ) < n := by linarith
  have hk : 1 < (n : ℝ) / (16 * (n / 16 : Nat)) := by rw [one_lt_div hm]; exact hlt'
  refine ⟨l, (n : ℝ) / (16 * (n / 16 : Nat)), hk, h1, h2, ?_, ?_, ?_⟩
  · intro i hi
    rw [h3 i hi]
    congr 2
    field_simp
  · intro i _ hne
    rw [abs_mul, abs_of_pos (by linarith : (0 : ℝ) < (n : ℝ) / (16 * (n / 16 : Nat)))]
    have : 0 < |((i : ℝ) - (n / 2 : Nat)) / n| := by
      rw [abs_pos]
      refine div_ne_zero ?_ hn0.ne'
      rw [sub_ne_zero]
      exact_mod_cast hne
    nlinarith
  · have e : ((n / 2 : Nat) : ℝ) * 2 = n := by
      have : n / 2 * 2 = n := by omega
      exact_mod_cast this
    have e' : (((0 : Nat) : ℝ) - ((n / 2 : Nat) : ℝ)) / n = -1 / 2 := by
      rw [div_eq_div_iff hn0.ne' (by norm_num)]
      push_cast
      linarith
    rw [e']
    linarith

/-- Non-vacuity: 24 channels. -/
example : 16 ≤ 24 ∧ 24 % 2 = 0 ∧ 24 % 16 ≠ 0 := by norm_num

end Verif.TF
