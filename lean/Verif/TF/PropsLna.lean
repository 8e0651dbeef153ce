import Verif.TF.Lna
import Verif.TF.PropsBandpass
import Mathlib.Analysis.Complex.ExponentialBounds
import Mathlib.Data.List.GetD

/-!
# Properties of the correction of sub-bands with a filter
-/

namespace Verif.TF

theorem inv_exp_range (t : ℝ) : 0 < (1 + Real.exp t)⁻¹ ∧ (1 + Real.exp t)⁻¹ < 1 := by
  have h := Real.exp_pos t
  exact ⟨by positivity, inv_lt_one_of_one_lt₀ (by linarith)⟩

theorem inv_exp_low (t : ℝ) (ht : t ≤ 0) : 1 / 2 ≤ (1 + Real.exp t)⁻¹ := by
  have h := Real.exp_pos t
  have h1 : Real.exp t ≤ 1 := Real.exp_le_one_iff.2 ht
  rw [one_div]
  exact inv_anti₀ (by linarith) (by linarith)

theorem inv_exp_high (t : ℝ) (ht : 0 ≤ t) : (1 + Real.exp t)⁻¹ ≤ 1 / 2 := by
  have h1 : 1 ≤ Real.exp t := Real.one_le_exp ht
  rw [one_div]
  exact inv_anti₀ (by norm_num) (by linarith)

theorem inv_exp_anti (s t : ℝ) (h : s ≤ t) : (1 + Real.exp t)⁻¹ ≤ (1 + Real.exp s)⁻¹ := by
  have := Real.exp_le_exp.2 h
  have := Real.exp_pos s
  exact inv_anti₀ (by linarith) (by linarith)

theorem inv_exp_comp (t : ℝ) : (1 + Real.exp t)⁻¹ = 1 - (1 + Real.exp (-t))⁻¹ := by
  have h := Real.exp_pos t
  rw [Real.exp_neg]
  field_simp
  ring

theorem inv_exp_flat (t : ℝ) (ht : t ≤ -14) : 1 - 1 / 16384 ≤ (1 + Real.exp t)⁻¹ := by
  have h0 := Real.exp_pos t
  have h1 : Real.exp t ≤ 1 / 16384 := by
    have h2 : Real.exp t ≤ Real.exp (-14) := Real.exp_le_exp.2 ht
    have h3 : Real.exp (-14) = (Real.exp (-1)) ^ 14 := by rw [← Real.exp_nat_mul]; norm_num
    have h4 : Real.exp (-1) ≤ 1 / 2 := by
      rw [Real.exp_neg, one_div]
      exact inv_anti₀ (by norm_num) (by have := Real.exp_one_gt_d9; linarith)
    have h5 : (Real.exp (-1)) ^ 14 ≤ (1 / 2) ^ 14 := pow_le_pow_left₀ (Real.exp_pos _).le h4 14
    norm_num at h5
    rw [h3] at h2
    linarith
  rw [← one_div, le_div_iff₀ (by linarith)]
  nlinarith

theorem high_value (x a b c k d : ℝ) : slantedSigmoid x a b c k d = b * (1 + Real.exp (k * (x - a)))⁻¹ + c + d * x := by
  unfold slantedSigmoid
  rw [div_eq_mul_inv]

theorem low_value (x a b c k : ℝ) : sigmoid x a b c k = b * (1 + Real.exp (k * (x - a)))⁻¹ + c := by
  unfold sigmoid
  rw [div_eq_mul_inv]

theorem positive_pair (r s y : ℝ) (hr : 0 ≤ r) (hr4 : r ≤ 4) (hy : 0 < y) (hs : 0 < s + y / 4) : 0 < s * r + y := by
  rcases le_or_gt 0 s with h | h
  · have := mul_nonneg h hr
    linarith
  · nlinarith

/-- Both formulas of a filter, with the two sigmoids named. -/
theorem high_pair (x a b c k d a' b' c' k' d' : ℝ) (r : ℝ) (hr : 0 ≤ r) (hr4 : r ≤ 4) (hk : 0 < k) (hk' : 0 < k') (ha : a' ≤ a)
    (hy0 : ∀ z, 0 < z → z < 1 → 0 < b' * z + c' + d' * x) (hs0 : ∀ z, 1 / 2 ≤ z → 0 < b * z + c + d * x)
    (hs1 : ∀ z z', 0 < z → 0 < z' → z' ≤ 1 / 2 → 0 < b * z + c + d * x + (b' * z' + c' + d' * x) / 4) :
    0 < slantedSigmoid x a b c k d * r + slantedSigmoid x a' b' c' k' d' := by
  rw [high_value, high_value]
  obtain ⟨p, q⟩ := inv_exp_range (k * (x - a))
  obtain ⟨p', q'⟩ := inv_exp_range (k' * (x - a'))
  have hy := hy0 _ p' q'
  refine positive_pair _ _ _ hr hr4 hy ?_
  rcases le_or_gt x a with h | h
  · have := hs0 _ (inv_exp_low (k * (x - a)) (mul_nonpos_of_nonneg_of_nonpos hk.le (by linarith)))
    linarith
  · exact hs1 _ _ p p' (inv_exp_high _ (mul_nonneg hk'.le (by linarith)))

/-- **The response is positive** at all frequencies up to 100 MHz for each filter, so that values are not inverted, lost or made infinite; `1 / g` is the response of the
sub-band itself, from 0 to 4 (it is near 1). -/
theorem lna_positive (l : Lna) (x g : ℝ) (hx : 0 ≤ x) (hx2 : x ≤ 100) (hg : 1 / 4 ≤ g) : 0 < lnaResponse l x g := by
  have hr : 0 ≤ g⁻¹ := inv_nonneg.2 (by linarith)
  have hr4 : g⁻¹ ≤ 4 := by
    rw [inv_le_comm₀ (by linarith) (by norm_num)]
    linarith
  unfold lnaResponse
  rw [div_eq_mul_inv]
  generalize g⁻¹ = r at hr hr4
  rcases lt_or_ge x 50 with h | h
  · cases l with
    | f0 => simp only [lnaSlope, lnaOffset, fitConst, if_pos h]; refine positive_pair _ _ _ hr hr4 ?_ ?_ <;> norm_num
    | f1 => simp only [lnaSlope, lnaOffset, fitConst, if_pos h]; refine positive_pair _ _ _ hr hr4 ?_ ?_ <;> norm_num
    | f2 =>
      simp only [lnaSlope, lnaOffset, fitSig, if_pos h, low_value]
      have p := (inv_exp_range (-1.02227093 * (x - 13.0641911))).1
      have p' := (inv_exp_range (1.06913377 * (x - 13.000633))).1
      refine positive_pair _ _ _ hr hr4 ?_ ?_ <;> linarith
    | f3 =>
      simp only [lnaSlope, lnaOffset, fitSig, if_pos h, low_value]
      have p := (inv_exp_range (-0.941265763 * (x - 17.9766585))).1
      have p' := (inv_exp_range (0.93758326 * (x - 17.9888717))).1
      refine positive_pair _ _ _ hr hr4 ?_ ?_ <;> linarith
  · cases l with
    | f0 | f1 =>
      simp only [lnaSlope, lnaOffset, fitConst, if_neg (not_lt.2 h)]
      refine high_pair _ _ _ _ _ _ _ _ _ _ _ r hr hr4 (by norm_num) (by norm_num) (by norm_num) ?_ ?_ ?_
      · intro z h1 h2; linarith
      · intro z h1; linarith
      · intro z z' h1 h2 h3; linarith
    | f2 | f3 =>
      simp only [lnaSlope, lnaOffset, fitSig, if_neg (not_lt.2 h)]
      refine high_pair _ _ _ _ _ _ _ _ _ _ _ r hr hr4 (by norm_num) (by norm_num) (by norm_num) ?_ ?_ ?_
      · intro z h1 h2; linarith
      · intro z h1; linarith
      · intro z z' h1 h2 h3; linarith

/-- **No step where the formulas change**: from 49 to 50 MHz the two coefficients are those of 50 MHz within half a hundredth. -/
theorem lna_smooth (l : Lna) (x : ℝ) (hx : 49 ≤ x) (hx2 : x ≤ 50) : |lnaSlope l x - lnaSlope l 50| ≤ 1 / 200 ∧ |lnaOffset l x - lnaOffset l 50| ≤ 1 / 200 := by
  rcases eq_or_lt_of_le hx2 with rfl | h
  · rw [sub_self, sub_self, abs_zero]; norm_num
  have h5 : ¬ (50 : ℝ) < 50 := lt_irrefl _
  cases l with
  | f0 =>
    simp only [lnaSlope, lnaOffset, fitConst, if_pos h, if_neg h5, high_value]
    have p := inv_exp_flat (0.381796685 * (50 - 88.9487679)) (by norm_num)
    have p1 := (inv_exp_range (0.381796685 * (50 - 88.9487679))).2
    have q := inv_exp_flat (0.388727164 * (50 - 88.4722442)) (by norm_num)
    have q1 := (inv_exp_range (0.388727164 * (50 - 88.4722442))).2
    generalize (1 + Real.exp (0.381796685 * (50 - 88.9487679)))⁻¹ = z at *
    generalize (1 + Real.exp (0.388727164 * (50 - 88.4722442)))⁻¹ = z' at *
    constructor <;> rw [abs_le] <;> constructor <;> linarith
  | f1 =>
    simp only [lnaSlope, lnaOffset, fitConst, if_pos h, if_neg h5, high_value]
    have p := inv_exp_flat (0.422370139 * (50 - 86.4336414)) (by norm_num)
    have p1 := (inv_exp_range (0.422370139 * (50 - 86.4336414))).2
    have q := inv_exp_flat (0.427254949 * (50 - 86.2446152)) (by norm_num)
    have q1 := (inv_exp_range (0.427254949 * (50 - 86.2446152))).2
    generalize (1 + Real.exp (0.422370139 * (50 - 86.4336414)))⁻¹ = z at *
    generalize (1 + Real.exp (0.427254949 * (50 - 86.2446152)))⁻¹ = z' at *
    constructor <;> rw [abs_le] <;> constructor <;> linarith
  | f2 =>
    simp only [lnaSlope, lnaOffset, fitSig, if_pos h, if_neg h5, high_value, low_value]
    have p := inv_exp_flat (0.392651498 * (50 - 88.8508007)) (by norm_num)
    have p1 := (inv_exp_range (0.392651498 * (50 - 88.8508007))).2
    have q := inv_exp_flat (0.400112386 * (50 - 88.293887)) (by norm_num)
    have q1 := (inv_exp_range (0.400112386 * (50 - 88.293887))).2
    have u := inv_exp_flat (-1.02227093 * (x - 13.0641911)) (by linarith)
    have u1 := (inv_exp_range (-1.02227093 * (x - 13.0641911))).2
    have v := inv_exp_flat (-(1.06913377 * (x - 13.000633))) (by linarith)
    have v1 := inv_exp_comp (1.06913377 * (x - 13.000633))
    have v2 := (inv_exp_range (1.06913377 * (x - 13.000633))).1
    generalize (1 + Real.exp (0.392651498 * (50 - 88.8508007)))⁻¹ = z at *
    generalize (1 + Real.exp (0.400112386 * (50 - 88.293887)))⁻¹ = z' at *
    generalize (1 + Real.exp (-1.02227093 * (x - 13.0641911)))⁻¹ = w at *
    generalize (1 + Real.exp (1.06913377 * (x - 13.000633)))⁻¹ = w' at *
    constructor <;> rw [abs_le] <;> constructor <;> linarith
  | f3 =>
    simp only [lnaSlope, lnaOffset, fitSig, if_pos h, if_neg h5, high_value, low_value]
    have p := inv_exp_flat (0.415807316 * (50 - 86.7626131)) (by norm_num)
    have p1 := (inv_exp_range (0.415807316 * (50 - 86.7626131))).2
    have q := inv_exp_flat (0.422993203 * (50 - 86.4853961)) (by norm_num)
    have q1 := (inv_exp_range (0.422993203 * (50 - 86.4853961))).2
    have u := inv_exp_flat (-0.941265763 * (x - 17.9766585)) (by linarith)
    have u1 := (inv_exp_range (-0.941265763 * (x - 17.9766585))).2
    have v := inv_exp_flat (-(0.93758326 * (x - 17.9888717))) (by linarith)
    have v1 := inv_exp_comp (0.93758326 * (x - 17.9888717))
    have v2 := (inv_exp_range (0.93758326 * (x - 17.9888717))).1
    generalize (1 + Real.exp (0.415807316 * (50 - 86.7626131)))⁻¹ = z at *
    generalize (1 + Real.exp (0.422993203 * (50 - 86.4853961)))⁻¹ = z' at *
    generalize (1 + Real.exp (-0.941265763 * (x - 17.9766585)))⁻¹ = w at *
    generalize (1 + Real.exp (0.93758326 * (x - 17.9888717)))⁻¹ = w' at *
    constructor <;> rw [abs_le] <;> constructor <;> linarith

/-- **The response follows that of the sub-band** (it is larger where that one is larger) up to 90 MHz, and up to 100 MHz for the filters at 15 and 25 MHz. -/
theorem lna_shape_partial (l : Lna) (x g g' : ℝ) (hx : 0 ≤ x) (hx2 : x ≤ 100) (hl : x ≤ 90 ∨ l = .f1 ∨ l = .f3) (hg : 0 < g) (hgg : g < g') :
    lnaResponse l x g' < lnaResponse l x g := by
  have hs : 0 < lnaSlope l x := by
    have key : ∀ t : ℝ, t ≤ 0.51 → 0.3 ≤ (1 + Real.exp t)⁻¹ := by
      intro t ht
      have h1 : Real.exp t ≤ Real.exp 1 := Real.exp_le_exp.2 (by linarith)
      have h2 := Real.exp_one_lt_d9
      have h3 := Real.exp_pos t
      have h4 : Real.exp t ≤ 7 / 3 := by
        have h5 : Real.exp t ≤ Real.exp (3 / 4) := Real.exp_le_exp.2 (by linarith)
        have h6 : Real.exp (3 / 4) ^ 4 = Real.exp 1 ^ 3 := by rw [← Real.exp_nat_mul, ← Real.exp_nat_mul]; norm_num
        have h7 : Real.exp 1 ^ 3 ≤ 2.7182818286 ^ 3 := pow_le_pow_left₀ (Real.exp_pos 1).le h2.le 3
        by_contra hc
        push Not at hc
        have h8 : (7 / 3 : ℝ) ^ 4 ≤ Real.exp (3 / 4) ^ 4 := pow_le_pow_left₀ (by norm_num) (by linarith) 4
        rw [h6] at h8
        norm_num at h7 h8
        linarith
      rw [← one_div, le_div_iff₀ (by linarith)]
      linarith
    rcases lt_or_ge x 50 with h | h
    · cases l with
      | f0 | f1 => simp only [lnaSlope, fitConst, if_pos h]; norm_num
      | f2 =>
        simp only [lnaSlope, fitSig, if_pos h, low_value]
        have p := (inv_exp_range (-1.02227093 * (x - 13.0641911))).1
        linarith
      | f3 =>
        simp only [lnaSlope, fitSig, if_pos h, low_value]
        have p := (inv_exp_range (-0.941265763 * (x - 17.9766585))).1
        linarith
    · cases l with
      | f0 =>
        have h9 : x ≤ 90 := by rcases hl with h | h | h; exact h; exact nomatch h; exact nomatch h
        simp only [lnaSlope, fitConst, if_neg (not_lt.2 h), high_value]
        have p := key (0.381796685 * (x - 88.9487679)) (by linarith)
        linarith
      | f1 =>
        simp only [lnaSlope, fitConst, if_neg (not_lt.2 h), high_value]
        have p := (inv_exp_range (0.422370139 * (x - 86.4336414))).1
        linarith
      | f2 =>
        have h9 : x ≤ 90 := by rcases hl with h | h | h; exact h; exact nomatch h; exact nomatch h
        simp only [lnaSlope, fitSig, if_neg (not_lt.2 h), high_value]
        have p := key (0.392651498 * (x - 88.8508007)) (by linarith)
        linarith
      | f3 =>
        simp only [lnaSlope, fitSig, if_neg (not_lt.2 h), high_value]
        have p := (inv_exp_range (0.415807316 * (x - 86.7626131))).1
        linarith
  unfold lnaResponse
  have : lnaSlope l x / g' < lnaSlope l x / g := div_lt_div_of_pos_left hs hg hgg
  linarith

/-- With the filters at 10 and 20 MHz the response is turned over near 100 MHz: lower in the middle of the sub-band than at its edges. -/
theorem lna_shape_violated (l : Lna) (hl : l = .f0 ∨ l = .f2) (g g' : ℝ) (hg : 0 < g) (hgg : g < g') : lnaResponse l 100 g < lnaResponse l 100 g' := by
  have hs : lnaSlope l 100 < 0 := by
    have key : ∀ t : ℝ, 4 ≤ t → (1 + Real.exp t)⁻¹ ≤ 1 / 16 := by
      intro t ht
      have h1 : Real.exp 4 ≤ Real.exp t := Real.exp_le_exp.2 ht
      have h2 : Real.exp 4 = Real.exp 1 ^ 4 := by rw [← Real.exp_nat_mul]; norm_num
      have h3 : (2 : ℝ) ^ 4 ≤ Real.exp 1 ^ 4 := pow_le_pow_left₀ (by norm_num) (by have := Real.exp_one_gt_d9; linarith) 4
      rw [one_div]
      refine inv_anti₀ (by norm_num) ?_
      rw [h2] at h1
      norm_num at h3
      linarith
    have h5 : ¬ (100 : ℝ) < 50 := by norm_num
    rcases hl with rfl | rfl
    · simp only [lnaSlope, fitConst, if_neg h5, high_value]
      have p := key (0.381796685 * (100 - 88.9487679)) (by norm_num)
      linarith
    · simp only [lnaSlope, fitSig, if_neg h5, high_value]
      have p := key (0.392651498 * (100 - 88.8508007)) (by norm_num)
      linarith
  unfold lnaResponse
  have h1 : g'⁻¹ < g⁻¹ := (inv_lt_inv₀ (by linarith) hg).2 hgg
  rw [div_eq_mul_inv, div_eq_mul_inv]
  nlinarith

/-- **Above 50 MHz the slope falls and the offset grows** with the frequency, for all filters. -/
theorem lna_monotone (l : Lna) (x x' : ℝ) (hx : 50 ≤ x) (hxx : x ≤ x') : lnaSlope l x' ≤ lnaSlope l x ∧ lnaOffset l x ≤ lnaOffset l x' := by
  have h : ¬ x < 50 := not_lt.2 hx
  have h' : ¬ x' < 50 := not_lt.2 (hx.trans hxx)
  have key : ∀ a k : ℝ, 0 < k → (1 + Real.exp (k * (x' - a)))⁻¹ ≤ (1 + Real.exp (k * (x - a)))⁻¹ := fun a k hk => inv_exp_anti _ _ (by nlinarith)
  cases l with
  | f0 =>
    simp only [lnaSlope, lnaOffset, fitConst, if_neg h, if_neg h', high_value]
    have p := key 88.9487679 0.381796685 (by norm_num)
    have q := key 88.4722442 0.388727164 (by norm_num)
    constructor <;> linarith
  | f1 =>
    simp only [lnaSlope, lnaOffset, fitConst, if_neg h, if_neg h', high_value]
    have p := key 86.4336414 0.422370139 (by norm_num)
    have q := key 86.2446152 0.427254949 (by norm_num)
    constructor <;> linarith
  | f2 =>
    simp only [lnaSlope, lnaOffset, fitSig, if_neg h, if_neg h', high_value]
    have p := key 88.8508007 0.392651498 (by norm_num)
    have q := key 88.293887 0.400112386 (by norm_num)
    constructor <;> linarith
  | f3 =>
    simp only [lnaSlope, lnaOffset, fitSig, if_neg h, if_neg h', high_value]
    have p := key 86.7626131 0.415807316 (by norm_num)
    have q := key 86.4853961 0.422993203 (by norm_num)
    constructor <;> linarith

/-! ## The correction -/

/-- Accepted filters. -/
theorem lna_accepted (k : Int) : (∃ l, lnaOf k = .ok l) ↔ 0 ≤ k ∧ k ≤ 3 := by
  unfold lnaOf
  split_ifs with h0 h1 h2 h3
  · exact ⟨fun _ => by omega, fun _ => ⟨_, rfl⟩⟩
  · exact ⟨fun _ => by omega, fun _ => ⟨_, rfl⟩⟩
  · exact ⟨fun _ => by omega, fun _ => ⟨_, rfl⟩⟩
  · exact ⟨fun _ => by omega, fun _ => ⟨_, rfl⟩⟩
  · exact ⟨(fun ⟨l, h⟩ => nomatch h), fun h => by omega⟩

/-- **Without filter** each channel is multiplied by the value of its rank in the sub-band. -/
theorem correct_plain (coeffs : List ℝ) (n nf : Nat) (freq : Option (List ℝ)) (bp : List ℝ) (hb : bandpass coeffs n = .ok bp) (hn : nf % n = 0) (d : Nat → Nat → ℝ) :
    correctBandpass coeffs n nf none freq d = .ok fun t k => d t k * bp.getD (k % n) 0 := by
  unfold correctBandpass bandFactor
  rw [hb, show ∀ g : List ℝ → Except Err (Nat → ℝ), (Except.ok bp).bind g = g bp from fun _ => rfl]
  rw [if_neg (by omega)]
  rfl

/-- **With a filter** the correction undoes the response: values which are a true value times the response of their channel come out as the true value. The response is
taken at the frequency of the first channel of the sub-band. -/
theorem correct_undoes (coeffs : List ℝ) (n nf : Nat) (l : Int) (L : Lna) (hl : lnaOf l = .ok L) (fs : List ℝ) (hf : fs.length = nf) (hfs : ∀ x ∈ fs, 0 ≤ x ∧ x ≤ 100)
    (bp : List ℝ) (hb : bandpass coeffs n = .ok bp) (hbp : ∀ g ∈ bp, 1 / 4 ≤ g) (hn : nf % n = 0) (hn0 : 0 < n) (hlen : bp.length = n) (truth : Nat → Nat → ℝ) :
    ∃ r, correctBandpass coeffs n nf (some l) (some fs) (fun t k => truth t k * lnaResponse L (fs.getD (k / n * n) 0) (bp.getD (k % n) 0)) = .ok r ∧
      ∀ t k, k < nf → r t k = truth t k := by
  have he : correctBandpass coeffs n nf (some l) (some fs) (fun t k => truth t k * lnaResponse L (fs.getD (k / n * n) 0) (bp.getD (k % n) 0)) =
      .ok fun t k => truth t k * lnaResponse L (fs.getD (k / n * n) 0) (bp.getD (k % n) 0) * (lnaResponse L (fs.getD (k / n * n) 0) (bp.getD (k % n) 0))⁻¹ := by
    unfold correctBandpass bandFactor
    rw [hb, show ∀ g : List ℝ → Except Err (Nat → ℝ), (Except.ok bp).bind g = g bp from fun _ => rfl]
    rw [if_neg (by omega)]
    show (Except.map _ (if fs.length ≠ nf then _ else _) : Except Err (Nat → Nat → ℝ)) = _
    rw [if_neg (by omega), hl]
    rfl
  refine ⟨_, he, fun t k hk => ?_⟩
  have h1 : k / n * n < fs.length := by
    have := Nat.div_mul_le_self k n
    omega
  have h2 : k % n < bp.length := by rw [hlen]; exact Nat.mod_lt _ hn0
  have hp := lna_positive L (fs.getD (k / n * n) 0) (bp.getD (k % n) 0) (by rw [List.getD_eq_getElem _ _ h1]; exact (hfs _ (List.getElem_mem h1)).1)
    (by rw [List.getD_eq_getElem _ _ h1]; exact (hfs _ (List.getElem_mem h1)).2) (by rw [List.getD_eq_getElem _ _ h2]; exact hbp _ (List.getElem_mem h2))
  rw [mul_assoc, mul_inv_cancel₀ hp.ne', mul_one]

/-- **Refusals**: numbers of channels, sub-bands which are cut, unknown filters, frequencies which are missing or not as many as the channels. -/
theorem correct_refused (coeffs : List ℝ) (n nf : Nat) (lna : Option Int) (freq : Option (List ℝ)) (d : Nat → Nat → ℝ) :
    (∃ r, correctBandpass coeffs n nf lna freq d = .ok r) ↔ 16 ≤ n ∧ n % 2 = 0 ∧ nf % n = 0 ∧
      ∀ l, lna = some l → 0 ≤ l ∧ l ≤ 3 ∧ ∃ fs, freq = some fs ∧ fs.length = nf := by
  have hm : (∃ r, correctBandpass coeffs n nf lna freq d = .ok r) ↔ ∃ g, bandFactor coeffs n nf lna freq = .ok g := by
    unfold correctBandpass
    cases bandFactor coeffs n nf lna freq with
    | error e => exact ⟨(fun ⟨r, h⟩ => nomatch h), (fun ⟨r, h⟩ => nomatch h)⟩
    | ok g => exact ⟨fun _ => ⟨_, rfl⟩, fun _ => ⟨_, rfl⟩⟩
  rw [hm]
  unfold bandFactor
  by_cases hn : n < 16 ∨ n % 2 ≠ 0
  · rw [bandpass_refused coeffs n hn]
    exact ⟨(fun ⟨r, h⟩ => nomatch h), fun h => by omega⟩
  have hb : ∃ bp, bandpass coeffs n = .ok bp := ⟨_, if_neg hn⟩
  obtain ⟨bp, hb⟩ := hb
  rw [hb, show ∀ g : List ℝ → Except Err (Nat → ℝ), (Except.ok bp).bind g = g bp from fun _ => rfl]
  by_cases hf : nf % n ≠ 0
  · rw [if_pos hf]
    exact ⟨(fun ⟨r, h⟩ => nomatch h), fun h => absurd h.2.2.1 hf⟩
  rw [if_neg hf]
  cases lna with
  | none => exact ⟨fun _ => ⟨by omega, by omega, by omega, fun l h => nomatch h⟩, fun _ => ⟨_, rfl⟩⟩
  | some l =>
    cases freq with
    | none => exact ⟨(fun ⟨r, h⟩ => nomatch h), (fun h => by obtain ⟨-, -, fs, h, -⟩ := h.2.2.2 l rfl; exact nomatch h)⟩
    | some fs =>
      show (∃ g : Nat → ℝ, (if fs.length ≠ nf then Except.error Err.valueError
        else Except.map (fun L k => (lnaResponse L (fs.getD (k / n * n) 0) (bp.getD (k % n) 0))⁻¹) (lnaOf l)) = Except.ok g) ↔ _
      by_cases hfs : fs.length ≠ nf
      · rw [if_pos hfs]
        refine ⟨fun ⟨r, h⟩ => (nomatch h), fun h => ?_⟩
        obtain ⟨-, -, fs', h1, h2⟩ := h.2.2.2 l rfl
        cases h1
        exact absurd h2 hfs
      · rw [if_neg hfs]
        have ha := lna_accepted l
        constructor
        · rintro ⟨g, hg⟩
          refine ⟨by omega, by omega, by omega, fun l' hl' => ?_⟩
          cases hl'
          have : ∃ L, lnaOf l = .ok L := by
            cases h : lnaOf l with
            | error e => rw [h] at hg; exact nomatch hg
            | ok L => exact ⟨L, rfl⟩
          exact ⟨(ha.1 this).1, (ha.1 this).2, fs, rfl, by omega⟩
        · intro h
          obtain ⟨h1, h2, -⟩ := h.2.2.2 l rfl
          obtain ⟨L, hL⟩ := ha.2 ⟨h1, h2⟩
          rw [hL]
          exact ⟨_, rfl⟩

/-- **The array given is modified** if it is one of numpy: computing the correction again with it makes it twice. Arrays of dask are kept. -/
theorem correct_again_violated (coeffs : List ℝ) (n nf : Nat) (bp : List ℝ) (hb : bandpass coeffs n = .ok bp) (hn : nf % n = 0) (d : Nat → Nat → ℝ) :
    correctBandpass coeffs n nf none none (argumentAfter true d (correctBandpass coeffs n nf none none d)) = .ok (fun t k => d t k * bp.getD (k % n) 0 ^ 2) ∧
    correctBandpass coeffs n nf none none (argumentAfter false d (correctBandpass coeffs n nf none none d)) = .ok (fun t k => d t k * bp.getD (k % n) 0) := by
  have h1 := correct_plain coeffs n nf none bp hb hn
  constructor
  · rw [h1 d, show argumentAfter true d (.ok fun t k => d t k * bp.getD (k % n) 0) = fun t k => d t k * bp.getD (k % n) 0 from rfl, h1]
    congr 1
    funext t k
    ring
  · rw [show argumentAfter false d (correctBandpass coeffs n nf none none d) = d from rfl, h1]

/-- The hypotheses of `correct_undoes` hold for 16 channels and a filter of two coefficients. -/
example : ∃ bp, bandpass twoTaps 16 = .ok bp ∧ bp.length = 16 ∧ ∀ g ∈ bp, 1 / 4 ≤ g := by
  obtain ⟨l, h1, h2, h3⟩ := bandpass_exact twoTaps (by decide +kernel) 1 (by decide)
  refine ⟨l, h1, h2, fun g hg => ?_⟩
  obtain ⟨i, hi, rfl⟩ := List.getElem_of_mem hg
  have h := h3 i (by omega)
  rw [List.getD_eq_getElem _ _ hi] at h
  rw [h]
  generalize (i : ℝ) / ((16 * 1 : Nat) : ℝ) - 1 / 2 = x
  unfold power
  rw [twoTaps_norm, twoTaps_norm, twoTaps_norm]
  have c1 : Real.cos (Real.pi * (x - 1)) = - Real.cos (Real.pi * x) := by rw [mul_sub, mul_one, Real.cos_sub_pi]
  have c2 : Real.cos (Real.pi * (x + 1)) = - Real.cos (Real.pi * x) := by rw [mul_add, mul_one, Real.cos_add_pi]
  rw [c1, c2]
  have hc := Real.cos_le_one (Real.pi * x)
  have hc' := Real.neg_one_le_cos (Real.pi * x)
  rw [div_le_div_iff₀ (by norm_num) (by linarith)]
  norm_num
  linarith

end Verif.TF
