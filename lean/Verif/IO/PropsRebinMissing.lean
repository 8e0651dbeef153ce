import Verif.IO.PropsTreat

/-!
# C115: averages of slices with missing values, for all slices
-/

namespace Verif.IO

open Verif.TF (nanmean nanmean_none)

/-- Sum of the values which are there, among `n`. -/
def presentSum (x : Nat → Option ℚ) (n : Nat) : ℚ := sumTo (fun k => (x k).getD 0) n

/-- Number of the values which are there, among `n`. -/
def presentCount (x : Nat → Option ℚ) (n : Nat) : ℚ := sumTo (fun k => if (x k).isSome then 1 else 0) n

theorem present_list (x : Nat → Option ℚ) : ∀ n, (((List.range n).map x).filterMap id).sum = presentSum x n ∧
    ((((List.range n).map x).filterMap id).length : ℚ) = presentCount x n
  | 0 => by simp [presentSum, presentCount, sumTo]
  | n + 1 => by
    obtain ⟨h1, h2⟩ := present_list x n
    unfold presentSum presentCount at *
    rw [List.range_succ, List.map_append, List.filterMap_append, List.sum_append, List.length_append, sumTo, sumTo, h1]
    push_cast
    rw [h2]
    cases hx : x n with
    | none => simp [hx]
    | some y => simp [hx]

theorem nanmean_present (x : Nat → Option ℚ) (n : Nat) (h : presentCount x n ≠ 0) :
    nanmean ((List.range n).map x) = some (presentSum x n / presentCount x n) := by
  obtain ⟨h1, h2⟩ := present_list x n
  unfold Verif.TF.nanmean
  rw [if_neg, h1, h2]
  intro e
  rw [e] at h2
  exact h h2.symm

theorem nanmean_absent (x : Nat → Option ℚ) (n : Nat) (h : presentCount x n = 0) : nanmean ((List.range n).map x) = none := by
  obtain ⟨_, h2⟩ := present_list x n
  unfold Verif.TF.nanmean
  rw [if_pos]
  rw [h] at h2
  exact List.length_eq_zero_iff.1 (by exact_mod_cast h2)

/-- **C115**: with missing values, the average of a bin is the mean over its channels of the mean of each channel, where the channels without any value are left out. -/
theorem rebin_channels (s : Binned) (nt nf : Nat) (v : Nat → Nat → Option ℚ) (hv : s.value = .two nt nf v) (t0 st f0 sf : ℚ)
    (ht : Regular s.time nt t0 st) (hf : Regular s.freq nf f0 sf) (hnt : 2 ≤ nt) (hnf : 2 ≤ nf) (hst : 0 < st) (hsf : 0 < sf) (dt df : ℚ) (wt wf : Nat)
    (hwt : IsBin nt st dt wt) (hwf : IsBin nf sf df wf) :
    ∃ r g, rebinSlice .mean s (some dt) (some df) = .ok r ∧ Reads (nt / wt) (nf / wf) g r.value ∧
      ∀ i j (c S : Nat → ℚ), (∀ b, c b = presentCount (fun a => v (i * wt + a) (j * wf + b)) wt) → (∀ b, S b = presentSum (fun a => v (i * wt + a) (j * wf + b)) wt) →
        (sumTo (fun b => if c b = 0 then 0 else 1) wf ≠ 0 →
          g i j = some (sumTo (fun b => if c b = 0 then 0 else S b / c b) wf / sumTo (fun b => if c b = 0 then 0 else 1) wf)) ∧
        (sumTo (fun b => if c b = 0 then 0 else 1) wf = 0 → g i j = none) := by
  refine ⟨_, fun i j => nanmean (binOf wf (fun k => nanmean (binOf wt (fun t => v t k) i)) j),
    rebin_unfold .mean s nt nf _ hv nanmean rfl _ _ _ _ (timeBins_of ht hnt hst hwt) (freqBins_of hf hnf hsf hwf), squeeze_reads _ _ _, ?_⟩
  intro i j c S hc hS
  have e : ∀ b, nanmean (binOf wt (fun t => v t (j * wf + b)) i) = if c b = 0 then none else some (S b / c b) := by
    intro b
    rw [hc b, hS b]
    split_ifs with h
    · exact nanmean_absent _ _ h
    · exact nanmean_present _ _ h
  have hl : binOf wf (fun k => nanmean (binOf wt (fun t => v t k) i)) j = (List.range wf).map fun b => if c b = 0 then none else some (S b / c b) := by
    unfold binOf at e ⊢
    exact List.map_congr_left fun b _ => e b
  have hcount : presentCount (fun b => if c b = 0 then none else some (S b / c b)) wf = sumTo (fun b => if c b = 0 then 0 else 1) wf :=
    sumTo_congr fun b _ => by by_cases h : c b = 0 <;> simp [h]
  have hsum : presentSum (fun b => if c b = 0 then none else some (S b / c b)) wf = sumTo (fun b => if c b = 0 then 0 else S b / c b) wf :=
    sumTo_congr fun b _ => by by_cases h : c b = 0 <;> simp [h]
  show (_ → nanmean _ = _) ∧ (_ → nanmean _ = _)
  rw [hl]
  constructor
  · intro h
    rw [nanmean_present _ _ (by rw [hcount]; exact h), hcount, hsum]
  · intro h
    exact nanmean_absent _ _ (by rw [hcount]; exact h)

theorem sumTo_single (f g : Nat → ℚ) (k : Nat) : ∀ n, k < n → (∀ i, i < n → i ≠ k → f i = g i) → sumTo f n = sumTo g n + (f k - g k)
  | 0, h, _ => by omega
  | n + 1, h, hfg => by
    rw [sumTo, sumTo]
    by_cases e : k = n
    · subst e
      rw [sumTo_congr (fun i hi => hfg i (by omega) (by omega))]
      ring
    · rw [sumTo_single f g k n (by omega) (fun i hi hk => hfg i (by omega) hk), hfg n (by omega) (fun x => e x.symm)]
      ring

theorem sumTo_div (f : Nat → ℚ) (c : ℚ) : ∀ n, sumTo (fun k => f k / c) n = sumTo f n / c
  | 0 => by simp [sumTo]
  | n + 1 => by rw [sumTo, sumTo, sumTo_div f c n]; ring

/-- **C115**, violated in every bin with one missing value: let `m` be the mean of the values left in the channel of the missing one, and `o` the mean of the other channels of the bin.
The average which is written is the mean of the values of the bin only if `m = o`; otherwise it is pulled towards `m`, by the share `(wf - 1) / (wf (wt wf - 1))` of their difference. -/
theorem rebin_one_missing_violated (s : Binned) (nt nf : Nat) (v : Nat → Nat → Option ℚ) (hv : s.value = .two nt nf v) (t0 st f0 sf : ℚ)
    (ht : Regular s.time nt t0 st) (hf : Regular s.freq nf f0 sf) (hnt : 2 ≤ nt) (hnf : 2 ≤ nf) (hst : 0 < st) (hsf : 0 < sf) (dt df : ℚ) (wt wf : Nat)
    (hwt : IsBin nt st dt wt) (hwf : IsBin nf sf df wf) (h2t : 2 ≤ wt) (h2f : 2 ≤ wf) (i j a0 b0 : Nat) (ha0 : a0 < wt) (hb0 : b0 < wf)
    (hone : ∀ a < wt, ∀ b < wf, v (i * wt + a) (j * wf + b) = none ↔ a = a0 ∧ b = b0) (m o mean : ℚ)
    (hm : m * (wt - 1) = presentSum (fun a => v (i * wt + a) (j * wf + b0)) wt)
    (ho : o * (wt * (wf - 1)) = sumTo (fun b => if b = b0 then 0 else presentSum (fun a => v (i * wt + a) (j * wf + b)) wt) wf)
    (hmean : mean * (wt * wf - 1) = sumTo (fun b => presentSum (fun a => v (i * wt + a) (j * wf + b)) wt) wf) :
    ∃ r g x, rebinSlice .mean s (some dt) (some df) = .ok r ∧ Reads (nt / wt) (nf / wf) g r.value ∧ g i j = some x ∧
      x - mean = (wf - 1) / (wf * (wt * wf - 1)) * (m - o) ∧ (x = mean ↔ m = o) := by
  obtain ⟨r, g, h1, h2, h3⟩ := rebin_channels s nt nf v hv t0 st f0 sf ht hf hnt hnf hst hsf dt df wt wf hwt hwf
  have qt : (2 : ℚ) ≤ wt := by exact_mod_cast h2t
  have qf : (2 : ℚ) ≤ wf := by exact_mod_cast h2f
  set S : Nat → ℚ := fun b => presentSum (fun a => v (i * wt + a) (j * wf + b)) wt with hS
  set c : Nat → ℚ := fun b => presentCount (fun a => v (i * wt + a) (j * wf + b)) wt with hc
  have hm' : S b0 = m * (wt - 1) := hm.symm
  have hcb : ∀ b < wf, b ≠ b0 → c b = wt := by
    intro b hb hne
    show sumTo _ wt = _
    rw [sumTo_congr (g := fun _ => 1), sumTo_const, mul_one]
    intro a ha
    rw [if_pos]
    rw [Option.isSome_iff_ne_none]
    exact fun h => hne ((hone a ha b hb).1 h).2
  have hc0 : c b0 = wt - 1 := by
    show sumTo _ wt = _
    rw [sumTo_single _ (fun _ => 1) a0 wt ha0, sumTo_const]
    · have hnone : v (i * wt + a0) (j * wf + b0) = none := (hone a0 ha0 b0 hb0).2 ⟨rfl, rfl⟩
      simp only [hnone]
      simp; ring
    · intro a ha hne
      rw [if_pos]
      rw [Option.isSome_iff_ne_none]
      exact fun h => hne ((hone a ha b0 hb0).1 h).1
  have hcne : ∀ b < wf, c b ≠ 0 := by
    intro b hb
    by_cases e : b = b0
    · rw [e, hc0]; linarith
    · rw [hcb b hb e]; linarith
  have hcount : sumTo (fun b => if c b = 0 then (0 : ℚ) else 1) wf = wf := by
    rw [sumTo_congr (g := fun _ => 1), sumTo_const, mul_one]
    intro b hb
    rw [if_neg (hcne b hb)]
  have hsum : sumTo (fun b => if c b = 0 then 0 else S b / c b) wf = o * (wf - 1) + m := by
    rw [sumTo_single _ (fun b => (if b = b0 then 0 else S b) / wt) b0 wf hb0, sumTo_div, ← ho, if_neg (hcne b0 hb0), hc0, hm', if_pos rfl]
    · have e1 : (wt : ℚ) ≠ 0 := by linarith
      have e2 : (wt : ℚ) - 1 ≠ 0 := by linarith
      field_simp
      ring
    · intro b hb hne
      rw [if_neg (hcne b hb), hcb b hb hne, if_neg hne]
  have htot : sumTo S wf = m * (wt - 1) + o * (wt * (wf - 1)) := by
    rw [sumTo_single S (fun b => if b = b0 then 0 else S b) b0 wf hb0, ← ho, if_pos rfl, hm']
    · ring
    · intro b _ hne
      rw [if_neg hne]
  have hmean' : mean * (wt * wf - 1) = m * (wt - 1) + o * (wt * (wf - 1)) := hmean.trans htot
  have p1 : (wf : ℚ) ≠ 0 := by linarith
  have p2 : (wt : ℚ) * wf - 1 ≠ 0 := by nlinarith
  have p3 : ((wf : ℚ) - 1) / (wf * (wt * wf - 1)) ≠ 0 := div_ne_zero (by linarith) (mul_ne_zero p1 p2)
  have hx := (h3 i j c S (fun _ => rfl) (fun _ => rfl)).1 (by rw [hcount]; exact p1)
  rw [hcount, hsum] at hx
  have hd : (o * (wf - 1) + m) / wf - mean = (wf - 1) / (wf * (wt * wf - 1)) * (m - o) := by
    have : mean = (m * (wt - 1) + o * (wt * (wf - 1))) / (wt * wf - 1) := by rw [← hmean', mul_div_cancel_right₀ _ p2]
    rw [this, div_sub_div _ _ p1 p2, div_mul_eq_mul_div, div_eq_div_iff (mul_ne_zero p1 p2) (mul_ne_zero p1 p2)]
    ring
  refine ⟨r, g, _, h1, h2, hx, hd, ?_⟩
  rw [← sub_eq_zero, hd, mul_eq_zero, or_iff_right p3, sub_eq_zero]

/-- Non-vacuity: two times and two channels, with one value missing, in one bin. The mean of the values is 3; the average is 15/4. -/
example : ∃ r g x, rebinSlice .mean ⟨[0, 1], [50, 51], .two 2 2 fun t f => if f = 1 then (if t = 0 then none else some 6) else (if t = 0 then some 1 else some 2)⟩
    (some 2) (some 2) = .ok r ∧ Reads 1 1 g r.value ∧ g 0 0 = some x ∧ x - 3 = 3 / 4 ∧ x ≠ 3 := by
  obtain ⟨r, g, x, h1, h2, h3, h4, h5⟩ := rebin_one_missing_violated
    ⟨[0, 1], [50, 51], .two 2 2 fun t f => if f = 1 then (if t = 0 then none else some 6) else (if t = 0 then some 1 else some 2)⟩ 2 2 _ rfl 0 1 50 1
    ⟨rfl, by intro i hi; interval_cases i <;> simp⟩ ⟨rfl, by intro i hi; interval_cases i <;> norm_num⟩ (by norm_num) (by norm_num) (by norm_num) (by norm_num) 2 2 2 2
    ⟨by norm_num, by norm_num, by norm_num, Or.inl rfl⟩ ⟨by norm_num, by norm_num, by norm_num, Or.inl rfl⟩ (by norm_num) (by norm_num) 0 0 0 1 (by norm_num) (by norm_num)
    (by intro a ha b hb; interval_cases a <;> interval_cases b <;> simp) 6 (3 / 2) 3
    (by simp [presentSum, sumTo]; norm_num) (by simp [presentSum, sumTo]; norm_num) (by simp [presentSum, sumTo]; norm_num)
  refine ⟨r, g, x, h1, h2, h3, ?_, ?_⟩
  · rw [h4]; norm_num
  · rw [Ne, h5]; norm_num

end Verif.IO
