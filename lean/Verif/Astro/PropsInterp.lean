import Verif.Astro.Interp
import Mathlib.Tactic.FieldSimp

/-!
# C108: transits found by interpolation
-/

namespace Verif.Astro

/-! ## Specification -/

/-- The hour angle without turns: it increases all the time, by less than a turn in twelve hours, is in its first turn at `tMin`, and `ha` is the rest of its division by a turn. -/
structure Lift (H ha : ℚ → ℚ) (tMin : ℚ) : Prop where
  mono : StrictMono H
  slow : ∀ t, H (t + 43200) - H t < 360
  first : 0 ≤ H tMin ∧ H tMin < 360
  rest : ∀ t, ha t = H t - 360 * (⌊H t / 360⌋ : ℚ)

/-- `t` is a transit: a new turn begins. -/
def Transit (H : ℚ → ℚ) (t : ℚ) : Prop := ∃ k : ℤ, H t = 360 * k

/-- End of the samples. -/
def lastSample (tMin duration sampling : ℚ) : ℚ := tMin + (sampleCount duration sampling - 1 : ℚ) * sampleStep duration sampling

/-! ## Samples -/

theorem step_pos {d s : ℚ} (hd : 0 < d) (hs : 0 < s) : 0 < sampleStep d s := by
  unfold sampleStep
  split_ifs <;> linarith

theorem step_le (d s : ℚ) : sampleStep d s ≤ 43200 := by
  unfold sampleStep
  split_ifs <;> linarith

theorem step_fifth {d s : ℚ} : sampleStep d s ≤ d / 5 := by
  unfold sampleStep
  split_ifs with h1 h2 h2 <;> linarith

theorem count_ge {d s : ℚ} (hd : 0 < d) (hs : 0 < s) : 5 ≤ sampleCount d s := by
  have h1 := step_pos hd hs
  have h2 := @step_fifth d s
  have : (5 : ℤ) ≤ ⌊d / sampleStep d s⌋ := by
    rw [Int.le_floor, le_div_iff₀ h1]
    push_cast
    linarith
  unfold sampleCount
  omega

/-- The samples never cover the whole duration. -/
theorem last_before {d s : ℚ} (hd : 0 < d) (hs : 0 < s) (tMin : ℚ) :
    tMin + d < lastSample tMin d s + 2 * sampleStep d s ∧ lastSample tMin d s + sampleStep d s ≤ tMin + d := by
  have h1 := step_pos hd hs
  have h5 := count_ge hd hs
  have hc : ((sampleCount d s : Nat) : ℚ) = ((⌊d / sampleStep d s⌋ : ℤ) : ℚ) := by
    unfold sampleCount at h5 ⊢
    have : ((⌊d / sampleStep d s⌋.toNat : Nat) : ℤ) = ⌊d / sampleStep d s⌋ := by omega
    exact_mod_cast congrArg (fun z : ℤ => (z : ℚ)) this
  have hf1 := Int.floor_le (d / sampleStep d s)
  have hf2 := Int.lt_floor_add_one (d / sampleStep d s)
  rw [le_div_iff₀ h1] at hf1
  rw [div_lt_iff₀ h1] at hf2
  unfold lastSample
  rw [hc]
  constructor <;> nlinarith

/-! ## Flattening -/

theorem flat_lift {H ha : ℚ → ℚ} {tMin : ℚ} (L : Lift H ha tMin) {st : ℚ} (h0 : 0 < st) (h1 : st ≤ 43200) (i : Nat) :
    ((turns (fun i => ha (sampleTime tMin st i)) i : Nat) : ℤ) = ⌊H (sampleTime tMin st i) / 360⌋ := by
  induction i with
  | zero =>
    have : sampleTime tMin st 0 = tMin := by simp [sampleTime]
    rw [this]
    symm
    show _ = (0 : ℤ)
    rw [Int.floor_eq_iff]
    have := L.first
    constructor
    · push_cast; apply div_nonneg this.1; norm_num
    · push_cast; rw [zero_add, div_lt_one (by norm_num)]; exact this.2
  | succ i ih =>
    have hlt : sampleTime tMin st i < sampleTime tMin st (i + 1) := by unfold sampleTime; push_cast; linarith
    have hle : sampleTime tMin st (i + 1) ≤ sampleTime tMin st i + 43200 := by unfold sampleTime; push_cast; linarith
    have hm := L.mono hlt
    have hm2 := lt_of_le_of_lt (sub_le_sub_right (L.mono.monotone hle) _) (L.slow (sampleTime tMin st i))
    have hstep : turns (fun i => ha (sampleTime tMin st i)) (i + 1) = turns (fun i => ha (sampleTime tMin st i)) i +
      if ha (sampleTime tMin st (i + 1)) - ha (sampleTime tMin st i) < 0 then 1 else 0 := rfl
    rw [hstep, L.rest, L.rest]
    generalize H (sampleTime tMin st i) = A at *
    generalize H (sampleTime tMin st (i + 1)) = B at *
    have a1 := Int.floor_le (A / 360)
    have a2 := Int.lt_floor_add_one (A / 360)
    have b1 := Int.floor_le (B / 360)
    have b2 := Int.lt_floor_add_one (B / 360)
    rw [le_div_iff₀ (by norm_num)] at a1 b1
    rw [div_lt_iff₀ (by norm_num)] at a2 b2
    rw [Nat.cast_add, ih]
    have c1 : ⌊A / 360⌋ ≤ ⌊B / 360⌋ := Int.floor_le_floor (by linarith)
    have c2 : ⌊B / 360⌋ < ⌊A / 360⌋ + 2 := by
      have : ((⌊B / 360⌋ : ℤ) : ℚ) < ((⌊A / 360⌋ + 2 : ℤ) : ℚ) := by push_cast; linarith
      exact_mod_cast this
    rcases (show ⌊B / 360⌋ = ⌊A / 360⌋ ∨ ⌊B / 360⌋ = ⌊A / 360⌋ + 1 by omega) with h | h
    · rw [h, if_neg (by linarith)]; simp
    · rw [h, if_pos (by push_cast; linarith)]; simp

theorem flat_eq {H ha : ℚ → ℚ} {tMin : ℚ} (L : Lift H ha tMin) {st : ℚ} (h0 : 0 < st) (h1 : st ≤ 43200) (i : Nat) :
    flatHa (fun i => ha (sampleTime tMin st i)) i = H (sampleTime tMin st i) := by
  have := flat_lift L h0 h1 i
  have e : ((turns (fun i => ha (sampleTime tMin st i)) i : Nat) : ℚ) = ((⌊H (sampleTime tMin st i) / 360⌋ : ℤ) : ℚ) := by
    rw [← this]; push_cast; rfl
  unfold flatHa
  rw [e]
  dsimp only
  rw [L.rest]
  ring

/-! ## Interpolation -/

theorem maxTo_mono {f : Nat → ℚ} (h : StrictMono f) : ∀ n, maxTo f n = f n
  | 0 => rfl
  | n + 1 => by
    show max (maxTo f n) (f (n + 1)) = _
    rw [maxTo_mono h n]
    exact max_eq_right (h (Nat.lt_succ_self n)).le

theorem filter_lt (c : Nat) : ∀ n, c ≤ n → ((List.range n).filter fun i => decide (i < c)).length = c := by
  intro n
  induction n with
  | zero => intro h; have : c = 0 := by omega
            subst this; rfl
  | succ n ih =>
    intro h
    rw [List.range_succ, List.filter_append, List.length_append]
    rcases Nat.lt_or_ge n c with h1 | h1
    · have hc : c = n + 1 := by omega
      have : (List.range n).filter (fun i => decide (i < c)) = List.range n := by
        rw [List.filter_eq_self]
        intro i hi
        exact decide_eq_true (by have := List.mem_range.1 hi; omega)
      rw [this]
      simp [hc]
    · rw [ih h1]
      simp [Nat.not_lt.2 h1]

/-- The sample on the left of a value between the first one and the last one. -/
theorem left_spec {f : Nat → ℚ} (h : StrictMono f) {n : Nat} {v : ℚ} (h0 : f 0 ≤ v) (h1 : v < f n) :
    leftOf f n v < n ∧ f (leftOf f n v) ≤ v ∧ v < f (leftOf f n v + 1) := by
  obtain ⟨j, hj, h2, h3⟩ : ∃ j, j < n ∧ f j ≤ v ∧ v < f (j + 1) := by
    induction n with
    | zero => exact absurd (lt_of_le_of_lt h0 h1) (lt_irrefl _)
    | succ n ih =>
      by_cases hn : v < f n
      · obtain ⟨j, hj, h⟩ := ih hn
        exact ⟨j, by omega, h⟩
      · exact ⟨n, by omega, not_lt.1 hn, h1⟩
  have : leftOf f n v = j := by
    unfold leftOf
    have e : (fun i => decide (f i ≤ v)) = fun i => decide (i < j + 1) := by
      funext i
      rw [decide_eq_decide]
      constructor
      · intro hi
        by_contra hc
        exact absurd (lt_of_lt_of_le h3 (le_trans (h.monotone (by omega : j + 1 ≤ i)) hi)) (lt_irrefl _)
      · intro hi
        exact le_trans (h.monotone (by omega : i ≤ j)) h2
    rw [e, filter_lt (j + 1) (n + 1) (by omega)]
    omega
  rw [this]
  exact ⟨hj, h2, h3⟩

/-- The interpolated time lies between the two samples, in proportion. -/
theorem interp_between {f : Nat → ℚ} (h : StrictMono f) {n : Nat} {v : ℚ} (h0 : f 0 ≤ v) (h1 : v < f n) (t0 st : ℚ) :
    ∃ j, j < n ∧ f j ≤ v ∧ v < f (j + 1) ∧
      t0 + interpUnit f n v * (sampleTime t0 st n - t0) = sampleTime t0 st j + (v - f j) / (f (j + 1) - f j) * st := by
  obtain ⟨h2, h3, h4⟩ := left_spec h h0 h1
  refine ⟨leftOf f n v, h2, h3, h4, ?_⟩
  unfold interpUnit
  rw [if_neg (not_lt.2 h0), if_neg (not_le.2 h1)]
  generalize leftOf f n v = j at *
  have hn : (n : ℚ) ≠ 0 := by
    have : 0 < n := by omega
    exact_mod_cast this.ne'
  have hf : f (j + 1) - f j ≠ 0 := by
    have := h (Nat.lt_succ_self j)
    intro hc
    linarith
  unfold sampleTime
  field_simp
  ring

theorem values_spec {f : Nat → ℚ} (h : StrictMono f) (n : Nat) (v : ℚ) : v ∈ crossValues f n ↔ ∃ k : Nat, 1 ≤ k ∧ v = 360 * k ∧ v < f n := by
  unfold crossValues cycles
  rw [maxTo_mono h, List.mem_map]
  constructor
  · rintro ⟨k, hk, rfl⟩
    rw [List.mem_range] at hk
    refine ⟨k + 1, by omega, by push_cast; ring, ?_⟩
    have : ((k + 1 : ℕ) : ℤ) < ⌈f n / 360⌉ := by omega
    rw [Int.lt_ceil, lt_div_iff₀ (by norm_num)] at this
    push_cast at this ⊢
    linarith
  · rintro ⟨k, h1, rfl, h2⟩
    refine ⟨k - 1, ?_, ?_⟩
    · rw [List.mem_range]
      have : ((k : ℕ) : ℤ) < ⌈f n / 360⌉ := by
        rw [Int.lt_ceil, lt_div_iff₀ (by norm_num)]
        push_cast
        linarith
      omega
    · have : k - 1 + 1 = k := by omega
      rw [this]; ring

/-! ## The transits -/

theorem last_eq {d s : ℚ} (hd : 0 < d) (hs : 0 < s) (tMin : ℚ) : sampleTime tMin (sampleStep d s) (sampleCount d s - 1) = lastSample tMin d s := by
  have := count_ge hd hs
  unfold sampleTime lastSample
  rw [Nat.cast_sub (by omega)]
  push_cast
  ring

theorem samples_mono {H : ℚ → ℚ} (hm : StrictMono H) {st : ℚ} (h0 : 0 < st) (t0 : ℚ) : StrictMono fun i : Nat => H (sampleTime t0 st i) := by
  intro i j hij
  apply hm
  unfold sampleTime
  have : (i : ℚ) < j := by exact_mod_cast hij
  nlinarith

theorem transit_list {H ha : ℚ → ℚ} {tMin d s : ℚ} (L : Lift H ha tMin) (hd : 0 < d) (hs : 0 < s) :
    transitTimes ha tMin d s = (crossValues (fun i => H (sampleTime tMin (sampleStep d s) i)) (sampleCount d s - 1)).map fun v =>
      tMin + interpUnit (fun i => H (sampleTime tMin (sampleStep d s) i)) (sampleCount d s - 1) v *
        (sampleTime tMin (sampleStep d s) (sampleCount d s - 1) - tMin) := by
  unfold transitTimes interpTimes
  have : flatHa (fun i => ha (sampleTime tMin (sampleStep d s) i)) = fun i => H (sampleTime tMin (sampleStep d s) i) :=
    funext (flat_eq L (step_pos hd hs) (step_le d s))
  rw [this]

/-- **C108, soundness.** Every returned time lies between two successive samples between which a transit takes place. -/
theorem transit_sound {H ha : ℚ → ℚ} {tMin d s : ℚ} (L : Lift H ha tMin) (hd : 0 < d) (hs : 0 < s) {r : ℚ} (hr : r ∈ transitTimes ha tMin d s) :
    ∃ a b, a ≤ r ∧ r < b ∧ b = a + sampleStep d s ∧ tMin ≤ a ∧ b ≤ lastSample tMin d s ∧ ∃ k : ℕ, 1 ≤ k ∧ H a ≤ 360 * k ∧ 360 * k < H b := by
  rw [transit_list L hd hs, List.mem_map] at hr
  obtain ⟨v, hv, rfl⟩ := hr
  have hst := step_pos hd hs
  have hmono := samples_mono L.mono hst tMin
  obtain ⟨k, hk, rfl, hlt⟩ := (values_spec hmono _ v).1 hv
  have h0 : H (sampleTime tMin (sampleStep d s) 0) ≤ 360 * k := by
    have e : sampleTime tMin (sampleStep d s) 0 = tMin := by simp [sampleTime]
    rw [e]
    have : (1 : ℚ) ≤ k := by exact_mod_cast hk
    linarith [L.first.2]
  obtain ⟨j, hj, h1, h2, h3⟩ := interp_between hmono h0 hlt tMin (sampleStep d s)
  rw [h3]
  have hfr : 0 ≤ (360 * (k : ℚ) - H (sampleTime tMin (sampleStep d s) j)) /
      (H (sampleTime tMin (sampleStep d s) (j + 1)) - H (sampleTime tMin (sampleStep d s) j)) := div_nonneg (by linarith) (by linarith)
  have hfr1 : (360 * (k : ℚ) - H (sampleTime tMin (sampleStep d s) j)) /
      (H (sampleTime tMin (sampleStep d s) (j + 1)) - H (sampleTime tMin (sampleStep d s) j)) < 1 := (div_lt_one (by linarith)).2 (by linarith)
  refine ⟨sampleTime tMin (sampleStep d s) j, sampleTime tMin (sampleStep d s) (j + 1), ?_, ?_, ?_, ?_, ?_, k, hk, h1, h2⟩
  · have := mul_nonneg hfr hst.le; linarith
  · have e : sampleTime tMin (sampleStep d s) (j + 1) = sampleTime tMin (sampleStep d s) j + 1 * sampleStep d s := by unfold sampleTime; push_cast; ring
    have := mul_lt_mul_of_pos_right hfr1 hst
    linarith
  · unfold sampleTime; push_cast; ring
  · unfold sampleTime
    have : (0 : ℚ) ≤ j * sampleStep d s := by positivity
    linarith
  · rw [← last_eq hd hs]
    unfold sampleTime
    have : ((j + 1 : ℕ) : ℚ) ≤ ((sampleCount d s - 1 : ℕ) : ℚ) := by exact_mod_cast (by omega : j + 1 ≤ sampleCount d s - 1)
    nlinarith

/-- **C108, completeness, partial.** A transit after `tMin` and before the last sample is returned, at less than one step. -/
theorem transit_found_partial {H ha : ℚ → ℚ} {tMin d s : ℚ} (L : Lift H ha tMin) (hd : 0 < d) (hs : 0 < s) {t : ℚ} (ht : Transit H t) (h1 : tMin < t)
    (h2 : t < lastSample tMin d s) : ∃ r ∈ transitTimes ha tMin d s, |r - t| < sampleStep d s := by
  have hst := step_pos hd hs
  have hmono := samples_mono L.mono hst tMin
  obtain ⟨k, hk⟩ := ht
  have hkpos : 0 < k := by
    have := lt_of_le_of_lt L.first.1 (L.mono h1)
    rw [hk] at this
    have h : (0 : ℚ) < k := by linarith
    exact_mod_cast h
  obtain ⟨q, rfl⟩ := Int.eq_ofNat_of_zero_le hkpos.le
  have hv : H t ∈ crossValues (fun i => H (sampleTime tMin (sampleStep d s) i)) (sampleCount d s - 1) := by
    rw [values_spec hmono]
    refine ⟨q, by omega, by rw [hk]; norm_cast, ?_⟩
    rw [last_eq hd hs]
    exact L.mono h2
  have hq : (1 : ℚ) ≤ q := by exact_mod_cast (by omega : 1 ≤ q)
  have h0 : H (sampleTime tMin (sampleStep d s) 0) ≤ H t := by
    have e : sampleTime tMin (sampleStep d s) 0 = tMin := by simp [sampleTime]
    rw [e]
    exact (L.mono h1).le
  have hlt : H t < H (sampleTime tMin (sampleStep d s) (sampleCount d s - 1)) := by rw [last_eq hd hs]; exact L.mono h2
  obtain ⟨j, hj, h3, h4, h5⟩ := interp_between hmono h0 hlt tMin (sampleStep d s)
  refine ⟨_, by rw [transit_list L hd hs]; exact List.mem_map_of_mem hv, ?_⟩
  rw [h5]
  have hfr : 0 ≤ (H t - H (sampleTime tMin (sampleStep d s) j)) /
      (H (sampleTime tMin (sampleStep d s) (j + 1)) - H (sampleTime tMin (sampleStep d s) j)) := div_nonneg (by linarith) (by linarith)
  have hfr1 : (H t - H (sampleTime tMin (sampleStep d s) j)) /
      (H (sampleTime tMin (sampleStep d s) (j + 1)) - H (sampleTime tMin (sampleStep d s) j)) < 1 := (div_lt_one (by linarith)).2 (by linarith)
  have t1 : sampleTime tMin (sampleStep d s) j ≤ t := L.mono.le_iff_le.1 h3
  have t2 : t < sampleTime tMin (sampleStep d s) (j + 1) := L.mono.lt_iff_lt.1 h4
  have e : sampleTime tMin (sampleStep d s) (j + 1) = sampleTime tMin (sampleStep d s) j + 1 * sampleStep d s := by unfold sampleTime; push_cast; ring
  have m1 := mul_nonneg hfr hst.le
  have m2 := mul_lt_mul_of_pos_right hfr1 hst
  rw [abs_lt]
  constructor <;> linarith

/-- **C108, regular motion.** When the hour angle increases at a constant rate, as for stars, the returned times are exactly the transits after `tMin` and before the last sample. -/
theorem transit_linear {ha : ℚ → ℚ} {tMin d s h0 rate : ℚ} (L : Lift (fun t => h0 + rate * (t - tMin)) ha tMin) (hd : 0 < d) (hs : 0 < s) (t : ℚ) :
    t ∈ transitTimes ha tMin d s ↔ Transit (fun t => h0 + rate * (t - tMin)) t ∧ tMin < t ∧ t < lastSample tMin d s := by
  have hst := step_pos hd hs
  have hmono := samples_mono L.mono hst tMin
  have hrate : 0 < rate := by
    have := L.mono (show tMin < tMin + 1 by linarith)
    linarith
  have key : ∀ v, h0 ≤ v → v < h0 + rate * (lastSample tMin d s - tMin) →
      tMin + interpUnit (fun i => h0 + rate * (sampleTime tMin (sampleStep d s) i - tMin)) (sampleCount d s - 1) v *
        (sampleTime tMin (sampleStep d s) (sampleCount d s - 1) - tMin) = tMin + (v - h0) / rate := by
    intro v h1 h2
    obtain ⟨j, hj, h3, h4, h5⟩ := interp_between hmono (v := v) (by simpa [sampleTime] using h1) (by rw [last_eq hd hs]; exact h2) tMin (sampleStep d s)
    rw [h5]
    unfold sampleTime
    push_cast
    have : rate * (tMin + ((j : ℚ) + 1) * sampleStep d s - tMin) - rate * (tMin + j * sampleStep d s - tMin) = rate * sampleStep d s := by ring
    have e : h0 + rate * (tMin + ((j : ℚ) + 1) * sampleStep d s - tMin) - (h0 + rate * (tMin + j * sampleStep d s - tMin)) = rate * sampleStep d s := by ring
    rw [e]
    field_simp
    ring
  have hfirst := L.first
  rw [sub_self, mul_zero, add_zero] at hfirst
  rw [transit_list L hd hs, List.mem_map]
  constructor
  · rintro ⟨v, hv, rfl⟩
    obtain ⟨k, hk, rfl, hlt⟩ := (values_spec hmono _ v).1 hv
    rw [last_eq hd hs] at hlt
    have hk1 : (1 : ℚ) ≤ k := by exact_mod_cast hk
    rw [key _ (by linarith) hlt]
    refine ⟨⟨k, ?_⟩, ?_, ?_⟩
    · push_cast; field_simp; ring
    · have : 0 < (360 * (k : ℚ) - h0) / rate := div_pos (by linarith) hrate
      linarith
    · have : (360 * (k : ℚ) - h0) / rate < lastSample tMin d s - tMin := by
        rw [div_lt_iff₀ hrate]; linarith
      linarith
  · rintro ⟨⟨k, hk⟩, h1, h2⟩
    dsimp only at hk
    have hp : 0 < rate * (t - tMin) := mul_pos hrate (by linarith)
    have hkpos : 0 < k := by
      have h : (0 : ℚ) < k := by linarith
      exact_mod_cast h
    obtain ⟨q, rfl⟩ := Int.eq_ofNat_of_zero_le hkpos.le
    have hlt : h0 + rate * (t - tMin) < h0 + rate * (lastSample tMin d s - tMin) := by nlinarith
    refine ⟨h0 + rate * (t - tMin), (values_spec hmono _ _).2 ⟨q, by omega, by rw [hk]; norm_cast, by rw [last_eq hd hs]; exact hlt⟩, ?_⟩
    rw [key _ (by linarith) hlt]
    field_simp
    ring

/-- **C108 violated.** Nothing is returned from the last sample on, which is at least one step before the end: transits of the last step are missed. -/
theorem transit_last_violated {H ha : ℚ → ℚ} {tMin d s : ℚ} (L : Lift H ha tMin) (hd : 0 < d) (hs : 0 < s) :
    lastSample tMin d s + sampleStep d s ≤ tMin + d ∧ ∀ r ∈ transitTimes ha tMin d s, r < lastSample tMin d s := by
  refine ⟨(last_before hd hs tMin).2, fun r hr => ?_⟩
  obtain ⟨a, b, _, h2, _, _, h5, _⟩ := transit_sound L hd hs hr
  linarith

/-! ## Witnesses -/

/-- Hour angle of a star, in a sidereal day of 86164 seconds, when it is at `h0` at time 0. -/
def starLift (h0 t : ℚ) : ℚ := h0 + 360 / 86164 * (t - 0)

/-- The same in `[0, 360)`. -/
def starHa (h0 t : ℚ) : ℚ := starLift h0 t - 360 * (⌊starLift h0 t / 360⌋ : ℚ)

theorem star_lift {h0 : ℚ} (h : 0 ≤ h0 ∧ h0 < 360) : Lift (starLift h0) (starHa h0) 0 := by
  refine ⟨fun a b hab => ?_, fun t => ?_, by simpa [starLift] using h, fun t => rfl⟩
  · unfold starLift; linarith
  · unfold starLift; linarith

/-- **C108 violated.** A star that transits once in the day, less than half an hour before its end: nothing is found by default. -/
theorem transit_day_violated (T : ℚ) (h1 : 84600 ≤ T) (h2 : T < 86164) : ∃ h0, Lift (starLift h0) (starHa h0) 0 ∧ Transit (starLift h0) T ∧ T < 86400 ∧
    transitTimes (starHa h0) 0 86400 1800 = [] := by
  have hr : (0 : ℚ) ≤ 360 - 360 / 86164 * T ∧ 360 - 360 / 86164 * T < 360 := ⟨by linarith, by linarith⟩
  refine ⟨360 - 360 / 86164 * T, star_lift hr, ⟨1, by unfold starLift; push_cast; ring⟩, by linarith, ?_⟩
  rw [List.eq_nil_iff_forall_not_mem]
  intro t ht
  have hl : lastSample 0 86400 1800 = 84600 := by decide +kernel
  have := (transit_linear (star_lift hr) (by norm_num) (by norm_num) t).1 ht
  obtain ⟨⟨k, hk⟩, h3, h4⟩ := this
  rw [hl] at h4
  have hk1 : (k : ℚ) < 1 := by linarith
  have hk0 : (0 : ℚ) < k := by linarith
  have a : k < 1 := by exact_mod_cast hk1
  have b : 0 < k := by exact_mod_cast hk0
  omega

example : ∃ h0, Transit (starLift h0) 85500 ∧ transitTimes (starHa h0) 0 86400 1800 = [] := by
  obtain ⟨h0, -, h, -, h'⟩ := transit_day_violated 85500 (by norm_num) (by norm_num)
  exact ⟨h0, h, h'⟩

/-- A transit at the first time is not returned either, for all rates, durations and steps. -/
theorem transit_first_violated {ha : ℚ → ℚ} {tMin d s h0 rate : ℚ} (L : Lift (fun t => h0 + rate * (t - tMin)) ha tMin) (hd : 0 < d) (hs : 0 < s) :
    tMin ∉ transitTimes ha tMin d s := fun h => absurd ((transit_linear L hd hs tMin).1 h).2.1 (lt_irrefl _)

example : Transit (starLift 0) 0 ∧ 0 ∉ transitTimes (starHa 0) 0 86400 1800 :=
  ⟨⟨0, by simp [starLift]⟩, transit_first_violated (star_lift (by norm_num)) (by norm_num) (by norm_num)⟩

/-- Two days of a star: the two transits. -/
example : transitTimes (starHa 180) 0 172800 1800 = [43082, 129246] := by decide +kernel

/-- A motion which is not regular. -/
example : Lift (fun t => 100 + (if t < 1000 then t / 300 else t / 250 - 2 / 3)) (fun t => (100 + (if t < 1000 then t / 300 else t / 250 - 2 / 3)) -
    360 * (⌊(100 + (if t < 1000 then t / 300 else t / 250 - 2 / 3)) / 360⌋ : ℚ)) 0 := by
  refine ⟨fun a b hab => ?_, fun t => ?_, ?_, fun t => rfl⟩
  · split_ifs <;> linarith
  · split_ifs <;> linarith
  · norm_num

end Verif.Astro
