import Verif.Astro.Cross
import Mathlib.Algebra.Order.Archimedean.Basic
import Mathlib.Tactic.Linarith
import Mathlib.Tactic.Ring
import Mathlib.Tactic.FieldSimp
import Mathlib.Tactic.Push

/-!
# Crossing times (property C63)
-/

namespace Verif.Astro

/-! ## Sizes -/

theorem five_le_down (duration : ℚ) : 5 ≤ downFactor duration := by
  unfold downFactor
  split_ifs with h
  · have h1 : (5 : ℚ) < duration / maxDt := by
      rw [lt_div_iff₀ (by unfold maxDt; norm_num)]
      linarith
    have h2 : (5 : Int) < ⌈duration / maxDt⌉ := Int.lt_ceil.mpr (by exact_mod_cast h1)
    omega
  · exact le_refl 5

theorem coarse_step (duration : ℚ) : duration / (downFactor duration : ℚ) ≤ maxDt := by
  have h5 := five_le_down duration
  have h5' : (5 : ℚ) ≤ (downFactor duration : ℚ) := by exact_mod_cast h5
  rw [div_le_iff₀ (by linarith)]
  unfold downFactor
  split_ifs with h
  · have hm : (0 : ℚ) < maxDt := by unfold maxDt; norm_num
    have h1 := Int.le_ceil (duration / maxDt)
    have h2 : (0 : Int) ≤ ⌈duration / maxDt⌉ := by
      apply Int.ceil_nonneg
      apply div_nonneg _ hm.le
      linarith
    have h3 : ((⌈duration / maxDt⌉.toNat : Nat) : ℚ) = (⌈duration / maxDt⌉ : ℚ) := by
      have : ((⌈duration / maxDt⌉.toNat : Nat) : Int) = ⌈duration / maxDt⌉ := Int.toNat_of_nonneg h2
      exact_mod_cast this
    rw [h3]
    rw [div_le_iff₀ hm] at h1
    linarith
  · push Not at h
    push_cast
    linarith

theorem steps_eq {dur dt : ℚ} {down : Nat} (hdt : 0 < dt) (hd : dur = down * dt) : ⌈dur / dt⌉.toNat = down := by
  rw [hd, mul_div_assoc, div_self hdt.ne', mul_one, Int.ceil_natCast, Int.toNat_natCast]

theorem mem_rowHits {cross : ℚ → ℚ → Bool} {n : Nat} {dt t a : ℚ} :
    a ∈ rowHits cross n dt t ↔ ∃ k : Nat, k < n ∧ a = t + (k : ℚ) * dt ∧ cross a (a + dt) = true := by
  unfold rowHits
  rw [List.mem_map]
  constructor
  · rintro ⟨k, hk, rfl⟩
    obtain ⟨h1, h2⟩ := List.mem_filter.mp hk
    refine ⟨k, List.mem_range.mp h1, rfl, ?_⟩
    rw [show t + (k : ℚ) * dt + dt = t + ((k : ℚ) + 1) * dt by ring]
    exact h2
  · rintro ⟨k, hk, rfl, hc⟩
    refine ⟨k, List.mem_filter.mpr ⟨List.mem_range.mpr hk, ?_⟩, rfl⟩
    rw [show t + (k : ℚ) * dt + dt = t + ((k : ℚ) + 1) * dt by ring] at hc
    exact hc

theorem mem_pass {cross : ℚ → ℚ → Bool} {n : Nat} {dt a : ℚ} {starts : List ℚ} :
    a ∈ pass cross n dt starts ↔ ∃ s ∈ starts, ∃ k : Nat, k < n ∧ a = s + (k : ℚ) * dt ∧ cross a (a + dt) = true := by
  unfold pass
  rw [List.mem_flatMap]
  simp only [mem_rowHits]

theorem refine_succ (cross : ℚ → ℚ → Bool) (down : Nat) (prec : ℚ) (fuel : Nat) (starts : List ℚ) (dur dt : ℚ) (hdt : 0 < dt)
    (hd : dur = down * dt) :
    refine cross down prec (fuel + 1) starts dur dt
      = if pass cross down dt starts = [] then some []
        else if prec < dt / down * down then refine cross down prec fuel (pass cross down dt starts) dt (dt / down)
        else some ((pass cross down dt starts).map fun t => t + dt / down / 2) := by
  show (if pass cross ⌈dur / dt⌉.toNat dt starts = [] then some []
        else if prec < dt / down * down then refine cross down prec fuel (pass cross ⌈dur / dt⌉.toNat dt starts) dt (dt / down)
        else some ((pass cross ⌈dur / dt⌉.toNat dt starts).map fun t => t + dt / down / 2)) = _
  rw [steps_eq hdt hd]

/-! ## Termination -/

theorem refine_ends (cross : ℚ → ℚ → Bool) (down : Nat) (prec : ℚ) (h2 : 0 < down) (k : Nat) :
    ∀ (starts : List ℚ) (dur dt : ℚ), 0 < dt → dur = down * dt → dt ≤ prec * (down : ℚ) ^ k →
      ∃ r, ∀ fuel, refine cross down prec (k + 1 + fuel) starts dur dt = some r := by
  have hq : (0 : ℚ) < down := by exact_mod_cast h2
  induction k with
  | zero =>
    intro starts dur dt hdt hd hk
    rw [pow_zero, mul_one] at hk
    by_cases he : pass cross down dt starts = []
    · refine ⟨[], fun fuel => ?_⟩
      rw [show 0 + 1 + fuel = fuel + 1 by omega, refine_succ _ _ _ _ _ _ _ hdt hd, if_pos he]
    · refine ⟨(pass cross down dt starts).map fun t => t + dt / down / 2, fun fuel => ?_⟩
      rw [show 0 + 1 + fuel = fuel + 1 by omega, refine_succ _ _ _ _ _ _ _ hdt hd, if_neg he,
        if_neg (by rw [div_mul_cancel₀ _ hq.ne']; linarith)]
  | succ k ih =>
    intro starts dur dt hdt hd hk
    by_cases he : pass cross down dt starts = []
    · refine ⟨[], fun fuel => ?_⟩
      rw [show k + 1 + 1 + fuel = (k + 1 + fuel) + 1 by omega, refine_succ _ _ _ _ _ _ _ hdt hd, if_pos he]
    · by_cases hp : prec < dt / down * down
      · obtain ⟨r, hr⟩ := ih (pass cross down dt starts) dt (dt / down) (div_pos hdt hq) (by rw [mul_div_cancel₀ _ hq.ne'])
          (by rw [div_le_iff₀ hq, mul_assoc, ← pow_succ]; exact hk)
        refine ⟨r, fun fuel => ?_⟩
        rw [show k + 1 + 1 + fuel = (k + 1 + fuel) + 1 by omega, refine_succ _ _ _ _ _ _ _ hdt hd, if_neg he, if_pos hp, hr]
      · refine ⟨(pass cross down dt starts).map fun t => t + dt / down / 2, fun fuel => ?_⟩
        rw [show k + 1 + 1 + fuel = (k + 1 + fuel) + 1 by omega, refine_succ _ _ _ _ _ _ _ hdt hd, if_neg he, if_neg hp]

/-- Setting of the theorems below: a search lasting longer than its precision. -/
theorem find_unfold (cross : ℚ → ℚ → Bool) (tMin duration prec : ℚ) (fuel : Nat) (h : prec < duration) :
    findCrossings cross tMin duration prec fuel
      = (refine cross (downFactor duration) prec fuel [tMin] duration (duration / (downFactor duration : ℚ))).map .ok := by
  have h5 := five_le_down duration
  have hq : (0 : ℚ) < (downFactor duration : ℚ) := by exact_mod_cast (by omega : 0 < downFactor duration)
  unfold findCrossings
  dsimp only
  rw [if_pos (by rw [div_mul_cancel₀ _ hq.ne']; exact h)]

/-- **C63**: with a positive precision the search always ends. -/
theorem crossing_ends (cross : ℚ → ℚ → Bool) (tMin duration prec : ℚ) (hp : 0 < prec) :
    ∃ n r, ∀ fuel, findCrossings cross tMin duration prec (n + fuel) = some r := by
  have h5 := five_le_down duration
  have hq : (5 : ℚ) ≤ (downFactor duration : ℚ) := by exact_mod_cast h5
  by_cases h : prec < duration
  · obtain ⟨k, hk⟩ := pow_unbounded_of_one_lt (duration / prec) (show (1 : ℚ) < (downFactor duration : ℚ) by linarith)
    have hd : 0 < duration := by linarith
    obtain ⟨r, hr⟩ := refine_ends cross (downFactor duration) prec (by omega) k [tMin] duration (duration / (downFactor duration : ℚ))
      (div_pos hd (by linarith)) (by rw [mul_div_cancel₀ _ (by linarith : (downFactor duration : ℚ) ≠ 0)]) (by
        rw [div_lt_iff₀ hp] at hk
        have : duration / (downFactor duration : ℚ) ≤ duration := div_le_self hd.le (by linarith)
        linarith)
    refine ⟨k + 1, .ok r, fun fuel => ?_⟩
    rw [find_unfold _ _ _ _ _ h, hr]
    rfl
  · refine ⟨0, .error .unboundLocal, fun fuel => ?_⟩
    unfold findCrossings
    dsimp only
    rw [if_neg (by rw [div_mul_cancel₀ _ (by linarith : (downFactor duration : ℚ) ≠ 0)]; exact h)]

/-! ## Soundness -/

theorem refine_sound (cross : ℚ → ℚ → Bool) (down : Nat) (prec : ℚ) (h2 : 0 < down) (fuel : Nat) :
    ∀ (starts : List ℚ) (dur dt : ℚ) (rs : List ℚ), 0 < dt → dur = down * dt →
      refine cross down prec fuel starts dur dt = some rs → ∀ r ∈ rs,
        ∃ s ∈ starts, ∃ a w : ℚ, cross a (a + w) = true ∧ a ≤ r ∧ r ≤ a + w ∧ 0 < w ∧ w ≤ prec ∧ s ≤ a ∧ a + w ≤ s + dur := by
  have hq : (1 : ℚ) ≤ down := by exact_mod_cast h2
  induction fuel with
  | zero => intro _ _ _ _ _ _ h; cases h
  | succ fuel ih =>
    intro starts dur dt rs hdt hd h r hr
    rw [refine_succ _ _ _ _ _ _ _ hdt hd] at h
    have hin : ∀ a ∈ pass cross down dt starts, ∃ s ∈ starts, s ≤ a ∧ a + dt ≤ s + dur ∧ cross a (a + dt) = true := by
      intro a ha
      obtain ⟨s, hs, k, hk, rfl, hc⟩ := mem_pass.mp ha
      refine ⟨s, hs, ?_, ?_, hc⟩
      · have : (0 : ℚ) ≤ (k : ℚ) * dt := mul_nonneg (Nat.cast_nonneg _) hdt.le
        linarith
      · have h3 : ((k : ℚ) + 1) ≤ down := by exact_mod_cast hk
        have h4 : ((k : ℚ) + 1) * dt ≤ down * dt := mul_le_mul_of_nonneg_right h3 hdt.le
        rw [hd]
        linarith
    by_cases he : pass cross down dt starts = []
    · rw [if_pos he] at h
      injection h with h
      rw [← h] at hr
      cases hr
    · rw [if_neg he] at h
      by_cases hp : prec < dt / down * down
      · rw [if_pos hp] at h
        obtain ⟨a, ha, b, w, hc, h6, h7, h8, h9, h10, h11⟩ := ih _ _ _ _ (div_pos hdt (by linarith))
          (by rw [mul_div_cancel₀ _ (by linarith : (down : ℚ) ≠ 0)]) h r hr
        obtain ⟨s, hs, h12, h13, -⟩ := hin a ha
        exact ⟨s, hs, b, w, hc, h6, h7, h8, h9, by linarith, by linarith⟩
      · rw [if_neg hp] at h
        rw [div_mul_cancel₀ _ (by linarith : (down : ℚ) ≠ 0)] at hp
        injection h with h
        rw [← h] at hr
        obtain ⟨a, ha, rfl⟩ := List.mem_map.mp hr
        obtain ⟨s, hs, h12, h13, hc⟩ := hin a ha
        have h14 : dt / down ≤ dt := div_le_self hdt.le hq
        have h15 : 0 < dt / down := div_pos hdt (by linarith)
        exact ⟨s, hs, a, dt, hc, by linarith, by linarith, hdt, by linarith, h12, h13⟩

/-- **C63**: each time returned lies in an interval no longer than the precision, within the span searched, at whose ends the crossing
test holds. -/
theorem crossing_sound (cross : ℚ → ℚ → Bool) (tMin duration prec : ℚ) (fuel : Nat) (rs : List ℚ) (hd : 0 < duration)
    (h : findCrossings cross tMin duration prec fuel = some (.ok rs)) :
    ∀ r ∈ rs, ∃ a b, a ≤ r ∧ r ≤ b ∧ b - a ≤ prec ∧ cross a b = true ∧ tMin ≤ a ∧ b ≤ tMin + duration := by
  have h5 := five_le_down duration
  have hq : (5 : ℚ) ≤ (downFactor duration : ℚ) := by exact_mod_cast h5
  intro r hr
  by_cases hp : prec < duration
  · rw [find_unfold _ _ _ _ _ hp] at h
    cases hf : refine cross (downFactor duration) prec fuel [tMin] duration (duration / (downFactor duration : ℚ)) with
    | none => rw [hf] at h; cases h
    | some xs =>
      rw [hf] at h
      injection h with h
      injection h with h
      subst h
      obtain ⟨s, hs, a, w, hc, h1, h2, h3, h4, h6, h7⟩ := refine_sound cross _ prec (by omega) fuel _ _ _ _
        (div_pos hd (by linarith)) (by rw [mul_div_cancel₀ _ (by linarith : (downFactor duration : ℚ) ≠ 0)]) hf r hr
      rw [List.mem_singleton] at hs
      subst hs
      exact ⟨a, a + w, h1, h2, by linarith, hc, h6, h7⟩
  · unfold findCrossings at h
    dsimp only at h
    rw [if_neg (by rw [div_mul_cancel₀ _ (by linarith : (downFactor duration : ℚ) ≠ 0)]; exact hp)] at h
    cases h

/-! ## Completeness -/

/-- A test which, when it holds across an interval, holds across a part of any regular division of it. -/
def Splits (cross : ℚ → ℚ → Bool) : Prop :=
  ∀ (t dt : ℚ) (n : Nat), cross t (t + (n : ℚ) * dt) = true → 0 < n →
    ∃ k : Nat, k < n ∧ cross (t + (k : ℚ) * dt) (t + (k : ℚ) * dt + dt) = true

theorem refine_complete (cross : ℚ → ℚ → Bool) (hs : Splits cross) (down : Nat) (prec : ℚ) (h2 : 0 < down) (fuel : Nat) :
    ∀ (starts : List ℚ) (dur dt : ℚ) (rs : List ℚ), 0 < dt → dur = down * dt →
      refine cross down prec fuel starts dur dt = some rs → ∀ s ∈ starts, cross s (s + dur) = true → ∃ r ∈ rs, s ≤ r ∧ r ≤ s + dur := by
  have hq : (1 : ℚ) ≤ down := by exact_mod_cast h2
  induction fuel with
  | zero => intro _ _ _ _ _ _ h; cases h
  | succ fuel ih =>
    intro starts dur dt rs hdt hd h s hmem hc
    rw [refine_succ _ _ _ _ _ _ _ hdt hd] at h
    rw [hd] at hc
    obtain ⟨k, hk, hck⟩ := hs s dt down hc h2
    have hm : s + (k : ℚ) * dt ∈ pass cross down dt starts := mem_pass.mpr ⟨s, hmem, k, hk, rfl, hck⟩
    have h3 : (0 : ℚ) ≤ (k : ℚ) * dt := mul_nonneg (Nat.cast_nonneg _) hdt.le
    have h4 : ((k : ℚ) + 1) * dt ≤ down * dt := mul_le_mul_of_nonneg_right (by exact_mod_cast hk) hdt.le
    rw [if_neg (fun he => by rw [he] at hm; cases hm)] at h
    by_cases hp : prec < dt / down * down
    · rw [if_pos hp] at h
      obtain ⟨r, hr, h5, h6⟩ := ih _ _ _ _ (div_pos hdt (by linarith))
        (by rw [mul_div_cancel₀ _ (by linarith : (down : ℚ) ≠ 0)]) h _ hm hck
      exact ⟨r, hr, by linarith, by rw [hd]; linarith⟩
    · rw [if_neg hp] at h
      injection h with h
      refine ⟨s + (k : ℚ) * dt + dt / down / 2, ?_, ?_, ?_⟩
      · rw [← h]; exact List.mem_map.mpr ⟨_, hm, rfl⟩
      · have := div_pos hdt (by linarith : (0 : ℚ) < down)
        linarith
      · have := div_le_self hdt.le hq
        rw [hd]
        linarith

theorem find_refine {cross : ℚ → ℚ → Bool} {tMin duration prec : ℚ} {fuel : Nat} {rs : List ℚ}
    (h : findCrossings cross tMin duration prec fuel = some (.ok rs)) :
    prec < duration ∧ refine cross (downFactor duration) prec fuel [tMin] duration (duration / (downFactor duration : ℚ)) = some rs := by
  have h5 := five_le_down duration
  have hq : (5 : ℚ) ≤ (downFactor duration : ℚ) := by exact_mod_cast h5
  by_cases hp : prec < duration
  · refine ⟨hp, ?_⟩
    rw [find_unfold _ _ _ _ _ hp] at h
    cases hf : refine cross (downFactor duration) prec fuel [tMin] duration (duration / (downFactor duration : ℚ)) with
    | none => rw [hf] at h; cases h
    | some xs =>
      rw [hf] at h
      injection h with h
      injection h with h
      rw [h]
  · unfold findCrossings at h
    dsimp only at h
    rw [if_neg (by rw [div_mul_cancel₀ _ (by linarith : (downFactor duration : ℚ) ≠ 0)]; exact hp)] at h
    cases h

theorem refine_found (cross : ℚ → ℚ → Bool) (t step : ℚ) (down : Nat) (prec : ℚ) (h2 : 0 < down)
    (hc : ∀ a b, a < t → t ≤ b → b - a ≤ step → cross a b = true) (fuel : Nat) :
    ∀ (starts : List ℚ) (dur dt : ℚ) (rs : List ℚ), 0 < dt → dt ≤ step → dur = down * dt →
      refine cross down prec fuel starts dur dt = some rs → ∀ s ∈ starts, s < t → t ≤ s + dur → ∃ r ∈ rs, |r - t| ≤ prec := by
  have hq : (1 : ℚ) ≤ down := by exact_mod_cast h2
  induction fuel with
  | zero => intro _ _ _ _ _ _ _ h; cases h
  | succ fuel ih =>
    intro starts dur dt rs hdt hst hd h s hmem h6 h7
    rw [refine_succ _ _ _ _ _ _ _ hdt hd] at h
    -- the sub-interval which holds t
    obtain ⟨k, hk, hk1, hk2⟩ : ∃ k : Nat, k < down ∧ s + (k : ℚ) * dt < t ∧ t ≤ s + (k : ℚ) * dt + dt := by
      have hx : 0 < (t - s) / dt := div_pos (by linarith) hdt
      have hc1 : 0 < ⌈(t - s) / dt⌉ := Int.ceil_pos.mpr hx
      obtain ⟨m, hm⟩ := Int.eq_ofNat_of_zero_le (by omega : 0 ≤ ⌈(t - s) / dt⌉ - 1)
      have e1 : ((⌈(t - s) / dt⌉ : Int) : ℚ) = (m : ℚ) + 1 := by
        have : ⌈(t - s) / dt⌉ = (m : Int) + 1 := by omega
        rw [this]; push_cast; rfl
      have h8 := Int.le_ceil ((t - s) / dt)
      have h9 := Int.ceil_lt_add_one ((t - s) / dt)
      rw [e1] at h8 h9
      rw [div_le_iff₀ hdt] at h8
      have h9' : (m : ℚ) < (t - s) / dt := by linarith
      rw [lt_div_iff₀ hdt] at h9'
      refine ⟨m, ?_, by linarith, by linarith⟩
      by_contra hge
      push Not at hge
      have : (down : ℚ) * dt ≤ (m : ℚ) * dt := mul_le_mul_of_nonneg_right (by exact_mod_cast hge) hdt.le
      rw [hd] at h7
      linarith
    have hm : s + (k : ℚ) * dt ∈ pass cross down dt starts :=
      mem_pass.mpr ⟨s, hmem, k, hk, rfl, hc _ _ hk1 hk2 (by linarith)⟩
    rw [if_neg (fun he => by rw [he] at hm; cases hm)] at h
    have h10 : dt / down ≤ dt := div_le_self hdt.le hq
    have h11 : 0 < dt / down := div_pos hdt (by linarith)
    by_cases hp : prec < dt / down * down
    · rw [if_pos hp] at h
      exact ih _ _ _ _ h11 (by linarith) (by rw [mul_div_cancel₀ _ (by linarith : (down : ℚ) ≠ 0)]) h _ hm hk1 hk2
    · rw [if_neg hp] at h
      rw [div_mul_cancel₀ _ (by linarith : (down : ℚ) ≠ 0)] at hp
      injection h with h
      refine ⟨s + (k : ℚ) * dt + dt / down / 2, ?_, ?_⟩
      · rw [← h]; exact List.mem_map.mpr ⟨_, hm, rfl⟩
      · rw [abs_le]
        constructor <;> linarith

/-- **C63**: a crossing seen by the coarse sampling is not lost by the refinement. -/
theorem crossing_kept (cross : ℚ → ℚ → Bool) (hs : Splits cross) (tMin duration prec : ℚ) (fuel : Nat) (rs : List ℚ) (hd : 0 < duration)
    (h : findCrossings cross tMin duration prec fuel = some (.ok rs)) (k : Nat) (hk : k < downFactor duration)
    (hc : cross (tMin + (k : ℚ) * (duration / (downFactor duration : ℚ)))
      (tMin + (k : ℚ) * (duration / (downFactor duration : ℚ)) + duration / (downFactor duration : ℚ)) = true) :
    ∃ r ∈ rs, tMin + (k : ℚ) * (duration / (downFactor duration : ℚ)) ≤ r ∧
      r ≤ tMin + (k : ℚ) * (duration / (downFactor duration : ℚ)) + duration / (downFactor duration : ℚ) := by
  have h5 := five_le_down duration
  have hq : (5 : ℚ) ≤ (downFactor duration : ℚ) := by exact_mod_cast h5
  obtain ⟨hp, hr⟩ := find_refine h
  generalize downFactor duration = down at *
  have hdt : 0 < duration / (down : ℚ) := div_pos hd (by linarith)
  have hdur : duration = down * (duration / (down : ℚ)) := by rw [mul_div_cancel₀ _ (by linarith : (down : ℚ) ≠ 0)]
  cases fuel with
  | zero => cases hr
  | succ fuel =>
    rw [refine_succ _ _ _ _ _ _ _ hdt hdur] at hr
    have hm : tMin + (k : ℚ) * (duration / (down : ℚ)) ∈ pass cross down (duration / (down : ℚ)) [tMin] :=
      mem_pass.mpr ⟨tMin, List.mem_cons_self .., k, hk, rfl, hc⟩
    rw [if_neg (fun he => by rw [he] at hm; cases hm)] at hr
    by_cases hpp : prec < duration / down / down * down
    · rw [if_pos hpp] at hr
      exact refine_complete cross hs down prec (by omega) fuel _ _ _ _ (div_pos hdt (by linarith))
        (by rw [mul_div_cancel₀ _ (by linarith : (down : ℚ) ≠ 0)]) hr _ hm hc
    · rw [if_neg hpp] at hr
      injection hr with hr
      refine ⟨tMin + (k : ℚ) * (duration / (down : ℚ)) + duration / down / down / 2, ?_, ?_, ?_⟩
      · rw [← hr]; exact List.mem_map.mpr ⟨_, hm, rfl⟩
      · have := div_pos hdt (by linarith : (0 : ℚ) < down)
        linarith
      · have := div_le_self hdt.le (by linarith : (1 : ℚ) ≤ down)
        linarith

/-- **C63**: an event after the start of the span, seen by the test on any interval around it no longer than six hours, is found within the
precision. -/
theorem crossing_found (cross : ℚ → ℚ → Bool) (tMin duration prec t : ℚ) (fuel : Nat) (rs : List ℚ) (hd : 0 < duration)
    (h : findCrossings cross tMin duration prec fuel = some (.ok rs)) (h1 : tMin < t) (h2 : t ≤ tMin + duration)
    (hc : ∀ a b, a < t → t ≤ b → b - a ≤ maxDt → cross a b = true) : ∃ r ∈ rs, |r - t| ≤ prec := by
  have h5 := five_le_down duration
  have hq : (5 : ℚ) ≤ (downFactor duration : ℚ) := by exact_mod_cast h5
  obtain ⟨hp, hr⟩ := find_refine h
  exact refine_found cross t maxDt _ prec (by omega) hc fuel _ _ _ _ (div_pos hd (by linarith)) (coarse_step duration)
    (by rw [mul_div_cancel₀ _ (by linarith : (downFactor duration : ℚ) ≠ 0)]) hr tMin (List.mem_cons_self ..) h1 h2

/-! ## Order -/

theorem rowHits_gap (cross : ℚ → ℚ → Bool) (n : Nat) (dt t : ℚ) (hdt : 0 < dt) : (rowHits cross n dt t).Pairwise fun a b => a + dt ≤ b := by
  unfold rowHits
  rw [List.pairwise_map]
  apply List.Pairwise.filter
  apply List.pairwise_lt_range.imp
  intro i j hij
  have : ((i : ℚ) + 1) * dt ≤ (j : ℚ) * dt := mul_le_mul_of_nonneg_right (by exact_mod_cast hij) hdt.le
  linarith

theorem pass_gap (cross : ℚ → ℚ → Bool) (n : Nat) (dt dur : ℚ) (hdt : 0 < dt) (hd : dur = n * dt) (starts : List ℚ)
    (h : starts.Pairwise fun a b => a + dur ≤ b) : (pass cross n dt starts).Pairwise fun a b => a + dt ≤ b := by
  unfold pass
  rw [List.pairwise_flatMap]
  refine ⟨fun a _ => rowHits_gap cross n dt a hdt, h.imp ?_⟩
  intro a b hab x hx y hy
  obtain ⟨k, hk, rfl, -⟩ := mem_rowHits.mp hx
  obtain ⟨j, -, rfl, -⟩ := mem_rowHits.mp hy
  have h1 : ((k : ℚ) + 1) * dt ≤ (n : ℚ) * dt := mul_le_mul_of_nonneg_right (by exact_mod_cast hk) hdt.le
  have h2 : (0 : ℚ) ≤ (j : ℚ) * dt := mul_nonneg (Nat.cast_nonneg _) hdt.le
  rw [hd] at hab
  linarith

theorem refine_sorted (cross : ℚ → ℚ → Bool) (down : Nat) (prec : ℚ) (h2 : 0 < down) (fuel : Nat) :
    ∀ (starts : List ℚ) (dur dt : ℚ) (rs : List ℚ), 0 < dt → dur = down * dt → (starts.Pairwise fun a b => a + dur ≤ b) →
      refine cross down prec fuel starts dur dt = some rs → rs.Pairwise (· < ·) := by
  have hq : (1 : ℚ) ≤ down := by exact_mod_cast h2
  induction fuel with
  | zero => intro _ _ _ _ _ _ _ h; cases h
  | succ fuel ih =>
    intro starts dur dt rs hdt hd hs h
    rw [refine_succ _ _ _ _ _ _ _ hdt hd] at h
    have hg := pass_gap cross down dt dur hdt hd starts hs
    by_cases he : pass cross down dt starts = []
    · rw [if_pos he] at h
      injection h with h
      rw [← h]
      exact List.Pairwise.nil
    · rw [if_neg he] at h
      by_cases hp : prec < dt / down * down
      · rw [if_pos hp] at h
        exact ih _ _ _ _ (div_pos hdt (by linarith)) (by rw [mul_div_cancel₀ _ (by linarith : (down : ℚ) ≠ 0)]) hg h
      · rw [if_neg hp] at h
        injection h with h
        rw [← h, List.pairwise_map]
        exact hg.imp fun hab => by linarith

/-- **C63**: times are returned in increasing order, none twice; hence the first one is the earliest and the last one the latest. -/
theorem crossing_sorted (cross : ℚ → ℚ → Bool) (tMin duration prec : ℚ) (fuel : Nat) (rs : List ℚ) (hd : 0 < duration)
    (h : findCrossings cross tMin duration prec fuel = some (.ok rs)) : rs.Pairwise (· < ·) := by
  have h5 := five_le_down duration
  have hq : (5 : ℚ) ≤ (downFactor duration : ℚ) := by exact_mod_cast h5
  obtain ⟨hp, hr⟩ := find_refine h
  exact refine_sorted cross _ prec (by omega) fuel _ _ _ _ (div_pos hd (by linarith))
    (by rw [mul_div_cancel₀ _ (by linarith : (downFactor duration : ℚ) ≠ 0)]) (List.pairwise_singleton _ _) hr

/-- **C63**: the next rise or set time is after the given time and the earliest found in two days. -/
theorem next_crossing (cross : ℚ → ℚ → Bool) (time prec : ℚ) (fuel : Nat) (r : ℚ)
    (h : nextCrossing cross time prec fuel = some (.ok (some r))) :
    ∃ rs, findCrossings cross time 172800 prec fuel = some (.ok rs) ∧ time ≤ r ∧ r ∈ rs ∧ ∀ x ∈ rs, r ≤ x := by
  unfold nextCrossing at h
  cases hf : findCrossings cross time 172800 prec fuel with
  | none => rw [hf] at h; cases h
  | some e =>
    rw [hf] at h
    cases e with
    | error e => injection h with h; cases h
    | ok rs =>
      injection h with h
      injection h with h
      have hs := crossing_sorted cross time 172800 prec fuel rs (by norm_num) hf
      cases rs with
      | nil => cases h
      | cons x xs =>
        injection h with h
        subst h
        obtain ⟨a, b, h1, -, -, -, h2, -⟩ := crossing_sound cross time 172800 prec fuel _ (by norm_num) hf x (List.mem_cons_self ..)
        refine ⟨_, rfl, by linarith, List.mem_cons_self .., fun y hy => ?_⟩
        rcases List.mem_cons.mp hy with rfl | hy
        · exact le_refl _
        · exact ((List.pairwise_cons.mp hs).1 y hy).le

/-- **C63**: the previous rise or set time is before the given time and the latest found in two days. -/
theorem previous_crossing (cross : ℚ → ℚ → Bool) (time prec : ℚ) (fuel : Nat) (r : ℚ)
    (h : previousCrossing cross time prec fuel = some (.ok (some r))) :
    ∃ rs, findCrossings cross (time - 172800) 172800 prec fuel = some (.ok rs) ∧ r ≤ time ∧ r ∈ rs ∧ ∀ x ∈ rs, x ≤ r := by
  unfold previousCrossing at h
  cases hf : findCrossings cross (time - 172800) 172800 prec fuel with
  | none => rw [hf] at h; cases h
  | some e =>
    rw [hf] at h
    cases e with
    | error e => injection h with h; cases h
    | ok rs =>
      injection h with h
      injection h with h
      have hs := crossing_sorted cross _ 172800 prec fuel rs (by norm_num) hf
      obtain ⟨ys, rfl⟩ := List.getLast?_eq_some_iff.mp h
      have hm : r ∈ ys ++ [r] := List.mem_append_right _ (List.mem_cons_self ..)
      obtain ⟨a, b, -, h1, -, -, -, h2⟩ := crossing_sound cross _ 172800 prec fuel _ (by norm_num) hf r hm
      refine ⟨_, rfl, by linarith, hm, fun y hy => ?_⟩
      rcases List.mem_append.mp hy with hy | hy
      · exact ((List.pairwise_append.mp hs).2.2 y hy r (List.mem_cons_self ..)).le
      · rw [List.mem_singleton.mp hy]

/-! ## The tests -/

theorem exists_step (p : Nat → Prop) [DecidablePred p] (n : Nat) (hn : p n) (h0 : 0 < n) :
    ∃ k, k < n ∧ p (k + 1) ∧ (k = 0 ∨ ¬ p k) := by
  induction n with
  | zero => omega
  | succ n ih =>
    by_cases hp : p n
    · by_cases hz : n = 0
      · subst hz
        exact ⟨0, by omega, hn, Or.inl rfl⟩
      · obtain ⟨k, hk, h1, h2⟩ := ih hp (by omega)
        exact ⟨k, by omega, h1, h2⟩
    · exact ⟨n, by omega, hn, Or.inr hp⟩

theorem rise_splits (el : ℚ → ℚ) (e : ℚ) : Splits (risePair el e) := by
  intro t dt n h hn
  unfold risePair at h ⊢
  simp only [Bool.and_eq_true, decide_eq_true_iff] at h ⊢
  obtain ⟨k, hk, h1, h2⟩ := exists_step (fun k => e ≤ el (t + (k : ℚ) * dt)) n h.2 hn
  refine ⟨k, hk, ?_, ?_⟩
  · rcases h2 with rfl | h2
    · rw [Nat.cast_zero, zero_mul, add_zero]; exact h.1
    · exact (not_le.mp h2).le
  · rw [Nat.cast_succ, show t + ((k : ℚ) + 1) * dt = t + (k : ℚ) * dt + dt by ring] at h1
    exact h1

theorem set_splits (el : ℚ → ℚ) (e : ℚ) : Splits (setPair el e) := by
  intro t dt n h hn
  unfold setPair at h ⊢
  simp only [Bool.and_eq_true, decide_eq_true_iff] at h ⊢
  obtain ⟨k, hk, h1, h2⟩ := exists_step (fun k => el (t + (k : ℚ) * dt) ≤ e) n h.2 hn
  refine ⟨k, hk, ?_, ?_⟩
  · rcases h2 with rfl | h2
    · rw [Nat.cast_zero, zero_mul, add_zero]; exact h.1
    · exact (not_le.mp h2).le
  · rw [Nat.cast_succ, show t + ((k : ℚ) + 1) * dt = t + (k : ℚ) * dt + dt by ring] at h1
    exact h1

theorem az_splits (az : ℚ → ℚ) (z : ℚ) : Splits (azPair az z) := rise_splits az z

theorem azCirc_splits (az : ℚ → ℚ) (z : ℚ) : Splits (azCircPair az z) := by
  intro t dt n h hn
  unfold azCircPair at h
  rw [Bool.or_eq_true] at h
  rcases h with h | h
  · obtain ⟨k, hk, h1⟩ := rise_splits (fun x => wrapDeg (az x)) (wrapDeg z) t dt n h hn
    exact ⟨k, hk, by unfold azCircPair; rw [Bool.or_eq_true]; exact Or.inl h1⟩
  · obtain ⟨k, hk, h1⟩ := set_splits (fun x => wrapDeg (az x)) (wrapDeg z) t dt n h hn
    exact ⟨k, hk, by unfold azCircPair; rw [Bool.or_eq_true]; exact Or.inr h1⟩

theorem transit_splits (ha : ℚ → ℚ) : Splits (transitPair ha) := by
  intro t dt n h hn
  unfold transitPair at h ⊢
  simp only [decide_eq_true_iff] at h ⊢
  obtain ⟨k, hk, h1, h2⟩ := exists_step (fun k => ha (t + (k : ℚ) * dt) < ha t) n (by linarith) hn
  refine ⟨k, hk, ?_⟩
  rw [Nat.cast_succ, show t + ((k : ℚ) + 1) * dt = t + (k : ℚ) * dt + dt by ring] at h1
  rcases h2 with rfl | h2
  · rw [Nat.cast_zero, zero_mul, add_zero] at h1 ⊢
    linarith
  · linarith [not_lt.mp h2]

/-- The hour angle of a source, in degrees, for a uniform rotation of the Earth. -/
def uniformHa (rate h0 t : ℚ) : ℚ := rate * t + h0 - 360 * (⌊(rate * t + h0) / 360⌋ : ℚ)

/-- **C63**: over less than a turn, the meridian test holds exactly if the source crosses the meridian. -/
theorem transit_exact (rate h0 a b : ℚ) (hr : 0 < rate) (hab : a < b) (hturn : rate * (b - a) < 360) :
    transitPair (uniformHa rate h0) a b = true ↔ ∃ t, a < t ∧ t ≤ b ∧ uniformHa rate h0 t = 0 := by
  unfold transitPair uniformHa
  rw [decide_eq_true_iff]
  set x := (rate * a + h0) / 360 with hx
  set y := (rate * b + h0) / 360 with hy
  have ex : rate * a + h0 = 360 * x := by rw [hx]; ring
  have ey : rate * b + h0 = 360 * y := by rw [hy]; ring
  have hxy : x < y := by
    have : rate * a < rate * b := mul_lt_mul_of_pos_left hab hr
    linarith
  have hy1 : y < x + 1 := by linarith
  have f1 := Int.floor_le x
  have f2 := Int.lt_floor_add_one x
  have f3 := Int.floor_le y
  have f4 := Int.lt_floor_add_one y
  constructor
  · intro h
    have hlt : (⌊x⌋ : ℚ) < (⌊y⌋ : ℚ) := by
      by_contra hc
      push Not at hc
      linarith
    refine ⟨(360 * (⌊y⌋ : ℚ) - h0) / rate, ?_, ?_, ?_⟩
    · rw [lt_div_iff₀ hr]
      have h1 : ⌊x⌋ + 1 ≤ ⌊y⌋ := by have : ⌊x⌋ < ⌊y⌋ := by exact_mod_cast hlt
                                    omega
      have h2 : (⌊x⌋ : ℚ) + 1 ≤ (⌊y⌋ : ℚ) := by exact_mod_cast h1
      linarith
    · rw [div_le_iff₀ hr]
      linarith
    · rw [mul_div_cancel₀ _ hr.ne', show (360 * (⌊y⌋ : ℚ) - h0 + h0) / 360 = (⌊y⌋ : ℚ) by ring, Int.floor_intCast]
      ring
  · rintro ⟨t, h1, h2, h3⟩
    set m := ⌊(rate * t + h0) / 360⌋ with hm
    have e3 : rate * t + h0 = 360 * (m : ℚ) := by linarith
    have h4 : rate * a < rate * t := mul_lt_mul_of_pos_left h1 hr
    have h5 : rate * t ≤ rate * b := mul_le_mul_of_nonneg_left h2 hr.le
    have h6 : x < (m : ℚ) := by linarith
    have h7 : (m : ℚ) ≤ y := by linarith
    have h8 : ⌊x⌋ < m := Int.floor_lt.mpr h6
    have h9 : m ≤ ⌊y⌋ := Int.le_floor.mpr h7
    have h10 : (⌊x⌋ : ℚ) + 1 ≤ (⌊y⌋ : ℚ) := by exact_mod_cast (by omega : ⌊x⌋ + 1 ≤ ⌊y⌋)
    linarith

/-- **C63**: every meridian transit of the span is returned within the precision, and nothing else is, for a rotation slower than
a turn in six hours. -/
theorem meridian_exact (rate h0 tMin duration prec : ℚ) (fuel : Nat) (rs : List ℚ) (hr : 0 < rate) (hslow : rate * maxDt < 360)
    (hp6 : prec ≤ maxDt) (hd : 0 < duration)
    (h : findCrossings (transitPair (uniformHa rate h0)) tMin duration prec fuel = some (.ok rs)) :
    (∀ t, tMin < t → t ≤ tMin + duration → uniformHa rate h0 t = 0 → ∃ r ∈ rs, |r - t| ≤ prec) ∧
    (∀ r ∈ rs, ∃ t, uniformHa rate h0 t = 0 ∧ |r - t| ≤ prec) := by
  constructor
  · intro t h1 h2 h3
    refine crossing_found _ tMin duration prec t fuel rs hd h h1 h2 fun a b ha hb hw => ?_
    have : rate * (b - a) ≤ rate * maxDt := mul_le_mul_of_nonneg_left hw hr.le
    exact (transit_exact rate h0 a b hr (by linarith) (by linarith)).mpr ⟨t, ha, hb, h3⟩
  · intro r hrs
    obtain ⟨a, b, h1, h2, h3, h4, -, -⟩ := crossing_sound _ tMin duration prec fuel rs hd h r hrs
    have hw : rate * (b - a) ≤ rate * maxDt := mul_le_mul_of_nonneg_left (by linarith) hr.le
    have hab : a < b := by
      rcases lt_or_eq_of_le (le_trans h1 h2) with hlt | heq
      · exact hlt
      · exfalso
        unfold transitPair at h4
        rw [heq, sub_self] at h4
        simp at h4
    obtain ⟨t, h5, h6, h7⟩ := (transit_exact rate h0 a b hr hab (by linarith)).mp h4
    refine ⟨t, h7, ?_⟩
    rw [abs_le]
    constructor <;> linarith

/-- A rise which is the only change of the elevation test within six hours is found within the precision. -/
theorem rise_found (el : ℚ → ℚ) (e tMin duration prec t : ℚ) (fuel : Nat) (rs : List ℚ) (hd : 0 < duration)
    (h : findCrossings (risePair el e) tMin duration prec fuel = some (.ok rs)) (h1 : tMin < t) (h2 : t ≤ tMin + duration)
    (hb : ∀ a, t - maxDt ≤ a → a < t → el a ≤ e) (ha : ∀ b, t ≤ b → b < t + maxDt → e ≤ el b) : ∃ r ∈ rs, |r - t| ≤ prec := by
  refine crossing_found _ tMin duration prec t fuel rs hd h h1 h2 fun a b h3 h4 h5 => ?_
  unfold risePair
  rw [Bool.and_eq_true, decide_eq_true_iff, decide_eq_true_iff]
  exact ⟨hb a (by linarith) h3, ha b h4 (by linarith)⟩

/-! ## Shortcomings -/

/-- A circumpolar source moving through the south: a time when its azimuth is 180 degrees is returned as a transit at 90 degrees. -/
theorem azimuth_circumpolar_violated :
    findCrossings (azCircPair (fun t => t) 90) 150 60 5 2 = some (.ok [178 + 4 / 5 + 6 / 25]) ∧
      ∀ t : ℚ, 150 ≤ t → t ≤ 210 → ∀ m : Int, t ≠ 90 + 360 * (m : ℚ) := by
  constructor
  · have e : refine (azCircPair (fun t => t) 90) (downFactor 60) 5 2 [150] 60 (60 / (downFactor 60 : ℚ)) = some [178 + 4 / 5 + 6 / 25] := by
      decide +kernel
    rw [find_unfold _ _ _ _ _ (by norm_num), e]
    rfl
  · intro t h1 h2 m hm
    have h3 : (0 : ℚ) < m := by linarith
    have h4 : (m : ℚ) < 1 := by linarith
    have h5 : 0 < m := by exact_mod_cast h3
    have h6 : m < 1 := by exact_mod_cast h4
    omega

/-- A transit at an azimuth just before 360 degrees is lost. -/
theorem azimuth_wrap_violated :
    findCrossings (azPair (fun t => if t < 360 then t else t - 360) 359) 354 60 5 2 = some (.ok []) := by
  have e : refine (azPair (fun t => if t < 360 then t else t - 360) 359) (downFactor 60) 5 2 [354] 60 (60 / (downFactor 60 : ℚ)) = some [] := by
    decide +kernel
  rw [find_unfold _ _ _ _ _ (by norm_num), e]
  rfl

/-- A source which rises exactly at a sample is said to rise twice. -/
theorem rise_twice_violated :
    findCrossings (risePair (fun t => t) 24) 0 60 5 2 = some (.ok [21 + 3 / 5 + 6 / 25, 24 + 6 / 25]) := by
  have e : refine (risePair (fun t => t) 24) (downFactor 60) 5 2 [0] 60 (60 / (downFactor 60 : ℚ)) = some [21 + 3 / 5 + 6 / 25, 24 + 6 / 25] := by
    decide +kernel
  rw [find_unfold _ _ _ _ _ (by norm_num), e]
  rfl

/-- Spans no longer than the precision fail. -/
theorem crossing_short_violated (cross : ℚ → ℚ → Bool) (tMin duration prec : ℚ) (fuel : Nat) (h : duration ≤ prec) :
    findCrossings cross tMin duration prec fuel = some (.error .unboundLocal) := by
  have h5 := five_le_down duration
  have hq : (5 : ℚ) ≤ (downFactor duration : ℚ) := by exact_mod_cast h5
  unfold findCrossings
  dsimp only
  rw [if_neg (by rw [div_mul_cancel₀ _ (by linarith : (downFactor duration : ℚ) ≠ 0)]; linarith)]

/-- With a precision of zero the search of an existing crossing never ends. -/
theorem crossing_endless_violated (cross : ℚ → ℚ → Bool) (hs : Splits cross) (tMin duration : ℚ) (hd : 0 < duration)
    (hc : cross tMin (tMin + duration) = true) (fuel : Nat) : findCrossings cross tMin duration 0 fuel = none := by
  have h5 := five_le_down duration
  have hq : (5 : ℚ) ≤ (downFactor duration : ℚ) := by exact_mod_cast h5
  rw [find_unfold _ _ _ _ _ hd]
  have key : ∀ (fuel : Nat) (starts : List ℚ) (dur dt : ℚ), 0 < dt → dur = downFactor duration * dt →
      (∃ s ∈ starts, cross s (s + dur) = true) → refine cross (downFactor duration) 0 fuel starts dur dt = none := by
    intro fuel
    induction fuel with
    | zero => intro _ _ _ _ _ _; rfl
    | succ fuel ih =>
      rintro starts dur dt hdt hdur ⟨s, hm, hcs⟩
      rw [hdur] at hcs
      obtain ⟨k, hk, hck⟩ := hs s dt _ hcs (by omega)
      have hmem : s + (k : ℚ) * dt ∈ pass cross (downFactor duration) dt starts := mem_pass.mpr ⟨s, hm, k, hk, rfl, hck⟩
      rw [refine_succ _ _ _ _ _ _ _ hdt hdur, if_neg (fun he => by rw [he] at hmem; cases hmem),
        if_pos (by rw [div_mul_cancel₀ _ (by linarith : (downFactor duration : ℚ) ≠ 0)]; exact hdt)]
      exact ih _ _ _ (div_pos hdt (by linarith)) (by rw [mul_div_cancel₀ _ (by linarith : (downFactor duration : ℚ) ≠ 0)]) ⟨_, hmem, hck⟩
  rw [key fuel [tMin] duration _ (div_pos hd (by linarith)) (by rw [mul_div_cancel₀ _ (by linarith : (downFactor duration : ℚ) ≠ 0)])
    ⟨tMin, List.mem_cons_self .., hc⟩]
  rfl

/-- A search which ends with one transit, for a source at the rate of the sky. -/
example : (findCrossings (transitPair (uniformHa (15 / 3600) 350)) 0 86400 5 12).isSome = true ∧ (15 / 3600 : ℚ) * maxDt < 360 := by
  constructor
  · have e : (refine (transitPair (uniformHa (15 / 3600) 350)) (downFactor 86400) 5 12 [0] 86400 (86400 / (downFactor 86400 : ℚ))).isSome = true := by
      decide +kernel
    rw [find_unfold _ _ _ _ _ (by norm_num), Option.isSome_map]
    exact e
  · unfold maxDt; norm_num

end Verif.Astro
