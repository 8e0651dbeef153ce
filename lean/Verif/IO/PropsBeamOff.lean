import Verif.IO.PropsXst
import Mathlib.Algebra.Order.BigOperators.Group.Finset

/-!
# C54: power lost by a beam made with the antennas of other mini-arrays
-/

namespace Verif.IO

theorem steer_unit (wl d : ℝ) : Complex.normSq (steer wl d) = 1 := by
  unfold steer
  rw [Complex.normSq_eq_norm_sq, show (-2 * Complex.I * (Real.pi : ℂ) / (wl : ℂ) * (d : ℂ)) = ((-2 * Real.pi / wl * d : ℝ) : ℂ) * Complex.I by push_cast; ring,
    Complex.norm_exp_ofReal_mul_I, one_pow]

theorem unit_product (u v : ℂ) (hu : Complex.normSq u = 1) (hv : Complex.normSq v = 1) :
    (u * (starRingEnd ℂ) v).re ≤ 1 ∧ ((u * (starRingEnd ℂ) v).re = 1 ↔ u = v) := by
  rw [Complex.normSq_apply] at hu hv
  have e : (u * (starRingEnd ℂ) v).re = u.re * v.re + u.im * v.im := by simp
  rw [e]
  refine ⟨by nlinarith [sq_nonneg (u.re - v.re), sq_nonneg (u.im - v.im)], fun h => ?_, fun h => by rw [h]; exact hv⟩
  have h1 : (u.re - v.re) ^ 2 + (u.im - v.im) ^ 2 = 0 := by linear_combination hu + hv - 2 * h
  have h2 : u.re - v.re = 0 := by nlinarith [sq_nonneg (u.re - v.re), sq_nonneg (u.im - v.im)]
  have h3 : u.im - v.im = 0 := by nlinarith [sq_nonneg (u.re - v.re), sq_nonneg (u.im - v.im)]
  exact Complex.ext (by linarith) (by linarith)

theorem units_sum (k : Nat) (u : Nat → ℂ) (hu : ∀ a, Complex.normSq (u a) = 1) :
    Complex.normSq (∑ a ∈ Finset.range k, u a) ≤ (k : ℝ) ^ 2 ∧
      (Complex.normSq (∑ a ∈ Finset.range k, u a) = (k : ℝ) ^ 2 ↔ ∀ a < k, ∀ b < k, u a = u b) := by
  have h := Complex.mul_conj (∑ a ∈ Finset.range k, u a)
  rw [map_sum, Finset.sum_mul_sum, ← Finset.sum_product'] at h
  have h1 : Complex.normSq (∑ a ∈ Finset.range k, u a) = ∑ p ∈ Finset.range k ×ˢ Finset.range k, (u p.1 * (starRingEnd ℂ) (u p.2)).re := by
    rw [← Complex.re_sum, h, Complex.ofReal_re]
  have h2 : (k : ℝ) ^ 2 = ∑ p ∈ Finset.range k ×ˢ Finset.range k, (1 : ℝ) := by
    rw [Finset.sum_const, Finset.card_product, Finset.card_range, nsmul_eq_mul]
    push_cast
    ring
  have hle : ∀ p ∈ Finset.range k ×ˢ Finset.range k, (u p.1 * (starRingEnd ℂ) (u p.2)).re ≤ 1 := fun p _ => (unit_product _ _ (hu _) (hu _)).1
  rw [h1, h2]
  refine ⟨Finset.sum_le_sum hle, (Finset.sum_eq_sum_iff_of_le hle).trans ⟨fun H a ha b hb => ?_, fun H p hp => ?_⟩⟩
  · exact (unit_product _ _ (hu _) (hu _)).2.1 (H (a, b) (Finset.mem_product.2 ⟨Finset.mem_range.2 ha, Finset.mem_range.2 hb⟩))
  · obtain ⟨ha, hb⟩ := Finset.mem_product.1 hp
    exact (unit_product _ _ (hu _) (hu _)).2.2 (H _ (Finset.mem_range.1 ha) _ (Finset.mem_range.1 hb))

/-- **C54**, violated: a source in the direction of the beam, seen by `k` mini-arrays whose antennas are numbers `real a`, should give `k² |x|²`. The beam
gives less, unless the errors made on the delays, by taking antenna number `idx a` in the place of number `real a`, are the same for all mini-arrays up
to whole turns. -/
theorem beamform_off_violated (k : Nat) (x : ℂ) (hx : x ≠ 0) (wl : ℝ) (delay : Nat → ℝ) (idx real : Nat → Nat) :
    beamform k (correlations {()} fun _ a => x * steer wl (-delay (real a))) (fun _ => 1) wl delay idx ≤ (k : ℝ) ^ 2 * Complex.normSq x ∧
    (beamform k (correlations {()} fun _ a => x * steer wl (-delay (real a))) (fun _ => 1) wl delay idx = (k : ℝ) ^ 2 * Complex.normSq x ↔
      ∀ a < k, ∀ b < k, steer wl (delay (idx a) - delay (real a)) = steer wl (delay (idx b) - delay (real b))) := by
  have hx' : 0 < Complex.normSq x := Complex.normSq_pos.2 hx
  have e : beamform k (correlations {()} fun _ a => x * steer wl (-delay (real a))) (fun _ => 1) wl delay idx =
      Complex.normSq (∑ a ∈ Finset.range k, steer wl (delay (idx a) - delay (real a))) * Complex.normSq x := by
    rw [beamform_exact, Finset.sum_singleton, ← Complex.normSq_mul, Finset.sum_mul]
    congr 1
    refine Finset.sum_congr rfl fun a _ => ?_
    rw [sub_eq_add_neg, steer_add]
    ring
  obtain ⟨h1, h2⟩ := units_sum k (fun a => steer wl (delay (idx a) - delay (real a))) fun a => steer_unit _ _
  rw [e, mul_left_inj' hx'.ne']
  exact ⟨mul_le_mul_of_nonneg_right h1 hx'.le, h2⟩

/-- Two mini-arrays, numbers 1 and 2 of the station, taken for numbers 0 and 1, half a wavelength apart. -/
example : ∃ (delay : Nat → ℝ) (real : Nat → Nat), real 0 = 1 ∧ real 1 = 2 ∧
    steer 1 (delay 0 - delay (real 0)) ≠ steer 1 (delay 1 - delay (real 1)) := by
  refine ⟨fun n => if n = 2 then 1 / 2 else 0, fun a => a + 1, rfl, rfl, ?_⟩
  have h0 : steer 1 (0 - 0) = 1 := by unfold steer; simp
  have h1 : steer 1 (0 - 1 / 2) = -1 := by
    unfold steer
    rw [show (-2 * Complex.I * (Real.pi : ℂ) / ((1 : ℝ) : ℂ) * (((0 - 1 / 2 : ℝ)) : ℂ)) = Real.pi * Complex.I by push_cast; ring, Complex.exp_pi_mul_I]
  show steer 1 (0 - 0) ≠ steer 1 (0 - 1 / 2)
  rw [h0, h1]
  norm_num

end Verif.IO
