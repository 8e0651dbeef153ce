import Verif.Geom.Horizon
import Verif.Geom.PropsAltaz
import Mathlib.Analysis.SpecialFunctions.Trigonometric.Angle

/-!
# Fast conversions between the sky and the horizon (property C162)
-/

namespace Verif.Geom

open Real

/-! ## Specification -/

/-- Right ascension (or azimuth) in `[0, 2π)` and declination (or elevation) strictly between the poles. -/
def Proper (p : ℝ × ℝ) : Prop := 0 ≤ p.1 ∧ p.1 < 2 * π ∧ -(π / 2) < p.2 ∧ p.2 < π / 2

/-! ## Angles -/

theorem oneTurn_mod (x : ℝ) : ∃ k : ℤ, oneTurn x = x - k * (2 * π) := ⟨_, rfl⟩

theorem oneTurn_unique (x y : ℝ) (k : ℤ) (h : x = y + k * (2 * π)) (h0 : 0 ≤ y) (h1 : y < 2 * π) : oneTurn x = y := by
  have hp : 0 < 2 * π := by positivity
  have e : ⌊x / (2 * π)⌋ = k := by
    rw [Int.floor_eq_iff, le_div_iff₀ hp, div_lt_iff₀ hp]
    constructor <;> nlinarith
  unfold oneTurn
  rw [e, h]
  ring

theorem same_angle {x y : ℝ} (hc : cos x = cos y) (hs : sin x = sin y) : ∃ k : ℤ, x = y + k * (2 * π) := by
  have h := Real.Angle.cos_sin_inj hc hs
  obtain ⟨k, hk⟩ := Real.Angle.angle_eq_iff_two_pi_dvd_sub.1 h
  exact ⟨k, by linarith⟩

theorem oneTurn_cos (x : ℝ) : cos (oneTurn x) = cos x := by
  unfold oneTurn; rw [cos_sub_int_mul_two_pi]

theorem oneTurn_sin (x : ℝ) : sin (oneTurn x) = sin x := by
  unfold oneTurn; rw [sin_sub_int_mul_two_pi]

theorem toAltaz_congr (lat dec : ℝ) {h k : ℝ} (hc : cos h = cos k) (hs : sin h = sin k) : toAltaz lat dec h = toAltaz lat dec k := by
  unfold toAltaz sinEl
  simp only [hc, hs]

/-- **C162** (in part): from the sky to the horizon and back, one has the position moved to the equinox of the time. -/
theorem fast_back_partial (lat lst : ℝ) (hl : 0 < cos lat) (ofDate : ℝ × ℝ → ℝ × ℝ) (p : ℝ × ℝ) (hp : Proper (ofDate p))
    (hz : sinEl lat (ofDate p).2 (lst - (ofDate p).1) ^ 2 ≠ 1) :
    fastRadec lat lst (fastAltaz lat lst ofDate p) = ofDate p := by
  obtain ⟨h0, h1, h2, h3⟩ := hp
  have e : fastAltaz lat lst ofDate p = toAltaz lat (ofDate p).2 (lst - (ofDate p).1) :=
    toAltaz_congr lat _ (oneTurn_cos _) (oneTurn_sin _)
  rw [e]
  obtain ⟨r1, r2, r3⟩ := altaz_round_trip lat (ofDate p).2 (lst - (ofDate p).1) hl h2 h3 hz
  obtain ⟨k, hk⟩ := same_angle r2 r3
  unfold fastRadec
  rw [r1, hk]
  have : oneTurn (lst - (lst - (ofDate p).1 + k * (2 * π))) = (ofDate p).1 :=
    oneTurn_unique _ _ (-k) (by push_cast; ring) h0 h1
  rw [this]

/-- **C162** (violated): so one never comes back to a position which the change of equinox moves. -/
theorem fast_back_violated (lat lst : ℝ) (hl : 0 < cos lat) (ofDate : ℝ × ℝ → ℝ × ℝ) (p : ℝ × ℝ) (hp : Proper (ofDate p))
    (hz : sinEl lat (ofDate p).2 (lst - (ofDate p).1) ^ 2 ≠ 1) :
    fastRadec lat lst (fastAltaz lat lst ofDate p) = p ↔ ofDate p = p := by
  rw [fast_back_partial lat lst hl ofDate p hp hz]

/-- **C162** (in part): from the horizon to the sky and back, the direction is the same if the change of equinox does not move the sky position. -/
theorem fast_forth_partial (lat lst : ℝ) (hl : 0 < cos lat) (ofDate : ℝ × ℝ → ℝ × ℝ) (q : ℝ × ℝ) (hq : Proper q) (hz : sinEl lat q.2 q.1 ^ 2 ≠ 1)
    (hd : ofDate (fastRadec lat lst q) = fastRadec lat lst q) :
    (fastAltaz lat lst ofDate (fastRadec lat lst q)).2 = q.2 ∧ ∃ k : ℤ, (fastAltaz lat lst ofDate (fastRadec lat lst q)).1 = q.1 + k * (2 * π) := by
  obtain ⟨_, _, h2, h3⟩ := hq
  have e : fastAltaz lat lst ofDate (fastRadec lat lst q) = toAltaz lat (toHadec lat q.1 q.2).2 (toHadec lat q.1 q.2).1 := by
    unfold fastAltaz
    rw [hd]
    obtain ⟨k, hk⟩ := oneTurn_mod (lst - (toHadec lat q.1 q.2).1)
    refine toAltaz_congr lat _ ?_ ?_
    · rw [oneTurn_cos]
      show cos (lst - oneTurn (lst - (toHadec lat q.1 q.2).1)) = _
      rw [hk, show lst - (lst - (toHadec lat q.1 q.2).1 - k * (2 * π)) = (toHadec lat q.1 q.2).1 + k * (2 * π) by ring, cos_add_int_mul_two_pi]
    · rw [oneTurn_sin]
      show sin (lst - oneTurn (lst - (toHadec lat q.1 q.2).1)) = _
      rw [hk, show lst - (lst - (toHadec lat q.1 q.2).1 - k * (2 * π)) = (toHadec lat q.1 q.2).1 + k * (2 * π) by ring, sin_add_int_mul_two_pi]
  rw [e]
  obtain ⟨r1, r2, r3⟩ := hadec_round_trip lat q.1 q.2 hl h2 h3 hz
  exact ⟨r1, same_angle r2 r3⟩

/-- **C162** (violated): for every position which the change of equinox moves, there is a time at which one does not come back to it. -/
theorem fast_moved_violated (lat : ℝ) (hl : 0 < cos lat) (ofDate : ℝ × ℝ → ℝ × ℝ) (p : ℝ × ℝ) (hp : Proper (ofDate p)) (hm : ofDate p ≠ p) :
    ∃ lst, fastRadec lat lst (fastAltaz lat lst ofDate p) ≠ p := by
  obtain ⟨h0, h1, h2, h3⟩ := hp
  -- a sidereal time at which the position is not at the zenith: six hours from the meridian
  refine ⟨(ofDate p).1 + π / 2, fun h => hm ((fast_back_violated lat _ hl ofDate p ⟨h0, h1, h2, h3⟩ ?_).1 h)⟩
  unfold sinEl
  rw [show (ofDate p).1 + π / 2 - (ofDate p).1 = π / 2 by ring, cos_pi_div_two, mul_zero, add_zero, mul_pow]
  have a1 := sin_sq_add_cos_sq lat
  have a2 := sin_sq_add_cos_sq (ofDate p).2
  have a3 : 0 < cos (ofDate p).2 := cos_pos_of_mem_Ioo ⟨h2, h3⟩
  intro h
  nlinarith [sq_nonneg (sin lat), sq_nonneg (sin (ofDate p).2), mul_pos hl hl, mul_pos a3 a3]

/-- A position and a time which meet the hypotheses. -/
example : 0 < cos (π / 4) ∧ Proper (1, 0) ∧ sinEl (π / 4) 0 (1 - 1) ^ 2 ≠ 1 := by
  refine ⟨by rw [cos_pi_div_four]; positivity, ⟨by norm_num, by show (1 : ℝ) < 2 * π; linarith [two_le_pi], by show -(π / 2) < (0 : ℝ); linarith [pi_pos], by show (0 : ℝ) < π / 2; positivity⟩, ?_⟩
  unfold sinEl
  rw [sub_self, sin_zero, cos_zero, cos_pi_div_four, zero_mul, zero_add, one_mul, mul_one, div_pow, sq_sqrt (by norm_num)]
  norm_num

end Verif.Geom
