import Verif.Geom.Model
import Mathlib.Tactic.Ring
import Mathlib.Tactic.LinearCombination
import Mathlib.Tactic.FieldSimp
import Mathlib.Tactic.Positivity

/-!
# Horizontal coordinates: properties C61 and C62
-/

namespace Verif.Geom

open Real

/-! ## C61 Fast transforms -/

/-- East component of a direction of declination `dec` and hour angle `h` (positive towards west). -/
noncomputable def westOf (dec h : ℝ) : ℝ := cos dec * sin h

/-- North component. -/
noncomputable def northOf (lat dec h : ℝ) : ℝ := sin dec * cos lat - cos dec * sin lat * cos h

theorem comp_sum (lat dec h : ℝ) : westOf dec h ^ 2 + northOf lat dec h ^ 2 + sinEl lat dec h ^ 2 = 1 := by
  have a := sin_sq_add_cos_sq dec
  have b := sin_sq_add_cos_sq lat
  have c := sin_sq_add_cos_sq h
  unfold westOf northOf sinEl
  linear_combination a + (sin dec ^ 2 + cos dec ^ 2 * cos h ^ 2) * b + cos dec ^ 2 * c

theorem sinEl_range (lat dec h : ℝ) : -1 ≤ sinEl lat dec h ∧ sinEl lat dec h ≤ 1 := by
  have := comp_sum lat dec h
  constructor <;> nlinarith [sq_nonneg (westOf dec h), sq_nonneg (northOf lat dec h), sq_nonneg (sinEl lat dec h - 1), sq_nonneg (sinEl lat dec h + 1)]

/-- Away from zenith and nadir, the azimuth and elevation computed are those of the direction: elevation has the expected sine, and azimuth the expected sine and cosine. -/
theorem toAltaz_exact (lat dec h : ℝ) (hl : 0 < cos lat) (hd : 0 < cos dec) (hz : sinEl lat dec h ^ 2 ≠ 1) :
    0 < cos (toAltaz lat dec h).2 ∧ sin (toAltaz lat dec h).2 = sinEl lat dec h ∧
    cos (toAltaz lat dec h).2 * cos (toAltaz lat dec h).1 = northOf lat dec h ∧ cos (toAltaz lat dec h).2 * sin (toAltaz lat dec h).1 = - westOf dec h := by
  obtain ⟨h1, h2⟩ := sinEl_range lat dec h
  have hsum := comp_sum lat dec h
  have hs : sin (arcsin (sinEl lat dec h)) = sinEl lat dec h := sin_arcsin h1 h2
  have hc0 : 0 < 1 - sinEl lat dec h ^ 2 := by
    rcases lt_or_eq_of_le (show sinEl lat dec h ^ 2 ≤ 1 by nlinarith) with h | h
    · linarith
    · exact absurd h hz
  have hc : cos (arcsin (sinEl lat dec h)) = √(1 - sinEl lat dec h ^ 2) := cos_arcsin _
  have hcp : 0 < cos (arcsin (sinEl lat dec h)) := by rw [hc]; exact sqrt_pos.mpr hc0
  have hc2 : cos (arcsin (sinEl lat dec h)) ^ 2 = 1 - sinEl lat dec h ^ 2 := by rw [hc, sq_sqrt hc0.le]
  set C := cos (arcsin (sinEl lat dec h)) with hC
  have hnum : sin dec - sinEl lat dec h * sin lat = cos lat * northOf lat dec h := by
    unfold sinEl northOf
    linear_combination (-sin dec) * sin_sq_add_cos_sq lat
  have harg : (sin dec - sin (arcsin (sinEl lat dec h)) * sin lat) / (C * cos lat) = northOf lat dec h / C := by
    rw [hs, hnum]; field_simp
  have hN : northOf lat dec h ^ 2 ≤ C ^ 2 := by rw [hc2]; nlinarith [sq_nonneg (westOf dec h)]
  have habs : |northOf lat dec h| ≤ C := by
    rw [← abs_of_pos hcp]; exact sq_le_sq.mp hN
  have hr1 : -1 ≤ northOf lat dec h / C := by rw [le_div_iff₀ hcp]; linarith [neg_abs_le (northOf lat dec h)]
  have hr2 : northOf lat dec h / C ≤ 1 := by rw [div_le_one hcp]; linarith [le_abs_self (northOf lat dec h)]
  have hcos : cos (arccos (northOf lat dec h / C)) = northOf lat dec h / C := cos_arccos hr1 hr2
  have hsin : sin (arccos (northOf lat dec h / C)) = |westOf dec h| / C := by
    rw [sin_arccos]
    have : 1 - (northOf lat dec h / C) ^ 2 = (westOf dec h / C) ^ 2 := by
      field_simp
      rw [hc2]; linarith
    rw [this, sqrt_sq_eq_abs, abs_div, abs_of_pos hcp]
  have hpos : 0 < sin h ↔ 0 < westOf dec h := by
    unfold westOf; exact (mul_pos_iff_of_pos_left hd).symm
  unfold toAltaz
  simp only
  rw [← hC, harg]
  refine ⟨hcp, hs, ?_, ?_⟩
  · split
    · rw [cos_two_pi_sub, hcos]; field_simp
    · rw [hcos]; field_simp
  · split
    · rename_i hp
      rw [sin_two_pi_sub, hsin, abs_of_pos (hpos.mp hp)]; field_simp
    · rename_i hp
      rw [hsin, abs_of_nonpos (not_lt.mp fun hh => hp (hpos.mpr hh))]; field_simp

/-- Azimuth is in `[0, 2π)` and elevation in `[-π/2, π/2]`. -/
theorem toAltaz_range (lat dec h : ℝ) (hl : 0 < cos lat) (hd : 0 < cos dec) (hz : sinEl lat dec h ^ 2 ≠ 1) :
    0 ≤ (toAltaz lat dec h).1 ∧ (toAltaz lat dec h).1 < 2 * π ∧ -(π / 2) ≤ (toAltaz lat dec h).2 ∧ (toAltaz lat dec h).2 ≤ π / 2 := by
  obtain ⟨e1, -, -, e4⟩ := toAltaz_exact lat dec h hl hd hz
  refine ⟨?_, ?_, neg_pi_div_two_le_arcsin _, arcsin_le_pi_div_two _⟩
  · unfold toAltaz
    simp only
    have h1 := arccos_nonneg ((sin dec - sin (arcsin (sinEl lat dec h)) * sin lat) / (cos (arcsin (sinEl lat dec h)) * cos lat))
    have h2 := arccos_le_pi ((sin dec - sin (arcsin (sinEl lat dec h)) * sin lat) / (cos (arcsin (sinEl lat dec h)) * cos lat))
    split <;> linarith [pi_pos]
  · have hne : (toAltaz lat dec h).1 ≠ 2 * π ∨ ¬ 0 < sin h := by
      by_contra hc
      push Not at hc
      rw [hc.1, sin_two_pi, mul_zero] at e4
      have : 0 < westOf dec h := mul_pos hd hc.2
      linarith
    unfold toAltaz at hne ⊢
    simp only at hne ⊢
    have h1 := arccos_nonneg ((sin dec - sin (arcsin (sinEl lat dec h)) * sin lat) / (cos (arcsin (sinEl lat dec h)) * cos lat))
    have h2 := arccos_le_pi ((sin dec - sin (arcsin (sinEl lat dec h)) * sin lat) / (cos (arcsin (sinEl lat dec h)) * cos lat))
    by_cases hp : 0 < sin h
    · rw [if_pos hp] at hne ⊢
      rcases hne with hne | hne
      · rcases lt_or_eq_of_le h1 with h | h
        · linarith
        · exact absurd (by rw [← h]; ring) hne
      · exact absurd hp hne
    · rw [if_neg hp]; linarith [pi_pos]

/-- The two transforms are given by the same formulas. -/
theorem toHadec_eq (lat az el : ℝ) : toHadec lat az el = toAltaz lat el az := by
  unfold toHadec toAltaz
  have e : sin lat * sin el + cos lat * cos el * cos az = sinEl lat el az := by unfold sinEl; ring
  obtain ⟨h1, h2⟩ := sinEl_range lat el az
  simp only
  rw [e, sin_arcsin h1 h2]
  rw [mul_comm (sin lat) (sinEl lat el az), mul_comm (cos lat) (cos (arcsin (sinEl lat el az)))]

/-- Converting a direction to horizontal coordinates and back gives the same declination, and the same hour angle up to whole turns. The direction is not at the zenith or nadir (where azimuth is not defined and
the code divides by zero), the declination and latitude are not those of the poles. -/
theorem altaz_round_trip (lat dec h : ℝ) (hl : 0 < cos lat) (hd1 : -(π / 2) < dec) (hd2 : dec < π / 2) (hz : sinEl lat dec h ^ 2 ≠ 1) :
    (toHadec lat (toAltaz lat dec h).1 (toAltaz lat dec h).2).2 = dec ∧
    cos (toHadec lat (toAltaz lat dec h).1 (toAltaz lat dec h).2).1 = cos h ∧ sin (toHadec lat (toAltaz lat dec h).1 (toAltaz lat dec h).2).1 = sin h := by
  have hd : 0 < cos dec := cos_pos_of_mem_Ioo ⟨hd1, hd2⟩
  obtain ⟨e1, e2, e3, e4⟩ := toAltaz_exact lat dec h hl hd hz
  set A := (toAltaz lat dec h).1
  set E := (toAltaz lat dec h).2
  have hsd : sin lat * sin E + cos lat * cos E * cos A = sin dec := by
    rw [mul_assoc, e3, e2]
    unfold sinEl northOf
    linear_combination (sin dec) * sin_sq_add_cos_sq lat
  have hdec : arcsin (sin dec) = dec := arcsin_sin hd1.le hd2.le
  have harg : (sin E - sin lat * sin dec) / (cos lat * cos dec) = cos h := by
    rw [e2]
    unfold sinEl
    field_simp
    ring
  have hsin : sin (arccos (cos h)) = |sin h| := by
    rw [sin_arccos, ← sin_sq_eq_one_sub_cos_sq_aux h, sqrt_sq_eq_abs]
  have hcos : cos (arccos (cos h)) = cos h := cos_arccos (neg_one_le_cos h) (cos_le_one h)
  have hA : 0 < sin A ↔ sin h < 0 := by
    constructor
    · intro hp
      have : 0 < cos E * sin A := mul_pos e1 hp
      rw [e4] at this
      by_contra hc
      have : 0 ≤ westOf dec h := mul_nonneg hd.le (not_lt.mp hc)
      linarith
    · intro hp
      have : westOf dec h < 0 := mul_neg_of_pos_of_neg hd hp
      have h5 : 0 < cos E * sin A := by rw [e4]; linarith
      exact (mul_pos_iff_of_pos_left e1).mp h5
  unfold toHadec
  simp only
  rw [hsd, hdec, harg]
  refine ⟨rfl, ?_, ?_⟩
  · split
    · rw [cos_two_pi_sub, hcos]
    · exact hcos
  · split
    · rename_i hp
      rw [sin_two_pi_sub, hsin, abs_of_neg (hA.mp hp)]; ring
    · rename_i hp
      rw [hsin, abs_of_nonneg (not_lt.mp fun hh => hp (hA.mpr hh))]
where
  sin_sq_eq_one_sub_cos_sq_aux (h : ℝ) : sin h ^ 2 = 1 - cos h ^ 2 := by linarith [sin_sq_add_cos_sq h]

/-- The other way round: from horizontal coordinates to hour angle and declination and back. The direction is not at a celestial pole. -/
theorem hadec_round_trip (lat az el : ℝ) (hl : 0 < cos lat) (hd1 : -(π / 2) < el) (hd2 : el < π / 2) (hz : sinEl lat el az ^ 2 ≠ 1) :
    (toAltaz lat (toHadec lat az el).2 (toHadec lat az el).1).2 = el ∧
    cos (toAltaz lat (toHadec lat az el).2 (toHadec lat az el).1).1 = cos az ∧ sin (toAltaz lat (toHadec lat az el).2 (toHadec lat az el).1).1 = sin az := by
  have e1 := toHadec_eq lat az el
  have e2 := toHadec_eq lat (toAltaz lat el az).1 (toAltaz lat el az).2
  rw [e1, ← e2]
  exact altaz_round_trip lat el az hl hd1 hd2 hz

/-- A direction that meets the hypotheses. -/
example : 0 < cos (π / 4) ∧ sinEl (π / 4) 0 0 ^ 2 ≠ 1 := by
  refine ⟨by rw [cos_pi_div_four]; positivity, ?_⟩
  unfold sinEl
  rw [sin_zero, cos_zero, cos_pi_div_four, zero_mul, zero_add, one_mul, mul_one, div_pow, sq_sqrt (by norm_num)]
  norm_num

/-! ## C62 Extremal elevations -/

/-- Elevation at hour angle `h`. -/
noncomputable def elevation (lat dec h : ℝ) : ℝ := arcsin (sinEl lat dec h)

theorem arcsin_cos_abs (x : ℝ) (h : |x| ≤ π) : arcsin (cos x) = π / 2 - |x| := by
  rw [← cos_abs, ← sin_pi_div_two_sub]
  exact arcsin_sin (by linarith) (by linarith [abs_nonneg x])

theorem elevationMax_eq (lat dec : ℝ) : elevationMax lat dec = π / 2 - |lat - dec| := by
  unfold elevationMax
  simp only
  split
  · rename_i h
    rw [abs_of_nonpos (by linarith)]; ring
  · rename_i h
    rw [abs_of_nonneg (by linarith)]; ring

theorem elevationMin_eq (lat dec : ℝ) : elevationMin lat dec = |lat + dec| - π / 2 := by
  unfold elevationMin
  simp only
  split
  · rename_i h
    rw [abs_of_nonpos (by linarith)]; ring
  · rename_i h
    rw [abs_of_nonneg (by linarith)]; ring

/-- The two values are the extremes over all hour angles, and are reached. -/
theorem elevation_extremes (lat dec : ℝ) (hl : |lat| ≤ π / 2) (hd : |dec| ≤ π / 2) :
    (∀ h, elevationMin lat dec ≤ elevation lat dec h ∧ elevation lat dec h ≤ elevationMax lat dec) ∧
    elevation lat dec 0 = elevationMax lat dec ∧ elevation lat dec π = elevationMin lat dec := by
  have hp := pi_pos
  have hcl : 0 ≤ cos lat := cos_nonneg_of_neg_pi_div_two_le_of_le (by linarith [neg_abs_le lat]) (by linarith [le_abs_self lat])
  have hcd : 0 ≤ cos dec := cos_nonneg_of_neg_pi_div_two_le_of_le (by linarith [neg_abs_le dec]) (by linarith [le_abs_self dec])
  have hmax : elevation lat dec 0 = elevationMax lat dec := by
    rw [elevationMax_eq]
    unfold elevation sinEl
    rw [cos_zero, mul_one, show sin dec * sin lat + cos dec * cos lat = cos (lat - dec) by rw [cos_sub]; ring]
    exact arcsin_cos_abs _ ((abs_sub lat dec).trans (by linarith))
  have hmin : elevation lat dec π = elevationMin lat dec := by
    rw [elevationMin_eq]
    unfold elevation sinEl
    rw [cos_pi, show sin dec * sin lat + cos dec * cos lat * -1 = - cos (lat + dec) by rw [cos_add]; ring, arcsin_neg,
      arcsin_cos_abs _ ((abs_add_le lat dec).trans (by linarith))]
    ring
  refine ⟨fun h => ⟨?_, ?_⟩, hmax, hmin⟩
  · rw [← hmin]
    apply monotone_arcsin
    unfold sinEl
    rw [cos_pi]
    nlinarith [mul_nonneg hcd hcl, neg_one_le_cos h]
  · rw [← hmax]
    apply monotone_arcsin
    unfold sinEl
    rw [cos_zero]
    nlinarith [mul_nonneg hcd hcl, cos_le_one h]

/-- For an observer of the northern hemisphere, circumpolar objects are exactly those that never go below the horizon. -/
theorem circumpolar_partial (lat dec : ℝ) (hl0 : 0 < lat) (hl : lat ≤ π / 2) (hd : |dec| ≤ π / 2) : circumpolar lat dec ↔ ∀ h, 0 ≤ elevation lat dec h := by
  have hlat : |lat| ≤ π / 2 := by rw [abs_of_pos hl0]; exact hl
  obtain ⟨h1, -, h3⟩ := elevation_extremes lat dec hlat hd
  rw [elevationMin_eq] at h3
  have hd' := abs_le.mp hd
  unfold circumpolar
  constructor
  · intro hc h
    have := (h1 h).1
    rw [elevationMin_eq] at this
    have : lat + dec ≤ |lat + dec| := le_abs_self _
    linarith
  · intro hall
    have h := hall π
    rw [h3] at h
    rcases abs_cases (lat + dec) with ⟨e, -⟩ | ⟨e, -⟩
    · linarith
    · rw [e] at h; linarith [hd'.1]

/-- **C62** (violated): in the southern hemisphere no object which never sets is said to be circumpolar. -/
theorem circumpolar_south_violated (lat dec : ℝ) (hl0 : lat < 0) (hl : -(π / 2) ≤ lat) (hd : |dec| ≤ π / 2) (hn : ∀ h, 0 ≤ elevation lat dec h) :
    ¬ circumpolar lat dec := by
  have hp := pi_pos
  have hlat : |lat| ≤ π / 2 := by rw [abs_of_neg hl0]; linarith
  obtain ⟨-, -, h3⟩ := elevation_extremes lat dec hlat hd
  rw [elevationMin_eq] at h3
  have h := hn π
  rw [h3] at h
  have hd' := abs_le.mp hd
  unfold circumpolar
  intro hc
  linarith

/-- There are such objects: latitude and declination of -60 degrees. -/
example : ∀ h, 0 ≤ elevation (-(π / 3)) (-(π / 3)) h := by
  have hp := pi_pos
  intro h
  have hb : |(-(π / 3) : ℝ)| ≤ π / 2 := by rw [abs_neg, abs_of_pos (by positivity)]; linarith
  have := ((elevation_extremes (-(π / 3)) (-(π / 3)) hb hb).1 h).1
  rw [elevationMin_eq, abs_of_nonpos (by linarith)] at this
  linarith

/-- The azimuth of the upper culmination is 0 when the declination is larger than the latitude and π when it is smaller. -/
theorem culmination_true (lat dec : ℝ) (hl : |lat| < π / 2) (hd : |dec| < π / 2) :
    (lat < dec → (toAltaz lat dec 0).1 = 0) ∧ (dec < lat → (toAltaz lat dec 0).1 = π) := by
  obtain ⟨l1, l2⟩ := abs_lt.mp hl
  obtain ⟨d1, d2⟩ := abs_lt.mp hd
  have hcl : 0 < cos lat := cos_pos_of_mem_Ioo ⟨l1, l2⟩
  have hcd : 0 < cos dec := cos_pos_of_mem_Ioo ⟨d1, d2⟩
  have hE : sinEl lat dec 0 = cos (lat - dec) := by unfold sinEl; rw [cos_zero, cos_sub]; ring
  have hN : northOf lat dec 0 = sin (dec - lat) := by unfold northOf; rw [cos_zero, sin_sub]; ring
  have key : dec ≠ lat → sinEl lat dec 0 ^ 2 ≠ 1 := by
    intro hne hc
    rw [hE] at hc
    have h0 : sin (lat - dec) = 0 := by
      have := sin_sq_add_cos_sq (lat - dec)
      have : sin (lat - dec) ^ 2 = 0 := by linarith
      exact pow_eq_zero_iff (two_ne_zero) |>.mp this
    have := (sin_eq_zero_iff_of_lt_of_lt (by linarith) (by linarith)).mp h0
    exact hne (by linarith)
  have hrange : 0 ≤ (toAltaz lat dec 0).1 ∧ (toAltaz lat dec 0).1 ≤ π := by
    unfold toAltaz
    simp only [sin_zero, lt_irrefl, if_false]
    exact ⟨arccos_nonneg _, arccos_le_pi _⟩
  constructor
  · intro h
    obtain ⟨e1, -, e3, e4⟩ := toAltaz_exact lat dec 0 hcl hcd (key h.ne')
    have hs : sin (toAltaz lat dec 0).1 = 0 := by
      have : cos (toAltaz lat dec 0).2 * sin (toAltaz lat dec 0).1 = 0 := by rw [e4]; unfold westOf; rw [sin_zero]; ring
      exact (mul_eq_zero.mp this).resolve_left e1.ne'
    obtain ⟨r1, r2⟩ := hrange
    rcases lt_or_eq_of_le r2 with h2 | h2
    · exact (sin_eq_zero_iff_of_lt_of_lt (by linarith [pi_pos]) h2).mp hs
    · rw [h2, cos_pi, hN] at e3
      have := sin_pos_of_pos_of_lt_pi (show 0 < dec - lat by linarith) (by linarith)
      linarith
  · intro h
    obtain ⟨e1, -, e3, e4⟩ := toAltaz_exact lat dec 0 hcl hcd (key h.ne)
    have hs : sin (toAltaz lat dec 0).1 = 0 := by
      have : cos (toAltaz lat dec 0).2 * sin (toAltaz lat dec 0).1 = 0 := by rw [e4]; unfold westOf; rw [sin_zero]; ring
      exact (mul_eq_zero.mp this).resolve_left e1.ne'
    obtain ⟨r1, r2⟩ := hrange
    rcases lt_or_eq_of_le r2 with h2 | h2
    · have h0 := (sin_eq_zero_iff_of_lt_of_lt (by linarith [pi_pos]) h2).mp hs
      rw [h0, cos_zero, hN] at e3
      have := sin_neg_of_neg_of_neg_pi_lt (show dec - lat < 0 by linarith) (by linarith)
      linarith
    · exact h2

/-- `culmination_azimuth` is right for objects that are circumpolar and north of the zenith, or neither. -/
theorem culmination_partial (lat dec : ℝ) (hl : |lat| < π / 2) (hd : |dec| < π / 2) (h : (circumpolar lat dec ∧ lat < dec) ∨ (¬ circumpolar lat dec ∧ dec < lat)) :
    culminationAzimuth lat dec = (toAltaz lat dec 0).1 := by
  obtain ⟨h1, h2⟩ := culmination_true lat dec hl hd
  unfold culminationAzimuth
  rcases h with ⟨hc, hlt⟩ | ⟨hc, hlt⟩
  · rw [if_neg (not_not.mpr hc), h1 hlt]
  · rw [if_pos hc, h2 hlt]

/-- **C62** (violated): it is wrong for all the circumpolar objects that culminate south of the zenith, and for all the objects that set but culminate
north of it: it gives the opposite azimuth. -/
theorem culmination_violated (lat dec : ℝ) (hl : |lat| < π / 2) (hd : |dec| < π / 2) :
    (circumpolar lat dec → dec < lat → culminationAzimuth lat dec = 0 ∧ (toAltaz lat dec 0).1 = π) ∧
    (¬ circumpolar lat dec → lat < dec → culminationAzimuth lat dec = π ∧ (toAltaz lat dec 0).1 = 0) := by
  obtain ⟨h1, h2⟩ := culmination_true lat dec hl hd
  unfold culminationAzimuth
  exact ⟨fun hc h => ⟨if_neg (not_not.mpr hc), h2 h⟩, fun hc h => ⟨if_pos hc, h1 h⟩⟩

/-- There are such objects: latitude 60 and declination 45 degrees, latitude 30 and declination 45 degrees. -/
example : circumpolar (π / 3) (π / 4) ∧ π / 4 < π / 3 ∧ ¬ circumpolar (π / 6) (π / 4) ∧ π / 6 < π / 4 := by
  have hp := pi_pos
  unfold circumpolar
  refine ⟨?_, ?_, ?_, ?_⟩
  · linarith
  · linarith
  · push Not; linarith
  · linarith

end Verif.Geom
