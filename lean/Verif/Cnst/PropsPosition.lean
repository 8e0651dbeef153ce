import Verif.Cnst.Position
import Verif.Cnst.PropsSidereal
import Verif.Geom.PropsAltaz
import Verif.Geom.PropsSite

/-!
# C166: positions of the targets of a schedule
-/

namespace Verif.Cnst

open Real Verif.Geom

/-! ## Specification -/

/-- North on the horizon, in the frame of the equator and the meridian. -/
noncomputable def northDir (lat : ℝ) : V3 := ⟨-sin lat, 0, cos lat⟩

/-- East on the horizon. -/
def eastDir : V3 := ⟨0, 1, 0⟩

/-- `az` and `el` are, in degrees, the azimuth (from north to east) and the elevation at latitude `lat` of the
direction of declination `dec` and hour angle `h`. -/
def SeenAt (lat dec h az el : ℝ) : Prop :=
  sin (rad el) = dot (srcDir dec h) (zenithDir lat)
    ∧ cos (rad el) * cos (rad az) = dot (srcDir dec h) (northDir lat)
    ∧ cos (rad el) * sin (rad az) = dot (srcDir dec h) eastDir
    ∧ 0 ≤ cos (rad el)

/-! ## Values -/

theorem rad_degOf (x : ℝ) : rad (degOf x) = x := by
  unfold rad degOf
  have := pi_ne_zero
  field_simp

theorem rad_lt {x y : ℝ} (h : x < y) : rad x < rad y := by
  unfold rad
  have := pi_pos
  exact div_lt_div_of_pos_right (mul_lt_mul_of_pos_right h this) (by norm_num)

theorem rad_180 (x : ℝ) : rad x = x * (π / 180) := by unfold rad; ring

/-- The computed elevation and azimuth are those of the fast conversions (C61), in degrees. -/
theorem position_altaz (lat dec ha : ℚ) :
    elevationDeg lat dec ha = degOf (toAltaz (rad lat) (rad dec) (rad ha)).2
      ∧ azimuthDeg lat dec ha = degOf (toAltaz (rad lat) (rad dec) (rad ha)).1 := by
  have e : elevationDeg lat dec ha = degOf (arcsin (sinEl (rad lat) (rad dec) (rad ha))) := rfl
  refine ⟨e, ?_⟩
  unfold azimuthDeg rawAzimuth
  rw [e, rad_degOf]
  unfold toAltaz
  dsimp only
  congr 1
  by_cases h : 0 < sin (rad ha)
  · rw [if_pos h, if_pos h]; ring
  · rw [if_neg h, if_neg h]

theorem siteLat_rad : rad siteLat = (47376511 / 1000000 : ℝ) * (π / 180) := by
  rw [rad_180]
  unfold siteLat
  push_cast
  rfl

theorem site_pos : 0 < rad siteLat ∧ rad siteLat < π / 2 ∧ 0 < cos (rad siteLat) := by
  have hp := pi_pos
  have h1 : 0 < rad siteLat := by rw [siteLat_rad]; positivity
  have h2 : rad siteLat < π / 2 := by rw [siteLat_rad]; linarith
  exact ⟨h1, h2, cos_pos_of_mem_Ioo ⟨by linarith, h2⟩⟩

/-- The hour angle which is used and the difference of the true sidereal time and the right ascension are the
same up to whole turns. -/
theorem hour_turns (jd ra : ℚ) (h0 : 0 ≤ ra) (h1 : ra < 360) :
    sin (rad (hourAngleDeg (siderealDeg jd) ra)) = sin (rad (trueLst jd - ra : ℚ))
      ∧ cos (rad (hourAngleDeg (siderealDeg jd) ra)) = cos (rad (trueLst jd - ra : ℚ)) := by
  obtain ⟨-, -, k, hk⟩ := hour_angle_range jd ra h0 h1
  have e : rad ((hourAngleDeg (siderealDeg jd) ra : ℚ) : ℝ) = rad ((trueLst jd - ra : ℚ) : ℝ) + k * (2 * π) := by
    rw [hk]
    unfold rad
    push_cast
    ring
  rw [e]
  exact ⟨sin_add_int_mul_two_pi _ _, cos_add_int_mul_two_pi _ _⟩

/-- **C166** For each date, the elevation and the azimuth are those of the target at its coordinates of the date
and at the true hour angle, unless it is at a celestial pole, at the zenith or at the nadir. -/
theorem position_exact_partial (fk5 : ℚ → ℚ × ℚ) (jd : ℚ) (h0 : 0 ≤ (fk5 jd).1) (h1 : (fk5 jd).1 < 360)
    (hd : |(fk5 jd).2| < 90) (hz : elevationDeg siteLat (fk5 jd).2 (placeAt fk5 jd).hourAngle ≠ 90)
    (hn : elevationDeg siteLat (fk5 jd).2 (placeAt fk5 jd).hourAngle ≠ -90) :
    SeenAt (rad siteLat) (rad (fk5 jd).2) (rad (trueLst jd - (fk5 jd).1 : ℚ)) (placeAt fk5 jd).azimuth (placeAt fk5 jd).elevation
      ∧ 0 ≤ (placeAt fk5 jd).azimuth ∧ (placeAt fk5 jd).azimuth < 360
      ∧ -90 ≤ (placeAt fk5 jd).elevation ∧ (placeAt fk5 jd).elevation ≤ 90 := by
  have hp := pi_pos
  have hp0 := pi_ne_zero
  obtain ⟨l1, l2, l3⟩ := site_pos
  obtain ⟨ts, tc⟩ := hour_turns jd (fk5 jd).1 h0 h1
  obtain ⟨pe, pa⟩ := position_altaz siteLat (fk5 jd).2 (placeAt fk5 jd).hourAngle
  have hdr : |((fk5 jd).2 : ℝ)| < 90 := by exact_mod_cast hd
  obtain ⟨d1, d2⟩ := abs_lt.1 hdr
  have dd1 : -(π / 2) < rad (fk5 jd).2 := by rw [rad_180]; nlinarith
  have dd2 : rad (fk5 jd).2 < π / 2 := by rw [rad_180]; nlinarith
  have hcd : 0 < cos (rad (fk5 jd).2) := cos_pos_of_mem_Ioo ⟨dd1, dd2⟩
  have hsq : sinEl (rad siteLat) (rad (fk5 jd).2) (rad (placeAt fk5 jd).hourAngle) ^ 2 ≠ 1 := by
    intro hc
    rcases (sq_eq_sq_iff_eq_or_eq_neg.1 (hc.trans (one_pow 2).symm)) with h | h
    · apply hz
      rw [pe]
      show degOf (arcsin (sinEl _ _ _)) = 90
      rw [h, arcsin_one]
      unfold degOf
      field_simp
      norm_num
    · apply hn
      rw [pe]
      show degOf (arcsin (sinEl _ _ _)) = -90
      rw [h, arcsin_neg_one]
      unfold degOf
      field_simp
      norm_num
  obtain ⟨e1, e2, e3, e4⟩ := toAltaz_exact (rad siteLat) (rad (fk5 jd).2) (rad (placeAt fk5 jd).hourAngle) l3 hcd hsq
  obtain ⟨r1, r2, r3, r4⟩ := toAltaz_range (rad siteLat) (rad (fk5 jd).2) (rad (placeAt fk5 jd).hourAngle) l3 hcd hsq
  have ee : (placeAt fk5 jd).elevation = _ := pe
  have ea : (placeAt fk5 jd).azimuth = _ := pa
  rw [ee, ea]
  refine ⟨⟨?_, ?_, ?_, ?_⟩, ?_, ?_, ?_, ?_⟩
  · rw [rad_degOf, e2]
    show sin _ * sin _ + cos _ * cos _ * cos (rad (hourAngleDeg (siderealDeg jd) (fk5 jd).1 : ℚ)) = _
    rw [tc]
    unfold dot srcDir zenithDir
    ring
  · rw [rad_degOf, rad_degOf, e3]
    show sin _ * cos _ - cos _ * sin _ * cos (rad (hourAngleDeg (siderealDeg jd) (fk5 jd).1 : ℚ)) = _
    rw [tc]
    unfold dot srcDir northDir
    ring
  · rw [rad_degOf, rad_degOf, e4]
    show -(cos _ * sin (rad (hourAngleDeg (siderealDeg jd) (fk5 jd).1 : ℚ))) = _
    rw [ts]
    unfold dot srcDir eastDir
    ring
  · rw [rad_degOf]; exact e1.le
  · unfold degOf
    exact div_nonneg (by nlinarith) hp.le
  · unfold degOf
    rw [div_lt_iff₀ hp]
    nlinarith
  · unfold degOf
    rw [le_div_iff₀ hp]
    nlinarith
  · unfold degOf
    rw [div_le_iff₀ hp]
    nlinarith

/-- **C166** The elevation is right at the poles, the zenith and the nadir as well. -/
theorem elevation_exact (fk5 : ℚ → ℚ × ℚ) (jd : ℚ) (h0 : 0 ≤ (fk5 jd).1) (h1 : (fk5 jd).1 < 360) :
    sin (rad (placeAt fk5 jd).elevation) = dot (srcDir (rad (fk5 jd).2) (rad (trueLst jd - (fk5 jd).1 : ℚ))) (zenithDir (rad siteLat))
      ∧ -90 ≤ (placeAt fk5 jd).elevation ∧ (placeAt fk5 jd).elevation ≤ 90 := by
  have hp := pi_pos
  obtain ⟨-, tc⟩ := hour_turns jd (fk5 jd).1 h0 h1
  obtain ⟨s1, s2⟩ := sinEl_range (rad siteLat) (rad (fk5 jd).2) (rad (placeAt fk5 jd).hourAngle)
  have ee : (placeAt fk5 jd).elevation = degOf (arcsin (sinEl (rad siteLat) (rad (fk5 jd).2) (rad (placeAt fk5 jd).hourAngle))) := rfl
  rw [ee]
  refine ⟨?_, ?_, ?_⟩
  · rw [rad_degOf, sin_arcsin s1 s2]
    show sin _ * sin _ + cos _ * cos _ * cos (rad (hourAngleDeg (siderealDeg jd) (fk5 jd).1 : ℚ)) = _
    rw [tc]
    unfold dot srcDir zenithDir
    ring
  · unfold degOf
    rw [le_div_iff₀ hp]
    nlinarith [neg_pi_div_two_le_arcsin (sinEl (rad siteLat) (rad (fk5 jd).2) (rad (placeAt fk5 jd).hourAngle))]
  · unfold degOf
    rw [div_le_iff₀ hp]
    nlinarith [arcsin_le_pi_div_two (sinEl (rad siteLat) (rad (fk5 jd).2) (rad (placeAt fk5 jd).hourAngle))]

/-- **C166** (violated): at the north celestial pole the azimuth is 360 degrees during half of the day and 0 during the
other half, although the direction does not move. -/
theorem azimuth_pole_violated (ha : ℚ) :
    (0 < sin (rad ha) → azimuthDeg siteLat 90 ha = 360) ∧ (sin (rad ha) ≤ 0 → azimuthDeg siteLat 90 ha = 0) := by
  have hp := pi_pos
  have hp0 := pi_ne_zero
  obtain ⟨l1, l2, l3⟩ := site_pos
  have h90 : rad ((90 : ℚ) : ℝ) = π / 2 := by
    unfold rad
    push_cast
    ring
  have hel : elevationDeg siteLat 90 ha = degOf (rad siteLat) := by
    unfold elevationDeg
    rw [h90, sin_pi_div_two, cos_pi_div_two, one_mul, zero_mul, zero_mul, add_zero, arcsin_sin (by linarith) l2.le]
  have hraw : rawAzimuth siteLat 90 (elevationDeg siteLat 90 ha) = 0 := by
    unfold rawAzimuth
    rw [hel, rad_degOf, h90, sin_pi_div_two]
    have : (1 - sin (rad siteLat) * sin (rad siteLat)) / (cos (rad siteLat) * cos (rad siteLat)) = 1 := by
      rw [div_eq_one_iff_eq (mul_pos l3 l3).ne']
      linarith [sin_sq_add_cos_sq (rad siteLat)]
    rw [this, arccos_one]
  constructor
  · intro h
    unfold azimuthDeg
    rw [if_pos h, hraw]
    unfold degOf
    field_simp
    ring
  · intro h
    unfold azimuthDeg
    rw [if_neg (not_lt.2 h), hraw]
    unfold degOf
    ring

/-! ## Dates -/

/-- **C166** Positions for several dates: one for each date, in order, replacing those kept before. -/
theorem positions_many (isot : ℚ → ℚ) (fk5 : ℚ → ℚ × ℚ) (kept : Kept) (l : List ℚ) :
    ∃ p : List Placed, computePosition isot fk5 kept (.many l) = (.ok (), some p) ∧ p.length = l.length
      ∧ ∀ (i : Nat) (jd : ℚ), l[i]? = some jd → p[i]? = some (placeAt fk5 jd) := by
  refine ⟨l.map (placeAt fk5), rfl, List.length_map _, fun i jd h => ?_⟩
  rw [List.getElem?_map, h]
  rfl

/-- **C166** (violated): for one date two positions are kept, both for the date read back from its text. -/
theorem positions_scalar_violated (isot : ℚ → ℚ) (fk5 : ℚ → ℚ × ℚ) (kept : Kept) (jd : ℚ) :
    computePosition isot fk5 kept (.scalar jd) = (.ok (), some [placeAt fk5 (isot jd), placeAt fk5 (isot jd)]) := rfl

/-- **C166** What is not a date is refused, and what was kept stays. -/
theorem positions_refused (isot : ℚ → ℚ) (fk5 : ℚ → ℚ × ℚ) (kept : Kept) :
    computePosition isot fk5 kept .notTime = (.error .typeError, kept) := rfl

/-- **C166** Slicing a target and computing positions for the slice of the dates is the same; before any
computation a target cannot be sliced. -/
theorem slice_positions (isot : ℚ → ℚ) (fk5 : ℚ → ℚ × ℚ) (kept : Kept) (l : List ℚ) (lo hi : Int) :
    slicePlaced (computePosition isot fk5 kept (.many l)).2 lo hi
        = .ok (computePosition isot fk5 none (.many ((l.take (pyBound l.length hi)).drop (pyBound l.length lo)))).2
      ∧ slicePlaced none lo hi = .error .typeError := by
  refine ⟨?_, rfl⟩
  show Except.ok (some (((l.map (placeAt fk5)).take (pyBound (l.map (placeAt fk5)).length hi)).drop (pyBound (l.map (placeAt fk5)).length lo))) =
    Except.ok (some (((l.take (pyBound l.length hi)).drop (pyBound l.length lo)).map (placeAt fk5)))
  rw [List.length_map, List.map_drop, List.map_take]

/-! ## Circumpolar targets and days -/

theorem elevation_deg (lat dec ha : ℚ) : elevationDeg lat dec ha = degOf (Geom.elevation (rad lat) (rad dec) (rad ha)) := rfl

/-- **C166** A target which is circumpolar with its declination of the date is above the horizon at this date, by at least
the excess of declination. -/
theorem circumpolar_up_partial (fk5 : ℚ → ℚ × ℚ) (jd : ℚ) (hd : |(fk5 jd).2| ≤ 90) (hc : circumpolarDeg siteLat (fk5 jd).2 = true) :
    0 < (placeAt fk5 jd).elevation ∧ ((fk5 jd).2 + siteLat - 90 : ℝ) ≤ (placeAt fk5 jd).elevation := by
  have hp := pi_pos
  obtain ⟨l1, l2, -⟩ := site_pos
  have hc' : (90 : ℝ) < (fk5 jd).2 + siteLat := by
    have := of_decide_eq_true hc
    exact_mod_cast this
  have hdr : |((fk5 jd).2 : ℝ)| ≤ 90 := by exact_mod_cast hd
  obtain ⟨d1, d2⟩ := abs_le.1 hdr
  have hdd : |rad (fk5 jd).2| ≤ π / 2 := by
    rw [abs_le, rad_180]
    constructor <;> nlinarith
  have hlow := ((elevation_extremes (rad siteLat) (rad (fk5 jd).2) (by rw [abs_of_pos l1]; exact l2.le) hdd).1 (rad (placeAt fk5 jd).hourAngle)).1
  rw [elevationMin_eq] at hlow
  have habs := le_abs_self (rad siteLat + rad (fk5 jd).2)
  have ee : (placeAt fk5 jd).elevation = degOf (Geom.elevation (rad siteLat) (rad (fk5 jd).2) (rad (placeAt fk5 jd).hourAngle)) := rfl
  have key : ((fk5 jd).2 + siteLat - 90 : ℝ) ≤ (placeAt fk5 jd).elevation := by
    rw [ee]
    unfold degOf
    rw [le_div_iff₀ hp]
    have e1 : rad siteLat + rad (fk5 jd).2 = ((fk5 jd).2 + siteLat : ℝ) * (π / 180) := by rw [rad_180, rad_180]; ring
    rw [e1] at habs hlow
    nlinarith
  exact ⟨by linarith, key⟩

/-- **C166** (violated): the declination of the catalogue decides, not the one of the date. When they are on both sides of the
limit, a target said to be circumpolar is below the horizon at its lower culmination. -/
theorem circumpolar_date_violated (fk5 : ℚ → ℚ × ℚ) (jd catalogue : ℚ) (hcat : circumpolarDeg siteLat catalogue = true)
    (hd : |(fk5 jd).2| ≤ 90) (hlow : -siteLat ≤ (fk5 jd).2) (hdate : (fk5 jd).2 + siteLat < 90) (hlc : (placeAt fk5 jd).hourAngle = 180) :
    circumpolarDeg siteLat catalogue = true ∧ (placeAt fk5 jd).elevation < 0 := by
  have hp := pi_pos
  obtain ⟨l1, l2, -⟩ := site_pos
  refine ⟨hcat, ?_⟩
  have hdr : |((fk5 jd).2 : ℝ)| ≤ 90 := by exact_mod_cast hd
  obtain ⟨d1, d2⟩ := abs_le.1 hdr
  have hdd : |rad (fk5 jd).2| ≤ π / 2 := by
    rw [abs_le, rad_180]
    constructor <;> nlinarith
  have h180 : rad ((180 : ℚ) : ℝ) = π := by
    unfold rad
    push_cast
    ring
  have hmin := (elevation_extremes (rad siteLat) (rad (fk5 jd).2) (by rw [abs_of_pos l1]; exact l2.le) hdd).2.2
  have ee : (placeAt fk5 jd).elevation = degOf (Geom.elevation (rad siteLat) (rad (fk5 jd).2) (rad (placeAt fk5 jd).hourAngle)) := rfl
  have h1 : (0 : ℝ) ≤ (fk5 jd).2 + siteLat := by
    have : (0 : ℚ) ≤ (fk5 jd).2 + siteLat := by linarith
    exact_mod_cast this
  have h2 : ((fk5 jd).2 + siteLat : ℝ) < 90 := by exact_mod_cast hdate
  have e1 : rad siteLat + rad (fk5 jd).2 = ((fk5 jd).2 + siteLat : ℝ) * (π / 180) := by rw [rad_180, rad_180]; ring
  rw [ee, hlc, h180, hmin, elevationMin_eq, e1, abs_of_nonneg (by positivity)]
  unfold degOf
  rw [div_lt_iff₀ hp]
  nlinarith

/-- A sidereal day, in days. -/
def siderealDay : ℚ := 24 / (2406570982441908 / 100000000000000)

/-- **C166** A target with fixed coordinates is at the same elevation after any number of sidereal days. -/
theorem elevation_returns (fk5 : ℚ → ℚ × ℚ) (jd : ℚ) (n : ℤ) (hf : fk5 (jd + n * siderealDay) = fk5 jd) (h0 : 0 ≤ (fk5 jd).1)
    (h1 : (fk5 jd).1 < 360) : (placeAt fk5 (jd + n * siderealDay)).elevation = (placeAt fk5 jd).elevation := by
  obtain ⟨-, t1⟩ := hour_turns jd (fk5 jd).1 h0 h1
  obtain ⟨-, t2⟩ := hour_turns (jd + n * siderealDay) (fk5 jd).1 h0 h1
  have e : rad ((trueLst (jd + n * siderealDay) - (fk5 jd).1 : ℚ) : ℝ) = rad ((trueLst jd - (fk5 jd).1 : ℚ) : ℝ) + n * (2 * π) := by
    have : trueLst (jd + n * siderealDay) = trueLst jd + 360 * n := by
      unfold trueLst rawGmst siderealDay
      ring
    rw [this]
    unfold rad
    push_cast
    ring
  rw [e, cos_add_int_mul_two_pi] at t2
  show elevationDeg siteLat (fk5 (jd + n * siderealDay)).2 (hourAngleDeg (siderealDeg (jd + n * siderealDay)) (fk5 (jd + n * siderealDay)).1)
    = elevationDeg siteLat (fk5 jd).2 (hourAngleDeg (siderealDeg jd) (fk5 jd).1)
  rw [hf]
  unfold elevationDeg
  rw [t1, t2]

/-! ## Concrete cases -/

/-- A target of declination 60 degrees never sets, one of 42 degrees does. -/
example : circumpolarDeg siteLat 60 = true ∧ circumpolarDeg siteLat 42 = false := by decide +kernel

example (jd : ℚ) : 0 < (placeAt (fun _ => (83, 60)) jd).elevation :=
  (circumpolar_up_partial (fun _ => (83, 60)) jd (by norm_num) (by decide +kernel)).1

/-- A target on the equator, at any date. -/
example (jd : ℚ) : SeenAt (rad siteLat) (rad (0 : ℚ)) (rad (trueLst jd - 83 : ℚ)) (placeAt (fun _ => (83, 0)) jd).azimuth
    (placeAt (fun _ => (83, 0)) jd).elevation := by
  obtain ⟨l1, l2, l3⟩ := site_pos
  have hp := pi_pos
  have hs : 0 < sin (rad siteLat) := sin_pos_of_pos_of_lt_pi l1 (by linarith)
  have hlt : cos (rad siteLat) < 1 := by nlinarith [sin_sq_add_cos_sq (rad siteLat), cos_le_one (rad siteLat)]
  have h0 : rad ((0 : ℚ) : ℝ) = 0 := by unfold rad; push_cast; ring
  have key : ∀ x : ℝ, elevationDeg siteLat 0 (placeAt (fun _ => (83, 0)) jd).hourAngle = x →
      sin (rad x) = cos (rad siteLat) * cos (rad (placeAt (fun _ => (83, 0)) jd).hourAngle) := by
    intro x hx
    rw [← hx]
    have := sinEl_range (rad siteLat) (rad (0 : ℚ)) (rad (placeAt (fun _ => (83, 0)) jd).hourAngle)
    rw [elevation_deg, rad_degOf]
    show sin (arcsin (sinEl _ _ _)) = _
    rw [sin_arcsin this.1 this.2]
    unfold sinEl
    rw [h0, sin_zero, cos_zero]
    ring
  refine (position_exact_partial (fun _ => (83, 0)) jd (by norm_num) (by norm_num) (by norm_num) ?_ ?_).1
  · intro h
    have := key 90 h
    have e : rad 90 = π / 2 := by unfold rad; ring
    rw [e, sin_pi_div_two] at this
    nlinarith [cos_le_one (rad (placeAt (fun _ => (83, 0)) jd).hourAngle), neg_one_le_cos (rad (placeAt (fun _ => (83, 0)) jd).hourAngle)]
  · intro h
    have := key (-90) h
    have e : rad (-90) = -(π / 2) := by unfold rad; ring
    rw [e, sin_neg, sin_pi_div_two] at this
    nlinarith [cos_le_one (rad (placeAt (fun _ => (83, 0)) jd).hourAngle), neg_one_le_cos (rad (placeAt (fun _ => (83, 0)) jd).hourAngle)]

/-- A catalogue declination just above the limit and a declination of the date just below it. -/
example : (placeAt (fun _ => (siderealDeg 2451545 - 180, 426 / 10)) 2451545).elevation < 0
    ∧ circumpolarDeg siteLat (427 / 10) = true :=
  (circumpolar_date_violated (fun _ => (siderealDeg 2451545 - 180, 426 / 10)) 2451545 (427 / 10) (by decide +kernel)
    (by rw [abs_le]; norm_num) (by norm_num [siteLat]) (by norm_num [siteLat])
    (by show hourAngleDeg (siderealDeg 2451545) (siderealDeg 2451545 - 180) = 180; unfold hourAngleDeg; norm_num)).symm

end Verif.Cnst
