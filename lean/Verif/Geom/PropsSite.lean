import Verif.Geom.Site
import Verif.Geom.PropsAltaz
import Verif.Cnst.Sidereal
import Mathlib.Tactic.NormNum
import Mathlib.Data.Rat.Cast.Order

/-!
# Positions on the Earth, parallactic angles and local times: property C132
-/

namespace Verif.Geom

open Real Verif

/-! ## Positions on the Earth -/

/-- The vertical of a place: the unit vector of geodetic latitude and longitude. -/
noncomputable def vertical (lat lon : ℝ) : V3 := ⟨cos lat * cos lon, cos lat * sin lon, sin lat⟩

theorem earth_root (lat : ℝ) : 0 < 1 - earthE * sin lat ^ 2 := by
  have h := sin_sq_le_one lat
  unfold earthE
  nlinarith [sq_nonneg (sin lat)]

theorem earthN_pos (lat : ℝ) : 0 < earthN lat := by
  unfold earthN
  exact div_pos (by unfold earthA; norm_num) (sqrt_pos.2 (earth_root lat))

/-- Going up moves along the vertical, by as much. -/
theorem etrs_height (lat lon h k : ℝ) :
    geoToEtrs lat lon (h + k) = add (geoToEtrs lat lon h) ⟨k * (vertical lat lon).x, k * (vertical lat lon).y, k * (vertical lat lon).z⟩ := by
  unfold geoToEtrs add vertical
  simp only [V3.mk.injEq]
  refine ⟨?_, ?_, ?_⟩ <;> ring

/-- Seen from a place, one above it is neither east nor north, and as high as the heights differ: the two conversions agree. -/
theorem etrs_enu_up (lat lon h k : ℝ) : etrsToEnu lat lon (geoToEtrs lat lon h) (geoToEtrs lat lon k) = ⟨0, 0, k - h⟩ := by
  have a := sin_sq_add_cos_sq lat
  have b := sin_sq_add_cos_sq lon
  unfold etrsToEnu geoToEtrs sub vecMul mulVec transpose enuMatrix dot
  simp only [V3.mk.injEq]
  refine ⟨by ring, ?_, ?_⟩
  · linear_combination (-(k - h) * cos lat * sin lat) * b
  · linear_combination (k - h) * a + (k - h) * cos lat ^ 2 * b

/-- At no height, the vertical is the direction in which the ellipsoid is left: the gradient of x²/a² + y²/a² + z²/b². -/
theorem etrs_normal (lat lon : ℝ) :
    (geoToEtrs lat lon 0).x / earthA ^ 2 = earthN lat / earthA ^ 2 * (vertical lat lon).x ∧
    (geoToEtrs lat lon 0).y / earthA ^ 2 = earthN lat / earthA ^ 2 * (vertical lat lon).y ∧
    (geoToEtrs lat lon 0).z / earthB ^ 2 = earthN lat / earthA ^ 2 * (vertical lat lon).z := by
  have ha : earthA ≠ 0 := by unfold earthA; norm_num
  have hb : earthB ≠ 0 := by unfold earthB; norm_num
  unfold geoToEtrs vertical
  refine ⟨by ring, by ring, ?_⟩
  field_simp
  ring

/-- At no height the place is on the ellipsoid of the two radii, to two parts in 10^15: the three constants of the code are rounded. -/
theorem etrs_ellipsoid (lat lon : ℝ) :
    |(geoToEtrs lat lon 0).x ^ 2 / earthA ^ 2 + (geoToEtrs lat lon 0).y ^ 2 / earthA ^ 2 + (geoToEtrs lat lon 0).z ^ 2 / earthB ^ 2 - 1| ≤ 2 / 10 ^ 15 := by
  have a := sin_sq_add_cos_sq lat
  have b := sin_sq_add_cos_sq lon
  have hA : earthA ≠ 0 := by unfold earthA; norm_num
  have hB : earthB ≠ 0 := by unfold earthB; norm_num
  have hr := earth_root lat
  have hN : earthN lat ^ 2 * (1 - earthE * sin lat ^ 2) = earthA ^ 2 := by
    unfold earthN
    rw [div_pow, sq_sqrt hr.le]
    field_simp
  have e : (geoToEtrs lat lon 0).x ^ 2 / earthA ^ 2 + (geoToEtrs lat lon 0).y ^ 2 / earthA ^ 2 + (geoToEtrs lat lon 0).z ^ 2 / earthB ^ 2
      = earthN lat ^ 2 / earthA ^ 2 * (cos lat ^ 2 + earthB ^ 2 / earthA ^ 2 * sin lat ^ 2) := by
    unfold geoToEtrs
    dsimp only
    field_simp
    linear_combination (earthN lat ^ 2 * earthA ^ 2 * earthB ^ 2 * cos lat ^ 2) * b
  have hq : earthN lat ^ 2 / earthA ^ 2 = 1 / (1 - earthE * sin lat ^ 2) := by
    rw [← hN]
    have := earthN_pos lat
    field_simp
  rw [e, hq]
  have hs := sin_sq_le_one lat
  have hs0 := sq_nonneg (sin lat)
  have hc : cos lat ^ 2 = 1 - sin lat ^ 2 := by linarith
  rw [hc]
  have e2 : 1 / (1 - earthE * sin lat ^ 2) * (1 - sin lat ^ 2 + earthB ^ 2 / earthA ^ 2 * sin lat ^ 2) - 1
      = (earthE - 1 + earthB ^ 2 / earthA ^ 2) * sin lat ^ 2 / (1 - earthE * sin lat ^ 2) := by
    field_simp
    ring
  rw [e2, abs_div, abs_of_pos hr, div_le_iff₀ hr, abs_mul, abs_of_nonneg hs0]
  have hd : |earthE - 1 + earthB ^ 2 / earthA ^ 2| ≤ 19 / 10 ^ 16 := by
    unfold earthE earthB earthA
    rw [abs_le]
    constructor <;> norm_num
  have h1 : |earthE - 1 + earthB ^ 2 / earthA ^ 2| * sin lat ^ 2 ≤ 19 / 10 ^ 16 * 1 := mul_le_mul hd hs hs0 (by norm_num)
  have h2 : (99 : ℝ) / 100 ≤ 1 - earthE * sin lat ^ 2 := by unfold earthE; nlinarith
  calc _ ≤ 19 / 10 ^ 16 * 1 := h1
    _ ≤ 2 / 10 ^ 15 * (99 / 100) := by norm_num
    _ ≤ _ := mul_le_mul_of_nonneg_left h2 (by norm_num)

/-- A longitude more turns the place around the axis of the Earth. -/
theorem etrs_turn (lat lon d h : ℝ) :
    geoToEtrs lat (lon + d) h = ⟨cos d * (geoToEtrs lat lon h).x - sin d * (geoToEtrs lat lon h).y,
      sin d * (geoToEtrs lat lon h).x + cos d * (geoToEtrs lat lon h).y, (geoToEtrs lat lon h).z⟩ := by
  unfold geoToEtrs
  simp only [V3.mk.injEq]
  rw [cos_add, sin_add]
  refine ⟨by ring, by ring, trivial⟩

/-- The other hemisphere is the mirror image. -/
theorem etrs_mirror (lat lon h : ℝ) :
    geoToEtrs (-lat) lon h = ⟨(geoToEtrs lat lon h).x, (geoToEtrs lat lon h).y, - (geoToEtrs lat lon h).z⟩ := by
  have hn : earthN (-lat) = earthN lat := by unfold earthN; rw [sin_neg, neg_sq]
  unfold geoToEtrs
  rw [hn, sin_neg, cos_neg]
  simp only [V3.mk.injEq]
  refine ⟨trivial, trivial, by ring⟩

/-- On the equator at longitude zero. -/
theorem etrs_equator (h : ℝ) : geoToEtrs 0 0 h = ⟨earthA + h, 0, 0⟩ := by
  unfold geoToEtrs earthN
  simp

/-! ## Sidereal time and hour angle -/

theorem wrap360_range (x : ℝ) : 0 ≤ wrap360 x ∧ wrap360 x < 360 := by
  have h1 := Int.floor_le (x / 360)
  have h2 := Int.lt_floor_add_one (x / 360)
  unfold wrap360
  constructor <;> linarith

theorem wrap360_mod (x : ℝ) : ∃ k : ℤ, wrap360 x = x + 360 * k := ⟨-⌊x / 360⌋, by unfold wrap360; push_cast; ring⟩

/-- Two angles that differ by turns and are both in `[0, 360)` are the same. -/
theorem wrap360_unique (x y : ℝ) (k : ℤ) (h : y = x + 360 * k) (h0 : 0 ≤ y) (h1 : y < 360) : wrap360 x = y := by
  have e : ⌊x / 360⌋ = -k := by
    rw [Int.floor_eq_iff]
    push_cast
    constructor <;> linarith
  unfold wrap360
  rw [e, h]
  push_cast
  ring

/-- The local sidereal time is in `[0, 360)` and is, up to turns, the mean sidereal time of Greenwich plus the longitude. -/
theorem fast_lst_exact (jd lon : ℝ) :
    0 ≤ fastLst jd lon ∧ fastLst jd lon < 360 ∧
    ∃ k : ℤ, fastLst jd lon = 15 * (18697374558 / 10 ^ 9 + 2406570982441908 / 10 ^ 14 * (jd - 2451545)) + lon + 360 * k := by
  obtain ⟨k, hk⟩ := wrap360_mod (15 * (18697374558 / 1000000000 + 2406570982441908 / 100000000000000 * (jd - 2451545)))
  obtain ⟨m, hm⟩ := wrap360_mod (wrap360 (15 * (18697374558 / 1000000000 + 2406570982441908 / 100000000000000 * (jd - 2451545))) + lon)
  refine ⟨(wrap360_range _).1, (wrap360_range _).2, k + m, ?_⟩
  unfold fastLst
  rw [hm, hk]
  push_cast
  norm_num
  ring

/-- The targets of a schedule use the same sidereal time, at the longitude of the site, up to turns. -/
theorem fast_lst_targets (jd : ℚ) : ∃ k : ℤ, fastLst (jd : ℝ) ((Cnst.siteLon : ℚ) : ℝ) = ((Cnst.siderealDeg jd : ℚ) : ℝ) + 360 * k := by
  obtain ⟨-, -, k, hk⟩ := fast_lst_exact (jd : ℝ) ((Cnst.siteLon : ℚ) : ℝ)
  have hs : ∃ m : ℤ, Cnst.siderealDeg jd = 15 * Cnst.rawGmst jd + Cnst.siteLon + 360 * m := by
    unfold Cnst.siderealDeg Cnst.fixLst Cnst.pyMod
    split_ifs
    · exact ⟨1 - ⌊Cnst.rawGmst jd / 24⌋, by push_cast; ring⟩
    · exact ⟨- ⌊Cnst.rawGmst jd / 24⌋, by push_cast; ring⟩
  obtain ⟨m, hm⟩ := hs
  refine ⟨k - m, ?_⟩
  rw [hk, hm]
  unfold Cnst.rawGmst
  push_cast
  ring

/-- The sidereal time comes back after each sidereal day. -/
theorem fast_lst_period (jd lon : ℝ) (n : ℤ) : fastLst (jd + n * (24 / (2406570982441908 / 10 ^ 14))) lon = fastLst jd lon := by
  obtain ⟨h0, h1, k, hk⟩ := fast_lst_exact jd lon
  obtain ⟨g0, g1, m, hm⟩ := fast_lst_exact (jd + n * (24 / (2406570982441908 / 10 ^ 14))) lon
  have e : fastLst (jd + n * (24 / (2406570982441908 / 10 ^ 14))) lon - fastLst jd lon = 360 * ((n + m - k : ℤ) : ℝ) := by
    rw [hk, hm]
    push_cast
    ring
  have hz : n + m - k = 0 := by
    have a : ((n + m - k : ℤ) : ℝ) < 1 := by linarith
    have b : (-1 : ℝ) < ((n + m - k : ℤ) : ℝ) := by linarith
    have a' : n + m - k < 1 := by exact_mod_cast a
    have b' : -1 < n + m - k := by exact_mod_cast b
    omega
  rw [hz] at e
  push_cast at e
  linarith

/-- The hour angle is in `[0, 360)`; right ascension plus hour angle is the sidereal time up to turns, and it is zero at the meridian only. -/
theorem fast_hour_angle (lst ra : ℝ) :
    0 ≤ fastHourAngle lst ra ∧ fastHourAngle lst ra < 360 ∧ (∃ k : ℤ, ra + fastHourAngle lst ra = lst + 360 * k) ∧
    (fastHourAngle lst ra = 0 ↔ ∃ k : ℤ, lst = ra + 360 * k) := by
  obtain ⟨k, hk⟩ := wrap360_mod (lst - ra)
  refine ⟨(wrap360_range _).1, (wrap360_range _).2, ⟨k, by unfold fastHourAngle; linarith⟩, ?_⟩
  constructor
  · intro h
    exact ⟨-k, by unfold fastHourAngle at h; push_cast; linarith⟩
  · rintro ⟨m, hm⟩
    exact wrap360_unique (lst - ra) 0 (-m) (by rw [hm]; push_cast; ring) le_rfl (by norm_num)

/-! ## Parallactic angle -/

/-- Direction of a source at hour angle `h` in the frame of the meridian (towards the meridian on the equator, east, pole). -/
noncomputable def srcDir (dec h : ℝ) : V3 := ⟨cos dec * cos h, -(cos dec * sin h), sin dec⟩

/-- North on the sky at the source: where the declination increases. -/
noncomputable def skyNorth (dec h : ℝ) : V3 := ⟨-(sin dec * cos h), sin dec * sin h, cos dec⟩

/-- East on the sky at the source: where the hour angle decreases. -/
noncomputable def skyEast (h : ℝ) : V3 := ⟨sin h, cos h, 0⟩

/-- The zenith, in the same frame. -/
noncomputable def zenithDir (lat : ℝ) : V3 := ⟨cos lat, 0, sin lat⟩

/-- `q` is the position angle of the zenith seen from the source: from north through east. -/
def IsParallactic (lat dec h q : ℝ) : Prop :=
  ∃ r : ℝ, 0 < r ∧ dot (zenithDir lat) (skyNorth dec h) = r * cos q ∧ dot (zenithDir lat) (skyEast h) = r * sin q

theorem arctan2_exact (y x : ℝ) (hz : x ≠ 0 ∨ y ≠ 0) :
    ∃ r : ℝ, 0 < r ∧ x = r * cos (arctan2 y x) ∧ y = r * sin (arctan2 y x) := by
  have hne : (⟨x, y⟩ : ℂ) ≠ 0 := by
    intro h
    have h1 := congrArg Complex.re h
    have h2 := congrArg Complex.im h
    simp at h1 h2
    rcases hz with h' | h'
    · exact h' h1
    · exact h' h2
  have hp : 0 < ‖(⟨x, y⟩ : ℂ)‖ := norm_pos_iff.2 hne
  refine ⟨‖(⟨x, y⟩ : ℂ)‖, hp, ?_, ?_⟩
  · unfold arctan2
    rw [Complex.cos_arg hne]
    field_simp
  · unfold arctan2
    rw [Complex.sin_arg]
    field_simp

/-- Away from the zenith and the nadir, the angle computed is the one between the north and the zenith, seen from the source. -/
theorem parallactic_raw (lat dec h : ℝ) (hl : 0 < cos lat) (hz : sinEl lat dec h ^ 2 ≠ 1) : IsParallactic lat dec h (rawParallactic lat dec h) := by
  have e1 : dot (zenithDir lat) (skyNorth dec h) = cos lat * (cos dec * tan lat - sin dec * cos h) := by
    unfold dot zenithDir skyNorth
    rw [tan_eq_sin_div_cos]
    field_simp
    ring
  have e2 : dot (zenithDir lat) (skyEast h) = cos lat * sin h := by
    unfold dot zenithDir skyEast
    ring
  have hsum : (cos lat * (cos dec * tan lat - sin dec * cos h)) ^ 2 + (cos lat * sin h) ^ 2 + sinEl lat dec h ^ 2 = 1 := by
    rw [← e1]
    unfold dot zenithDir skyNorth sinEl
    dsimp only
    linear_combination (sin lat ^ 2 + cos lat ^ 2 * cos h ^ 2) * sin_sq_add_cos_sq dec + cos lat ^ 2 * sin_sq_add_cos_sq h + sin_sq_add_cos_sq lat
  have hne : (cos dec * tan lat - sin dec * cos h) ≠ 0 ∨ (- sin h) ≠ 0 := by
    by_contra hcon
    push Not at hcon
    apply hz
    have hh : sin h = 0 := by linarith [hcon.2]
    rw [hcon.1, hh] at hsum
    linarith
  obtain ⟨r, hr, hx, hy⟩ := arctan2_exact _ _ hne
  refine ⟨cos lat * r, mul_pos hl hr, ?_, ?_⟩
  · rw [e1]
    unfold rawParallactic
    rw [cos_neg, mul_assoc, ← hx]
  · rw [e2]
    unfold rawParallactic
    rw [sin_neg]
    have : sin h = - (r * sin (arctan2 (- sin h) (cos dec * tan lat - sin dec * cos h))) := by linarith
    linear_combination cos lat * this

theorem wrapTurn_mod (x : ℝ) : ∃ k : ℤ, wrapTurn x = x + k * (2 * π) := ⟨1 - ⌊(x + 2 * π) / (2 * π)⌋, by unfold wrapTurn; push_cast; ring⟩

theorem wrapTurn_range (x : ℝ) : 0 ≤ wrapTurn x ∧ wrapTurn x < 2 * π := by
  have hp := two_pi_pos
  have h1 := Int.floor_le ((x + 2 * π) / (2 * π))
  have h2 := Int.lt_floor_add_one ((x + 2 * π) / (2 * π))
  rw [le_div_iff₀ hp] at h1
  rw [div_lt_iff₀ hp] at h2
  unfold wrapTurn
  constructor <;> nlinarith

theorem raw_range (lat dec h : ℝ) : -π ≤ rawParallactic lat dec h ∧ rawParallactic lat dec h < π := by
  have a := Complex.neg_pi_lt_arg ⟨cos dec * tan lat - sin dec * cos h, - sin h⟩
  have b := Complex.arg_le_pi ⟨cos dec * tan lat - sin dec * cos h, - sin h⟩
  unfold rawParallactic arctan2
  constructor <;> linarith

/-- Whatever the other sources, what is returned is the parallactic angle up to turns. -/
theorem parallactic_exact (m lat dec h : ℝ) (hl : 0 < cos lat) (hz : sinEl lat dec h ^ 2 ≠ 1) : IsParallactic lat dec h (parallactic m lat dec h) := by
  obtain ⟨r, hr, h1, h2⟩ := parallactic_raw lat dec h hl hz
  unfold parallactic
  by_cases hm : m > lat
  · rw [if_pos hm]
    obtain ⟨k, hk⟩ := wrapTurn_mod (rawParallactic lat dec h)
    refine ⟨r, hr, ?_, ?_⟩
    · rw [hk, cos_add_int_mul_two_pi, h1]
    · rw [hk, sin_add_int_mul_two_pi, h2]
  · rw [if_neg hm]
    exact ⟨r, hr, h1, h2⟩

/-- A source whose declination is the mean one: between 0 and a turn if it culminates north of the zenith, between minus and plus half a turn if
not. -/
theorem parallactic_range_partial (lat dec h : ℝ) :
    (lat < dec → 0 ≤ parallactic dec lat dec h ∧ parallactic dec lat dec h < 2 * π) ∧
    (dec ≤ lat → -π ≤ parallactic dec lat dec h ∧ parallactic dec lat dec h < π) := by
  unfold parallactic
  constructor
  · intro hd
    rw [if_pos hd]
    exact wrapTurn_range _
  · intro hd
    rw [if_neg (not_lt.2 hd)]
    exact raw_range _ _ _

/-- Positive west of the meridian, negative east of it. -/
theorem parallactic_sign (lat dec h : ℝ) (hl : 0 < cos lat) (hz : sinEl lat dec h ^ 2 ≠ 1) :
    (0 < sin h → 0 < rawParallactic lat dec h) ∧ (sin h < 0 → rawParallactic lat dec h < 0) := by
  obtain ⟨r, hr, -, h2⟩ := parallactic_raw lat dec h hl hz
  obtain ⟨g1, g2⟩ := raw_range lat dec h
  have e2 : dot (zenithDir lat) (skyEast h) = cos lat * sin h := by
    unfold dot zenithDir skyEast
    ring
  rw [e2] at h2
  constructor
  · intro hs
    by_contra hcon
    push Not at hcon
    have := sin_nonpos_of_nonpos_of_neg_pi_le hcon g1
    nlinarith [mul_pos hl hs]
  · intro hs
    by_contra hcon
    push Not at hcon
    have := sin_nonneg_of_nonneg_of_le_pi hcon g2.le
    nlinarith [mul_neg_of_pos_of_neg hl hs]

/-- **Violated**: the angle returned for a source depends on the sources asked with it. East of the meridian, it is a turn larger if the mean declination is above the latitude than if it is not. -/
theorem parallactic_company_violated (m m' lat dec h : ℝ) (hl : 0 < cos lat) (hz : sinEl lat dec h ^ 2 ≠ 1) (hs : sin h < 0) (hm : lat < m)
    (hm' : m' ≤ lat) : parallactic m lat dec h = parallactic m' lat dec h + 2 * π := by
  have hneg := (parallactic_sign lat dec h hl hz).2 hs
  have hlow := (raw_range lat dec h).1
  have hp := two_pi_pos
  unfold parallactic
  rw [if_pos hm, if_neg (not_lt.2 hm')]
  have e : ⌊(rawParallactic lat dec h + 2 * π) / (2 * π)⌋ = 0 := by
    rw [Int.floor_eq_iff]
    constructor
    · rw [Int.cast_zero]
      exact div_nonneg (by linarith [pi_pos]) hp.le
    · rw [Int.cast_zero, zero_add, div_lt_one hp]
      linarith
  unfold wrapTurn
  rw [e]
  simp

/-- Such a case: a source of declination zero on the eastern horizon of a place of latitude 45 degrees. -/
example : 0 < cos (π / 4) ∧ sinEl (π / 4) 0 (-(π / 2)) ^ 2 ≠ 1 ∧ sin (-(π / 2)) < 0 := by
  refine ⟨cos_pos_of_mem_Ioo ⟨by linarith [pi_pos], by linarith [pi_pos]⟩, ?_, ?_⟩
  · unfold sinEl
    rw [cos_neg, cos_pi_div_two, sin_zero]
    norm_num
  · rw [sin_neg, sin_pi_div_two]
    norm_num

/-! ## Circumpolar targets -/

/-- A fixed target is said to be circumpolar exactly when it stays above the horizon at every hour angle. -/
theorem es_circumpolar (lat dec : ℝ) (hl0 : 0 < lat) (hl : lat ≤ π / 2) (hd : |dec| ≤ π / 2) :
    esCircumpolar lat dec = true ↔ ∀ h, 0 < elevation lat dec h := by
  have hlat : |lat| ≤ π / 2 := by rw [abs_of_pos hl0]; exact hl
  obtain ⟨h1, -, h3⟩ := elevation_extremes lat dec hlat hd
  rw [elevationMin_eq] at h3
  have hd' := abs_le.mp hd
  unfold esCircumpolar
  rw [decide_eq_true_iff]
  constructor
  · intro hc h
    have := (h1 h).1
    rw [elevationMin_eq] at this
    have : lat + dec ≤ |lat + dec| := le_abs_self _
    linarith
  · intro hall
    have h := hall π
    rw [h3] at h
    rcases abs_cases (lat + dec) with ⟨e, -⟩ | ⟨e, -⟩
    · linarith
    · rw [e] at h; linarith [hd'.1]

/-- The hypotheses hold for a place of latitude 45 degrees and the pole. -/
example : 0 < π / 4 ∧ π / 4 ≤ π / 2 ∧ |π / 2| ≤ π / 2 := ⟨by linarith [pi_pos], by linarith [pi_pos], le_of_eq (abs_of_pos (by linarith [pi_pos]))⟩

/-- A body of the Solar System is said to be circumpolar as soon as it is at *one* of the times; before any computation it fails. -/
theorem ss_circumpolar (lat : ℝ) (l : List ℝ) :
    (ssCircumpolar lat (some l) = .ok true ↔ ∃ d ∈ l, esCircumpolar lat d = true) ∧
    ((∀ d ∈ l, esCircumpolar lat d = false) → ssCircumpolar lat (some l) = .ok false) ∧
    ssCircumpolar lat none = .error .attributeError := by
  have e : ssCircumpolar lat (some l) = .ok (l.any fun d => esCircumpolar lat d) := rfl
  refine ⟨?_, ?_, rfl⟩
  · rw [e, Except.ok.injEq, List.any_eq_true]
  · intro h
    rw [e, List.any_eq_false.2 fun d hd => by rw [h d hd]; exact Bool.false_ne_true]

/-- **Violated**: at the other times it sets. Whatever the declinations of the body, if it stays above the horizon with one of them and not with
another, it is said to be circumpolar. -/
theorem ss_circumpolar_violated (lat : ℝ) (hl0 : 0 < lat) (hl : lat ≤ π / 2) (l : List ℝ) (d e : ℝ) (hd : d ∈ l)
    (hdr : |d| ≤ π / 2) (hup : ∀ h, 0 < elevation lat d h) (hset : ∃ h, elevation lat e h ≤ 0) :
    ssCircumpolar lat (some l) = .ok true ∧ (e ∈ l → ¬ ∀ x ∈ l, ∀ h, 0 < elevation lat x h) := by
  refine ⟨((ss_circumpolar lat l).1).2 ⟨d, hd, (es_circumpolar lat d hl0 hl hdr).2 hup⟩, fun he h => ?_⟩
  obtain ⟨t, ht⟩ := hset
  exact absurd (h e he t) (not_lt.2 ht)

/-- A body at 30 degrees of declination then at the equator, at 70 degrees of latitude: said to be circumpolar, below the horizon when it is
on the equator. -/
example :
    ssCircumpolar (7 * π / 18) (some [π / 6, 0]) = .ok true ∧ ∃ h, elevation (7 * π / 18) 0 h < 0 := by
  have hp := pi_pos
  constructor
  · rw [(ss_circumpolar _ _).1]
    refine ⟨π / 6, List.mem_cons_self, ?_⟩
    unfold esCircumpolar
    rw [decide_eq_true_iff]
    linarith
  · refine ⟨π, ?_⟩
    obtain ⟨-, -, h3⟩ := elevation_extremes (7 * π / 18) 0 (by rw [abs_of_pos (by linarith)]; linarith) (by rw [abs_zero]; linarith)
    rw [h3, elevationMin_eq, add_zero, abs_of_pos (by linarith)]
    linarith

/-! ## Local time -/

/-- The local time at a UTC time. -/
def Zone.clock (z : Zone) (t : Int) : Int := t + (if z.summer t then z.base + z.extra else z.base)

/-- One summer, from `a` to `b` excluded (UTC). -/
def oneSummer (base extra a b : Int) : Zone := ⟨base, extra, fun t => decide (a ≤ t ∧ t < b)⟩

theorem summer_iff (base extra a b t : Int) : (oneSummer base extra a b).summer t = true ↔ a ≤ t ∧ t < b := decide_eq_true_iff

theorem offset_one (base extra a b n : Int) :
    (oneSummer base extra a b).offset n = if a + base + extra ≤ n ∧ n < b + base ∧ a + base ≤ n ∧ n < b + base + extra then base + extra else base := by
  have e : (oneSummer base extra a b).offset n = if (!decide (a ≤ n - base ∧ n - base < b)) = true then base
      else if decide (a ≤ n - (base + extra) ∧ n - (base + extra) < b) = true then base + extra else base := rfl
  rw [e]
  by_cases h1 : a ≤ n - base ∧ n - base < b
  · rw [if_neg (by simp only [h1, and_self, decide_true, Bool.not_true, Bool.false_eq_true, not_false_eq_true])]
    by_cases h2 : a ≤ n - (base + extra) ∧ n - (base + extra) < b
    · rw [if_pos (decide_eq_true h2), if_pos (by omega)]
    · rw [if_neg (by rw [decide_eq_true_iff]; exact h2), if_neg (by omega)]
  · rw [if_pos (by rw [decide_eq_false h1]; rfl), if_neg (by omega)]

/-- Exactly when the local time is right, for a zone east of Greenwich with one summer: away from the two changes. It is wrong during `base + extra` seconds after summer begins and `base` seconds after it ends. -/
theorem local_time_partial (base extra a b t : Int) (hb : 0 ≤ base) (he : 0 < extra) (hab : a + base + extra ≤ b) :
    toLocal (oneSummer base extra a b) t = (oneSummer base extra a b).clock t ↔
      ¬ (a ≤ t ∧ t < a + base + extra) ∧ ¬ (b ≤ t ∧ t < b + base) := by
  unfold toLocal Zone.clock
  rw [offset_one]
  by_cases hs : a ≤ t ∧ t < b
  · rw [if_pos ((summer_iff base extra a b t).2 hs)]
    by_cases hc : a + base + extra ≤ t ∧ t < b + base ∧ a + base ≤ t ∧ t < b + base + extra
    · rw [if_pos hc]
      constructor
      · intro _; omega
      · intro _; rfl
    · rw [if_neg hc]
      constructor
      · intro h; exfalso; have : (oneSummer base extra a b).base = base := rfl; have : (oneSummer base extra a b).extra = extra := rfl; omega
      · intro h; exfalso; omega
  · rw [if_neg (fun h => hs ((summer_iff base extra a b t).1 h))]
    by_cases hc : a + base + extra ≤ t ∧ t < b + base ∧ a + base ≤ t ∧ t < b + base + extra
    · rw [if_pos hc]
      constructor
      · intro h; exfalso; have : (oneSummer base extra a b).base = base := rfl; omega
      · intro h; exfalso; omega
    · rw [if_neg hc]
      constructor
      · intro _; omega
      · intro _; rfl

/-- **Violated**: in the hours that follow the beginning of summer the hour is late by the change, and early by it in those that follow its end. -/
theorem local_time_violated (base extra a b t : Int) (he : 0 < extra) (hab : a + base + extra ≤ b) :
    (a ≤ t ∧ t < a + base + extra → toLocal (oneSummer base extra a b) t = (oneSummer base extra a b).clock t - extra) ∧
    (b ≤ t ∧ t < b + base → toLocal (oneSummer base extra a b) t = (oneSummer base extra a b).clock t + extra) := by
  have e1 : (oneSummer base extra a b).base = base := rfl
  have e2 : (oneSummer base extra a b).extra = extra := rfl
  unfold toLocal Zone.clock
  rw [offset_one]
  constructor
  · intro h
    rw [if_pos ((summer_iff base extra a b t).2 (by omega)), if_neg (by omega)]
    omega
  · intro h
    have hn : ¬ (a ≤ t ∧ t < b) := by omega
    rw [if_neg (fun hh => hn ((summer_iff base extra a b t).1 hh)), if_pos (by omega)]
    omega

/-- A zone without summer is always right, and several times are converted one by one. -/
theorem local_time_plain (z : Zone) (h : ∀ t, z.summer t = false) (ts : List Int) : toLocals z ts = ts.map z.clock := by
  unfold toLocals
  apply List.map_congr_left
  intro t _
  unfold toLocal Zone.clock Zone.offset
  rw [h t, h (t - z.base), if_pos (show (!false) = true from rfl), if_neg Bool.false_ne_true]

/-- The hypotheses hold for Paris in 2024. -/
example : (0 : Int) ≤ 3600 ∧ (0 : Int) < 3600 ∧ (1711846800 : Int) + 3600 + 3600 ≤ 1729990800 := by omega

/-- Paris in 2024: 31 March 2024 at 01:00 UTC clocks go from 2 to 3 in the morning; the code still says 3:30 at 02:30 UTC, when it is 4:30. -/
example : toLocal (oneSummer 3600 3600 1711846800 1729990800) 1711852200 = 1711852200 + 3600 ∧
    (oneSummer 3600 3600 1711846800 1729990800).clock 1711852200 = 1711852200 + 7200 := by
  constructor <;> decide +kernel

end Verif.Geom
