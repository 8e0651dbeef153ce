import Verif.Cnst.Model

/-!
# Sidereal times and hour angles of the targets of a schedule (nenupy/schedule/targets.py:159-199)

Sidereal times are in degrees, dates in Julian days.
-/

namespace Verif.Cnst

/-- `gmst`, in hours, before its reduction (targets.py:163-165). -/
def rawGmst (jd : ℚ) : ℚ := 18697374558 / 1000000000 + 2406570982441908 / 100000000000000 * (jd - 2451545)

/-- Longitude of the site in degrees (targets.py:46-50). -/
def siteLon : ℚ := 21924 / 10000

/-- `lst[lst < 0] += 24` (targets.py:169-173). -/
def fixLst (h : ℚ) : ℚ := if h < 0 then h + 24 else h

/-- `_localSiderealTime` (targets.py:159-174), in degrees. -/
def siderealDeg (jd : ℚ) : ℚ := 15 * fixLst (pyMod (rawGmst jd) 24 + siteLon / 15)

/-- `_computeHourAngle` (targets.py:186-199), in degrees. -/
def hourAngleDeg (lst ra : ℚ) : ℚ := if lst - ra < 0 then lst - ra + 360 else if 360 < lst - ra then lst - ra - 360 else lst - ra

end Verif.Cnst
