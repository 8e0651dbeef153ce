import Verif.Geom.Model
import Mathlib.Analysis.SpecialFunctions.Complex.Arg
import Mathlib.Algebra.Order.Floor.Ring

/-!
# The site: positions on the Earth, sidereal and local times, parallactic angles (nenupy/astro/astro_tools.py, nenupy/schedule/targets.py)

Exact real numbers. The precession of the coordinates (`transform_to(FK5)`) is done before: declinations and hour angles are parameters.
-/

namespace Verif.Geom

open Real Verif

noncomputable section

/-! ## Positions on the Earth -/

/-- `gps_a`, in m (astro_tools.py:1017). -/
def earthA : ℝ := 6378137

/-- `gps_b`, in m (astro_tools.py:1016). -/
def earthB : ℝ := 635675231424518 / 100000000

/-- `e_squared` (astro_tools.py:1018). -/
def earthE : ℝ := 669437999014 / 100000000000000

/-- `gps_n` (astro_tools.py:1026). -/
def earthN (lat : ℝ) : ℝ := earthA / √(1 - earthE * sin lat ^ 2)

/-- `geo_to_etrs` (astro_tools.py:988-1030) of one location: latitude, longitude and height. -/
def geoToEtrs (lat lon alt : ℝ) : V3 :=
  ⟨(earthN lat + alt) * cos lat * cos lon, (earthN lat + alt) * cos lat * sin lon,
    (earthB ^ 2 / earthA ^ 2 * earthN lat + alt) * sin lat⟩

/-! ## Sidereal time and hour angle -/

/-- `Longitude(x)`, in degrees: wrapped to `[0, 360)`. Used for astro_tools.py:199, 202, 323. -/
def wrap360 (x : ℝ) : ℝ := x - 360 * ⌊x / 360⌋

/-- `local_sidereal_time(fast_compute=True)` (astro_tools.py:191-202), in degrees, of a Julian date at a longitude in degrees. -/
def fastLst (jd lon : ℝ) : ℝ :=
  wrap360 (wrap360 (15 * (18697374558 / 1000000000 + 2406570982441908 / 100000000000000 * (jd - 2451545))) + lon)

/-- `hour_angle` (astro_tools.py:256-323), in degrees. -/
def fastHourAngle (lst ra : ℝ) : ℝ := wrap360 (lst - ra)

/-! ## Parallactic angle -/

/-- `np.arctan2(y, x)`. Used for astro_tools.py:642. -/
def arctan2 (y x : ℝ) : ℝ := Complex.arg ⟨x, y⟩

/-- `pa_angle` of `parallactic_angle` (astro_tools.py:642-645), before it is wrapped. -/
def rawParallactic (lat dec h : ℝ) : ℝ := - arctan2 (- sin h) (cos dec * tan lat - sin dec * cos h)

/-- `(x + 2*np.pi) % (2*np.pi)` (astro_tools.py:647). -/
def wrapTurn (x : ℝ) : ℝ := (x + 2 * π) - 2 * π * ⌊(x + 2 * π) / (2 * π)⌋

open Classical in
/-- `parallactic_angle` (astro_tools.py:580-649) of one source among others whose mean declination is `m` (its own one for one source). -/
def parallactic (m lat dec h : ℝ) : ℝ :=
  if m > lat then wrapTurn (rawParallactic lat dec h) else rawParallactic lat dec h

/-! ## Targets of a schedule -/

open Classical in
/-- `ESTarget.isCircumpolar` (targets.py:334-337). -/
def esCircumpolar (lat dec : ℝ) : Bool := decide (dec + lat > π / 2)

open Classical in
/-- `SSTarget.isCircumpolar` (targets.py:266-271), for the declinations computed last; `none` before any computation. -/
def ssCircumpolar (lat : ℝ) (decs : Option (List ℝ)) : Except Err Bool :=
  decs.elim (.error .attributeError) fun l => .ok (l.any fun d => decide (d + lat > π / 2))

end

/-! ## Local time -/

/-- A time zone: its offset to UTC in seconds, what is added in summer, and whether a UTC time is in summer (the data of `pytz`).
Used for astro_tools.py:239. -/
structure Zone where
  /-- offset in winter -/
  base : Int
  /-- what is added in summer -/
  extra : Int
  /-- summer, in UTC -/
  summer : Int → Bool

/-- `tz.localize(n).utcoffset()` (astro_tools.py:240-243) with the default `is_dst=False`: the offset at which the *local* time `n` happens.
In winter if `n` happens in winter (even if it happens twice), in summer if it only happens then, and in winter again when `n` never
happens (`pytz` then looks six hours before). -/
def Zone.offset (z : Zone) (n : Int) : Int :=
  if !z.summer (n - z.base) then z.base
  else if z.summer (n - (z.base + z.extra)) then z.base + z.extra
  else z.base

/-- `to_local_time` (astro_tools.py:220-248) of one UTC time: this UTC time is itself given to `localize`. -/
def toLocal (z : Zone) (t : Int) : Int := t + z.offset t

/-- `to_local_time` of several times (astro_tools.py:240-248). -/
def toLocals (z : Zone) (ts : List Int) : List Int := ts.map (toLocal z)

end Verif.Geom
