import Verif.Cnst.Sidereal
import Verif.Geom.Site

/-!
# Positions of the targets of a schedule (nenupy/schedule/targets.py)

Angles are in degrees, dates in Julian days. The coordinates of the target at the equinox of a date are a
parameter (astropy): right ascension and declination in degrees. Quantities which numpy cannot compute at
the zenith (a division by zero) have here the value of `x / 0 = 0`.
-/

namespace Verif.Cnst

open Real

noncomputable section

/-- Degrees to radians. Used for targets.py:207-210. -/
def rad (x : ℝ) : ℝ := x * π / 180

/-- Radians to degrees. Used for targets.py:215-218, 234. -/
def degOf (x : ℝ) : ℝ := x * 180 / π

/-- Latitude of the site in degrees (targets.py:46-50). -/
def siteLat : ℚ := 47376511 / 1000000

/-- `_elevation` (targets.py:207-218). -/
def elevationDeg (lat dec ha : ℚ) : ℝ :=
  degOf (arcsin (sin (rad dec) * sin (rad lat) + cos (rad dec) * cos (rad lat) * cos (rad ha)))

/-- `azRad` before the side is known (targets.py:220-223). -/
def rawAzimuth (lat dec : ℚ) (el : ℝ) : ℝ :=
  arccos ((sin (rad dec) - sin (rad el) * sin (rad lat)) / (cos (rad el) * cos (rad lat)))

open Classical in
/-- `_azimuth` (targets.py:220-234). -/
def azimuthDeg (lat dec ha : ℚ) : ℝ :=
  degOf (if 0 < sin (rad ha) then -rawAzimuth lat dec (elevationDeg lat dec ha) + 2 * π
    else rawAzimuth lat dec (elevationDeg lat dec ha))

/-- What is computed for one date (targets.py:75-81). -/
structure Placed where
  lst : ℚ
  ra : ℚ
  dec : ℚ
  hourAngle : ℚ
  elevation : ℝ
  azimuth : ℝ

/-- The computation for one date (targets.py:151-154). -/
def placeAt (fk5 : ℚ → ℚ × ℚ) (jd : ℚ) : Placed :=
  ⟨siderealDeg jd, (fk5 jd).1, (fk5 jd).2, hourAngleDeg (siderealDeg jd) (fk5 jd).1,
    elevationDeg siteLat (fk5 jd).2 (hourAngleDeg (siderealDeg jd) (fk5 jd).1),
    azimuthDeg siteLat (fk5 jd).2 (hourAngleDeg (siderealDeg jd) (fk5 jd).1)⟩

/-- The argument of `computePosition`. Used for targets.py:144-149. -/
inductive WhenArg where
  | notTime
  | scalar (jd : ℚ)
  | many (l : List ℚ)

/-- The dates for which positions are computed (targets.py:144-149); `isot` is the date read back from its
text. -/
def WhenArg.dates (isot : ℚ → ℚ) : WhenArg → Except Err (List ℚ)
  | .notTime => .error .typeError
  | .scalar jd => .ok [isot jd, isot jd]
  | .many l => .ok l

/-- What a target keeps: nothing before any computation (targets.py:75-81, 132-138). -/
abbrev Kept := Option (List Placed)

/-- `computePosition` (targets.py:141-154): what is kept afterwards, which is what was kept before if the
call is refused. -/
def computePosition (isot : ℚ → ℚ) (fk5 : ℚ → ℚ × ℚ) (kept : Kept) (w : WhenArg) : Except Err Unit × Kept :=
  (w.dates isot).casesOn (fun e => (.error e, kept)) fun l => (.ok (), some (l.map (placeAt fk5)))

/-- `target[lo:hi]` (targets.py:120-128): what the new target keeps; `None` cannot be sliced. -/
def slicePlaced (kept : Kept) (lo hi : Int) : Except Err Kept :=
  kept.elim (.error .typeError) fun l => .ok (some ((l.take (pyBound l.length hi)).drop (pyBound l.length lo)))

/-- `ESTarget.isCircumpolar` in degrees, with the declination of the catalogue (targets.py:334-337). -/
def circumpolarDeg (lat dec : ℚ) : Bool := decide (90 < dec + lat)

end

end Verif.Cnst
