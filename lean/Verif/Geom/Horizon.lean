import Verif.Geom.Model

/-!
# Fast conversions between the sky and the horizon (nenupy/astro/astro_tools.py)

Angles are in radians. The sidereal time at the observer is given: both conversions use the same function for it.
-/

namespace Verif.Geom

open Real

/-- `Longitude`: an angle between zero and one turn. Used for astro_tools.py:323, 565-566. -/
noncomputable def oneTurn (x : ℝ) : ℝ := x - ⌊x / (2 * π)⌋ * (2 * π)

/-- `radec_to_altaz(fast_compute=True)` (astro_tools.py:402-458) of one position (right ascension, declination) at one time; `ofDate` is the change to
the equinox of the time (408-410). -/
noncomputable def fastAltaz (lat lst : ℝ) (ofDate : ℝ × ℝ → ℝ × ℝ) (p : ℝ × ℝ) : ℝ × ℝ :=
  toAltaz lat (ofDate p).2 (oneTurn (lst - (ofDate p).1))

/-- `altaz_to_radec(fast_compute=True)` (astro_tools.py:539-566) of one position (azimuth, elevation). -/
noncomputable def fastRadec (lat lst : ℝ) (q : ℝ × ℝ) : ℝ × ℝ := (oneTurn (lst - (toHadec lat q.1 q.2).1), (toHadec lat q.1 q.2).2)

end Verif.Geom
