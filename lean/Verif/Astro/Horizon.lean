import Verif.Common.Prelude

/-!
# Horizon drawn for an image of the sky: `draw_horizon_ds9_region` (`nenupy/astro/astro_tools.py`)

The texts of the right ascension and of the declination of the point of the horizon at an azimuth are functions (they stand for the change of coordinates at
the time given, and for `to_string`). The name of the file is left out.
-/

namespace Verif.Astro

/-- Number of points (astro_tools.py:1123). -/
def horizonPoints : Nat := 100

/-- `np.linspace(0, 360, 100)` (astro_tools.py:1123), in degrees. -/
def horizonAzimuth (i : Nat) : ℚ := (i : ℚ) * (360 / (horizonPoints - 1 : Nat))

/-- Position of a point: azimuth, and elevation 0 (astro_tools.py:1124-1129). -/
def horizonAt (i : Nat) : ℚ × ℚ := (horizonAzimuth i, 0)

/-- `regfile_header` (astro_tools.py:1131-1135). -/
def regionHeader : List Char := "# Region file format: DS9 version 4.1\nglobal color=green\nfk5\n".toList

/-- One turn of the loop (astro_tools.py:1138-1141). -/
def addVertex (ra dec : ℚ × ℚ → List Char) (s : List Char) (p : ℚ × ℚ) : List Char := s ++ (ra p ++ ',' :: (dec p ++ [',']))

/-- What is written in the file (astro_tools.py:1130-1144): the last comma is cut. -/
def horizonRegion (ra dec : ℚ × ℚ → List Char) : List Char :=
  regionHeader ++ ((((List.range horizonPoints).map horizonAt).foldl (addVertex ra dec) "polygon(".toList).dropLast ++ [')'])

end Verif.Astro
