import Verif.Astro.Sky
import Mathlib.Algebra.Order.Floor.Ring
import Mathlib.Data.Rat.Floor
import Mathlib.Analysis.SpecialFunctions.Trigonometric.Basic
import Mathlib.Analysis.Real.Sqrt

/-!
# Images of skies (nenupy/astro/sky.py)

The image drawn by `SkySlice.plot`, before any colour: the pixel positions given by astropy's `WCS.world_to_pixel` (whole numbers are the
centres of pixels) are part of the input, except where the Hammer-Aitoff projection is written out. Missing values (NaN) are `none`.
-/

namespace Verif.Astro

/-- A direction of the sky: its position on the image, its value, and whether it is above the horizon. Used for sky.py:569-598. -/
structure Spot where
  x : ℚ
  y : ℚ
  value : Option ℚ
  visible : Bool
  deriving DecidableEq

/-- The pixel into which a direction is put (sky.py:575-578). -/
def Spot.pixel (s : Spot) : Int × Int := (⌊s.x⌋, ⌊s.y⌋)

/-- The pixel is in the image (sky.py:576-579). -/
def inside (nx ny : Nat) (s : Spot) : Bool :=
  decide ((0 ≤ s.pixel.1 ∧ s.pixel.1 < nx) ∧ 0 ≤ s.pixel.2 ∧ s.pixel.2 < ny)

/-- The value drawn: hidden directions are taken out if asked for (sky.py:583-590). -/
def Spot.shown (only : Bool) (s : Spot) : Option ℚ := if only && !s.visible then none else s.value

/-- Addition with missing values. Used for sky.py:599. -/
def plusNan (a b : Option ℚ) : Option ℚ := a.bind fun u => b.map fun v => u + v

/-- Values by pixel. Used for sky.py:571-573. -/
abbrev Canvas := Int × Int → Option ℚ

/-- `data[(x_int, y_int)] = 0.` (sky.py:596). -/
def clear (l : List Spot) (d : Canvas) : Canvas := l.foldl (fun d s => Function.update d s.pixel (some 0)) d

/-- `np.add.at(weights, (x_int, y_int), 1)` on zeros, then at least one (sky.py:573, 597-598). -/
def weightsOf (l : List Spot) (p : Int × Int) : Nat := max 1 (l.foldl (fun w s => Function.update w s.pixel (w s.pixel + 1)) (fun _ => 0) p)

/-- `np.add.at(data, (x_int, y_int), values)` (sky.py:599): repeated pixels are added each time. -/
def addAll (only : Bool) (l : List Spot) (d : Canvas) : Canvas :=
  l.foldl (fun d s => Function.update d s.pixel (plusNan (d s.pixel) (s.shown only))) d

/-- `data[(x_int, y_int)] /= weights[(x_int, y_int)]` (sky.py:600): all are read, then all are written. -/
def divideAll (l : List Spot) (w : Int × Int → Nat) (d : Canvas) : Canvas :=
  l.foldl (fun e s => Function.update e s.pixel ((d s.pixel).map fun v => v / w s.pixel)) d

/-- `_fullsky_projection` (sky.py:567-602) of a `SkySlice` on an image of `nx` by `ny` pixels: the value at a row and a column. -/
def skyImage (nx ny : Nat) (only : Bool) (spots : List Spot) (row col : Nat) : Option ℚ :=
  divideAll (spots.filter (inside nx ny)) (weightsOf (spots.filter (inside nx ny)))
    (addAll only (spots.filter (inside nx ny)) (clear (spots.filter (inside nx ny)) fun _ => none)) ((col : Int), (row : Int))

/-- The scale of the image (sky.py:547-550). -/
def imageScale (resolution : ℚ) : Nat := max 1 ⌊27 / 40 / resolution⌋.toNat

/-- Size of a pixel in degrees (sky.py:559). -/
def pixelSize (resolution : ℚ) : ℚ := 27 / 40 / imageScale resolution

/-- Numbers of pixels in right ascension and declination (sky.py:551-556). -/
def imageDims (resolution : ℚ) (radius : Option ℚ) : Nat × Nat :=
  radius.elim (480 * imageScale resolution, 240 * imageScale resolution) fun r =>
    (⌊2 * r / pixelSize resolution⌋.toNat, ⌊2 * r / pixelSize resolution⌋.toNat)

/-- The Hammer-Aitoff projection (`AIT`), in degrees, of a direction at longitude `a` and latitude `d` in radians from a centre on the equator
(sky.py:561). -/
noncomputable def aitoff (a d : ℝ) : ℝ × ℝ :=
  (180 / Real.pi * (2 * √(2 / (1 + Real.cos d * Real.cos (a / 2))) * Real.cos d * Real.sin (a / 2)),
    180 / Real.pi * (√(2 / (1 + Real.cos d * Real.cos (a / 2))) * Real.sin d))

/-- Position on the whole-sky image (sky.py:558-561), counted from zero as `world_to_pixel` does: longitudes increase to the left. -/
noncomputable def aitoffPixel (scale : Nat) (a d : ℝ) : ℝ × ℝ :=
  (480 * scale / 2 + 1 / 2 - 1 - (aitoff a d).1 / (27 / 40 / scale), 240 * scale / 2 + 1 / 2 - 1 + (aitoff a d).2 / (27 / 40 / scale))

/-- A part of a sky: directions, one time, frequency and polarisation. Used for sky.py:67-81. -/
structure SkyPart where
  coords : List (ℚ × ℚ)
  time : ℚ
  freq : ℚ
  pol : ℚ
  value : List ℚ
  deriving DecidableEq

/-- `__sub__` (sky.py:84-90): the comparison is made direction by direction. Numbers of directions which differ raise in the comparison. -/
def SkyPart.sub (a b : SkyPart) : Except Err SkyPart :=
  if a.coords.length ≠ b.coords.length then .error .valueError
  else if (List.zipWith (fun p q => decide (p = q) && decide (a.time = b.time) && decide (a.freq = b.freq) && decide (a.pol = b.pol)) a.coords b.coords).all id
  then .ok { a with value := List.zipWith (· - ·) a.value b.value }
  else .error .valueError

/-- Resolution in the list of those available (sky.py:968-989) of the sky made by `shaped_like` (sky.py:949-962): the effective resolution of the other
one is asked for. -/
def shapedIndex (avail : Nat → ℚ) (n : Nat) (wanted : ℚ) : Nat := resolIndex avail n (avail (resolIndex avail n wanted))

end Verif.Astro
