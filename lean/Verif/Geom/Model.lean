import Verif.Common.Prelude
import Mathlib.Analysis.SpecialFunctions.Trigonometric.Basic
import Mathlib.Analysis.SpecialFunctions.Trigonometric.Inverse
import Mathlib.Analysis.SpecialFunctions.Complex.Analytic

/-!
# Geometry: rotations, array factor, uvw, re-phasing, directions

Angles and lengths are real numbers (radians, metres); numpy computes with floating-point numbers.
-/

namespace Verif.Geom

open Real

noncomputable section

/-- A triple of numbers along the last axis of an array. Used for nenufar.py:338. -/
@[ext] structure V3 where
  x : ℝ
  y : ℝ
  z : ℝ

/-- The scalar product. Used for xst.py:310-314, 821-825. -/
def dot (a b : V3) : ℝ := a.x * b.x + a.y * b.y + a.z * b.z

/-- Sum of two triples. Used in specifications only. -/
def add (a b : V3) : V3 := ⟨a.x + b.x, a.y + b.y, a.z + b.z⟩

/-- Difference of two triples. Used for astro_tools.py:1097-1112. -/
def sub (a b : V3) : V3 := ⟨a.x - b.x, a.y - b.y, a.z - b.z⟩

/-- Opposite of a triple. Used for uvw.py:117. -/
def neg (a : V3) : V3 := ⟨-a.x, -a.y, -a.z⟩

/-- A 3 × 3 array, by rows. Used for nenufar.py:330-337. -/
@[ext] structure M3 where
  r1 : V3
  r2 : V3
  r3 : V3

/-- `np.dot(m, v)`. Used for uvw.py:117. -/
def mulVec (m : M3) (v : V3) : V3 := ⟨dot m.r1 v, dot m.r2 v, dot m.r3 v⟩

/-- `np.transpose(m)`. Used for astro_tools.py:1097-1112. -/
def transpose (m : M3) : M3 := ⟨⟨m.r1.x, m.r2.x, m.r3.x⟩, ⟨m.r1.y, m.r2.y, m.r3.y⟩, ⟨m.r1.z, m.r2.z, m.r3.z⟩⟩

/-- `np.dot(v, m)`. Used for nenufar.py:338. -/
def vecMul (v : V3) (m : M3) : V3 := mulVec (transpose m) v

/-- `np.matmul(a, b)`. Used for xst.py:307-309, 322-324. -/
def mul (a b : M3) : M3 := ⟨vecMul a.r1 b, vecMul a.r2 b, vecMul a.r3 b⟩

/-! ## Rotations -/

/-- `rotMatrix` of a mini-array (nenufar.py:330-337). -/
def maRotation (a : ℝ) : M3 := ⟨⟨cos a, -sin a, 0⟩, ⟨-sin a, -cos a, 0⟩, ⟨0, 0, 1⟩⟩

/-- Antenna positions of a rotated mini-array (nenufar.py:338), before the conversion to `float32`. -/
def maPosition (a : ℝ) (p : V3) : V3 := vecMul p (maRotation a)

/-- `rot_90` (interferometer.py:1216-1223), for any angle; the code uses `π / 2`. -/
def rot90 (a : ℝ) : M3 := ⟨⟨cos a, sin a, 0⟩, ⟨sin a, -cos a, 0⟩, ⟨0, 0, 1⟩⟩

/-- The transformation of `etrs_to_enu` (astro_tools.py:1102-1110). -/
def enuMatrix (lat lon : ℝ) : M3 :=
  ⟨⟨-sin lon, cos lon, 0⟩, ⟨-sin lat * cos lon, - sin lat * sin lon, cos lat⟩, ⟨cos lat * cos lon, cos lat * sin lon, sin lat⟩⟩

/-- `etrs_to_enu` (astro_tools.py:1097-1112) of one position; `c` is the position of the observer. -/
def etrsToEnu (lat lon : ℝ) (c p : V3) : V3 := vecMul (sub p c) (transpose (enuMatrix lat lon))

/-- `rot_uvw` (uvw.py:106-114), hour angle `h` and declination `d`. -/
def uvwMatrix (h d : ℝ) : M3 :=
  ⟨⟨sin h, cos h, 0⟩, ⟨-sin d * cos h, sin d * sin h, cos d⟩, ⟨cos d * cos h, -cos d * sin h, sin d⟩⟩

/-- `compute_uvw` (uvw.py:117) of one baseline: the opposite of the projection. -/
def uvw (h d : ℝ) (b : V3) : V3 := neg (mulVec (uvwMatrix h d) b)

/-- `_vis_rotation_matrix` (xst.py:69-89). -/
def visMatrix (ra dec : ℝ) : M3 :=
  ⟨⟨cos ra, -sin ra, 0⟩, ⟨-sin ra * sin dec, -cos ra * sin dec, cos dec⟩, ⟨sin ra * cos dec, cos ra * cos dec, sin dec⟩⟩

/-- Phase, in metres, of `rephase_visibilities` (xst.py:310-314, 821-825), from the centre `o` to the centre `n`: `(O[2] - N[2]) Oᵀ uvw`. -/
def rephasePhase (o n : M3) (w : V3) : ℝ := dot (vecMul (sub o.r3 n.r3) (transpose o)) w

/-- `new_uvw` of `rephase_visibilities` (xst.py:307-309, 322-324): `uvw (O Nᵀ)`. -/
def rephaseUvw (o n : M3) (w : V3) : V3 := vecMul w (mul o (transpose n))

/-- `rotate_visibilities` (xst.py:315-320, 826-831): what both functions return as visibilities, at wavelength `wl`. The data are not used. -/
def rephaseFactor (wl : ℝ) (o n : M3) (w : V3) : ℂ := Complex.exp (2 * Complex.I * (π : ℂ) * (rephasePhase o n w : ℂ) / (wl : ℂ))

/-! ## Array factor -/

/-- `_geometric_delays` (interferometer.py:1195-1228): position times the difference of ground projections. -/
def geoDelay (p sky pt : V3) : ℝ := dot (vecMul p (rot90 (π / 2))) (sub sky pt)

/-- `complex_array_factor` (interferometer.py:713-733) for one direction, wavelength `wl`, `n` antennas of positions `p`, weights `w` and delays `d`. -/
def complexFactor (n : Nat) (p : Nat → V3) (w d : Nat → ℝ) (wl : ℝ) (sky pt : V3) (normalize : Bool) : ℂ :=
  let s := ∑ i ∈ Finset.range n, (w i : ℂ) * Complex.exp (2 * Complex.I * (π : ℂ) / (wl : ℂ) * ((geoDelay (p i) sky pt + d i : ℝ) : ℂ))
  if normalize then s / (n : ℂ) else s

/-- `array_factor(return_complex=False)` (interferometer.py:737). -/
def arrayFactor (n : Nat) (p : Nat → V3) (w d : Nat → ℝ) (wl : ℝ) (sky pt : V3) (normalize : Bool) : ℝ :=
  (complexFactor n p w d wl sky pt normalize).re ^ 2 + (complexFactor n p w d wl sky pt normalize).im ^ 2

/-- `ground_projection` (astro_tools.py:1219-1250) of azimuth and altitude. -/
def groundProj (az alt : ℝ) : V3 := ⟨cos az * cos alt, sin az * cos alt, sin alt⟩

/-! ## Direction cosines -/

/-- `compute_lmn` (sky.py:863-873). -/
def lmn (ra dec ra0 dec0 : ℝ) : V3 :=
  let l := cos dec * sin (ra - ra0)
  let m := sin dec * cos dec0 - cos dec * sin dec0 * cos (ra - ra0)
  ⟨l, m, √(1 - l ^ 2 - m ^ 2)⟩

/-! ## Horizontal and equatorial coordinates -/

/-- `sin_elevation` (astro_tools.py:434). -/
def sinEl (lat dec h : ℝ) : ℝ := sin dec * sin lat + cos dec * cos lat * cos h

/-- `radec_to_altaz(fast_compute=True)` (astro_tools.py:402-450) after the hour angle is known: azimuth and elevation. -/
def toAltaz (lat dec h : ℝ) : ℝ × ℝ :=
  let el := arcsin (sinEl lat dec h)
  let az := arccos ((sin dec - sin el * sin lat) / (cos el * cos lat))
  (if 0 < sin h then 2 * π - az else az, el)

/-- `altaz_to_radec(fast_compute=True)` (astro_tools.py:539-568): hour angle and declination. -/
def toHadec (lat az el : ℝ) : ℝ × ℝ :=
  let sd := sin lat * sin el + cos lat * cos el * cos az
  let dec := arcsin sd
  let h := arccos ((sin el - sin lat * sd) / (cos lat * cos dec))
  (if 0 < sin az then 2 * π - h else h, dec)

/-- `elevation_min` (target.py:117-139), in radians. -/
def elevationMin (lat dec : ℝ) : ℝ :=
  let e := - (π / 2) + lat + dec
  if e < - (π / 2) then e + 2 * (- (π / 2) - e) else e

/-- `elevation_max` (target.py:143-164), in radians. -/
def elevationMax (lat dec : ℝ) : ℝ :=
  let e := π / 2 - lat + dec
  if e > π / 2 then e - 2 * (e - π / 2) else e

/-- `is_circumpolar` (target.py:92-104), in radians, for one direction. -/
def circumpolar (lat dec : ℝ) : Prop := π / 2 ≤ lat + dec

open Classical in
/-- `culmination_azimuth` (target.py:108-113), in radians. -/
def culminationAzimuth (lat dec : ℝ) : ℝ := if ¬ circumpolar lat dec then π else 0

end

end Verif.Geom
