import Verif.Parset.Json
import Mathlib.Data.Real.Basic

/-!
# Model of the direction recorded for a block: `_get_pointing_center_dict` of `nenupy/observation/parset.py`

`F` is the number read by `float(text)`, as in `Json.lean`. The conversions between horizontal and equatorial coordinates and the
ephemerides are parameters (`Heavens`), so that everything below holds for any of them. Angles are in degrees; floats are real numbers.
-/

namespace Verif.Parset

/-- What astropy gives at the middle of a block which starts at a time (a text) and lasts some seconds: conversions of (ra, dec) to
(az, alt) and back, and the position of the bodies of the solar system, `none` for a name which is not known (parset.py:240-259,
283-298, 313-320, 330-357; target.py:1303-1323). -/
structure Heavens where
  toAz : Str → ℚ → ℝ × ℝ → ℝ × ℝ
  toEq : Str → ℚ → ℝ × ℝ → ℝ × ℝ
  body : Str → Str → ℚ → Option (ℝ × ℝ)

/-- `_constrain_angle` (parset.py:211-223). -/
noncomputable def constrain (a lo hi : ℝ) : ℝ := if a < lo then lo else if a > hi then hi else a

/-- `property['angle1'].to(u.deg)`: only angles have units (parset.py:237-238, 286, 291). The text of an angle has been accepted by
`float` when it was stored. -/
def angleOf (F : Str → Option ℚ) : PVal → Except Err ℝ
  | .angle s => (F s).elim (.error .valueError) fun q => .ok (q : ℝ)
  | _ => .error .attributeError

/-- `float(v)` of a value of a property (parset.py:249, 254, 265-266, 286, 291, 301, 306, 339, 344, 354-355). -/
def floatOf (F : Str → Option ℚ) : PVal → Except Err ℝ
  | .str s => (F s).elim (.error .valueError) fun q => .ok (q : ℝ)
  | .int n => .ok (n : ℝ)
  | .bool b => .ok (b.toNat : ℝ)
  | _ => .error .typeError

/-- `float(property.get(key, 0.0))` (parset.py:249, 254, 265-266, 286, 291, 301, 306, 339, 344, 354-355). -/
def offset (F : Str → Option ℚ) (d : Props) (k : Str) : Except Err ℝ := (dictGet d k).elim (.ok 0) (floatOf F)

/-- `property['startTime'] + duration`: only times can be added to a duration (parset.py:227-228). -/
def beginOf : PVal → Except Err Str
  | .time s => .ok s
  | _ => .error .typeError

/-- `property['directionType'].lower()` (parset.py:236). -/
def directionText : PVal → Except Err Str
  | .str s => .ok (lower s)
  | _ => .error .attributeError

/-- The key is in the property. Used for parset.py:230, 239, 333. -/
def has (d : Props) (k : Str) : Bool := (dictGet d k).isSome

/-- The block after `property["directionType"] = "azelgeo_azelfile"` (parset.py:230-233): the block itself is changed. -/
def withFile (d : Props) : Props :=
  if has d "azelFile".toList then dictSet d "directionType".toList (.str "azelgeo_azelfile".toList) else d

/-- Offsets in azimuth and elevation, limited, seen in the sky (parset.py:246-263, 283-298, 336-352). -/
noncomputable def shiftAz (F : Str → Option ℚ) (S : Heavens) (d : Props) (t : Str) (n : ℚ) (p : ℝ × ℝ) : Except Err (ℝ × ℝ) :=
  (offset F d "decal_az".toList).bind fun x => (offset F d "decal_el".toList).map fun y =>
    S.toEq t n (constrain (p.1 + x) 0 360, constrain (p.2 + y) 0 90)

/-- Offsets in azimuth and elevation of a position of the sky, if there are any (parset.py:239-263, 333-352). -/
noncomputable def moved (F : Str → Option ℚ) (S : Heavens) (d : Props) (t : Str) (n : ℚ) (p : ℝ × ℝ) : Except Err (ℝ × ℝ) :=
  if has d "decal_az".toList || has d "decal_el".toList then shiftAz F S d t n (S.toAz t n p) else .ok p

/-- Offsets in right ascension and declination, limited (parset.py:265-276, 299-309, 354-364). -/
noncomputable def shiftEq (F : Str → Option ℚ) (d : Props) (p : ℝ × ℝ) : Except Err (ℝ × ℝ) :=
  (offset F d "decal_ra".toList).bind fun x => (offset F d "decal_dec".toList).map fun y =>
    (constrain (p.1 + x) 0 360, constrain (p.2 + y) (-90) 90)

/-- `property['angle1']` and `property['angle2']` (parset.py:237-238, 286, 291). -/
def anglesOf (F : Str → Option ℚ) (d : Props) : Except Err (ℝ × ℝ) :=
  (item d "angle1".toList).bind fun a => (angleOf F a).bind fun a => (item d "angle2".toList).bind fun b => (angleOf F b).map fun b => (a, b)

/-- Position of a block of a type of direction (parset.py:236-364); `none` for `natif`. In the branch of `azelgeo` the code reads
the second angle after the first offset: only which exception is raised for a block with two faults differs. -/
noncomputable def position (F : Str → Option ℚ) (S : Heavens) (d : Props) (t : Str) (n : ℚ) (ty : Str) : Except Err (Option (ℝ × ℝ)) :=
  if ty = "j2000".toList then
    (anglesOf F d).bind fun p => (moved F S d t n p).bind fun q => (shiftEq F d q).map some
  else if ty = "azelgeo".toList then
    (anglesOf F d).bind fun p => (shiftAz F S d t n p).bind fun q => (shiftEq F d q).map some
  else if ty = "azelgeo_azelfile".toList then .ok (some (S.toEq t n (0, 90)))
  else if ty = "natif".toList then .ok none
  else (S.body ty t n).elim (.error .keyError) fun p => (moved F S d t n p).bind fun q => (shiftEq F d q).map some

/-- `_get_pointing_center_dict` of a block whose duration has been read (parset.py:227-375): position and type of direction. -/
noncomputable def pointingCenter (F : Str → Option ℚ) (S : Heavens) (d : Props) (n : ℚ) : Except Err (Option (ℝ × ℝ) × Str) :=
  (item d "startTime".toList).bind fun v => (beginOf v).bind fun t =>
  (item (withFile d) "directionType".toList).bind fun v => (directionText v).bind fun ty =>
  (position F S (withFile d) t n ty).map fun p => (p, ty)

end Verif.Parset
