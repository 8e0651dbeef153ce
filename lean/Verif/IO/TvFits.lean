import Verif.Astro.Sky
import Mathlib.Algebra.Order.Floor.Ring
import Mathlib.Data.Rat.Floor

/-!
# Images and near-fields of the NenuFAR-TV in FITS files (`nenupy/io/xst.py`)

Values are rationals, `none` is NaN; times are seconds. `write_map`, `read_map` and the masks of healpy, and the headers of astropy (upper-case names of extensions,
strings without blanks at their ends, refusal of NaN and of characters which cannot be printed), are written from the documentation of these libraries.
-/

namespace Verif.IO

open Verif.Astro (resolIndex)

/-- Value of missing pixels in healpy. Used for xst.py:1386-1389. -/
def unseen : ℚ := -(16375 * 10 ^ 26)

/-- Distance to `unseen` under which a pixel is missing. Used for xst.py:1388-1389. -/
def badMargin : ℚ := 1 / 10 ^ 8 + |unseen| / 10 ^ 5

/-- `mask_bad` of healpy. Used for xst.py:1389. -/
def maskBad (x : Option ℚ) : Bool := x.any fun q => decide (|q - unseen| ≤ badMargin)

/-- `mask_good` of healpy, in `write_map`. Used for xst.py:1464-1474. -/
def maskGood (x : Option ℚ) : Bool := x.any fun q => decide (badMargin < |q - unseen|)

/-- A polarisation of a sky: a text or a number. Used for xst.py:1398, 1461. -/
inductive PolLabel where
  | text (s : String)
  | num (n : Int)
deriving DecidableEq

/-- A sky of HEALPix: `nside = 2 ^ order`, frequencies in MHz. Used for xst.py:1392-1400. -/
structure TvSky where
  order : Nat
  times : List ℚ
  freqs : List ℚ
  pols : List PolLabel
  value : Nat → Nat → Nat → List (Option ℚ)

/-- Analog pointing: degrees, moment, and whether the frame is `AltAz`. Used for xst.py:1337-1355. -/
structure TvPoint where
  az : ℚ
  alt : ℚ
  moment : ℚ
  horizontal : Bool

/-- `TV_Image` (xst.py:1291-1335). The radius is in degrees. -/
structure TvImage where
  sky : TvSky
  point : TvPoint
  radius : ℚ

/-- `TV_Image.__init__` and the setter (xst.py:1294-1335, 1352-1356). -/
def mkTv (sky : TvSky) (p : TvPoint) (r : ℚ) : Except Err TvImage :=
  if p.horizontal then .ok ⟨sky, p, r⟩ else .error .valueError

/-- `.isot` of a time with some digits for the seconds, read back. Used for xst.py:1396, 1406, 1457, 1753, 1785. -/
def isot (digits : Nat) (t : ℚ) : ℚ := (⌊t * 10 ^ digits + 1 / 2⌋ : ℤ) / 10 ^ digits

/-- The map in the file: pixels with their positions, or everything. Used for xst.py:1464-1474. -/
inductive MapData where
  | cut (l : List (Nat × ℚ))
  | full (l : List (Option ℚ))

/-- The file: keys of the header that are read, and the map. `isPartial`: `OBJECT` holds `PARTIAL`. Used for xst.py:1383-1410, 1447-1474. -/
structure TvFile where
  azana : ℚ
  elana : ℚ
  freq : ℚ
  obstime : ℚ
  fov : ℚ
  stokes : PolLabel
  order : Nat
  isPartial : Bool
  map : MapData

/-- Pixels that are not missing, with their positions (`write_map`). Used for xst.py:1464-1474. -/
def goodPixels (m : List (Option ℚ)) : List (Nat × ℚ) :=
  m.zipIdx.filterMap fun p => if maskGood p.1 then p.1.map fun q => (p.2, q) else none

/-- `write_map` (xst.py:1464-1474): an empty partial map is refused. -/
def writeMap (part : Bool) (m : List (Option ℚ)) : Except Err MapData :=
  if part then (if goodPixels m = [] then .error .valueError else .ok (.cut (goodPixels m))) else .ok (.full m)

/-- First value of an axis. Used for xst.py:1456-1461. -/
def firstOf {α : Type} (l : List α) : Except Err α := l.head?.elim (.error .indexError) .ok

/-- `save_fits` (xst.py:1412-1479). `digits`: precision of the time. -/
def saveTv (digits : Nat) (part : Bool) (im : TvImage) : Except Err TvFile :=
  (firstOf im.sky.freqs).bind fun f => (firstOf im.sky.times).bind fun t => (firstOf im.sky.pols).bind fun p =>
    (writeMap part (im.sky.value 0 0 0)).map fun m =>
      ⟨im.point.az, im.point.alt, f, isot digits t, im.radius * 2, p, im.sky.order, part, m⟩

/-- `read_map` (xst.py:1386): pixels not in a partial file are missing. -/
def readMap (order : Nat) : MapData → List (Option ℚ)
  | .cut l => (List.range (12 * 4 ^ order)).map fun i => some (((l.find? fun p => p.1 == i).map Prod.snd).getD unseen)
  | .full m => m

/-- Missing pixels made NaN (xst.py:1387-1389). -/
def fillBad (part : Bool) (m : List (Option ℚ)) : List (Option ℚ) :=
  if part then m.map fun x => if maskBad x then none else x else m

/-- `HpxSky` of one image (xst.py:1392-1400; sky.py:904-924, 760-777): the nearest resolution, and a check of the number of pixels. `c` is the resolution of `nside = 1`. -/
def tvSky (c : ℚ) (order : Nat) (t f : ℚ) (p : PolLabel) (m : List (Option ℚ)) : Except Err TvSky :=
  if m.length = 12 * 4 ^ resolIndex (fun k => c / 2 ^ k) 30 (c / 2 ^ order)
  then .ok ⟨resolIndex (fun k => c / 2 ^ k) 30 (c / 2 ^ order), [t], [f], [p], fun _ _ _ => m⟩ else .error .valueError

/-- `from_fits` (xst.py:1383-1410). -/
def readTv (c : ℚ) (F : TvFile) : Except Err TvImage :=
  (tvSky c F.order F.obstime F.freq F.stokes (fillBad F.isPartial (readMap F.order F.map))).bind fun s =>
    mkTv s ⟨F.azana, F.elana, F.obstime, true⟩ (F.fov / 2)

/-- Label of an image of `make_image` (xst.py:333, 426): the argument `stokes`, whose default is "I". -/
def imageLabel (stokes : Option String) : PolLabel := .text (stokes.getD "I")

/-- `compute_nenufar_tv` (xst.py:2095-2106), from the time and the mean frequency: data of the Stokes parameter asked for (`getStokes`), image of these data (`image`).
`make_image` is called without the argument `stokes`. -/
def computeTv {D : Type} (getStokes : String → Except Err D) (image : D → List (Option ℚ)) (order : Nat) (t f : ℚ) (p : TvPoint) (r : ℚ) (stokes : String) :
    Except Err TvImage :=
  (getStokes stokes).bind fun d => mkTv ⟨order, [t], [f], [imageLabel none], fun _ _ _ => image d⟩ p r

/-- A two-dimensional array. Used for xst.py:1649-1657. -/
structure Plane where
  rows : Nat
  cols : Nat
  vals : List (Option ℚ)
deriving DecidableEq

/-- `TV_Nearfield` (xst.py:1649-1663): `freq` in MHz, `radius` in m. -/
structure Near where
  map : Plane
  imprints : List (String × Plane)
  npix : Nat
  time : ℚ
  freq : ℚ
  radius : ℚ
  minis : List Int
  stokes : String
deriving DecidableEq

/-- `TV_Nearfield.__init__` (xst.py:1649-1663): the checks. -/
def mkNear (N : Near) : Except Err Near :=
  if N.map.rows ≠ N.map.cols then .error .valueError
  else if N.imprints.any fun s => decide (¬(s.2.rows = N.map.rows ∧ s.2.cols = N.map.cols)) then .error .valueError
  else if N.npix ≠ N.map.rows then .error .valueError
  else .ok N

/-- `str.upper`. Used for xst.py:1760, 1792 and for names of extensions. -/
def upperStr (s : String) : String := String.ofList (s.toList.map Char.toUpper)

/-- Name of the extension of a source (xst.py:1780, 1799-1801), as astropy keeps it. -/
def hduName (s : String) : String := upperStr (String.ofList (s.toList.map fun x => if x = ' ' then '_' else x))

/-- A string of a header read back: without blanks at its end. Used for xst.py:1703, 1708. -/
def cardText (s : String) : String := String.ofList (s.toList.reverse.dropWhile (· = ' ')).reverse

/-- Characters allowed in a header. Used for xst.py:1760, 1792-1793. -/
def printable (s : String) : Bool := s.toList.all fun x => decide (32 ≤ x.toNat ∧ x.toNat ≤ 126)

/-- `DATAMIN` and `DATAMAX` (xst.py:1754-1755, 1786-1787): an empty array has no minimum, NaN is refused. -/
def rangeOk (p : Plane) : Bool := decide (p.vals ≠ []) && p.vals.all Option.isSome

/-- An extension: the name, `SOURCE`, and the keys read back. Used for xst.py:1693-1710. -/
structure Hdu where
  name : String
  source : String
  time : ℚ
  freq : ℚ
  radius : ℚ
  stokes : String
  data : Plane
  minis : List Int
deriving DecidableEq

/-- One extension of the near-field or of a source (xst.py:1749-1768, 1779-1801). -/
def planeHdu (digits : Nat) (N : Near) (name source : String) (p : Plane) : Except Err Hdu :=
  if rangeOk p && printable N.stokes && printable source then
    .ok ⟨name, cardText source, isot digits N.time, N.freq, N.radius, cardText (upperStr N.stokes), p, []⟩
  else .error .valueError

/-- The extensions of the sources (xst.py:1779-1802). -/
def sourceHdus (digits : Nat) (N : Near) : List (String × Plane) → Except Err (List Hdu)
  | [] => .ok []
  | s :: r => (planeHdu digits N (hduName s.1) s.1 s.2).bind fun h => (sourceHdus digits N r).map (h :: ·)

/-- The primary extension (xst.py:1730-1746): nothing of it is read. -/
def primaryHdu : Hdu := ⟨"PRIMARY", "", 0, 0, 0, "", ⟨0, 0, []⟩, []⟩

/-- The extension of the mini-arrays (xst.py:1770-1774). -/
def miniHdu (N : Near) : Hdu := ⟨"MINI-ARRAYS", "", 0, 0, 0, "", ⟨0, 0, []⟩, N.minis⟩

/-- `save_fits` of a near-field (xst.py:1712-1806). -/
def saveNear (digits : Nat) (N : Near) : Except Err (List Hdu) :=
  (planeHdu digits N "NEAR-FIELD" "" N.map).bind fun h =>
    (sourceHdus digits N N.imprints).map fun r => primaryHdu :: h :: miniHdu N :: r

/-- `reserved_names` (xst.py:1693). -/
def reservedNames : List String := ["PRIMARY", "NEAR-FIELD", "MINI-ARRAYS"]

/-- An entry of a dictionary set: the place of a former one is kept. Used for xst.py:1702-1706. -/
def setEntry (d : List (String × Plane)) (k : String) (v : Plane) : List (String × Plane) :=
  if d.any fun e => e.1 == k then d.map fun e => if e.1 = k then (k, v) else e else d ++ [(k, v)]

/-- `hdus[name]` (xst.py:1695-1698): the first extension of this name. -/
def hduOf (l : List Hdu) (name : String) : Except Err Hdu := (l.find? fun h => h.name == name).elim (.error .keyError) .ok

/-- `source_imprints` (xst.py:1702-1706). -/
def readImprints (l : List Hdu) : List (String × Plane) :=
  (l.filter fun h => !reservedNames.contains h.name).foldl (fun d h => setEntry d h.source h.data) []

/-- `from_fits` of a near-field (xst.py:1693-1710). -/
def readNear (l : List Hdu) : Except Err Near :=
  (hduOf l "NEAR-FIELD").bind fun h => (hduOf l "MINI-ARRAYS").bind fun m =>
    mkNear ⟨h.data, readImprints l, h.data.cols, h.time, h.freq, h.radius, m.minis, h.stokes⟩

end Verif.IO
