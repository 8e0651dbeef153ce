import Verif.Common.Prelude
import Verif.Parset.Text
import Mathlib.Data.List.Sort
import Mathlib.Data.List.Dedup

/-!
# Models of antennas computed by CST (nenupy/instru/antenna.py)

Angles are in degrees and rational, as the gains. The grid of `healpy` (RING scheme) has its exact azimuths; the elevation of a ring is a parameter. Texts are lists of characters.
-/

namespace Verif.Instru.Cst

open Verif Parset

/-! ## Name and header of a file -/

/-- What follows the first occurrence of a text. Used for antenna.py:144. -/
def after (pat : Str) : Str → Option Str
  | [] => if pat = [] then some [] else none
  | x :: s => if pat.isPrefixOf (x :: s) then some ((x :: s).drop pat.length) else after pat s

/-- First group of `re.findall(r"\(f=(.*?)\)", name)` (antenna.py:144), for a name without ends of lines. -/
def freqGroup (name : Str) : Option Str := (after ['(', 'f', '='] name).bind fun s => if ')' ∈ s then some (s.takeWhile (· ≠ ')')) else none

/-- `_infer_frequency_from_name` (antenna.py:143-147), before the conversion by `float`: the result of `findall` is never `None`. -/
def freqText (name : Str) : Except Err Str := (freqGroup name).elim (.error .indexError) .ok

/-- `name, unit = col.split("[")` (antenna.py:172-174): the name without spaces, and the unit without spaces around nor dots. -/
def column (col : Str) : Except Err (Str × Str) :=
  if (splitOn '[' col).length = 2 then .ok (((splitOn '[' col).getD 0 []).filter (· ≠ ' '), (strip ((splitOn '[' col).getD 1 [])).filter (· ≠ '.'))
  else .error .valueError

/-- The columns of the header of a file (antenna.py:165-174), before their units are looked for by `astropy`. -/
def columns (header : Str) : Except Err (List (Str × Str)) := (splitOn ']' header).dropLast.mapM column

/-! ## Grid -/

/-- A row of the table of a file: the two coordinates and the gain. Used for antenna.py:176-182. -/
structure Row where
  phi : ℚ
  theta : ℚ
  gain : ℚ
  deriving DecidableEq

/-- `_infer_2d_shape` (antenna.py:185-189), for `Phi` and `Theta`. -/
def shape (rows : List Row) : Except Err (Nat × Nat) :=
  if (rows.map Row.theta).dedup.length = 0 then .error .zeroDivision
  else if (rows.length : ℚ) / ((rows.map Row.theta).dedup.length : ℚ) = ((rows.map Row.phi).dedup.length : ℚ) then
    .ok ((rows.map Row.phi).dedup.length, (rows.map Row.theta).dedup.length)
  else .error .assertion

/-- Item `[i, j]` of a column reshaped to `y` columns. Used for antenna.py:110, 192-195. -/
def cell (rows : List Row) (y i j : Nat) : Row := rows.getD (i * y + j) ⟨0, 0, 0⟩

/-- What is given to `RegularGridInterpolator` (antenna.py:107-120). -/
structure Grid where
  xs : List ℚ
  ys : List ℚ
  gain : List (List ℚ)
  deriving DecidableEq

/-- The grid (antenna.py:110-115, 191-198): the row of the first `Phi` is repeated at 360 degrees, and `Theta` becomes an elevation. -/
def gridOf (rows : List Row) (s : Nat × Nat) : Grid :=
  ⟨((List.range s.1).map fun i => (cell rows s.2 i 0).phi) ++ [360], (List.range s.2).map fun j => 90 - (cell rows s.2 0 j).theta,
    ((List.range s.1).map fun i => (List.range s.2).map fun j => (cell rows s.2 i j).gain) ++ [(List.range s.2).map fun j => (cell rows s.2 0 j).gain]⟩

/-- Check of `RegularGridInterpolator` (antenna.py:117-121): each axis increases or decreases. -/
def monotonic (l : List ℚ) : Prop := l.Pairwise (· < ·) ∨ l.Pairwise (· > ·)

instance (l : List ℚ) : Decidable (monotonic l) := inferInstanceAs (Decidable (_ ∨ _))

/-- The interpolator of a file (antenna.py:107-121). -/
def interpolator (rows : List Row) : Except Err Grid :=
  (shape rows).bind fun s => if monotonic (gridOf rows s).xs ∧ monotonic (gridOf rows s).ys then .ok (gridOf rows s) else .error .valueError

/-- Linear interpolation on an increasing or decreasing axis; `none` (NaN) outside of it. Used for antenna.py:117-121, 137. -/
def lerp : List (ℚ × ℚ) → ℚ → Option ℚ
  | p :: q :: l, a =>
    if (p.1 ≤ a ∧ a ≤ q.1) ∨ (q.1 ≤ a ∧ a ≤ p.1) then some (p.2 + (q.2 - p.2) * ((a - p.1) / (q.1 - p.1))) else lerp (q :: l) a
  | _, _ => none

/-- Values of all the rows at an elevation, if there are some. Used for antenna.py:137. -/
def rowsAt (g : Grid) (e : ℚ) : Option (List ℚ) := g.gain.mapM fun row => lerp (g.ys.zip row) e

/-- `gain_interp((azimuth, elevation))` (antenna.py:137). -/
def gainAt (g : Grid) (a e : ℚ) : Option ℚ := (rowsAt g e).bind fun v => lerp (g.xs.zip v) a

/-! ## Map of the sky -/

/-- Number of pixels of ring `r`, from 1 to `4 ns - 1`. Used for antenna.py:124-129. -/
def ringSize (ns r : Nat) : Nat := if r < ns then 4 * r else if r ≤ 3 * ns then 4 * ns else 4 * (4 * ns - r)

/-- The first pixel of a ring is half a pixel away from the azimuth 0, or at this azimuth. Used for antenna.py:124-129. -/
def shifted (ns r : Nat) : Bool := decide (r < ns) || decide (3 * ns < r) || decide ((r + ns) % 2 = 0)

/-- The pixels in the order of their numbers: ring, and place in the ring. Used for antenna.py:124-129. -/
def pixels (ns : Nat) : List (Nat × Nat) := (List.range (4 * ns - 1)).flatMap fun r => (List.range (ringSize ns (r + 1))).map fun j => (r + 1, j)

/-- Azimuth of a pixel given by `hp.pix2ang` (antenna.py:124-129). -/
def azimuth (ns : Nat) (p : Nat × Nat) : ℚ := 360 * (((p.2 : ℚ) + if shifted ns p.1 then 1 / 2 else 0) / (ringSize ns p.1 : ℚ))

/-- `to_healpix` (antenna.py:124-137): the list of azimuths is reversed, that of elevations is not. `el` is the elevation of a ring. -/
def toHealpix (g : Grid) (ns : Nat) (el : Nat → ℚ) : List (Option ℚ) :=
  List.zipWith (gainAt g) ((pixels ns).map (azimuth ns)).reverse ((pixels ns).map fun p => el p.1)

/-! ## File of an antenna -/

/-- A model: the text of its frequency, its frequency and its map. Used for antenna.py:249-261. -/
structure Model where
  text : Str
  freq : ℚ
  map : List (Option ℚ)
  deriving DecidableEq

/-- Columns of a polarisation (antenna.py:242-261): by increasing frequency. `pol` is `"NW"` or `"NE"`. -/
def polColumns (pol : Str) (files : Option (List Model)) : Except Err (List (Str × List (Option ℚ))) :=
  files.elim (.ok []) fun l => if l = [] then .error .exception
    else .ok ((l.insertionSort fun a b => a.freq ≤ b.freq).map fun m => (pol ++ '_' :: m.text, m.map))

/-- `write_healpix_antenna_file` (antenna.py:232-270): the columns written, `none` when no file is written. -/
def writeFile (nw ne : Option (List Model)) : Except Err (Option (List (Str × List (Option ℚ)))) :=
  (polColumns ['N', 'W'] nw).bind fun a => (polColumns ['N', 'E'] ne).map fun b => if a ++ b = [] then none else some (a ++ b)

/-- `polar, frequency = name.split("_")` for each column (nenufar.py:141-144), before the conversion by `float`. -/
def readNames (cols : List (Str × List (Option ℚ))) : Except Err (List (Str × Str × List (Option ℚ))) :=
  cols.mapM fun c => if (splitOn '_' c.1).length = 2 then .ok ((splitOn '_' c.1).getD 0 [], (splitOn '_' c.1).getD 1 [], c.2) else .error .valueError

/-- Fields of a polarisation (nenufar.py:156-166): texts of the frequencies and maps. -/
def readPol (cols : List (Str × List (Option ℚ))) (pol : Str) : Except Err (List (Str × List (Option ℚ))) :=
  (readNames cols).bind fun l => if (l.filter fun c => decide (c.1 = pol)) = [] then .error .exception
    else .ok ((l.filter fun c => decide (c.1 = pol)).map Prod.snd)

end Verif.Instru.Cst
