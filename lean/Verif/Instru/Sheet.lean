import Verif.Common.Prelude
import Verif.Instru.Layout
import Mathlib.Algebra.Order.Floor.Ring
import Mathlib.Data.Rat.Floor

/-!
# Table of the mini-arrays from the spreadsheet (`nenupy/instru/instrument_tools.py`, `nenufar_mini_array_json_from_spreadsheet`)

A sheet is the list of its rows as pandas reads them. The reading of an angle from a text by astropy is a parameter; numbers are exact.
-/

namespace Verif.Instru.Sheet

/-- Cell of the column `MR` (instrument_tools.py:733, 736-737): a number, a text, or nothing. -/
inductive Mark
  | num (k : ℤ)
  | text (s : List Char)
  | missing

/-- A row of the sheet (instrument_tools.py:736-745); `none`: an empty cell, for angles also a cell which is no text. -/
structure Row where
  mark : Mark
  rotation : Option ℚ
  lon : Option (List Char)
  lat : Option (List Char)
  height : Option ℚ
  position : Option ℚ × Option ℚ × Option ℚ
  delay : Option ℚ
  attenuation : Option ℚ

/-- Properties of a mini-array (instrument_tools.py:737-744). -/
structure Entry where
  id : ℤ
  rotation : ℤ
  lon : Option ℚ
  lat : Option ℚ
  height : Option ℚ
  position : Option ℚ × Option ℚ × Option ℚ
  delay : Option ℚ
  attenuation : Option ℚ

/-- A comma becomes a point. Used for instrument_tools.py:713. -/
def point (c : Char) : Char := if c = ',' then '.' else c

/-- Text given to astropy (instrument_tools.py:713-715): two quotes at the end become one double quote. -/
def cleaned (s : List Char) : List Char :=
  if ['\'', '\''].isSuffixOf (s.map point) then (s.map point).dropLast.dropLast ++ ['"'] else s.map point

/-- Value of a `Longitude` in degrees, from 0 to 360. Used for instrument_tools.py:717. -/
def turn (d : ℚ) : ℚ := d - 360 * ⌊d / 360⌋

/-- `coord_txt_to_deg` (instrument_tools.py:709-721) as it is called, with `longitude=True`; `angle`: degrees of a text, if astropy
reads it. -/
def degrees (angle : List Char → Option ℚ) (t : Option (List Char)) : Option ℚ := (t.bind fun s => angle (cleaned s)).map turn

/-- Is the cell a text? Used for instrument_tools.py:733. -/
def Mark.isText : Mark → Bool
  | .text _ => true
  | _ => false

/-- `str.startswith("T", na=False)` (instrument_tools.py:733). -/
def Mark.unbuilt : Mark → Bool
  | .text s => s.head? == some 'T'
  | _ => false

/-- `int(row['MR'])` (instrument_tools.py:736-737); of texts only those of digits are read here (signs and spaces are left out). -/
def Mark.number : Mark → Except Err ℤ
  | .num k => .ok k
  | .text s => if s ≠ [] ∧ s.all Char.isDigit then .ok (Nat.ofDigitChars 10 s 0 : ℕ) else .error .valueError
  | .missing => .error .valueError

/-- `int` of a number: towards zero. Used for instrument_tools.py:738. -/
def towardsZero (q : ℚ) : ℤ := q.num.tdiv q.den

/-- Entry of a row (instrument_tools.py:736-744): the key needs a number, the rotation too. -/
def entryOf (angle : List Char → Option ℚ) (r : Row) : Except Err (List Char × Entry) :=
  r.mark.number.bind fun n => r.rotation.elim (.error .valueError) fun q =>
    .ok (maKey n, ⟨n, towardsZero q, degrees angle r.lon, degrees angle r.lat, r.height, r.position, r.delay, r.attenuation⟩)

/-- Item of a dictionary: replaced at its place, or added at the end. Used for instrument_tools.py:735-746. -/
def putItem (d : List (List Char × Entry)) (x : List Char × Entry) : List (List Char × Entry) :=
  if x.1 ∈ d.map Prod.fst then d.map fun y => if y.1 = x.1 then x else y else d ++ [x]

/-- The entries of the rows, in order; the first which fails stops it (instrument_tools.py:735-746). -/
def entries (angle : List Char → Option ℚ) : List Row → Except Err (List (List Char × Entry))
  | [] => .ok []
  | r :: l => (entryOf angle r).bind fun e => (entries angle l).map fun es => e :: es

/-- The table (instrument_tools.py:725-746); a column without any text has no `.str`. -/
def tableOf (angle : List Char → Option ℚ) (rows : List Row) : Except Err (List (List Char × Entry)) :=
  if rows ≠ [] ∧ rows.all (fun r => !r.mark.isText) then .error .attributeError
  else (entries angle (rows.filter fun r => !r.mark.unbuilt)).map fun es => es.foldl putItem []

/-- The whole function (instrument_tools.py:725-760): the file afterwards and what is returned; `answer`: what the user types. -/
def fromSheet (angle : List Char → Option ℚ) (rows : List Row) (save : Bool) (answer : String) (file : List (List Char × Entry)) :
    List (List Char × Entry) × Except Err (Option (List (List Char × Entry))) :=
  (tableOf angle rows).casesOn (fun e => (file, .error e)) fun d =>
    if save then (if answer = "yes" then d else file, .ok none) else (file, .ok (some d))

end Verif.Instru.Sheet
