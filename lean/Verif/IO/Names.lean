import Verif.Common.Prelude

/-!
# Model of the names of files (`undysputed/dynspec.py`, `undysputed/waveform.py`, `observation/parset.py`, `schedule/open_time.py`)

Texts are lists of characters. Paths are absolute ones, made by `abspath`, with `/` between directories; which files are there is a parameter.
`FileNotFoundError` is `Err.exception`. Only the ten ASCII digits are digits.
-/

namespace Verif.IO.Names

abbrev Txt := List Char

/-- The pattern `_(?P<index>\d).spectra$` at the beginning of a text (dynspec.py:101): the dot is any character but the end of a line, and
`$` is the end, or the last end of line. -/
def laneHere : Txt → Option Char
  | '_' :: d :: c :: t => if d.isDigit ∧ c ≠ '\n' ∧ (t = "spectra".toList ∨ t = "spectra\n".toList) then some d else none
  | _ => none

/-- `pattern.findall(l)` (dynspec.py:102): at all places of the text; two of them never overlap as each goes to the end. -/
def laneFound (l : Txt) : List Char := l.tails.filterMap laneHere

/-- The number of a digit, `int(index[0])` (dynspec.py:107). -/
def digitVal (d : Char) : Nat := d.toNat - '0'.toNat

/-- Setter of `lanefile` (dynspec.py:96-108): the lane of the file. -/
def laneFile (there : Txt → Bool) (l : Txt) : Except Err Nat :=
  if there l = false then .error .exception
  else if (laneFound l).length ≠ 1 then .error .valueError
  else (laneFound l).head?.elim (.error .indexError) fun d => .ok (digitVal d)

/-- Setter of `rawlanefile` and the first lines of `_load` (waveform.py:63-77, 163-165): the lane, a text of one character. -/
def rawFile (there : Txt → Bool) (r : Txt) : Except Err Char :=
  if there r = false then .error .exception
  else if "raw".toList.isSuffixOf r = false then .error .valueError
  else if r.length < 5 then .error .indexError
  else r[r.length - 5]?.elim (.error .indexError) .ok

/-- Setter of `parset` before the decoding (parset.py:797-812). -/
def parsetFile (there : Txt → Bool) (p : Txt) : Except Err Txt :=
  if ¬(".parset".toList.isSuffixOf p ∨ ".parset_user".toList.isSuffixOf p) then .error .valueError
  else if there p = false then .error .exception
  else .ok p

/-- `ParsetUser.write` (parset.py:2486-2499): the name of the file written. -/
def writeUser (p : Txt) : Except Err Txt := if ".parset_user".toList.isSuffixOf p then .ok p else .error .valueError

/-- `basename`: what follows the last `/` (parset.py:878, 1146). -/
def basename (p : Txt) : Txt := (p.reverse.takeWhile fun c => decide (c ≠ '/')).reverse

/-- `str.replace(old, new)` from left to right, with `skip` characters of an occurrence still to leave out (parset.py:878, 1146). -/
def replGo (old new : Txt) : Nat → Txt → Txt
  | _, [] => []
  | k + 1, _ :: s => replGo old new k s
  | 0, c :: s => if old.isPrefixOf (c :: s) then new ++ replGo old new (old.length - 1) s else c :: replGo old new 0 s

/-- `basename(self.parset).replace(".parset", ".json")` (parset.py:878, 1146): the file written in the directory which is asked for. -/
def jsonName (p : Txt) : Txt := replGo ".parset".toList ".json".toList 0 (basename p)

/-- The files of a directory, after one is written (parset.py:763-767): what was there under this name is lost. -/
def save {α : Type} (dir : List (Txt × α)) (name : Txt) (x : α) : List (Txt × α) := (name, x) :: dir.filter fun f => decide (f.1 ≠ name)

/-- `to_json(path_name)` of several parset files, one after the other: content of the directory (parset.py:876-882). `content` stands for what is
exported of each (`Parset/Json.lean`). -/
def exportAll {α : Type} (content : Txt → α) : List (Txt × α) → List Txt → List (Txt × α)
  | dir, [] => dir
  | dir, p :: ps => exportAll content (save dir (jsonName p) (content p)) ps

/-- `excel_to_ics` (open_time.py:1170-1188): files written. The name of the calendar is computed and the calendar made, nothing is done with them. -/
def excelToIcs (f : Txt) (output : Option Txt) : Except Err (List Txt) :=
  if ".xlsx".toList.isSuffixOf f = false then .error .valueError
  else output.elim (.ok []) fun o => if ".ics".toList.isSuffixOf o = false then .error .valueError else .ok []

end Verif.IO.Names
