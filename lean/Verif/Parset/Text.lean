import Verif.Common.Prelude

/-!
# Model of the text of parset files: `nenupy/observation/parset.py`

Strings are lists of characters. Only ASCII digits, blanks and letters are known to `isdigit`, `int`, `strip` and `lower`.
-/

namespace Verif.Parset

/-- A Python string. Used for parset.py:85. -/
abbrev Str := List Char

/-- `str(n)` of a natural number. Used for parset.py:1613-1620. -/
def natStr (n : Nat) : Str := Nat.toDigits 10 n

/-- `str(n)` of an integer. Used for parset.py:1595-1596. -/
def intStr : Int → Str
  | .ofNat n => natStr n
  | .negSucc n => '-' :: natStr (n + 1)

/-- `s.split(c)` for a single character. Used for parset.py:71-149. -/
def splitOn (c : Char) : Str → List Str
  | [] => [[]]
  | x :: s => if x = c then [] :: splitOn c s else (splitOn c s).modifyHead (x :: ·)

/-- `','.join(l)`. Used for parset.py:1595-1596. -/
def join (c : Char) : List Str → Str
  | [] => []
  | [s] => s
  | s :: t :: l => s ++ c :: join c (t :: l)

/-- `s.split('..')`. Used for parset.py:82-106. -/
def splitDots : Str → List Str
  | [] => [[]]
  | [x] => [[x]]
  | x :: y :: s => if x = '.' ∧ y = '.' then [] :: splitDots s else (splitDots (y :: s)).modifyHead (x :: ·)

/-- `'..' in s`. Used for parset.py:82-106. -/
def hasDots : Str → Bool
  | [] => false
  | [_] => false
  | x :: y :: s => (decide (x = '.') && decide (y = '.')) || hasDots (y :: s)

/-- `s.isdigit()`. Used for parset.py:82-106. -/
def isDigits (s : Str) : Bool := !s.isEmpty && s.all Char.isDigit

/-- Blanks. Used for parset.py:82-106. -/
def isBlank (c : Char) : Bool := c = ' ' || c = '\t' || c = '\n' || c = '\r'

/-- `s.strip()`. Used for parset.py:82-106. -/
def strip (s : Str) : Str := ((s.dropWhile isBlank).reverse.dropWhile isBlank).reverse

/-- A sign and digits. Used for parset.py:85. -/
def signed : Str → Except Err Int
  | '-' :: s => if isDigits s then .ok (-(Nat.ofDigitChars 10 s 0 : Int)) else .error .valueError
  | '+' :: s => if isDigits s then .ok (Nat.ofDigitChars 10 s 0) else .error .valueError
  | s => if isDigits s then .ok (Nat.ofDigitChars 10 s 0) else .error .valueError

/-- `int(s)`: blanks around and a sign are accepted. Underscores between digits are left out. Used for parset.py:85. -/
def pyInt (s : Str) : Except Err Int := signed (strip s)

/-- `range(a, b + 1)`. Used for parset.py:85. -/
def pyRange (a b : Int) : List Int := (List.range (b + 1 - a).toNat).map (fun i : Nat => a + i)

/-- An element of a parsed list. Used for parset.py:85. -/
inductive Item
  | int (n : Int)
  | time (s : Str)
  | str (s : Str)
  deriving DecidableEq, Repr

/-- The result of splitting a range in two, or the failed unpacking (parset.py:85). -/
def parseRange : List Str → Except Err (List Item)
  | [a, b] => (pyInt a).bind fun x => (pyInt b).map fun y => (pyRange x y).map Item.int
  | _ => .error .valueError

/-- One element of a list (parset.py:82-106). `isTime` tells which strings `Time` understands. -/
def parseElem (isTime : Str → Bool) (s : Str) : Except Err (List Item) :=
  if hasDots s then parseRange (splitDots s)
  else if ':' ∈ s then .ok [if isTime (strip s) then .time (strip s) else .str s]
  else if isDigits s then .ok [.int (Nat.ofDigitChars 10 s 0)]
  else .ok [.str s]

/-- The elements one after the other. Used for parset.py:71-149. -/
def parseElems (isTime : Str → Bool) : List Str → Except Err (List Item)
  | [] => .ok []
  | s :: l => (parseElem isTime s).bind fun x => (parseElems isTime l).map fun y => x ++ y

/-- Value of a property. Used for parset.py:71-149. -/
inductive PVal
  | list (l : List Item)
  | bool (b : Bool)
  | angle (s : Str)
  | int (n : Nat)
  | time (s : Str)
  | str (s : Str)
  deriving DecidableEq, Repr

/-- `s.lower()`. Used for parset.py:71-149. -/
def lower (s : Str) : Str := s.map Char.toLower

/-- `s.rstrip("s")`. Used for parset.py:71-149. -/
def rstripS (s : Str) : Str := (s.reverse.dropWhile (· = 's')).reverse

/-- `t in s` for strings. Used for parset.py:71-149. -/
def hasSub (t : Str) : Str → Bool
  | [] => t.isEmpty
  | x :: s => t.isPrefixOf (x :: s) || hasSub t s

/-- `float(value)` succeeds: not modelled further. Used for parset.py:71-149. -/
abbrev IsFloat := Str → Bool

/-- The value without line ends and quotes (parset.py:74-75). -/
def clean (s : Str) : Str := s.filter (fun c => !(c = '\n' || c = '"'))

/-- `_ParsetProperty.__setitem__` (parset.py:71-149): the value stored for `key`. -/
def setItem (isTime : Str → Bool) (isFloat : IsFloat) (key value : Str) : Except Err PVal :=
  let v := clean value
  if v.head? = some '[' ∧ v.getLast? = some ']' then (parseElems isTime (splitOn ',' (v.tail.dropLast))).map PVal.list
  else if lower v = "true".toList then .ok (.bool true)
  else if lower v = "false".toList then .ok (.bool false)
  else if hasSub "angle".toList (lower key) then (if isFloat v then .ok (.angle v) else .error .valueError)
  else if hasSub "duration".toList (lower key) then .ok (.str (rstripS v ++ ['s']))
  else if isDigits v then .ok (.int (Nat.ofDigitChars 10 v 0))
  else if ':' ∈ v then .ok (if isTime (strip v) then .time (strip v) else .str v)
  else .ok (.str (lower v))

/-- Text of a list in a user file (parset.py:1595-1596). -/
def listStr (l : List Int) : Str := '[' :: join ',' (l.map intStr) ++ [']']

/-! ## Consecutive runs -/

/-- `np.split(l, np.where(np.diff(l) != 1)[0] + 1)` (parset.py:399-402, 1328-1331, 1356-1359). -/
def runs : List Int → List (List Int)
  | [] => [[]]
  | [x] => [[x]]
  | x :: y :: l => if y = x + 1 then (runs (y :: l)).modifyHead (x :: ·) else [x] :: runs (y :: l)

/-- Width of a sub-band, in kHz (parset.py:49, instrument_tools.py:139). -/
def width : ℚ := 1953125 / 10000

/-- `sb2freq` of one sub-band, in kHz (instrument_tools.py:100-142). -/
def sb2freq (k : Int) : Except Err ℚ := if k < 0 ∨ 511 < k then .error .valueError else .ok (k * width - width / 2)

/-- Smallest and largest elements; an empty group has none (`min()` of an empty array). Used for parset.py:404-409. -/
def minMax : List Int → Except Err (Int × Int)
  | [] => .error .valueError
  | x :: l => .ok (l.foldl min x, l.foldl max x)

/-- One frequency interval (parset.py:404-409). -/
def freqGroup (g : List Int) : Except Err (ℚ × ℚ) :=
  (minMax g).bind fun p => (sb2freq p.1).bind fun lo => (sb2freq p.2).map fun hi => (lo, hi + width)

/-- All of a list, or the first exception. Used for parset.py:395-411. -/
def mapE {α β : Type} (f : α → Except Err β) : List α → Except Err (List β)
  | [] => .ok []
  | x :: l => (f x).bind fun y => (mapE f l).map fun r => y :: r

/-- `_get_frequency_dict` (parset.py:395-411): intervals "gte", "lt" in kHz. -/
def frequencyDict (l : List Int) : Except Err (List (ℚ × ℚ)) := mapE freqGroup (runs l)

/-- First and last element of a group (parset.py:1363-1364); an empty group raises. -/
def endsOf : List Int → Except Err (Int × Int)
  | [] => .error .indexError
  | x :: l => .ok (x, (x :: l).getLast (by simp))

/-- `_get_miniarray_dict` (parset.py:1353-1368). -/
def miniarrayDict (l : List Int) : Except Err (List (Int × Int)) := mapE endsOf (runs l)

/-! ## Angles and durations -/

/-- `_constrain_angle` (parset.py:211-223). -/
def constrainAngle (a lo hi : ℚ) : ℚ := if a < lo then lo else if hi < a then hi else a

/-- Seconds per unit (parset.py:1659-1663). -/
def unitSeconds (c : Char) : Option Nat := if c = 's' then some 1 else if c = 'm' then some 60 else if c = 'h' then some 3600 else none

/-- `re.match(r"(\d+)([smh])", s)` (parset.py:1652-1655): greedy digits, then a unit; the rest of the string is ignored. No match: `None.group` fails. -/
def getDuration (s : Str) : Except Err Nat :=
  let ds := s.takeWhile Char.isDigit
  match (s.dropWhile Char.isDigit).head?.bind unitSeconds with
  | none => .error .attributeError
  | some k => if ds = [] then .error .attributeError else .ok (Nat.ofDigitChars 10 ds 0 * k)

end Verif.Parset
