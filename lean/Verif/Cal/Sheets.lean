import Verif.Cal.Model

/-!
# Spreadsheets and files of bookings (nenupy/schedule/open_time.py)

Texts are lists of ASCII characters. Times are in hours; `Angle(text, unit="hourangle").hour` is a parameter.
-/

namespace Verif.Cal

/-- Texts. Used for open_time.py:101-389. -/
abbrev Txt := List Char

/-- `\s` (open_time.py:134). -/
def blank (c : Char) : Bool := c = ' ' || ('\t' ≤ c && c ≤ '\r')

/-- The four kinds of key projects. Used for open_time.py:134, 616. -/
def kpKinds : List Txt := [['E', 'S'], ['S', 'P'], ['R', 'P'], ['L', 'T']]

/-- `(ES|SP|RP|LT)\S{2}` at the beginning of a text: the project and what follows (open_time.py:134, 239). -/
def kpAt : Txt → Option (Txt × Txt)
  | a :: b :: c :: d :: r => if [a, b] ∈ kpKinds ∧ blank c = false ∧ blank d = false then some ([a, b, c, d], r) else none
  | _ => none

/-- `re.search` of a project in a text: the leftmost one (open_time.py:616, 646, 686, 777). -/
def kpSearch : Txt → Option Txt
  | [] => none
  | c :: r => ((kpAt (c :: r)).map Prod.fst).or (kpSearch r)

/-- What follows at least one blank. Used for open_time.py:134. -/
def blanks1 (s : Txt) : Option Txt := if (s.head?).any blank then some (s.dropWhile blank) else none

/-- `(\d+|\d+:\d+)`: the text of the hour, and what follows (open_time.py:134). -/
def hourAt (s : Txt) : Option (Txt × Txt) :=
  if s.takeWhile Char.isDigit = [] then none
  else if (s.dropWhile Char.isDigit).head? = some ':' ∧ ((s.dropWhile Char.isDigit).tail).takeWhile Char.isDigit ≠ [] then
    some (s.takeWhile Char.isDigit ++ ':' :: ((s.dropWhile Char.isDigit).tail).takeWhile Char.isDigit,
      ((s.dropWhile Char.isDigit).tail).dropWhile Char.isDigit)
  else some (s.takeWhile Char.isDigit, s.dropWhile Char.isDigit)

/-- `-`, and what follows. Used for open_time.py:134. -/
def dash (s : Txt) : Option Txt := if s.head? = some '-' then some s.tail else none

/-- A text `(…)`, with at least one character inside, all on one line. Used for open_time.py:134. -/
def inBrackets (s : Txt) : Bool := s.head? = some '(' && s.getLast? = some ')' && decide (3 ≤ s.length) && s.all fun c => decide (c ≠ '\n')

/-- A text without its last blanks. Used for open_time.py:134. -/
def rstrip (s : Txt) : Txt := (s.reverse.dropWhile blank).reverse

/-- `(?P<comment>\s+\(.+\))?(\s+)?$` (open_time.py:134). -/
def tailOk (s : Txt) : Bool := s.all blank || ((s.head?).any blank && inBrackets ((rstrip s).dropWhile blank))

/-- The expression of `to_ical` (open_time.py:134): project, start and stop. -/
def parseBooking (s : Txt) : Option (Txt × Txt × Txt) :=
  (kpAt s).bind fun k => (blanks1 k.2).bind fun r1 => (hourAt r1).bind fun h1 => (dash (h1.2.dropWhile blank)).bind fun r2 =>
    (hourAt (r2.dropWhile blank)).bind fun h2 => if tailOk h2.2 then some (k.1, h1.1, h2.1) else none

/-- A booking. Used for open_time.py:143-150. -/
structure Book where
  kp : Txt
  b : ℚ
  e : ℚ
  text : Txt
  deriving DecidableEq, Repr

/-- One cell (open_time.py:133-150): a text which is not understood is printed, and then used as if it was; an event cannot end before it begins. -/
def cellBook (ang : Txt → Option ℚ) (day : ℚ) (s : Txt) : Except Err Book :=
  (parseBooking s).elim (.error .typeError) fun p =>
    (ang p.2.1).elim (.error .valueError) fun a => (ang p.2.2).elim (.error .valueError) fun z =>
      if day + z < day + a then .error .valueError else .ok ⟨p.1, day + a, day + z, s⟩

/-- The different texts of a day (open_time.py:132, 219); their order is left out. -/
def dayTexts (row : List (Option Txt)) : List Txt := (row.filterMap id).dedup

/-- All the bookings of a file, before they are merged (open_time.py:126-150); days are given by their first hour. -/
def sheetBooks (ang : Txt → Option ℚ) (rows : List (ℚ × List (Option Txt))) : Except Err (List Book) :=
  (rows.flatMap fun d => (dayTexts d.2).map fun s => (d.1, s)).foldr
    (fun c (acc : Except Err (List Book)) => (cellBook ang c.1 c.2).bind fun b => acc.map fun l => b :: l) (.ok [])

/-! ## Accounting of a file -/

/-- The expression of the strict check (open_time.py:227). -/
def strictOk (s : Txt) : Bool :=
  (kpAt s).any fun k => (k.2.head?).any blank && (hourAt k.2.tail).any fun h1 => (dash h1.2).any fun r2 => (hourAt r2).any fun h2 =>
    decide (h2.2 = []) || decide (h2.2 = ['\n']) ||
      ((h2.2.head?).any blank && (inBrackets h2.2.tail || (decide (h2.2.getLast? = some '\n') && inBrackets h2.2.tail.dropLast)))

/-- The next word, if there is one. Used for open_time.py:254. -/
def nextWord (s : Txt) : Option Txt :=
  if (s.dropWhile blank).takeWhile (fun c => !blank c) = [] then none else some ((s.dropWhile blank).takeWhile fun c => !blank c)

/-- `(?P<start>\S+)\s*-\s*(?P<stop>\S+)` when the start is only the first `i` characters of the word `w`, followed by `rest`. Used for open_time.py:254. -/
def splitAt (w rest : Txt) (i : Nat) : Option (Txt × Txt) :=
  if w[i]? = some '-' ∧ i ≠ 0 then (nextWord (w.drop (i + 1) ++ rest)).map fun z => (w.take i, z) else none

/-- The same when the start is the whole word. Used for open_time.py:254. -/
def splitWhole (w rest : Txt) : Option (Txt × Txt) := (dash (rest.dropWhile blank)).bind fun q => (nextWord q).map fun z => (w, z)

/-- The expression of `info` (open_time.py:254): the longest start which works. -/
def looseTimes (s : Txt) : Option (Txt × Txt) :=
  (kpAt s).bind fun k => (blanks1 k.2).bind fun r =>
    if r = [] then none else
    (splitWhole (r.takeWhile fun c => !blank c) (r.dropWhile fun c => !blank c)).or
      ((List.range (r.takeWhile fun c => !blank c).length).reverse.findSome?
        (splitAt (r.takeWhile fun c => !blank c) (r.dropWhile fun c => !blank c)))

/-- Counts and totals. Used for open_time.py:199-213. -/
structure Totals where
  hours : ℚ
  day : ℚ
  night : ℚ
  errors : Nat
  kps : List Txt
  deriving Repr

/-- Whether the number of cells does not agree with the hours (open_time.py:294-302). -/
def cellsWrong (count : Nat) (hours stop : ℚ) : Bool :=
  decide ((count : ℤ) ≠ ⌈hours⌉) && !(decide (1 / 900 < stop - ⌊stop⌋) && decide ((count : ℤ) = ⌈hours⌉ + 1))

/-- Errors found once the times are known (open_time.py:289-302). `int` cuts the hour towards zero, which is the floor for the times of a sheet, never negative. -/
def lateErrors (start stop : ℚ) (index count : Nat) : Nat :=
  (if ⌊start⌋ ≠ (index : ℤ) then 1 else 0) + if cellsWrong count (stop - start) stop then 1 else 0

/-- One different text of a day (open_time.py:223-307), first seen in column `index`, in `count` cells; `kp` is the asked project, empty for all. -/
def infoCell (ang : Txt → Option ℚ) (strict : Bool) (kp : Txt) (season : Season) (s : Txt) (index count : Nat) (T : Totals) : Totals :=
  if strict = true ∧ strictOk s = false then { T with errors := T.errors + 1 }
  else (kpAt s).elim { T with errors := T.errors + 1 } fun k =>
    if kp ≠ [] ∧ k.1 ≠ kp then { T with kps := T.kps ++ if k.1 ∈ T.kps then [] else [k.1] }
    else ((looseTimes s).bind fun p => (ang p.1).bind fun a => (ang p.2).map fun z => (a, z)).elim
      { T with kps := T.kps ++ (if k.1 ∈ T.kps then [] else [k.1]), errors := T.errors + 1 } fun p =>
        ⟨T.hours + (p.2 - p.1), T.day + (sortNight season p.1 p.2).1, T.night + (sortNight season p.1 p.2).2,
          T.errors + lateErrors p.1 p.2 index count, T.kps ++ if k.1 ∈ T.kps then [] else [k.1]⟩

/-- A different text of a day: the season of the day, the text, its first column and its number of cells. Used for open_time.py:215-223. -/
structure Item where
  season : Season
  text : Txt
  index : Nat
  count : Nat

/-- The different texts of a day, with their first column and number of cells (open_time.py:218-220). -/
def dayItems (d : Season × List (Option Txt)) : List Item :=
  (dayTexts d.2).map fun s => ⟨d.1, s, d.2.findIdx fun v => decide (v = some s), (d.2.filter fun v => decide (v = some s)).length⟩

/-- `XLSFile.info` (open_time.py:197-317): the totals which are printed. -/
def sheetInfo (ang : Txt → Option ℚ) (strict : Bool) (kp : Txt) (days : List (Season × List (Option Txt))) : Totals :=
  (days.flatMap dayItems).foldl (fun T i => infoCell ang strict kp i.season i.text i.index i.count T) ⟨0, 0, 0, 0, []⟩

/-! ## Calendars from several files -/

/-- Calendars by project, in order of insertion. Used for open_time.py:610, 640, 680. -/
abbrev Cals (α : Type) := List (Txt × List α)

/-- `calendars[kp] = …` (open_time.py:625). -/
def putCal {α : Type} (k : Txt) (v : List α) : Cals α → Cals α
  | [] => [(k, v)]
  | x :: l => if x.1 = k then (k, v) :: l else x :: putCal k v l

/-- The calendar of a project, empty when there is none. Used for open_time.py:651-652. -/
def getCal {α : Type} (k : Txt) (c : Cals α) : List α := ((c.find? fun x => decide (x.1 = k)).map Prod.snd).getD []

/-- The events, each with its project (open_time.py:629-633, 669-673, 700-702). -/
def calEvents {α : Type} (c : Cals α) : List (Txt × α) := c.flatMap fun x => x.2.map fun e => (x.1, e)

/-- `NenuCalendar.from_ics` (open_time.py:608-635), from the base names and the events of the files. -/
def fromIcs {α : Type} (files : List (Txt × List α)) : Except Err (List (Txt × α)) :=
  (files.foldl (fun (acc : Except Err (Cals α)) f => acc.bind fun c => (kpSearch f.1).elim (.error .valueError) fun k => .ok (putCal k f.2 c)) (.ok [])).map
    calEvents

/-- `NenuCalendar.from_csv` (open_time.py:638-675). -/
def fromCsv {α : Type} (files : List (Txt × List α)) : Except Err (List (Txt × α)) :=
  (files.foldl (fun (acc : Except Err (Cals α)) f => acc.bind fun c => (kpSearch f.1).elim (.error .valueError) fun k => .ok (putCal k (getCal k c ++ f.2) c))
    (.ok [])).map calEvents

/-- `NenuCalendar.from_xls` (open_time.py:678-704), from the calendars `to_ical` gives for each file. -/
def fromXls {α : Type} (files : List (Cals α)) : List (Txt × α) :=
  calEvents (files.foldl (fun c f => f.foldl (fun c x => putCal x.1 x.2 c) c) [])

/-! ## Moving an event -/

/-- An event of a calendar, with the checks of its setters. Used for open_time.py:511-529. -/
structure Slot where
  b : ℚ
  e : ℚ
  deriving DecidableEq, Repr

/-- Setter of `begin`, in the package `ics`. Used for open_time.py:513, 524. -/
def Slot.setBegin (x : Slot) (v : ℚ) : Except Err Slot := if x.e < v then .error .valueError else .ok ⟨v, x.e⟩

/-- Setter of `end`, in the package `ics`. Used for open_time.py:514, 523. -/
def Slot.setEnd (x : Slot) (v : ℚ) : Except Err Slot := if v < x.b then .error .valueError else .ok ⟨x.b, v⟩

/-- `SIDEREAL_DAY_TIMEDELTA` in hours, with the microseconds of `timedelta`: 4.0905 s = 4 090 500 µs (open_time.py:394). -/
def siderealDay : ℚ := 23 + 56 / 60 + 40905 / 10000 / 3600

/-- `_shift_event_one_day_earlier` (open_time.py:511-514), without the drawing. -/
def Slot.earlier (x : Slot) : Except Err Slot := (x.setBegin (x.b - siderealDay)).bind fun y => y.setEnd (y.e - siderealDay)

/-- `_shift_event_one_day_later` (open_time.py:521-524), without the drawing. -/
def Slot.later (x : Slot) : Except Err Slot := (x.setEnd (x.e + siderealDay)).bind fun y => y.setBegin (y.b + siderealDay)

/-- Keys. Used for open_time.py:550-561. -/
inductive Key
  | up | down | other
  deriving DecidableEq, Repr

/-- `_on_key_press` (open_time.py:550-565): the event, which may have moved, and what is raised: `_update_draw` needs an argument. -/
def keyPress (selected : Bool) (k : Key) (x : Slot) : Slot × Option Err :=
  if selected = false ∨ k = .other then (x, none)
  else ((if k = .up then x.earlier else x.later).toOption.getD x, some .typeError)

/-! ## Pages of a calendar -/

/-- Whether an event is listed on the page of a month (open_time.py:881-899). Months are numbered from year 0: the year is the quotient by 12, the name is given by the
remainder. -/
def onPage (bm em : Int) (page : Int) : Bool := decide (page = bm) || (decide (bm % 12 ≠ em % 12) && decide (page = em))

/-- Whether an event is drawn on the line of a day, from `d0` to `d1`, of the page of a month (open_time.py:948-958). -/
def drawnOn (month : ℚ → Int) (b e : ℚ) (page : Int) (d0 d1 : ℚ) : Bool := onPage (month b) (month e) page && timeIntersection b e d0 d1

end Verif.Cal
