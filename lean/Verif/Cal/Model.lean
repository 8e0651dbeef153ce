import Verif.Common.Prelude
import Mathlib.Data.List.Sort

/-!
# Model of calendars of observing time: `nenupy/schedule/open_time.py` and the masks of `nenupy/observation/obs_tools.py`

Instants and hours are rational numbers.
-/

namespace Verif.Cal

/-! ## Night and day hours -/

/-- Seasons. Used for open_time.py:63-66. -/
inductive Season
  | summer | winter
  deriving DecidableEq, Repr

/-- `NIGHT_TIME[season]`: end of the morning night and start of the evening night, in hours (open_time.py:63-66, obs_tools.py:407-410). -/
def nightBounds : Season → ℚ × ℚ
  | .winter => (4, 20)
  | .summer => (3, 19)

/-- `_sort_night_time` (open_time.py:84-97): day hours and night hours of a booking from `start` to `stop`, hours of the same day. -/
def sortNight (s : Season) (start stop : ℚ) : ℚ × ℚ :=
  let day0 := stop - start
  let morning := max 0 ((nightBounds s).1 - start)
  let evening := max 0 (stop - (nightBounds s).2)
  let night0 := morning + evening
  let night := night0 + min 0 (day0 - night0)
  (day0 - night, night)

/-- `NenuCalendar.info` for one event (open_time.py:713-740), which starts at hour `h` of its day and lasts `d` hours; the season is that of its first day. -/
def eventHours (s : Season) (h d : ℚ) : ℚ × ℚ :=
  let stopHour := h + d - 24 * ⌊(h + d) / 24⌋
  if stopHour ≤ h then
    ((sortNight s h 24).1 + (sortNight s 0 stopHour).1, (sortNight s h 24).2 + (sortNight s 0 stopHour).2)
  else sortNight s h stopHour

/-! ## Season and night masks -/

/-- The calendar as seen by `time_to_season_mask`: dates of the start of the year, of summer and of winter, for each year. Used for obs_tools.py:374-382. -/
structure Years where
  jan : Int → ℚ
  summer : Int → ℚ
  winter : Int → ℚ

/-- Real calendars. Used for obs_tools.py:374-382. -/
structure Years.Ok (Y : Years) : Prop where
  js : ∀ y, Y.jan y < Y.summer y
  sw : ∀ y, Y.summer y < Y.winter y
  wj : ∀ y, Y.winter y < Y.jan (y + 1)

/-- The loop `while current_year <= stop_year` (obs_tools.py:374-382) on one time: `n` years from `y`. -/
def summerLoop (Y : Years) (t : ℚ) (y : Int) : Nat → Bool
  | 0 => false
  | n + 1 => (decide (Y.summer y ≤ t) && decide (t < Y.winter y)) || summerLoop Y t (y + 1) n

/-- `time_to_season_mask(season="summer")` (obs_tools.py:335-387) on one of the times; `y0` is the year of the first time of the array, `y1` that of the last one, rounded up
(371-372). -/
def summerMask (Y : Years) (y0 y1 : Int) (t : ℚ) : Bool := summerLoop Y t y0 (y1 - y0 + 1).toNat

/-- `time_to_night_mask` (obs_tools.py:394-427) on one time of hour `h`. For winter line 424 tests the morning twice. -/
def nightMask (summer : Bool) (h : ℚ) : Bool :=
  if summer then (decide (0 ≤ h) && decide (h ≤ 3)) || (decide (19 ≤ h) && decide (h ≤ 24))
  else (decide (0 ≤ h) && decide (h ≤ 4)) || (decide (0 ≤ h) && decide (h ≤ 4))

/-- `_season_from_time` (open_time.py:69-82): `y` is the year of `t`. -/
def seasonOf (Y : Years) (y : Int) (t : ℚ) : Season := if Y.summer y ≤ t ∧ t < Y.winter y then .summer else .winter

/-! ## Events -/

/-- A calendar event: bounds, key project of the calendar (`kp_name`), and the key project written in its name, if any. Used for open_time.py:412-413. -/
structure Ev where
  b : ℚ
  e : ℚ
  kp : String
  nameKp : Option String
  deriving DecidableEq, Repr

/-- `NenuEvent.__lt__` (open_time.py:412-413). -/
def Ev.lt (x y : Ev) : Prop := x.b < y.e

instance : DecidableRel Ev.lt := fun x y => inferInstanceAs (Decidable (x.b < y.e))

/-- `other in self` (open_time.py:415-434). -/
def Ev.overlaps (x y : Ev) : Bool := decide (max |x.e - y.b| |y.e - x.b| < (x.e - x.b) + (y.e - y.b))

/-- `NenuCalendar._time_intersection` (open_time.py:1067-1095). -/
def timeIntersection (b1 e1 b2 e2 : ℚ) : Bool := decide (max e1 e2 - min b1 b2 < (e1 - b1) + (e2 - b2))

/-- A line of the file of bookings. Used for open_time.py:848-863. -/
structure Line where
  start : ℚ
  stop : ℚ
  kp : String
  deriving DecidableEq, Repr

/-- Renaming of two projects (open_time.py:849-852), applied to the project code in the name. -/
def rename (s : String) : String := if s = "LT00" then "ES00" else if s = "RP5A" then "RP3A" else s

/-- The line of an event (open_time.py:848-863). -/
def lineOf (start : ℚ) (x : Ev) : Except Err Line :=
  match x.nameKp with
  | none => .error .exception
  | some k => if rename k ≠ x.kp then .error .exception else .ok ⟨start, x.e, rename k⟩

/-- The loop of `write_vcr_csv` (open_time.py:818-863): the lines that reach the file, and the exception if any. `merged` tells whether the `while` loop was entered for this
event: then the overlap with the next event is not checked any more (828 is before the loop, 835 only inside), and reaching the end of the
events evaluates `None.kp_name` (833). -/
def vcrLoop (start : ℚ) (merged : Bool) (x : Ev) : List Ev → List Line × Option Err
  | [] =>
    if merged then ([], some .attributeError)
    else match lineOf start x with
      | .error e => ([], some e)
      | .ok l => ([l], none)
  | y :: r =>
    if !merged && y.overlaps x then ([], some .exception)
    else if x.kp = y.kp ∧ x.e = y.b then
      if y.overlaps x then ([], some .exception) else vcrLoop start true y r
    else match lineOf start x with
      | .error e => ([], some e)
      | .ok l => (l :: (vcrLoop y.b false y r).1, (vcrLoop y.b false y r).2)

/-- `write_vcr_csv` (open_time.py:795-867) on the sorted events, with `add_error=False`; no event: `sorted_events[0]` fails (811). -/
def writeVcr : List Ev → List Line × Option Err
  | [] => ([], some .indexError)
  | x :: r => vcrLoop x.b false x r

/-- `write_vcr_csv` with its `add_error` argument, which is set by default (open_time.py:795, 865-867): the last line is written a second time when all events have been
handled. The lines come first, then the exception if any. -/
def writeVcrAll (addError : Bool) (l : List Ev) : List Line × Option Err :=
  if addError ∧ (writeVcr l).2 = none then ((writeVcr l).1 ++ (writeVcr l).1.getLast?.toList, none) else writeVcr l

/-- `sorted(self.events)` (807). Python inserts elements one by one (binary insertion) for short lists; any sort of that kind leaves neighbours `x, y` with `x < y` or not `y < x`. Used for open_time.py:807. -/
def sortEvents (l : List Ev) : List Ev := l.insertionSort Ev.lt

/-! ## Merging of the bookings read from a spreadsheet -/

/-- A booking: bounds and the comments found in its name, one entry for each of the names joined with `*` by earlier merges. Used for open_time.py:155-171. -/
structure Bk where
  b : ℚ
  e : ℚ
  name : List (Option Nat)
  deriving DecidableEq, Repr

/-- The greedy search `\((.+)\)` in a joined name (open_time.py:163-166): the text from the first comment to the last one. -/
def commentOf (name : List (Option Nat)) : List (Option Nat) := ((name.dropWhile Option.isNone).reverse.dropWhile Option.isNone).reverse

/-- The pass of `to_ical` over the sorted events of a project (open_time.py:155-171). -/
def mergeGo (a : Bk) : List Bk → List Bk
  | [] => [a]
  | b :: l =>
    if b.b = a.e ∧ commentOf b.name = commentOf a.name then mergeGo ⟨a.b, b.e, a.name ++ b.name⟩ l
    else a :: mergeGo b l

/-- `to_ical`, for one project. Used for open_time.py:155-171. -/
def mergeBk : List Bk → List Bk
  | [] => []
  | a :: l => mergeGo a l

/-! ## Spreadsheet rows -/

/-- A cell: its value, or `merged` when it is covered by a merged region that starts to its left. Used for open_time.py:352-379. -/
inductive Cell
  | value (v : Nat)
  | empty
  | merged
  deriving DecidableEq, Repr

/-- Value of a cell in `row_values`. Used for open_time.py:352-379. -/
def Cell.val : Cell → Option Nat
  | .value v => some v
  | _ => none

/-- `_row_to_list` (open_time.py:352-379): a merged cell takes the value of the cell just before the group of merged cells it belongs to. `prev` is that cell's
value. -/
def rowGo (prev : Option Nat) : List Cell → List (Option Nat)
  | [] => []
  | .merged :: l => prev :: rowGo prev l
  | c :: l => c.val :: rowGo c.val l

/-- `_row_to_list` as it is called (open_time.py:345, 352-379). When the row begins with merged cells, the cell before them has index -1 (359): python takes the last cell of the
row (370). A row without 24 cells is refused (376-377). -/
def rowToList (row : List Cell) : Except Err (List (Option Nat)) :=
  if row.length = 24 then .ok (rowGo (row.getLast?.bind Cell.val) row) else .error .valueError

end Verif.Cal
