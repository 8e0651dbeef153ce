import Verif.Sched.Model2
import Mathlib.Data.List.Sort
import Mathlib.Data.List.Infix

/-!
# Model of the schedules and reservations made from calendars and booking files

`Schedule.from_ics`, `Schedule.match_booking` (nenupy/schedule/schedule.py) and `ReservedBlock.from_VCR` (nenupy/schedule/obsblocks.py). A calendar
is the set of its events, here a list in any order; a booking file is the list of its rows, as `np.loadtxt` cuts them into fields.
-/

namespace Verif.Scheduler

/-- Texts. Used for schedule.py:799-800, 931, obsblocks.py:971, 990. -/
abbrev Txt := List Char

/-- An event of a calendar (schedule.py:795-804). -/
structure Event where
  start : ℚ
  stop : ℚ
  name : Option Txt

/-- `evt < other or evt == other` of the package ics: by start, then by end (schedule.py:798). -/
def Event.le (e f : Event) : Prop := e.start < f.start ∨ (e.start = f.start ∧ e.stop ≤ f.stop)

instance : DecidableRel Event.le := fun e f => inferInstanceAs (Decidable (e.start < f.start ∨ (e.start = f.start ∧ e.stop ≤ f.stop)))

/-- `name_selection in evt.name` (schedule.py:800); an event without name has been refused before. -/
def Event.named (t : Txt) (e : Event) : Bool := e.name.elim false fun n => decide (t <:+: n)

/-- The events sorted and selected (schedule.py:798-800): `in None` raises a `TypeError`. -/
def icsEvents (l : List Event) (sel : Option Txt) : Except Err (List Event) :=
  sel.elim (.ok (l.insertionSort Event.le)) fun t =>
    if l.any (fun e => e.name.isNone) then .error .typeError else .ok ((l.insertionSort Event.le).filter (Event.named t))

/-- A schedule, or the exception raised while its free slots were set (schedule.py:816). -/
def raised (r : Sched × Option Err) : Except Err Sched := r.2.elim (.ok r.1) .error

/-- The schedule of sorted events, from the start of the first to the end of the last (schedule.py:803-818). -/
def icsSchedule (dt : ℚ) (day : Nat → Bool) (l : List Event) : Except Err Sched :=
  l.head?.elim (.error .indexError) fun f => l.getLast?.elim (.error .indexError) fun e =>
    (mkSched f.start e.stop dt day).bind fun s => raised (s.setFreeSlots (l.map Event.start) (l.map Event.stop))

/-- `Schedule.from_ics` (schedule.py:788-818), for steps `dt` of the schedule not longer than it. -/
def fromIcs (l : List Event) (dt : ℚ) (sel : Option Txt) (day : Nat → Bool) : Except Err Sched := (icsEvents l sel).bind (icsSchedule dt day)

/-- A row of a booking file: start, end, key program (schedule.py:919-927, obsblocks.py:974-982). The comments are not used. -/
structure Row where
  start : ℚ
  stop : ℚ
  kp : Txt

/-- The format `U4` keeps four letters (schedule.py:925, obsblocks.py:980). -/
def Row.code (r : Row) : Txt := r.kp.take 4

/-- `s.lower()` (obsblocks.py:971, 990). -/
def lowerTxt (s : Txt) : Txt := s.map Char.toLower

/-- The rows which are not excluded (obsblocks.py:986-1000), with their names. -/
def vcrKept (rows : List Row) (excl : List Txt) : List (ℚ × ℚ × Txt) :=
  (rows.filter fun r => !decide (lowerTxt r.code ∈ excl.map lowerTxt)).map fun r => (r.start, r.stop, r.code)

/-- `ReservedBlock.from_VCR` (obsblocks.py:948-1006): a file of one row is read as a scalar, which cannot be iterated (987), and a sum
of no blocks cannot be reduced (1003). Files without rows are refused as well, whatever the exception. -/
def fromVcr (rows : List Row) (excl : List Txt) : Except Err (List (ℚ × ℚ × Txt)) :=
  if rows.length = 1 then .error .typeError
  else if vcrKept rows excl = [] then .error .typeError
  else .ok (vcrKept rows excl)

/-- The bookings of a program which meet the schedule (schedule.py:935-947). -/
def Sched.bookings (s : Sched) (rows : List Row) (key : Txt) : List Row :=
  (rows.filter fun r => decide (r.code = key)).filter fun r => matchBookingMask s.t0 (s.t0 + s.size * s.dt) r.start r.stop

/-- `Schedule.match_booking` (schedule.py:917-971). -/
def Sched.matchBooking (s : Sched) (rows : List Row) (key : Txt) : Sched × Option Err :=
  if key ∈ rows.map Row.code then s.setFreeSlots ((s.bookings rows key).map Row.start) ((s.bookings rows key).map Row.stop)
  else (s, some .valueError)

end Verif.Scheduler
