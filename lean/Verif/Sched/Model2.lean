import Verif.Sched.Model

/-! # Model of the remaining user-facing methods of a schedule -/

namespace Verif.Scheduler

/-- Insert reserved blocks one after the other, stopping at the first exception (schedule.py:859-860). -/
def Sched.reserveAll (s : Sched) : List (ℚ × ℚ) → Sched × Option Err
  | [] => (s, none)
  | (a, b) :: l =>
    match (s.insertReserved a b).2 with
    | none => (s.insertReserved a b).1.reserveAll l
    | some e => ((s.insertReserved a b).1, some e)

/-- The pairs `zip(stop_times[:-1], start_times[1:])` (schedule.py:900). -/
def innerGaps : List (ℚ × ℚ) → List (ℚ × ℚ)
  | [] => []
  | [_] => []
  | (_, b) :: (c, d) :: l => (b, c) :: innerGaps ((c, d) :: l)

/-- All the reservations made by `set_free_slots` (schedule.py:892-914), in order. `tMin`/`tMax` are the bounds of the
first and last slots. -/
def gapList (tMin tMax : ℚ) (ws : List (ℚ × ℚ)) (first last : ℚ × ℚ) : List (ℚ × ℚ) :=
  (if tMin < first.1 then [(tMin, first.1)] else []) ++ innerGaps ws ++
  (if last.2 < tMax then [(last.2, tMax)] else [])

/-- `set_free_slots` (schedule.py:874-914), for one-dimensional inputs given as two lists.
Empty inputs fail at `start_times[0]`. -/
def Sched.setFreeSlots (s : Sched) (starts stops : List ℚ) : Sched × Option Err :=
  if starts.length ≠ stops.length then (s, some .valueError)
  else
    match (starts.zip stops).head?, (starts.zip stops).getLast? with
    | some f, some l =>
      s.reserveAll (gapList s.t0 (s.t0 + s.size * s.dt) (starts.zip stops) f l)
    | _, _ => (s, some .indexError)

/-- `match_booking`'s selection of the bookings "within the schedule" (schedule.py:940-942); `*` and `+` on boolean arrays are
and/or. -/
def matchBookingMask (tMin tMax a b : ℚ) : Bool :=
  (decide (tMin ≤ a) && decide (b ≤ tMax)) || (decide (a < tMin) && decide (tMin < b)) ||
    (decide (a < tMax) && decide (tMax < b))

/-- `ScheduleBlock.is_within` (schedule.py:194-199); also `ReservedBlock.is_within` (obsblocks.py). -/
def isWithin (tMin tMax start stop : ℚ) : Bool :=
  (decide (start ≤ tMin) && decide (tMax < stop)) ||
  (decide (tMin < start) && decide (start < tMax) && decide (tMax < stop)) ||
  (decide (stop < tMax) && decide (start < tMin) && decide (tMin < stop)) ||
  (decide (tMin < start) && decide (stop < tMax))

/-- Insert index `i` by increasing key. Used for schedule.py:1463-1524. -/
def insertByKey (key : Nat → ℚ) (i : Nat) : List Nat → List Nat
  | [] => [i]
  | j :: js => if key i < key j then i :: j :: js else j :: insertByKey key i js

/-- `argsort` of the keys of the given indices. Used for schedule.py:1463-1524. -/
def sortByKey (key : Nat → ℚ) (l : List Nat) : List Nat := l.foldl (fun acc i => insertByKey key i acc) []

/-- `blk.startIdx is not None` for block `i` (`isBooked`, schedule.py:113-118). -/
def Sched.isBooked (s : Sched) (i : Nat) : Bool :=
  match s.blocks[i]? with
  | some b => b.start.isSome
  | none => false

/-- `export` (schedule.py:1463-1524) as the list of block indices of the table rows. `score i` is `blk.score` of block `i`
(135-150); `time_min` of a booked block is set (1220). The type check of `score_min` is not modelled. -/
def Sched.export (s : Sched) (score : Nat → ℚ) (scoreMin : ℚ) : Except Err (List Nat) :=
  if scoreMin < 0 then .error .valueError
  else if 1 < scoreMin then .error .valueError
  else .ok (sortByKey (fun i => ((s.blocks[i]?.bind Block.tMin).getD 0))
    ((List.range s.blocks.length).filter fun i =>
      s.isBooked i && !decide (score i < scoreMin)))

/-- `_bound_to_schedule` (schedule.py:1809-1819) for one gene of a block of `n` slots. -/
def boundGene (size n : Nat) (x : Int) : Int :=
  let x0 := if x < 0 then 0 else x
  if x0 + n ≥ size then (size : Int) - 1 - n else x0

end Verif.Scheduler
