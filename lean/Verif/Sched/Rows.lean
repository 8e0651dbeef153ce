import Verif.Sched.Model2

/-!
# Model of the drawings of a schedule: `Schedule.plot` and `Schedule.plot_range` (nenupy/schedule/schedule.py)

Times are in days, whole numbers being the midnights (UTC, days of equal lengths). A drawing is the list of its rows with what the
code draws in each; colours and sizes are left out.
-/

namespace Verif.Scheduler

/-- `Time(self.starts[0].isot.split('T')[0])` (schedule.py:1655): the midnight before the schedule. -/
def firstMidnight (s : Sched) : ℚ := ⌊s.slotStart 0⌋

/-- `self.stops[-1]` (schedule.py:1656). -/
def lastStop (s : Sched) : ℚ := s.slotStop (s.size - 1)

/-- `n_subplots` (schedule.py:1655-1671): there is no first slot in an empty schedule, the ceiling of a division by zero is not an
integer, and `plt.subplots` refuses fewer than one row. -/
def rowCount (s : Sched) (d : ℚ) : Except Err Nat :=
  if s.size = 0 then .error .indexError
  else if d = 0 then .error .overflow
  else if ⌈(lastStop s - firstMidnight s) / d⌉ ≤ 0 then .error .valueError
  else .ok ⌈(lastStop s - firstMidnight s) / d⌉.toNat

/-- `tiMin` (schedule.py:1682). -/
def rowLeft (s : Sched) (d : ℚ) (i : Nat) : ℚ := firstMidnight s + i * d

/-- `tiMax` (schedule.py:1683). -/
def rowRight (s : Sched) (d : ℚ) (i : Nat) : ℚ := firstMidnight s + (i + 1 : Nat) * d

/-- Starts of the slots within limits, where lines are drawn (schedule.py:1569-1577, 1689-1698). -/
def marksIn (s : Sched) (l r : ℚ) : List ℚ :=
  ((List.range s.size).filter fun k => decide (l ≤ s.slotStart k) && decide (s.slotStop k ≤ r)).map s.slotStart

/-- A booked block with its number and its times; `_display` returns when `time_min` is not set. Used for schedule.py:289-290, 1589-1591, 1705-1707. -/
def bookedAt (s : Sched) (k : Nat) : Option (Nat × ℚ × ℚ) :=
  (s.blocks[k]?).bind fun b => if b.start.isSome then b.tMin.bind fun t => b.tMax.map fun u => (k, t, u) else none

/-- The booked blocks in their order (schedule.py:1704-1708). -/
def bookedBlocks (s : Sched) : List (Nat × ℚ × ℚ) := (List.range s.blocks.length).filterMap (bookedAt s)

/-- `textPos` (schedule.py:319). -/
def textPos (b : Nat × ℚ × ℚ) : ℚ := b.2.1 + (b.2.2 - b.2.1) / 2

/-- One row of the drawing: limits, lines, rectangles of the reserved and of the observation blocks, and titles with their positions.
Used for schedule.py:1680-1708. -/
structure RowDrawn where
  left : ℚ
  right : ℚ
  marks : List ℚ
  reserved : List (ℚ × ℚ)
  spans : List (Nat × ℚ × ℚ)
  titles : List (Nat × ℚ)

/-- The titles shown in a drawing with these limits (schedule.py:318-331). -/
def titlesIn (bs : List (Nat × ℚ × ℚ)) (l r : ℚ) : List (Nat × ℚ) :=
  (bs.filter fun b => decide (l ≤ textPos b) && decide (textPos b < r)).map fun b => (b.1, textPos b)

/-- One turn of the loop over the rows (schedule.py:1680-1708). -/
def plotRow (s : Sched) (reserved : List (ℚ × ℚ)) (d : ℚ) (grid : Bool) (i : Nat) : RowDrawn :=
  { left := rowLeft s d i, right := rowRight s d i,
    marks := if grid then marksIn s (rowLeft s d i) (rowRight s d i) else [],
    reserved := reserved, spans := bookedBlocks s, titles := titlesIn (bookedBlocks s) (rowLeft s d i) (rowRight s d i) }

/-- `Schedule.plot` (schedule.py:1620-1727). -/
def plotRows (s : Sched) (reserved : List (ℚ × ℚ)) (d : ℚ) (grid : Bool) : Except Err (List RowDrawn) :=
  (rowCount s d).map fun n => (List.range n).map (plotRow s reserved d grid)

/-- `Schedule.plot_range` (schedule.py:1527-1617). The blocks are drawn before the limits are set (1596): until then the axis grows
with what is drawn, so that the middle of a block just drawn is always within its limits, and all titles are written. -/
def plotRange (s : Sched) (reserved : List (ℚ × ℚ)) (start stop : ℚ) (grid : Bool) : RowDrawn :=
  { left := start, right := stop,
    marks := if grid then marksIn s start stop else [],
    reserved := reserved.filter fun r => isWithin r.1 r.2 start stop,
    spans := (bookedBlocks s).filter fun b => isWithin b.2.1 b.2.2 start stop,
    titles := ((bookedBlocks s).filter fun b => isWithin b.2.1 b.2.2 start stop).map fun b => (b.1, textPos b) }

end Verif.Scheduler
