import Verif.Common.Prelude
import Mathlib.Data.List.Sort
import Mathlib.Algebra.Order.Ring.Rat

/-!
# `Schedule.fine_tune` of `nenupy/schedule/schedule.py`

The whole loop: blocks sorted by start, score differences with the neighbouring slots, delays, choice of the best move.
-/

namespace Verif.Scheduler

/-- A booked block (schedule.py:1378-1388): its rank in the schedule, start, number of slots and of slots of its processing delay. -/
structure TBlock where
  idx : Nat
  start : Nat
  n : Nat
  delay : Nat
  deriving DecidableEq

/-- `np.argsort(start_indices)` and the arrays in that order (schedule.py:1390-1395). Blocks with the same start are taken in their order. -/
def tSort (bs : List TBlock) : List TBlock := bs.insertionSort fun a b => a.start ≤ b.start

/-- First slot of `gap1` (schedule.py:1402-1403): the end of the previous block, but `0` if that one is the first. -/
def gapLow (l : List TBlock) (i : Nat) : Nat := if 2 ≤ i then (l[i - 1]?).elim 0 fun p => p.start + p.n else 0

/-- `score1` before delays (schedule.py:1401-1404). `sc` is `_cnstScores`. -/
def leftGain (sc : Nat → Nat → ℚ) (l : List TBlock) (i : Nat) (b : TBlock) : ℚ :=
  if gapLow l i < b.start then sc b.idx (b.start - 1) - sc b.idx b.start else -1

/-- End of `gap2` (schedule.py:1405-1406). -/
def gapHigh (size : Nat) (l : List TBlock) (i : Nat) (b : TBlock) : Int := (l[i + 1]?).elim ((size : Int) - 1) fun q => (q.start : Int) - b.n + 1

/-- `score2` before delays (schedule.py:1405-1407). -/
def rightGain (size : Nat) (sc : Nat → Nat → ℚ) (l : List TBlock) (i : Nat) (b : TBlock) : ℚ :=
  if (b.start : Int) + 1 < gapHigh size l i b then sc b.idx (b.start + 1) - sc b.idx b.start else -1

/-- `delay_obs` (schedule.py:1413): ranks of the blocks with a delay. -/
def withDelay (l : List TBlock) : List Nat := (List.range l.length).filter fun k => (l[k]?).any fun c => decide (c.delay ≠ 0)

/-- `prev_delay_idx` (schedule.py:1415): the ranks are rotated, so that the one before the first is the last. -/
def prevDelay (l : List TBlock) (i : Nat) : Nat := (withDelay l).getD (((withDelay l).idxOf i + (withDelay l).length - 1) % (withDelay l).length) 0

/-- `next_delay_idx` (schedule.py:1422). -/
def nextDelay (l : List TBlock) (i : Nat) : Nat := (withDelay l).getD (((withDelay l).idxOf i + 1) % (withDelay l).length) 0

/-- `score1` (schedule.py:1401-1420). -/
def leftScore (sc : Nat → Nat → ℚ) (l : List TBlock) (i : Nat) (b : TBlock) : ℚ :=
  if b.delay = 0 ∨ i < prevDelay l i then leftGain sc l i b
  else if (l[prevDelay l i]?).any fun p => decide (b.start ≤ p.start + p.n + p.delay) then -1 else leftGain sc l i b

/-- `score2` (schedule.py:1405-1427). -/
def rightScore (size : Nat) (sc : Nat → Nat → ℚ) (l : List TBlock) (i : Nat) (b : TBlock) : ℚ :=
  if b.delay = 0 ∨ nextDelay l i < i then rightGain size sc l i b
  else if (l[nextDelay l i]?).any fun q => decide (q.start ≤ b.start + b.n + b.delay) then -1 else rightGain size sc l i b

/-- Better of the two moves of the block of rank `i` (schedule.py:1430-1438). -/
def bestScore (size : Nat) (sc : Nat → Nat → ℚ) (l : List TBlock) (i : Nat) : ℚ :=
  (l[i]?).elim 0 fun b => if leftScore sc l i b < rightScore size sc l i b then rightScore size sc l i b else leftScore sc l i b

/-- New start of the block of rank `i` (schedule.py:1446): to the left if both moves are as good. -/
def newStart (size : Nat) (sc : Nat → Nat → ℚ) (l : List TBlock) (i : Nat) (b : TBlock) : Nat :=
  if leftScore sc l i b < rightScore size sc l i b then b.start + 1 else b.start - 1

/-- `block.startIdx = …` (schedule.py:1445-1446). -/
def moveBlock (bs : List TBlock) (k s : Nat) : List TBlock := bs.map fun c => if c.idx = k then { c with start := s } else c

/-- Rank of the block which is moved (schedule.py:1436-1438). -/
def tunedRank (size : Nat) (sc : Nat → Nat → ℚ) (bs : List TBlock) : Nat := argmax (bestScore size sc (tSort bs)) (tSort bs).length

/-- One turn of the loop (schedule.py:1376-1455); `none` at its end (1439-1441). The maximum of an empty array is an error (1437), and so is a slot after the end (1447-1448). -/
def tuneStep (size : Nat) (sc : Nat → Nat → ℚ) (bs : List TBlock) : Except Err (Option (List TBlock)) :=
  ((tSort bs)[tunedRank size sc bs]?).elim (.error .valueError) fun b =>
    if bestScore size sc (tSort bs) (tunedRank size sc bs) ≤ 0 then .ok none
    else if size ≤ newStart size sc (tSort bs) (tunedRank size sc bs) b + b.n - 1 then .error .indexError
    else .ok (some (moveBlock bs b.idx (newStart size sc (tSort bs) (tunedRank size sc bs) b)))

/-- `fine_tune(max_it)` (schedule.py:1368-1460): the number of moves (the length of the list given back) and the blocks. -/
def tuneRun (size : Nat) (sc : Nat → Nat → ℚ) : Nat → List TBlock → Except Err (Nat × List TBlock)
  | 0, bs => .ok (0, bs)
  | k + 1, bs => (tuneStep size sc bs).bind fun o => o.elim (.ok (0, bs)) fun bs' => (tuneRun size sc k bs').map fun p => (p.1 + 1, p.2)

end Verif.Scheduler
