import Verif.Astro.Cross

/-!
# Times left out of a call (nenupy/astro/target.py)

`time: Time = Time.now()` in the signature of a function is computed once, when Python reads the module. A run of a program is thus the time of this reading and a
sequence of calls, each made at its own clock time, with a time or without one.
-/

namespace Verif.Astro

/-- A call: the clock when it is made and the time given by the caller, if any. Used for target.py:513-560, 692-748, 750-806, 886-942, 944-1000. -/
structure TimedCall where
  clock : ℚ
  given : Option ℚ

/-- The value of the argument within the function (target.py:71, 292, 370, 418, 515, 565, 616, 694, 752, 810, 888, 946, 1145, 1168, 1282, 1306; sky.py:690, 892;
uvw.py:51, 156; astro_tools.py:92). -/
def timeArg (imported : ℚ) (c : TimedCall) : ℚ := c.given.getD imported

/-- `next_rise_time` and `next_set_time` within a program (target.py:693-748, 887-942). -/
def nextCall (cross : ℚ → ℚ → Bool) (imported prec : ℚ) (fuel : Nat) (c : TimedCall) : Option (Except Err (Option ℚ)) :=
  nextCrossing cross (timeArg imported c) prec fuel

/-- `previous_rise_time` and `previous_set_time` within a program (target.py:751-806, 945-1000). -/
def previousCall (cross : ℚ → ℚ → Bool) (imported prec : ℚ) (fuel : Nat) (c : TimedCall) : Option (Except Err (Option ℚ)) :=
  previousCrossing cross (timeArg imported c) prec fuel

/-- `rise_time`, `set_time`, `meridian_transit` within a program: `t_min` is the argument, a day by default (target.py:291-365, 615-690, 809-884). -/
def findCall (cross : ℚ → ℚ → Bool) (imported duration prec : ℚ) (fuel : Nat) (c : TimedCall) : Option (Except Err (List ℚ)) :=
  findCrossings cross (timeArg imported c) duration prec fuel

/-- The answers to the calls of a program, in their order. Used for target.py:693-748, 887-942. -/
def nextRun (cross : ℚ → ℚ → Bool) (imported prec : ℚ) (fuel : Nat) : List TimedCall → List (Option (Except Err (Option ℚ)))
  | [] => []
  | c :: l => nextCall cross imported prec fuel c :: nextRun cross imported prec fuel l

end Verif.Astro
