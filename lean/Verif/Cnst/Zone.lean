import Verif.Cnst.Eval

/-!
# Local times (nenupy/astro/astro_tools.py, nenupy/schedule/constraints.py)

Times are whole seconds.
-/

namespace Verif.Cnst

/-- A time zone, as `pytz` knows it: at each time (UTC), what is added to it to have the local one, and whether daylight saving is on. Used for
astro_tools.py:239 and constraints.py:870. -/
abbrev Zone := ℤ → ℤ × Bool

/-- Offsets for which the date and time `x` would be read on a clock of the zone: those in force one day before and one day after which
give back `x` (`pytz`'s `localize`, called at astro_tools.py:240 and constraints.py:871). -/
def offsetsOf (z : Zone) (x : ℤ) : List (ℤ × Bool) :=
  ((z (x - 86400) :: [z (x + 86400)]).map fun o => (o.1, z (x - o.1))).filterMap fun p => if p.2.1 = p.1 then some p.2 else none

/-- Smallest offset: the latest time. Used for `pytz`'s `localize` (astro_tools.py:240). -/
def smallest (o : ℤ × Bool) (l : List (ℤ × Bool)) : ℤ := l.foldl (fun m p => min m p.1) o.1

/-- Choice among several offsets: those without daylight saving if there are any; then the latest time. Used for `pytz`'s `localize`
(astro_tools.py:240). -/
def chosen (l : List (ℤ × Bool)) : ℤ :=
  let f := if l.filter (fun p => !p.2) = [] then l else l.filter fun p => !p.2
  smallest (f.headD (0, false)) f

/-- `tz.localize(dt).utcoffset()` (astro_tools.py:240-243, constraints.py:871-874), as `pytz` does it with its default `is_dst=False`: a date and time
which no clock shows is read as the one six hours before. `n` bounds the number of such steps back (unbounded in the library). -/
def localOffset (z : Zone) : Nat → ℤ → Option ℤ
  | 0, _ => none
  | n + 1, x => if offsetsOf z x = [] then localOffset z n (x - 21600) else some (chosen (offsetsOf z x))

/-- `to_local_time` (astro_tools.py:220-248) of one time, and `localTime` of `LocalTimeCnst` (constraints.py:868-875): the UTC date and
time is given to `localize` as it is. -/
def toLocalTime (z : Zone) (t : ℤ) : Option ℤ := (localOffset z 100 t).map fun o => t + o

/-- Hour of the day, decimal, of a date and time (constraints.py:877-879). -/
def hourOf (x : ℤ) : ℚ := ((x % 86400 : ℤ) : ℚ) / 3600

end Verif.Cnst
