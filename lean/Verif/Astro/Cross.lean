import Verif.Common.Prelude
import Mathlib.Algebra.Order.Floor.Ring
import Mathlib.Algebra.Order.Ring.Rat
import Mathlib.Data.Rat.Floor

/-!
# Search of crossing times (nenupy/astro/target.py)

Times and durations are rational numbers of seconds: the rounding of the two floating point numbers of `astropy.time.Time` is left out.
The motion of the source is a function of time. All the functions passed to `_find_crossing_times` test pairs of consecutive samples
(target.py:358-360, 498-505, 682-684, 876-878); this pair test is the parameter `cross`.
-/

namespace Verif.Astro

/-- Rise test (target.py:682-684). -/
def risePair (el : ℚ → ℚ) (e : ℚ) (a b : ℚ) : Bool := decide (el a ≤ e) && decide (e ≤ el b)

/-- Set test (target.py:876-878). -/
def setPair (el : ℚ → ℚ) (e : ℚ) (a b : ℚ) : Bool := decide (e ≤ el a) && decide (el b ≤ e)

/-- Meridian transit test: the hour angle, within 0 and 360 degrees, decreases (target.py:358-360). -/
def transitPair (ha : ℚ → ℚ) (a b : ℚ) : Bool := decide (ha b - ha a < 0)

/-- Azimuth test for sources which are not circumpolar (target.py:502-504). -/
def azPair (az : ℚ → ℚ) (z : ℚ) (a b : ℚ) : Bool := decide (az a ≤ z) && decide (z ≤ az b)

/-- `np.angle` of a unit complex number, in degrees: the angle brought within −180 (excluded) and 180. Used for target.py:490-501. -/
def wrapDeg (x : ℚ) : ℚ := x - 360 * (⌈(x - 180) / 360⌉ : ℚ)

/-- Azimuth test for circumpolar sources (target.py:490-501). -/
def azCircPair (az : ℚ → ℚ) (z : ℚ) (a b : ℚ) : Bool :=
  decide (wrapDeg (az a) ≤ wrapDeg z) && decide (wrapDeg z ≤ wrapDeg (az b)) ||
    decide (wrapDeg z ≤ wrapDeg (az a)) && decide (wrapDeg (az b) ≤ wrapDeg z)

/-- Samples of one row which start a crossing pair: `times[transit_indices]` (target.py:1045-1051). -/
def rowHits (cross : ℚ → ℚ → Bool) (n : Nat) (dt t : ℚ) : List ℚ :=
  ((List.range n).filter fun k : Nat => cross (t + (k : ℚ) * dt) (t + ((k : ℚ) + 1) * dt)).map fun k : Nat => t + (k : ℚ) * dt

/-- One pass of the loop over all the rows. Used for target.py:1041-1063. -/
def pass (cross : ℚ → ℚ → Bool) (n : Nat) (dt : ℚ) (starts : List ℚ) : List ℚ := starts.flatMap (rowHits cross n dt)

/-- The loop of `_find_crossing_times` once entered (target.py:1041-1063); `none`: still running after this number of passes. -/
def refine (cross : ℚ → ℚ → Bool) (down : Nat) (prec : ℚ) : Nat → List ℚ → ℚ → ℚ → Option (List ℚ)
  | 0, _, _, _ => none
  | fuel + 1, starts, dur, dt =>
    let hits := pass cross ⌈dur / dt⌉.toNat dt starts
    if hits = [] then some []
    else if prec < dt / down * down then refine cross down prec fuel hits dt (dt / down)
    else some (hits.map fun t => t + dt / down / 2)

/-- Six hours. Used for target.py:1030-1038. -/
def maxDt : ℚ := 21600

/-- Number of sub-intervals of each pass (target.py:1030-1038). -/
def downFactor (duration : ℚ) : Nat := if maxDt < duration / 5 then ⌈duration / maxDt⌉.toNat else 5

/-- `_find_crossing_times` (target.py:1017-1063) for one start time. The result is not bound if the loop is not entered. -/
def findCrossings (cross : ℚ → ℚ → Bool) (tMin duration prec : ℚ) (fuel : Nat) : Option (Except Err (List ℚ)) :=
  let down := downFactor duration
  let dt := duration / down
  if prec < dt * down then (refine cross down prec fuel [tMin] duration dt).map .ok else some (.error .unboundLocal)

/-- First time found, or none: `next_rise_time` and `next_set_time` (target.py:740-748, 934-942). -/
def nextCrossing (cross : ℚ → ℚ → Bool) (time prec : ℚ) (fuel : Nat) : Option (Except Err (Option ℚ)) :=
  (findCrossings cross time 172800 prec fuel).map fun r => r.map List.head?

/-- Last time found, or none: `previous_rise_time` and `previous_set_time` (target.py:798-806, 992-1000). -/
def previousCrossing (cross : ℚ → ℚ → Bool) (time prec : ℚ) (fuel : Nat) : Option (Except Err (Option ℚ)) :=
  (findCrossings cross (time - 172800) 172800 prec fuel).map fun r => r.map List.getLast?

end Verif.Astro
