import Verif.Common.Prelude

/-!
# Transits by interpolation of the hour angle (nenupy/astro/target.py:369-414, 1066-1088)

Times are in seconds, angles in degrees.
-/

namespace Verif.Astro

/-- The step between samples: at most a fifth of the duration, and at most twelve hours (target.py:378-382). -/
def sampleStep (duration sampling : ℚ) : ℚ :=
  if 12 * 3600 < (if duration / 5 < sampling then duration / 5 else sampling) then 12 * 3600
  else if duration / 5 < sampling then duration / 5 else sampling

/-- The number of samples, `int(duration / time_sampling)` (target.py:383), for positive arguments. -/
def sampleCount (duration sampling : ℚ) : Nat := ⌊duration / sampleStep duration sampling⌋.toNat

/-- Time of a sample (target.py:387). -/
def sampleTime (tMin step : ℚ) (i : Nat) : ℚ := tMin + i * step

/-- How many times the samples decreased before number `i` (target.py:404-406): the number of the part that holds sample `i`. -/
def turns (ha : Nat → ℚ) : Nat → Nat
  | 0 => 0
  | i + 1 => turns ha i + if ha (i + 1) - ha i < 0 then 1 else 0

/-- `flattened_ha` (target.py:406). -/
def flatHa (ha : Nat → ℚ) (i : Nat) : ℚ := ha i + turns ha i * 360

/-- The largest of the samples `0` to `n`. Used for target.py:1084. -/
def maxTo (f : Nat → ℚ) : Nat → ℚ
  | 0 => f 0
  | n + 1 => max (maxTo f n) (f (n + 1))

/-- `n_cycles` for `n + 1` samples (target.py:1084). -/
def cycles (f : Nat → ℚ) (n : Nat) : Int := ⌈maxTo f n / 360⌉

/-- The values to be crossed (target.py:1085): `np.arange(1, n_cycles) * 360 + 0`. -/
def crossValues (f : Nat → ℚ) (n : Nat) : List ℚ := (List.range (cycles f n - 1).toNat).map fun k => ((k + 1 : Nat) : ℚ) * 360 + 0

/-- The last of the `n + 1` increasing samples that is not above `v`. Used for target.py:1086. -/
def leftOf (f : Nat → ℚ) (n : Nat) (v : ℚ) : Nat := ((List.range (n + 1)).filter fun i => decide (f i ≤ v)).length - 1

/-- `np.interp(v, f, np.linspace(0, 1, n + 1))` (target.py:1083, 1086) for increasing samples. -/
def interpUnit (f : Nat → ℚ) (n : Nat) (v : ℚ) : ℚ :=
  if v < f 0 then 0
  else if f n ≤ v then 1
  else (leftOf f n v : ℚ) / n + (v - f (leftOf f n v)) * ((1 / n) / (f (leftOf f n v + 1) - f (leftOf f n v)))

/-- `_interpolate_crossing_times` for `n + 1` samples from `t0`, the last one at `t1` (target.py:1083-1088). -/
def interpTimes (f : Nat → ℚ) (n : Nat) (t0 t1 : ℚ) : List ℚ := (crossValues f n).map fun v => t0 + interpUnit f n v * (t1 - t0)

/-- `meridian_transit_2` (target.py:369-414), from the hour angle in `[0, 360)` as a function of time. -/
def transitTimes (ha : ℚ → ℚ) (tMin duration sampling : ℚ) : List ℚ :=
  interpTimes (flatHa fun i => ha (sampleTime tMin (sampleStep duration sampling) i)) (sampleCount duration sampling - 1) tMin
    (sampleTime tMin (sampleStep duration sampling) (sampleCount duration sampling - 1))

end Verif.Astro
