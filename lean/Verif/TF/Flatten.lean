import Verif.TF.Model
import Mathlib.Data.List.Sort

/-!
# Flattening of sub-bands

Model of `flatten_subband` (tf_utils.py:1298-1431) for one polarisation. Values are rational numbers; `none` is a value that is not a finite
number (blanked, or the result of a division by zero).
-/

namespace Verif.TF

/-- Median of a list of numbers: the middle of the sorted list, or the mean of its two middles. Used for tf_utils.py:1382-1422. -/
def median (l : List ℚ) : Option ℚ :=
  if l = [] then none
  else some (((l.insertionSort (· ≤ ·)).getD ((l.length - 1) / 2) 0 + (l.insertionSort (· ≤ ·)).getD (l.length / 2) 0) / 2)

/-- `np.nanmedian`: blanked values are left out; blank if there is no value. Used for tf_utils.py:1382-1422. -/
def nanmedian (l : List (Option ℚ)) : Option ℚ := median (l.filterMap id)

/-- Division of numbers, not finite if the divisor is 0. Used for tf_utils.py:1415-1431. -/
def quot (a b : ℚ) : Option ℚ := if b = 0 then none else some (a / b)

/-- Median in time of channel `k` of `nt` samples (tf_utils.py:1382). -/
def freqProfile (nt : Nat) (d : Nat → Nat → Option ℚ) (k : Nat) : Option ℚ := nanmedian ((List.range nt).map fun t => d t k)

/-- Level of the lower half of sub-band `s` (tf_utils.py:1399-1401). -/
def lowerLevel (c : Nat) (prof : Nat → Option ℚ) (s : Nat) : Option ℚ := nanmedian ((List.range (c / 2)).map fun x => prof (s * c + x))

/-- Level of the upper half of sub-band `s` (tf_utils.py:1402-1404). `c - c / 2` is `ceil(c / 2)`. -/
def upperLevel (c : Nat) (prof : Nat → Option ℚ) (s : Nat) : Option ℚ :=
  nanmedian ((List.range (c - (c - c / 2))).map fun x => prof (s * c + (c - c / 2 + x)))

/-- The straight line through the two levels at channel `x` (tf_utils.py:1395-1398, 1416-1420). -/
def lineAt (c : Nat) (y1 y2 : ℚ) (x : Nat) : ℚ :=
  ((x : ℚ) - ((c / 2 : Nat) : ℚ) / 2) * ((y2 - y1) / (((c : ℚ) - ((c / 2 : Nat) : ℚ) / 2) - ((c / 2 : Nat) : ℚ) / 2)) + y1

/-- The line of sub-band `s`, blank if one of the levels is (tf_utils.py:1420). -/
def subbandLine (c : Nat) (prof : Nat → Option ℚ) (s x : Nat) : Option ℚ :=
  (lowerLevel c prof s).bind fun y1 => (upperLevel c prof s).map fun y2 => lineAt c y1 y2 x

/-- The normalised line (tf_utils.py:1422-1427). -/
def subbandNorm (c : Nat) (prof : Nat → Option ℚ) (s x : Nat) : Option ℚ :=
  (subbandLine c prof s x).bind fun v => (nanmedian ((List.range c).map fun j => subbandLine c prof s j)).bind fun m => quot v m

/-- `flatten_subband` (tf_utils.py:1372-1431): value at time `t` and frequency `k`. -/
def flattenSubband (nt nf c : Nat) (d : Nat → Nat → Option ℚ) : Except Err (Nat → Nat → Option ℚ) :=
  (subbandsOk nf c).map fun _ => fun t k => (d t k).bind fun v => (subbandNorm c (freqProfile nt d) (k / c) (k % c)).bind fun n => quot v n

end Verif.TF
