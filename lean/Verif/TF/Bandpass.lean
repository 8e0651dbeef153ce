import Verif.Common.Prelude
import Mathlib.Analysis.SpecialFunctions.Complex.Log
import Mathlib.Analysis.Complex.Norm

/-!
# Response of a sub-band: `get_bandpass` of `nenupy/io/tf_utils.py`

The coefficients of the filter (the file `bandpass_coeffs.dat`, 16384 whole numbers) are a parameter. Reals are exact; a division by zero
gives zero (infinity in the code).
-/

namespace Verif.TF

/-- Term `j` of `np.fft.fft(coefficients, n)`, for `n` at least the number of coefficients (tf_utils.py:1253). -/
noncomputable def fourier (a : List ℝ) (n j : Nat) : ℂ :=
  ((List.range a.length).map fun k : Nat => ((a.getD k 0 : ℝ) : ℂ) * Complex.exp (-(2 * Real.pi * Complex.I * (j * k / n)))).sum

/-- `g_high_res` (tf_utils.py:1249-1253). -/
noncomputable def highRes (a : List ℝ) (n : Nat) : List ℂ := (List.range (n / 16 * a.length)).map (fourier a (n / 16 * a.length))

/-- `l[-i:]`. Used for tf_utils.py:1255. -/
def lastItems {α : Type} (i : Nat) (l : List α) : List α := l.drop (l.length - i)

/-- `l[:-i]`, for a positive `i`. Used for tf_utils.py:1257. -/
def butLast {α : Type} (i : Nat) (l : List α) : List α := l.take (l.length - i)

/-- `middle` (tf_utils.py:1255). -/
noncomputable def middleBand (a : List ℝ) (n : Nat) : List ℂ := lastItems (n / 2) (highRes a n) ++ (highRes a n).take (n / 2)

/-- `right` (tf_utils.py:1256). -/
noncomputable def rightBand (a : List ℝ) (n : Nat) : List ℂ := ((highRes a n).drop (n / 2)).take n

/-- `left` (tf_utils.py:1257): the items from `-mid - n` to `-mid`. -/
noncomputable def leftBand (a : List ℝ) (n : Nat) : List ℂ := lastItems n (butLast (n / 2) (highRes a n))

/-- `get_bandpass` (tf_utils.py:1241-1264). The arrays have the same length for 64 coefficients or more. -/
noncomputable def bandpass (a : List ℝ) (n : Nat) : Except Err (List ℝ) :=
  if n < 16 ∨ n % 2 ≠ 0 then .error .valueError
  else .ok ((List.range n).map fun i =>
    (2 ^ 25 / Real.sqrt (‖(middleBand a n).getD i 0‖ ^ 2 + ‖(leftBand a n).getD i 0‖ ^ 2 + ‖(rightBand a n).getD i 0‖ ^ 2)) ^ 2)

end Verif.TF
