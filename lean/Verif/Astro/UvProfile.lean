import Verif.Common.Prelude
import Mathlib.Analysis.SpecialFunctions.Trigonometric.Inverse
import Mathlib.Analysis.SpecialFunctions.Complex.Log
import Mathlib.Analysis.Complex.Norm

/-!
# Profiles and point spread function of a UV coverage (nenupy/astro/uvw.py)

Baselines are pairs `(u, v)`, in metres or wavelengths, all times and frequencies in one list (the masks of the code flatten them). Reals
are exact. Figures and the Gaussian fit are not modelled.
-/

namespace Verif.Astro

/-- `positive_v` (uvw.py:208-210, 311-313). -/
noncomputable def keptHalf (l : List (ℝ × ℝ)) : List (ℝ × ℝ) := l.filter fun x => decide (0 < x.2)

/-- `uv_distance` (uvw.py:211, 314). -/
noncomputable def uvLength (x : ℝ × ℝ) : ℝ := Real.sqrt (x.1 ^ 2 + x.2 ^ 2)

/-- `uv_ang` (uvw.py:315). -/
noncomputable def uvAngle (x : ℝ × ℝ) : ℝ := Real.arccos (x.1 / uvLength x) * (180 / Real.pi)

/-- Number of values of `np.arange(lo, hi + step, step)` less one: the number of bins (uvw.py:216-221, 320-325). -/
noncomputable def binCount (lo hi step : ℝ) : Nat := ⌈(hi + step - lo) / step⌉₊ - 1

/-- Limits of bin `i` (uvw.py:221, 325). -/
noncomputable def edgeAt (lo step : ℝ) (i : Nat) : ℝ := lo + i * step

/-- Number of values in bin `i`, both limits included (uvw.py:222, 225, 326-328). -/
noncomputable def binHits (xs : List ℝ) (lo step : ℝ) (i : Nat) : Nat :=
  xs.countP fun x => decide (edgeAt lo step i ≤ x) && decide (x ≤ edgeAt lo step (i + 1))

/-- Middle of bin `i` (uvw.py:223, 327). -/
noncomputable def binMiddle (lo step : ℝ) (i : Nat) : ℝ := (edgeAt lo step i + edgeAt lo step (i + 1)) / 2

/-- Lowest value of a list which is not empty. Used for uvw.py:217. -/
noncomputable def lowestOf (l : List ℝ) : ℝ := l.foldr min (l.headD 0)

/-- Highest value of a list which is not empty. Used for uvw.py:218, 226, 329. -/
noncomputable def highestOf (l : List ℝ) : ℝ := l.foldr max (l.headD 0)

/-- Densities of the bins before they are normalised (uvw.py:221-225). -/
noncomputable def radialRaw (xs : List ℝ) (step : ℝ) : List ℝ :=
  (List.range (binCount (lowestOf xs) (highestOf xs) step)).map fun i =>
    (binHits xs (lowestOf xs) step i : ℝ) / binMiddle (lowestOf xs) step i

/-- `radial_profile` (uvw.py:207-227, 289): average distances and densities. `min` and `max` of nothing raise a ValueError. -/
noncomputable def radialProfile (l : List (ℝ × ℝ)) (step : ℝ) : Except Err (List ℝ × List ℝ) :=
  if keptHalf l = [] then .error .valueError
  else if radialRaw ((keptHalf l).map uvLength) step = [] then .error .valueError
  else .ok ((List.range (binCount (lowestOf ((keptHalf l).map uvLength)) (highestOf ((keptHalf l).map uvLength)) step)).map
      (binMiddle (lowestOf ((keptHalf l).map uvLength)) step),
    (radialRaw ((keptHalf l).map uvLength) step).map (· / highestOf (radialRaw ((keptHalf l).map uvLength) step)))

/-- `azimuthal_profile` (uvw.py:310-331): angles and numbers of values of the bins, before they are divided by the largest one. -/
noncomputable def azimuthalProfile (l : List (ℝ × ℝ)) (step : ℝ) : List ℝ × List Nat :=
  ((List.range (binCount 0 180 step)).map (binMiddle 0 step),
   (List.range (binCount 0 180 step)).map (binHits ((keptHalf l).map uvAngle) 0 step))

/-! ## Point spread function -/

/-- `~auto_corr` (uvw.py:398-403). -/
noncomputable def crossOnly (l : List (ℝ × ℝ)) : List (ℝ × ℝ) := l.filter fun x => decide (x.1 ≠ 0 ∨ x.2 ≠ 0)

/-- Rank of a value in `n` equal bins from `lo` to `hi`, the last one with its end; bins one wide in all if there is one value only. Used for
`np.histogram2d` at uvw.py:401-405. -/
noncomputable def histRank (n : Nat) (lo hi x : ℝ) : Nat :=
  if lo = hi then min ⌊(x - (lo - 1 / 2)) * n⌋₊ (n - 1) else min ⌊(x - lo) / (hi - lo) * n⌋₊ (n - 1)

/-- Cell of a baseline in the grid (uvw.py:401-405). -/
noncomputable def gridCell (n : Nat) (l : List (ℝ × ℝ)) (x : ℝ × ℝ) : Nat × Nat :=
  (histRank n (lowestOf (l.map Prod.fst)) (highestOf (l.map Prod.fst)) x.1, histRank n (lowestOf (l.map Prod.snd)) (highestOf (l.map Prod.snd)) x.2)

/-- `uv_grid` (uvw.py:401-405). -/
noncomputable def uvGrid (n : Nat) (l : List (ℝ × ℝ)) (i j : Nat) : Nat := l.countP fun x => decide (gridCell n l x = (i, j))

/-- Phase of cell `(i, j)` at the frequency `(a, b)`. Used for uvw.py:408. -/
noncomputable def gridPhase (n a b i j : Nat) : ℂ :=
  Complex.exp (-(2 * Real.pi * Complex.I * ((a * i + b * j) / n)))

/-- `np.fft.fft2` of the grid (uvw.py:408). -/
noncomputable def gridFft (n : Nat) (l : List (ℝ × ℝ)) (a b : Nat) : ℂ :=
  ((List.range n).map fun i => ((List.range n).map fun j => ((uvGrid n l i j : Nat) : ℂ) * gridPhase n a b i j).sum).sum

/-- `psf` (uvw.py:398-409, 439), with `np.fft.fftshift`. -/
noncomputable def psf (n : Nat) (l : List (ℝ × ℝ)) (a b : Nat) : ℂ := gridFft n (crossOnly l) ((a + n - n / 2) % n) ((b + n - n / 2) % n)

end Verif.Astro
