import Verif.Astro.UvProfile
import Mathlib.Algebra.BigOperators.Group.List.Basic

/-!
# What the profiles of a UV coverage return (nenupy/astro/uvw.py)

The deviations which `radial_profile` and `azimuthal_profile` return beside the values of `UvProfile.lean`.
-/

namespace Verif.Astro

/-- `np.std` of two numbers. Used for uvw.py:289, 373. -/
noncomputable def stdTwo (a b : ℝ) : ℝ := Real.sqrt (((a - (a + b) / 2) ^ 2 + (b - (a + b) / 2) ^ 2) / 2)

/-- First rank of the highest value: `np.argmax` (uvw.py:231). -/
noncomputable def peakRank (l : List ℝ) : Nat := l.findIdx fun x => decide (x = highestOf l)

/-- `radial_profile` (uvw.py:207-289): distances, densities, deviations. `fit ms ds` is the Gaussian fitted to the points `ms`, `ds`, those from the
highest density on (231-242). -/
noncomputable def radialReturn (fit : List ℝ → List ℝ → ℝ → ℝ) (l : List (ℝ × ℝ)) (step : ℝ) : Except Err (List ℝ × List ℝ × List ℝ) :=
  (radialProfile l step).map fun r =>
    (r.1, r.2, List.zipWith (fun m d => stdTwo d (fit (r.1.drop (peakRank r.2)) (r.2.drop (peakRank r.2)) m)) r.1 r.2)

/-- Numbers over the highest one (uvw.py:329): nothing has no maximum, a ValueError. -/
noncomputable def azimuthalDensity (counts : List Nat) : Except Err (List ℝ) :=
  if counts = [] then .error .valueError else .ok (counts.map fun k : Nat => (k : ℝ) / highestOf (counts.map fun n : Nat => (n : ℝ)))

/-- `azimuthal_profile` (uvw.py:310-373): angles, densities, deviations. `np.std((density, mean_value), axis=0)` is given an array and one number;
numpy refuses such a pair since its version 1.24 (`ragged` is false), and worked on it element by element before. -/
noncomputable def azimuthalReturn (ragged : Bool) (l : List (ℝ × ℝ)) (step : ℝ) : Except Err (List ℝ × List ℝ × List ℝ) :=
  (azimuthalDensity (azimuthalProfile l step).2).bind fun d =>
    if ragged then .ok ((azimuthalProfile l step).1, d, d.map fun x => stdTwo x (d.sum / d.length)) else .error .valueError

end Verif.Astro
