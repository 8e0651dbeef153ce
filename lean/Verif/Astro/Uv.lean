import Verif.IO.Xst
import Mathlib.Analysis.SpecialFunctions.Pow.NNReal

/-!
# UV coverage (nenupy/astro/uvw.py)
-/

namespace Verif.Astro

open Verif.IO

/-- Coordinates of a baseline. Used for uvw.py:139. -/
structure Uvw where
  u : ℝ
  v : ℝ
  w : ℝ

/-- `int((-1 + np.sqrt(1 + 8*n_baselines)) / 2)` (uvw.py:132-134): a positive number, rounded down. -/
noncomputable def nAntennas (b : Nat) : Nat := ⌊(-1 + Real.sqrt (1 + 8 * (b : ℝ))) / 2⌋₊

/-- Product with `[-1, -1, 1]` (uvw.py:139). -/
def flipped (x : Uvw) : Uvw := ⟨-x.u, -x.v, x.w⟩

/-- Baselines between different antennas: `ant_1 != ant_2` (uvw.py:135, 139). -/
def crossMask (n : Nat) : List Bool := (tril n).map fun p => decide (p.1 ≠ p.2)

/-- `UV_Coverage.__init__` (uvw.py:129-141): one list of baselines per time, all of length `b`.
A mask of another length than the axis is an IndexError. -/
noncomputable def uvCoverage (b : Nat) (uvw : List (List Uvw)) : Except Err (List (List Uvw)) :=
  if (crossMask (nAntennas b)).length ≠ b then .error .indexError
  else .ok (uvw.map fun row => row ++ (pickMask (crossMask (nAntennas b)) row).map flipped)

/-- `np.linalg.norm(self.uvw, axis=-1)` (uvw.py:144-147). -/
noncomputable def uvDistance (x : Uvw) : ℝ := Real.sqrt (x.u ^ 2 + x.v ^ 2 + x.w ^ 2)

end Verif.Astro
