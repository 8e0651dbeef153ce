import Verif.Instru.Model
import Mathlib.Analysis.SpecialFunctions.Complex.Arg
import Mathlib.Analysis.SpecialFunctions.Trigonometric.Inverse

/-!
# Model of the grid of analog directions: `nenupy/instru/instrument_tools.py` and `nenufar.py`

Angles are in radians, over exact reals.
-/

namespace Verif.Instru

/-- `k1` and `k2` (instrument_tools.py:467-480, nenufar.py:984-998): steps of 0.165 m for 11 m. -/
noncomputable def kOne (x : Nat) : ℝ := step1 x * (165 / 1000 / 11)
noncomputable def kTwo (y : Nat) : ℝ := step2 y * (165 / 1000 / 11)

/-- The cosine taken by `np.arccos` (instrument_tools.py:484, nenufar.py:1002). -/
noncomputable def gridCos (x y : Nat) : ℝ := 1 - 2 * (kOne x ^ 2 + kTwo y ^ 2)

open Classical in
/-- One direction of `mini_array_analog_pointing_grid` (instrument_tools.py:438-495) and of `_generate_analog_directions`
(nenufar.py:979-1012): azimuth and elevation; bad values are set at the nadir (instrument_tools.py:489-490). -/
noncomputable def gridDir (rot : ℝ) (x y : Nat) : ℝ × ℝ :=
  if gridCos x y < -1 ∨ 1 < gridCos x y then (0, -(Real.pi / 2))
  else (Real.pi / 2 - (Complex.arg ⟨kOne x, kTwo y⟩ + Real.pi) + rot, Real.pi / 2 - 1 / 2 * Real.arccos (gridCos x y))

end Verif.Instru
