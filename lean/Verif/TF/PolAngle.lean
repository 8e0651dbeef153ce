import Verif.TF.Stokes
import Mathlib.Analysis.SpecialFunctions.Trigonometric.Arctan

/-!
# Model of the angle of linear polarisation

`polarization_angle` of `nenupy/io/tf_utils.py`. Values are exact real numbers; `none` is the value which is no number.
-/

namespace Verif.TF

noncomputable section

/-- Half of the arc whose tangent is an infinite ratio, by the sign of the dividend: `0.5 * np.arctan(±inf)`, and no number for `0 / 0`
(tf_utils.py:1950). Simplified: the zero that divides is the positive one. -/
def overZero (u : ℝ) : Option ℝ :=
  if 0 < u then some (1 / 2 * (Real.pi / 2)) else if u < 0 then some (1 / 2 * (-(Real.pi / 2))) else none

/-- `polarization_angle` (tf_utils.py:1931-1950) on one element: `0.5 * np.arctan(stokes_u / stokes_q)`. -/
def polAngle (u q : ℝ) : Option ℝ :=
  if q = 0 then overZero u else some (1 / 2 * Real.arctan (u / q))

/-- The angle of one element of the data: `U` and `Q` as computed by `compute_stokes_parameters` (tf_utils.py:626-632), then
`polarization_angle` (tf_utils.py:1931-1950). -/
def angleOf (d : M2) : Option ℝ := polAngle (d.d01.re * 2) (d.d00.re - d.d11.re)

end

end Verif.TF
