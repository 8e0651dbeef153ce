import Verif.Common.Prelude
import Mathlib.Analysis.SpecialFunctions.Trigonometric.Basic

/-!
# Model of the antennas of the Decameter Array: `nenupy/instru/nda.py`

Interpolation in a map of the sky is a list of pixels and weights for each direction, those given by `healpy` (`get_interp_val`). The rotation of 20 degrees of the map is a function
which gives the direction read for each pixel. Directions are of any type. The constructor `NDA()` (nda.py:116-142), which reads a file of the machine of the author, is not modelled.
-/

namespace Verif.Instru

/-- `hp.get_interp_val` of a map, with the pixels and weights of a direction. Used for nda.py:82, 89-95. -/
def ndaInterp {D : Type} (w : D → List (Nat × ℝ)) (m : Nat → ℝ) (d : D) : ℝ := ((w d).map fun p => p.2 * m p.1).sum

/-- `np.sin(np.radians(alt))**2` of the pixels (nda.py:73), altitudes in radians. -/
noncomputable def ndaRaw (alt : Nat → ℝ) (i : Nat) : ℝ := Real.sin (alt i) ^ 2

/-- The map read at the rotated pixels (nda.py:76-82). -/
noncomputable def ndaRotated {D : Type} (w : D → List (Nat × ℝ)) (alt : Nat → ℝ) (rot : Nat → D) (i : Nat) : ℝ := ndaInterp w (ndaRaw alt) (rot i)

/-- `rot_map.max()` (nda.py:83), of `n` pixels. -/
noncomputable def ndaMax (n : Nat) (m : Nat → ℝ) : ℝ := (List.range n).foldl (fun a i => max a (m i)) (m 0)

/-- `self.values` (nda.py:60-83), of `n` pixels. The polarisation is kept but not used. -/
noncomputable def ndaValues {D : Type} (w : D → List (Nat × ℝ)) (alt : Nat → ℝ) (rot : Nat → D) (n : Nat) (i : Nat) : ℝ :=
  ndaRotated w alt rot i / ndaMax n (ndaRotated w alt rot)

/-- Polarisations of a sky. Used for nda.py:98-103, 173-179. -/
inductive NdaPol
  | lh | rh | other
  deriving DecidableEq

/-- A polarisation of another kind is replaced by `RH` (nda.py:173-179). -/
def ndaPol : NdaPol → NdaPol
  | .lh => .lh
  | .rh => .rh
  | .other => .rh

/-- The map of a polarisation (nda.py:101-103): both are made in the same way. -/
noncomputable def ndaMap {D : Type} (w : D → List (Nat × ℝ)) (alt : Nat → ℝ) (rot : Nat → D) (n : Nat) : NdaPol → Nat → ℝ
  | .lh => ndaValues w alt rot n
  | .rh => ndaValues w alt rot n
  | .other => ndaValues w alt rot n

/-- `gain[:, :, i, :] = values` (nda.py:180) for values of `nt` times, and a gain of `nt` times and `nf` frequencies: the rules of numpy put the axis of times of the values along the
axis of frequencies of the gain. -/
def ndaAssign (nt nf : Nat) (v : Nat → Nat → ℝ) : Except Err (Nat → Nat → Nat → ℝ) :=
  if nt = 1 then .ok fun _ _ c => v 0 c
  else if nt = nf then .ok fun _ f c => v f c
  else .error .valueError

/-- `_antenna_gain` (nda.py:159-181): `dir t c` is the horizontal direction of coordinate `c` at time `t`. The result is read by polarisation, time, frequency and coordinate. -/
noncomputable def ndaGain {D : Type} (w : D → List (Nat × ℝ)) (alt : Nat → ℝ) (rot : Nat → D) (n : Nat) (nt nf : Nat) (pols : List NdaPol) (dir : Nat → Nat → D) :
    Except Err (List (Nat → Nat → Nat → ℝ)) :=
  pols.mapM fun p => ndaAssign nt nf fun t c => ndaInterp w (ndaMap w alt rot n (ndaPol p)) (dir t c)

end Verif.Instru
