import Verif.TF.Model
import Mathlib.Analysis.SpecialFunctions.Trigonometric.Basic

/-!
# Model of the polarisation of time-frequency data

`nenupy/io/tf_utils.py`, `nenupy/undysputed/dynspec.py`, `nenupy/io/xst.py`, `nenupy/astro/astro_tools.py`.
Values are exact complex and real numbers.
-/

namespace Verif.TF

open Complex

noncomputable section

/-- A 2 × 2 complex matrix: the two last axes of an array. Used for tf_utils.py:2252-2269. -/
@[ext] structure M2 where
  d00 : ℂ
  d01 : ℂ
  d10 : ℂ
  d11 : ℂ

/-- Matrix product. Used for tf_utils.py:1198-1208. -/
def M2.mul (a b : M2) : M2 where
  d00 := a.d00 * b.d00 + a.d01 * b.d10
  d01 := a.d00 * b.d01 + a.d01 * b.d11
  d10 := a.d10 * b.d00 + a.d11 * b.d10
  d11 := a.d10 * b.d01 + a.d11 * b.d11

/-- `np.swapaxes(a, -2, -1)`. Used for tf_utils.py:1198-1208. -/
def M2.transpose (a : M2) : M2 := ⟨a.d00, a.d10, a.d01, a.d11⟩

/-- `spectra_data_to_matrix` (tf_utils.py:2252-2269): `fft0 = (p, q)`, `fft1 = (r, s)`; the last `stack` puts the rows along the last axis. -/
def specMatrix (p q r s : ℝ) : M2 where
  d00 := p
  d10 := r + I * s
  d01 := r - I * s
  d11 := q

/-- `_to_ejones` (dynspec.py:377-383). -/
def ejones (p q r s : ℝ) : M2 where
  d00 := p
  d10 := r - I * s
  d01 := r + I * s
  d11 := q

/-- `a / b` of real arrays: no number if the divisor is zero. Used for tf_utils.py:624-655. -/
def ratio (a b : ℝ) : Option ℝ := if b = 0 then none else some (a / b)

/-- Names are compared without spaces and in upper case (tf_utils.py:622). -/
def stokesName (s : String) : List Char := (s.toList.filter fun c => decide (c ≠ ' ')).map Char.toUpper

/-- One Stokes parameter of one element (tf_utils.py:624-655). -/
def stokesOne (d : M2) (name : List Char) : Except Err (Option ℝ) :=
  if name = "I".toList then .ok (some (d.d00.re + d.d11.re))
  else if name = "Q".toList then .ok (some (d.d00.re - d.d11.re))
  else if name = "U".toList then .ok (some (d.d01.re * 2))
  else if name = "V".toList then .ok (some (-d.d01.im * 2))
  else if name = "L".toList then .ok (some (Real.sqrt ((d.d00.re - d.d11.re) ^ 2 + (d.d01.re * 2) ^ 2)))
  else if name = "Q/I".toList then .ok (ratio (d.d00.re - d.d11.re) (d.d00.re + d.d11.re))
  else if name = "U/I".toList then .ok (ratio (d.d01.re * 2) (d.d00.re + d.d11.re))
  else if name = "V/I".toList then .ok (ratio (-d.d01.im * 2) (d.d00.re + d.d11.re))
  else if name = "L/I".toList then
    .ok (ratio (Real.sqrt ((d.d00.re - d.d11.re) ^ 2 + (d.d01.re * 2) ^ 2)) (d.d00.re + d.d11.re))
  else .error .notImplemented

/-- `compute_stokes_parameters` (tf_utils.py:613-665) on one element; `square` tells that the last two dimensions are (2, 2).
An empty list of names gives no array at all. -/
def computeStokes (square : Bool) (d : M2) (names : List String) : Except Err (List (Option ℝ)) :=
  if square = false then .error .exception else names.mapM fun n => stokesOne d (stokesName n)

/-- One Stokes parameter of the older reader (dynspec.py:1318-1329). -/
def stokesOld (d : M2) (name : List Char) : Except Err ℝ :=
  if name.map Char.toUpper = "I".toList then .ok (d.d00.re + d.d11.re)
  else if name.map Char.toUpper = "Q".toList then .ok (d.d00.re - d.d11.re)
  else if name.map Char.toUpper = "U".toList then .ok (d.d01.re * 2)
  else if name.map Char.toUpper = "V".toList then .ok (d.d01.im * 2)
  else .error .notImplemented

/-- `XST.get_stokes` (xst.py:900-923) from the four correlations of two mini-arrays, without the fractions FL and FV. -/
def stokesXst (xx xy yx yy : ℂ) (name : String) : Except Err ℂ :=
  if name = "I" then .ok (1 / 2 * (xx + yy))
  else if name = "Q" then .ok (1 / 2 * (xx - yy))
  else if name = "U" then .ok (1 / 2 * (xy + yx))
  else if name = "V" then .ok (-(1 / 2) * I * (xy - yx))
  else .error .keyError

/-- `faraday_angle` (astro_tools.py:1318-1323) for a wavelength. -/
def faradayAngle (rm wavelength : ℝ) (inverse : Bool) : ℝ :=
  if inverse then rm * wavelength ^ 2 * -1 else rm * wavelength ^ 2

/-- Rotation matrix of tf_utils.py:1205 and dynspec.py:1362. -/
def rotMatrix (a : ℝ) : M2 := ⟨Real.cos a, -Real.sin a, Real.sin a, Real.cos a⟩

/-- `de_faraday_data` (tf_utils.py:1198-1208) on one element. -/
def deFaraday (rm wavelength : ℝ) (d : M2) : M2 :=
  ((rotMatrix (faradayAngle rm wavelength true)).mul d).mul (rotMatrix (faradayAngle rm wavelength true)).transpose

/-- `_faraday_derotation` (dynspec.py:1349-1365) on one element. -/
def deFaradayOld (rm wavelength : ℝ) (d : M2) : M2 :=
  ((rotMatrix (faradayAngle rm wavelength true)).mul d).mul
    ⟨Real.cos (faradayAngle rm wavelength true), Real.sin (faradayAngle rm wavelength true),
      -Real.sin (faradayAngle rm wavelength true), Real.cos (faradayAngle rm wavelength true)⟩

/-- Shape checks of `de_faraday_data` (tf_utils.py:1191-1192). -/
def faradayDims (shape : List Nat) (nFreq : Nat) : Except Err Unit :=
  if shape.length ≠ 4 ∨ shape.drop 1 ≠ [nFreq, 2, 2] then .error .exception else .ok ()

/-- Jones matrix of the parallactic correction (tf_utils.py:801-805): the swap of the axes transposes it. -/
def parallacticJones (a : ℝ) : M2 := (rotMatrix a).transpose

/-- Correction of one element by a real Jones matrix (tf_utils.py:816-839). -/
def applyJones (j d : M2) : M2 := j.mul (d.mul ⟨star j.d00, star j.d10, star j.d01, star j.d11⟩)

end

/-- Groups of time samples sharing a correction (tf_utils.py:143-156 and 763-776): number of groups, samples per group, samples left over. -/
def timeGroups (n : Nat) (dt step : ℚ) : Except Err (Nat × Nat × Nat) :=
  let g := (rint (step / dt)).toNat
  if g = 0 then .error .zeroDivision
  else if n / g = 0 then .ok (1, n, 0)
  else .ok (n / g, g, n % g)

/-- Rank of the Jones matrix applied to time sample `t` by `correct_parallactic` (tf_utils.py:778-813): the matrices are those of the
starts of the groups and of the end of the last one. -/
def parallacticRank (grp : Nat × Nat × Nat) (n t : Nat) : Nat :=
  if t < n - grp.2.2 then t / grp.2.1 else grp.1

end Verif.TF
