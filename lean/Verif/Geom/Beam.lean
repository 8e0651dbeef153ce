import Verif.Geom.Model
import Verif.Common.Prelude
import Mathlib.Data.List.GetD
import Mathlib.Algebra.BigOperators.Group.List.Basic

/-!
# Beams of arrays and gain of an antenna (nenupy/instru/nenufar.py, nenupy/instru/interferometer.py)

At one time, one frequency and one direction.
-/

namespace Verif.Geom

open Real

noncomputable section

/-! ## Gain of an antenna -/

/-- A file of the model of an antenna: polarisation and frequency of each field, and its values on the sphere. Used for nenufar.py:137-166. -/
structure GainFile where
  fields : List (String × ℝ)
  npix : Nat
  map : Nat → Nat → ℝ

/-- `fields` (nenufar.py:156): those of a polarisation. -/
def gainFields (F : GainFile) (pol : String) : List Nat := (List.range F.fields.length).filter fun i => decide ((F.fields.getD i ("", 0)).1 = pol)

/-- All the values of some fields (nenufar.py:161-167). -/
def gainValues (F : GainFile) (l : List Nat) : List ℝ := l.flatMap fun i => (List.range F.npix).map fun q => F.map i q

/-- `gain.max()` (nenufar.py:168). -/
def gainPeak (F : GainFile) (l : List Nat) : ℝ := (gainValues F l).tail.foldr max ((gainValues F l).headD 0)

/-- `load_file` (nenufar.py:135-178): frequencies and normalised values of the fields of a polarisation. -/
def loadGain (F : GainFile) (pol : String) : Except Err ((Nat → ℝ) × (Nat → Nat → ℝ) × Nat) :=
  if gainFields F pol = [] then .error .exception
  else .ok (fun k => (F.fields.getD ((gainFields F pol).getD k 0) ("", 0)).2,
    fun k q => F.map ((gainFields F pol).getD k 0) q / gainPeak F (gainFields F pol), (gainFields F pol).length)

/-- Weight of a node of `BarycentricInterpolator`. Used for nenufar.py:172-176. -/
def baryWeight (n : Nat) (x : Nat → ℝ) (j : Nat) : ℝ := ∏ k ∈ (Finset.range n).erase j, (x j - x k)⁻¹

open Classical in
/-- `BarycentricInterpolator(xi=x, yi=y)(f)` (nenufar.py:172-176, 116): the value of a node at this node, the barycentric formula elsewhere. -/
def bary (n : Nat) (x y : Nat → ℝ) (f : ℝ) : ℝ :=
  ((List.range n).find? fun j => decide (f = x j)).elim
    ((∑ j ∈ Finset.range n, baryWeight n x j * (f - x j)⁻¹ * y j) / ∑ j ∈ Finset.range n, baryWeight n x j * (f - x j)⁻¹) y

/-- `_AntennaGain[sky]` (nenufar.py:101-131) at a frequency; `look` is `hp.get_interp_val` towards the direction, a mean of the values of some pixels. -/
def antGain (F : GainFile) (pol : String) (look : (Nat → ℝ) → ℝ) (f : ℝ) : Except Err ℝ :=
  (loadGain F pol).map fun r => look fun q => bary r.2.2 r.1 (fun k => r.2.1 k q) f

/-- The polarisation which is used (nenufar.py:957-968): anything else than NW and NE is NW. -/
def polUsed (pol : String) : String := if pol = "NW" ∨ pol = "NE" then pol else "NW"

/-! ## Beams -/

/-- `antenna_gain` of `Interferometer.beam` (interferometer.py:795-801): the mean of the gains of the antennas. -/
def meanAnt (n : Nat) (g : Nat → ℝ) : ℝ := (∑ i ∈ Finset.range n, g i) / n

/-- `Interferometer.beam(return_complex=False)` (interferometer.py:740-815), also that of a mini-array once its pointing is known (nenufar.py:577-582). -/
def beamPower (n : Nat) (p : Nat → V3) (w d : Nat → ℝ) (g : Nat → ℝ) (wl : ℝ) (sky pt : V3) (nz : Bool) : ℝ :=
  arrayFactor n p w d wl sky pt nz * meanAnt n g

/-- `Interferometer.beam(return_complex=True)` (interferometer.py:740-815). -/
def beamComplex (n : Nat) (p : Nat → V3) (w d : Nat → ℝ) (g : Nat → ℝ) (wl : ℝ) (sky pt : V3) (nz : Bool) : ℂ :=
  complexFactor n p w d wl sky pt nz * (meanAnt n g : ℂ)

/-- Mean of the beams of the mini-arrays, each standing for a number of them (nenufar.py:1345-1356). -/
def groupMean (l : List (Nat × ℝ)) : ℝ := (l.map fun q => q.2 * (q.1 : ℝ)).sum / (l.map fun q : Nat × ℝ => (q.1 : ℝ)).sum

/-- `NenuFAR.beam(return_complex=False)` (nenufar.py:1326-1363): `normalize` is given to the beams of the mini-arrays, `mas nz`, but not to the array factor. -/
def arrayBeam (n : Nat) (p : Nat → V3) (w d : Nat → ℝ) (mas : Bool → List (Nat × ℝ)) (wl : ℝ) (sky pt : V3) (nz : Bool) : ℝ :=
  arrayFactor n p w d wl sky pt true * groupMean (mas nz)

open Classical in
/-- `attenuation_from_zenith` (nenufar.py:752-792): the beam in a direction over that at zenith; nothing at and below the horizon. -/
def attenuation {C : Type} (beam alt : C → ℝ) (zenith c : C) : Option ℝ := if alt c ≤ 0 then none else some (beam c / beam zenith)

end

end Verif.Geom
