import Verif.Astro.Uv
import Verif.Geom.Site

/-!
# UVW coordinates of an interferometer (nenupy/astro/uvw.py)
-/

namespace Verif.Astro

open Verif.IO
open Verif.Geom (V3)

/-- `phase_center` of `compute_uvw` (uvw.py:50): nothing, one position of the sky or a list of them; right ascension and declination
in degrees. -/
inductive UvwCentre where
  | zenith
  | one (ra dec : ℝ)
  | many (l : List (ℝ × ℝ))

/-- Two operands of an operation of numpy: of the same length, or one of them of one item. Used for astro_tools.py:323. -/
def spread {α β γ : Type} (f : α → β → γ) (a : List α) (b : List β) : Except Err (List γ) :=
  if a.length = b.length then .ok (List.zipWith f a b)
  else if a.length = 1 then .ok (a.flatMap fun x => b.map (f x))
  else if b.length = 1 then .ok (b.flatMap fun y => a.map fun x => f x y)
  else .error .valueError

/-- `.rad` of an angle in degrees. Used for uvw.py:76, 87. -/
noncomputable def inRad (x : ℝ) : ℝ := x * Real.pi / 180

/-- Right ascensions of the phase centre (uvw.py:63-75); `zen` is `altaz_to_radec` of the zenith. -/
def centreRa (zen : ℝ → ℝ × ℝ) (c : UvwCentre) (jds : List ℝ) : List ℝ :=
  match c with
  | .zenith => jds.map fun t => (zen t).1
  | .one ra _ => [ra]
  | .many l => l.map Prod.fst

/-- Declinations of the phase centre: one for each time if it has one position only (uvw.py:63-78). -/
def centreDec (zen : ℝ → ℝ × ℝ) (c : UvwCentre) (jds : List ℝ) : List ℝ :=
  match c with
  | .zenith => jds.map fun t => (zen t).2
  | .one _ dec => List.replicate jds.length dec
  | .many l => l.map Prod.snd

/-- Baselines of the lower triangle: `bsl[i][j] = pos[j] - pos[i]` (interferometer.py:126-132, uvw.py:57-58). -/
noncomputable def itrfBaselines (pos : List V3) : List V3 :=
  (tril pos.length).map fun p => Geom.sub (pos.getD p.2 ⟨0, 0, 0⟩) (pos.getD p.1 ⟨0, 0, 0⟩)

/-- `rot_uvw` and the projection (uvw.py:106-119): arrays of different lengths cannot be put in one array, a ValueError. -/
noncomputable def projected (pos : List V3) (lha dec : List ℝ) (n : Nat) : Except Err (List (List V3)) :=
  if lha.length = n ∧ dec.length = n then
    .ok (List.zipWith (fun h d => (itrfBaselines pos).map (Geom.uvw (inRad h) (inRad d))) lha dec)
  else .error .valueError

/-- `compute_uvw` (uvw.py:48-119): positions of the antennas given by `_toITRF`, longitude of the observer in degrees,
phase centre, and Julian dates. One list of baselines for each time. -/
noncomputable def computeUvw (lon : ℝ) (zen : ℝ → ℝ × ℝ) (pos : List V3) (c : UvwCentre) (jds : List ℝ) : Except Err (List (List V3)) :=
  (spread Geom.fastHourAngle (jds.map fun t => Geom.fastLst t lon) (centreRa zen c jds)).bind
    fun lha => projected pos lha (centreDec zen c jds) jds.length

/-- Coordinates of a baseline in the last axis. Used for uvw.py:139. -/
def asUvw (v : V3) : Uvw := ⟨v.x, v.y, v.z⟩

/-- `UV_Coverage.compute` (uvw.py:150-165). -/
noncomputable def coverageOf (lon : ℝ) (zen : ℝ → ℝ × ℝ) (pos : List V3) (c : UvwCentre) (jds : List ℝ) : Except Err (List (List Uvw)) :=
  (computeUvw lon zen pos c jds).bind fun l => uvCoverage (tril pos.length).length (l.map fun row => row.map asUvw)

/-- `UV_Coverage.from_xst` (uvw.py:167-176): the phase centre of the cross-correlations and the time halfway between the first and the last one;
no time at all is an IndexError. -/
noncomputable def coverageXst (lon : ℝ) (zen : ℝ → ℝ × ℝ) (pos : List V3) (c : UvwCentre) (jds : List ℝ) : Except Err (List (List Uvw)) :=
  jds.head?.elim (.error .indexError) fun a =>
    coverageOf lon zen pos c [a + (jds.getLastD a - a) / 2]

/-- `MiniArray._toITRF` (nenufar.py:972-975): the positions in the plane of the mini-array, as they are. -/
def miniItrf (local_ : List V3) : List V3 := local_

end Verif.Astro
