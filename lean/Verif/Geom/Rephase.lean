import Verif.Common.Prelude
import Verif.Geom.Model

/-!
# Phase centres of cross-correlations and of their slices (nenupy/io/xst.py)

One baseline and one frequency; a list holds one value per time. Directions on the sky are pairs of right ascension and declination.
-/

namespace Verif.Geom

/-- The phase centre known by a file: a horizontal direction, a direction on the sky, or one of them per time. Used for xst.py:787-806,
1257-1263, 2040-2046. -/
inductive Stored (H : Type)
  | ground (h : H)
  | sky (c : ℝ × ℝ)
  | perTime (l : List (ℝ × ℝ))

/-- `current_phase_center` of `rephase` (xst.py:787-806), one per time; `toSky`: conversions at the times of the file. A list that has
neither one value nor one per time cannot be multiplied by ones, nor used by `compute_uvw`. -/
def currentCentres {H : Type} (toSky : List (H → ℝ × ℝ)) (new : ℝ × ℝ) : Stored H → Except Err (List (ℝ × ℝ))
  | .ground h => .ok (toSky.map fun f => f h)
  | .sky c => .ok (List.replicate toSky.length c)
  | .perTime l =>
    if l.length = toSky.length then .ok (List.replicate toSky.length new)
    else if l.length = 1 then .ok (List.replicate toSky.length (l.headD (0, 0)))
    else .error .valueError

/-- The factor of one time (xst.py:309-320, 816-831), from the centre `a` to the centre `b` at sidereal time `lst`, for the baseline `bl`. -/
noncomputable def turned (wl : ℝ) (bl : V3) (b : ℝ × ℝ) (lst : ℝ) (a : ℝ × ℝ) : ℂ :=
  rephaseFactor wl (visMatrix a.1 a.2) (visMatrix b.1 b.2) (uvw (lst - a.1) a.2 bl)

/-- A slice: its values and its phase centre (xst.py:101-136). -/
structure PhSlice where
  value : List ℂ
  centre : ℝ × ℝ

/-- `rephase` of a file (xst.py:781-839), for a single new centre. The data of the file are not used. -/
noncomputable def rephaseFile {H : Type} (wl : ℝ) (bl : V3) (lst : List ℝ) (toSky : List (H → ℝ × ℝ)) (stored : Stored H) (new : ℝ × ℝ) :
    Except Err PhSlice :=
  (currentCentres toSky new stored).map fun cs => ⟨List.zipWith (turned wl bl new) lst cs, new⟩

/-- `rephase_visibilities` of a slice (xst.py:285-326): always from the zenith of each time. -/
noncomputable def PhSlice.factors (wl : ℝ) (bl : V3) (lst : List ℝ) (zenith : List (ℝ × ℝ)) (_s : PhSlice) (new : ℝ × ℝ) : List ℂ :=
  List.zipWith (turned wl bl new) lst zenith

/-- The visibilities of `make_image` before their mean (xst.py:396-409, 453), towards a centre or as they are. -/
noncomputable def PhSlice.imaged (wl : ℝ) (bl : V3) (lst : List ℝ) (zenith : List (ℝ × ℝ)) (s : PhSlice) (centre : Option (ℝ × ℝ)) : List ℂ :=
  centre.elim s.value fun c => List.zipWith (· * ·) s.value (s.factors wl bl lst zenith c)

/-- The coordinates used by `make_image` at one time (xst.py:389-409), towards a centre or the zenith. -/
noncomputable def imageUvw (bl : V3) (centre : Option (ℝ × ℝ)) (lst : ℝ) (zenith : ℝ × ℝ) : V3 :=
  centre.elim (uvw (lst - zenith.1) zenith.2 bl) fun c =>
    rephaseUvw (visMatrix zenith.1 zenith.2) (visMatrix c.1 c.2) (uvw (lst - zenith.1) zenith.2 bl)

end Verif.Geom
