import Verif.Common.Prelude

/-!
# Maps of the sky in local coordinates (nenupy/astro/skymodel.py)

Angles are exact degrees. The change of coordinates at the time asked for and the interpolation of the HEALPix map are one function of the
azimuth and the elevation.
-/

namespace Verif.Astro

/-- `np.linspace(0, stop, n)`: one value is 0, none is nothing. Used for skymodel.py:281-282. -/
def linDeg (stop : ℚ) (n : Nat) : List ℚ := (List.range n).map fun k : Nat => (k : ℚ) * (stop / ((n - 1 : Nat) : ℚ))

/-- `np.linspace` refuses a negative number of values. Used for skymodel.py:281-282. -/
def linChecked (stop : ℚ) (n : Int) : Except Err (List ℚ) := if n < 0 then .error .valueError else .ok (linDeg stop n.toNat)

/-- `az_grid`, `alt_grid` and the values of the map. Used for skymodel.py:293-296. -/
structure LocalMap (α : Type) where
  az : List (List ℚ)
  alt : List (List ℚ)
  value : List (List α)

/-- `np.meshgrid(azimuths, elevations)` (skymodel.py:283): one row for each elevation, one column for each azimuth. -/
def meshDeg (az alt : List ℚ) : List (List (ℚ × ℚ)) := alt.map fun e : ℚ => az.map fun a : ℚ => (a, e)

/-- `altaz_map_at` with `return_coords` (skymodel.py:280-296); `look` is the value of the model at an azimuth and an elevation at the time
asked for (284-292 and `radec_project`, 271-278). -/
def altazMap {α : Type} (look : ℚ → ℚ → α) (nAz nAlt : Int) : Except Err (LocalMap α) :=
  (linChecked 360 nAz).bind fun az =>
    (linChecked 90 nAlt).map fun alt =>
      ⟨(meshDeg az alt).map fun r : List (ℚ × ℚ) => r.map Prod.fst, (meshDeg az alt).map fun r : List (ℚ × ℚ) => r.map Prod.snd,
        (meshDeg az alt).map fun r : List (ℚ × ℚ) => r.map fun p : ℚ × ℚ => look p.1 p.2⟩

/-- The value of `to_sky` before it is reshaped (skymodel.py:303, `radec_project`, 271-278): the directions at each frequency in turn. -/
def skyFlat {α F C : Type} (look : F → C → α) (fs : List F) (cs : List C) : List α := fs.flatMap fun f : F => cs.map fun c : C => look f c

/-- `.reshape((times, frequencies, 1, directions))` (skymodel.py:303): refused unless the number of values is the same; the item at a time, a
frequency, a polarisation and a direction. -/
def reshapeSky {α : Type} (v : List α) (nt nf nc : Nat) : Except Err (Nat → Nat → Nat → Nat → Option α) :=
  if v.length = nt * nf * 1 * nc then
    .ok fun t f p c : Nat => if t < nt ∧ f < nf ∧ p < 1 ∧ c < nc then v[((t * nf + f) * 1 + p) * nc + c]? else none
  else .error .valueError

/-- `Skymodel.to_sky` (skymodel.py:298-304): the values of the sky. -/
def toSky {α F C : Type} (look : F → C → α) (fs : List F) (cs : List C) (nt : Nat) : Except Err (Nat → Nat → Nat → Nat → Option α) :=
  reshapeSky (skyFlat look fs cs) nt fs.length cs.length

end Verif.Astro
