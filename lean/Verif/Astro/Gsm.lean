import Mathlib.Analysis.SpecialFunctions.Trigonometric.Basic
import Verif.Common.Prelude
import Verif.Astro.Sky

/-!
# Global sky model put on a sky: `HpxGSM` and `Skymodel` (`nenupy/astro/skymodel.py`)

The maps of the library are functions: the map generated at a number of MHz, its change of resolution, the interpolation on rotated pixels and the
angle by which the polarisation turns there. What is modelled is which of them are called, on what numbers, and in what shape the result is put.
-/

namespace Verif.Astro

noncomputable section

/-- One map: a value for each pixel. Used for skymodel.py:223-257. -/
abbrev HpxMap := Nat → ℝ

/-- The libraries used (skymodel.py:224-250, 311-317): `gen` is the map at a number of MHz, `native` its number of sides, `grade` the change to a
number of sides, `rot` the interpolation on the pixels turned from galactic to equatorial, `psi` the angle of the turn in each pixel. -/
structure GsmLib where
  gen : ℚ → HpxMap
  native : Nat
  grade : Nat → HpxMap → HpxMap
  rot : Nat → HpxMap → HpxMap
  psi : Nat → Nat → ℝ

/-- Frequencies with their unit, in MHz. Used for skymodel.py:60, 267. -/
structure Freqs where
  unit : ℚ
  vals : List ℚ

/-- `frequency.to_value(u.MHz)` (skymodel.py:311). -/
def Freqs.mhz (f : Freqs) : List ℚ := f.vals.map (· * f.unit)

/-- `GlobalSkyModel.generate` on plain numbers (called at skymodel.py:225, 311): it refuses an empty list and numbers outside of 10 to 94000; a
quantity loses its unit in `np.array`. A single map comes without the axis of frequencies, which is put back at skymodel.py:236-237. -/
def generate (L : GsmLib) (fs : List ℚ) : Except Err (List HpxMap) :=
  if fs.isEmpty then .error .valueError
  else if fs.any (fun f => decide (f < 10) || decide (94000 < f)) then .error .exception
  else .ok (fs.map L.gen)

/-- `ud_grade` when the number of sides is another one (skymodel.py:228-233). -/
def regrade (L : GsmLib) (nside : Nat) (m : HpxMap) : HpxMap := if L.native ≠ nside then L.grade nside m else m

/-- `Rotator.rotate_map_pixel` of the library (called at skymodel.py:246-248, 317): each map is interpolated; when there are several, the last two are
taken for the Stokes parameters Q and U, and turned. -/
def rotateMaps (L : GsmLib) (nside : Nat) (l : List HpxMap) : List HpxMap :=
  if 1 < l.length then
    let q := L.rot nside (l.getD (l.length - 2) 0)
    let u := L.rot nside (l.getD (l.length - 1) 0)
    ((l.take (l.length - 2)).map (L.rot nside)) ++
      [fun c => q c * Real.cos (2 * L.psi nside c) - u c * Real.sin (2 * L.psi nside c),
       fun c => q c * Real.sin (2 * L.psi nside c) + u c * Real.cos (2 * L.psi nside c)]
  else l.map (L.rot nside)

/-- An array with four axes and its shape. Used for skymodel.py:253-257. -/
structure Arr4 where
  dims : Dims
  val : Nat → Nat → Nat → Nat → ℝ

/-- `np.tile(gsm_map, (self.time.size, 1, 1, 1))` (skymodel.py:254). -/
def tiled (nt npix : Nat) (rows : List HpxMap) : Arr4 := ⟨⟨nt, 1, rows.length, npix⟩, fun _ _ f c => rows.getD f 0 c⟩

/-- `np.moveaxis(gsm_map, source=2, destination=1)` (skymodel.py:255). -/
def moveAxis (a : Arr4) : Arr4 := ⟨⟨a.dims.t, a.dims.p, a.dims.f, a.dims.c⟩, fun i j k c => a.val i k j c⟩

/-- `_generate_gsm_map` (skymodel.py:213-257): the numbers of the frequencies, without their unit, go to `generate`; the maps are turned one by one. -/
def gsmMap (L : GsmLib) (nside npix nt : Nat) (f : Freqs) : Except Err Arr4 :=
  (generate L f.vals).map fun maps =>
    moveAxis (tiled nt npix ((maps.map (regrade L nside)).flatMap fun m => rotateMaps L nside [m]))

/-- What a sky on pixels is made of. Used for skymodel.py:57-72, 97-102. -/
structure HpxShape where
  nside : Nat
  npix : Nat
  times : Nat
  pols : Nat
  freqs : Freqs

/-- Its shape (sky.py:761-766). -/
def HpxShape.dims (s : HpxShape) : Dims := ⟨s.times, s.freqs.vals.length, s.pols, s.npix⟩

/-- `HpxGSM(resolution, time, frequency, observer)` (skymodel.py:57-70): a sky with one polarisation, whose value is set to the map (sky.py:760-777). -/
def hpxGsm (L : GsmLib) (nside npix nt : Nat) (f : Freqs) : Except Err (HpxShape × Arr4) :=
  let s : HpxShape := ⟨nside, npix, nt, 1, f⟩
  (gsmMap L nside npix nt f).bind fun a => if a.dims = s.dims then .ok (s, a) else .error .valueError

/-- `HpxGSM.shaped_like(other)` (skymodel.py:74-102): `none` is not a sky on pixels. The resolution found again is the same (see `shapedIndex`). -/
def gsmShapedLike (L : GsmLib) (other : Option HpxShape) : Except Err (HpxShape × Arr4) :=
  other.elim (.error .typeError) fun o => hpxGsm L o.nside o.npix o.times o.freqs

/-- `Skymodel(frequency).data` (skymodel.py:267-269, 308-317): the frequencies in MHz; all the maps are turned in one call. -/
def skymodelData (L : GsmLib) (f : Freqs) : Except Err (List HpxMap) :=
  (generate L f.mhz).map (rotateMaps L L.native)

end

end Verif.Astro
