import Verif.IO.Xst
import Mathlib.Analysis.Complex.Norm

/-!
# Images and near-field images of cross-correlations (nenupy/io/xst.py)

Visibilities are complex numbers or NaN (`none`), in lists by time, frequency and baseline (in the order of `np.tril_indices`). Wavelengths,
positions and coordinates are real numbers. Chunks of dask only count where they raise an error; floats are exact.
-/

namespace Verif.IO

/-- `np.mean` of an axis: NaN if there is one, or nothing. Used for xst.py:453, 459, 563, 600. -/
noncomputable def meanC (l : List (Option ℂ)) : Option ℂ :=
  if l = [] ∨ none ∈ l then none else some ((l.map fun x => x.getD 0).sum / l.length)

/-- `np.nanmean` of an axis. Used for xst.py:458, 565. -/
noncomputable def nanmeanR (l : List (Option ℝ)) : Option ℝ :=
  if l.filterMap id = [] then none else some ((l.filterMap id).sum / (l.filterMap id).length)

/-- `ma1`, `ma2` and the place of the baselines kept by `cross_mask` (xst.py:412-413, 575-576). -/
def crossPairs (n : Nat) : List ((Nat × Nat) × Nat) := (tril n).zipIdx.filter fun p => decide (p.1.1 ≠ p.1.2)

/-- `np.mean(…, axis=0)`: mean in time at frequency `f` and baseline `b` (xst.py:453-455, 600). -/
noncomputable def timeMean (cube : List (List (List (Option ℂ)))) (f b : Nat) : Option ℂ :=
  meanC (cube.map fun frame => (frame.getD f []).getD b none)

/-! ## Near-field -/

/-- `ground_granularity` (xst.py:582-583): `np.linspace(-radius, radius, npix)`. -/
noncomputable def groundAt (radius : ℝ) (npix i : Nat) : ℝ := if npix = 1 then -radius else -radius + 2 * radius / ((npix : ℝ) - 1) * i

/-- `ground_grid` (xst.py:584-586), with `np.meshgrid`. -/
noncomputable def groundPoint (n : Nat) (pos : Nat → ℝ × ℝ × ℝ) (radius : ℝ) (npix i j : Nat) : ℝ × ℝ × ℝ :=
  (groundAt radius npix j, groundAt radius npix i, (((List.range n).map fun k => (pos k).2.2).sum / n) + 1)

/-- `ground_distances` (xst.py:587-589). -/
noncomputable def distTo (a g : ℝ × ℝ × ℝ) : ℝ := Real.sqrt ((a.1 - g.1) ^ 2 + (a.2.1 - g.2.1) ^ 2 + (a.2.2 - g.2.2) ^ 2)

/-- `phase` (xst.py:590-592, 613-616). -/
noncomputable def nearPhase (pos : Nat → ℝ × ℝ × ℝ) (g : ℝ × ℝ × ℝ) (wvl : ℝ) (k l : Nat) : ℂ :=
  Complex.exp (2 * Complex.I * Real.pi * ((distTo (pos k) g - distTo (pos l) g) / wvl))

/-- `compute_nearfield_imprint` (xst.py:561-567) at one pixel. `vis f p`: visibility of the baseline `p` at the frequency `f`. -/
noncomputable def imprint (n : Nat) (pos : Nat → ℝ × ℝ × ℝ) (wvls : List ℝ) (vis : Nat → (Nat × Nat) × Nat → Option ℂ) (g : ℝ × ℝ × ℝ) : Option ℝ :=
  nanmeanR ((crossPairs n).map fun p =>
    (meanC ((List.range wvls.length).map fun f => (vis f p).map (· * nearPhase pos g (wvls.getD f 0) p.1.1 p.1.2))).map (‖·‖))

/-- `nearfield` of `make_nearfield` (xst.py:570-621), pixel `[i, j]`. -/
noncomputable def nearfield (n : Nat) (pos : Nat → ℝ × ℝ × ℝ) (wvls : List ℝ) (cube : List (List (List (Option ℂ)))) (radius : ℝ) (npix i j : Nat) :
    Option ℝ :=
  imprint n pos wvls (fun f p => timeMean cube f p.2) (groundPoint n pos radius npix i j)

/-- `to_enu` (xst.py:648-654). -/
noncomputable def toEnu (az el : ℝ) : ℝ × ℝ × ℝ := (Real.cos el * Real.sin az, Real.cos el * Real.cos az, Real.sin el)

/-- `src_vis` (xst.py:664-674). -/
noncomputable def sourceVis (pos : Nat → ℝ × ℝ × ℝ) (s : ℝ × ℝ × ℝ) (wvl : ℝ) (k l : Nat) : ℂ :=
  Complex.exp (2 * Complex.I * Real.pi * ((((pos k).1 - (pos l).1) * s.1 + ((pos k).2.1 - (pos l).2.1) * s.2.1 + ((pos k).2.2 - (pos l).2.2) * s.2.2) / wvl))

/-- One entry of `simu_sources` (xst.py:640-676), pixel `[i, j]`; `none` outside: the source is left out. Altitude in degrees for the
comparison, angles in radians. -/
noncomputable def simuSource (n : Nat) (pos : Nat → ℝ × ℝ × ℝ) (wvls : List ℝ) (az alt : ℝ) (radius : ℝ) (npix i j : Nat) : Option (Option ℝ) :=
  if alt * (180 / Real.pi) ≤ 10 then none
  else some (imprint n pos wvls (fun f p => some (sourceVis pos (toEnu az alt) (wvls.getD f 0) p.1.1 p.1.2)) (groundPoint n pos radius npix i j))

/-! ## Image -/

/-- `uvw` divided by the wavelength, mean in time, at a frequency and a baseline (xst.py:414-419): one coordinate. -/
noncomputable def meanUvw (nt : Nat) (uvw : Nat → Nat → ℝ) (wvl : ℝ) (b : Nat) : ℝ := ((List.range nt).map fun t => uvw t b / wvl).sum / nt

/-- `phase` (xst.py:434-435, 449-450): `lmn` holds `l`, `m`, `n`. -/
noncomputable def imagePhase (nt : Nat) (uvw : Nat → Nat → ℝ × ℝ × ℝ) (wvl : ℝ) (b : Nat) (lmn : ℝ × ℝ × ℝ) : ℂ :=
  Complex.exp (-2 * Complex.I * Real.pi * ((meanUvw nt (fun t b => (uvw t b).1) wvl b * lmn.1 + meanUvw nt (fun t b => (uvw t b).2.1) wvl b * lmn.2.1 +
    meanUvw nt (fun t b => (uvw t b).2.2) wvl b * (lmn.2.2 - 1) : ℝ)))

/-- `self.value * rephase_matrix` (xst.py:453). -/
noncomputable def rephased (cube : List (List (List (Option ℂ)))) (rephase : Nat → Nat → Nat → ℂ) : List (List (List (Option ℂ))) :=
  cube.mapIdx fun t frame => frame.mapIdx fun f row => row.mapIdx fun b v => v.map (· * rephase t f b)

/-- `dirty` (xst.py:449-460) at one pixel. -/
noncomputable def dirtyAt (n nt : Nat) (wvls : List ℝ) (cube : List (List (List (Option ℂ)))) (uvw : Nat → Nat → ℝ × ℝ × ℝ) (lmn : ℝ × ℝ × ℝ) : Option ℝ :=
  nanmeanR ((crossPairs n).map fun p =>
    (meanC ((List.range wvls.length).map fun f => (timeMean cube f p.2).map (· * imagePhase nt uvw (wvls.getD f 0) p.2 lmn))).map Complex.re)

/-- A pixel of the sky: its altitude at the middle of the exposure, its separation from the phase centre, its image coordinates. Used for xst.py:432-434. -/
structure SkyPixel where
  alt : ℝ
  sep : ℝ
  lmn : ℝ × ℝ × ℝ

/-- `image_mask` (xst.py:432-433). -/
def inField (fov : ℝ) (x : SkyPixel) : Prop := 0 < x.alt ∧ x.sep ≤ fov

open Classical in
/-- `make_image` (xst.py:412-469), after the visibilities and baselines are towards the phase centre (xst.py:389-409); one entry per pixel. Chunks of
no pixel at xst.py:437 are a division by zero in dask (`cpu`: `os.cpu_count()`). -/
noncomputable def makeImage (cpu n nt : Nat) (wvls : List ℝ) (cube : List (List (List (Option ℂ)))) (rephase : Nat → Nat → Nat → ℂ)
    (uvw : Nat → Nat → ℝ × ℝ × ℝ) (fov : ℝ) (sky : List SkyPixel) : Except Err (List (Option ℝ)) :=
  if 0 < (sky.filter fun x => decide (inField fov x)).length ∧ (sky.filter fun x => decide (inField fov x)).length / cpu = 0 then .error .zeroDivision
  else .ok (sky.map fun x => if inField fov x then dirtyAt n nt wvls (rephased cube rephase) uvw x.lmn else none)

end Verif.IO
