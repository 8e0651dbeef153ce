import Verif.Common.Prelude
import Mathlib.Analysis.SpecialFunctions.Pow.Real

/-!
# Model of the radiometry of an array: `nenupy/instru/interferometer.py`, `instrument_tools.py`, `nenupy/astro/astro_tools.py`

Frequencies are in MHz, lengths in metres, temperatures in kelvins, areas in square metres, flux densities in the unit in which
the Boltzmann constant is 1 (a jansky up to a factor), `dt` in seconds, `df` in hertz. Reals are exact.
-/

namespace Verif.Instru

/-- `frequency.to(u.m, equivalencies=u.spectral())` (astro_tools.py:692-695, interferometer.py:1114-1117). -/
noncomputable def waveOf (f : ℝ) : ℝ := 299792458 / 1000000 / f

/-- `sky_temperature` (astro_tools.py:657-698). -/
noncomputable def skyTemp (f : ℝ) : ℝ := 60 * waveOf f ^ (255 / 100 : ℝ)

/-- Position of the last abscissa not above `x`. Used for instrument_tools.py:199. -/
noncomputable def stepBelow (xs : List ℝ) (x : ℝ) : Nat := (xs.takeWhile fun t => decide (t ≤ x)).length - 1

/-- The value on the segment that follows abscissa `i`. Used for instrument_tools.py:199. -/
noncomputable def onSegment (xs ys : List ℝ) (i : Nat) (x : ℝ) : ℝ :=
  ys.getD i 0 + (ys.getD (i + 1) 0 - ys.getD i 0) / (xs.getD (i + 1) 0 - xs.getD i 0) * (x - xs.getD i 0)

/-- `np.interp` on increasing abscissas (instrument_tools.py:199, nenufar.py:892): constant outside of them. -/
noncomputable def npInterp (xs ys : List ℝ) (x : ℝ) : ℝ :=
  if x ≤ xs.headD 0 then ys.headD 0
  else if xs.getLastD 0 ≤ x then ys.getLastD 0
  else onSegment xs ys (stepBelow xs x) x

/-- The tables of `low_noise_amplifier.json`: frequencies and gains (instrument_tools.py:189-192). -/
structure Lna where
  noFilter : List ℝ × List ℝ
  filter25 : List ℝ × List ℝ

/-- `lna_gain[filters[lna_filter]]` (instrument_tools.py:189-192). -/
def Lna.table (l : Lna) (filter : ℤ) : Except Err (List ℝ × List ℝ) :=
  if filter = 0 then .ok l.noFilter else if filter = 3 then .ok l.filter25 else .error .keyError

/-- `instrument_temperature` (instrument_tools.py:153-201). -/
noncomputable def instTemp (l : Lna) (filter : ℤ) (f : ℝ) : Except Err ℝ :=
  (l.table filter).map fun t => skyTemp f * npInterp t.1 t.2 f

/-- An array of antennas: its size, its effective area by frequency and elevation (in radians) and the largest of its baselines. -/
structure Dish where
  size : Nat
  area : ℝ → ℝ → ℝ
  longest : ℝ

/-- `t_src` (interferometer.py:894-897): the sum over the sources. -/
noncomputable def srcTemp (a : Dish) (sources : List (ℝ → ℝ)) (η elev f : ℝ) : ℝ :=
  (sources.map fun s => s f * a.area f elev * η / 2).sum

/-- `system_temperature` (interferometer.py:834-898); `π/2` and 1 are the default elevation and efficiency. -/
noncomputable def sysTemp (a : Dish) (l : Lna) (filter : ℤ) (sources : List (ℝ → ℝ)) (η elev f : ℝ) : Except Err ℝ :=
  (instTemp l filter f).map fun t => skyTemp f + t + srcTemp a sources η elev f

/-- Length of a baseline. Used for interferometer.py:1118. -/
noncomputable def apart (p q : ℝ × ℝ × ℝ) : ℝ := √((p.1 - q.1) ^ 2 + (p.2.1 - q.2.1) ^ 2 + (p.2.2 - q.2.2) ^ 2)

/-- `np.max(self.baselines.distance)` (interferometer.py:1118), for the positions of the antennas. -/
noncomputable def longestOf (pos : List (ℝ × ℝ × ℝ)) : ℝ :=
  (pos.flatMap fun p => pos.map fun q => apart p q).foldr max 0

/-- A quotient, `none` when numpy gives an infinity or no number. Used for interferometer.py:959, 1068-1070, 1119. -/
noncomputable def over (a b : ℝ) : Option ℝ := if b = 0 then none else some (a / b)

/-- `sefd` (interferometer.py:901-960): the system temperature is asked without the efficiency and the elevation
(interferometer.py:958). -/
noncomputable def sefd (a : Dish) (l : Lna) (filter : ℤ) (sources : List (ℝ → ℝ)) (η ξ elev f : ℝ) : Except Err (Option ℝ) :=
  (sysTemp a l filter sources 1 (Real.pi / 2) f).map fun t => over (ξ * 2 * t) (η * a.area f elev)

/-- `ObservingMode` (interferometer.py:1067-1071), or anything else. -/
inductive ObsMode where
  | imaging
  | beamforming
  | other
deriving DecidableEq

/-- `sensitivity` (interferometer.py:963-1075). -/
noncomputable def sensitivity (a : Dish) (l : Lna) (filter : ℤ) (sources : List (ℝ → ℝ)) (mode : ObsMode)
    (dt df η ξ elev f : ℝ) : Except Err (Option ℝ) :=
  (sefd a l filter sources η ξ elev f).bind fun s =>
    if mode = .imaging then .ok (s.bind fun x => over x √((a.size : ℝ) * (a.size - 1) * 2 * dt * df))
    else if mode = .beamforming then .ok (s.bind fun x => over x √(2 * dt * df))
    else .error .valueError

/-- `angular_resolution`, in degrees (interferometer.py:1078-1119). -/
noncomputable def resolution (a : Dish) (f : ℝ) : Except Err (Option ℝ) :=
  if a.size = 1 then .error .exception else .ok ((over (waveOf f) a.longest).map fun θ => θ * (180 / Real.pi))

/-- `confusion_noise`, in janskys (interferometer.py:1122-1190). -/
noncomputable def confusion (a : Dish) (f : ℝ) (lofar : Bool) : Except Err (Option ℝ) :=
  (resolution a f).map fun o => o.map fun θ =>
    if lofar then 30 * (θ * 3600) ^ (154 / 100 : ℝ) * (f / 74) ^ (-(7 / 10) : ℝ) * (1 / 1000000)
    else 2 / 10 * (f / 1000) ^ (-(7 / 10) : ℝ) * (θ * 60) ^ (2 : ℝ) * (1 / 1000)

end Verif.Instru
