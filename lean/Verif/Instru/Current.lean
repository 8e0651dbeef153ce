import Verif.Instru.Reference
import Verif.Astro.Pointing
import Mathlib.Analysis.SpecialFunctions.Pow.Real

/-!
# Model of the drawing of a pointing on the sky: `plot_current_pointing` (nenupy/observation/obs_tools.py), and of `Skymodel.to_sky` (nenupy/astro/skymodel.py)

Beams and altitudes of sources are parameters. Left out: the map of the sky and its colours, texts, grids and axes, and percentiles, which are given.
-/

namespace Verif.Instru

open Verif.Astro

noncomputable section

/-- Argument `frequency` (obs_tools.py:178-185): without unit, in a unit of frequency (in MHz here), or in another unit; `one`: whether it is a scalar. -/
inductive MapFreq
  | plain (one : Bool) (v : ℚ)
  | freq (one : Bool) (mhz : ℚ)
  | otherUnit

/-- Checks of the frequency (obs_tools.py:178-185). -/
def freqOf (a : MapFreq) : Except Err ℚ :=
  a.casesOn (fun one v => if one then .ok v else .error .valueError) (fun one v => if one then .ok v else .error .valueError) (.error .valueError)

/-- Direction of the pointing, `none` for the zenith (obs_tools.py:163-176): beam 0 of the file, at the time which is asked for. -/
def directionOf {D : Type} (zenith : D) (file : Option (List (ℚ × Nat × D))) (t : ℚ) : Except Err (Option D) :=
  file.elim (.ok none) fun rows => (fromAltazA zenith rows 0).bind fun p => p.at t

/-- The mini-arrays whose beams are added (obs_tools.py:219). -/
def rotatedMas : List ℤ := [0, 11, 3, 1, 13, 7]

/-- Sum of the beams in direction `k` of the map (obs_tools.py:216-234). -/
def analogSum (beam : ℤ → Nat → ℝ) (k : Nat) : ℝ := (rotatedMas.map fun m => beam m k).sum

/-- `analog_beam / analog_beam.max()` (obs_tools.py:235) on `n` directions. -/
def analogShown (beam : ℤ → Nat → ℝ) (n k : Nat) : ℝ := analogSum beam k / ((List.range n).map (analogSum beam)).max?.getD 0

/-- `np.logspace(np.log(p), 0, 7)` (obs_tools.py:242) for a positive percentile `p`. -/
def contourLevels (p : ℝ) : List ℝ := (List.range 7).map fun i : Nat => (10 : ℝ) ^ (Real.log p + (i : ℝ) * (0 - Real.log p) / 6)

open Classical in
/-- `ax.contour` refuses levels which do not increase. Used for obs_tools.py:238-245. -/
def contoured (l : List ℝ) : Except Err (List ℝ) := if ∃ i, ∃ a b : ℝ, l[i]? = some a ∧ l[i + 1]? = some b ∧ b ≤ a then .error .valueError else .ok l

/-- Names of the sources (obs_tools.py:275). -/
def sourceNames : List String :=
  ["Sun", "Jupiter", "Cas A", "Cyg A", "Tau A", "Vir A", "3C 196", "3C 218", "3C 219", "3C 254", "3C 273", "3C 295", "3C 338", "3C 348", "3C 380", "3C 84"]

/-- Sources which are drawn (obs_tools.py:274-292). -/
def sourcesShown (wanted : Bool) (alt : String → ℝ) : List String := if wanted then sourceNames.filter fun s => !decide (alt s ≤ 0) else []

/-- What becomes of the figure (obs_tools.py:317-328). -/
inductive FigEnd
  | shown
  | returned
  | saved (name : String)
  deriving DecidableEq

/-- End of the drawing (obs_tools.py:317-328). -/
def figEnd (name : Option String) : FigEnd := name.elim .shown fun n => if n = "" then .shown else if n.toLower = "return" then .returned else .saved n

/-- A drawing. Used for obs_tools.py:160-328. -/
structure CurrentMap (D : Type) where
  dir : Option D
  mhz : ℚ
  beam : Nat → ℝ
  levels : List ℝ
  sources : List String
  done : FigEnd

/-- `plot_current_pointing` (obs_tools.py:160-328) on a map of `n` directions; `p` gives the percentile of the beam. -/
def currentPlot {D : Type} (zenith : D) (scalarTime : Bool) (t : ℚ) (file : Option (List (ℚ × Nat × D))) (fr : MapFreq) (beam : Option D → ℚ → ℤ → Nat → ℝ) (n : Nat) (p : (Nat → ℝ) → ℝ)
    (wanted : Bool) (alt : String → ℝ) (name : Option String) : Except Err (CurrentMap D) :=
  if !scalarTime then .error .valueError else
  (directionOf zenith file t).bind fun d => (freqOf fr).bind fun f =>
    (contoured (contourLevels (p (analogShown (beam d f) n)))).map fun l => ⟨d, f, analogShown (beam d f) n, l, sourcesShown wanted alt, figEnd name⟩

/-- `Skymodel.to_sky` (skymodel.py:300-306): the values, one for each frequency and direction, in the shape of times, frequencies, one polarisation and directions. -/
def toSky {V : Type} (nt nf nc : Nat) (value : Nat → Nat → V) : Except Err (Nat → Nat → Nat → Nat → V) :=
  if nf * nc = nt * nf * 1 * nc then .ok fun _ f _ c => value f c else .error .valueError

end

end Verif.Instru
