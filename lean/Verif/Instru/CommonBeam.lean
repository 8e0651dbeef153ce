import Verif.Instru.Radio

/-!
# `in_analog_beam_max_frequency` of `nenupy/observation/obs_tools.py`, `lofar_instrument_temperature` of `nenupy/instru/instrument_tools.py`
-/

namespace Verif.Instru

/-! ## Sources in the same analog beam -/

/-- A source: fixed on the sky, or of the solar system with a position at each time (obs_tools.py:82-89). Positions are given by astropy. -/
inductive SkySource (P : Type)
  | fixed (p : P)
  | moving (p : Nat → P)

/-- `src1.separation(src2)`, made a list (obs_tools.py:92-98, target.py:207): a single value for two fixed sources, else one for each of the `nt` times. -/
def sepList {P : Type} (dist : P → P → ℝ) (nt : Nat) : SkySource P → SkySource P → List ℝ
  | .fixed p, .fixed q => [dist p q]
  | .fixed p, .moving q => (List.range nt).map fun i => dist p (q i)
  | .moving p, .fixed q => (List.range nt).map fun i => dist (p i) q
  | .moving p, .moving q => (List.range nt).map fun i => dist (p i) (q i)

/-- `np.linspace(15, 85, 200)`, in MHz (obs_tools.py:101). -/
noncomputable def bandFreq (k : Nat) : ℝ := 15 + 70 * k / 199

/-- `analog_beam_hwhm` (obs_tools.py:102-104), for a longest baseline `d`. -/
noncomputable def halfWidth (d f : ℝ) : ℝ := waveOf f / d * (180 / Real.pi) / 2

open Classical in
/-- `frequencies[within_analog_beam[i, :]]` (obs_tools.py:109-112). -/
noncomputable def beamFreqs (d s : ℝ) : List ℝ := ((List.range 200).map bandFreq).filter fun f => decide (s ≤ halfWidth d f)

/-- `max_frequencies[i]` (obs_tools.py:108, 111-115): the greatest, or 0 if there is none. -/
noncomputable def commonFreq (d s : ℝ) : ℝ := ((beamFreqs d s).max?).getD 0

/-- The value at each time (obs_tools.py:110-116): `within_analog_beam[i, :]` fails for a line which is not there. -/
noncomputable def commonFreqs (d : ℝ) (seps : List ℝ) : Nat → Except Err (List ℝ)
  | 0 => .ok []
  | n + 1 => (commonFreqs d seps n).bind fun l => (seps[n]?).elim (.error .indexError) fun s => .ok (l ++ [commonFreq d s])

/-- `in_analog_beam_max_frequency` at `nt` times (obs_tools.py:49-116), for mini-arrays of longest baseline `d`. -/
noncomputable def sameBeam {P : Type} (dist : P → P → ℝ) (d : ℝ) (nt : Nat) (a b : SkySource P) : Except Err (List ℝ) := commonFreqs d (sepList dist nt a b) nt

/-! ## LOFAR temperature -/

/-- `t_inst_poly_fit_lba` (instrument_tools.py:402-412, 424). -/
noncomputable def lbaPoly (f : ℝ) : ℝ :=
  62699888333 / 1000000000000000 * f ^ 6 + (-19932340239) / 1000000000000 * f ^ 5 + 260625093843 / 100000000000 * f ^ 4 + (-179560314268) / 1000000000 * f ^ 3 + 689014953844 / 100000000 * f ^ 2 + (-140196209123) / 1000000 * f ^ 1 + 118984207708 / 100000

/-- `t_inst_poly_fit_hba` (instrument_tools.py:413-423, 425). -/
noncomputable def hbaPoly (f : ℝ) : ℝ :=
  664031379234 / 10000000000000000000 * f ^ 6 + (-627815750717) / 10000000000000000 * f ^ 5 + 246844426766 / 10000000000000 * f ^ 4 + (-516281033712) / 100000000000 * f ^ 3 + 605474082663 / 1000000000 * f ^ 2 + (-377303913315) / 10000000 * f ^ 1 + 975867990312 / 1000000

open Classical in
/-- `lofar_instrument_temperature` at a frequency in MHz (instrument_tools.py:400-431); `none` for `nan`. -/
noncomputable def lofarTemp (f : ℝ) : Option ℝ := if 110 ≤ f then some (hbaPoly f) else if f ≤ 90 then some (lbaPoly f) else none

end Verif.Instru
