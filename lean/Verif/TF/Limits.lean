import Verif.TF.Model
import Verif.TF.Select
import Mathlib.Data.List.Dedup

/-!
Limits in time and frequency announced by `Spectra` (nenupy/io/tf.py) and by `_Lane` (nenupy/undysputed/dynspec.py).

`chan` gives the number of each recorded sub-band, `beams` its beam, both taken from the first block, and `nc` is the number of channels
of a sub-band. Frequencies are in Hz, times in s. The rounding of the floats is left out.
-/

namespace Verif.TF

open Verif

/-- `SUBBAND_WIDTH` (tf.py:55), in Hz. -/
def bandWidth : ℚ := 390625 / 2

/-- `_subband_start_hz` (tf.py:1211-1213). -/
def subStart (chan : List Int) (i : Nat) : ℚ := (chan.getD i 0 : ℚ) * bandWidth

/-- Values over which `frequency_min` takes the lowest (tf.py:1288-1291), for the beams of `sort_beam_edges`. -/
def freqMins (chan : List Int) (beams : List Nat) (nc : Nat) : List ℚ :=
  (beams.dedup.filterMap fun b => beamEdges beams nc b).map fun e => subStart chan (e.1 / nc)

/-- `Spectra.frequency_min` (tf.py:1274-1293); `np.min` of nothing raises `ValueError`. -/
def frequencyMin (chan : List Int) (beams : List Nat) (nc : Nat) : Except Err ℚ :=
  (freqMins chan beams nc).min?.elim (.error .valueError) .ok

/-- Values over which `frequency_max` takes the highest (tf.py:1310-1313). -/
def freqMaxs (chan : List Int) (beams : List Nat) (nc : Nat) : List ℚ :=
  (beams.dedup.filterMap fun b => beamEdges beams nc b).map fun e => subStart chan ((e.2 + 1) / nc - 1)

/-- `Spectra.frequency_max` (tf.py:1296-1315). -/
def frequencyMax (chan : List Int) (beams : List Nat) (nc : Nat) : Except Err ℚ :=
  (freqMaxs chan beams nc).max?.elim (.error .valueError) fun x => .ok (x + bandWidth)

/-- `Spectra.time_min` (tf.py:1241-1254), for the starts of the blocks. -/
def timeMin (start : Nat → ℚ) : ℚ := start 0

/-- `Spectra.time_max` (tf.py:1257-1273), for `n` blocks of `nt` times. -/
def timeMax (start : Nat → ℚ) (n nt : Nat) (dt : ℚ) : ℚ := start (n - 1) + nt * dt

/-- `df` of a lane, times its number of channels (dynspec.py:204, 243): 1 / 5.12 µs. -/
def laneWidth : ℚ := 1 / (512 / 100000000)

/-- `_Lane.fmin` (dynspec.py:121-123, 243). -/
def laneMin (chan : List Int) : Except Err ℚ :=
  (chan.min?).elim (.error .valueError) fun c => .ok (laneWidth * ((c : ℚ) - 1 / 2))

/-- `_Lane.fmax` (dynspec.py:126-128, 244). -/
def laneMax (chan : List Int) : Except Err ℚ :=
  (chan.max?).elim (.error .valueError) fun c => .ok (laneWidth * ((c : ℚ) + 1 / 2))

/-- `_compute_frequencies` (dynspec.py:303-316): frequency of channel `k` of the axis of a lane. -/
def laneFreq (chan : List Int) (nc k : Nat) : ℚ :=
  (((k % nc : Nat) : ℚ) - (nc : ℚ) / 2) * (laneWidth / nc) + (chan.getD (k / nc) 0 : ℚ) * (laneWidth / nc * nc)

/-- `_compute_times` (dynspec.py:290-300): time of sample `k` of a lane. -/
def laneTime (stamp seq : ℚ) (dt : ℚ) (k : Nat) : ℚ := (k : ℚ) * dt + (stamp + seq / (390625 / 2))

/-- `_Lane.tmin` (dynspec.py:110-113). -/
def laneStart (stamp seq dt : ℚ) : ℚ := laneTime stamp seq dt 0

/-- `_Lane.tmax` (dynspec.py:115-118), for `n` blocks of `nt` times. -/
def laneEnd (stamp seq dt : ℚ) (n nt : Nat) : ℚ := laneTime stamp seq dt (n * nt - 1)

end Verif.TF
