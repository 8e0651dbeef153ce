import Verif.TF.Rfi
import Verif.Common.Prelude

/-!
# Model of the smoothing of a curve: `ST_Slice._smooth_data` (nenupy/io/io_tools.py)

The curve is a number `n` of samples and their values `d`, exact reals without NaN. The number of passes is not negative: with a negative
number the loop of io_tools.py:1301 does not end.
-/

namespace Verif.IO.Smooth

open Verif.TF (medianBy midReal stdOf)

/-- Values of the window of `w` samples from sample `s` on, `data[sliding_window_indices]` (io_tools.py:1302-1304). -/
def windowAt (d : Nat → ℝ) (w s : Nat) : List ℝ := (List.range w).map fun j : Nat => d (s + j)

/-- `windows_medians` of one window (io_tools.py:1306); none for a window without sample. -/
noncomputable def windowMed (d : Nat → ℝ) (w s : Nat) : Option ℝ := medianBy midReal (windowAt d w s)

/-- `thresholds` of one window (io_tools.py:1305-1307). -/
noncomputable def threshold (σ : ℝ) (d : Nat → ℝ) (w s : Nat) : Option ℝ := (windowMed d w s).map fun m => m + σ * stdOf (windowAt d w s)

/-- Windows with the sample `i`, `sliding_windows_affected` (io_tools.py:1303, 1312-1315). -/
def windowsWith (n w i : Nat) : List Nat := (List.range (n - w + 1)).filter fun s => decide (s ≤ i) && decide (i < s + w)

open Classical in
/-- Is `i` in `index_problems` (io_tools.py:1308-1310)? -/
noncomputable def tooHigh (n w : Nat) (σ : ℝ) (d : Nat → ℝ) (i : Nat) : Bool :=
  (windowsWith n w i).any fun s => (threshold σ d w s).any fun t => decide (t ≤ d i)

/-- One pass of the loop (io_tools.py:1302-1316). The medians are those of the samples before the pass. -/
noncomputable def smoothPass (n w : Nat) (σ : ℝ) (d : Nat → ℝ) : Nat → ℝ := fun i =>
  if tooHigh n w σ d i then (medianBy midReal ((windowsWith n w i).filterMap (windowMed d w))).getD 0 else d i

/-- The loop (io_tools.py:1301-1319): the window is halved after each pass. -/
noncomputable def smoothLoop (n : Nat) (σ : ℝ) : Nat → Nat → (Nat → ℝ) → Nat → ℝ
  | 0, _, d => d
  | k + 1, w, d => smoothLoop n σ k (w / 2) (smoothPass n w σ d)

/-- `_smooth_data` (io_tools.py:1295-1321) with `w` the length of the window, `σ` the clipping and `k` passes. -/
noncomputable def smoothData (n w : Nat) (σ : ℝ) (k : Nat) (d : Nat → ℝ) : Except Err (Nat → ℝ) :=
  if n < w then .error .indexError else .ok (smoothLoop n σ k w d)

end Verif.IO.Smooth
