import Verif.Astro.Pointing
import Mathlib.Data.Real.Basic

/-!
# Corrections of beamformed data (nenupy/astro/beam_correction.py)

`timedelta` objects are whole numbers of microseconds. Times of pointings are rational seconds, as in `Verif.Astro.Pointing`. The
gain of the array, the correction of the orders and the conversions of coordinates are parameters.
-/

namespace Verif.Astro

/-! ## Times of the Jones matrices -/

/-- `timedelta.seconds`: the seconds without the days and without the fraction (beam_correction.py:135). -/
def secondsOf (step : Int) : Int := step % 86400000000 / 1000000

/-- `int(total_seconds / seconds) + 1` (beam_correction.py:135); the quotient is exact here. -/
def matrixCount (step dur : Int) : Except Err Int :=
  if secondsOf step = 0 then .error .zeroDivision else .ok (Int.tdiv dur (secondsOf step * 1000000) + 1)

/-- Times, after the start, at which `compute_projection_corrections` works (beam_correction.py:118-119, 134-137). -/
def projectionTimes (step dur : Int) : Except Err (List Int) :=
  if step ≤ 1000000 then .error .valueError
  else (matrixCount step dur).map fun n => (List.range n.toNat).map fun i : Nat => (i : Int) * step

/-- Checks of `matrices_to_hdf5` (beam_correction.py:170-179): shapes as lists of sizes. The writing itself is not modelled. -/
def hdf5Check (times freqs matrices : List Nat) (name : String) : Except Err Unit :=
  if List.isSuffixOf ".hdf5".toList name.toList = false then .error .valueError
  else if matrices.take (matrices.length - 2) ≠ freqs ++ times then .error .indexError
  else .ok ()

/-! ## Factor -/

/-- Number of coordinates of a pointing (pointing.py:102-111). -/
def Dirs.count {D : Type} : Dirs D → Nat
  | .one _ => 1
  | .many ds => ds.length

/-- The directions as a list (pointing.py:102-111). -/
def Dirs.list {D : Type} : Dirs D → List D
  | .one d => [d]
  | .many ds => ds

/-- `horizontal_coordinates` of a pointing (pointing.py:297-316; astro_tools.py:403-405, 1198-1207): horizontal coordinates given by
the file when there are some, in one dimension. Otherwise a table of times by coordinates: kept with its two dimensions (`true`)
if there is one coordinate, its diagonal if it is square; the mask of the diagonal has another shape otherwise. -/
def orders {D H : Type} (conv : ℚ → D → H) (p : Pointing D) (custom : Option (List H)) : Except Err (Bool × List H) :=
  custom.elim
    (if p.dirs.count = 1 then .ok (true, p.time.flatMap fun t => p.dirs.list.map (conv t))
     else if p.dirs.count = p.time.length then .ok (false, List.zipWith conv p.time p.dirs.list)
     else .error .indexError)
    fun l => .ok (false, l)

/-- Pointing which really took place (beam_correction.py:281-300): orders corrected and turned (`turn`), each one until the next, the
last one for a day. With two dimensions, the time added at the end has another dimension than the others. -/
def realPointing {D H : Type} (conv : ℚ → D → H) (back : ℚ → H → D) (turn : H → H) (p : Pointing D) (custom : Option (List H)) :
    Except Err (Pointing D) :=
  (orders conv p custom).bind fun o =>
    if p.time = [] then .error .indexError
    else if o.1 = true then .error .valueError
    else mkPointing (.many (List.zipWith back p.time (o.2.map turn))) p.time (some (diffs (p.time ++ [p.time.getLastD 0 + 86400])))

/-- Values of a beam in the directions `sky`, one per time (beam_correction.py:301-322): axes time, frequency, polarisation,
direction. `gain r d t f p`: gain of the array pointed at `r` in the direction `d`. -/
def beamValue {D F P : Type} (gain : Option D → Option D → ℚ → F → P → ℝ) (pointed sky : ℚ → Option D) (times : List ℚ) (i : Nat) (f : F)
    (p : P) (k : Nat) : ℝ := gain (pointed (times.getD i 0)) (sky (times.getD k 0)) (times.getD i 0) f p

/-- The direction of a pointing, once it is known not to fail. Used for beam_correction.py:303, 314. -/
def dirAt {D : Type} (p : Pointing D) (t : ℚ) : Option D := (p.at t).toOption.join

/-- `pointing_correction_factor` without interpolation (beam_correction.py:281-327, 341): axes time, frequency, polarisation. -/
noncomputable def factor {D H F P : Type} (conv : ℚ → D → H) (back : ℚ → H → D) (turn : H → H)
    (gain : Option D → Option D → ℚ → F → P → ℝ) (p : Pointing D) (custom : Option (List H)) (times : List ℚ) (fs : List F) (ps : List P) :
    Except Err (List (List (List ℝ))) :=
  (realPointing conv back turn p custom).map fun r =>
    (List.range times.length).map fun i => fs.map fun f => ps.map fun q =>
      beamValue gain (dirAt r) (dirAt r) times i f q i / beamValue gain (dirAt r) (dirAt p) times i f q i

end Verif.Astro
