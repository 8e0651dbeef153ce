import Verif.TF.Stokes
import Verif.Astro.BeamCor

/-!
# Correction of the polarisation with computed Jones matrices (nenupy/io/tf_utils.py)

The Jones matrices come from the package DreamBeam: a list of frequencies, and a matrix for each of its times and frequencies. Its times are those of
`compute_projection_corrections` (beam_correction.py:134-137), which repeats its computation.
-/

namespace Verif.TF

/-- Whole microseconds of a number of seconds: `.datetime` of a time or a duration. Used for beam_correction.py:61-63. -/
def micro (x : ℚ) : Int := rint (x * 1000000)

/-- `compute_jones_matrices` (beam_correction.py:41-77): the times of the matrices, in seconds, from the start, the step and the duration. -/
def dreamTimes (t0 step dur : ℚ) : Except Err (List ℚ) :=
  if step ≤ 1 then .error .valueError
  else (Astro.matrixCount (micro step) (micro dur)).map fun k =>
    (List.range k.toNat).map fun i : Nat => ((micro t0 + (i : Int) * micro step : Int) : ℚ) / 1000000

/-- `np.argmax` of booleans: the first true one, zero if there is none. Used for tf_utils.py:189-190, 199. -/
def firstTrue {α : Type} (p : α → Bool) (l : List α) : Nat := if l.any p then l.findIdx p else 0

/-- What `apply_dreambeam_corrections` is given (tf_utils.py:70-79): sizes of the time and frequency axes, channels per sub-band, time resolution and
asked resolution of the matrices, times and frequencies; and the frequencies of the matrices. -/
structure DreamCall where
  n : Nat
  nf : Nat
  nch : Nat
  dt : ℚ
  calib : ℚ
  time : Nat → ℚ
  freq : Nat → ℚ
  dbFreq : List ℚ

/-- Groups of samples, samples per group and left over; first rank and number of the times and frequencies of the matrices which are used, and rank of the last time.
Used for tf_utils.py:143-207. -/
structure DreamPlan where
  groups : Nat
  size : Nat
  left : Nat
  row0 : Nat
  rows : Nat
  col0 : Nat
  cols : Nat
  last : Nat

/-- Which matrices are used, once the times of the matrices are known (tf_utils.py:186-208). -/
def dreamRanks (x : DreamCall) (grp : Nat × Nat × Nat) (db : List ℚ) : DreamPlan where
  groups := grp.1
  size := grp.2.1
  left := grp.2.2
  row0 := firstTrue (fun t => decide (x.time 0 ≤ t)) db
  rows := min db.length (firstTrue (fun t => decide (x.time 0 ≤ t)) db + grp.1) - firstTrue (fun t => decide (x.time 0 ≤ t)) db
  col0 := firstTrue (fun f => decide (x.freq 0 ≤ f)) x.dbFreq
  cols := min x.dbFreq.length (x.dbFreq.length - firstTrue (fun f => decide (f < x.freq ((x.nf / x.nch - 1) * x.nch))) x.dbFreq.reverse + 1)
    - firstTrue (fun f => decide (x.freq 0 ≤ f)) x.dbFreq
  last := db.length - 1

/-- Checks, groups and ranks of `apply_dreambeam_corrections` (tf_utils.py:134-208), for data of the sizes of the axes. -/
def dreamPlan (x : DreamCall) : Except Err DreamPlan :=
  (subbandsOk x.nf x.nch).bind fun _ => (timeGroups x.n x.dt x.calib).bind fun grp =>
    if x.n = 0 then .error .indexError
    else (dreamTimes (x.time 0) (grp.2.1 * x.dt) (x.time (x.n - 1) - x.time 0)).bind fun db =>
      if x.nf = 0 then .error .indexError else .ok (dreamRanks x grp db)

noncomputable section

/-- Determinant. Used for tf_utils.py:212-215. -/
def M2.det (a : M2) : ℂ := a.d00 * a.d11 - a.d01 * a.d10

/-- `np.linalg.inv` of a matrix which has an inverse (tf_utils.py:212-215). -/
def M2.inv (a : M2) : M2 := ⟨a.d11 / a.det, -a.d01 / a.det, -a.d10 / a.det, a.d00 / a.det⟩

/-- `np.identity(2)` (tf_utils.py:218). -/
def M2.one : M2 := ⟨1, 0, 0, 1⟩

/-- An axis of one item serves for all. Used for tf_utils.py:232-245. -/
def along (k i : Nat) : Nat := if k = 1 then 0 else i

open Classical in
/-- Matrix of the samples left over (tf_utils.py:205-208, 213-218): the last time; none is inverted if one of them cannot be. -/
def leftMatrix (J : Nat → Nat → M2) (p : DreamPlan) (j : Nat) : M2 :=
  if ∃ i, i < p.cols ∧ (J p.last (p.col0 + i)).det = 0 then M2.one else (J p.last (p.col0 + along p.cols j)).inv

open Classical in
/-- Correction of the data (tf_utils.py:210-245): a matrix without an inverse is a LinAlgError, other numbers of matrices than groups and sub-bands a ValueError. -/
def dreamApply (x : DreamCall) (J : Nat → Nat → M2) (p : DreamPlan) (data : Nat → Nat → M2) : Except Err (Nat → Nat → M2) :=
  if ∃ i j, i < p.rows ∧ j < p.cols ∧ (J (p.row0 + i) (p.col0 + j)).det = 0 then .error .exception
  else if (p.rows = p.groups ∨ p.rows = 1) ∧ (p.cols = x.nf / x.nch ∨ p.cols = 1) then
    .ok fun t c => applyJones
      (if t < x.n - p.left then (J (p.row0 + along p.rows (t / p.size)) (p.col0 + along p.cols (c / x.nch))).inv else leftMatrix J p (c / x.nch)) (data t c)
  else .error .valueError

/-- `apply_dreambeam_corrections` (tf_utils.py:70-245). -/
def dreamCorrect (x : DreamCall) (J : Nat → Nat → M2) (data : Nat → Nat → M2) : Except Err (Nat → Nat → M2) :=
  (dreamPlan x).bind fun p => dreamApply x J p data

end

end Verif.TF
