import Verif.Common.Prelude
import Mathlib.Analysis.SpecialFunctions.Complex.Analytic
import Mathlib.Analysis.SpecialFunctions.Trigonometric.Basic

/-!
# Model of the cross-correlation readers: `nenupy/io/xst.py`

For one time and one frequency, the data are the packed lower triangle of the correlations of `2 n` inputs: input `2 a` is the
polarisation X of the mini-array stored at position `a`, input `2 a + 1` its polarisation Y.
-/

namespace Verif.IO

open Complex

/-! ## Packed correlations -/

/-- `np.tril_indices(n, 0)`. Used for xst.py:1152-1172. -/
def tril (n : Nat) : List (Nat × Nat) := (List.range n).flatMap fun i => (List.range (i + 1)).map fun j => (i, j)

/-- `"X"` and `"Y"`. Used for xst.py:1163. -/
inductive Pol
  | X
  | Y
  deriving DecidableEq

/-- `corr` (xst.py:1163): the polarisation of an input. -/
def polOf (i : Nat) : Pol := if i % 2 = 0 then .X else .Y

/-- `ma_indices` (xst.py:1158-1160): positions of the selected mini-arrays. -/
def maIndices (recorded sel : List Nat) : List Nat :=
  (List.range recorded.length).filter fun a => decide (∃ m ∈ sel, recorded[a]? = some m)

/-- `_get_cross_idx` (xst.py:1152-1172). -/
def crossIdx (recorded sel : List Nat) (c1 c2 : Pol) : List Nat :=
  ((tril (2 * recorded.length)).zipIdx.filter fun p =>
    decide (polOf p.1.1 = c1) && decide (polOf p.1.2 = c2) && decide (p.1.1 / 2 ∈ maIndices recorded sel)
      && decide (p.1.2 / 2 ∈ maIndices recorded sel)).map Prod.snd

/-- `data[idx]`. Used for xst.py:1174-1234. -/
def pick {α : Type} (data : List α) (idx : List Nat) : List α := idx.filterMap fun i => data[i]?

/-- `out[mask] = …` for the auto- and cross-correlations in turn (xst.py:1223-1229). -/
def merge {α : Type} : List Bool → List α → List α → List α
  | [], _, _ => []
  | true :: ms, a :: as, bs => a :: merge ms as bs
  | false :: ms, as, b :: bs => b :: merge ms as bs
  | _ :: _, _, _ => []

/-- `yx[auto_mask]` (xst.py:1224). -/
def pickMask {α : Type} : List Bool → List α → List α
  | true :: ms, a :: as => a :: pickMask ms as
  | false :: ms, _ :: as => pickMask ms as
  | _, _ => []

/-- The product of polarisations asked for. Used for xst.py:1174-1234. -/
structure Prod2 where
  first : Pol
  second : Pol
  deriving DecidableEq

/-- `_get` (xst.py:1174-1234) after the selection of `nt` times and `nf` frequencies, for one of them: the reshape fails when the numbers of
correlations differ; the axes added for `XY` (1214-1221) are right only if exactly one of `nt` and `nf` is 1. -/
def getCross (recorded sel : List Nat) (nt nf : Nat) (p : Prod2) (data : List ℂ) : Except Err (List ℂ) :=
  if p = ⟨.X, .Y⟩ then
    if (nt = 1 ↔ nf = 1) then .error .indexError
    else if (crossIdx recorded sel .Y .X).length ≠ (tril sel.length).length then .error .indexError
    else if (crossIdx recorded sel .X .Y).length ≠ ((tril sel.length).filter fun q => decide (q.1 ≠ q.2)).length then .error .valueError
    else
      .ok (merge ((tril sel.length).map fun q => decide (q.1 = q.2))
        ((pickMask ((tril sel.length).map fun q => decide (q.1 = q.2)) (pick data (crossIdx recorded sel .Y .X))).map (starRingEnd ℂ))
        (pick data (crossIdx recorded sel .X .Y)))
  else if (crossIdx recorded sel p.first p.second).length ≠ (tril sel.length).length then .error .valueError
  else .ok (pick data (crossIdx recorded sel p.first p.second))

/-! ## Beamforming -/

noncomputable section

/-- `vis_matrix` (xst.py:1049-1050) from the correlations of `a ≥ b`. -/
def visMatrix (vis : Nat → Nat → ℂ) (a b : Nat) : ℂ := if b < a then vis a b else (starRingEnd ℂ) (vis b a)

/-- `phase` (xst.py:1085-1092); `delay` is the projection of the position used for each mini-array on the direction. -/
def phaseMatrix (wl : ℝ) (delay : Nat → ℝ) (a b : Nat) : ℂ :=
  if b < a then Complex.exp (-2 * Complex.I * (Real.pi : ℂ) / (wl : ℂ) * ((delay a - delay b : ℝ) : ℂ))
  else (starRingEnd ℂ) (Complex.exp (-2 * Complex.I * (Real.pi : ℂ) / (wl : ℂ) * ((delay b - delay a : ℝ) : ℂ)))

/-- `get_beamform` (xst.py:1049-1093) for one time and one frequency, with `k` mini-arrays, calibration `cal`, and the delay of the antenna of
each number. The antenna of the mini-array at position `idx a` of the file is taken to be number `idx a` (1085-1086). -/
def beamform (k : Nat) (vis : Nat → Nat → ℂ) (cal : Nat → ℂ) (wl : ℝ) (delay : Nat → ℝ) (idx : Nat → Nat) : ℝ :=
  ∑ a ∈ Finset.range k, ∑ b ∈ Finset.range k,
    (visMatrix vis a b * (cal a * (starRingEnd ℂ) (cal b)) * phaseMatrix wl (fun a => delay (idx a)) a b).re

end

end Verif.IO
