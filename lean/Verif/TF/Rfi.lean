import Verif.Common.Prelude
import Mathlib.Analysis.SpecialFunctions.Pow.Real
import Mathlib.Analysis.SpecialFunctions.Log.Base
import Mathlib.Algebra.Polynomial.Eval.Degree
import Mathlib.Algebra.Order.Monoid.WithTop
import Mathlib.Data.List.Sort

/-!
# Clipping of interferences: `mitigate_rfi_along_axis` of `nenupy/io/tf_utils.py`

Values are exact reals, `none` for NaN; quotients also have the infinite value `⊤`. The dimensions of polarisations are counted as one.
Both choices of the axis are the same computation with times and frequencies exchanged: below, `k` is the rank in the profile (frequency for
axis 0) and `o` the other rank. The fit of the polynomial (`np.polyfit`) is a parameter.
-/

namespace Verif.TF

open Classical in
/-- Median of a list, `half` being the middle of two values; none for an empty list. Used for tf_utils.py:1527, 1536. -/
noncomputable def medianBy {α : Type} [LinearOrder α] (half : α → α → α) (l : List α) : Option α :=
  if l.length % 2 = 1 then (l.insertionSort (· ≤ ·))[l.length / 2]?
  else (l.insertionSort (· ≤ ·))[l.length / 2 - 1]?.bind fun a => (l.insertionSort (· ≤ ·))[l.length / 2]?.map (half a)

/-- Middle of two numbers. Used for tf_utils.py:1527. -/
noncomputable def midReal (a b : ℝ) : ℝ := (a + b) / 2

/-- Middle of two numbers which may be infinite. Used for tf_utils.py:1536. -/
noncomputable def midTop (a b : WithTop ℝ) : WithTop ℝ := (a + b).map (· / 2)

/-- `other_profile` (tf_utils.py:1527-1529): median of the absolute values along the profile, for one rank `o`. -/
noncomputable def levelAt (nm : Nat) (d : Nat → Nat → Nat → Option ℝ) (o p : Nat) : Option ℝ :=
  medianBy midReal ((List.range nm).filterMap fun k => (d o k p).map fun x => |x|)

/-- `np.nanmax(other_profile)` (tf_utils.py:1530): none if there are only NaN. -/
noncomputable def topLevel (no nm np : Nat) (d : Nat → Nat → Nat → Option ℝ) : Option ℝ :=
  ((List.range no).flatMap fun o => (List.range np).filterMap fun p => levelAt nm d o p).foldr
    (fun x acc => some (acc.elim x fun y => max x y)) none

open Classical in
/-- Quotient of a positive number or zero by another one. Used for tf_utils.py:1530-1531. -/
noncomputable def quotTop (x r : ℝ) : Option (WithTop ℝ) := if r = 0 then (if x = 0 then none else some ⊤) else some ((x / r : ℝ) : WithTop ℝ)

open Classical in
/-- `flattened_data` (tf_utils.py:1530-1531): with a maximum of zero, all the levels are `0 / 0`. -/
noncomputable def flatAt (no nm np : Nat) (d : Nat → Nat → Nat → Option ℝ) (o k p : Nat) : Option (WithTop ℝ) :=
  (d o k p).bind fun x => (levelAt nm d o p).bind fun m => (topLevel no nm np d).bind fun M =>
    if M = 0 then none else quotTop |x| (m / M)

/-- Decimal logarithm, if it is finite. Used for tf_utils.py:1535, 1540. -/
noncomputable def finiteLog (x : WithTop ℝ) : Option ℝ :=
  if 0 < x.untopD 0 then some (Real.logb 10 (x.untopD 0)) else none

/-- `profile` where it is finite (tf_utils.py:1535-1540). -/
noncomputable def profileAt (no nm np : Nat) (d : Nat → Nat → Nat → Option ℝ) (k p : Nat) : Option ℝ :=
  (medianBy midTop ((List.range no).filterMap fun o => flatAt no nm np d o k p)).bind finiteLog

/-- Ranks where the profile is finite for all the polarisations (tf_utils.py:1540-1541). -/
noncomputable def goodRanks (no nm np : Nat) (d : Nat → Nat → Nat → Option ℝ) : List Nat :=
  (List.range nm).filter fun k => (List.range np).all fun p => (profileAt no nm np d k p).isSome

/-- Points to fit for one polarisation (tf_utils.py:1546-1549). -/
noncomputable def fitPoints (no nm np : Nat) (d : Nat → Nat → Nat → Option ℝ) (p : Nat) : List (ℝ × ℝ) :=
  (goodRanks no nm np d).map fun k : Nat => ((k : ℝ), (profileAt no nm np d k p).getD 0)

/-- `smooth_profile` (tf_utils.py:1549-1550). -/
noncomputable def smoothAt (fit : List (ℝ × ℝ) → Polynomial ℝ) (no nm np : Nat) (d : Nat → Nat → Nat → Option ℝ) (k p : Nat) : ℝ :=
  (10 : ℝ) ^ ((fit (fitPoints no nm np d p)).eval (k : ℝ))

/-- Mean of a list. Used for tf_utils.py:1558. -/
noncomputable def meanOf (l : List ℝ) : ℝ := l.sum / l.length

/-- `np.nanstd` of a list without NaN (tf_utils.py:1558). -/
noncomputable def stdOf (l : List ℝ) : ℝ := Real.sqrt (meanOf (l.map fun x => (x - meanOf l) ^ 2))

/-- All the values of the smooth profile. Used for tf_utils.py:1558. -/
noncomputable def smoothAll (fit : List (ℝ × ℝ) → Polynomial ℝ) (no nm np : Nat) (d : Nat → Nat → Nat → Option ℝ) : List ℝ :=
  (List.range nm).flatMap fun k => (List.range np).map fun p => smoothAt fit no nm np d k p

/-- Limit above which values are clipped (tf_utils.py:1558). -/
noncomputable def clipLimit (fit : List (ℝ × ℝ) → Polynomial ℝ) (no nm np : Nat) (d : Nat → Nat → Nat → Option ℝ) (σ : ℝ) (k p : Nat) : ℝ :=
  smoothAt fit no nm np d k p + σ * stdOf (smoothAll fit no nm np d)

/-- Whether a value is clipped (tf_utils.py:1558); comparisons with NaN are false. -/
noncomputable def clipped (fit : List (ℝ × ℝ) → Polynomial ℝ) (no nm np : Nat) (d : Nat → Nat → Nat → Option ℝ) (σ : ℝ) (o k p : Nat) : Bool :=
  (flatAt no nm np d o k p).any fun x => decide ((clipLimit fit no nm np d σ k p : WithTop ℝ) < x)

/-- The computation for the ranks `o`, `k` (tf_utils.py:1524-1560). `np.polyfit` fails without points. -/
noncomputable def clipAlong (fit : List (ℝ × ℝ) → Polynomial ℝ) (no nm np : Nat) (d : Nat → Nat → Nat → Option ℝ) (σ : ℝ) :
    Except Err (Nat → Nat → Nat → Option ℝ) :=
  if goodRanks no nm np d = [] then .error .typeError
  else .ok fun o k p => if clipped fit no nm np d σ o k p then none else d o k p

/-- `mitigate_rfi_along_axis` (tf_utils.py:1511-1560): data of `nt` times, `nf` frequencies, `np` polarisations; `fit`: for the degree asked. -/
noncomputable def mitigate (fit : List (ℝ × ℝ) → Polynomial ℝ) (ndim nt nf np : Nat) (d : Nat → Nat → Nat → Option ℝ) (axis : Int) (σ : ℝ) :
    Except Err (Nat → Nat → Nat → Option ℝ) :=
  if ndim < 2 then .error .exception
  else if axis = 0 then clipAlong fit nt nf np d σ
  else if axis = 1 then (clipAlong fit nf nt np (fun f t p => d t f p) σ).map fun r t f p => r f t p
  else .error .indexError

end Verif.TF
