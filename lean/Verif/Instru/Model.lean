import Verif.Common.Prelude

/-!
# Model of arrays of antennas: `nenupy/instru/interferometer.py`, `instrument_tools.py` and `nenufar.py`

Frequencies are rationals, in MHz.
-/

namespace Verif.Instru

/-! ## Sub-bands -/

/-- Width of a sub-band (instrument_tools.py:90, 143). -/
def sbWidth : ℚ := 100 / 512

/-- `freq2sb` (instrument_tools.py:85-92) on a list of frequencies; the minimum of an empty array raises `ValueError` too. -/
def freq2sb (fs : List ℚ) : Except Err (List Int) :=
  if fs = [] then .error .valueError
  else if fs.any fun f => decide (f < 0) || decide (100 < f) then .error .valueError
  else .ok (fs.map fun f => ⌊f / sbWidth + 1 / 2⌋)

/-- `sb2freq` (instrument_tools.py:131-145) on a list of integers. -/
def sb2freq (ks : List Int) : Except Err (List ℚ) :=
  if ks = [] then .error .typeError
  else if ks.any fun k => decide (k < 0) || decide (511 < k) then .error .valueError
  else .ok (ks.map fun k : Int => (k : ℚ) * sbWidth - sbWidth / 2)

/-! ## Sub-arrays -/

/-- `edge_values[i]` (instrument_tools.py:371). -/
def edge (n i : Nat) : ℚ := (i : ℚ) / n

/-- `subarray_masks[i, k]` (instrument_tools.py:372), for the drawn values `v`. -/
def inSub (n : Nat) (v : Nat → ℚ) (i k : Nat) : Bool := decide (edge n i ≤ v k) && decide (v k < edge n (i + 1))

/-- Elements of a list selected by a mask on positions counted from `k`. Used for instrument_tools.py:318-379. -/
def pickFrom {α : Type} (m : Nat → Bool) : Nat → List α → List α
  | _, [] => []
  | k, x :: l => if m k then x :: pickFrom m (k + 1) l else pickFrom m (k + 1) l

/-- Elements of a list selected by a mask on positions: numpy's `a[mask]`. Used for instrument_tools.py:318-379. -/
def pick {α : Type} (m : Nat → Bool) (l : List α) : List α := pickFrom m 0 l

/-- `generate_nenufar_subarrays` (instrument_tools.py:318-379); `names` are the keys of the table of mini-arrays, `v` the random values. -/
def subarrays (names : List String) (v : Nat → ℚ) (n : Int) (remote : Bool) : Except Err (List (List String)) :=
  if n < 2 then .error .valueError
  else
    let k := n.toNat
    let ma := names.take (if remote then 102 else 96)
    if (List.range ma.length).all fun j => decide (((List.range k).filter fun i => inSub k v i j).length = 1) then
      .ok ((List.range k).map fun i => pick (inSub k v i) ma)
    else .error .valueError

/-- `miniarrays_rotated_like` (instrument_tools.py:233-240) on the table (identifier, rotation) of the mini-arrays. -/
def rotatedLike (table : List (Nat × Int)) (rots : List Int) : Except Err (List Nat) :=
  if rots.all fun r => decide (r % 10 = 0) then
    .ok ((table.filter fun p => decide (p.2 % 60 ∈ rots.map (· % 60))).map Prod.fst)
  else .error .valueError

/-! ## Antennas -/

variable {P Gn : Type}

/-- An `Interferometer` (interferometer.py:181-194): parallel arrays. -/
structure Interf (P Gn : Type) where
  names : List String
  pos : List P
  gains : List Gn
  weights : List ℚ
  delays : List ℚ

/-- `size` (interferometer.py:274-281). -/
def Interf.size (s : Interf P Gn) : Nat := s.pos.length

/-- `antenna_weights` setter (interferometer.py:378-389) for an array; the minimum of an empty array raises. -/
def checkWeights (size : Nat) (w : List ℚ) : Except Err Unit :=
  if w.length ≠ size then .error .valueError
  else if w = [] then .error .valueError
  else if w.any fun x => decide (x < 0) || decide (1 < x) then .error .valueError
  else .ok ()

/-- `antenna_delays` setter (interferometer.py:399-406). -/
def checkDelays (size : Nat) (d : List ℚ) : Except Err Unit := if d.length ≠ size then .error .valueError else .ok ()

/-- The assignments that end a selection, an addition or a subtraction (interferometer.py:232-238, 252-257, 263-268): names, positions and gains are not checked. -/
def assemble (names : List String) (pos : List P) (gains : List Gn) (weights delays : List ℚ) : Except Err (Interf P Gn) :=
  (checkWeights pos.length weights).bind fun _ => (checkDelays pos.length delays).map fun _ => ⟨names, pos, gains, weights, delays⟩

/-- Weights (`none`: NaN) and delays of an array of fixed size, for histories of assignments. Used for interferometer.py:378-406. -/
structure Steering where
  size : Nat
  weights : List (Option ℚ)
  delays : List ℚ

/-- Assignments; `none` is Python's `None`. Used for interferometer.py:378-406. -/
inductive Assign
  | weights (w : Option (List (Option ℚ)))
  | delays (d : Option (List ℚ))

/-- `weights.min() < 0 or weights.max() > 1` (interferometer.py:385): the extrema of an array with a NaN are NaN, and comparisons with NaN are false. -/
def outOfRange (w : List (Option ℚ)) : Bool := !(w.any Option.isNone) && w.any fun x => x.any fun v => decide (v < 0) || decide (1 < v)

/-- The two setters (interferometer.py:378-406): the attribute is only replaced after the checks. -/
def Steering.set (s : Steering) : Assign → Steering × Option Err
  | .weights none => ({ s with weights := List.replicate s.size (some 1) }, none)
  | .weights (some w) =>
    if w.length ≠ s.size then (s, some .valueError)
    else if w = [] then (s, some .valueError)
    else if outOfRange w then (s, some .valueError)
    else ({ s with weights := w }, none)
  | .delays none => ({ s with delays := List.replicate s.size 0 }, none)
  | .delays (some d) => if d.length ≠ s.size then (s, some .valueError) else ({ s with delays := d }, none)

/-- `Interferometer(...)` (interferometer.py:181-194), without delays and weights: zeros and ones. -/
def Interf.new (names : List String) (pos : List P) (gains : List Gn) : Interf P Gn :=
  ⟨names, pos, gains, List.replicate pos.length 1, List.replicate pos.length 0⟩

/-- The five arrays restricted by a boolean mask. A mask of another length raises `IndexError` in numpy; all the arrays of a correct object have the same length. Used for interferometer.py:212-238. -/
def Interf.mask (s : Interf P Gn) (m : Nat → Bool) : Except Err (Interf P Gn) :=
  assemble (pick m s.names) (pick m s.pos) (pick m s.gains) (pick m s.weights) (pick m s.delays)

/-- `n in names` for position `i`. Used for interferometer.py:212-238. -/
def nameIn (s : Interf P Gn) (l : List String) (i : Nat) : Bool := (s.names[i]?).any fun x => decide (x ∈ l)

/-- `__getitem__` with names (interferometer.py:212-238). An empty list of names becomes an array of floats, whose maximum raises. -/
def Interf.selectNames (s : Interf P Gn) (l : List String) : Except Err (Interf P Gn) :=
  if l = [] then .error .valueError
  else if ¬ l.Nodup then .error .exception
  else if l.any fun x => !decide (x ∈ s.names) then .error .exception
  else s.mask (nameIn s l)

/-- `__getitem__` with integers (interferometer.py:212-238): only the upper bound is checked, negative numbers match no position. -/
def Interf.selectIdx (s : Interf P Gn) (l : List Int) : Except Err (Interf P Gn) :=
  if l = [] then .error .valueError
  else if ¬ l.Nodup then .error .exception
  else if l.any fun x => decide ((s.size : Int) ≤ x) then .error .exception
  else s.mask fun i => decide ((i : Int) ∈ l)

/-- `np.r_[a:b]` (interferometer.py:198-200): `arange(a, b)`, a missing start is 0; `arange(a, None)` is `arange(a)`. -/
def sliceIdx (a b : Option Int) : List Int :=
  match b with
  | none => (List.range (a.getD 0).toNat).map fun i : Nat => (i : Int)
  | some b => (List.range (b - a.getD 0).toNat).map fun i : Nat => a.getD 0 + i

/-- `__getitem__` with a slice. Used for interferometer.py:196-238. -/
def Interf.selectSlice (s : Interf P Gn) (a b : Option Int) : Except Err (Interf P Gn) := s.selectIdx (sliceIdx a b)

/-- `__add__` (interferometer.py:249-257). -/
def Interf.add (s o : Interf P Gn) : Except Err (Interf P Gn) :=
  let m : Nat → Bool := fun i => !nameIn o s.names i
  assemble (s.names ++ pick m o.names) (s.pos ++ pick m o.pos) (s.gains ++ pick m o.gains) (s.weights ++ pick m o.weights) (s.delays ++ pick m o.delays)

/-- `__sub__` (interferometer.py:260-268). -/
def Interf.sub (s o : Interf P Gn) : Except Err (Interf P Gn) := s.mask fun i => !nameIn s o.names i

/-! ## Baselines -/

/-- `Baseline.bsl[i, j]` (interferometer.py:129-132). -/
def bsl [Sub P] (pos : Nat → P) (i j : Nat) : P := pos j - pos i

/-- `Baseline.flatten` (interferometer.py:144-150): lower triangle, with the pair of antennas. -/
def flatten [Sub P] (pos : Nat → P) (n : Nat) : List ((Nat × Nat) × P) :=
  (List.range n).flatMap fun i => (List.range (i + 1)).map fun j => ((i, j), bsl pos i j)

/-! ## Analog pointing orders -/

/-- Step number of the first axis (instrument_tools.py:474-479, nenufar.py:992-997), in units of `dmin_d`. -/
def step1 (x : Nat) : Int := if 64 ≤ x then (x : Int) - 64 else (x : Int) - 63

/-- Step number of the second axis (instrument_tools.py:475-480, nenufar.py:993-998). -/
def step2 (y : Nat) : Int := if 64 ≤ y then 64 - (y : Int) else 63 - (y : Int)

/-- `np.argmin` of the flattened separations, unravelled (instrument_tools.py:533-543, nenufar.py:850-856). -/
def argminGrid (sep : Nat → Nat → ℚ) : Nat × Nat :=
  let k := argmax (fun k => - sep (k / 128) (k % 128)) 16384
  (k / 128, k % 128)

/-- `order[order == 64] -= 1` (instrument_tools.py:549). -/
def fixRight (x : Nat) : Nat := if x = 64 then x - 1 else x

/-- `order[order >= 64] -= 1` (nenufar.py:857, instrument_tools.py:547). -/
def fixWrong (x : Nat) : Nat := if 64 ≤ x then x - 1 else x

/-- `mini_array_pointing_order` (instrument_tools.py:497-551), on the separation between the target and the direction of steps `(k1, k2)`; rows of the grid are the second axis. -/
def toolsOrder (sep : Int → Int → ℚ) : Nat × Nat :=
  let o := argminGrid fun r c => sep (step1 c) (step2 r)
  (fixRight o.1, fixRight o.2)

/-- `mini_array_pointing_coordinates` (instrument_tools.py:553-565): the steps of an order. -/
def toolsSteps (o : Nat × Nat) : Int × Int := (step1 o.2, step2 o.1)

/-- `MiniArray._skycoord_to_order` (nenufar.py:843-858); the grid is transposed (1012). -/
def maOrder (sep : Int → Int → ℚ) : Nat × Nat :=
  let o := argminGrid fun r c => sep (step1 r) (step2 c)
  (fixWrong o.1, fixWrong o.2)

/-- `MiniArray._order_to_skycoord` (nenufar.py:837-840). -/
def maSteps (o : Nat × Nat) : Int × Int := (step1 o.1, step2 o.2)

/-! ## Beam of the whole array -/

/-- `np.unique(rotations % 60, return_index, return_counts)` (nenufar.py:1334-1338): increasing remainders, the first position and the number of occurrences. -/
def groups (rots : List Int) : List (Int × Nat × Nat) :=
  ((List.range 60).filter fun r : Nat => decide ((r : Int) ∈ rots.map (· % 60))).map fun r : Nat =>
    ((r : Int), (rots.map (· % 60)).idxOf (r : Int), (rots.map (· % 60)).count (r : Int))

/-- The loop over the groups (nenufar.py:1345-1356). `point i p` is the pointing after mini-array `i` set its analog direction from it (905-938): it is stored in the
pointing object (933), from which the next mini-array starts; `gain i p` is its beam for that pointing. -/
def gainSum {Pt : Type} (point : Nat → Pt → Pt) (gain : Nat → Pt → ℚ) : List (Int × Nat × Nat) → Pt → ℚ × Pt
  | [], p => (0, p)
  | g :: l, p =>
    let p' := point g.2.1 p
    let r := gainSum point gain l p'
    (gain g.2.1 p' * g.2.2 + r.1, r.2)

/-- The mean gain (nenufar.py:1345-1356) and the pointing left behind. -/
def meanGain {Pt : Type} (point : Nat → Pt → Pt) (gain : Nat → Pt → ℚ) (rots : List Int) (p : Pt) : ℚ × Pt :=
  let r := gainSum point gain (groups rots) p
  (r.1 / ((groups rots).map fun g => (g.2.2 : ℚ)).sum, r.2)

/-- `NenuFAR.beam` (nenufar.py:1248-1363) without a separate analog pointing: the array factor uses the pointing as it was given. -/
def nenufarBeam {Pt : Type} (factor : Pt → ℚ) (point : Nat → Pt → Pt) (gain : Nat → Pt → ℚ) (rots : List Int) (p : Pt) : ℚ × Pt :=
  (factor p * (meanGain point gain rots p).1, (meanGain point gain rots p).2)

/-- Groups of equivalent antennas (nenufar.py:1032-1041). -/
def antennaGroups : List (List Nat) := [[1, 3, 12, 19, 17, 8], [2, 7, 16, 18, 13, 4], [5, 6, 11, 15, 14, 9], [10]]

/-- `_antenna_name_to_unique_index` (nenufar.py:1014-1041) on the number in the name. -/
def uniqueIndex (a : Nat) : Except Err Nat :=
  match antennaGroups.find? fun g => decide (a ∈ g) with
  | none => .error .valueError
  | some g => .ok (g.foldl min (g.headD 0))

end Verif.Instru
