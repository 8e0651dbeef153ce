import Verif.TF.Model

/-!
# Model of the selection of raw data in `nenupy/io/tf.py`

Times and frequencies are rationals (the code uses floating-point numbers).
-/

namespace Verif.TF

/-- `np.argmin(np.abs(np.ceil(s - t)))` (tf.py:1556, 1559, 1649, 1650), on the first `n` values. -/
def nearIdx (s : Nat → ℚ) (n : Nat) (t : ℚ) : Nat := argmax (fun i => -|((⌈s i - t⌉ : Int) : ℚ)|) n

/-- `time_idx_min_in_block` and `time_idx_max_in_block` (tf.py:1568-1573, 1576-1581). -/
def inBlock (start : ℚ) (nt : Nat) (dt t : ℚ) : Nat := (max 0 (min ((nt : Int) - 1) (rint ((t - start) / dt)))).toNat

/-- What `select_raw_data` returns: frequencies, times, and the rows and columns of the data. Used for tf.py:1555-1673. -/
structure Sel where
  nTime : Nat
  time : Nat → ℚ
  nFreq : Nat
  freq : Nat → ℚ
  nRow : Nat
  row : Nat → Nat
  nCol : Nat
  col : Nat → Nat

/-- The times selected by `tf.py:1618-1630`: how many, and which. -/
def timeSlice (s : Nat → ℚ) (nt : Nat) (dt : ℚ) (b0 b1 i0 i1 : Nat) : Nat × (Nat → ℚ) :=
  let total := (b1 + 1 - b0) * nt
  (pyBound total ((total : Int) - (nt - i1) + 1) - pyBound total i0, fun k => specTime (fun j => s (b0 + j)) nt dt (pyBound total i0 + k))

/-- `Spectra.select_raw_data` (tf.py:1555-1673): `s` the starts of the `n` blocks of `nt` samples; `sb` the sub-bands, `nc` channels each;
`beam` the first and last channel of the beam. `none` is an empty selection. -/
def selectRaw (s : Nat → ℚ) (n nt : Nat) (dt tmin tmax : ℚ) (sb : Nat → ℚ) (nc : Nat) (df fmin fmax : ℚ)
    (beam : Option (Nat × Nat)) : Except Err (Option Sel) :=
  let b0 := nearIdx s n tmin
  let b1 := nearIdx s n tmax
  let i0 := inBlock (s b0) nt dt tmin
  let i1 := inBlock (s b1) nt dt tmax
  let r0 := b0 * nt + i0
  let r1 := b1 * nt + i1
  if n = 0 then .error .valueError
  else if r0 = r1 then
    (if 0 < r0 ∧ r0 + 1 < n * nt ∧ s b0 ≤ tmin ∧ n ≤ b0 + 1 then .error .indexError else .ok none)
  else if beam = none then .error .keyError
  else
    let e := beam.getD (0, 0)
    let first := e.1 / nc
    let m := (e.2 + 1) / nc - first
    let sb' := fun j => sb (first + j)
    let k0 := nearIdx sb' m fmin
    let k1 := nearIdx sb' m fmax
    if m = 0 then .error .valueError
    else
      .ok (some
        { nTime := (timeSlice s nt dt b0 b1 i0 i1).1
          time := (timeSlice s nt dt b0 b1 i0 i1).2
          nFreq := (k1 + 1 - k0) * nc
          freq := specFreq (fun j => sb' (k0 + j)) nc df
          nRow := min (r1 + 1) (n * nt) - r0
          row := fun k => r0 + k
          nCol := min ((k1 + 1) * nc) (e.2 + 1 - e.1) - k0 * nc
          col := fun k => e.1 + (k0 * nc + k) })

/-! ## Bad blocks -/

/-- What is read in the header of a block (tf.py:1725-1729). -/
structure Header where
  timestamp : ℚ
  idx : Int
  nbchan : Int

/-- `_get_bad_data_mask` (tf.py:1725-1735), for block number `i`. -/
def badMask (h : Nat → Header) (i : Nat) : Bool :=
  decide ((h i).timestamp < 1 / 10) || (decide (i ≠ 0) && decide ((h i).idx = 0)) || decide ((h i).nbchan < 0)

/-- The blanking of `_to_dask_tf` (tf.py:1772-1779): the blocks after it. `mask = none` when it was not computed. A missing value is `none`. -/
def blank {α : Type} (n : Nat) (mask : Option (Nat → Bool)) (data : Nat → Option α) (i : Nat) : Option α :=
  match mask with
  | none => data i
  | some m => if ((List.range n).all fun j => !m j) && m i then none else data i

/-- The last good block before `i`. Used for tf.py:1748-1752. -/
def prevGood (m : Nat → Bool) : Nat → Option Nat
  | 0 => none
  | i + 1 => if m i then prevGood m i else some i

/-- The first good block among `i`, `i + 1`, …, `i + k - 1`. Used for tf.py:1748-1752. -/
def nextGood (m : Nat → Bool) (i : Nat) : Nat → Option Nat
  | 0 => none
  | k + 1 => if m i then nextGood m (i + 1) k else some i

/-- `np.interp` at the bad block `i` between the good ones (tf.py:1748-1752). -/
def interpAt (m : Nat → Bool) (n : Nat) (s : Nat → ℚ) (i : Nat) : ℚ :=
  match prevGood m i, nextGood m i (n - i) with
  | some p, some q => s p + ((i : ℚ) - p) * ((s q - s p) / ((q : ℚ) - p))
  | some p, none => s p
  | none, some q => s q
  | none, none => 0

/-- `_reconstruct_time` (tf.py:1745-1753) with a mask: the starts of the blocks. `np.interp` fails when no block is good. -/
def reconstruct (m : Nat → Bool) (n : Nat) (s : Nat → ℚ) : Except Err (Nat → ℚ) :=
  if (List.range n).all m then .error .valueError else .ok fun i => if m i then interpAt m n s i else s i

/-- `_reconstruct_time` (tf.py:1755-1757) without a mask: the start of block `i`. -/
def regularStart (s0 : ℚ) (nt : Nat) (dt : ℚ) (i : Nat) : ℚ := s0 + (i : ℚ) * nt * dt

end Verif.TF
