import Verif.Common.Prelude

/-!
# Model of the time-frequency tools: `nenupy/io/tf_utils.py` and the matching parts of
`nenupy/undysputed/utils.py` and `nenupy/undysputed/dynspec.py`

An array is its shape and its flat content in C order. Trailing polarisation axes are part of the element type.
Frequencies, times and averaged data are rationals. A missing value (NaN) is `none`.
-/

namespace Verif.TF

/-! ## Arrays -/

/-- A numpy array: shape, and content in C order. Used for tf_utils.py:386-411. -/
structure Arr (α : Type) where
  shape : List Nat
  at' : Nat → α

/-- Number of elements of a shape. Used for tf_utils.py:386-411. -/
def size (s : List Nat) : Nat := s.foldr (· * ·) 1

/-- Flat C-order position of an index of a 4-D array of shape `(_, s1, s2, s3)`. Used for tf_utils.py:386-411. -/
def ix4 (s1 s2 s3 i j k l : Nat) : Nat := ((i * s1 + j) * s2 + k) * s3 + l

/-- 4-D array given by its elements. Used for tf_utils.py:386-411. -/
def ofFn4 {α : Type} (s0 s1 s2 s3 : Nat) (f : Nat → Nat → Nat → Nat → α) : Arr α where
  shape := [s0, s1, s2, s3]
  at' := fun p => f (p / s3 / s2 / s1) (p / s3 / s2 % s1) (p / s3 % s2) (p % s3)

/-- `a[t, k]` on a 2-D array with `n` columns. Used for tf_utils.py:386-411. -/
def Arr.get2 {α : Type} (a : Arr α) (n t k : Nat) : α := a.at' (t * n + k)

/-- `a.reshape(s)`. Used for tf_utils.py:386-411. -/
def Arr.reshape {α : Type} (a : Arr α) (s : List Nat) : Except Err (Arr α) :=
  if size a.shape = size s then .ok ⟨s, a.at'⟩ else .error .valueError

/-- `np.swapaxes(a, 1, 2)` on a 4-D array. Used for tf_utils.py:386-411. -/
def swap12 {α : Type} (a : Arr α) : Arr α :=
  ofFn4 (a.shape.getD 0 0) (a.shape.getD 2 0) (a.shape.getD 1 0) (a.shape.getD 3 0)
    fun i k j l => a.at' (ix4 (a.shape.getD 1 0) (a.shape.getD 2 0) (a.shape.getD 3 0) i j k l)

/-- `a[:, :, ::-1]` on a 4-D array. Used for tf_utils.py:386-411. -/
def rev2 {α : Type} (a : Arr α) : Arr α :=
  ofFn4 (a.shape.getD 0 0) (a.shape.getD 1 0) (a.shape.getD 2 0) (a.shape.getD 3 0)
    fun i j k l =>
      a.at' (ix4 (a.shape.getD 1 0) (a.shape.getD 2 0) (a.shape.getD 3 0) i j (a.shape.getD 2 0 - 1 - k) l)

/-! ## Raw blocks -/

/-- `blocks_to_tf_data` (tf_utils.py:386-411; the same code is `_to2d`, dynspec.py:342-366). `polDims` is the number of trailing
polarisation axes of the data, which are `(2, 2)` when there are two of them. -/
def blocksToTf {α : Type} (a : Arr α) (polDims nTimes nChan : Nat) : Except Err (Arr α) :=
  if a.shape.length + polDims < 2 then .error .valueError
  else if nChan % 2 ≠ 0 then .error .valueError
  else if a.shape.length = 4 ∧ (polDims = 0 ∨ polDims = 2) then
    ((swap12 a).reshape
      [a.shape.getD 0 0 * nTimes, a.shape.getD 1 0 * nChan / nChan, 2, nChan / 2]).bind fun b =>
        (rev2 b).reshape [a.shape.getD 0 0 * nTimes, a.shape.getD 1 0 * nChan]
  else .error .indexError

/-- `compute_spectra_frequencies` (tf_utils.py:460-468): the frequency of channel `k` of the axis. -/
def specFreq (start : Nat → ℚ) (nChan : Nat) (step : ℚ) (k : Nat) : ℚ :=
  (((k % nChan : Nat) : ℚ) - (nChan : ℚ) / 2) * step + start (k / nChan)

/-- `compute_spectra_time` (tf_utils.py:524-534): the time of sample `k` of the axis. -/
def specTime (start : Nat → ℚ) (nTimes : Nat) (dt : ℚ) (k : Nat) : ℚ :=
  ((k % nTimes : Nat) : ℚ) * dt + start (k / nTimes)

/-- `np.where(beam_array == b)[0]` (tf_utils.py:2214, dynspec.py:329). -/
def beamWhere (beams : List Nat) (b : Nat) : List Nat :=
  (List.range beams.length).filter fun i => decide (beams[i]? = some b)

/-- `sort_beam_edges` (tf_utils.py:2211-2219): first and last channel of a beam, both included; `none` for a beam which is not recorded. -/
def beamEdges (beams : List Nat) (nChan b : Nat) : Option (Nat × Nat) :=
  (beamWhere beams b).head?.bind fun i =>
    (beamWhere beams b).getLast?.map fun j => (i * nChan, (j + 1) * nChan - 1)

/-- `_sort_beam_edges` (dynspec.py:326-334): first channel of a beam, and the one after the last. -/
def beamEdgesOld (beams : List Nat) (nChan b : Nat) : Option (Nat × Nat) :=
  (beamWhere beams b).head?.bind fun i =>
    (beamWhere beams b).getLast?.map fun j => (i * nChan, (j + 1) * nChan)

/-! ## De-dispersion -/

/-- `np.round` to an integer: ties go to the even neighbour. Used for tf_utils.py:1044-1052. -/
def rint (x : ℚ) : Int :=
  if x - ⌊x⌋ < 1 / 2 then ⌊x⌋
  else if 1 / 2 < x - ⌊x⌋ then ⌊x⌋ + 1
  else if ⌊x⌋ % 2 = 0 then ⌊x⌋ else ⌊x⌋ + 1

/-- `dispersion_delay` (astro_tools.py:756-761), in s, for a frequency in MHz and a dispersion measure in pc/cm3. -/
def dispDelay (f dm : ℚ) : ℚ := 4140 * dm / f ^ 2

/-- `cell_delays` of one channel (tf_utils.py:1044-1052, undysputed/utils.py:66-74, dynspec.py:1746-1752);
`fref` is the reference frequency (highest one of the data, or highest one of the selected range in dynspec.py). -/
def cellDelay (f fref dm dt : ℚ) : Int := rint ((dispDelay f dm - dispDelay fref dm) / dt)

/-- `indices_to_keep` (tf_utils.py:1065). -/
def keepIdx (nt : Nat) (cd : List Int) : List Int :=
  (cd.zipIdx.map fun p => (List.range ((nt : Int) - p.1).toNat).map fun j : Nat => p.1 + (j : Int) + (p.2 : Int) * nt).flatten

/-- Position meant by a numpy index on an axis of length `n`. Used for tf_utils.py:1066. -/
def wrapIdx (n : Nat) (i : Int) : Option Nat :=
  if 0 ≤ i ∧ i < n then some i.toNat
  else if -(n : Int) ≤ i ∧ i < 0 then some (i + n).toNat
  else none

/-- One pair (position written, position read) of tf_utils.py:1066 and 1069; `none` when an index is out of range. -/
def movePair (nt : Nat) (cd : List Int) (i : Int) : Option (Nat × Nat) :=
  (wrapIdx cd.length (i / nt)).bind fun c =>
    (wrapIdx (nt * cd.length) (i - cd.getD c 0)).bind fun w =>
      (wrapIdx (nt * cd.length) i).map fun r => (w, r)

/-- Value found at position `k` after the assignments `ps` (position, value), in that order, of an array of missing values. Used for tf_utils.py:1037-1074. -/
def scatter {β : Type} (ps : List (Nat × Option β)) (k : Nat) : Option β :=
  ((ps.filter fun p => decide (p.1 = k)).getLast?.map Prod.snd).getD none

/-- `de_disperse_array` (tf_utils.py:1037-1074) for given delays `cd`, one per channel, on data with `nt` times and `nf` channels
(the minimal two dimensions of line 1032 are in the type). The result is allocated by `np.empty(data.shape)`, a table of real
numbers: `cast` is the conversion of an element of the data to it (line 1067 and 1069). -/
def deDisperse {α β : Type} (cast : α → β) (nt nf : Nat) (data : Nat → Nat → Option α) (cd : List Int) :
    Except Err (Nat → Nat → Option β) :=
  if nf ≠ cd.length then .error .valueError
  else if cd = [] then .error .valueError
  else if (keepIdx nt cd).all fun i => (movePair nt cd i).isSome then
    .ok fun t f =>
      scatter (((keepIdx nt cd).filterMap (movePair nt cd)).map fun p =>
        (p.1, (data (p.2 % nt) (p.2 / nt)).map cast)) (t + f * nt)
  else .error .indexError

/-- One channel of the loop of undysputed/utils.py:77-80 and dynspec.py:1753-1756: `np.roll` by `-d`, then `data[-d:] = nan`. -/
def rollBlank {α : Type} (nt : Nat) (d : Int) (col : Nat → Option α) (t : Nat) : Option α :=
  if pyBound nt (-d) ≤ t ∧ t < nt then none else col (((t : Int) + d) % nt).toNat

/-- `de_disperse_array` (undysputed/utils.py:59-82) for given delays; `_dedisperse` of dynspec.py:1744-1759 does the same. -/
def deDisperseOld {α : Type} (nt nf : Nat) (data : Nat → Nat → Option α) (cd : List Int) :
    Except Err (Nat → Nat → Option α) :=
  if nf ≠ cd.length then .error .valueError
  else if cd = [] then .error .valueError
  else .ok fun t f => rollBlank nt (cd.getD f 0) (fun s => data s f) t

/-! ## Averages -/

/-- `np.nanmean` of a list: the mean of the values which are not missing. Used for tf_utils.py:2012-2059. -/
def nanmean (l : List (Option ℚ)) : Option ℚ :=
  if l.filterMap id = [] then none else some ((l.filterMap id).sum / ((l.filterMap id).length : ℚ))

/-- `count` consecutive entries from `first`. Used for tf_utils.py:2012-2059. -/
def window {α : Type} (x : Nat → α) (first count : Nat) : List α := (List.range count).map fun i => x (first + i)

/-- Sizes used by `rebin_along_dimension` (tf_utils.py:2021-2033): bin size and number of bins. -/
def rebinSizes (n : Nat) (dx ndx : ℚ) : Nat × Nat :=
  if n / ⌊ndx / dx⌋.toNat = 0 then (n, 1) else (⌊ndx / dx⌋.toNat, n / ⌊ndx / dx⌋.toNat)

/-- `rebin_along_dimension` (tf_utils.py:2012-2059) along the rebinned axis, for one position on the other axes. Step `dx` is positive.
Gives the new axis and the new data. -/
def rebin (nData n : Nat) (axis : Nat → ℚ) (data : Nat → Option ℚ) (dx ndx : ℚ) :
    Except Err (List (Option ℚ) × List (Option ℚ)) :=
  if nData ≠ n then .error .valueError
  else if ndx < dx then .error .valueError
  else
    let b := (rebinSizes n dx ndx).1
    let m := (rebinSizes n dx ndx).2
    if m * b = 0 then .error .zeroDivision
    else
      let w := (n - n % (m * b)) / m
      .ok ((List.range m).map fun k => nanmean (window (fun i => some (axis i)) (k * w) w),
           (List.range m).map fun k => nanmean (window data (k * w) w))

/-- `_rebin` along time (dynspec.py:1814-1829), for one frequency and polarisation; the frequency branch (1831-1847) is the same code.
`rdt / dt` at least 1 (dynspec.py:`rebin_dt` is checked by nothing else: a smaller one divides by zero). -/
def rebinOld (n : Nat) (data : Nat → Option ℚ) (dt rdt : ℚ) : Except Err (List (Option ℚ)) :=
  let b := ⌊rdt / dt⌋.toNat
  if b = 0 then .error .zeroDivision
  else
    let m := n / b
    if m = 0 then .error .zeroDivision
    else
      let w := (n - n % m) / m
      .ok ((List.range m).map fun k => nanmean (window data (k * w) w))

/-! ## Channel masks -/

/-- `reshape_to_subbands` (tf_utils.py:2182-2191): only the check of the size matters, as the order of the data is kept. -/
def subbandsOk (nFreq nChan : Nat) : Except Err Unit :=
  if nChan = 0 then .error .zeroDivision
  else if nFreq % nChan ≠ 0 then .error .valueError
  else .ok ()

/-- `crop_subband_edges` (tf_utils.py:911-931) on one time sample. -/
def cropEdges {α : Type} (nFreq nChan : Nat) (lower higher : Int) (row : Nat → Option α) :
    Except Err (Nat → Option α) :=
  if (nChan : Int) ≤ lower + higher then .error .valueError
  else
    (subbandsOk nFreq nChan).map fun _ => fun k =>
      if inSlice nChan 0 lower (k % nChan) ∨ inSlice nChan (nChan - higher) nChan (k % nChan) then none else row k

/-- `remove_channels_per_subband` (tf_utils.py:2113-2141) on one time sample. -/
def removeChannels {α : Type} (nFreq nChan : Nat) (chans : Option (List Int)) (row : Nat → Option α) :
    Except Err (Nat → Option α) :=
  if chans.getD [] = [] then .ok row
  else if (chans.getD []).any fun c => decide (c < -(nChan : Int)) || decide ((nChan : Int) ≤ c) then .error .indexError
  else
    (subbandsOk nFreq nChan).map fun _ => fun k =>
      if (chans.getD []).any fun c => decide (wrapIdx nChan c = some (k % nChan)) then none else row k

end Verif.TF
