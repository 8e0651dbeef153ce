import Verif.IO.Slices
import Verif.TF.Flatten

/-!
# Treatments of slices: averages, flattening, cleaning, pointing switches (nenupy/io/io_tools.py, nenupy/beamlet/sdata.py)

Values are rationals, `none` is NaN. Times are in seconds and frequencies in MHz.
-/

namespace Verif.IO

open Verif.TF (nanmean nanmedian median)

/-! ## Averages -/

/-- The values of a slice, by number of dimensions. Used for io_tools.py:676-718. -/
inductive Arr
  | zero (x : Option ℚ)
  | one (n : Nat) (f : Nat → Option ℚ)
  | two (n m : Nat) (f : Nat → Nat → Option ℚ)

/-- What an average changes in a `ST_Slice`. Used for io_tools.py:674-676. -/
structure Binned where
  time : List ℚ
  freq : List ℚ
  value : Arr

/-- The names given to `method`, in lower case. Used for io_tools.py:679-684. -/
inductive Method
  | mean | median | unknown
  deriving DecidableEq, Repr

/-- The function of io_tools.py:679-684. -/
def Method.fn : Method → Except Err (List (Option ℚ) → Option ℚ)
  | .mean => .ok nanmean
  | .median => .ok nanmedian
  | .unknown => .error .valueError

/-- `_rebin_time_indices` (io_tools.py:1224-1248): samples per bin and number of bins. -/
def timeBins (time : List ℚ) (dt : Option ℚ) : Except Err (Option (Nat × Nat)) :=
  dt.elim (.ok none) fun d =>
    if time.length < 2 then .error .indexError
    else if time.getD 1 0 - time.getD 0 0 = 0 then .error .overflow
    else sliceBins time.length (d / (time.getD 1 0 - time.getD 0 0))

/-- `np.unique(np.diff(x)).size == 1` (io_tools.py:1205). -/
def evenly (x : List ℚ) : Bool := decide (2 ≤ x.length) && (List.range (x.length - 1)).all fun i => decide (x.getD (i + 1) 0 - x.getD i 0 = x.getD 1 0 - x.getD 0 0)

/-- `_rebin_frequency_indices` (io_tools.py:1199-1221). -/
def freqBins (freq : List ℚ) (df : Option ℚ) : Except Err (Option (Nat × Nat)) :=
  df.elim (.ok none) fun d =>
    if evenly freq = false then .error .exception
    else if freq.getD 1 0 - freq.getD 0 0 = 0 then .error .overflow
    else sliceBins freq.length (d / (freq.getD 1 0 - freq.getD 0 0))

/-- The values of bin `i`, of `w` samples. Used for io_tools.py:690-716. -/
def binOf {α : Type} (w : Nat) (x : Nat → α) (i : Nat) : List α := (List.range w).map fun k => x (i * w + k)

/-- `np.nanmean(axis[indices], axis=1)` (io_tools.py:694, 701, 709, 716). -/
def binAxis (x : List ℚ) (b : Option (Nat × Nat)) : List ℚ :=
  b.elim x fun p => (List.range p.2).map fun i => (binOf p.1 (fun k => x.getD k 0) i).sum / p.1

/-- Number of samples after an average. Used for io_tools.py:690-716. -/
def binCount (n : Nat) (b : Option (Nat × Nat)) : Nat := b.elim n fun p => p.2

/-- Values along one axis after an average (io_tools.py:690-700, 708, 715). -/
def binValues (m : List (Option ℚ) → Option ℚ) (b : Option (Nat × Nat)) (f : Nat → Option ℚ) (i : Nat) : Option ℚ :=
  b.elim (f i) fun p => m (binOf p.1 f i)

/-- `squeeze` (io_tools.py:702). -/
def squeeze (n m : Nat) (f : Nat → Nat → Option ℚ) : Arr :=
  if n = 1 then (if m = 1 then .zero (f 0 0) else .one m (f 0))
  else if m = 1 then .one n fun i => f i 0
  else .two n m f

/-- `ST_Slice.rebin` (io_tools.py:636-727). -/
def rebinSlice (method : Method) (s : Binned) (dt df : Option ℚ) : Except Err Binned :=
  method.fn.bind fun m =>
    Arr.casesOn s.value (fun _ => .error .valueError)
      (fun n f =>
        if n = s.freq.length then (freqBins s.freq df).map fun b => ⟨s.time, binAxis s.freq b, .one (binCount n b) (binValues m b f)⟩
        else if n = s.time.length then (timeBins s.time dt).map fun b => ⟨binAxis s.time b, s.freq, .one (binCount n b) (binValues m b f)⟩
        else .error .valueError)
      (fun nt nf f =>
        (timeBins s.time dt).bind fun bt => (freqBins s.freq df).map fun bf =>
          ⟨binAxis s.time bt, binAxis s.freq bf,
            squeeze (binCount nt bt) (binCount nf bf) fun i j => binValues m bf (fun k => binValues m bt (fun t => f t k) i) j⟩)

/-! ## Flattening and cleaning -/

/-- Division of numbers; a division by zero is left as NaN. Used for io_tools.py:979-986. -/
def nanDiv (a b : Option ℚ) : Option ℚ := a.bind fun x => b.bind fun y => if y = 0 then none else some (x / y)

/-- `np.nanmedian(value, axis=0)` (io_tools.py:802, 981, 1023). -/
def medFreq (nt : Nat) (v : Nat → Nat → Option ℚ) (f : Nat) : Option ℚ := nanmedian ((List.range nt).map fun t => v t f)

/-- `np.nanmedian(value, axis=1)` (io_tools.py:803, 986, 1024). -/
def medTime (nf : Nat) (v : Nat → Nat → Option ℚ) (t : Nat) : Option ℚ := nanmedian ((List.range nf).map fun f => v t f)

/-- `flatten_frequency` (io_tools.py:979-981). -/
def flattenFreq (nt : Nat) (v : Nat → Nat → Option ℚ) (t f : Nat) : Option ℚ := nanDiv (v t f) (medFreq nt v f)

/-- `flatten_time` (io_tools.py:984-986). -/
def flattenTime (nf : Nat) (v : Nat → Nat → Option ℚ) (t f : Nat) : Option ℚ := nanDiv (v t f) (medTime nf v t)

/-- `x >= median + std * sigma`; false with NaN. Used for io_tools.py:804-805. -/
def above (x med : Option ℚ) (d : ℚ) : Bool := x.any fun a => med.any fun b => decide (b + d ≤ a)

/-- `clean_rfi` (io_tools.py:798-813); `sd` is the standard deviation of all the values. -/
def cleanRfi (nt nf : Nat) (v : Nat → Nat → Option ℚ) (sd tSigma fSigma : ℚ) (t f : Nat) : Option ℚ :=
  if above (v t f) (medFreq nt v f) (sd * fSigma) then none
  else if above (v t f) (medTime nf v t) (sd * tSigma) then none
  else v t f

/-! ## Pointing switches -/

/-- `np.round`: to the nearest integer, to the even one in between. Used for io_tools.py:1036. -/
def roundEven (x : ℚ) : Int :=
  if x - ⌊x⌋ < 1 / 2 then ⌊x⌋ else if 1 / 2 < x - ⌊x⌋ then ⌊x⌋ + 1 else if ⌊x⌋ % 2 = 0 then ⌊x⌋ else ⌊x⌋ + 1

/-- The distance between peaks asked from `find_peaks`, which raises below 1 (io_tools.py:1034-1045); `dt` is the step of the data, in seconds. -/
def peakDistance (pointing dt : ℚ) (margin : Int) : Except Err Int :=
  if dt = 0 then .error .overflow
  else if roundEven (pointing / dt) - margin < 1 then .error .valueError
  else .ok (roundEven (pointing / dt) - margin)

/-- The limits of the intervals (io_tools.py:1047-1051), from the peaks which are found. -/
def switchLimits (n : Nat) (peaks : List Nat) : List Nat := (0 :: (peaks.map (· + 1) ++ [n])).dedup.insertionSort (· ≤ ·)

/-- One interval (io_tools.py:1061-1070): `model a b k` is the fitted model of the profile from `a` to `b`, at time `k`. -/
def switchStep (model : Nat → Nat → Nat → ℚ) (a b : Nat) (corr : Nat → ℚ) (i : Nat) : ℚ :=
  if a ≤ i ∧ i < b then corr i * model a b (1 + (i - a)) else corr i

/-- All the intervals (io_tools.py:1060-1070). -/
def switchCorr (model : Nat → Nat → Nat → ℚ) (limits : List Nat) : Nat → ℚ :=
  (limits.zip limits.tail).foldl (fun corr p => switchStep model p.1 p.2 corr) fun _ => 1

/-- `clear_pointing_switch` (io_tools.py:1005-1077), from the peaks which are found and the fitted models. -/
def clearSwitch (n : Nat) (dt pointing : ℚ) (margin : Int) (peaks : List Nat) (model : Nat → Nat → Nat → ℚ) (v : Nat → Nat → Option ℚ) :
    Except Err (Nat → Nat → Option ℚ) :=
  if n < 2 then .error .indexError
  else (peakDistance pointing dt margin).map fun _ t f => nanDiv (v t f) (some (switchCorr model (switchLimits n peaks) t))

/-! ## Background -/

/-- Values of a `SData`, by time, frequency and polarisation. Used for sdata.py:503-535. -/
abbrev Cube := Nat → Nat → Nat → Option ℚ

/-- `np.nanmax` of the profiles of all the polarisations (sdata.py:529). -/
def profMax (nt np : Nat) (prof : Nat → Nat → Option ℚ) : Option ℚ :=
  ((List.range nt).flatMap fun t => (List.range np).map fun p => prof t p).foldl
    (fun a b => a.elim b fun x => some (b.elim x fun y => max x y)) none

/-- `SData.background` (sdata.py:504-535). Missing values in the first channel of the first polarisation need a fit, which is left out (`none`); it indexes all the
polarisations with a mask for one. -/
def background (nt nf np : Nat) (d : Cube) : Except Err (Option Cube) :=
  if (List.range nt).any fun t => decide (d t 0 0 = none) then (if np = 1 then .ok none else .error .indexError)
  else .ok (some fun t f p =>
    (medFreq nt (fun t f => d t f p) f).bind fun s =>
      (nanDiv (medTime nf (fun t f => d t f p) t) (profMax nt np fun t p => medTime nf (fun t f => d t f p) t)).map fun q => s * q)

/-- `SData.fbackground` (sdata.py:539-550). -/
def fBackground (nt : Nat) (d : Cube) : Cube := fun _ f p => medFreq nt (fun t f => d t f p) f

/-- What a `SData` is multiplied or divided by, when it is not a `SData`. Used for sdata.py:762-778. -/
inductive Other
  | number (q : ℚ)
  | array (nt nf np : Nat) (v : Nat → Nat → Nat → ℚ)
  | something

/-- `_check_value` and the operation (sdata.py:255-332, 762-778). -/
def withOther (op : ℚ → ℚ → Option ℚ) (nt nf np : Nat) (d : Cube) (o : Other) : Except Err Cube :=
  Other.casesOn o (fun q => .ok fun t f p => (d t f p).bind fun x => op x q)
    (fun a b c v => if a = nt ∧ b = nf ∧ c = np then .ok fun t f p => (d t f p).bind fun x => op x (v t f p) else .error .valueError)
    (.error .exception)

end Verif.IO
