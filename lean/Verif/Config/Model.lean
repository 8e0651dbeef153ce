import Verif.Common.Prelude
import Mathlib.Data.Int.Bitwise
import Mathlib.Data.List.Sort

/-!
# Model of the backend configurations: `nenupy/observation/obs_config.py`

Numbers are rationals; Python integers and floats are told apart, and the float NaN is a value of its own.
-/

namespace Verif.Config

/-- The attributes with bounds (obs_config.py:41-218). -/
inductive Attr
  | nSubBands | nChannels | nBins | nPolars | timeRes | tFold | dsTime | nBits | freqRes | nMAs
  deriving DecidableEq, Repr

/-- The backends (obs_config.py:1583-1593). -/
inductive Backend
  | nickel | raw | tf | bst | fold | waveolaf | single
  deriving DecidableEq, Repr

/-- Values a user may assign. Used for obs_config.py:316, 331, 346, 361, 376, 393, 410, 431, 452, 469. -/
inductive Val
  | int (n : Int)
  | flt (q : ℚ)
  | nan
  | other
  deriving DecidableEq, Repr

/-- Bounds and default of an attribute. Used for obs_config.py:41-218. -/
structure Range where
  min : ℚ
  max : ℚ
  default : Val
  deriving DecidableEq, Repr

/-- `backendProperties` (obs_config.py:41-218). Resolutions of `tf` are in seconds and hertz. -/
def table : Backend → Attr → Option Range
  | .nickel, .nSubBands => some ⟨1, 384, .int 384⟩
  | .nickel, .nChannels => some ⟨1, 64, .int 64⟩
  | .nickel, .nPolars => some ⟨1, 4, .int 4⟩
  | .nickel, .nMAs => some ⟨2, 102, .int 96⟩
  | .nickel, .timeRes => some ⟨0, 10, .flt 1⟩
  | .raw, .nPolars => some ⟨1, 4, .int 4⟩
  | .raw, .nSubBands => some ⟨1, 192, .int 192⟩
  | .raw, .nBits => some ⟨8, 16, .int 8⟩
  | .tf, .nPolars => some ⟨1, 4, .int 4⟩
  | .tf, .timeRes => some ⟨32 / 100000, 8389 / 100000, .flt (5 / 1000)⟩
  | .tf, .freqRes => some ⟨95, 12210, .flt 6100⟩
  | .tf, .nSubBands => some ⟨1, 768, .int 768⟩
  | .bst, .nSubBands => some ⟨1, 768, .int 768⟩
  | .bst, .nPolars => some ⟨1, 2, .int 2⟩
  | .fold, .nSubBands => some ⟨1, 192, .int 192⟩
  | .fold, .nPolars => some ⟨1, 4, .int 4⟩
  | .fold, .tFold => some ⟨536870912 / 100000000, 2147483648 / 100000000, .flt (1073741824 / 100000000)⟩
  | .fold, .nBins => some ⟨16, 8096, .int 2048⟩
  | .waveolaf, .nSubBands => some ⟨1, 192, .int 192⟩
  | .single, .nSubBands => some ⟨1, 192, .int 192⟩
  | .single, .nPolars => some ⟨1, 4, .int 4⟩
  | .single, .dsTime => some ⟨1, 4096, .int 128⟩
  | .single, .nBits => some ⟨8, 64, .int 32⟩
  | _, _ => none

/-- Types accepted by the setters (obs_config.py:316, 331, 346, 361, 376, 393, 410, 431, 452, 469). Time deltas and quantities are converted to
floats at once and are not told apart here. -/
def accepted : Attr → Val → Bool
  | .timeRes, v | .tFold, v | .freqRes, v => decide (v ≠ .other)
  | _, .int _ => true
  | _, _ => false

/-- `(n & (n-1) == 0) and n != 0` (obs_config.py:413, 434), on Python integers (two's complement). -/
def isPow2 (n : Int) : Bool := decide (Int.land n (n - 1) = 0) && decide (n ≠ 0)

/-- Numeric value of an assigned value, when it has one. Used for obs_config.py:497-512. -/
def Val.num : Val → Option ℚ
  | .int n => some n
  | .flt q => some q
  | _ => none

/-- `_checkAttr` (obs_config.py:497-512): all comparisons with NaN are false. -/
def checkAttr (r : Range) (v : Val) : Val :=
  if v.num.any (fun q => decide (r.max < q)) then r.default
  else if v.num.any (fun q => decide (q < r.min)) then r.default
  else v

/-- The power-of-two test of the setters of `dsTime` and `nBits`. Used for obs_config.py:315-475. -/
def pow2Ok : Attr → Val → Bool
  | .dsTime, .int n | .nBits, .int n => isPow2 n
  | _, _ => true

/-- Values held by a configuration object. Used for obs_config.py:315-475. -/
abbrev State := Attr → Option Val

/-- Assignment of an attribute (obs_config.py:315-475). -/
def setAttr (b : Backend) (k : Attr) (v : Val) (st : State) : Except Err State :=
  if accepted k v = false then .error .typeError
  else if pow2Ok k v = false then .error .valueError
  else match table b k with
    | none => .error .keyError
    | some r => .ok (fun i => if i = k then some (checkAttr r v) else st i)

/-- All attributes. Used for obs_config.py:257-293. -/
def allAttrs : List Attr := [.nSubBands, .nChannels, .nBins, .nPolars, .timeRes, .tFold, .dsTime, .nBits, .freqRes, .nMAs]

/-- The loop of the constructor over the attributes of the backend (obs_config.py:285-293). -/
def initLoop (b : Backend) (kw : Attr → Option Val) : List Attr → State → Except Err State
  | [], st => .ok st
  | k :: l, st =>
    match table b k with
    | none => initLoop b kw l st
    | some r => (setAttr b k ((kw k).getD r.default) st).bind (initLoop b kw l)

/-- The constructor (obs_config.py:257-293), for keywords that are attributes of the class. The order of the attributes only matters for which exception comes first. -/
def construct (b : Backend) (kw : Attr → Option Val) : Except Err State := initLoop b kw allAttrs (fun _ => none)

/-- An assignment as seen by a user who catches exceptions: a refused one leaves the object as it was. Used for obs_config.py:315-475. -/
def trySet (b : Backend) (st : State) (kv : Attr × Val) : State := (setAttr b kv.1 kv.2 st).toOption.getD st

/-! ## Time and frequency resolutions -/

/-- 5.12 microseconds. Used for obs_config.py:793-801. -/
def tick : ℚ := 512 / 100000000

/-- `np.argmin(np.abs(allowed - x))` (obs_config.py:797-808) over `2^k`, `k` from `lo`, `n + 1` values; the first minimum wins. -/
def nearestPow (lo : Nat) (x : ℚ) : Nat → Nat
  | 0 => 2 ^ lo
  | n + 1 => if |((2 ^ (lo + n + 1) : Nat) : ℚ) - x| < |((nearestPow lo x n : Nat) : ℚ) - x| then 2 ^ (lo + n + 1) else nearestPow lo x n

/-- `fftlen` (obs_config.py:793-801): among `2^4 … 2^11`. -/
def fftlen (df : ℚ) : Nat := nearestPow 4 (1 / tick / df) 7

/-- `nfft2int` (obs_config.py:794, 804-808): among `2^2 … 2^10`. -/
def nfft2int (dt df : ℚ) : Nat := nearestPow 2 (dt / (tick * fftlen df)) 8

/-- `_checkDFvsDT` (obs_config.py:783-824). -/
def checkDFvsDT (dt df : ℚ) : ℚ × ℚ := (tick * fftlen df * nfft2int dt df, 1 / tick / fftlen df)

/-! ## Data volumes, in bytes -/

/-- Values used by the volume of a single beam. Used for obs_config.py:562-563, 660-664, 848-850, 1032-1036, 1162-1165, 1309-1312, 1453-1457. -/
structure Beam where
  backend : Backend
  attr : Attr → ℚ
  duration : ℚ

/-- Duration without the minute lost at start, never negative (obs_config.py:1162-1163, 1309-1310, 1453-1454). -/
def afterBurn (d : ℚ) : ℚ := if d - 60 < 0 then 0 else d - 60

/-- The `volume` of each backend (obs_config.py:562-563, 660-664, 848-850, 1032-1036, 1162-1165, 1309-1312, 1453-1457). -/
def Beam.volume (x : Beam) : ℚ :=
  match x.backend with
  | .bst => x.attr .nPolars * x.duration * x.attr .nSubBands * 4
  | .nickel =>
    x.attr .nPolars * (x.attr .nMAs * (x.attr .nMAs - 1) / 2 + x.attr .nMAs) * 8 * x.attr .nChannels / x.attr .timeRes * x.attr .nSubBands * x.duration
  | .tf => x.attr .nPolars * 4 * (200000000 / 1024 / x.attr .freqRes) / x.attr .timeRes * x.attr .nSubBands * x.duration
  | .raw => x.attr .nPolars * (x.attr .nBits / 8) / tick * x.attr .nSubBands * (x.duration - 60)
  | .fold => x.attr .nSubBands * x.attr .nPolars * 4 * x.attr .nBins / x.attr .tFold * afterBurn x.duration
  | .waveolaf => 451590 * x.attr .nSubBands * afterBurn x.duration
  | .single => x.attr .nSubBands * x.attr .nPolars * (x.attr .nBits / 8) / tick / x.attr .dsTime * afterBurn x.duration

/-- Volume of a configuration made of several beams (obs_config.py:940-943, 1084-1087, 1213-1216, 1360-1363, 1506-1509). -/
def beamsVolume (l : List Beam) : ℚ := (l.map Beam.volume).sum

/-- A configuration object: its own attributes, and the beams its volume is computed from (obs_config.py:861-874, 1047-1054). -/
structure Conf where
  own : Beam
  beams : List Beam
  start : ℚ

/-- `volume` (obs_config.py:529-563, 624-664 for `bst` and `nickel`, which use their own attributes; the others use their beams). -/
def Conf.volume (x : Conf) : ℚ :=
  match x.own.backend with
  | .bst => x.own.volume
  | .nickel => x.own.volume
  | _ => beamsVolume x.beams

/-- Constructors of the configurations (obs_config.py:523-524, 618-619, 861-874, 1047-1054, 1176-1183, 1323-1330, 1468-1475): the multi-beam backends hold one beam built
from the same values. -/
def Conf.new (x : Beam) (start : ℚ) : Conf := ⟨x, [x], start⟩

/-- A later assignment on the configuration. Used for obs_config.py:315-475. -/
def Conf.assign (x : Conf) (k : Attr) (q : ℚ) : Conf := { x with own := { x.own with attr := fun i => if i = k then q else x.own.attr i } }

/-- `ObsConfig` (obs_config.py:1599-1607): for each backend a list of configurations. -/
abbrev Obs := Backend → List Conf

/-- `ObsConfig()` Used for obs_config.py:1718-1723. -/
def Obs.empty : Obs := fun _ => []

/-- `ObsConfig.__add__` (obs_config.py:1610-1618). -/
def Obs.add (x y : Obs) : Obs := fun b => x b ++ y b

/-- `ObsConfig.volume` (obs_config.py:1623-1654). -/
def Obs.volume (x : Obs) (b : Backend) : ℚ := ((x b).map Conf.volume).sum

/-- `fromParsetList` (obs_config.py:1718-1723), once the files are read. -/
def Obs.total (l : List Obs) : Obs := l.foldl Obs.add Obs.empty

/-- `np.cumsum`. Used for obs_config.py:1763-1769. -/
def cumsum (acc : ℚ) : List ℚ → List ℚ
  | [] => []
  | v :: l => (acc + v) :: cumsum (acc + v) l

/-- `getCumulativeVolume` (obs_config.py:1763-1769) for an order `sorted` of the configurations given by `np.argsort` on start times. -/
def cumulative (sorted : List Conf) : List ℚ × List ℚ := (sorted.map Conf.start, cumsum 0 (sorted.map Conf.volume))

/-- An order `np.argsort` may give. Used for obs_config.py:1763-1769. -/
def byStart (l : List Conf) : List Conf := l.insertionSort (fun x y => x.start ≤ y.start)

/-- `getCumulativeVolume` as it is called (obs_config.py:1759-1769): `name` is the asked receiver, `none` for an unknown one, which is refused; `Time` of an empty list is refused by
astropy as well. -/
def getCumulative (name : Option Backend) (x : Obs) : Except Err (List ℚ × List ℚ) :=
  name.elim (.error .valueError) fun b => if x b = [] then .error .valueError else .ok (cumulative (byStart (x b)))

end Verif.Config
