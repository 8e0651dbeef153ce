import Verif.Common.Prelude
import Mathlib.Data.Rat.Defs
import Mathlib.Algebra.Field.Rat

/-!
Binary files of the receivers, byte per byte: `.spectra` files as read by `Spectra` (nenupy/io/tf.py) and by `_Lane`
(nenupy/undysputed/dynspec.py), `.raw` files as read by `_RawLane` (nenupy/undysputed/waveform.py), records of the NenuFAR-TV
(nenupy/io/xst.py) and tables of calibration (nenupy/instru/instrument_tools.py).

A file is the list of its bytes, numbers below 256. The structures are packed (`np.dtype` without alignment) and little-endian.
The 4-byte and 8-byte floating-point numbers are kept as the integers of their bits. Structures which do not fit a C `int`
(2 GiB) are left out.
-/

namespace Verif.Raw

open Verif

/-- Unsigned little-endian integer, as `np.frombuffer` and `view` decode it. Used for tf.py:31-53, 1681-1685. -/
def unsigned : List Nat → Nat
  | [] => 0
  | b :: l => b + 256 * unsigned l

/-- `int32`, in two's complement. Used for tf.py:35-52, 1699-1701. -/
def signed (l : List Nat) : Int :=
  if unsigned l < 2147483648 then (unsigned l : Int) else (unsigned l : Int) - 4294967296

/-- The `k` bytes found from byte `off` on. Used for tf.py:1681-1715. -/
def piece (off k : Nat) (l : List Nat) : List Nat := (l.drop off).take k

/-- The header of a block: `BLOCK_HEADER` (tf.py:31-53), `HEADER_STRUCT` (dynspec.py:47-57). -/
structure Header where
  /-- `idx` -/
  idx : Nat
  /-- `TIMESTAMP` -/
  stamp : Nat
  /-- `BLOCKSEQNUMBER` -/
  seq : Nat
  /-- `fftlen` -/
  fftlen : Int
  /-- `nfft2int` -/
  nfft2int : Int
  /-- `fftovlp` -/
  fftovlp : Int
  /-- `apodisation` -/
  apodisation : Int
  /-- `nffte` -/
  nffte : Int
  /-- `nbchan` -/
  nbchan : Int
deriving DecidableEq

/-- The header decoded at the beginning of some bytes (tf.py:31-53; dynspec.py:47-57). -/
def headerAt (l : List Nat) : Header :=
  ⟨unsigned (piece 0 8 l), unsigned (piece 8 8 l), unsigned (piece 16 8 l), signed (piece 24 4 l), signed (piece 28 4 l),
    signed (piece 32 4 l), signed (piece 36 4 l), signed (piece 40 4 l), signed (piece 44 4 l)⟩

/-- The header of the first block (tf.py:1679-1685; `_decode_first_header`, dynspec.py:253-263): `np.frombuffer` raises
`ValueError` on fewer bytes than one header. -/
def firstHeader (f : List Nat) : Except Err Header :=
  if (f.take 48).length < 48 then .error .valueError else .ok (headerAt (f.take 48))

/-- `n` numbers of 4 bytes. Used for tf.py:1702-1703. -/
def words (n : Nat) (l : List Nat) : List Nat := (List.range n).map fun i => unsigned (piece (i * 4) 4 l)

/-- One sub-band of a block (tf.py:1696-1705; dynspec.py:272-280): the floats of `fft0` and `fft1` by their bits, in the order
(time, channel, polarisation). -/
structure Beamlet where
  /-- `lane` -/
  lane : Int
  /-- `beam` -/
  beam : Int
  /-- `channel` -/
  channel : Int
  /-- `fft0` -/
  fft0 : List Nat
  /-- `fft1` -/
  fft1 : List Nat
deriving DecidableEq

/-- One block (tf.py:1706). -/
structure Block where
  /-- the fields of `BLOCK_HEADER` -/
  header : Header
  /-- `data` -/
  data : List Beamlet
deriving DecidableEq

/-- Size of `beamlet_dtype` (tf.py:1696-1705), for `nt` times of `nc` channels. -/
def beamletSize (nt nc : Nat) : Nat := 12 + nt * nc * 2 * 4 + nt * nc * 2 * 4

/-- Size of `global_struct` (tf.py:1706; dynspec.py:281-283). -/
def blockSize (ns nt nc : Nat) : Nat := 48 + ns * beamletSize nt nc

/-- A sub-band decoded at the beginning of some bytes (tf.py:1696-1705). -/
def beamletAt (nt nc : Nat) (l : List Nat) : Beamlet :=
  ⟨signed (piece 0 4 l), signed (piece 4 4 l), signed (piece 8 4 l), words (nt * nc * 2) (l.drop 12),
    words (nt * nc * 2) (l.drop (12 + nt * nc * 2 * 4))⟩

/-- A block decoded at the beginning of some bytes (tf.py:1706). -/
def blockAt (ns nt nc : Nat) (l : List Nat) : Block :=
  ⟨headerAt l, (List.range ns).map fun j => beamletAt nt nc (l.drop (48 + j * beamletSize nt nc))⟩

/-- The complete records of `size` bytes. Used for tf.py:1715, dynspec.py:285-288. -/
def chunks (size : Nat) (f : List Nat) : List (List Nat) :=
  (List.range (f.length / size)).map fun i => piece (i * size) size f

/-- `tmp.view(dtype)` on bytes (tf.py:1715): `ValueError` unless the number of bytes is a multiple of the size of a record. -/
def view (size : Nat) (f : List Nat) : Except Err (List (List Nat)) :=
  if f.length % size ≠ 0 then .error .valueError else .ok (chunks size f)

/-- The blocks of a file decoded by `Spectra` (`_lazy_load_data`, tf.py:1677-1715, and the first uses of the decoded data,
tf.py:1200-1219). A negative dimension makes `np.dtype` raise `ValueError`, and `np.abs` leaves the lowest `int32` negative.
With one sub-band, numpy reads `("data", beamlet_dtype, 1)` as a field without sub-band axis: the first use of that axis raises
`IndexError` (tf.py:1212), or `ValueError` without the check of missing data (tf.py:1755). -/
def spectraBlocks (check : Bool) (f : List Nat) : Except Err (List Block) :=
  (firstHeader f).bind fun h =>
    if h.nffte < 0 ∨ h.fftlen < 0 ∨ h.nbchan = -2147483648 then .error .valueError
    else (view (blockSize h.nbchan.natAbs h.nffte.toNat h.fftlen.toNat) f).bind fun bs =>
      if h.nbchan.natAbs = 1 then .error (if check then .indexError else .valueError)
      else .ok (bs.map (blockAt h.nbchan.natAbs h.nffte.toNat h.fftlen.toNat))

/-- The blocks of a file decoded by `_Lane` (`_decode_first_header` and `_decode_data`, dynspec.py:252-288, and their first uses,
dynspec.py:207-217): only complete blocks are decoded. Without a complete block, `data["channel"][0, :]` raises `IndexError`; with
one sub-band there is no sub-band axis and `_to2d` raises `IndexError` (an odd number of channels, which raises `ValueError`
before that, is left out). -/
def laneBlocks (f : List Nat) : Except Err (List Block) :=
  (firstHeader f).bind fun h =>
    if h.nffte < 0 ∨ h.fftlen < 0 ∨ h.nbchan < 0 then .error .valueError
    else if h.nbchan = 1 then .error .indexError
    else if f.length / blockSize h.nbchan.toNat h.nffte.toNat h.fftlen.toNat = 0 then .error .indexError
    else .ok ((chunks (blockSize h.nbchan.toNat h.nffte.toNat h.fftlen.toNat) f).map
      (blockAt h.nbchan.toNat h.nffte.toNat h.fftlen.toNat))

/-! ## Waveforms -/

/-- What `_RawLane` keeps of a `.raw` file (waveform.py:182-253): `nobpb`, `nb_samples`, `bytespersample`, `lbc_alloc` (lane, beam,
channel), `nfft`, and the times of the blocks. -/
structure RawLane where
  /-- `nobpb` -/
  beamlets : Int
  /-- `nb_samples` -/
  samples : Int
  /-- `bytespersample` -/
  bytes : Int
  /-- `lbc_alloc` -/
  alloc : List (Int × Int × Int)
  /-- `nfft` -/
  nfft : Int
  /-- `times`, in s -/
  times : List ℚ
deriving DecidableEq

/-- `bit_mode` (waveform.py:188-195): number of bytes of one number. -/
def rawWidth (bps : Int) : Except Err Nat :=
  if bps = 4 then .ok 1 else if bps = 8 then .ok 2 else .error .exception

/-- `lbc_alloc` (waveform.py:209-224). -/
def allocAt (n : Nat) (l : List Nat) : List (Int × Int × Int) :=
  (List.range n).map fun i =>
    (signed (piece (12 + i * 12) 4 l), signed (piece (12 + i * 12 + 4) 4 l), signed (piece (12 + i * 12 + 8) 4 l))

/-- The time of one block (waveform.py:246-249), in s. -/
def rawTime (l : List Nat) : ℚ :=
  (unsigned (piece 8 8 l) : ℚ) + (unsigned (piece 16 8 l) : ℚ) / (200000000 / 1024)

/-- `sb2freq` of the channels (waveform.py:252, instrument_tools.py:131-145): its result is not kept, its exceptions are. An empty
list makes an array of floats, refused with `TypeError`. -/
def rawChannels (a : List (Int × Int × Int)) : Except Err Unit :=
  if a = [] then .error .typeError
  else if a.any (fun x => decide (x.2.2 < 0 ∨ 511 < x.2.2)) then .error .valueError
  else .ok ()

/-- `_RawLane._load` (waveform.py:160-254). Products of `int32` which overflow are left out. `np.memmap` raises `ValueError` unless
what follows the header is a whole number of blocks. -/
def rawLoad (f : List Nat) : Except Err RawLane :=
  if (f.take 12).length < 12 then .error .valueError
  else (rawWidth (signed (piece 8 4 f))).bind fun w =>
    if signed (piece 0 4 f) < 0 ∨ signed (piece 4 4 f) * signed (piece 0 4 f) < 0 then .error .valueError
    else if f.length < 12 + (signed (piece 0 4 f)).toNat * 12 then .error .valueError
    else (view (24 + (signed (piece 4 4 f) * signed (piece 0 4 f)).toNat * 4 * w)
        (f.drop (12 + (signed (piece 0 4 f)).toNat * 12))).bind fun bs =>
      (rawChannels (allocAt (signed (piece 0 4 f)).toNat f)).map fun _ =>
        ⟨signed (piece 0 4 f), signed (piece 4 4 f), signed (piece 8 4 f), allocAt (signed (piece 0 4 f)).toNat f,
          signed (piece 4 4 f) / 256, bs.map rawTime⟩

/-! ## NenuFAR-TV and tables of calibration -/

/-- `n` numbers of 8 bytes. Used for xst.py:2188-2190, instrument_tools.py:290-294. -/
def doubles (n : Nat) (l : List Nat) : List Nat := (List.range n).map fun i => unsigned (piece (i * 8) 8 l)

/-- One record of the NenuFAR-TV (xst.py:2188-2190): the Julian date and the correlations, each being two 4-byte floats. -/
structure TvRecord where
  /-- `jd` -/
  jd : Nat
  /-- `data`: real and imaginary parts of the correlations, in the order (sub-band, correlation) -/
  data : List Nat
deriving DecidableEq

/-- Number of correlations of one sub-band, for `n` mini-arrays (xst.py:2189). -/
def tvCount (n : Nat) : Nat := n * n * 2 + n

/-- A record decoded at the beginning of some bytes (xst.py:2188-2190). -/
def tvAt (nsb nma : Nat) (l : List Nat) : TvRecord :=
  ⟨unsigned (piece 0 8 l), words (nsb * tvCount nma * 2) (l.drop 8)⟩

/-- What follows the five lines of the header (xst.py:2193-2194). -/
def tvRecords (nsb nma : Nat) (body : List Nat) : Except Err (List TvRecord) :=
  (view (8 + nsb * tvCount nma * 2 * 4) body).map fun rs => rs.map (tvAt nsb nma)

/-- The numbers of a table of calibration (instrument_tools.py:290-308) which follow its header, read for `n` mini-arrays:
`tmp.view(dtype)[0]["data"]`, in the order (sub-band, mini-array, polarisation, part). -/
def calTable (n : Nat) (body : List Nat) : Except Err (List Nat) :=
  (view (512 * n * 2 * 2 * 8) body).bind fun rs =>
    rs.head?.elim (.error .indexError) fun l => .ok (doubles (512 * n * 2 * 2) l)

/-- The bytes of a table taken as its header (instrument_tools.py:272-289), given the lines of the file, each with its end of
line, and whether it begins with `HeaderStop`: all lines up to that one, or none. -/
def calHeader (lines : List (List Nat × Bool)) : Nat :=
  if lines.any (fun l => l.2) then
    ((lines.take (lines.findIdx (fun l => l.2) + 1)).map fun l => l.1.length).sum
  else 0

end Verif.Raw
