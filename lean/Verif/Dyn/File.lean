import Verif.Dyn.Model
import Verif.Raw.Model

/-!
# Model of the older reader from the bytes of lane files to Stokes parameters (`nenupy/undysputed/dynspec.py`)

The pieces are those of `Raw/Model.lean` (decoding), `TF/Model.lean` (unpacking) and `Dyn/Model.lean` (selection, gathering); here they are
put together as `_Lane._load` and `Dynspec.get` do, for a reader whose corrections are left at their defaults (dynspec.py:553-563): no
Jones matrices, rotation or dispersion measure, band-pass, edge channels, cleaning, jumps or averages. Floats are given by an arbitrary
function of their bits; the values are exact. Beams and sub-bands with negative numbers are left out.
-/

namespace Verif.Dyn

open Verif.Raw

/-- One element of the data of a lane, `(2, 2)` complex numbers of which the diagonal is real: real and imaginary parts of the others.
Used for dynspec.py:368-383. -/
structure Ejones where
  d00 : ℚ
  d01 : ℚ × ℚ
  d10 : ℚ × ℚ
  d11 : ℚ
  deriving DecidableEq

/-- `_to_ejones` (dynspec.py:368-383) at time `k`, channel `l` of a sub-band of `nc` channels: the rows are stacked along the last axis. -/
def ejonesAt (fl : Nat → ℚ) (nc : Nat) (x : Beamlet) (k l : Nat) : Ejones where
  d00 := fl (x.fft0.getD ((k * nc + l) * 2) 0)
  d10 := (fl (x.fft1.getD ((k * nc + l) * 2) 0), -fl (x.fft1.getD ((k * nc + l) * 2 + 1) 0))
  d01 := (fl (x.fft1.getD ((k * nc + l) * 2) 0), fl (x.fft1.getD ((k * nc + l) * 2 + 1) 0))
  d11 := fl (x.fft0.getD ((k * nc + l) * 2 + 1) 0)

/-- The elements of all blocks, by block, sub-band, time and channel (dynspec.py:214-217). -/
def ejonesOf (fl : Nat → ℚ) (bs : List Block) (nc i j k l : Nat) : Option Ejones :=
  (bs[i]?.bind fun b => b.data[j]?).map fun x => ejonesAt fl nc x k l

/-- A lane with its data. Used for dynspec.py:189-250. -/
structure Loaded where
  lane : Lane
  data : TF.Arr (Option Ejones)

/-- The axes of a lane with `n` blocks, by its first block (dynspec.py:196-241): the sub-band of 195312.5 Hz is `1 / 5.12e-6` s. -/
def laneOf (n : Nat) (b : Block) : Lane where
  nChan := b.header.fftlen.toNat
  chans := b.data.map fun x => x.channel.toNat
  beams := b.data.map fun x => x.beam.toNat
  start := (b.header.stamp : ℚ) + (b.header.seq : ℚ) / (390625 / 2)
  dt := 512 / 100000000 * (b.header.fftlen : ℚ) * (b.header.nfft2int : ℚ)
  nt := n * b.header.nffte.toNat
  df := 1 / (512 / 100000000) / (b.header.fftlen : ℚ)

/-- `_load` (dynspec.py:189-250) on the bytes of a file. -/
def loadLane (fl : Nat → ℚ) (f : List Nat) : Except Err Loaded :=
  (laneBlocks f).bind fun bs =>
    bs.head?.elim (.error .indexError) fun b =>
      (TF.blocksToTf (TF.ofFn4 bs.length b.data.length b.header.nffte.toNat b.header.fftlen.toNat
        (ejonesOf fl bs b.header.fftlen.toNat)) 2 b.header.nffte.toNat b.header.fftlen.toNat).map fun d => ⟨laneOf bs.length b, d⟩

/-- One Stokes parameter of one element (`_compute_stokes`, dynspec.py:1318-1329). -/
def stokesItem (e : Ejones) (name : List Char) : Except Err ℚ :=
  if name.map Char.toUpper = ['I'] then .ok (e.d00 + e.d11)
  else if name.map Char.toUpper = ['Q'] then .ok (e.d00 - e.d11)
  else if name.map Char.toUpper = ['U'] then .ok (e.d01.1 * 2)
  else if name.map Char.toUpper = ['V'] then .ok (e.d01.2 * 2)
  else .error .notImplemented

/-- The parameters asked for in one element (dynspec.py:1318-1336); the names were checked. -/
def stokesCell (s : Stokes) (e : Option Ejones) : List ℚ :=
  (stokesItems s).map fun name => ((e.bind fun m => (stokesItem m name).toOption)).getD 0

/-- The data taken from a lane (dynspec.py:1567-1573). -/
def cellsOf (l : Loaded) (q : Sel) (s : Stokes) : List (List (List ℚ)) :=
  (List.range (q.t1 - q.t0)).map fun t => (List.range (q.f1 - q.f0)).map fun k =>
    stokesCell s (l.data.get2 (l.lane.chans.length * l.lane.nChan) (q.t0 + t) (q.f0 + k))

/-- One turn of the loop of `get` (dynspec.py:1148-1188). -/
def pieceOf (r : Reader) (s : Stokes) (l : Loaded) : Except Err (Option IO.SData) :=
  (selectData l.lane r.beam (timeRange r) (freqRange r)).elim (.ok none) fun q =>
    (stokesShape (q.t1 - q.t0) (q.f1 - q.f0) s).bind fun _ =>
      (IO.mkSData ((List.range (q.t1 - q.t0)).map fun t => laneTime l.lane (q.t0 + t))
        ((List.range (q.f1 - q.f0)).map fun k => laneFreq l.lane (q.f0 + k)) (stokesPolar s) (cellsOf l q s)).map some

/-- `get` (dynspec.py:1144-1203) of a reader of these lanes. -/
def getLanes (r : Reader) (s : Stokes) (ls : List Loaded) : Except Err (Option IO.SData) := gather (pieceOf r s) none ls

/-- The files are loaded, the reader is made and its settings changed, then the data are asked for (dynspec.py:543-563, 604-622,
1144-1203). Setters which raise leave the reader as it was; the number of edge channels is not among the settings used. -/
def readFiles (fl : Nat → ℚ) (files : List (List Nat)) (sets : List Set) (s : Stokes) : Except Err (Option IO.SData) :=
  (files.mapM (loadLane fl)).bind fun ls =>
    (create (ls.map Loaded.lane) (List.range ls.length)).bind fun r => getLanes (sets.foldl applySet r) s ls

end Verif.Dyn
