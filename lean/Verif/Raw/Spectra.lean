import Verif.Raw.Model
import Verif.TF.Select
import Verif.TF.Stokes
import Verif.TF.Limits

/-!
# Model of `Spectra` from the bytes of a file to its Stokes parameters (`nenupy/io/tf.py`)

The pieces are those of `Raw/Model.lean` (decoding), `TF/Select.lean` (bad blocks and selection), `TF/Model.lean` (unpacking) and
`TF/Stokes.lean`; here they are put together as `Spectra.__init__` and `Spectra.get` do, for a pipeline which only holds the task
`TFTask.get_stokes` and a result below the volume threshold. Floats are given by an arbitrary function of their bits.
-/

namespace Verif.Raw

open Verif.TF

noncomputable section

/-- Start of a block by its own header (tf.py:1746, 1756). -/
def blockStart (h : Header) : ℚ := (h.stamp : ℚ) + (h.seq : ℚ) / bandWidth

/-- Header of block `i`. Used for tf.py:1725-1746. -/
def headerOf (bs : List Block) (i : Nat) : Header := (bs[i]?.map Block.header).getD ⟨0, 0, 0, 0, 0, 0, 0, 0, 0⟩

/-- `_get_bad_data_mask` on the decoded blocks (tf.py:1194-1204, 1718-1741). -/
def maskOf (bs : List Block) : Nat → Bool :=
  badMask fun i => ⟨((headerOf bs i).stamp : ℚ), ((headerOf bs i).idx : Int), (headerOf bs i).nbchan⟩

/-- `_reconstruct_time` on the decoded blocks (tf.py:1208, 1743-1757). -/
def startsOf (check : Bool) (bs : List Block) (nt : Nat) (dt : ℚ) : Except Err (Nat → ℚ) :=
  if check then reconstruct (maskOf bs) bs.length fun i => blockStart (headerOf bs i)
  else .ok (regularStart (blockStart (headerOf bs 0)) nt dt)

/-- `spectra_data_to_matrix` at time `k`, channel `l` of a sub-band of `nc` channels (tf_utils.py:2252-2269). -/
def matrixOf (fl : Nat → ℝ) (nc : Nat) (x : Beamlet) (k l : Nat) : M2 :=
  specMatrix (fl (x.fft0.getD ((k * nc + l) * 2) 0)) (fl (x.fft0.getD ((k * nc + l) * 2 + 1) 0))
    (fl (x.fft1.getD ((k * nc + l) * 2) 0)) (fl (x.fft1.getD ((k * nc + l) * 2 + 1) 0))

/-- The matrices of all blocks, bad blocks blanked (tf.py:1772-1783). -/
def matrices (fl : Nat → ℝ) (check : Bool) (bs : List Block) (nc : Nat) (i j k l : Nat) : Option M2 :=
  blank bs.length (if check then some (maskOf bs) else none)
    (fun b => (bs[b]?.bind fun y => y.data[j]?).map fun x => matrixOf fl nc x k l) i

/-- What `Spectra.__init__` keeps of a file (tf.py:1187-1220). -/
structure Opened where
  n : Nat
  nt : Nat
  nc : Nat
  dt : ℚ
  df : ℚ
  start : Nat → ℚ
  chan : List Int
  beams : List Nat
  data : Arr (Option M2)

/-- `Spectra.__init__` (tf.py:1187-1220) on the bytes of a file. Negative numbers of beams are left out. -/
def openSpectra (fl : Nat → ℝ) (check : Bool) (f : List Nat) : Except Err Opened :=
  (spectraBlocks check f).bind fun bs =>
    bs.head?.elim (.error .indexError) fun b =>
      (startsOf check bs b.header.nffte.toNat ((b.header.fftlen : ℚ) * (b.header.nfft2int : ℚ) / bandWidth)).bind fun s =>
        (blocksToTf (ofFn4 bs.length b.header.nbchan.natAbs b.header.nffte.toNat b.header.fftlen.toNat
          (matrices fl check bs b.header.fftlen.toNat)) 2 b.header.nffte.toNat b.header.fftlen.toNat).map fun d =>
            { n := bs.length
              nt := b.header.nffte.toNat
              nc := b.header.fftlen.toNat
              dt := (b.header.fftlen : ℚ) * (b.header.nfft2int : ℚ) / bandWidth
              df := bandWidth / (b.header.fftlen : ℚ)
              start := s
              chan := b.data.map Beamlet.channel
              beams := b.data.map fun x => x.beam.toNat
              data := d }

/-- What `Spectra.get` returns (tf.py:1444-1460, 1866-1871). -/
structure Got where
  nTime : Nat
  time : Nat → ℚ
  nFreq : Nat
  freq : Nat → ℚ
  nRow : Nat
  nCol : Nat
  polar : List String
  cell : Nat → Nat → List (Option ℝ)

/-- The parameters asked for in one element; no number where the element is missing (tf_utils.py:621-663). -/
def stokesCell (names : List String) (d : Option M2) : List (Option ℝ) :=
  names.map fun s => d.bind fun m => (stokesOne m (stokesName s)).toOption.bind id

/-- `Spectra.get` (tf.py:1423-1460) with the task `TFTask.get_stokes` alone. Without a name the task does nothing and the matrices
do not fit the labels; an empty selection is `None`, which has no shape. An unknown name is refused whatever the data. -/
def Opened.get (o : Opened) (tmin tmax fmin fmax : ℚ) (beam : Nat) (names : List String) : Except Err Got :=
  (selectRaw o.start o.n o.nt o.dt tmin tmax (subStart o.chan) o.nc o.df fmin fmax (beamEdges o.beams o.nc beam)).bind fun sel =>
    if names = [] then .error .valueError
    else sel.elim (.error .attributeError) fun r =>
      (computeStokes true ⟨0, 0, 0, 0⟩ names).map fun _ =>
        { nTime := r.nTime
          time := r.time
          nFreq := r.nFreq
          freq := r.freq
          nRow := r.nRow
          nCol := r.nCol
          polar := names
          cell := fun k j => stokesCell names (o.data.get2 (o.beams.length * o.nc) (r.row k) (r.col j)) }

/-- The file opened, then read. Used for tf.py:1187-1220, 1423-1460. -/
def readSpectra (fl : Nat → ℝ) (check : Bool) (f : List Nat) (tmin tmax fmin fmax : ℚ) (beam : Nat) (names : List String) :
    Except Err Got :=
  (openSpectra fl check f).bind fun o => o.get tmin tmax fmin fmax beam names

end

end Verif.Raw
