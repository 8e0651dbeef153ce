import Verif.TF.Model
import Verif.IO.Slices

/-!
# Model of the older time-frequency reader: `nenupy/undysputed/dynspec.py` (class `Dynspec`)

Times are in seconds and frequencies in Hz, both rationals (the code has floats).
What is done to the samples by the band-pass, cleaning, de-dispersion and averaging steps is in `Verif/TF/Model.lean`.
-/

namespace Verif.Dyn

/-! ## Lanes -/

/-- A lane file once loaded (dynspec.py:189-250): channels per sub-band, number and beam of each sub-band,
first time (line 299), time step, number of times and width of a channel. -/
structure Lane where
  nChan : Nat
  chans : List Nat
  beams : List Nat
  start : ℚ
  dt : ℚ
  nt : Nat
  df : ℚ
  deriving DecidableEq

/-- `_compute_times` (dynspec.py:290-300). -/
def laneTime (L : Lane) (k : Nat) : ℚ := L.start + (k : ℚ) * L.dt

/-- `_compute_frequencies` (dynspec.py:302-315). -/
def laneFreq (L : Lane) (k : Nat) : ℚ :=
  (((k % L.nChan : Nat) : ℚ) - (L.nChan : ℚ) / 2) * L.df + ((L.chans.getD (k / L.nChan) 0 : Nat) : ℚ) * (L.df * L.nChan)

/-- `tmax` of a lane (dynspec.py:115-118), for a lane with data. -/
def laneEnd (L : Lane) : ℚ := laneTime L (L.nt - 1)

/-- `_fmin` (dynspec.py:243); a lane has sub-bands. -/
def laneFmin (L : Lane) : ℚ := L.df * L.nChan * ((L.chans.foldl min (L.chans.headD 0) : Nat) - 1 / 2)

/-- `_fmax` (dynspec.py:244). -/
def laneFmax (L : Lane) : ℚ := L.df * L.nChan * ((L.chans.foldl max 0 : Nat) + 1 / 2)

/-! ## Selection -/

/-- `np.argmin(np.abs(x - v))` on the first `n` entries (dynspec.py:1540, 1541, 1548, 1551). -/
def closest (x : Nat → ℚ) (n : Nat) (v : ℚ) : Nat := argmax (fun k => -|x k - v|) n

/-- Times selected (dynspec.py:1540-1544): first one, and the one after the last. -/
def selTimes (L : Lane) (r : ℚ × ℚ) : Option (Nat × Nat) :=
  if closest (laneTime L) L.nt r.1 = closest (laneTime L) L.nt r.2 then none
  else some (closest (laneTime L) L.nt r.1, closest (laneTime L) L.nt r.2)

/-- Channels selected among the `be - bs` channels of the beam (dynspec.py:1548-1560). -/
def selFreqs (L : Lane) (bs be : Nat) (r : ℚ × ℚ) : Option (Nat × Nat) :=
  if closest (fun k => laneFreq L (bs + k)) (be - bs) r.1 = closest (fun k => laneFreq L (bs + k)) (be - bs) r.2 then none
  else some (closest (fun k => laneFreq L (bs + k)) (be - bs) r.1 / L.nChan * L.nChan,
    (closest (fun k => laneFreq L (bs + k)) (be - bs) r.2 / L.nChan + 1) * L.nChan)

/-- What is read from a lane: positions of the first spectrum, the one after the last, and the same for the channels. Used for dynspec.py:1567-1570. -/
structure Sel where
  t0 : Nat
  t1 : Nat
  f0 : Nat
  f1 : Nat
  deriving DecidableEq

/-- `_select_data` (dynspec.py:1530-1570), without the corrections of lines 1571 to 1573. Channels are counted from the first one of the lane. -/
def selectData (L : Lane) (beam : Nat) (tr fr : ℚ × ℚ) : Option Sel :=
  (TF.beamEdgesOld L.beams L.nChan beam).bind fun b =>
    (selTimes L tr).bind fun t =>
      (selFreqs L b.1 b.2 fr).map fun f => ⟨t.1, t.2, b.1 + f.1, min b.2 (b.1 + f.2)⟩

/-! ## Settings -/

/-- State of a `Dynspec` (dynspec.py:543-563), restricted to the settings used by the selection. Files are numbered. -/
structure Reader where
  lanes : List Lane
  files : List Nat
  trange : Option (ℚ × ℚ)
  frange : Option (ℚ × ℚ)
  beam : Nat
  edges : Int
  deriving DecidableEq

/-- The loop of the setter of `lanefiles` (dynspec.py:615-620). `disk` gives the lane of a file, or the exception raised when it is loaded
(missing file or wrong name). The lanes read before the exception are kept. -/
def readAll (disk : Nat → Except Err Lane) : List Lane → List Nat → List Lane × Option Err
  | acc, [] => (acc, none)
  | acc, f :: fs => Except.casesOn (motive := fun _ => List Lane × Option Err) (disk f)
      (fun e => (acc, some e)) (fun L => readAll disk (acc ++ [L]) fs)

/-- Setter of `lanefiles` (dynspec.py:604-622): the state reached, and the exception if any. -/
def setFiles (disk : Nat → Except Err Lane) (r : Reader) (l : List Nat) : Reader × Option Err :=
  if (readAll disk r.lanes l).2.isSome then ({ r with lanes := (readAll disk r.lanes l).1 }, (readAll disk r.lanes l).2)
  else ({ r with lanes := (readAll disk r.lanes l).1, files := l }, none)

/-- Setter of `time_range` (dynspec.py:644-657) for a list of dates. -/
def setTimes (r : Reader) (t : List ℚ) : Except Err Reader :=
  if t.length ≠ 2 then .error .valueError
  else if t.getD 1 0 ≤ t.getD 0 0 then .error .valueError
  else .ok { r with trange := some (t.getD 0 0, t.getD 1 0) }

/-- Setter of `freq_range` (dynspec.py:679-690) for a list of frequencies. -/
def setFreqs (r : Reader) (f : List ℚ) : Except Err Reader :=
  if f.length ≠ 2 then .error .valueError
  else if f.getD 1 0 ≤ f.getD 0 0 then .error .valueError
  else .ok { r with frange := some (f.getD 0 0, f.getD 1 0) }

/-- `beams` (dynspec.py:1088-1102), in any order. -/
def beamsOf (r : Reader) : List Nat := r.lanes.flatMap Lane.beams

/-- Argument of a setter: an integer, or something else. Used for dynspec.py:709, 946. -/
inductive Arg
  | int (n : Int)
  | other
  deriving DecidableEq

/-- The smallest entry of a list which is not empty: `np.unique(...)[0]` (dynspec.py:715, 1102). -/
def least (l : List Nat) : Nat := l.foldl min (l.headD 0)

/-- Setter of `beam` (dynspec.py:708-718). -/
def setBeam (r : Reader) : Arg → Except Err Reader
  | .other => .error .typeError
  | .int b =>
    if 0 ≤ b ∧ b.toNat ∈ beamsOf r then .ok { r with beam := b.toNat }
    else if beamsOf r = [] then .error .indexError
    else .ok { r with beam := least (beamsOf r) }

/-- `nchan` (dynspec.py:1076-1085). -/
def nchan (r : Reader) : Nat := ((r.lanes.head?).map Lane.nChan).getD 0

/-- Setter of `edge_channels_to_remove` (dynspec.py:944-968); lanes are loaded. -/
def setEdges (r : Reader) : Arg → Reader
  | .other => { r with edges := 0 }
  | .int n =>
    if (nchan r : Int) < n * 2 then { r with edges := 0 }
    else if n < 0 then { r with edges := 0 }
    else { r with edges := n }

/-- One use of a setter. Used for dynspec.py:643-968. -/
inductive Set
  | times (t : List ℚ)
  | freqs (f : List ℚ)
  | beam (b : Arg)
  | edges (n : Arg)

/-- A setter is used; when it raises, the state is the one before (dynspec.py:643-968). -/
def applySet (r : Reader) : Set → Reader
  | .times t => ((setTimes r t).toOption).getD r
  | .freqs f => ((setFreqs r f).toOption).getD r
  | .beam b => ((setBeam r b).toOption).getD r
  | .edges n => setEdges r n

/-- The constructor (dynspec.py:543-563) on files which are all read, from the empty state. -/
def create (lanes : List Lane) (files : List Nat) : Except Err Reader :=
  (setBeam ⟨lanes, files, none, none, 0, 0⟩ (.int 0)).map fun r => setEdges r (.int 0)

/-- `time_range` (dynspec.py:625-641) with `tmin` and `tmax` (993-1015); there are lanes. -/
def timeRange (r : Reader) : ℚ × ℚ :=
  r.trange.getD ((r.lanes.map Lane.start).foldl min ((r.lanes.map Lane.start).headD 0),
    (r.lanes.map laneEnd).foldl max ((r.lanes.map laneEnd).headD 0))

/-- `freq_range` (dynspec.py:660-676) with `fmin` and `fmax` (1033-1058). -/
def freqRange (r : Reader) : ℚ × ℚ :=
  r.frange.getD ((r.lanes.map laneFmin).foldl min ((r.lanes.map laneFmin).headD 0),
    (r.lanes.map laneFmax).foldl max ((r.lanes.map laneFmax).headD 0))

/-- `_remove_edge_channels` (dynspec.py:1634-1648) on one time sample. The data have `nFreq` channels. -/
def removeEdges {α : Type} (r : Reader) (nFreq : Nat) (row : Nat → Option α) : Except Err (Nat → Option α) :=
  if r.edges ≤ 0 then .ok row
  else if nchan r = 0 then .error .zeroDivision
  else if nFreq % nchan r ≠ 0 then .error .valueError
  else .ok fun k =>
    if inSlice (nchan r) 0 r.edges (k % nchan r) ∨ inSlice (nchan r) (-r.edges) (nchan r) (k % nchan r) then none else row k

/-! ## Gathering the lanes -/

/-- One more lane: `spec & sd`, or `sd` for the first one (dynspec.py:1191-1194). -/
def join (acc : Option IO.SData) (s : IO.SData) : Except Err (Option IO.SData) :=
  Option.casesOn (motive := fun _ => Except Err (Option IO.SData)) acc (.ok (some s)) fun a => (IO.sdataAnd a s).map some

/-- The loop of `get` (dynspec.py:1144-1194). `piece` stands for lines 1148 to 1188: the data of a lane once treated, `none` when nothing
is selected in it. The result is `none` when nothing is gathered (1196-1198). -/
def gather {α : Type} (piece : α → Except Err (Option IO.SData)) : Option IO.SData → List α → Except Err (Option IO.SData)
  | acc, [] => .ok acc
  | acc, L :: Ls =>
    (piece L).bind fun p =>
      (Option.casesOn (motive := fun _ => Except Err (Option IO.SData)) p (.ok acc) (join acc)).bind fun a => gather piece a Ls

/-- What is asked for as Stokes parameters: a text, or a list of texts (dynspec.py:1106, 1204-1208). -/
inductive Stokes
  | text (s : List Char)
  | texts (l : List (List Char))
  deriving DecidableEq

/-- One of the parameters known by `_compute_stokes` (dynspec.py:1320-1327). -/
def known (s : List Char) : Bool :=
  decide (s ∈ [['I'], ['Q'], ['U'], ['V'], ['i'], ['q'], ['u'], ['v']])

/-- Items over which `_compute_stokes` loops (dynspec.py:1318). -/
def stokesItems : Stokes → List (List Char)
  | .text s => s.map fun c => [c]
  | .texts l => l

/-- `polar` of the data (dynspec.py:1187, sdata.py:394-409): a text is one polarisation. -/
def stokesPolar : Stokes → List (List Char)
  | .text s => [s]
  | .texts l => l

/-- Shape of the data of a lane for `nt` times and `nf` channels, or the exception: unknown parameter (dynspec.py:1329), no parameter
(`None.shape`, line 1603 and following), or a wrong number of polarisations (sdata.py:361). -/
def stokesShape (nt nf : Nat) (s : Stokes) : Except Err (List Nat) :=
  if ¬ (stokesItems s).all known then .error .notImplemented
  else if stokesItems s = [] then .error .attributeError
  else if (stokesPolar s).length ≠ (stokesItems s).length then .error .assertion
  else .ok [nt, nf, (stokesItems s).length]

/-! ## Writing -/

/-- `numpy.squeeze` on a shape (sdata.py:460). -/
def squeeze (shape : List Nat) : List Nat := shape.filter fun n => decide (n ≠ 1)

/-- `stokes_chunk.amp[:, :, 0]` (dynspec.py:1274): the shape of the result. -/
def firstPol (shape : List Nat) : Except Err (List Nat) :=
  if (squeeze shape).length < 3 then .error .indexError
  else if (squeeze shape).getD 2 0 = 0 then .error .indexError
  else .ok ((squeeze shape).eraseIdx 2)

/-- One turn of the loop on the Stokes parameters (dynspec.py:1264-1275), up to the data set. `chunk` is the shape of what `get` gives for
this parameter with the beam set, `none` when nothing is gathered. The name is built before the data are taken: a list has no `upper`. -/
def writeStokes (chunk : Stokes → Except Err (Option (List Nat))) (s : Stokes) : Except Err (List Nat) :=
  (chunk s).bind fun c =>
    Stokes.casesOn (motive := fun _ => Except Err (List Nat)) s
      (fun _ => Option.casesOn (motive := fun _ => Except Err (List Nat)) c (.error .attributeError) firstPol)
      (fun _ => .error .attributeError)

/-- The loop on the Stokes parameters (dynspec.py:1264-1306). -/
def writeAll (chunk : Stokes → Except Err (Option (List Nat))) : List Stokes → Except Err Unit
  | [] => .ok ()
  | s :: ss => (writeStokes chunk s).bind fun _ => writeAll chunk ss

/-- `write_hdf5` (dynspec.py:1250-1306): the reader afterwards, and the exception if any. `chunk r` is the shape given by `get` in state `r`. -/
def writeHdf5 (chunk : Reader → Stokes → Except Err (Option (List Nat))) (stokes : List Stokes) : Reader → List Int → Reader × Option Err
  | r, [] => (r, none)
  | r, b :: bs =>
    if ¬ (0 ≤ b ∧ b.toNat ∈ beamsOf r) then (r, some .indexError)
    else
      Except.casesOn (motive := fun _ => Reader × Option Err) (writeAll (chunk { r with beam := b.toNat }) stokes)
        (fun e => ({ r with beam := b.toNat }, some e)) (fun _ => writeHdf5 chunk stokes { r with beam := b.toNat } bs)

/-! ## Correction of the polarisation -/

/-- Length of `data[-k:]` on an axis of length `n` (dynspec.py:1389). -/
def tailLen (n k : Nat) : Nat := n - pyBound n (-(k : Int))

/-- Index of the first entry, among `n`, for which a condition holds; 0 when there is none: `np.argmax` on booleans (dynspec.py:1408-1413). -/
def firstTrue (p : Nat → Bool) (n : Nat) : Nat := argmax (fun k => if p k then 1 else 0) n

/-- Entries of the Jones matrices kept along one axis (dynspec.py:1408-1409 and 1412-1413 with the slice of 1416): first one, and the one
after the last. `j` are the `n` values on the axis, `a` and `b` the first and last values in the data. -/
def jonesSlice (j : Nat → ℚ) (n : Nat) (a b : ℚ) : Nat × Nat :=
  (firstTrue (fun k => decide (a ≤ j k)) n,
    min n (n - firstTrue (fun k => decide (j (n - 1 - k) < b)) n + 1))

/-- Lengths which can be combined by numpy, with the result. Used for dynspec.py:1431-1443. -/
def broadcast (a b : Nat) : Option Nat :=
  if a = b then some a else if a = 1 then some b else if b = 1 then some a else none

/-- Time index of the Jones matrix applied to each spectrum by `_polarization_correction` (dynspec.py:1386-1443), when the number of
sub-bands is right. `nt` spectra of time `time`, and `nj` matrices of time `jt`; `steps` is the rounded ratio of line 1386. -/
def polTimes (nt steps : Nat) (time : Nat → ℚ) (nj : Nat) (jt : Nat → ℚ) : Except Err (Nat → Nat) :=
  if steps = 0 then .error .zeroDivision
  else if tailLen nt (nt % steps) ≠ nt % steps then .error .valueError
  else if nt / steps = 0 then .error .indexError
  else
    let s := jonesSlice jt nj (time 0) (time ((nt / steps - 1) * steps))
    if broadcast (s.2 - s.1) (nt / steps) = some (nt / steps) then
      .ok fun k => if k < nt / steps * steps then (if s.2 - s.1 = 1 then s.1 else s.1 + k / steps) else nj - 1
    else .error .valueError

/-! ## Jumps every six minutes -/

/-- Edges of the intervals fitted by `_correct_jumps` (dynspec.py:1968-1987), for `n` spectra; `per` is the number of spectra in six minutes
(line 1972), `jumps` the number of jumps (1971) and `first` the place of the largest drop modulo `per` (1984). -/
def jumpEdges (n per jumps first : Nat) : List Nat :=
  0 :: ((List.range jumps).map fun k => first + k * per) ++ [n - 1]

/-- `nJumps` (dynspec.py:1968-1971). -/
def nJumps (n : Nat) (dt : ℚ) : Nat := (⌈(n : ℚ) * dt / 360⌉ - 1).toNat

/-- `nPointsJump` (dynspec.py:1972). -/
def perJump (dt : ℚ) : Nat := ⌊360 / dt⌋.toNat

/-- Intervals whose fit divides a spectrum (dynspec.py:1998-2028): both edges are in the interval. -/
def fitsOf (edges : List Nat) (k : Nat) : List Nat :=
  (List.range (edges.length - 1)).filter fun i => decide (edges.getD i 0 ≤ k ∧ k ≤ edges.getD (i + 1) 0)

/-! ## Median band-pass -/

/-- Shapes in the "median" correction (dynspec.py:1609-1619), for `nf` channels in sub-bands of `nChan`, and `np` polarisations. -/
def medianBandpass (nf np nChan : Nat) : Except Err Unit :=
  if nChan = 0 then .error .zeroDivision
  else if nf * np / nChan * nChan * np ≠ nf * np then .error .valueError
  else .ok ()

end Verif.Dyn
