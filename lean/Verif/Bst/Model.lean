import Verif.Common.Prelude
import Mathlib.Data.Rat.Defs
import Mathlib.Algebra.Order.Field.Rat
import Mathlib.Algebra.Order.Group.Unbundled.Abs

/-!
# Files of beam statistics: what they say of the beams, and selections (nenupy/io/bst.py, nenupy/beamlet/bstdata.py)

Times are Julian days, frequencies MHz, numbers exact. A setter that raises may leave a changed state: setters give the state left and the
exception, if any.
-/

namespace Verif.Bst

open Verif

/-- A row of the table of analog pointings (`pan`) or of digital ones (`pbe`). Used for bst.py:127-128, 144-145. -/
structure Aim where
  time : ℚ
  beam : Nat
  az : ℚ
  el : ℚ
  deriving DecidableEq

/-- A row of the table of digital beams (`bea`): number of beamlets, analog beam, beamlets and their frequencies. Used for bst.py:111, 160-162. -/
structure Digital where
  count : Nat
  ana : Nat
  beamlets : List Nat
  freqs : List ℚ
  deriving DecidableEq

/-- A row of the table of analog beams (`ana`): number of mini-arrays used, and mini-arrays. Used for bst.py:178-180. -/
structure Analog where
  used : Nat
  mas : List Nat
  deriving DecidableEq

/-- A file (io_tools.py:107-137, beamlet.py:91-110). `cols` is the number of columns of the data, which are given by time, polarisation and column. -/
structure File where
  nbAna : Nat
  nbBeam : Nat
  ana : List Analog
  bea : List Digital
  pan : List Aim
  pbe : List Aim
  pols : List String
  times : List ℚ
  cols : Nat
  data : Nat → Nat → Nat → ℚ

/-- A number given as index of a beam, and anything else. Used for bst.py:196, bstdata.py:402, 433. -/
inductive Given where
  | int (i : Int)
  | real (q : ℚ)
  | other
  deriving DecidableEq

/-! ## `BST_Data` -/

/-- Selection: beams, polarisation, positions of the polarisation, of the times and columns of the frequencies. Used for bstdata.py:412, 443, 474-475, 545-546, 608-609. -/
structure State where
  dbeam : Nat
  abeam : Nat
  pol : String
  polIdx : List Nat
  timeIdx : List Nat
  freqIdx : List Nat
  deriving DecidableEq

/-- What a setter leaves: the state, and the exception if it raises. Used for bstdata.py:401-610. -/
abbrev Left := State × Option Err

/-- Setter of `abeam` (bstdata.py:401-416). -/
def setAbeam (f : File) (s : State) : Given → Left
  | .int i => if 0 ≤ i ∧ i < f.nbAna then ({ s with abeam := i.toNat }, none) else (s, some .indexError)
  | .real _ => (s, some .typeError)
  | .other => (s, some .typeError)

/-- `self.abeam = self.meta['bea']['NoAnaBeam'][d]` (bstdata.py:447), once the beam is chosen. -/
def followAbeam (f : File) (s : State) : Left :=
  ((f.bea[s.dbeam]?).map fun b => setAbeam f s (.int b.ana)).getD (s, some .indexError)

/-- Setter of `dbeam` (bstdata.py:432-448): the beam is changed before its analog beam is looked for. -/
def setDbeam (f : File) (s : State) : Given → Left
  | .int i => if 0 ≤ i ∧ i < f.nbBeam then followAbeam f { s with dbeam := i.toNat } else (s, some .indexError)
  | .real _ => (s, some .typeError)
  | .other => (s, some .typeError)

/-- Positions of the items which satisfy a condition: a mask given to `np.ix_`, or `np.where(mask)[0]`. Used for bstdata.py:474, 534. -/
def positions {α : Type} (p : α → Bool) (l : List α) : List Nat := (List.range l.length).filter fun i => (l[i]?).any p

/-- Setter of `polar` (bstdata.py:463-476); `none` stands for anything but a text. -/
def setPolar (f : File) (s : State) : Option String → Left
  | none => (s, some .typeError)
  | some p => if p.toUpper ∈ f.pols then ({ s with pol := p.toUpper, polIdx := positions (fun x => decide (x = p.toUpper)) f.pols }, none)
      else (s, some .valueError)

/-- Position of the item which is nearest to `x`, the first such one: `np.argmin(np.abs(l - x))` (bstdata.py:528, 591). -/
def nearest (l : List ℚ) (x : ℚ) : Nat :=
  argmax (fun i => - |l.getD i 0 - x|) l.length

/-- Positions chosen by one value or a list of bounds in an axis (bstdata.py:526-534, 590-597); `argmin` of nothing and a list which has not two bounds
are refused. -/
def chosenIn (l : List ℚ) : List ℚ ⊕ ℚ → Except Err (List Nat)
  | .inr x => if l = [] then .error .valueError else .ok [nearest l x]
  | .inl [a, b] => .ok (positions (fun t => decide (a ≤ t) && decide (t ≤ b)) l)
  | .inl _ => .error .valueError

/-- Setter of `timerange` (bstdata.py:523-547). -/
def setTime (f : File) (s : State) (t : List ℚ ⊕ ℚ) : Left :=
  match chosenIn f.times t with
  | .ok l => ({ s with timeIdx := l }, none)
  | .error e => (s, some e)

/-- Half of the width of a sub-band in MHz (bstdata.py:254, bst.py:161-163). -/
def halfWidth : ℚ := 1953125 / 20000000

/-- `freqs` (bstdata.py:243-255) of a beam, and `frequencies` (bst.py:150-163). -/
def beamFreqs (f : File) (d : Nat) : List ℚ := ((f.bea[d]?).map fun b => (b.freqs.take b.count).map fun x => x - halfWidth).getD []

/-- `beamlets` (bstdata.py:229-239) of a beam; bst.py:264-265. -/
def beamBeamlets (f : File) (d : Nat) : List Nat := ((f.bea[d]?).map fun b => b.beamlets.take b.count).getD []

/-- Items at given positions: `l[idx]`. Used for bstdata.py:284, 609. -/
def pickAt {α : Type} (l : List α) (idx : List Nat) : List α := idx.filterMap fun i => l[i]?

/-- Setter of `freqrange` (bstdata.py:585-610). -/
def setFreq (f : File) (s : State) (x : List ℚ ⊕ ℚ) : Left :=
  match chosenIn (beamFreqs f s.dbeam) x with
  | .ok l => ({ s with freqIdx := pickAt (beamBeamlets f s.dbeam) l }, none)
  | .error e => (s, some e)

/-- `freq` (bstdata.py:259-271): frequencies of the beamlets of the beam which are selected. -/
def freqOf (f : File) (s : State) : List ℚ :=
  ((beamBeamlets f s.dbeam).zip (beamFreqs f s.dbeam)).filterMap fun p => if p.1 ∈ s.freqIdx then some p.2 else none

/-- `SData` given by `select`: axes, and values by time, frequency and polarisation. Used for bstdata.py:643-648. -/
structure Selected where
  time : List ℚ
  freq : List ℚ
  pol : String
  value : List (List (List ℚ))
  deriving DecidableEq

/-- The values read with `np.ix_` after their axes are swapped (bstdata.py:636-644). -/
def readAt (f : File) (s : State) : List (List (List ℚ)) :=
  s.timeIdx.map fun t => s.freqIdx.map fun c => s.polIdx.map fun p => f.data t p c

/-- End of `select` (bstdata.py:636-648): a column out of the data is refused, and so are frequencies and values of different numbers (sdata.py:355-362). -/
def readState (f : File) (s : State) : Except Err Selected :=
  if s.freqIdx.any fun c => decide (f.cols ≤ c) then .error .indexError
  else if (freqOf f s).length ≠ s.freqIdx.length then .error .assertion
  else .ok ⟨pickAt f.times s.timeIdx, freqOf f s, s.pol, readAt f s⟩

/-- Arguments of `select`: each may be missing. Used for bstdata.py:615, 656-674. -/
structure Kwargs where
  dbeam : Option Given
  freq : Option (List ℚ ⊕ ℚ)
  time : Option (List ℚ ⊕ ℚ)
  pol : Option (Option String)

/-- A setter that is only called if its argument is given and no setter has raised before (bstdata.py:671-674). -/
def thenSet {α : Type} (set : State → α → Left) (x : Option α) (l : Left) : Left :=
  if l.2.isSome then l else (x.map fun v => set l.1 v).getD l

/-- `_fill_attr` (bstdata.py:653-675): beam, frequencies, times and polarisation in this order, whatever the order of the arguments. Names which
are not known are only warned about. -/
def fillAttr (f : File) (s : State) (k : Kwargs) : Left :=
  thenSet (setPolar f) k.pol (thenSet (setTime f) k.time (thenSet (setFreq f) k.freq (thenSet (setDbeam f) k.dbeam (s, none))))

/-- `select` (bstdata.py:615-648): the state left, and data or an exception. -/
def select (f : File) (s : State) (k : Kwargs) : State × Except Err Selected :=
  ((fillAttr f s k).1, ((fillAttr f s k).2.map Except.error).getD (readState f (fillAttr f s k).1))

/-- `__init__` (bstdata.py:112-120) for the limits `t0`, `t1`, `f0`, `f1` found in the file. -/
def start (f : File) (t0 t1 f0 f1 : ℚ) : Left :=
  thenSet (setFreq f) (some (.inl [f0, f1])) (thenSet (setTime f) (some (.inl [t0, t1])) (thenSet (setPolar f) (some (some "NW"))
    (thenSet (setDbeam f) (some (.int 0)) (⟨0, 0, "NW", [], [], []⟩, none))))

/-! ## What a file says of its beams -/

/-- `mas` (bstdata.py:189-199) of an analog beam; `mini_arrays` (bst.py:167-180). -/
def masOf (f : File) (a : Nat) : List Nat := ((f.ana[a]?).map fun r => r.mas.take r.used).getD []

/-- Rows of a beam (bst.py:127-128, 144-145). -/
def rowsOf (l : List Aim) (b : Nat) : List Aim := l.filter fun r => decide (r.beam = b)

/-- `analog_pointing` and `digital_pointing` (bst.py:115-146): times, azimuths and elevations. -/
def aimed (l : List Aim) (b : Nat) : List ℚ × List ℚ × List ℚ :=
  ((rowsOf l b).map Aim.time, (rowsOf l b).map Aim.az, (rowsOf l b).map Aim.el)

/-- `azana`, `elana` (bstdata.py:290-312): the last row of the table is left out. -/
def anaAims (f : File) (a : Nat) : List (ℚ × ℚ) := (rowsOf f.pan.dropLast a).map fun r => (r.az, r.el)

/-- Ranges of time of rows: each ends where the next one begins, the last one at a given time (bstdata.py:332-334, 381-383). -/
def ranges (rows : List Aim) (last : ℚ) : List (ℚ × ℚ) := (rows.map Aim.time).zip ((rows.map Aim.time).tail ++ [last])

/-- The ranges as an array of two columns (bstdata.py:332-334, 381-383): without a row, `np.vstack` is given no beginning and one end, and raises. -/
def stacked (rows : List Aim) (last : ℚ) : Except Err (List (ℚ × ℚ)) := if rows = [] then .error .valueError else .ok (ranges rows last)

/-- `utana` (bstdata.py:316-335); an empty table is refused (`[-1]`). -/
def utana (f : File) (a : Nat) : Except Err (List (ℚ × ℚ)) :=
  (f.pan.getLast?).elim (.error .indexError) fun r => stacked (rowsOf f.pan.dropLast a) r.time

/-- `utdig` (bstdata.py:365-384): the last range ends with the *analog* pointings. -/
def utdig (f : File) (d : Nat) : Except Err (List (ℚ × ℚ)) :=
  (f.pan.getLast?).elim (.error .indexError) fun r => stacked (rowsOf f.pbe d) r.time

/-! ## `BST` -/

/-- Setter of `BST.beam` (bst.py:194-201): the numbers equal to the index of a beam are accepted, whatever their type. -/
def checkBeam (f : File) : Given → Except Err Given
  | .int i => if 0 ≤ i ∧ i < f.bea.length then .ok (.int i) else .error .indexError
  | .real q => if ∃ i : Nat, i < f.bea.length ∧ q = i then .ok (.real q) else .error .indexError
  | .other => .error .indexError

/-- A number used as index of a table: only integers are. Used for bst.py:111, 160-162. -/
def indexOf : Given → Except Err Nat
  | .int i => .ok i.toNat
  | .real _ => .error .indexError
  | .other => .error .indexError

/-- `analog_beam` (bst.py:100-111), and the beam it is that of. -/
def analogBeam (f : File) (g : Given) : Except Err Nat :=
  (indexOf g).bind fun d => (f.bea[d]?).elim (.error .indexError) fun b => .ok b.ana

/-- `analog_pointing` (bst.py:115-129) of the current beam. -/
def analogPointing (f : File) (g : Given) : Except Err (List ℚ × List ℚ × List ℚ) := (analogBeam f g).map fun a => aimed f.pan a

/-- `digital_pointing` (bst.py:133-146): rows equal to the current beam, whatever its type. -/
def digitalPointing (f : File) : Given → List ℚ × List ℚ × List ℚ
  | .int i => aimed f.pbe i.toNat
  | .real q => ((f.pbe.filter fun r => decide ((r.beam : ℚ) = q)).map Aim.time, (f.pbe.filter fun r => decide ((r.beam : ℚ) = q)).map Aim.az,
      (f.pbe.filter fun r => decide ((r.beam : ℚ) = q)).map Aim.el)
  | .other => ([], [], [])

/-- Polarisation read by `get` (bst.py:274-280): an unknown one is replaced. -/
def polGot (f : File) (p : String) : String := if p ∈ f.pols then p else "NW"

/-- A slice given by `BST.get` (bst.py:290-303), its values by time, polarisation and frequency before `squeeze`. -/
structure Slice where
  time : List ℚ
  freq : List ℚ
  pol : String
  value : List (List (List ℚ))
  anaTimes : List ℚ
  digTimes : List ℚ
  deriving DecidableEq

/-- `BST.get` for an accepted beam `d` (bst.py:260-303). -/
def getBeam (f : File) (d : Nat) (b : Digital) (fsel tsel : ℚ → Bool) (p : String) : Except Err Slice :=
  if (pickAt (beamBeamlets f d) (positions fsel (beamFreqs f d))).any fun c => decide (f.cols ≤ c) then .error .indexError
  else .ok ⟨pickAt f.times (positions tsel f.times), pickAt (beamFreqs f d) (positions fsel (beamFreqs f d)), polGot f p,
    (positions tsel f.times).map (fun t => (positions (fun x => decide (x = polGot f p)) f.pols).map fun q =>
      (pickAt (beamBeamlets f d) (positions fsel (beamFreqs f d))).map fun c => f.data t q c),
    (aimed f.pan b.ana).1, (aimed f.pbe d).1⟩

/-- `BST.get` (bst.py:206-303): the current beam left, and a slice or an exception. `beam` is 0 unless it is given; `fsel` and `tsel` are the
conditions, parsed. -/
def get (f : File) (cur : Given) (beam : Option Given) (fsel tsel : ℚ → Bool) (p : String) : Given × Except Err Slice :=
  match checkBeam f (beam.getD (.int 0)) with
  | .error e => (cur, .error e)
  | .ok g => (g, (indexOf g).bind fun d => (f.bea[d]?).elim (.error .indexError) fun b => getBeam f d b fsel tsel p)

/-- Shape of an array after `np.squeeze` (bst.py:293). -/
def squeezed (shape : List Nat) : List Nat := shape.filter fun n => decide (n ≠ 1)

end Verif.Bst
