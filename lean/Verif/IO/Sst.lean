import Verif.IO.Slices
import Mathlib.Data.List.Sort

/-!
# Model of the sets of SST files: `nenupy/beamlet/sstdata.py`

File names are any linearly ordered type `F` (Python sorts texts); `base` is `os.path.basename`.
-/

namespace Verif.IO

/-- What is kept of a file (sstdata.py:639-650); `mas` and `allMas` are the sizes of the arrays `NenuFAR()[...]`. -/
structure SstProps where
  tMin : ℚ
  tMax : ℚ
  fMin : ℚ
  fMax : ℚ
  freqs : List ℚ
  polars : List (List Char)
  mas : Nat
  allMas : Nat
  deriving DecidableEq

/-- Extension 7 of a file (sstdata.py:593-608) after the exchange of axes: times, frequencies, polarisations, mini-arrays.
`nMa` is the length of the last axis. -/
structure SstContent where
  times : List ℚ
  data : List (List (List (List ℚ)))
  nMa : Nat
  deriving DecidableEq

/-- `SST_Data` (sstdata.py:206-215). `files` is `_filename`; `props` is the dictionary `obsProperties` in the order of its keys;
`pointed` tells that a pointing file is attached (`altazA` is not the empty list). -/
structure Sst (F : Type) where
  files : List F
  props : List (F × SstProps)
  auto : Bool
  all : Bool
  pointed : Bool
  freqRange : Option (List ℚ)
  timeRange : Option (List ℚ)
  ma : Option Int
  polar : Option (List Char)
  deriving DecidableEq

section
variable {F : Type} [LinearOrder F]

/-- `d[k] = v` on a dictionary. Used for sstdata.py:639-650. -/
def dictSet (d : List (F × SstProps)) (k : F) (v : SstProps) : List (F × SstProps) :=
  if k ∈ d.map Prod.fst then d.map fun p => if p.1 = k then (k, v) else p else d ++ [(k, v)]

/-- `{**a, **b}` (sstdata.py:250). -/
def dictMerge (a b : List (F × SstProps)) : List (F × SstProps) := b.foldl (fun d p => dictSet d p.1 p.2) a

/-- `d[k]`. Used for sstdata.py:574-577. -/
def dictGet (d : List (F × SstProps)) (k : F) : Except Err SstProps :=
  ((d.find? fun p => decide (p.1 = k)).map fun p => Except.ok p.2).getD (.error .keyError)

/-- Setter of the file names (sstdata.py:337-347): `isfile` are the files of the disk, `read` their properties (637-650). A missing file
raises `FileNotFoundError`. -/
def setFiles (isfile : F → Bool) (read : F → SstProps) (s : Sst F) (l : List F) : Except Err (Sst F) :=
  if l.all isfile then
    .ok { s with files := l, props := if s.auto then l.foldl (fun d f => dictSet d f (read f)) s.props else s.props }
  else .error .exception

/-- The constructor (sstdata.py:206-215), with no pointing file. -/
def openSst (isfile : F → Bool) (read : F → SstProps) (l : List F) (auto all : Bool) : Except Err (Sst F) :=
  setFiles isfile read ⟨[], [], auto, all, false, none, none, none, none⟩ l

/-- Getter of the file names (sstdata.py:321-336): sorted. -/
def Sst.names (s : Sst F) : List F := s.files.insertionSort (· ≤ ·)

/-- `__add__` (sstdata.py:243-252): the properties are not read again, the option `allMAs` is not passed on; a `Pointing` can be added
to nothing. -/
def addSst (isfile : F → Bool) (read : F → SstProps) (a b : Sst F) : Except Err (Sst F) :=
  (openSst isfile read (a.names ++ b.names) false false).bind fun n =>
    if a.pointed || b.pointed then .error .typeError else .ok { n with props := dictMerge a.props b.props }

/-- `sum` of a list (sstdata.py:255-259): `0 + x` is `x`. -/
def sumSst (isfile : F → Bool) (read : F → SstProps) : List (Sst F) → Option (Except Err (Sst F))
  | [] => none
  | x :: xs => some (xs.foldl (fun r y => r.bind fun a => addSst isfile read a y) (.ok x))

/-- One removal (sstdata.py:267-282): the first file and the first key with that base name. -/
def dropBase {B : Type} [DecidableEq B] (base : F → B) (st : List F × List (F × SstProps)) (x : B) : List F × List (F × SstProps) :=
  (st.1.eraseP fun f => decide (base f = x), st.2.eraseP fun p => decide (base p.1 = x))

/-- `__sub__` (sstdata.py:262-292): without a pointing file on the left the result has none; a `Pointing` on the left cannot be
subtracted from nor read again (`AttributeError` or `TypeError`). -/
def subSst {B : Type} [DecidableEq B] (base : F → B) (isfile : F → Bool) (read : F → SstProps) (a b : Sst F) : Except Err (Sst F) :=
  let st := (b.names.map base).foldl (dropBase base) (a.names, a.props)
  (openSst isfile read st.1 false false).bind fun n =>
    if a.pointed then (if b.pointed then .error .typeError else .error .attributeError) else .ok { n with props := st.2 }

/-- `min` of a list; the empty list raises. Used for sstdata.py:476-517. -/
def minOf : List ℚ → Except Err ℚ
  | [] => .error .valueError
  | x :: xs => .ok (xs.foldl min x)

/-- `max` of a list. Used for sstdata.py:476-517. -/
def maxOf : List ℚ → Except Err ℚ
  | [] => .error .valueError
  | x :: xs => .ok (xs.foldl max x)

/-- `tMin` (sstdata.py:485). -/
def Sst.tMin (s : Sst F) : Except Err ℚ := minOf (s.props.map fun p => p.2.tMin)

/-- `tMax` (sstdata.py:497). -/
def Sst.tMax (s : Sst F) : Except Err ℚ := maxOf (s.props.map fun p => p.2.tMax)

/-- `fMin` (sstdata.py:507). -/
def Sst.fMin (s : Sst F) : Except Err ℚ := minOf (s.props.map fun p => p.2.fMin)

/-- `fMax` (sstdata.py:517). -/
def Sst.fMax (s : Sst F) : Except Err ℚ := maxOf (s.props.map fun p => p.2.fMax)

/-! ## Selections -/

/-- `_intervalBoundaries` (sstdata.py:661-688) on lists of numbers. -/
def bounds (bd : List ℚ) : Except Err (List ℚ) :=
  let l := bd.insertionSort (· ≤ ·)
  if 2 < l.length then .error .indexError else if l.length = 1 then .ok (l ++ l) else .ok l

/-- `m in mas` for an object that has `__getitem__` and neither `__contains__` nor `__iter__` (interferometer.py:197-238): the items 0, 1, ...
are compared to `m` until one is equal; past the last one, `IndexError` ends the search and any other exception is raised. -/
def seqContains (equal : Nat → Bool) (endsWithIndexError : Bool) (size : Nat) : Except Err Bool :=
  if (List.range size).any equal then .ok true else if endsWithIndexError then .ok false else .error .exception

/-- `m in mas` for a sub-array: an integer is equal to no sub-array, and the end raises `AntennaIndexError`, which derives from `Exception`
(interferometer.py:76-90, 227-228). Used for sstdata.py:464-472. -/
def maIn (size : Nat) : Except Err Bool := seqContains (fun _ => false) false size

/-- `[m in mas for mas in ...]`: all items are evaluated first. Used for sstdata.py:464-472. -/
def maAll : List Nat → Except Err Bool
  | [] => .ok true
  | n :: ns => (maIn n).bind fun b => (maAll ns).map fun c => b && c

/-- Setter of the mini-array (sstdata.py:457-473). -/
def setMa (s : Sst F) (m : Int) : Except Err (Sst F) :=
  (maAll (s.props.map fun p => if s.all then p.2.allMas else p.2.mas)).bind fun b =>
    if b then .ok { s with ma := some m } else .error .indexError

/-- Getter of the mini-array (sstdata.py:444-456): the sub-array has no attribute `names`. -/
def getMa (s : Sst F) : Except Err Int :=
  (s.ma.map Except.ok).getD (if s.props = [] then .error .indexError else .error .attributeError)

/-- Setter of the polarisation (sstdata.py:430-441); `upper` is `str.upper`. -/
def setPolar (upper : List Char → List Char) (s : Sst F) (p : List Char) : Except Err (Sst F) :=
  if s.props.all fun q => decide (upper p ∈ q.2.polars) then .ok { s with polar := some (upper p) } else .error .indexError

/-- Getter of the polarisation (sstdata.py:417-429). -/
def getPolar (s : Sst F) : Except Err (List Char) :=
  (s.polar.map Except.ok).getD
    (((s.props.head?.bind fun q => q.2.polars.head?).map Except.ok).getD (.error .indexError))

/-- Getter of the frequency range (sstdata.py:393-405). -/
def getFreqRange (s : Sst F) : Except Err (List ℚ) :=
  (s.freqRange.map Except.ok).getD (s.fMin.bind fun a => s.fMax.map fun b => [a, b])

/-- Getter of the time range (sstdata.py:369-381). -/
def getTimeRange (s : Sst F) : Except Err (List ℚ) :=
  (s.timeRange.map Except.ok).getD (s.tMin.bind fun a => s.tMax.map fun b => [a, b])

/-- One keyword of `select` (sstdata.py:535-561); other keywords are ignored. `none` is `None`. -/
inductive SstArg
  | freqRange (v : Option (List ℚ))
  | timeRange (v : Option (List ℚ))
  | ma (m : Int)
  | polar (p : List Char)
  | other

/-- `setattr(self, key, val)` (sstdata.py:559-561, 382-390, 406-414). -/
def setArg (upper : List Char → List Char) (s : Sst F) : SstArg → Except Err (Sst F)
  | .freqRange (some l) => (bounds l).map fun r => { s with freqRange := some r }
  | .freqRange none => (s.fMin.bind fun a => s.fMax.bind fun b => bounds [a, b]).map fun r => { s with freqRange := some r }
  | .timeRange (some l) => (bounds l).map fun r => { s with timeRange := some r }
  | .timeRange none => (s.tMin.bind fun a => s.tMax.bind fun b => bounds [a, b]).map fun r => { s with timeRange := some r }
  | .ma m => setMa s m
  | .polar p => setPolar upper s p
  | .other => .ok s

/-- All keywords in turn (sstdata.py:559-561). -/
def setArgs (upper : List Char → List Char) : Sst F → List SstArg → Except Err (Sst F)
  | s, [] => .ok s
  | s, a :: as => (setArg upper s a).bind fun t => setArgs upper t as

/-- Items kept by a mask. Used for sstdata.py:608-613. -/
def keepMask {α : Type} (mask : List Bool) (l : List α) : List α := ((mask.zip l).filter Prod.fst).map Prod.snd

/-- Mask of an axis (sstdata.py:583-602): the nearest item when both bounds are the same, the items between the bounds otherwise. -/
def axisMask (l : List ℚ) (lo hi : ℚ) : Except Err (List Bool) :=
  if lo = hi then
    (if l = [] then .error .valueError
     else .ok ((List.range l.length).map fun i => decide (i = argmax (fun j => -|l.getD j 0 - lo|) l.length)))
  else .ok (l.map fun x => decide (lo ≤ x) && decide (x ≤ hi))

/-- `[..., m]` on the last axis of length `n`. Used for sstdata.py:610. -/
def lastIndex (n : Nat) (m : Int) : Except Err Nat :=
  if 0 ≤ m ∧ m < n then .ok m.toNat else if m < 0 ∧ 0 ≤ m + n then .ok (m + n).toNat else .error .indexError

/-- Data of one file (sstdata.py:582-614). -/
def fileData (p : SstProps) (c : SstContent) (t0 t1 f0 f1 : ℚ) (pol : List Char) (m : Int) : Except Err SData :=
  (axisMask p.freqs f0 f1).bind fun fm =>
    (axisMask c.times t0 t1).bind fun tm =>
      (lastIndex c.nMa m).bind fun k =>
        mkSData (keepMask tm c.times) (keepMask fm p.freqs) (keepMask (p.polars.map fun x => decide (x = pol)) p.polars)
          ((keepMask tm c.data).map fun row => (keepMask fm row).map fun cell =>
            (keepMask (p.polars.map fun x => decide (x = pol)) cell).map fun mas => mas.getD k 0)

/-- One step of the loop over files (sstdata.py:572-621). -/
def fileStep (content : F → SstContent) (props : List (F × SstProps)) (t0 t1 f0 f1 : ℚ) (pol : List Char) (m : Int) (acc : Option SData)
    (f : F) : Except Err (Option SData) :=
  (dictGet props f).bind fun p =>
    if sstSkipped t0 t1 f0 f1 p.tMin p.tMax p.fMin p.fMax then .ok acc
    else
      (fileData p (content f) t0 t1 f0 f1 pol m).bind fun d =>
        acc.elim (.ok (some d)) fun s => (sdataOr s d).map some

/-- The loop over files (sstdata.py:572-621). -/
def fileLoop (content : F → SstContent) (props : List (F × SstProps)) (t0 t1 f0 f1 : ℚ) (pol : List Char) (m : Int) :
    Option SData → List F → Except Err (Option SData)
  | acc, [] => .ok acc
  | acc, f :: fs => (fileStep content props t0 t1 f0 f1 pol m acc f).bind fun r => fileLoop content props t0 t1 f0 f1 pol m r fs

/-- Both bounds of a range (an empty range always raises here, even if the first comparisons decide). Used for sstdata.py:574-577. -/
def pairOf (l : List ℚ) : Except Err (ℚ × ℚ) :=
  (((l[0]?).bind fun a => (l[1]?).map fun b => (a, b)).map Except.ok).getD (.error .indexError)

/-- `select` (sstdata.py:535-627). -/
def selectSst (upper : List Char → List Char) (content : F → SstContent) (s : Sst F) (args : List SstArg) : Except Err (Option SData) :=
  (setArgs upper s args).bind fun s =>
    (getFreqRange s).bind fun fr =>
      (getTimeRange s).bind fun tr =>
        (getMa s).bind fun m =>
          (getPolar s).bind fun pol =>
            if s.names = [] then .ok none
            else
              (pairOf tr).bind fun t => (pairOf fr).bind fun f => fileLoop content s.props t.1 t.2 f.1 f.2 pol m none s.names

end

end Verif.IO
