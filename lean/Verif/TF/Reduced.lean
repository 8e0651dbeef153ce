import Verif.Common.Prelude
import Mathlib.Algebra.Order.Round
import Mathlib.Algebra.Order.Ring.Rat
import Mathlib.Data.Rat.Floor
import Mathlib.Data.List.Sort
import Mathlib.Data.String.Basic

/-!
# Files of reduced data (nenupy/io/tf_utils.py)

`store_dask_tf_data` and `ReducedSpectra`. A file is what h5py keeps in it: the attributes of the whole file and the groups of the
beams; `none` is a file which does not exist. The beam groups `BEAM_000`… are named by their numbers (different numbers have
different names). Values are of any type `V`; arrays are functions with their sizes.
-/

namespace Verif.TF

/-- Double closest to a Julian date between 2097152 and 4194304, that is from year 1029 to 6771: a multiple of 2⁻³¹ day. Used for
tf_utils.py:2450 (`time.jd`); IEEE rounds ties to even, `round` upwards. -/
def jdFloat (x : ℚ) : ℚ := (round (x * 2147483648) : ℚ) / 2147483648

/-- Item of a beam group: a dataset of `nt` times and `nf` frequencies, or a group of datasets (made by h5py for names with a `/`). Used
for tf_utils.py:2463-2480. -/
inductive Node (V : Type) where
  | data (nt nf : Nat) (v : Nat → Nat → V)
  | group (members : List (String × (Nat × Nat × (Nat → Nat → V))))

/-- A beam group (tf_utils.py:2440-2456): coordinates and datasets in order of creation; `freq`: in the unit written with it. -/
structure BeamGroup (V : Type) where
  time : List ℚ
  freq : List ℚ
  unit : String
  items : List (String × Node V)

/-- Attributes of the file (tf_utils.py:2411-2423): first and last times, lowest and highest frequencies, unit. -/
structure FileHeader where
  start : ℚ
  stop : ℚ
  fmin : ℚ
  fmax : ℚ
  unit : String

/-- A file; `sub`: the group `SUB_ARRAY_POINTING_000`. Used for tf_utils.py:2400-2431. -/
structure H5 (V : Type) where
  header : Option FileHeader
  sub : Option (List (Nat × BeamGroup V))

/-- Names of the polarisations: a list, or a text whose items are its characters. Used for tf_utils.py:2464. -/
inductive Pols where
  | text (s : String)
  | names (l : List String)

/-- `polarization[pi]` (tf_utils.py:2464). -/
def Pols.item : Pols → Nat → Option String
  | .text s, i => s.toList[i]?.map fun c => String.ofList [c]
  | .names l, i => l[i]?

/-- Characters after the last `/`, and the ones before it if there is a `/`. Used for `rsplit` of h5py at tf_utils.py:2470. -/
def splitName (s : String) : Option String × String :=
  if s.toList.contains '/' then
    (some (String.ofList ((s.toList.reverse.dropWhile (· ≠ '/')).tail.reverse)), String.ofList (s.toList.reverse.takeWhile (· ≠ '/')).reverse)
  else (none, s)

/-- `create_dataset` for a name without `/` (tf_utils.py:2470-2472): a name in use is refused. -/
def addPlain {V : Type} (items : List (String × Node V)) (name : String) (nt nf : Nat) (v : Nat → Nat → V) :
    Except Err (List (String × Node V)) :=
  if name = "COORDINATES" ∨ name ∈ items.map Prod.fst then .error .valueError else .ok (items ++ [(name, .data nt nf v)])

/-- `create_dataset` in the group `g` (tf_utils.py:2470-2472), for the item of this name: a dataset is refused. -/
def addIn {V : Type} (items : List (String × Node V)) (g name : String) (nt nf : Nat) (v : Nat → Nat → V) :
    Option (Node V) → Except Err (List (String × Node V))
  | none => .ok (items ++ [(g, .group [(name, nt, nf, v)])])
  | some (.data _ _ _) => .error .typeError
  | some (.group ms) =>
    if name ∈ ms.map Prod.fst then .error .valueError
    else .ok (items.map fun x => if x.1 = g then (g, .group (ms ++ [(name, nt, nf, v)])) else x)

/-- `create_dataset` (tf_utils.py:2470-2472): the part of the name before the last `/` is a group, made if needed. -/
def addNode {V : Type} (items : List (String × Node V)) (name : String) (nt nf : Nat) (v : Nat → Nat → V) :
    Except Err (List (String × Node V)) :=
  (splitName name).1.elim (addPlain items (splitName name).2 nt nf v)
    fun g => addIn items g (splitName name).2 nt nf v (items.lookup g)

/-- Step of the loop on polarisations (tf_utils.py:2463-2480), with what is in the file when it fails. -/
def storePol {V : Type} (pols : Pols) (nt nf : Nat) (data : Nat → Nat → Nat → V) (acc : List (String × Node V) × Option Err) (pi : Nat) :
    List (String × Node V) × Option Err :=
  acc.2.elim
    ((pols.item pi).elim (acc.1, some .indexError) fun name =>
      (addNode acc.1 name.toUpper nt nf fun t f => data t f pi).casesOn (fun e => (acc.1, some e)) fun l => (l, none))
    fun e => (acc.1, some e)

/-- The loop on polarisations (tf_utils.py:2463-2480). -/
def storePols {V : Type} (pols : Pols) (nt nf np : Nat) (data : Nat → Nat → Nat → V) : List (String × Node V) × Option Err :=
  (List.range np).foldl (storePol pols nt nf data) ([], none)

/-- Input of `store_dask_tf_data`: data with its sizes, times (Julian days), frequencies (Hz), names. Used for tf_utils.py:2283-2294. -/
structure ToStore (V : Type) where
  nt : Nat
  nf : Nat
  np : Nat
  data : Nat → Nat → Nat → V
  time : List ℚ
  freq : List ℚ
  pols : Pols
  beam : Nat

/-- Lowest value. Used for tf_utils.py:2397. -/
def lowest (l : List ℚ) : ℚ := l.foldr min (l.headD 0)

/-- Highest value. Used for tf_utils.py:2398. -/
def highest (l : List ℚ) : ℚ := l.foldr max (l.headD 0)

/-- FileHeader of a new file (tf_utils.py:2406-2423); `k`: hertz per unit. -/
def headerOf {V : Type} (x : ToStore V) (unit : String) (k : ℚ) : FileHeader :=
  ⟨x.time.headD 0, x.time.getLastD 0, lowest x.freq / k, highest x.freq / k, unit⟩

/-- The beam group written (tf_utils.py:2440-2480), and the error which stops the writing. -/
def beamOf {V : Type} (x : ToStore V) (unit : String) (k : ℚ) : BeamGroup V × Option Err :=
  (⟨x.time.map jdFloat, x.freq.map (· / k), unit, (storePols x.pols x.nt x.nf x.np x.data).1⟩, (storePols x.pols x.nt x.nf x.np x.data).2)

/-- Result of an optional error. Used for tf_utils.py:2400. -/
def asResult : Option Err → Except Err Unit
  | none => .ok ()
  | some e => .error e

/-- Writing in a file open in mode `a` (tf_utils.py:2429-2435, 2440-2480). -/
def appendBeam {V : Type} (file : H5 V) (x : ToStore V) (unit : String) (k : ℚ) : H5 V × Except Err Unit :=
  file.sub.elim (file, .error .keyError) fun beams =>
    if x.beam ∈ beams.map Prod.fst then (file, .error .exception)
    else ({ file with sub := some (beams ++ [(x.beam, (beamOf x unit k).1)]) }, asResult (beamOf x unit k).2)

/-- Writing in a new file (tf_utils.py:2403-2427, 2440-2480). -/
def newFile {V : Type} (x : ToStore V) (unit : String) (k : ℚ) : H5 V × Except Err Unit :=
  (⟨some (headerOf x unit k), some [(x.beam, (beamOf x unit k).1)]⟩, asResult (beamOf x unit k).2)

/-- `auto` (tf_utils.py:2390-2394). -/
def realMode {V : Type} (file : Option (H5 V)) (mode : String) : String :=
  if mode.toLower = "auto" then (if file.isSome then "a" else "w") else mode

/-- `h5py.File(file_name, mode)` and what follows (tf_utils.py:2400-2480); `r` and `r+` need a file, `x` and `w-` refuse one, and
all four end in the error of line 2438. -/
def storeIn {V : Type} (file : Option (H5 V)) (mode : String) (x : ToStore V) (unit : String) (k : ℚ) : Option (H5 V) × Except Err Unit :=
  if mode = "w" then (some (newFile x unit k).1, (newFile x unit k).2)
  else if mode = "a" then
    (some (appendBeam (file.getD ⟨none, none⟩) x unit k).1, (appendBeam (file.getD ⟨none, none⟩) x unit k).2)
  else if mode = "r" ∨ mode = "r+" then (file, .error (if file.isSome then .keyError else .exception))
  else if mode = "x" ∨ mode = "w-" then
    if file.isSome then (file, .error .exception) else (some ⟨none, none⟩, .error .keyError)
  else (file, .error .valueError)

/-- `store_dask_tf_data` (tf_utils.py:2388-2480): state of the file afterwards, and result. `units`: hertz per unit, for known
units. Empty axes stop it before the file is open (`frequency.min()`) or, for times, once it is: only the former is refused here. -/
def store {V : Type} (units : String → Option ℚ) (file : Option (H5 V)) (name mode unit : String) (x : ToStore V) :
    Option (H5 V) × Except Err Unit :=
  if List.isSuffixOf ".hdf5".toList name.toLower.toList = false then (file, .error .valueError)
  else (units unit).elim (file, .error .valueError) fun k =>
    if x.freq = [] then (file, .error .valueError) else storeIn file (realMode file mode) x unit k

/-- `Spectra.get` towards a file (tf.py:1468-1478); `stokes`: the parameter if the Stokes task is in the pipeline. -/
def saveFrom {V : Type} (units : String → Option ℚ) (file : Option (H5 V)) (name : String) (stokes : Option Pols) (overwrite : Bool)
    (x : ToStore V) : Option (H5 V) × Except Err Unit :=
  store units file name (if overwrite then "w" else "auto") "MHz" { x with pols := stokes.getD (.names ["XX", "XY", "YX", "YY"]) }

/-! ## Reading -/

/-- What numpy makes of an item: the values of a dataset, the names of a group (an iterable of texts). Used for tf_utils.py:3333. -/
inductive Stacked (V : Type) where
  | values (nt nf : Nat) (v : Nat → Nat → Nat → V)
  | texts (names : List (List String))

/-- Shape of an item as an array. Used for tf_utils.py:3333. -/
def Node.shape {V : Type} : Node V → List Nat
  | .data nt nf _ => [nt, nf]
  | .group ms => [ms.length]

/-- Value of a dataset. Used for tf_utils.py:3333. -/
def Node.value {V : Type} (d : V) : Node V → Nat → Nat → V
  | .data _ _ v => v
  | .group _ => fun _ _ => d

/-- Names in a group, in order. Used for tf_utils.py:3333. -/
def Node.texts {V : Type} : Node V → List String
  | .data _ _ _ => []
  | .group ms => (ms.map Prod.fst).insertionSort (· ≤ ·)

/-- The stack of items of the shape of the first (tf_utils.py:3333). `d`: out of bounds. -/
def stackFrom {V : Type} (d : V) (l : List (Node V)) : Node V → Stacked V
  | .data nt nf _ => .values nt nf fun t f p => (l.map fun n => n.value d t f).getD p d
  | .group _ => .texts (l.map Node.texts)

/-- `np.stack(…, axis=-1)` (tf_utils.py:3333): nothing to stack, or different shapes, is refused. -/
def stack {V : Type} (d : V) (l : List (Node V)) : Except Err (Stacked V) :=
  l.head?.elim (.error .valueError) fun n =>
    if l.any fun m => decide (m.shape ≠ n.shape) then .error .valueError else .ok (stackFrom d l n)

/-- Result of `ReducedSpectra.get`. Used for tf_utils.py:3333. -/
structure Reduced (V : Type) where
  time : List ℚ
  freq : List ℚ
  pol : List String
  data : Stacked V

/-- Datasets chosen (tf_utils.py:3315-3328): h5py lists the names in order. -/
def chosen {V : Type} (b : BeamGroup V) (key : Option String) : Except Err (List String) :=
  key.elim (.ok ((b.items.map Prod.fst).insertionSort (· ≤ ·))) fun k =>
    if k ∈ b.items.map Prod.fst then .ok [k] else .error .keyError

/-- Reading of a beam group (tf_utils.py:3315-3333). -/
def readBeam {V : Type} (units : String → Option ℚ) (d : V) (b : BeamGroup V) (key : Option String) : Except Err (Reduced V) :=
  (chosen b key).bind fun names =>
    (units b.unit).elim (.error .valueError) fun k =>
      (stack d (names.filterMap fun n => b.items.lookup n)).map fun s => ⟨b.time, b.freq.map (· * k), names, s⟩

/-- `ReducedSpectra.get` (tf_utils.py:3310-3333), with the unit of the beam; `sub`: number of the analog beam, 0 in all files written here. -/
def getReduced {V : Type} (units : String → Option ℚ) (d : V) (file : H5 V) (sub beam : Nat) (key : Option String) : Except Err (Reduced V) :=
  if sub = 0 then
    (file.sub.bind fun beams => beams.lookup beam).elim (.error .keyError) fun b => readBeam units d b key
  else .error .keyError

end Verif.TF
