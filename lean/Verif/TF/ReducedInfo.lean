import Verif.TF.Reduced

/-!
# What a file of reduced data tells about itself (nenupy/io/tf_utils.py, `ReducedSpectra.info` and `__getitem__`)

The text is described by what it says: the numbers of the analog and digital beams, the names of the datasets and their sizes. The
attributes printed with `condense=False` are left out. h5py lists the names of a group in alphabetical order.
-/

namespace Verif.TF

/-- A number written with three digits at least (`:03`). Used for tf_utils.py:2401. -/
def threeDigits (n : Nat) : List Char := List.replicate (3 - (Nat.toDigits 10 n).length) '0' ++ Nat.toDigits 10 n

/-- Name of the group of a digital beam (tf_utils.py:2401, 3311). -/
def beamKey (n : Nat) : String := String.ofList ("BEAM_".toList ++ threeDigits n)

/-- Name of the group of the analog beam (tf_utils.py:2426, 3310). -/
def pointingKey : String := "SUB_ARRAY_POINTING_000"

/-- `int(name.split('_')[-1])` (tf_utils.py:3264, 3274), for names which end with digits. -/
def idOf (name : String) : Nat := Nat.ofDigitChars 10 (name.toList.reverse.takeWhile (· ≠ '_')).reverse 0

/-- `.shape` of an item (tf_utils.py:3277): groups have none. -/
def Node.size {V : Type} : Node V → Except Err (Nat × Nat)
  | .data nt nf _ => .ok (nt, nf)
  | .group _ => .error .attributeError

/-- A line of the list of datasets (tf_utils.py:3277); `COORDINATES` is a group. -/
def datasetLine {V : Type} (b : BeamGroup V) (name : String) : Except Err (String × Nat × Nat) :=
  if name = "COORDINATES" then .error .attributeError
  else ((b.items.lookup name).elim (.error .keyError) Node.size).map fun s => (name, s)

/-- Names in a beam group, as h5py lists them (tf_utils.py:3276). -/
def beamNames {V : Type} (b : BeamGroup V) : List String := ("COORDINATES" :: b.items.map Prod.fst).insertionSort (· ≤ ·)

/-- Lines of a list, the first which fails stops it. Used for tf_utils.py:3262-3277. -/
def allOk {α β : Type} (f : α → Except Err β) : List α → Except Err (List β)
  | [] => .ok []
  | a :: l => (f a).bind fun b => (allOk f l).map fun r => b :: r

/-- Datasets of a beam (tf_utils.py:3276-3277): all names but the first. -/
def beamLines {V : Type} (b : BeamGroup V) : Except Err (List (String × Nat × Nat)) := allOk (datasetLine b) (beamNames b).tail

/-- A digital beam (tf_utils.py:3272-3277). -/
def beamInfo {V : Type} (b : Nat × BeamGroup V) : Except Err (Nat × List (String × Nat × Nat)) :=
  (beamLines b.2).map fun l => (idOf (beamKey b.1), l)

/-- Digital beams in the order of their names (tf_utils.py:3270). -/
def inOrder {V : Type} (beams : List (Nat × BeamGroup V)) : List (Nat × BeamGroup V) :=
  beams.insertionSort fun a b => beamKey a.1 ≤ beamKey b.1

/-- `ReducedSpectra.info` (tf_utils.py:3250-3283): for each analog beam its number and its digital beams. -/
def fileInfo {V : Type} (file : H5 V) : Except Err (List (Nat × List (Nat × List (String × Nat × Nat)))) :=
  file.sub.elim (.ok []) fun beams => (allOk beamInfo (inOrder beams)).map fun l => [(idOf pointingKey, l)]

/-- `ReducedSpectra[…]` (tf_utils.py:3198-3213): two numbers are expected. -/
def itemAt {V : Type} (units : String → Option ℚ) (d : V) (file : H5 V) : List Nat → Except Err (Reduced V)
  | [a, b] => getReduced units d file a b none
  | _ => .error .indexError

end Verif.TF
