import Verif.Bst.Model

/-!
# Model of the selections of mini-array statistics (nenupy/io/sst.py)
-/

namespace Verif.Bst

open Verif

/-- What `SST` reads of a file (sst.py:60-94): times, frequencies (the first row of `frq`), mini-arrays (the first row of `noMR`, or `noMR` itself),
polarisations (the first row of `spol`), and the data by positions of time, mini-array, polarisation and frequency. -/
structure SstRec where
  times : List ℚ
  freqs : List ℚ
  minis : List Int
  pols : List String
  data : Nat → Nat → Nat → Nat → ℚ

/-- `SST.mini_arrays` (sst.py:82-94): the first row of a table, or the list itself where the table has a single dimension (the files of distant
mini-arrays); a table without rows is an error that is caught as well, and gives an empty list. -/
def minisOf (noMR : List (List Int) ⊕ List Int) : List Int := noMR.elim (fun rows => rows.headD []) id

/-- `ma_mask`, as positions (sst.py:164). -/
def miniAt (f : SstRec) (m : Int) : List Nat := positions (fun x => decide (x = m)) f.minis

/-- Polarisation read by `SST.get` (sst.py:175-180): an unknown one is replaced. -/
def sstPol (f : SstRec) (p : String) : String := if p ∈ f.pols then p else "NW"

/-- `SST.get` (sst.py:152-201): a slice or an exception; `fsel` and `tsel` are the conditions, parsed. The slice is built without `polarization` and
without times of pointings, which take their defaults (sst.py:190-201, io_tools.py:229-242). -/
def sstGet (f : SstRec) (m : Int) (fsel tsel : ℚ → Bool) (p : String) : Except Err Slice :=
  if (miniAt f m).length = 0 then .error .valueError
  else if (miniAt f m).length ≠ 1 then .error .indexError
  else .ok ⟨pickAt f.times (positions tsel f.times), pickAt f.freqs (positions fsel f.freqs), "NW",
    (positions tsel f.times).map (fun t => (miniAt f m).flatMap fun a => (positions (fun x => decide (x = sstPol f p)) f.pols).map fun q =>
      (positions fsel f.freqs).map fun c => f.data t a q c),
    [], []⟩

end Verif.Bst
