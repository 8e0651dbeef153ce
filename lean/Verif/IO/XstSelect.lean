import Verif.Common.Prelude

/-!
# Axes of the slices of cross-correlations (nenupy/io/xst.py)

`XST` files hold a table of sub-bands, one row for each time (io_tools.py:131-133): `frequencies` has two dimensions. Those of `NenufarTV` have one (xst.py:2172-2197).
Times and frequencies are rational numbers. Selections are given by what they keep (io_tools.py:140-176). There is at least one mini-array. Floats are exact.
-/

namespace Verif.IO

/-- What a slice says of its values (xst.py:124-127): axes, the two first dimensions of the values, and the place in the file (time and column) of each of them. -/
structure XSlice where
  /-- times -/
  time : List ℚ
  /-- frequencies, `frequency.ravel()` -/
  freq : List ℚ
  /-- first dimension of the values -/
  nt : Nat
  /-- second dimension of the values -/
  nf : Nat
  /-- place in the file of a value -/
  src : Nat → Nat → Option (Nat × Nat)

/-- Item `[t, k]` of `time_freq_mask` (xst.py:1196) for a table of frequencies. -/
def bothMask (time : List ℚ) (freq : Nat → List ℚ) (tsel fsel : ℚ → Bool) (t k : Nat) : Bool := tsel (time.getD t 0) && fsel ((freq t).getD k 0)

/-- `self.data[time_freq_mask]` (xst.py:1214, 1232): the places where the mask is true, in the order of numpy. The table has `w` columns. -/
def maskCells (n w : Nat) (m : Nat → Nat → Bool) : List (Nat × Nat) :=
  (List.range n).flatMap fun t => ((List.range w).filter fun k => m t k).map fun k => (t, k)

/-- `np.any(time_freq_mask, axis=1).sum()` (xst.py:1204). -/
def maskTimes (n w : Nat) (m : Nat → Nat → Bool) : Nat := ((List.range n).filter fun t => (List.range w).any fun k => m t k).length

/-- `np.any(time_freq_mask, axis=0).sum()` (xst.py:1205). -/
def maskFreqs (n w : Nat) (m : Nat → Nat → Bool) : Nat := ((List.range w).filter fun k => (List.range n).any fun t => m t k).length

/-- End of `get` and `get_stokes` (xst.py:749-759, 925-940) with the reshape of `_get` (xst.py:1232-1234), for XX, YX and YY. `freqs` is `self.frequencies[frequency_mask]`. -/
def sliceOf (time : List ℚ) (w : Nat) (tsel : ℚ → Bool) (m : Nat → Nat → Bool) (freqs : List ℚ) : Except Err XSlice :=
  if (maskCells time.length w m).length = maskTimes time.length w m * maskFreqs time.length w m then
    .ok ⟨time.filter tsel, freqs, maskTimes time.length w m, maskFreqs time.length w m,
      fun i j => (maskCells time.length w m)[i * maskFreqs time.length w m + j]?⟩
  else .error .valueError

/-- `XST.get` (xst.py:745-759): a mask of two dimensions takes the items of the table one after the other, for all the times of the file. -/
def xstGet (time : List ℚ) (table : List (List ℚ)) (w : Nat) (tsel fsel : ℚ → Bool) : Except Err XSlice :=
  sliceOf time w tsel (bothMask time (fun t => table.getD t []) tsel fsel) (table.flatten.filter fsel)

/-- `NenufarTV.get` (xst.py:745-759), for frequencies of one dimension. -/
def tvGet (time freqs : List ℚ) (tsel fsel : ℚ → Bool) : Except Err XSlice :=
  sliceOf time freqs.length tsel (bothMask time (fun _ => freqs) tsel fsel) (freqs.filter fsel)

/-- Two dimensions of numpy arrays which are multiplied. Used for xst.py:453-459, 1049. -/
def joined (a b : Nat) : Except Err Nat := if a = b ∨ b = 1 then .ok a else if a = 1 then .ok b else .error .valueError

/-- `make_image` without a phase centre (xst.py:416-417, 453-459): number of frequencies over which the mean is made; the phases have one for each frequency of the slice,
the visibilities one for each of the values. -/
def imageFreqs (s : XSlice) : Except Err Nat := joined s.nf s.freq.length

/-- `make_image` with a phase centre (xst.py:407, 453): the values are first multiplied by the matrix of `rephase_visibilities` (xst.py:315-320). -/
def imageFreqsAt (s : XSlice) : Except Err Nat := (joined s.nf s.freq.length).bind fun k => joined k s.freq.length

/-- `vis_matrix[:, :, tri_x, tri_y] = vis` of `get_beamform` (xst.py:1040-1049): the values are repeated if they have one frequency. The number of frequencies of the result. -/
def beamformFreqs (s : XSlice) : Except Err Nat := if s.nf = s.freq.length ∨ s.nf = 1 then .ok s.freq.length else .error .valueError

/-- `wavelength(self.frequencies[0, :])` of `rephase` (xst.py:830), for a table. -/
def rephaseAxis (table : List (List ℚ)) : Except Err (List ℚ) := (table.head?).elim (.error .indexError) .ok

/-- `self.frequencies[0, :]` (xst.py:830) for frequencies of one dimension, those of `NenufarTV`. -/
def rephaseAxisTv (_freqs : List ℚ) : Except Err (List ℚ) := .error .indexError

end Verif.IO
