import Verif.TF.Rfi
import Mathlib.Analysis.SpecialFunctions.Exp

/-!
# Removal of interferences from dynamic spectra: `_background` and `_clean` of `nenupy/undysputed/dynspec.py`

Values are exact reals, `none` for NaN; `d t f` is the value at a time and a frequency for one polarisation.
-/

namespace Verif.Dyn

open Verif.TF (medianBy midReal stdOf)

noncomputable section

/-- `np.nanmedian(data, axis=0)` (dynspec.py:1667): the profile in frequency. -/
def freqMed (nt : Nat) (d : Nat → Nat → Option ℝ) (f : Nat) : Option ℝ := medianBy midReal ((List.range nt).filterMap fun t => d t f)

/-- `np.nanmedian(data, axis=1)` (dynspec.py:1683): the profile in time. -/
def timeMed (nf : Nat) (d : Nat → Nat → Option ℝ) (t : Nat) : Option ℝ := medianBy midReal ((List.range nf).filterMap fun f => d t f)

/-- `np.nanpercentile(profile, 90)` of values which are not NaN (dynspec.py:1668-1670, 1684-1686): linear between the two sorted values around the rank. -/
def pct90 (l : List ℝ) : Option ℝ :=
  (l.insertionSort (· ≤ ·))[9 * (l.length - 1) / 10]?.map fun a =>
    a + ((9 * (l.length - 1) % 10 : Nat) : ℝ) / 10 * (((l.insertionSort (· ≤ ·))[9 * (l.length - 1) / 10 + 1]?).getD a - a)

/-- Values of a profile over its percentile set to NaN (dynspec.py:1668-1671, 1684-1687). -/
def cutProfile (n : Nat) (p : Nat → Option ℝ) (i : Nat) : Option ℝ :=
  (pct90 ((List.range n).filterMap p)).elim (p i) fun th => (p i).filter fun x => decide (x ≤ th)

/-- `kernel_size` (dynspec.py:1672-1674, 1688-1690). -/
def kernelSize (n : Nat) : Nat := if (n + 4) / 5 % 2 = 0 then (n + 4) / 5 + 1 else (n + 4) / 5

/-- `Gaussian1DKernel(stddev=kernel_size / 8, x_size=kernel_size)`, up to its normalisation. Used for dynspec.py:1677, 1693. -/
def bell (k j : Nat) : ℝ := Real.exp (-((j : ℝ) - (k / 2 : Nat)) ^ 2 / (2 * ((k : ℝ) / 8) ^ 2))

/-- Rank of the value under the `j`-th point of the kernel centred on `i`: the profile is extended by its first and last values. Used for dynspec.py:1675-1680. -/
def under (n i j : Nat) : Nat := min (n - 1) (i + j - kernelSize n / 2)

/-- `convolve(profile, kernel, boundary='extend')` (dynspec.py:1675-1680, 1691-1696): NaN are left out of the weighted mean. -/
def smoothed (n : Nat) (p : Nat → Option ℝ) (i : Nat) : Option ℝ :=
  if ∀ j < kernelSize n, p (under n i j) = none then none
  else some ((∑ j ∈ Finset.range (kernelSize n), bell (kernelSize n) j * (p (under n i j)).getD 0) /
    ∑ j ∈ Finset.range (kernelSize n), (p (under n i j)).elim 0 fun _ => bell (kernelSize n) j)

/-- `np.nanmax` (dynspec.py:1700). -/
def nanTop (l : List ℝ) : Option ℝ := l.foldr (fun x acc => some (acc.elim x fun y => max x y)) none

/-- The two smooth profiles (dynspec.py:1667-1696). -/
def freqSmooth (nt nf : Nat) (d : Nat → Nat → Option ℝ) : Nat → Option ℝ := smoothed nf (cutProfile nf (freqMed nt d))
/-- Same in time (dynspec.py:1683-1696). -/
def timeSmooth (nt nf : Nat) (d : Nat → Nat → Option ℝ) : Nat → Option ℝ := smoothed nt (cutProfile nt (timeMed nf d))

open Classical in
/-- `_background` (dynspec.py:1655-1702). When the highest level is zero, the quotients are NaN or infinite, the standard deviation is NaN, and nothing is compared
with success: NaN here. -/
def background (nt nf : Nat) (d : Nat → Nat → Option ℝ) (t f : Nat) : Option ℝ :=
  (freqSmooth nt nf d f).bind fun a => (timeSmooth nt nf d t).bind fun b => (nanTop ((List.range nt).filterMap (timeSmooth nt nf d))).bind fun M =>
    if M = 0 then none else some (a * (b / M))

/-- Values of the background which are not NaN. Used for dynspec.py:1718. -/
def backValues (nt nf : Nat) (d : Nat → Nat → Option ℝ) : List ℝ :=
  (List.range nt).flatMap fun t => (List.range nf).filterMap fun f => background nt nf d t f

/-- `background + self.rfi_std_threshold * data_std` (dynspec.py:1718-1722). -/
def cleanLimit (nt nf : Nat) (d : Nat → Nat → Option ℝ) (s : ℝ) (t f : Nat) : Option ℝ :=
  (background nt nf d t f).map fun b => b + s * stdOf (backValues nt nf d)

open Classical in
/-- `_clean` (dynspec.py:1704-1732) for one polarisation. -/
def cleaned (nt nf : Nat) (s : ℝ) (d : Nat → Nat → Option ℝ) (t f : Nat) : Option ℝ :=
  if 0 < s then (cleanLimit nt nf d s t f).elim (d t f) fun lim => (d t f).filter fun x => !decide (lim < x) else d t f

/-- `_clean` (dynspec.py:1714-1730): polarisations one after the other. -/
def cleanAll (nt nf : Nat) (s : ℝ) (d : Nat → Nat → Nat → Option ℝ) (t f p : Nat) : Option ℝ := cleaned nt nf s (fun t f => d t f p) t f

end

end Verif.Dyn
