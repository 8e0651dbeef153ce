import Verif.Dyn.Clean
import Verif.Dyn.Model
import Verif.TF.Bandpass

/-!
# Correction of the sub-bands of dynamic spectra: `bp_correction` and `_bp_correct` of `nenupy/undysputed/dynspec.py`

Values are exact reals, `none` for values which are not finite (NaN, or a division by zero). `d t k` is the value at a time and a channel, for one polarisation.
-/

namespace Verif.Dyn

open Verif.TF (medianBy midReal bandpass)

/-- Corrections which may be asked (dynspec.py:868). -/
inductive BandMode
  | standard | median | none | adjusted
  deriving DecidableEq

/-- `bp_correction` setter (dynspec.py:867-876); the argument is `none` if it is not a string, and else the string in lower case. -/
def bandMode : Option String → Except Err BandMode
  | .none => .error .typeError
  | some b => if b = "standard" then .ok .standard else if b = "median" then .ok .median else if b = "none" then .ok .none
    else if b = "adjusted" then .ok .adjusted else .error .valueError

noncomputable section

open Classical in
/-- Quotient of two values. Used for dynspec.py:1619, 1626, 1628. -/
def ratioOf (a b : Option ℝ) : Option ℝ := a.bind fun x => b.bind fun y => if y = 0 then .none else some (x / y)

/-- `broadband`, `medianPerSubband` (dynspec.py:1615, 1625): level of sub-band `s`, from the spectrum. -/
def bandLevel (n : Nat) (spectrum : Nat → Option ℝ) (s : Nat) : Option ℝ := medianBy midReal ((List.range n).filterMap fun c => spectrum (s * n + c))

/-- Values of the "median" correction (dynspec.py:1609-1619). -/
def medianCorr (nt n : Nat) (d : Nat → Nat → Option ℝ) (t k : Nat) : Option ℝ :=
  ratioOf ((d t k).bind fun x => (bandLevel n (freqMed nt d) (k / n)).map fun b => x * b) (freqMed nt d k)

/-- `subbandProfile` (dynspec.py:1624-1627): median over the sub-bands of the channels of rank `c`. -/
def bandProfile (nt nf n : Nat) (d : Nat → Nat → Option ℝ) (c : Nat) : Option ℝ :=
  medianBy midReal ((List.range (nf / n)).filterMap fun s => ratioOf (freqMed nt d (s * n + c)) (bandLevel n (freqMed nt d) s))

/-- Values of the "adjusted" correction (dynspec.py:1621-1629). -/
def adjustedCorr (nt nf n : Nat) (d : Nat → Nat → Option ℝ) (t k : Nat) : Option ℝ := ratioOf (d t k) (bandProfile nt nf n d (k % n))

/-- `_bp_correct` (dynspec.py:1599-1632) for data of `np` polarisations, `d t k p`. The computation of the standard correction is the one of `get_bandpass` (dynspec.py:1577-1597),
where fewer than 16 channels or an odd number of them raise an error of numpy. -/
def bandCorrect (coeffs : List ℝ) (mode : BandMode) (nt nf np n : Nat) (d : Nat → Nat → Nat → Option ℝ) : Except Err (Nat → Nat → Nat → Option ℝ) :=
  mode.casesOn
    ((bandpass coeffs n).bind fun bp => if nf % n ≠ 0 then .error .valueError else .ok fun t k p => (d t k p).map fun x => x * bp.getD (k % n) 0)
    ((medianBandpass nf np n).map fun _ => fun t k p => medianCorr nt n (fun t k => d t k p) t k)
    (.ok d)
    (if n = 0 then .error .zeroDivision else if nf % n ≠ 0 then .error .valueError else .ok fun t k p => adjustedCorr nt nf n (fun t k => d t k p) t k)

end

end Verif.Dyn
