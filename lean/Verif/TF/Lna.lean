import Verif.TF.Bandpass

/-!
# Correction of the sub-bands: `correct_bandpass` and `bandpass_correction_coefficients` of `nenupy/io/tf_utils.py`

Values are exact reals; `d t k` is the value at a time and a channel for one of the four polarisations.
-/

namespace Verif.TF

noncomputable section

/-- `sigmoid` (tf_utils.py:283-284). -/
def sigmoid (x a b c k : ℝ) : ℝ := b / (1 + Real.exp (k * (x - a))) + c

/-- `non_constant_sigmoid` (tf_utils.py:289-290). -/
def slantedSigmoid (x a b c k d : ℝ) : ℝ := b / (1 + Real.exp (k * (x - a))) + c + d * x

/-- `to_fit_sig_sig` (tf_utils.py:292-298). -/
def fitSig (x threshold a b c k a2 b2 c2 k2 d2 : ℝ) : ℝ := if x < threshold then sigmoid x a b c k else slantedSigmoid x a2 b2 c2 k2 d2

/-- `to_fit_const_sig` (tf_utils.py:300-306). -/
def fitConst (x threshold a a2 b2 c2 k2 d2 : ℝ) : ℝ := if x < threshold then a else slantedSigmoid x a2 b2 c2 k2 d2

/-- Filters of the low-noise amplifiers which are known (tf_utils.py:276). -/
inductive Lna
  | f0 | f1 | f2 | f3
  deriving DecidableEq

/-- `lna_filter not in [0, 1, 2, 3]` (tf_utils.py:276-280). -/
def lnaOf (k : Int) : Except Err Lna :=
  if k = 0 then .ok .f0 else if k = 1 then .ok .f1 else if k = 2 then .ok .f2 else if k = 3 then .ok .f3 else .error .valueError

/-- `slope_coefficients` at a frequency in MHz (tf_utils.py:308-328). -/
def lnaSlope : Lna → ℝ → ℝ
  | .f0, x => fitConst x 50 1.03693912 88.9487679 1.02863838 0.0909061184 0.381796685 (-0.00162453382)
  | .f1, x => fitConst x 50 1.03621147 86.4336414 0.527969788 0.595808501 0.422370139 (-0.00170520031)
  | .f2, x => fitSig x 50 13.0641911 0.584742703 0.451767374 (-1.02227093) 88.8508007 1.06722835 0.0550610398 0.392651498 (-0.00166074012)
  | .f3, x => fitSig x 50 17.9766585 0.626219238 0.409338837 (-0.941265763) 86.7626131 0.583615866 0.540245636 0.415807316 (-0.00173087766)

/-- `yintercept_coefficients` at a frequency in MHz (tf_utils.py:308-329). -/
def lnaOffset : Lna → ℝ → ℝ
  | .f0, x => fitConst x 50 0.0082388583 88.4722442 (-0.875842286) 0.803931674 0.388727164 0.00157796172
  | .f1, x => fitConst x 50 0.00891418553 86.2446152 (-0.487074122) 0.411469802 0.427254949 0.00164909055
  | .f2, x => fitSig x 50 13.000633 0.551584657 0.00878717949 1.06913377 88.293887 (-0.881479279) 0.807125303 0.400112386 0.0016094582
  | .f3, x => fitSig x 50 17.9888717 0.601638449 0.00968806278 0.93758326 86.4853961 (-0.525922533) 0.449999393 0.422993203 0.00167795904

/-- `corrected_bandpass` (tf_utils.py:728-732) for the value `g` of `get_bandpass` at a channel of a sub-band whose first channel is at `x` MHz. -/
def lnaResponse (l : Lna) (x g : ℝ) : ℝ := lnaSlope l x / g + lnaOffset l x

/-- Checks of `correct_bandpass` and its correction factors (tf_utils.py:711-733): the factor by which the values of each channel are multiplied. `coeffs` is the filter
of `get_bandpass`, `freq` the frequencies in MHz, `none` if not given. -/
def bandFactor (coeffs : List ℝ) (n nf : Nat) (lna : Option Int) (freq : Option (List ℝ)) : Except Err (Nat → ℝ) :=
  (bandpass coeffs n).bind fun bp =>
    if nf % n ≠ 0 then .error .valueError
    else lna.elim (.ok fun k => bp.getD (k % n) 0) fun l =>
      freq.elim (.error .attributeError) fun fs =>
        if fs.length ≠ nf then .error .valueError
        else (lnaOf l).map fun L => fun k => (lnaResponse L (fs.getD (k / n * n) 0) (bp.getD (k % n) 0))⁻¹

/-- `correct_bandpass` (tf_utils.py:670-738): the corrected values. -/
def correctBandpass (coeffs : List ℝ) (n nf : Nat) (lna : Option Int) (freq : Option (List ℝ)) (d : Nat → Nat → ℝ) : Except Err (Nat → Nat → ℝ) :=
  (bandFactor coeffs n nf lna freq).map fun g => fun t k => d t k * g k

/-- The array which was given, after the call: `data.reshape` is a view of a numpy array and the products are made in it (tf_utils.py:720-733), while `*=` on an array of
dask makes another one. -/
def argumentAfter (numpy : Bool) (d : Nat → Nat → ℝ) (r : Except Err (Nat → Nat → ℝ)) : Nat → Nat → ℝ := if numpy then (r.toOption).getD d else d

end

end Verif.TF
