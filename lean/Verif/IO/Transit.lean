import Verif.TF.Flatten
import Verif.Instru.Radio
import Mathlib.Analysis.SpecialFunctions.Log.Base

/-!
# `ST_Slice.fit_transit` of `nenupy/io/io_tools.py`

Values are rationals, `none` is NaN. `median_filter` of scipy is a parameter `filt`; `curve_fit` is a parameter `solve`, given the points to adjust, after the checks
that scipy does before: the shapes, the bounds and the starting point. Samples without any number, for which nothing can be done, raise as in `curve_fit`.
-/

namespace Verif.IO

open Verif.TF (nanmedian)
open Verif.Instru (npInterp)

/-- Samples kept, with their positions from 1 (io_tools.py:843-850). -/
def keptSamples (thr : Option ℚ) (v : List (Option ℚ)) : List (Option ℚ × Nat) :=
  (v.zipIdx 1).filter fun p => thr.elim true fun t => p.1.any fun x => decide (x < t)

/-- NaN replaced by the median (io_tools.py:851): there is no median without any number. -/
def fillNan (l : List (Option ℚ × Nat)) : Except Err (List (ℚ × Nat)) :=
  (nanmedian (l.map Prod.fst)).elim (.error .valueError) fun m => .ok (l.map fun p => (p.1.getD m, p.2))

/-- `data` and `x_data_to_fit` (io_tools.py:842-851). -/
def prepared (thr : Option ℚ) (v : List (Option ℚ)) : Except Err (List (ℚ × Nat)) := fillNan (keptSamples thr v)

/-- `.max()` of numbers. Used for io_tools.py:858, 871, 897, 921. -/
def topOf (l : List ℚ) : ℚ := (l.max?).getD 0

/-- `.min()` of numbers. Used for io_tools.py:907, 929-934. -/
def bottomOf (l : List ℚ) : ℚ := (l.min?).getD 0

/-- `np.argmax`: the first greatest value. Used for io_tools.py:865. -/
def peakOf (l : List ℚ) : Nat := argmax (fun i => l.getD i 0) l.length

/-- `filtered_data >= max_data/2.` (io_tools.py:861). -/
def highMask (l : List ℚ) (i : Nat) : Bool := decide (topOf l / 2 ≤ l.getD i 0)

/-- Whether `i` is in the group of equal values of the mask that holds `k` (io_tools.py:863-865). -/
def sameRun (m : Nat → Bool) (k i : Nat) : Bool := (List.range' (min i k) (max i k - min i k + 1)).all fun j => m j == m k

/-- `indices`, the group of the greatest value (io_tools.py:863-866). -/
def peakGroup (l : List ℚ) : List Nat := (List.range l.length).filter (sameRun (highMask l) (peakOf l))

/-- Parameters of the fits; each method has some of them (io_tools.py:826-840). -/
structure Fit where
  amp : ℝ
  mu : ℝ
  sig : ℝ
  c1 : ℝ
  c2 : ℝ
  loadA : ℝ
  loadB : ℝ

/-- `gaussian` (io_tools.py:830-831). -/
noncomputable def gaussOf (p : Fit) (t : ℝ) : ℝ := p.amp * Real.exp (-(t - p.mu) ^ 2 / (2 * p.sig ^ 2))

/-- `background_gaussian` (io_tools.py:833-837). -/
noncomputable def backOf (p : Fit) (t : ℝ) : ℝ := gaussOf p t + p.c1 * t + p.c2

/-- `combined` (io_tools.py:824-840). -/
noncomputable def loadOf (p : Fit) (t : ℝ) : ℝ := p.loadA * Real.logb 10 t + p.loadB + p.c1 * t + gaussOf p t

/-- What is returned (io_tools.py:967-976). -/
structure Fitted where
  value : List ℝ
  time : ℝ
  chi : Option ℝ
  popt : Fit

/-- `np.arange(n) + 1` (io_tools.py:843, 886, 912). -/
def stepsOf (n : Nat) : List ℝ := (List.range n).map fun i : Nat => (i : ℝ) + 1

/-- The points of the first method (io_tools.py:867-884): the values of the group are cut but not the abscissas. An array of one value is repeated by numpy; other different shapes are
refused, as is a start of 10 samples for the width above its bound. -/
noncomputable def gaussPoints (d : List (ℚ × Nat)) (g : List Nat) : Except Err (List (ℝ × ℝ)) :=
  if topOf (g.map fun i => (d.map Prod.fst).getD i 0) = 0 then .error .valueError
  else if topOf (d.map fun p => (p.2 : ℚ)) < 10 then .error .valueError
  else if g.length = d.length then .ok ((d.map fun p => (p.2 : ℝ)).zip (g.map fun i => (((d.map Prod.fst).getD i 0 / topOf (g.map fun i => (d.map Prod.fst).getD i 0) : ℚ) : ℝ)))
  else if g.length = 1 then .ok (d.map fun p => ((p.2 : ℝ), (1 : ℝ)))
  else .error .valueError

/-- `np.sum((data - expected)**2/expected)` (io_tools.py:896-899). -/
noncomputable def chiOf (p : Fit) (l : List (ℝ × ℝ)) : ℝ := (l.map fun q => (q.2 - gaussOf p q.1) ^ 2 / gaussOf p q.1).sum

/-- The first method (io_tools.py:853-899). -/
noncomputable def gaussFit (filt : List ℚ → List ℚ) (solve : List (ℝ × ℝ) → Except Err Fit) (thr : Option ℚ) (v : List (Option ℚ)) (jd : List ℝ) : Except Err Fitted :=
  (prepared thr v).bind fun d => (gaussPoints d (peakGroup (filt (d.map Prod.fst)))).bind fun pts => (solve pts).map fun p =>
    ⟨(stepsOf v.length).map fun t => (topOf (filt (d.map Prod.fst)) : ℝ) * gaussOf p (t - ((peakGroup (filt (d.map Prod.fst))).headD 0 : Nat)),
     npInterp (stepsOf v.length) jd (p.mu + ((peakGroup (filt (d.map Prod.fst))).headD 0 : Nat)), some (chiOf p pts), p⟩

/-- `data /= max_data` (io_tools.py:905-906, 929-930). -/
def normed (d : List (ℚ × Nat)) : List ℚ := d.map fun p => p.1 / topOf (d.map Prod.fst)

/-- The checks of the bounds (io_tools.py:905-918, 929-942): a duration, and a free interval for each parameter. -/
noncomputable def boundsOk (back : Bool) (d : List (ℚ × Nat)) (jd : List ℝ) : Except Err Unit :=
  if topOf (d.map Prod.fst) = 0 then .error .valueError
  else if jd.getLastD 0 ≤ jd.headD 0 then .error .valueError
  else if back then (if bottomOf (normed d) < topOf (normed d) then .ok () else .error .valueError)
  else if 0 < bottomOf (normed d) then .ok () else .error .valueError

/-- Repetition of an array of one value to the size of another. Used for io_tools.py:924-926, 961-963. -/
def spread {α : Type} (l : List α) (n : Nat) : Except Err (List α) :=
  if l.length = n then .ok l else if l.length = 1 then .ok (l.flatMap fun x => List.replicate n x) else .error .valueError

open Classical in
/-- `np.sum((np.log10(data) - np.log10(fitted_values))**2/np.log10(fitted_values))` (io_tools.py:924-926, 961-963), if it is a number. -/
noncomputable def logChi (ys fs : List ℝ) : Option ℝ :=
  if (∀ y ∈ ys, 0 < y) ∧ (∀ f ∈ fs, 0 < f ∧ f ≠ 1) then
    some ((ys.zip fs).map fun q => (Real.logb 10 q.1 - Real.logb 10 q.2) ^ 2 / Real.logb 10 q.2).sum
  else none

/-- The values of a model at all times (io_tools.py:919, 944). -/
noncomputable def modelled (model : Fit → ℝ → ℝ) (d : List (ℚ × Nat)) (n : Nat) (p : Fit) : List ℝ := (stepsOf n).map fun t => (topOf (d.map Prod.fst) : ℝ) * model p t

/-- The two other methods (io_tools.py:904-963). -/
noncomputable def otherFit (back : Bool) (solve : List (ℝ × ℝ) → Except Err Fit) (thr : Option ℚ) (v : List (Option ℚ)) (jd : List ℝ) : Except Err Fitted :=
  (prepared thr v).bind fun d => (boundsOk back d jd).bind fun _ =>
  (solve ((d.map fun p => (p.2 : ℝ)).zip ((normed d).map fun y : ℚ => (y : ℝ)))).bind fun p =>
  (spread ((normed d).map fun y : ℚ => (y : ℝ)) v.length).map fun ys =>
    ⟨modelled (if back then backOf else loadOf) d v.length p, npInterp (d.map fun p => (p.2 : ℝ)) (d.map fun p => jd.getD (p.2 - 1) 0) p.mu,
     logChi ys (modelled (if back then backOf else loadOf) d v.length p), p⟩

/-- `fit_transit` (io_tools.py:816-976); `method` is in lower case. -/
noncomputable def fitTransit (filt : List ℚ → List ℚ) (solve : List (ℝ × ℝ) → Except Err Fit) (method : String) (thr : Option ℚ) (v : List (Option ℚ)) (jd : List ℝ) :
    Except Err Fitted :=
  if method = "gaussian" then gaussFit filt solve thr v jd else if method = "gaussian_bkg" then otherFit true solve thr v jd else otherFit false solve thr v jd

end Verif.IO
