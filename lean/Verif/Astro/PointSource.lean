import Verif.Common.Prelude
import Mathlib.Analysis.Real.Sqrt

/-!
# Point sources added to a model of the sky (`nenupy/astro/skymodel.py`)

The positions of a source are the pixels in which they fall. Values are reals, times are Julian days.
-/

namespace Verif.Astro

/-- Pixels of a source: one position, or one for each of its times. Used for skymodel.py:146-154. -/
inductive SrcPix where
  | one (k : Nat)
  | many (l : List Nat)
deriving DecidableEq

/-- A target: its times and positions; `ephem` gives the pixel at a time for a body of the Solar System, nothing for a fixed source. Used for target.py:1214-1224, 1326-1340. -/
structure Src where
  times : List ℚ
  pix : SrcPix
  ephem : Option (ℚ → Nat)

/-- `update_time` (target.py:1214-1224, 1326-1340): fixed sources keep their position. -/
def Src.update (s : Src) (times : List ℚ) : Src :=
  ⟨times, s.ephem.elim s.pix fun e => .many (times.map e), s.ephem⟩

/-- `np.isclose` of two numbers, with its default tolerances. Used for skymodel.py:142. -/
def isClose (a b : ℚ) : Bool := decide (|a - b| ≤ 1 / 10 ^ 8 + |b| / 10 ^ 5)

/-- `np.all(np.isclose(a, b))` (skymodel.py:142): one element is compared with all the others, other lengths must be equal. -/
def allClose (a b : List ℚ) : Except Err Bool :=
  if a.length = b.length then .ok ((a.zip b).all fun p => isClose p.1 p.2)
  else if a.length = 1 then .ok (b.all fun y => isClose (a.getD 0 0) y)
  else if b.length = 1 then .ok (a.all fun x => isClose x (b.getD 0 0))
  else .error .valueError

/-- The source looked at the times of the sky (skymodel.py:142-143). -/
def atTimes (s : Src) (times : List ℚ) : Except Err Src := (allClose s.times times).map fun same => if same then s else s.update times

/-- `source_pixel[ti]` (skymodel.py:146-158). -/
def SrcPix.pixAt (p : SrcPix) (t : Nat) : Option Nat := p.casesOn (fun k => some k) fun l => l[t]?

/-- Values of a sky: time, frequency, polarisation, pixel. Used for skymodel.py:135-167. -/
structure GsmSky where
  times : List ℚ
  nf : Nat
  np : Nat
  npix : Nat
  value : Nat → Nat → Nat → Nat → ℝ

/-- The argument `value`: a number, or an array with its shape. Used for skymodel.py:135-139. -/
inductive Added where
  | num (x : ℝ)
  | arr (t f p : Nat) (x : Nat → Nat → Nat → ℝ)

/-- The array of the values to add (skymodel.py:135-139). -/
noncomputable def addedOf (S : GsmSky) : Added → Except Err (Nat → Nat → Nat → ℝ)
  | .num x => .ok fun _ _ _ => x
  | .arr t f p x => if t = S.times.length ∧ f = S.nf ∧ p = S.np then .ok x else .error .assertion

/-- A sky which is 0 but for one pixel (skymodel.py:164-165). -/
noncomputable def onePixel (k : Nat) (v : ℝ) (x : Nat) : ℝ := if x = k then v else 0

/-- What is added at a time: one pixel, or the absolute value of its smoothing (skymodel.py:156-167). `smooth` is `hp.sphtfunc.smoothing` at the angular size. -/
noncomputable def shapeOf (smooth : Option ((Nat → ℝ) → Nat → ℝ)) (k : Nat) (v : ℝ) (x : Nat) : ℝ :=
  smooth.elim (onePixel k v x) fun g => |g (onePixel k v) x|

/-- `add_point_source` (skymodel.py:104-167): the sky and the source are both modified. All times must have a pixel. -/
noncomputable def addPoint (smooth : Option ((Nat → ℝ) → Nat → ℝ)) (S : GsmSky) (s : Src) (v : Added) : Except Err (GsmSky × Src) :=
  (addedOf S v).bind fun w => (atTimes s S.times).bind fun s' =>
    if (List.range S.times.length).all fun t => (s'.pix.pixAt t).isSome then
      .ok ({ S with value := fun t f p x => S.value t f p x + shapeOf smooth ((s'.pix.pixAt t).getD 0) (w t f p) x }, s')
    else .error .indexError

/-- `np.mean(self.value, axis=-1)` (skymodel.py:201). -/
noncomputable def skyMean (n : Nat) (x : Nat → ℝ) : ℝ := ((List.range n).map x).sum / n

/-- `np.std(self.value, axis=-1)` (skymodel.py:202). -/
noncomputable def skyStd (n : Nat) (x : Nat → ℝ) : ℝ := √(((List.range n).map fun i => (x i - skyMean n x) ^ 2).sum / n)

/-- `add_point_source_snr` (skymodel.py:169-209). -/
noncomputable def addSnr (smooth : Option ((Nat → ℝ) → Nat → ℝ)) (S : GsmSky) (s : Src) (snr : ℝ) : Except Err (GsmSky × Src) :=
  addPoint smooth S s (.arr S.times.length S.nf S.np fun t f p => skyMean S.npix (S.value t f p) + snr * skyStd S.npix (S.value t f p))

end Verif.Astro
