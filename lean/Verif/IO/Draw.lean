import Verif.Common.Prelude
import Mathlib.Data.List.Sort
import Mathlib.Data.EReal.Basic
import Mathlib.Analysis.SpecialFunctions.Log.Base

/-!
# What the drawings of spectra show: `ST_Slice.plot` (`nenupy/io/io_tools.py`), `SData.plot` (`nenupy/beamlet/sdata.py`) and `ReducedSpectraSlice.plot` (`nenupy/io/tf_utils.py`)

Figures of matplotlib are reduced to the curve or table they hold, with limits of values, title and scale of the axis of the frequencies. Labels, marks of pointings and overlays are left out.
-/

namespace Verif.IO

open Classical

noncomputable section

/-- What an axis of a figure holds: a curve, or a table with one row for each ordinate (`ax.plot`, `ax.pcolormesh`). Used for io_tools.py:588-605. -/
inductive Shape (α : Type)
  | curve (xs : List ℚ) (ys : List α)
  | table (xs ys : List ℚ) (rows : List (List α))

/-- `10*np.log10(x)` of a value or NaN (io_tools.py:597, sdata.py:577): minus infinity at zero, NaN for negative values. -/
def inDb (x : Option ℝ) : Option EReal :=
  x.bind fun v => if v < 0 then none else if v = 0 then some ⊥ else some ((10 * Real.logb 10 v : ℝ) : EReal)

/-- What is drawn of a value: decibels, or the value (io_tools.py:596-597, sdata.py:577). -/
def drawnAs (db : Bool) (x : Option ℝ) : Option EReal := if db then inDb x else x.map fun v : ℝ => (v : EReal)

/-! ## `ST_Slice.plot` -/

/-- `value` of a slice (io_tools.py:229-242): squeezed by the readers, so that there may be no axis, one, or two (times first). -/
inductive StVal
  | one (v : Option ℝ)
  | row (l : List (Option ℝ))
  | table (v : Nat → Nat → Option ℝ)

/-- A slice of statistics (io_tools.py:229-242). -/
structure StSlice where
  time : List ℚ
  freq : List ℚ
  value : StVal

/-- `ST_Slice.plot` (io_tools.py:588-605). -/
def stPlot (db : Bool) (s : StSlice) : Except Err (Shape (Option EReal)) :=
  s.value.casesOn (fun _ => .error .valueError)
    (fun l => if l.length = s.freq.length then .ok (.curve s.freq (l.map (drawnAs db)))
      else if l.length = s.time.length then .ok (.curve s.time (l.map (drawnAs db))) else .error .valueError)
    (fun v => .ok (.table s.time s.freq ((List.range s.freq.length).map fun j => (List.range s.time.length).map fun i => drawnAs db (v i j))))

/-- `np.nanpercentile(data, 5 * k)` of numbers (io_tools.py:1146-1147, sdata.py:619-630): linear between the two sorted values around the rank. -/
def percentile (k : Nat) (l : List ℝ) : Option ℝ :=
  (l.insertionSort (· ≤ ·))[k * (l.length - 1) / 20]?.map fun a =>
    a + ((k * (l.length - 1) % 20 : Nat) : ℝ) / 20 * (((l.insertionSort (· ≤ ·))[k * (l.length - 1) / 20 + 1]?).getD a - a)

/-- Default limits of the colours (io_tools.py:1146-1147, sdata.py:619-630), for values which are all numbers or NaN. Values of minus infinity are left out of the model. -/
def colourLimits (l : List ℝ) : Option (ℝ × ℝ) := (percentile 1 l).bind fun a => (percentile 19 l).map fun b => (a, b)

/-! ## `SData.plot` -/

/-- Data of `SData` (sdata.py:300-380): times, frequencies, names of polarisations, values. -/
structure SCube where
  time : List ℚ
  freq : List ℚ
  pols : List String
  value : Nat → Nat → Nat → Option ℝ

/-- Position of a polarisation; the first one if it is not given or unknown (sdata.py:563-570, tf_utils.py:3100-3108). -/
def polPlace (pols : List String) (asked : Option String) : Nat := asked.elim 0 fun p => if p ∈ pols then pols.idxOf p else 0

/-- Argument `yscale` (sdata.py:683-707). -/
inductive YScale
  | name (s : String)
  | funcs (forward backward : ℝ → ℝ)
  | other

/-- Scale of the axis: the function, its inverse, and whether the axis is inverted (sdata.py:686-703). -/
structure Axis where
  forward : ℝ → ℝ
  backward : ℝ → ℝ
  inverted : Bool

/-- Scales with a name (sdata.py:687-702). -/
def scaleNamed (s : String) : Except Err Axis :=
  if s.toLower = "log" then .ok ⟨fun x => Real.logb 10 x, fun x => 10 ^ x, false⟩
  else if s.toLower = "lin" then .ok ⟨id, id, false⟩
  else if s.toLower = "f-1" then .ok ⟨fun x => x⁻¹, fun x => x⁻¹, true⟩
  else if s.toLower = "f-2" then .ok ⟨fun x => (x ^ 2)⁻¹, fun x => x ^ (-(1 : ℝ) / 2), true⟩
  else .error .notImplemented

/-- Scaling of the axis (sdata.py:682-708). The functions of a tuple are read instead of being set. -/
def axisOf (y : Option YScale) : Except Err (Option Axis) :=
  y.elim (.ok none) fun s => s.casesOn (fun n => (scaleNamed n).map some) (fun _ _ => .error .unboundLocal) (.error .valueError)

/-- A drawing of `SData.plot`. Used for sdata.py:559-732. -/
structure SDrawing where
  shape : Shape (Option EReal)
  title : String
  axis : Option Axis
  shown : Bool
  saved : Option String

/-- The curve or table (sdata.py:572-681). Curves of time end with `ax.ylim`, which axes do not have (611). -/
def sShape (db : Bool) (s : SCube) (p : Nat) : Except Err (Shape (Option EReal)) :=
  if s.time.length * s.freq.length = s.time.length then .error .attributeError
  else if s.time.length * s.freq.length = s.freq.length then .ok (.curve s.freq ((List.range s.freq.length).map fun j => drawnAs db (s.value 0 j p)))
  else .ok (.table s.time s.freq ((List.range s.freq.length).map fun j => (List.range s.time.length).map fun i => drawnAs db (s.value i j p)))

/-- End of `SData.plot` (sdata.py:718-732): `fig`, given or made with the axis (587-593), is saved; otherwise the axis, which is there by then, makes it return before `plt.show`. -/
def sEnd (figGiven axGiven : Bool) (figname : Option String) : Except Err (Bool × Option String) :=
  (figname.filter fun n => n ≠ "").elim (.ok (false, none)) fun n => if axGiven && !figGiven then .error .attributeError else .ok (false, some n)

/-- `SData.plot` (sdata.py:559-732). -/
def sPlot (db figGiven axGiven : Bool) (s : SCube) (asked : Option String) (y : Option YScale) (figname : Option String) : Except Err SDrawing :=
  if s.pols = [] then .error .indexError else
  (sShape db s (polPlace s.pols asked)).bind fun d => (axisOf y).bind fun a => (sEnd figGiven axGiven figname).map fun e =>
    ⟨d, s.pols.getD (polPlace s.pols asked) "", a, e.1, e.2⟩

/-! ## `ReducedSpectraSlice.plot` -/

/-- A slice of a reduced spectrum (tf_utils.py:3022-3032); the constructor refuses empty axes. NaN are left out. -/
structure RsSlice where
  time : List ℚ
  freq : List ℚ
  pols : List String
  value : Nat → Nat → Nat → ℝ

/-- Keywords of a drawing (tf_utils.py:1570-1586): the normalisation, the limits, and the names of the others. -/
structure Keys where
  norm : String
  vmin : Option ℝ
  vmax : Option ℝ
  others : List String

/-- A drawing with its limits and normalisation. Used for tf_utils.py:1675-1725. -/
structure RsDrawing where
  shape : Shape ℝ
  lo : ℝ
  hi : ℝ
  norm : String

/-- Keywords of `plot_lightcurve` and `plot_spectrum` (tf_utils.py:1781-1794, 1858-1871), the limits and normalisation left out. -/
def curveKeys : List String := ["fig", "ax", "figsize", "dpi", "xlabel", "ylabel", "title"]

/-- Keywords of `plot_dynamic_spectrum` (tf_utils.py:1570-1586). -/
def tableKeys : List String := curveKeys ++ ["clabel", "cmap"]

/-- Smallest value of a list, `ValueError` if it is empty. Used for tf_utils.py:1683-1691. -/
def leastOf (l : List ℝ) : Except Err ℝ := l.min?.elim (.error .valueError) .ok

/-- Greatest value of a list. Used for tf_utils.py:1683-1691. -/
def greatestOf (l : List ℝ) : Except Err ℝ := l.max?.elim (.error .valueError) .ok

/-- Limits of the values (tf_utils.py:1681-1693, 1748-1760). -/
def limitsOf (k : Keys) (l : List ℝ) : Except Err (ℝ × ℝ) :=
  if k.norm = "linear" then
    (k.vmin.elim (leastOf l) .ok).bind fun a => (k.vmax.elim (greatestOf l) .ok).map fun b => (a, b)
  else if k.norm = "log" then
    (k.vmin.elim (leastOf (l.filter fun x => decide (0 < x))) .ok).bind fun a => (k.vmax.elim (greatestOf l) .ok).map fun b => (a, b)
  else .error .valueError

/-- A call of a drawing function: unknown keywords are refused (tf_utils.py:1570-1586, 1781-1794, 1858-1871), then the limits are found. -/
def rsDraw (known : List String) (k : Keys) (l : List ℝ) (sh : Shape ℝ) : Except Err RsDrawing :=
  if ∃ q ∈ k.others, q ∉ known then .error .typeError else (limitsOf k l).map fun b => ⟨sh, b.1, b.2, k.norm⟩

/-- Values of the polarisation `p` by time, then by frequency. Used for tf_utils.py:3111-3135. -/
def rsValues (s : RsSlice) (p : Nat) : List ℝ := (List.range s.time.length).flatMap fun i => (List.range s.freq.length).map fun j => s.value i j p

/-- `ReducedSpectraSlice.plot` (tf_utils.py:3088-3137). For one time and one frequency nothing is drawn and `fig` does not exist. -/
def rsPlot (s : RsSlice) (asked : Option String) (k : Keys) : Except Err RsDrawing :=
  if s.time.length = 1 ∧ 1 < s.freq.length then
    rsDraw curveKeys k (rsValues s (polPlace s.pols asked)) (.curve s.freq ((List.range s.freq.length).map fun j => s.value 0 j (polPlace s.pols asked)))
  else if 1 < s.time.length ∧ s.freq.length = 1 then
    rsDraw curveKeys k (rsValues s (polPlace s.pols asked)) (.curve s.time ((List.range s.time.length).map fun i => s.value i 0 (polPlace s.pols asked)))
  else if 1 < s.time.length ∧ 1 < s.freq.length then
    rsDraw tableKeys k (rsValues s (polPlace s.pols asked)) (.table s.time s.freq ((List.range s.freq.length).map fun j => (List.range s.time.length).map fun i => s.value i j (polPlace s.pols asked)))
  else .error .unboundLocal

/-- The keywords given to each panel (tf_utils.py:3170-3177, 3183-3189): "ax" and "title" are dropped and set again, "clabel" is added. -/
def panelKeys (k : Keys) : Keys := { k with others := ["fig", "ax", "title", "clabel"] ++ k.others.filter fun q => decide (q ≠ "ax" ∧ q ≠ "title" ∧ q ≠ "clabel") }

/-- The loop on the polarisations (tf_utils.py:3181-3189), from panel `i` on: title and drawing of each panel. -/
def rsPanels (s : RsSlice) (panels : Nat) (k : Keys) : Nat → List String → Except Err (List (String × RsDrawing))
  | _, [] => .ok []
  | i, p :: ps =>
    if panels ≤ i then .error .indexError else
    (rsPlot s (some p) (panelKeys k)).bind fun d => (rsPanels s panels k (i + 1) ps).map fun r => ("Polarization: '" ++ p ++ "'", d) :: r

/-- `multi_plot` (tf_utils.py:3166-3193). `fig.subplots` refuses zero, and gives one axis, which is not an array, for one panel (3179-3180). -/
def rsMulti (s : RsSlice) (nrows ncols : Nat) (k : Keys) : Except Err (List (String × RsDrawing)) :=
  if nrows = 0 ∨ ncols = 0 then .error .valueError
  else if nrows * ncols = 1 then .error .attributeError
  else rsPanels s (nrows * ncols) k 0 s.pols

end

end Verif.IO
