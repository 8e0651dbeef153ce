import Verif.Common.Prelude
import Mathlib.Data.List.Sort
import Mathlib.Data.List.Dedup

/-!
# Contamination by bright sources (nenupy/schedule/contamination.py)

Numbers are rationals, `none` is NaN. Array factors, gains, altitudes and sky cells are parameters: astropy, healpy and mocpy are not modelled.
-/

namespace Verif.Contam

/-! ## Rotations of the mini-arrays -/

/-- `MA_INDICES` and `MA_ROTATIONS`, side by side (contamination.py:48-49). -/
def maTable : List (Nat × Int) := [(0, 0), (1, 30), (3, 20), (7, 50), (11, 10), (13, 40)]

/-- Setter of `miniarray_rotations` (contamination.py:321-334); `none`: `None`. The list holds integers. -/
def setRotations : Option (List Int) → Except Err (List Int)
  | none => .ok [0, 10, 20, 30, 40, 50]
  | some mr =>
    if mr.all fun r => decide (r % 10 = 0) then .ok ((mr.map fun r => r % 60).dedup.insertionSort (· ≤ ·))
    else .error .valueError

/-- The mini-arrays which are summed (contamination.py:527, 532). -/
def selectedMas (rots : List Int) : List Nat := (maTable.filter fun e => decide (e.2 ∈ rots)).map Prod.fst

/-! ## Array factors -/

/-- What `BeamLobes` is given, and the results of the parts of the package which are not modelled here. Used for contamination.py:274-310. -/
structure Setup where
  /-- Julian days. -/
  time : List ℚ
  /-- Frequencies in MHz. -/
  freq : List ℚ
  /-- Number of cells of the sky. -/
  nPix : Nat
  /-- Altitude of each pointing, at its own start. -/
  ptAlt : List ℚ
  /-- Array factor of a mini-array, by index, time, frequency and cell of the sky. -/
  maAf : Nat → Nat → Nat → Nat → ℚ
  /-- Gain of the antenna, by time, frequency and cell. -/
  gain : Nat → Nat → Nat → ℚ
  /-- Altitude of a cell of the sky, by time. -/
  alt : Nat → Nat → ℚ
  /-- The cell of order 5 of the multi-order coverage which holds the centre of a cell of the sky. -/
  cell : Nat → Nat

/-- The sum of the array factors, times the gain (contamination.py:528-543). -/
def rawAf (s : Setup) (mas : List Nat) (useGain : Bool) (t f p : Nat) : ℚ :=
  (mas.map fun m => s.maAf m t f p).sum * if useGain then s.gain t f p else 1

/-- `np.max` of numbers which may be NaN, for a first number and the others. Used for contamination.py:391, 554. -/
def nanMax (x : Option ℚ) (l : List (Option ℚ)) : Option ℚ := l.foldl (fun a b => a.bind fun u => b.map fun v => max u v) x

/-- `np.max` over the cells of the sky; no cell at all is left to the caller. Used for contamination.py:554. -/
def pixMax (v : Nat → Option ℚ) (n : Nat) : Option ℚ := nanMax (v 0) ((List.range n).map v)

/-- The division of contamination.py:554. Array factors are powers: when the largest is 0 all are, and `0 / 0` is NaN. -/
def divMax (x m : Option ℚ) : Option ℚ := x.bind fun a => m.bind fun b => if b = 0 then none else some (a / b)

/-- The array factor before normalisation, NaN at the times whose pointing is not above the horizon (contamination.py:529, 550-552). -/
def maskedAf (s : Setup) (mas : List Nat) (useGain : Bool) (t f p : Nat) : Option ℚ :=
  if (s.ptAlt[t]?).any fun a => decide (a ≤ 0) then none else some (rawAf s mas useGain t f p)

/-- `_compute_array_factor` (contamination.py:521-554): by time, frequency and cell. A mask of another length than the times cannot be used;
without mini-array there is neither `ma` for the gain, nor an array to compute. -/
def arrayFactor (s : Setup) (rots : List Int) (useGain : Bool) : Except Err (Nat → Nat → Nat → Option ℚ) :=
  if selectedMas rots = [] then (if useGain then .error .unboundLocal else .error .attributeError)
  else if (s.ptAlt.any fun a => decide (a ≤ 0)) = true ∧ s.ptAlt.length ≠ s.time.length then .error .indexError
  else .ok fun t f p =>
    divMax (maskedAf s (selectedMas rots) useGain t f p) (pixMax (maskedAf s (selectedMas rots) useGain t f) s.nPix)

/-! ## Lobes -/

/-- What `moc` holds: nothing, a set of cells per frequency and time, or a truth value per frequency and time. Used for contamination.py:288, 364, 409. -/
inductive Moc
  | nothing
  | cells (c : Nat → Nat → List Nat)
  | flags (b : Nat → Nat → Bool)

/-- What `_src_display` holds: nothing, positions of sources, or the coverage of the sky model. Used for contamination.py:290, 440-442, 457-464. -/
inductive Shown
  | nothing | sources | model
  deriving DecidableEq, Repr

/-- A `BeamLobes`. Used for contamination.py:271-310. -/
structure Beam where
  setup : Setup
  /-- Normalised array factor, by time, frequency and cell. -/
  map : Nat → Nat → Nat → Option ℚ
  moc : Moc
  shown : Shown

/-- `BeamLobes.__init__` (contamination.py:274-310). -/
def newBeam (s : Setup) (rots : Option (List Int)) (useGain : Bool) : Except Err Beam :=
  (setRotations rots).bind fun r => (arrayFactor s r useGain).map fun m => ⟨s, m, .nothing, .nothing⟩

/-- `self.sky.value[:, f_idx, 0].max()`: over all times and cells (contamination.py:391). -/
def peak (b : Beam) (f : Nat) : Option ℚ :=
  nanMax (b.map 0 f 0) ((List.range b.setup.time.length).flatMap fun t => (List.range b.setup.nPix).map fun p => b.map t f p)

/-- A comparison `>=` between numbers which may be NaN. Used for contamination.py:394. -/
def atLeast (x y : Option ℚ) : Bool := x.any fun a => y.any fun b => decide (b ≤ a)

/-- The cells of the sky in the lobes (contamination.py:391-396). -/
def inLobes (b : Beam) (rel : ℚ) (f t p : Nat) : Bool :=
  atLeast (b.map t f p) ((peak b f).map fun m => m * rel) && decide (0 ≤ b.setup.alt t p)

/-- The coverage of one frequency and time (contamination.py:400-403). -/
def lobeCells (b : Beam) (rel : ℚ) (f t : Nat) : List Nat :=
  ((List.range b.setup.nPix).filter fun p => inLobes b rel f t p).map b.setup.cell

/-- `compute_moc(…, return_array=True)` (contamination.py:372-407): the maximum of an empty array raises. -/
def mocArray (b : Beam) (rel : ℚ) : Except Err (Nat → Nat → List Nat) :=
  if b.setup.freq ≠ [] ∧ (b.setup.time = [] ∨ b.setup.nPix = 0) then .error .valueError else .ok (lobeCells b rel)

/-- `compute_moc` (contamination.py:372-409). -/
def computeMoc (b : Beam) (rel : ℚ) : Except Err Beam := (mocArray b rel).map fun c => { b with moc := .cells c }

/-! ## Sources in the lobes -/

/-- A `SourceInLobes`; the values by frequency and time. Used for contamination.py:55-61. -/
structure Sil where
  time : List ℚ
  freq : List ℚ
  value : Nat → Nat → Option ℚ

/-- The number of sources in the coverage (contamination.py:471-476); a source is the cell of order 5 that holds it, by time. -/
def countIn (cells : List Nat) (src : List (Nat → Nat)) (t : Nat) : Nat := (src.filter fun s => decide (s t ∈ cells)).length

/-- `sources_in_lobes` (contamination.py:451-482): the sources to be shown are set first, then `moc` is looked at. -/
def sourcesInLobes (b : Beam) (src : List (Nat → Nat)) : Beam × Except Err Sil :=
  ({ b with shown := .sources },
    match b.moc with
    | .nothing => .error .attributeError
    | .cells c => .ok ⟨b.setup.time, b.setup.freq, fun f t => some (countIn (c f t) src t)⟩
    | .flags _ =>
      if b.setup.freq = [] ∨ b.setup.time = [] then .ok ⟨b.setup.time, b.setup.freq, fun _ _ => some 0⟩ else .error .attributeError)

/-- `gsm_in_lobes` (contamination.py:413-448), from the cells where the sky model is above its threshold, by frequency: `moc` is looked at first. -/
def gsmInLobes (b : Beam) (gsm : Nat → List Nat) : Beam × Except Err Sil :=
  match b.moc with
  | .nothing => (b, .error .attributeError)
  | .cells c =>
    ({ b with shown := .model },
      .ok ⟨b.setup.time, b.setup.freq, fun f t => some (if (c f t).any fun x => decide (x ∈ gsm f) then 1 else 0)⟩)
  | .flags _ =>
    if b.setup.freq = [] ∨ b.setup.time = [] then ({ b with shown := .model }, .ok ⟨b.setup.time, b.setup.freq, fun _ _ => some 0⟩)
    else (b, .error .attributeError)

/-- `np.any(contains_lonlat(…))` for each threshold (contamination.py:348-362). -/
def anyIn (b : Beam) (src : List (Nat → Nat)) (f t : Nat) (thr : ℚ) : Bool := src.any fun s => decide (s t ∈ lobeCells b thr f t)

/-- The mean over the thresholds of contamination.py:364, 369; NaN without threshold. -/
def weight (b : Beam) (src : List (Nat → Nat)) (thrs : List ℚ) (f t : Nat) : Option ℚ :=
  if thrs = [] then none else some (((thrs.filter fun r => anyIn b src f t r).length : ℚ) / thrs.length)

/-- `compute_weight_moc` (contamination.py:340-370). -/
def computeWeights (b : Beam) (src : List (Nat → Nat)) (thrs : List ℚ) : Except Err (Beam × Sil) :=
  if thrs ≠ [] ∧ b.setup.freq ≠ [] ∧ (b.setup.time = [] ∨ b.setup.nPix = 0) then .error .valueError
  else .ok ({ b with moc := .flags fun f t => (weight b src thrs f t).any fun w => decide (0 < w) },
    ⟨b.setup.time, b.setup.freq, weight b src thrs⟩)

/-- The index used by `plot` on an axis: the first value which is not below, or the last one (contamination.py:494-501). -/
def plotIndex (axis : List ℚ) (x : ℚ) : Int :=
  if axis.any fun y => decide (x ≤ y) then (axis.findIdx fun y => decide (x ≤ y) : Nat) else -1

/-- What `BeamLobes.plot` needs before it draws (contamination.py:503-516): `moc` has to be an array, and sources have to be there. A truth value instead of a
coverage is only seen by the drawing. -/
def plotReady (b : Beam) : Except Err Unit :=
  match b.moc with
  | .nothing => .error .typeError
  | _ => if b.shown = .nothing then .error .keyError else .ok ()

/-! ## Adding, drawing, writing and reading -/

/-- `np.all(a == b)`: an axis of length 1 is extended; other lengths raise. Used for contamination.py:66-67. -/
def sameAxis (a b : List ℚ) : Except Err Bool :=
  if a.length = b.length then .ok (decide (a = b))
  else if a.length = 1 then .ok (b.all fun x => decide (a.getD 0 0 = x))
  else if b.length = 1 then .ok (a.all fun x => decide (x = b.getD 0 0))
  else .error .valueError

/-- `SourceInLobes.__add__` (contamination.py:64-76); the extension of the values along an axis of length 1 is left out. -/
def addSil (a b : Sil) : Except Err Sil :=
  (sameAxis a.freq b.freq).bind fun sf => (sameAxis a.time b.time).bind fun st =>
    if sf = false ∨ st = false then .error .exception
    else .ok ⟨a.time, a.freq, fun f t => (a.value f t).bind fun x => (b.value f t).map fun y => x + y⟩

/-- `np.diff(x) < 0`. Used for contamination.py:106, 114. -/
def falls : List ℚ → List Bool
  | a :: b :: l => decide (b - a < 0) :: falls (b :: l)
  | _ => []

/-- `roll_index` (contamination.py:103-116). -/
def rollIndex (x : List ℚ) : Nat := if (falls x).any id then (falls x).findIdx id + 1 else 0

/-- `np.roll(x, -k)` for `k` up to the length. Used for contamination.py:121, 123. -/
def rollBack {α : Type} (k : Nat) (x : List α) : List α := x.drop k ++ x.take k

/-- A column of values in a FITS file: bytes or floats. Used for contamination.py:176-178, 196. -/
inductive Column
  | bytes (v : Nat → Nat → Nat)
  | floats (v : Nat → Nat → ℚ)

/-- What the file holds. Used for contamination.py:182-199. -/
structure Fits where
  time : List ℚ
  freq : List ℚ
  column : Column

/-- A value without NaN. Used for contamination.py:175. -/
def plainVal (v : Nat → Nat → Option ℚ) (f t : Nat) : ℚ := (v f t).getD 0

/-- `export` (contamination.py:161-200) for values without NaN: gives the object, which may have changed, and the file. A byte column keeps the
values modulo 256; the rounding of floats is left out. -/
def exportSil (s : Sil) (inBytes : Bool) : Sil × Fits :=
  if inBytes then
    ({ s with value := fun f t => some (⌊plainVal s.value f t * 255⌋ : ℤ) },
      ⟨s.time, s.freq, .bytes fun f t => (⌊plainVal s.value f t * 255⌋ % 256).toNat⟩)
  else (s, ⟨s.time, s.freq, .floats fun f t => plainVal s.value f t⟩)

/-- `from_fits` (contamination.py:206-222). -/
def fromFits (h : Fits) : Sil :=
  ⟨h.time, h.freq, fun f t => some (match h.column with
    | .bytes v => (v f t : ℚ) / 255
    | .floats v => v f t)⟩

end Verif.Contam
