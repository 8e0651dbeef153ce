import Verif.Common.Prelude

/-!
# Skies: values, arithmetic and slices (nenupy/astro/sky.py)

Skies hold references to arrays, so that two of them may share one. Values are exact numbers.
-/

namespace Verif.Astro

/-- Shape of the values: times, frequencies, polarisations, coordinates. Used for sky.py:759-777. -/
structure Dims where
  t : Nat
  f : Nat
  p : Nat
  c : Nat
deriving DecidableEq

/-- Number of elements. Used for sky.py:759-777. -/
def Dims.size (d : Dims) : Nat := d.t * d.f * d.p * d.c

/-- An array; `isDask`: a dask array, on which augmented assignments make another array. Used for sky.py:724-730. -/
structure Arr where
  shape : Dims
  vals : List ℚ
  isDask : Bool
deriving DecidableEq

/-- A sky: the sizes of its axes and the reference of its values. Used for sky.py:759-777. -/
structure SkyObj where
  dims : Dims
  ref : Nat
deriving DecidableEq

/-- All arrays and all skies. Used for sky.py:724-730. -/
structure World where
  arrs : List Arr
  skies : List SkyObj
deriving DecidableEq

/-- The array of a sky. Used for sky.py:724-730. -/
def World.arr? (w : World) (i : Nat) : Option Arr := w.skies[i]?.bind fun s => w.arrs[s.ref]?

/-- A factor: a number, or the values of another sky. Used for sky.py:724-730. -/
inductive Factor
  | num (x : ℚ)
  | sky (j : Nat)
deriving DecidableEq

/-- Elements of the factor for `n` elements; `none`: shapes which differ. Broadcasting of axes of size one is left out. Used for sky.py:724-730. -/
def factorVals (w : World) (shape : Dims) : Factor → Option (List ℚ)
  | .num x => some (List.replicate shape.size x)
  | .sky j => (w.arr? j).bind fun a => if a.shape = shape then some a.vals else none

/-- Operation element by element. Used for sky.py:716-730. -/
def Arr.zip (a : Arr) (op : ℚ → ℚ → ℚ) (ys : List ℚ) : Arr := { a with vals := List.zipWith op a.vals ys }

/-- Where the values of an augmented assignment `sky.value op= ys` are written, for the sky number `i` with array `a`:
in place for numpy, in a new array for dask. Gives the arrays and the reference handed to the setter. Used for sky.py:724-730. -/
def augment (w : World) (s : SkyObj) (a : Arr) (op : ℚ → ℚ → ℚ) (ys : List ℚ) : List Arr × Nat :=
  if a.isDask then (w.arrs ++ [a.zip op ys], w.arrs.length) else (w.arrs.set s.ref (a.zip op ys), s.ref)

/-- `value.setter` given an array (sky.py:759-777): shapes are compared with the axes. -/
def setRef (s : SkyObj) (shape : Dims) (r : Nat) : Except Err SkyObj :=
  if shape ≠ s.dims then .error .valueError else .ok { s with ref := r }

/-- `__mul__` (sky.py:724-730): a shallow copy of the sky, then an augmented assignment.
Returns the world, and the outcome: number of the new sky or exception. -/
def skyMul (w : World) (i : Nat) (x : Factor) : World × Except Err Nat :=
  match w.skies[i]?, w.arr? i with
  | some s, some a =>
    match factorVals w a.shape x with
    | none => (w, .error .valueError)
    | some ys =>
      let r := augment w s a (· * ·) ys
      match setRef s a.shape r.2 with
      | .error e => ({ w with arrs := r.1 }, .error e)
      | .ok s' => (⟨r.1, w.skies ++ [s']⟩, .ok w.skies.length)
  | _, _ => (w, .error .indexError)

/-- `__truediv__` (sky.py:716-721): the sky itself is changed and returned. Zero divisors are excluded by the theorems. -/
def skyDiv (w : World) (i : Nat) (x : Factor) : World × Except Err Nat :=
  match w.skies[i]?, w.arr? i with
  | some s, some a =>
    match factorVals w a.shape x with
    | none => (w, .error .valueError)
    | some ys =>
      let r := augment w s a (· / ·) ys
      match setRef s a.shape r.2 with
      | .error e => ({ w with arrs := r.1 }, .error e)
      | .ok s' => (⟨r.1, w.skies.set i s'⟩, .ok i)
  | _, _ => (w, .error .indexError)

/-- What is assigned to `value`. Used for sky.py:759-777. -/
inductive NewVal
  | num (x : ℚ)
  | arr (r : Nat)
deriving DecidableEq

/-- `value.setter` (sky.py:759-777); arrays are held by the caller, who shares them with the sky. -/
def skySetValue (w : World) (i : Nat) : NewVal → World × Except Err Unit
  | .num x =>
    match w.skies[i]? with
    | none => (w, .error .indexError)
    | some s => (⟨w.arrs ++ [⟨s.dims, List.replicate s.dims.size x, false⟩], w.skies.set i { s with ref := w.arrs.length }⟩, .ok ())
  | .arr r =>
    match w.skies[i]?, w.arrs[r]? with
    | some s, some a =>
      match setRef s a.shape r with
      | .error e => (w, .error e)
      | .ok s' => ({ w with skies := w.skies.set i s' }, .ok ())
    | _, _ => (w, .error .indexError)

/-- `Sky.__init__` (sky.py:696-701) with a number for the value. -/
def skyNew (w : World) (d : Dims) (x : ℚ) : World :=
  ⟨w.arrs ++ [⟨d, List.replicate d.size x, false⟩], w.skies ++ [⟨d, w.arrs.length⟩]⟩

/-- Setters of `time`, `frequency`, `polarization` (sky.py:784-810) and assignment of `coordinates`: the values are not looked at. -/
def skySetAxes (w : World) (i : Nat) (d : Dims) : World :=
  { w with skies := w.skies.modify i fun s => { s with dims := d } }

/-- One step of a program using skies. Used for sky.py:696-810. -/
inductive SkyOp
  | new (d : Dims) (x : ℚ)
  | mul (i : Nat) (x : Factor)
  | div (i : Nat) (x : Factor)
  | set (i : Nat) (v : NewVal)
  | axes (i : Nat) (d : Dims)

/-- The step on the world; exceptions are caught by the caller. Used for sky.py:696-810. -/
def SkyOp.step (w : World) : SkyOp → World
  | .new d x => skyNew w d x
  | .mul i x => (skyMul w i x).1
  | .div i x => (skyDiv w i x).1
  | .set i v => (skySetValue w i v).1
  | .axes i d => skySetAxes w i d

/-! ## Slices -/

/-- One index of `sky[...]`: a number, or a range of the axis. Used for sky.py:733-750. -/
inductive Ix
  | one (k : Nat)
  | range (start stop : Nat)
deriving DecidableEq

/-- Number of dimensions left. Used for sky.py:733-750. -/
def Ix.dims : Ix → Nat
  | .one _ => 0
  | .range _ _ => 1

/-- Positions selected along an axis of size `n`; `none`: IndexError. Used for sky.py:733-750. -/
def Ix.sel (n : Nat) : Ix → Option (List Nat)
  | .one k => if k < n then some [k] else none
  | .range a b => some ((List.range n).filter fun k => decide (a ≤ k) && decide (k < b))

/-- Shape of a slice: selected positions of each axis, with the coordinates given to the slice. Used for sky.py:733-750. -/
structure SliceOut where
  times : List Nat
  freqs : List Nat
  pols : List Nat
  vals : List Nat
  coords : List Nat
deriving DecidableEq

/-- `__getitem__` (sky.py:733-750): the values must be one-dimensional; all coordinates are handed over. -/
def skySlice (d : Dims) (a b c e : Ix) : Except Err SliceOut :=
  match Ix.sel d.t a, Ix.sel d.f b, Ix.sel d.p c, Ix.sel d.c e with
  | some ts, some fs, some ps, some cs =>
    if a.dims + b.dims + c.dims + e.dims ≠ 1 then .error .indexError
    else .ok ⟨ts, fs, ps, (if e.dims = 1 then cs else if a.dims = 1 then ts else if b.dims = 1 then fs else ps), List.range d.c⟩
  | _, _, _, _ => .error .indexError

/-- `_resol2nside` (sky.py:968-989): position of the available resolution nearest to the wanted one. -/
def resolIndex (avail : Nat → ℚ) (n : Nat) (wanted : ℚ) : Nat := argmax (fun k => -|avail k - wanted|) n

end Verif.Astro
