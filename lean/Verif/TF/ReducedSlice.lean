import Verif.TF.Reduced

/-!
# Slices of reduced data (nenupy/io/tf_utils.py)

`ReducedSpectraSlice`: three axes and an array. Indices are whole numbers, slices (given by the positions they select) or lists.
-/

namespace Verif.TF

/-- An index of one axis. Used for tf_utils.py:3034-3049. -/
inductive Idx where
  | int (i : Int)
  | slice (l : List Nat)
  | list (l : List Int)

/-- Position of a whole number in an axis of `n` items. Used for tf_utils.py:3052-3055. -/
def onePos (n : Nat) (i : Int) : Except Err Nat :=
  if 0 ≤ i ∧ i < n then .ok i.toNat else if -n ≤ i ∧ i < 0 then .ok (i + n).toNat else .error .indexError

/-- Positions selected in an axis of `n` items (tf_utils.py:3052-3054). -/
def Idx.positions (n : Nat) : Idx → Except Err (List Nat)
  | .int i => (onePos n i).map fun p => [p]
  | .slice l => .ok l
  | .list l => l.mapM (onePos n)

/-- Whether the index is a slice. Used for tf_utils.py:3055. -/
def Idx.isSlice : Idx → Bool
  | .slice _ => true
  | _ => false

/-- Whether the index is a list. Used for tf_utils.py:3055. -/
def Idx.isList : Idx → Bool
  | .list _ => true
  | _ => false

/-- Length of lists and numbers taken together by numpy: lengths other than 1 must agree. Used for tf_utils.py:3055. -/
def together : List Nat → Option Nat
  | [] => some 1
  | a :: l => (together l).bind fun n => if a = 1 then some n else if n = 1 ∨ n = a then some a else none

/-- Item `j` of a list, or its only item. Used for tf_utils.py:3055. -/
def pick (l : List Nat) (j : Nat) : Nat := if l.length = 1 then l.headD 0 else l.getD j 0

/-- All combinations, the last axis first to vary. Used for tf_utils.py:3055. -/
def product {V : Type} (v : Nat → Nat → Nat → V) (pt pf pp : List Nat) : List V :=
  pt.flatMap fun t => pf.flatMap fun f => pp.map fun p => v t f p

/-- Numbers and lists with at least one list, `n` items together: they count as one axis, at their place if they are neighbours, else at
the first place. Used for tf_utils.py:3055. -/
def gather {V : Type} (v : Nat → Nat → Nat → V) (st sf sp : Bool) (pt pf pp : List Nat) (n : Nat) : List V :=
  if st = true then
    if sf = true ∨ sp = true then product v pt pf pp
    else pt.flatMap fun t => (List.range n).map fun j => v t (pick pf j) (pick pp j)
  else if sf = true then
    if sp = true then product v pt pf pp else (List.range n).flatMap fun j => pf.map fun f => v (pick pt j) f (pick pp j)
  else if sp = true then (List.range n).flatMap fun j => pp.map fun p => v (pick pt j) (pick pf j) p
  else (List.range n).map fun j => v (pick pt j) (pick pf j) (pick pp j)

/-- Lengths of the numbers and lists. Used for tf_utils.py:3055. -/
def advLengths (it jf kp : Idx) (pt pf pp : List Nat) : List Nat :=
  (if it.isSlice then [] else [pt.length]) ++ (if jf.isSlice then [] else [pf.length]) ++ (if kp.isSlice then [] else [pp.length])

/-- `data[time_slice, frequency_slice, polarization_slice]` (tf_utils.py:3055), in row order. -/
def numpyIndex {V : Type} (v : Nat → Nat → Nat → V) (it jf kp : Idx) (pt pf pp : List Nat) : Except Err (List V) :=
  if it.isList = true ∨ jf.isList = true ∨ kp.isList = true then
    (together (advLengths it jf kp pt pf pp)).elim (.error .indexError) fun n => .ok (gather v it.isSlice jf.isSlice kp.isSlice pt pf pp n)
  else .ok (product v pt pf pp)

/-- `ReducedSpectraSlice` (tf_utils.py:3022-3032). -/
structure RSlice (V : Type) where
  time : List ℚ
  freq : List ℚ
  pol : List String
  val : Nat → Nat → Nat → V

/-- Constructor (tf_utils.py:3024-3032), for values in row order; `d`: out of bounds. -/
def mkSlice {V : Type} (d : V) (time freq : List ℚ) (pol : List String) (data : List V) : Except Err (RSlice V) :=
  if time = [] ∨ freq = [] ∨ pol = [] then .error .indexError
  else if data.length ≠ time.length * freq.length * pol.length then .error .valueError
  else .ok ⟨time, freq, pol, fun t f p => data.getD ((t * freq.length + f) * pol.length + p) d⟩

/-- The whole axis (tf_utils.py:3045, 3049). -/
def wholeAxis (n : Nat) : Idx := .slice (List.range n)

/-- The three selections of `__getitem__` (tf_utils.py:3036-3056), once missing ones are whole axes. -/
def select3 {V : Type} (d : V) (s : RSlice V) (it jf kp : Idx) : Except Err (RSlice V) :=
  (it.positions s.time.length).bind fun pt => (jf.positions s.freq.length).bind fun pf => (kp.positions s.pol.length).bind fun pp =>
    (numpyIndex s.val it jf kp pt pf pp).bind fun data =>
      mkSlice d (pt.map fun i => s.time.getD i 0) (pf.map fun i => s.freq.getD i 0) (pp.map fun i => s.pol.getD i "") data

/-- `__getitem__` (tf_utils.py:3034-3056): one to three indices. -/
def RSlice.getItem {V : Type} (d : V) (s : RSlice V) : List Idx → Except Err (RSlice V)
  | [it] => select3 d s it (wholeAxis s.freq.length) (wholeAxis s.pol.length)
  | [it, jf] => select3 d s it jf (wholeAxis s.pol.length)
  | [it, jf, kp] => select3 d s it jf kp
  | _ => .error .indexError

end Verif.TF
