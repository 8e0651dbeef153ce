import Verif.Cnst.Model

/-!
# Model of blocks: `nenupy/schedule/obsblocks.py`

Blocks are Python objects that containers share, so the model has a heap: an object is designated by its position in the heap.
-/

namespace Verif.Blocks

/-- An `ObsBlock` (obsblocks.py:354-371). `payload` stands for its name, program, duration and delays; `cons` for the identity of its constraints object and `target`
for that of its target; `own` is the tuple `_blocks` inherited from `Block`, which holds the block itself. -/
structure Obj where
  idx : Nat
  payload : Nat
  cons : Nat
  target : Nat
  own : List Nat
  deriving DecidableEq, Repr

/-- The heap of blocks. Used for obsblocks.py:303-307. -/
abbrev Heap := List Obj

/-- Change an object in place. Used for obsblocks.py:303-307. -/
def Heap.update (h : Heap) (r : Nat) (f : Obj → Obj) : Heap := h.modify r f

/-- `Block._assign_indices` (obsblocks.py:303-307), numbering from `i`. -/
def assign (h : Heap) : List Nat → Nat → Heap
  | [], _ => h
  | r :: rs, i => assign (h.update r fun o => { o with idx := i }) rs (i + 1)

/-- `Block(*blocks)` (obsblocks.py:208-210). -/
def mkBlock (h : Heap) (refs : List Nat) : Heap × List Nat := (assign h refs 0, refs)

/-- `ObsBlock(...)` (obsblocks.py:354-371): a new object whose `_blocks` is itself. -/
def newObs (h : Heap) (payload cons target : Nat) : Heap × Nat :=
  (h ++ [⟨0, payload, cons, target, [h.length]⟩], h.length)

/-- The loop of `Block.__mul__` (obsblocks.py:223-236): `copy(block)` is shallow, so that the copy keeps the original's `_blocks`, target and
constraints. -/
def copies (h : Heap) : List Nat → Heap × List Nat
  | [] => (h, [])
  | r :: rs =>
    match h[r]? with
    | none => copies h rs
    | some o =>
      let (h', l) := copies (h ++ [o]) rs
      (h', h.length :: l)

/-- `Block.__mul__` (obsblocks.py:219-237). `range(n)` is empty for `n ≤ 0`. -/
def mul (h : Heap) (refs : List Nat) (n : Int) : Heap × List Nat :=
  let (h', l) := copies h (refs.flatMap fun r => List.replicate n.toNat r)
  mkBlock h' l

/-- `Block.__add__` (obsblocks.py:240-250). -/
def add (h : Heap) (a b : List Nat) : Heap × List Nat := mkBlock h (a ++ b)

/-- `Block.get(payload=v)` (obsblocks.py:278-291): the blocks whose attribute equals a value. -/
def get (h : Heap) (refs : List Nat) (v : Nat) : Heap × List Nat :=
  mkBlock h (refs.filter fun r => decide ((h[r]?).map Obj.payload = some v))

/-- `Block.reset` (obsblocks.py:294-298): every block gets a new constraints object (`fresh`, `fresh + 1`, ...). -/
def reset (h : Heap) : List Nat → Nat → Heap
  | [], _ => h
  | r :: rs, fresh => reset (h.update r fun o => { o with cons := fresh }) rs (fresh + 1)

/-! ## Periodic observations -/

/-- Number of repetitions (obsblocks.py:499-502). -/
def repetitions (start stop period : ℚ) (repMax : Option Int) : Int :=
  let n := ⌈(stop - start) / period⌉
  match repMax with
  | none => n
  | some m => if m < n then m else n

/-- The kind of a `TimeRangeCnst`. Used for obsblocks.py:506-511. -/
def timeRangeKind : Cnst.Kind := .other 0

/-- One block of a periodic observation: its constraints and its window. Used for obsblocks.py:506-511. -/
structure PBlock where
  cons : Cnst.Cs
  lo : ℚ
  hi : ℚ
  deriving DecidableEq

/-- One iteration of the loop (obsblocks.py:506-511), on a deep copy of the constraints. The payload of the `TimeRangeCnst` is not used. -/
def pblock (cons : Cnst.Cs) (start period tol : ℚ) (i : Nat) : Except Err PBlock :=
  match (Cnst.addCs cons ⟨timeRangeKind, i⟩).2 with
  | .error e => .error e
  | .ok c => .ok ⟨c, start + i * period - tol, start + i * period + tol⟩

/-- What `periodic_observation` returns: `sum` of an empty list is the integer 0. Used for obsblocks.py:444-514. -/
inductive Sum
  | zero
  | blocks (l : List PBlock)
  deriving DecidableEq

/-- `ObsBlock.periodic_observation` (obsblocks.py:444-514). -/
def periodic (cons : Cnst.Cs) (start stop period tol : ℚ) (repMax : Option Int) : Except Err Sum :=
  match (List.range (repetitions start stop period repMax).toNat).mapM (pblock cons start period tol) with
  | .error e => .error e
  | .ok [] => .ok .zero
  | .ok (b :: l) => .ok (.blocks (b :: l))

end Verif.Blocks
