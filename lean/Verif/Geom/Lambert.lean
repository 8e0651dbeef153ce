import Verif.Geom.Model
import Mathlib.Algebra.Order.Floor.Ring
import Mathlib.Algebra.Order.Round

/-!
# Conversions of positions between Lambert 93, ETRS, geographic and Lambert ORN coordinates

The projections themselves (`pyproj`) are parameters: `P` from Lambert 93 to ETRS, `G` from Lambert 93
to geographic coordinates, `L` from geographic coordinates to Lambert 93 and `O` to Lambert ORN. What is
modelled is which arrays are read, which are written to and which shapes come out. Arrays live in a
memory and are handed over by reference, as in numpy. Positions with more than two dimensions and arrays
of locations with more than one dimension are left out.
-/

namespace Verif.Geom

noncomputable section

/-- An array of numbers with one or two dimensions; `two c rows` has the shape `(len(rows), c)`.
Used for astro_tools.py:830-833, 904-908. -/
inductive Arr where
  | one (v : List ℝ)
  | two (cols : Nat) (rows : List (List ℝ))

/-- An array in memory; `whole` says that its elements are integers. Used for astro_tools.py:838-842. -/
structure Held where
  whole : Bool
  val : Arr

/-- The arrays in memory, by reference; the references from `next` on are free.
Used for astro_tools.py:805-843. -/
structure Heap where
  get : Nat → Held
  next : Nat

/-- Writing the array behind a reference. Used for astro_tools.py:838. -/
def Heap.set (h : Heap) (r : Nat) (a : Held) : Heap := ⟨fun s => if s = r then a else h.get s, h.next⟩

/-- A new array. Used for nenufar.py:1485, interferometer.py:235. -/
def Heap.alloc (h : Heap) (a : Held) : Heap := ⟨fun s => if s = h.next then a else h.get s, h.next + 1⟩

/-- The first three columns of a row. Used for astro_tools.py:838-842, 914-918. -/
def triple (row : List ℝ) : V3 := ⟨row.getD 0 0, row.getD 1 0, row.getD 2 0⟩

/-- Rounding towards zero, as numpy does when it stores a number in an array of integers.
Used for astro_tools.py:838. -/
def towardsZero (x : ℝ) : ℝ := if 0 ≤ x then (⌊x⌋ : ℝ) else (⌈x⌉ : ℝ)

/-- What is left of a number stored in an array. Used for astro_tools.py:838. -/
def storedAs (whole : Bool) (x : ℝ) : ℝ := if whole then towardsZero x else x

/-- A row made of three coordinates. Used for astro_tools.py:838. -/
def rowOf (whole : Bool) (p : V3) : List ℝ := [storedAs whole p.x, storedAs whole p.y, storedAs whole p.z]

/-- The rows of an array of shape `(n, 3)` (astro_tools.py:830). -/
def threeCols : Arr → Option (List (List ℝ))
  | .one _ => none
  | .two c rows => if c = 3 then some rows else none

/-- The contents of an array of positions after the assignment of astro_tools.py:838-842. -/
def convertHeld (P : V3 → V3) (a : Held) : Option Held :=
  (threeCols a.val).map fun rows =>
    ⟨a.whole, .two 3 (rows.map fun row : List ℝ => rowOf a.whole (P (triple row)))⟩

/-- `l93_to_etrs` (astro_tools.py:805-843): the memory afterwards and the reference returned. -/
def l93ToEtrs (P : V3 → V3) (h : Heap) (r : Nat) : Except Err (Heap × Nat) :=
  (convertHeld P (h.get r)).elim (.error .valueError) fun a => .ok (h.set r a, r)

/-- `NenuFAR._toITRF` (nenufar.py:1478-1491), for positions of shape `(n, 3)`; other shapes are refused
here. -/
def toItrf (P : V3 → V3) (h : Heap) (r : Nat) : Except Err (Heap × Nat) :=
  (convertHeld P (h.get r)).elim (.error .indexError) fun a => .ok (h.alloc a, h.next)

/-- The rows of an array kept by a selection. Used for interferometer.py:235. -/
def cutRows (keep : Nat → Bool) : Arr → Arr
  | .one v => .one v
  | .two c rows => .two c ((rows.zipIdx.filter fun x : List ℝ × Nat => keep x.2).map fun x : List ℝ × Nat => x.1)

/-- `l93_to_etrs(NenuFAR()[mini_arrays].antenna_positions)` (xst.py:570-572, 1880-1882): the selection
of antennas (interferometer.py:231-240) makes a new array, which is then converted. -/
def cutEtrs (P : V3 → V3) (h : Heap) (r : Nat) (keep : Nat → Bool) : Except Err (Heap × Nat) :=
  l93ToEtrs P (h.alloc ⟨(h.get r).whole, cutRows keep (h.get r).val⟩) h.next

/-- One location or an array of locations; the coordinates are longitude, latitude and height.
Used for astro_tools.py:923-927. -/
inductive Loc where
  | single (p : V3)
  | many (l : List V3)

/-- `l93_to_geo` (astro_tools.py:886-927). -/
def l93ToGeo (G : V3 → V3) : Arr → Except Err Loc
  | .one v => if v.length = 3 then .ok (.single (G (triple v))) else .error .indexError
  | .two c rows => if c < 3 then .error .indexError else .ok (.many (rows.map fun row : List ℝ => G (triple row)))

/-- The locations of an array, whatever its shape. Used for astro_tools.py:872, 966. -/
def Loc.all : Loc → List V3
  | .single p => [p]
  | .many l => l

/-- `geo_to_l93` (astro_tools.py:852-880). -/
def geoToL93 (L : V3 → V3) (l : Loc) : Arr := .two 3 (l.all.map fun p : V3 => rowOf false (L p))

/-- `geo_to_orn` (astro_tools.py:935-980). -/
def geoToOrn (O : V3 → V3) : Loc → Arr
  | .single p => .one (rowOf false (O p))
  | .many l => .two 3 (l.map fun p : V3 => rowOf false (O p))

/-- The rows of the sum of an array of shape `(n, 3)` and one of shape `(1, 3)`. Used for
nenufar.py:402. -/
def shiftRows (offsets : List V3) (at0 : V3) : Arr := .two 3 (offsets.map fun a : V3 => rowOf false (add a at0))

/-- `MiniArray.antenna_position_geo` (nenufar.py:400-402) for antenna offsets and a position of the
mini-array. -/
def antennaGeo (G L : V3 → V3) (offsets : List V3) (pos : V3) : Except Err Loc :=
  l93ToGeo G (shiftRows offsets (L pos))

/-- `NenuFAR.antenna_positions_lambertorn` (nenufar.py:1243, 1183). -/
def arrayOrn (G O : V3 → V3) (h : Heap) (r : Nat) : Except Err Arr :=
  (l93ToGeo G (h.get r).val).map (geoToOrn O)

/-- A call by a user on an array of positions. Used for astro_tools.py:805, 886, nenufar.py:1183, 1243,
1478, xst.py:570-572. -/
inductive PosCall where
  | etrs (r : Nat)
  | itrf (r : Nat)
  | geo (r : Nat)
  | orn (r : Nat)
  | cut (r : Nat) (keep : Nat → Bool)

/-- The memory after a call; a refused call leaves it as it is (nobody can reach the array
which a refused selection has made). Used for astro_tools.py:805-927. -/
def PosCall.after (P : V3 → V3) (h : Heap) : PosCall → Heap
  | .etrs r => ((l93ToEtrs P h r).toOption.map fun x : Heap × Nat => x.1).getD h
  | .itrf r => ((toItrf P h r).toOption.map fun x : Heap × Nat => x.1).getD h
  | .geo _ => h
  | .orn _ => h
  | .cut r keep => ((cutEtrs P h r keep).toOption.map fun x : Heap × Nat => x.1).getD h

/-- The memory after several calls. Used for astro_tools.py:805-927. -/
def posCalls (P : V3 → V3) : List PosCall → Heap → Heap
  | [], h => h
  | c :: l, h => posCalls P l (c.after P h)

end

end Verif.Geom
