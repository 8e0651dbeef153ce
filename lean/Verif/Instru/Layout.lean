import Verif.Instru.Reference
import Verif.Geom.Model
import Mathlib.Data.Nat.Digits.Defs

/-!
# Making a mini-array: `MiniArray.__init__` (`nenupy/instru/nenufar.py`)

Positions are exact reals, before their conversion to `float32`, and those of the file are read as the points of the triangular lattice of `Reference.lean`.
-/

namespace Verif.Instru

/-- The argument `index`: an integer, or anything which the format `03d` refuses (floats, texts, None). Used for nenufar.py:305-323. -/
inductive MaIndex
  | int (n : ℤ)
  | other

/-- The two exceptions (nenufar.py:320-323). -/
inductive MaErr
  | unknown
  | badFormat
  deriving DecidableEq

/-- A number written with at least `w` digits. Used for nenufar.py:314. -/
def zeroPad (w n : Nat) : List Char :=
  List.replicate (w - (Nat.digits 10 n).length) '0' ++ (Nat.digits 10 n).reverse.map Nat.digitChar

/-- `f'MA{index:03d}'` (nenufar.py:314): the sign counts in the width. -/
def maKey (n : ℤ) : List Char := 'M' :: 'A' :: (if n < 0 then '-' :: zeroPad 2 n.natAbs else zeroPad 3 n.natAbs)

/-- The keys of `nenufar_array.json` and the rotations. Used for nenufar.py:316-327. -/
def maTable : List (List Char × ℤ) := arrays.map fun a => (maKey a.1, a.2)

noncomputable section

/-- A point of the lattice, in metres (`miniarray_antennas.json`, read at nenufar.py:325-326). -/
def latticePos (p : ℤ × ℤ) : Geom.V3 := ⟨11 / 4 * p.1, 11 / 4 * √3 * p.2, 0⟩

/-- Names and positions of the antennas of a mini-array turned by the angle `a` (nenufar.py:325-338). -/
def layoutAt (a : ℝ) : List (String × Geom.V3) := antennas.map fun q => (q.1, Geom.maPosition a (latticePos q.2))

/-- `self.rotation.to_value(u.rad)` (nenufar.py:327-330). -/
def rotRad (rot : ℤ) : ℝ := rot * (Real.pi / 180)

/-- `MiniArray(index)` (nenufar.py:305-349): its rotation and its antennas. -/
def maNew : MaIndex → Except MaErr (ℤ × List (String × Geom.V3))
  | .other => .error .badFormat
  | .int n => (maTable.lookup (maKey n)).elim (.error .unknown) fun rot => .ok (rot, layoutAt (rotRad rot))

/-- The positions by the number of the antenna, as `_geometric_delays` uses them (interferometer.py:1195-1228). -/
def posAt (l : List (String × Geom.V3)) (i : Nat) : Geom.V3 := (l.getD i ("", ⟨0, 0, 0⟩)).2

end

end Verif.Instru
