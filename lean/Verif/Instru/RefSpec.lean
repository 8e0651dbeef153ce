import Verif.Instru.Reference

/-!
# Specification of the reference antennas (C117)
-/

namespace Verif.Instru

/-- Two dipoles see the antennas around them alike: the projections, on the direction of the dipole, of the vectors towards
the antennas of its mini-array are the same up to their order and to a common sign. -/
def Alike (c d : Dipole) : Prop :=
  ∃ x y, seenBy c = some x ∧ seenBy d = some y ∧ (x.Perm y ∨ x.Perm (y.map fun t => -t))

/-- A dipole of the array: known mini-array, antenna and polarisation. -/
def IsDipole (d : Dipole) : Prop :=
  d.ma ∈ arrays.map (·.1) ∧ d.antenna ∈ antennas.map (·.1) ∧ (d.polar = "NW" ∨ d.polar = "NE")

/-- A dipole that was measured. -/
def IsMeasured (d : Dipole) : Prop :=
  (∃ m ∈ measured, m.1 = d.ma ∧ d.antenna ∈ m.2) ∧ (d.polar = "NW" ∨ d.polar = "NE")

end Verif.Instru
