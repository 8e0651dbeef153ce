import Mathlib.Algebra.BigOperators.Intervals

/-!
# Points of a square grid within a disc

Counts used for the effective area of one antenna (C119): the grid has 500 points a side and the disc is centred on it.
-/

namespace Verif.Instru

/-- Square of the distance to the middle of an axis, in half steps. -/
def midSq (i : Nat) : Nat := (499 - 2 * i + (2 * i - 499)) ^ 2

def sumN (f : Nat → Nat) (n : Nat) : Nat := Nat.rec 0 (fun k s => s + f k) n

/-- Number of points with `den` times the squared distance at most `num`. -/
def countIn (num den : Nat) : Nat := sumN (fun i => sumN (fun j => (Nat.ble (den * (midSq i + midSq j)) num).toNat) 500) 500

theorem sumN_eq (f : Nat → Nat) (n : Nat) : sumN f n = ∑ i ∈ Finset.range n, f i := by
  induction n with
  | zero => rfl
  | succ n ih =>
    rw [Finset.sum_range_succ, ← ih]
    rfl

theorem countIn_card (num den : Nat) :
    ((Finset.range 500 ×ˢ Finset.range 500).filter fun k : Nat × Nat => den * (midSq k.1 + midSq k.2) ≤ num).card =
      countIn num den := by
  unfold countIn
  rw [Finset.card_filter, Finset.sum_product, sumN_eq]
  apply Finset.sum_congr rfl
  intro i _
  rw [sumN_eq]
  apply Finset.sum_congr rfl
  intro j _
  by_cases h : den * (midSq i + midSq j) ≤ num
  · rw [if_pos h, Nat.ble_eq_true_of_le h]
    rfl
  · rw [if_neg h]
    have : Nat.ble (den * (midSq i + midSq j)) num = false := by
      rw [← Bool.not_eq_true, Nat.ble_eq]
      exact h
    rw [this]
    rfl

set_option maxRecDepth 10000 in
theorem count_one : countIn 249001 1 = 195496 := by decide +kernel

set_option maxRecDepth 10000 in
theorem count_other : countIn 996004 289 = 2708 := by decide +kernel

end Verif.Instru
