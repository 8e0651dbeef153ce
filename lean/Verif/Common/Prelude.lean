import Mathlib.Tactic.Linarith
import Mathlib.Tactic.Ring
import Mathlib.Tactic.FieldSimp
import Mathlib.Tactic.NormNum
import Mathlib.Tactic.Positivity
import Mathlib.Tactic.Push
import Mathlib.Tactic.Tauto
import Mathlib.Tactic.IntervalCases
import Mathlib.Tactic.SplitIfs
import Mathlib.Tactic.ByContra
import Mathlib.Tactic.Use
import Mathlib.Tactic.Set
import Mathlib.Tactic.LinearCombination
import Mathlib.Data.Rat.Floor
import Mathlib.Algebra.Order.Field.Rat
import Mathlib.Data.List.Basic
import Mathlib.Data.List.Range

/-!
Common imports, and the small pieces of Python/numpy semantics that several models share.
-/

namespace Verif

/-- Python exceptions, as values. Used for all the `raise` statements and built-in exceptions of the modelled functions. -/
inductive Err
  | valueError | indexError | keyError | typeError | attributeError | zeroDivision
  | unboundLocal | exception | notImplemented | assertion | overflow | nameError
  deriving DecidableEq, Repr

/-- One bound of a Python slice `a[lo:hi]` on an axis of length `size`, after Python's own
normalisation: negative bounds count from the end, and both are clipped to `[0, size]`. Used for schedule.py:1990-2013. -/
def pyBound (size : Nat) (a : Int) : Nat :=
  if a < 0 then (size + a).toNat else min a.toNat size

/-- `i` is selected by the Python slice `a[lo:hi]` on an axis of length `size`. Used for schedule.py:1990-2013. -/
def inSlice (size : Nat) (lo hi : Int) (i : Nat) : Bool :=
  decide (pyBound size lo ≤ i) && decide (i < pyBound size hi)

theorem pyBound_le (size : Nat) (a : Int) : pyBound size a ≤ size := by
  unfold pyBound; split <;> omega

theorem pyBound_nat (size lo : Nat) : pyBound size lo = min lo size := by
  unfold pyBound; split <;> omega

theorem inSlice_nat (size : Nat) (lo hi : Nat) (i : Nat) :
    inSlice size lo hi i = true ↔ lo ≤ i ∧ i < hi ∧ i < size := by
  unfold inSlice
  rw [pyBound_nat, pyBound_nat, Bool.and_eq_true, decide_eq_true_iff, decide_eq_true_iff]
  omega

/-- `np.argmax` on the first `n` entries: the first index holding the maximum. Used for schedule.py:1204-1207. -/
def argmax (f : Nat → ℚ) : Nat → Nat
  | 0 => 0
  | n + 1 => if f (argmax f n) < f n then n else argmax f n

theorem argmax_lt (f : Nat → ℚ) : ∀ {n : Nat}, 0 < n → argmax f n < n
  | 0, h => absurd h (lt_irrefl 0)
  | 1, _ => by simp [argmax]
  | n + 2, _ => by
    have := argmax_lt f (n := n + 1) (by omega)
    rw [argmax]; split <;> omega

theorem argmax_max (f : Nat → ℚ) : ∀ {n j : Nat}, j < n → f j ≤ f (argmax f n)
  | 0, _, h => absurd h (by omega)
  | n + 1, j, h => by
    rw [argmax]
    rcases Nat.lt_succ_iff_lt_or_eq.mp h with h | rfl
    · have := argmax_max f h
      split
      · linarith
      · exact this
    · split
      · exact le_refl _
      · linarith

theorem argmax_first (f : Nat → ℚ) : ∀ {n j : Nat}, j < argmax f n → f j < f (argmax f n)
  | 0, _, h => by simp [argmax] at h
  | n + 1, j, h => by
    rw [argmax] at h ⊢
    split at h
    · rename_i hlt
      rw [if_pos hlt]
      have := argmax_max f h
      linarith
    · rename_i hlt
      rw [if_neg hlt]
      exact argmax_first f h

/-- Sum of the first `n` values. Used for schedule.py:1764-1775. -/
def sumTo (f : Nat → ℚ) : Nat → ℚ
  | 0 => 0
  | n + 1 => sumTo f n + f n

theorem sumTo_congr {f g : Nat → ℚ} : ∀ {n : Nat}, (∀ k, k < n → f k = g k) → sumTo f n = sumTo g n
  | 0, _ => rfl
  | n + 1, h => by
    rw [sumTo, sumTo, sumTo_congr (fun k hk => h k (by omega)), h n (by omega)]

theorem sumTo_nonneg {f : Nat → ℚ} : ∀ {n : Nat}, (∀ k, k < n → 0 ≤ f k) → 0 ≤ sumTo f n
  | 0, _ => le_refl _
  | n + 1, h => by
    have h1 := sumTo_nonneg (n := n) (fun k hk => h k (by omega))
    have h2 := h n (by omega)
    simp only [sumTo]; linarith

theorem sumTo_le {f : Nat → ℚ} {c : ℚ} :
    ∀ {n : Nat}, (∀ k, k < n → f k ≤ c) → sumTo f n ≤ n * c
  | 0, _ => by simp [sumTo]
  | n + 1, h => by
    have h1 := sumTo_le (n := n) (fun k hk => h k (by omega))
    have h2 := h n (by omega)
    simp only [sumTo]; push_cast; linarith

end Verif
