import Verif.IO.PropsXstSelect
import Mathlib.Algebra.BigOperators.Group.List.Basic

/-!
# Selection of cross-correlations whose sub-bands change with time (C148)
-/

namespace Verif.IO

/-- The mask selects a rectangle: a time at which something is selected has all the columns selected at some time. -/
def Rectangular (n w : Nat) (m : Nat → Nat → Bool) : Prop :=
  ∀ t < n, ∀ t' < n, ∀ k < w, ∀ k' < w, m t k = true → m t' k' = true → m t' k = true

/-- Columns of row `t`. -/
def rowCols (w : Nat) (m : Nat → Nat → Bool) (t : Nat) : List Nat := (List.range w).filter fun k => m t k

/-- Columns of some row. -/
def allCols (n w : Nat) (m : Nat → Nat → Bool) : List Nat := (List.range w).filter fun k => (List.range n).any fun t => m t k

theorem cells_sum (n w : Nat) (m : Nat → Nat → Bool) : (maskCells n w m).length = ((List.range n).map fun t => (rowCols w m t).length).sum := by
  unfold maskCells
  rw [List.length_flatMap]
  congr 1
  refine List.map_congr_left fun t _ => ?_
  rw [List.length_map]; rfl

/-- Rows without anything count for nothing. -/
theorem active_sum (w : Nat) (m : Nat → Nat → Bool) (l : List Nat) : (l.map fun t => (rowCols w m t).length).sum =
    ((l.filter fun t => (List.range w).any fun k => m t k).map fun t => (rowCols w m t).length).sum := by
  induction l with
  | nil => rfl
  | cons t l ih =>
    by_cases c : ((List.range w).any fun k => m t k) = true
    · rw [List.filter_cons_of_pos (p := fun t => (List.range w).any fun k => m t k) c, List.map_cons, List.map_cons, List.sum_cons, List.sum_cons, ih]
    · rw [List.filter_cons_of_neg (p := fun t => (List.range w).any fun k => m t k) c, List.map_cons, List.sum_cons, ih]
      have : rowCols w m t = [] := by
        refine List.filter_eq_nil_iff.2 fun k hk e => c ?_
        exact List.any_eq_true.2 ⟨k, hk, e⟩
      rw [this]
      exact Nat.zero_add _

theorem sum_const_iff (f : Nat → Nat) (F : Nat) (l : List Nat) (h : ∀ t ∈ l, f t ≤ F) :
    (l.map f).sum ≤ l.length * F ∧ ((l.map f).sum = l.length * F ↔ ∀ t ∈ l, f t = F) := by
  induction l with
  | nil => simp
  | cons t l ih =>
    obtain ⟨a, b⟩ := ih fun x hx => h x (List.mem_cons_of_mem _ hx)
    have c := h t List.mem_cons_self
    rw [List.map_cons, List.sum_cons, List.length_cons, Nat.add_mul, Nat.one_mul]
    refine ⟨by omega, fun e x hx => ?_, fun e => ?_⟩
    · rcases List.mem_cons.1 hx with rfl | hx
      · omega
      · exact b.1 (by omega) x hx
    · have := b.2 fun x hx => e x (List.mem_cons_of_mem _ hx)
      have := e t List.mem_cons_self
      omega

theorem rowCols_sub (n w : Nat) (m : Nat → Nat → Bool) (t : Nat) (ht : t < n) : (rowCols w m t).Sublist (allCols n w m) := by
  unfold rowCols allCols
  refine List.monotone_filter_right _ fun k e => ?_
  exact List.any_eq_true.2 ⟨t, List.mem_range.2 ht, e⟩

/-- The count of the cells is that of a rectangle exactly when the mask is one. -/
theorem cells_rectangular (n w : Nat) (m : Nat → Nat → Bool) :
    (maskCells n w m).length = maskTimes n w m * maskFreqs n w m ↔ Rectangular n w m := by
  have key := sum_const_iff (fun t => (rowCols w m t).length) (allCols n w m).length
    ((List.range n).filter fun t => (List.range w).any fun k => m t k)
    fun t ht => (rowCols_sub n w m t (List.mem_range.1 (List.mem_filter.1 ht).1)).length_le
  rw [cells_sum, active_sum]
  show _ = ((List.range n).filter fun t => (List.range w).any fun k => m t k).length * (allCols n w m).length ↔ _
  rw [key.2]
  constructor
  · intro h t ht t' ht' k hk k' hk' e e'
    have act : t' ∈ (List.range n).filter fun t => (List.range w).any fun k => m t k :=
      List.mem_filter.2 ⟨List.mem_range.2 ht', List.any_eq_true.2 ⟨k', List.mem_range.2 hk', e'⟩⟩
    have same := (rowCols_sub n w m t' ht').eq_of_length (h t' act)
    have : k ∈ allCols n w m := List.mem_filter.2 ⟨List.mem_range.2 hk, List.any_eq_true.2 ⟨t, List.mem_range.2 ht, e⟩⟩
    rw [← same] at this
    exact (List.mem_filter.1 this).2
  · intro h t ht
    obtain ⟨ht1, ht2⟩ := List.mem_filter.1 ht
    obtain ⟨k', hk', e'⟩ := List.any_eq_true.1 ht2
    congr 1
    unfold rowCols allCols
    refine List.filter_congr fun k hk => ?_
    rw [Bool.eq_iff_iff]
    constructor
    · intro e; exact List.any_eq_true.2 ⟨t, ht1, e⟩
    · intro e
      obtain ⟨u, hu, e⟩ := List.any_eq_true.1 e
      exact h u (List.mem_range.1 hu) t (List.mem_range.1 ht1) k (List.mem_range.1 hk) k' (List.mem_range.1 hk') e e'

/-- **C148.** For every file, whatever the sub-bands of each time are, a selection is refused exactly when two times, both with something selected, do not
have the same columns selected. -/
theorem xst_refused (time : List ℚ) (table : List (List ℚ)) (w : Nat) (tsel fsel : ℚ → Bool) :
    xstGet time table w tsel fsel = .error .valueError ↔
      ¬ Rectangular time.length w (fun t k => tsel (time.getD t 0) && fsel ((table.getD t []).getD k 0)) := by
  unfold xstGet sliceOf
  have k := cells_rectangular time.length w (bothMask time (fun t => table.getD t []) tsel fsel)
  by_cases c : Rectangular time.length w (bothMask time (fun t => table.getD t []) tsel fsel)
  · rw [if_pos (k.2 c)]
    exact ⟨fun h => (by cases h), fun h => absurd c h⟩
  · rw [if_neg (mt k.1 c)]
    exact ⟨fun _ => c, fun _ => rfl⟩

/-- **C148 (violated for every such file).** A sub-band which is recorded in one column at a time and in another one at another time cannot be selected over both
times: if it is the only one selected at the first of them, and is elsewhere at the second, the selection is refused. -/
theorem xst_moved_violated (time : List ℚ) (table : List (List ℚ)) (w : Nat) (tsel : ℚ → Bool) (x : ℚ) (t t' k k' : Nat) (ht : t < time.length)
    (ht' : t' < time.length) (hs : tsel (time.getD t 0) = true) (hs' : tsel (time.getD t' 0) = true) (hk : k < w) (hk' : k' < w)
    (h : (table.getD t []).getD k 0 = x) (h' : (table.getD t' []).getD k' 0 = x) (hne : (table.getD t' []).getD k 0 ≠ x) :
    xstGet time table w tsel (fun f => decide (f = x)) = .error .valueError := by
  refine (xst_refused time table w tsel _).2 fun r => hne ?_
  have := r t ht t' ht' k hk k' hk' (Bool.and_eq_true_iff.2 ⟨hs, decide_eq_true h⟩) (Bool.and_eq_true_iff.2 ⟨hs', decide_eq_true h'⟩)
  exact of_decide_eq_true (Bool.and_eq_true_iff.1 this).2

theorem cells_all (n w : Nat) : maskCells n w (fun _ _ => true) = (List.range n).flatMap fun t => (List.range w).map fun k => (t, k) := by
  unfold maskCells
  congr 1
  funext t
  rw [List.filter_true]

/-- **C148 (violated for every such file).** If everything is selected, the values of a column are put together whatever the frequencies are: the value at
place `(i, j)` is that of the file at `(i, j)`, for all times, even where two times have different frequencies in column `j`. -/
theorem xst_column_violated (time : List ℚ) (table : List (List ℚ)) (w : Nat) (hn : time ≠ []) (hw : 0 < w) :
    ∃ s : XSlice, xstGet time table w (fun _ => true) (fun _ => true) = .ok s ∧ s.nt = time.length ∧ s.nf = w ∧
      ∀ i j : Nat, i < time.length → j < w → s.src i j = some (i, j) := by
  have rect : Rectangular time.length w (bothMask time (fun t => table.getD t []) (fun _ => true) (fun _ => true)) :=
    fun _ _ _ _ _ _ _ _ _ _ => rfl
  have c := (cells_rectangular _ _ _).2 rect
  have e1 : maskTimes time.length w (bothMask time (fun t => table.getD t []) (fun _ => true) (fun _ => true)) = time.length := by
    unfold maskTimes
    rw [List.filter_eq_self.2 fun t _ => List.any_eq_true.2 ⟨0, List.mem_range.2 hw, rfl⟩, List.length_range]
  have e2 : maskFreqs time.length w (bothMask time (fun t => table.getD t []) (fun _ => true) (fun _ => true)) = w := by
    unfold maskFreqs
    rw [List.filter_eq_self.2 fun t _ => List.any_eq_true.2 ⟨0, List.mem_range.2 (List.length_pos_iff.2 hn), rfl⟩, List.length_range]
  refine ⟨_, if_pos c, e1, e2, fun i j hi hj => ?_⟩
  show (maskCells time.length w (fun _ _ => true))[i * maskFreqs time.length w (bothMask time (fun t => table.getD t []) (fun _ => true) (fun _ => true)) + j]? = _
  rw [e2, cells_all]
  have := product_get (List.range w) (List.range time.length) i j i j (List.getElem?_range hi) (List.getElem?_range hj)
  rwa [List.length_range] at this

/-- Hypotheses: two times and two sub-bands, the second one of which comes first later. -/
example : xstGet [0, 1] [[50, 60], [60, 70]] 2 (fun _ => true) (fun f => decide (f = 60)) = .error .valueError :=
  xst_moved_violated _ _ _ _ 60 0 1 1 0 (by decide) (by decide) rfl rfl (by decide) (by decide) rfl rfl (by decide +kernel)

end Verif.IO
