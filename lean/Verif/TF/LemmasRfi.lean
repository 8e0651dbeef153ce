import Verif.TF.Rfi
import Mathlib.LinearAlgebra.Lagrange
import Mathlib.Tactic.Linarith
import Mathlib.Tactic.Positivity
import Mathlib.Tactic.LinearCombination

/-!
# Lemmas on the clipping of interferences
-/

namespace Verif.TF

/-! ## Least squares -/

/-- Sum of the squared distances of a polynomial to points. -/
noncomputable def sqErr (pts : List (ℝ × ℝ)) (P : Polynomial ℝ) : ℝ := (pts.map fun q => (P.eval q.1 - q.2) ^ 2).sum

/-- What `np.polyfit` computes: a polynomial of degree at most `deg` at the least distance of the points. -/
def IsLeastSquares (deg : Nat) (pts : List (ℝ × ℝ)) (P : Polynomial ℝ) : Prop :=
  P.natDegree ≤ deg ∧ ∀ Q : Polynomial ℝ, Q.natDegree ≤ deg → sqErr pts P ≤ sqErr pts Q

theorem sum_sq_mid (pts : List (ℝ × ℝ)) (P Q : Polynomial ℝ) :
    4 * sqErr pts (Polynomial.C (1 / 2) * (P + Q)) + (pts.map fun q => (P.eval q.1 - Q.eval q.1) ^ 2).sum = 2 * sqErr pts P + 2 * sqErr pts Q := by
  unfold sqErr
  induction pts with
  | nil => simp
  | cons q l ih =>
    simp only [List.map_cons, List.sum_cons, Polynomial.eval_mul, Polynomial.eval_C, Polynomial.eval_add] at ih ⊢
    linear_combination ih

theorem sum_sq_zero {α : Type} (l : List α) (f : α → ℝ) (h : (l.map fun q => (f q) ^ 2).sum ≤ 0) : ∀ q ∈ l, f q = 0 := by
  induction l with
  | nil => simp
  | cons a l ih =>
    rw [List.map_cons, List.sum_cons] at h
    have h1 : 0 ≤ (l.map fun q => (f q) ^ 2).sum := List.sum_nonneg (by
      intro x hx
      obtain ⟨q, -, rfl⟩ := List.mem_map.1 hx
      positivity)
    have h2 : 0 ≤ f a ^ 2 := sq_nonneg _
    intro q hq
    rcases List.mem_cons.1 hq with rfl | hq
    · exact pow_eq_zero_iff (two_ne_zero) |>.1 (by linarith)
    · exact ih (by linarith) q hq

/-- Two polynomials of low degree with the same values at enough points are equal. -/
theorem poly_eq (deg : Nat) (xs : List ℝ) (hn : xs.Nodup) (hl : deg < xs.length) (P Q : Polynomial ℝ) (hP : P.natDegree ≤ deg)
    (hQ : Q.natDegree ≤ deg) (h : ∀ x ∈ xs, P.eval x = Q.eval x) : P = Q := by
  refine Polynomial.eq_of_degree_sub_lt_of_eval_finset_eq xs.toFinset ?_ fun x hx => h x (List.mem_toFinset.1 hx)
  rw [List.toFinset_card_of_nodup hn]
  have : (P - Q).natDegree ≤ deg := (Polynomial.natDegree_sub_le P Q).trans (max_le hP hQ)
  exact (Polynomial.degree_le_natDegree).trans_lt (by exact_mod_cast this.trans_lt hl)

/-- With more points than the degree, the least squares are unique. -/
theorem least_unique (deg : Nat) (pts : List (ℝ × ℝ)) (hn : (pts.map Prod.fst).Nodup) (hl : deg < pts.length) (P Q : Polynomial ℝ)
    (hP : IsLeastSquares deg pts P) (hQ : IsLeastSquares deg pts Q) : P = Q := by
  have hd : (Polynomial.C (1 / 2 : ℝ) * (P + Q)).natDegree ≤ deg :=
    (Polynomial.natDegree_C_mul_le _ _).trans ((Polynomial.natDegree_add_le P Q).trans (max_le hP.1 hQ.1))
  have h1 := hP.2 _ hd
  have h2 := hQ.2 _ hd
  have h3 := sum_sq_mid pts P Q
  have h4 := sum_sq_zero pts (fun q => P.eval q.1 - Q.eval q.1) (by linarith)
  refine poly_eq deg (pts.map Prod.fst) hn (by simpa using hl) P Q hP.1 hQ.1 fun x hx => ?_
  obtain ⟨q, hq, rfl⟩ := List.mem_map.1 hx
  linarith [h4 q hq]

/-- Points on a polynomial of low degree are fitted by this polynomial. -/
theorem least_exact (deg : Nat) (pts : List (ℝ × ℝ)) (hn : (pts.map Prod.fst).Nodup) (hl : deg < pts.length) (P Q : Polynomial ℝ)
    (hP : IsLeastSquares deg pts P) (hQ : Q.natDegree ≤ deg) (h : ∀ q ∈ pts, Q.eval q.1 = q.2) : P = Q := by
  have h0 : sqErr pts Q = 0 := by
    unfold sqErr
    refine List.sum_eq_zero fun x hx => ?_
    obtain ⟨q, hq, rfl⟩ := List.mem_map.1 hx
    rw [h q hq]
    ring
  refine least_unique deg pts hn hl P Q hP ⟨hQ, fun R _ => ?_⟩
  rw [h0]
  unfold sqErr
  refine List.sum_nonneg fun x hx => ?_
  obtain ⟨q, -, rfl⟩ := List.mem_map.1 hx
  positivity

/-- With one more point than the degree, the polynomial goes through all the points. -/
theorem least_through (pts : List (ℝ × ℝ)) (deg : Nat) (hn : (pts.map Prod.fst).Nodup) (hl : pts.length = deg + 1) (P : Polynomial ℝ)
    (hP : IsLeastSquares deg pts P) : ∀ q ∈ pts, P.eval q.1 = q.2 := by
  classical
  let val : ℝ → ℝ := fun x => ((pts.find? fun q => decide (q.1 = x)).map Prod.snd).getD 0
  have hval : ∀ q ∈ pts, val q.1 = q.2 := by
    intro q hq
    have hs : (pts.find? fun r => decide (r.1 = q.1)).isSome := by
      rw [List.find?_isSome]
      exact ⟨q, hq, by simp⟩
    obtain ⟨r, hr⟩ := Option.isSome_iff_exists.1 hs
    have hr1 := List.find?_some hr
    have hr2 := List.mem_of_find?_eq_some hr
    have : r = q := List.inj_on_of_nodup_map hn hr2 hq (by simpa using hr1)
    show ((pts.find? fun r => decide (r.1 = q.1)).map Prod.snd).getD 0 = _
    rw [hr, this]
    rfl
  let s := (pts.map Prod.fst).toFinset
  have hinj : Set.InjOn (id : ℝ → ℝ) s := fun _ _ _ _ h => h
  have hcard : s.card = deg + 1 := by
    rw [List.toFinset_card_of_nodup hn, List.length_map, hl]
  have hQd : (Lagrange.interpolate s id val).natDegree ≤ deg := by
    have := Lagrange.degree_interpolate_lt (v := id) val hinj
    rw [hcard] at this
    rcases eq_or_ne (Lagrange.interpolate s id val) 0 with h0 | h0
    · rw [h0]; simp
    · rw [Polynomial.degree_eq_natDegree h0] at this
      have h2 : (Lagrange.interpolate s id val).natDegree < deg + 1 := by exact_mod_cast this
      omega
  have hQe : ∀ q ∈ pts, (Lagrange.interpolate s id val).eval q.1 = q.2 := by
    intro q hq
    have := Lagrange.eval_interpolate_at_node (v := id) val hinj (show q.1 ∈ s from List.mem_toFinset.2 (List.mem_map.2 ⟨q, hq, rfl⟩))
    rw [← hval q hq]
    exact this
  rw [least_exact deg pts hn (by omega) P _ hP hQd hQe]
  exact hQe

/-- A constant added to all the points is added to the polynomial. -/
theorem least_shift (deg : Nat) (pts : List (ℝ × ℝ)) (c : ℝ) (P : Polynomial ℝ) (hP : IsLeastSquares deg pts P) :
    IsLeastSquares deg (pts.map fun q => (q.1, q.2 + c)) (P + Polynomial.C c) := by
  have e : ∀ Q : Polynomial ℝ, sqErr (pts.map fun q => (q.1, q.2 + c)) (Q + Polynomial.C c) = sqErr pts Q := by
    intro Q
    unfold sqErr
    rw [List.map_map]
    congr 1
    refine List.map_congr_left fun q _ => ?_
    simp
  refine ⟨?_, fun Q hQ => ?_⟩
  · exact (Polynomial.natDegree_add_le _ _).trans (max_le hP.1 (by simp))
  · have := hP.2 (Q - Polynomial.C c) ((Polynomial.natDegree_sub_le _ _).trans (max_le hQ (by simp)))
    rw [e, ← sub_add_cancel Q (Polynomial.C c), e]
    exact this

/-! ## Medians -/

section
variable {α : Type} [LinearOrder α]

theorem sort_unique (l l' : List α) (h : l.Perm l') : l.insertionSort (· ≤ ·) = l'.insertionSort (· ≤ ·) := by
  refine List.Perm.eq_of_pairwise (fun a b _ _ h1 h2 => le_antisymm h1 h2) (List.pairwise_insertionSort _ _) (List.pairwise_insertionSort _ _) ?_
  exact ((List.perm_insertionSort _ _).trans h).trans (List.perm_insertionSort _ _).symm

theorem medianBy_perm (half : α → α → α) (l l' : List α) (h : l.Perm l') : medianBy half l = medianBy half l' := by
  unfold medianBy
  rw [sort_unique l l' h, h.length_eq]

theorem sort_map {β : Type} [LinearOrder β] (f : α → β) (hf : Monotone f) (l : List α) :
    (l.map f).insertionSort (· ≤ ·) = (l.insertionSort (· ≤ ·)).map f := by
  refine List.Perm.eq_of_pairwise (fun a b _ _ h1 h2 => le_antisymm h1 h2) (List.pairwise_insertionSort _ _) ?_ ?_
  · exact (List.pairwise_insertionSort (· ≤ ·) l).map f fun a b h => hf h
  · exact (List.perm_insertionSort _ _).trans ((List.perm_insertionSort (· ≤ ·) l).symm.map f)

theorem medianBy_map {β : Type} [LinearOrder β] (f : α → β) (hf : Monotone f) (half : α → α → α) (half' : β → β → β)
    (hh : ∀ a b, half' (f a) (f b) = f (half a b)) (l : List α) : medianBy half' (l.map f) = (medianBy half l).map f := by
  unfold medianBy
  rw [sort_map f hf, List.length_map]
  by_cases h : l.length % 2 = 1
  · rw [if_pos h, if_pos h, List.getElem?_map]
  · rw [if_neg h, if_neg h, List.getElem?_map, List.getElem?_map]
    cases (l.insertionSort (· ≤ ·))[l.length / 2 - 1]? with
    | none => rfl
    | some a =>
      cases (l.insertionSort (· ≤ ·))[l.length / 2]? with
      | none => rfl
      | some b => exact congrArg some (hh a b)

theorem medianBy_const (half : α → α → α) (m : α) (hm : half m m = m) (l : List α) (h0 : l ≠ []) (h : ∀ x ∈ l, x = m) :
    medianBy half l = some m := by
  have hpos : 0 < l.length := List.length_pos_iff.2 h0
  have hget : ∀ i < l.length, (l.insertionSort (· ≤ ·))[i]? = some m := by
    intro i hi
    have hi' : i < (l.insertionSort (· ≤ ·)).length := by rw [List.length_insertionSort]; exact hi
    rw [List.getElem?_eq_getElem hi']
    congr 1
    exact h _ ((List.mem_insertionSort (· ≤ ·)).1 (List.getElem_mem hi'))
  unfold medianBy
  rw [hget _ (by omega), hget (l.length / 2 - 1) (by omega)]
  split
  · rfl
  · exact congrArg some hm

theorem medianBy_bound (P : α → Prop) (half : α → α → α) (hh : ∀ a b, P a → P b → P (half a b)) (l : List α) (h : ∀ x ∈ l, P x) (m : α)
    (hm : medianBy half l = some m) : P m := by
  have hget : ∀ (i : Nat) (x : α), (l.insertionSort (· ≤ ·))[i]? = some x → P x := by
    intro i x hx
    exact h _ ((List.mem_insertionSort (· ≤ ·)).1 (List.mem_of_getElem? hx))
  unfold medianBy at hm
  by_cases hl : l.length % 2 = 1
  · rw [if_pos hl] at hm
    exact hget _ _ hm
  · rw [if_neg hl] at hm
    obtain ⟨a, ha, hm⟩ := Option.bind_eq_some_iff.1 hm
    obtain ⟨b, hb, rfl⟩ := Option.map_eq_some_iff.1 hm
    exact hh a b (hget _ _ ha) (hget _ _ hb)

theorem medianBy_nil (half : α → α → α) : medianBy half [] = none := rfl

end

end Verif.TF
