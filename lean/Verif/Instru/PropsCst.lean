import Verif.Instru.Cst
import Verif.Parset.PropsText
import Mathlib.Tactic.Linarith
import Mathlib.Tactic.FieldSimp
import Mathlib.Tactic.Ring
import Mathlib.Tactic.NormNum
import Mathlib.Data.List.GetD
import Mathlib.Data.Finset.Card
import Mathlib.Data.Finset.Image
import Mathlib.Data.Finset.Dedup

/-!
# C150: tables of antenna models are read on their grid and interpolated on it
-/

namespace Verif.Instru.Cst

open Verif Parset

/-! ## Names and headers -/

theorem after_none (pat : Str) : ∀ s : Str, after pat s = none ↔ ¬ pat <:+: s
  | [] => by
    unfold after
    by_cases h : pat = []
    · rw [if_pos h]; simp [h]
    · rw [if_neg h]; simp [h]
  | x :: s => by
    unfold after
    by_cases h : pat.isPrefixOf (x :: s) = true
    · rw [if_pos h]
      have hp := (List.isPrefixOf_iff_prefix.1 h).isInfix
      simp [hp]
    · rw [if_neg h, after_none pat s, List.infix_cons_iff]
      have hp : ¬ pat <+: x :: s := fun hh => h (List.isPrefixOf_iff_prefix.2 hh)
      simp [hp]

theorem after_first : ∀ (a : Str) (t : Str), '(' ∉ a → after ['(', 'f', '='] (a ++ ('(' :: 'f' :: '=' :: t)) = some t
  | [], t, _ => by
    show after _ ('(' :: 'f' :: '=' :: t) = _
    unfold after
    rw [if_pos (by simp [List.isPrefixOf])]; rfl
  | x :: a, t, h => by
    have hx : '(' ≠ x := fun e => h (by rw [← e]; exact List.mem_cons_self)
    show after _ (x :: (a ++ _)) = _
    unfold after
    rw [if_neg (by simp [List.isPrefixOf, hx])]
    exact after_first a t fun hc => h (List.mem_cons_of_mem _ hc)

theorem takeWhile_stop (c : Char) : ∀ (t u : Str), c ∉ t → (t ++ c :: u).takeWhile (· ≠ c) = t
  | [], u, _ => by simp
  | x :: t, u, h => by
    have hx : x ≠ c := fun e => h (by simp [e])
    rw [List.cons_append, List.takeWhile_cons_of_pos (by simpa using hx), takeWhile_stop c t u fun hc => h (List.mem_cons_of_mem _ hc)]

/-- The frequency of a file is what its name has between `(f=` and the next parenthesis. -/
theorem frequency_of_name (a t u : Str) (ha : '(' ∉ a) (ht : ')' ∉ t) : freqText (a ++ ('(' :: 'f' :: '=' :: (t ++ ')' :: u))) = .ok t := by
  unfold freqText freqGroup
  rw [after_first a _ ha]
  show Option.elim (if ')' ∈ t ++ ')' :: u then some ((t ++ ')' :: u).takeWhile (· ≠ ')')) else none) _ _ = _
  rw [if_pos (by simp), takeWhile_stop ')' t u ht]
  rfl

/-- A name without `(f=` is not given an unknown frequency: the file cannot be read. -/
theorem no_frequency (name : Str) (h : ¬ ['(', 'f', '='] <:+: name) : freqText name = .error .indexError := by
  unfold freqText freqGroup
  rw [(after_none _ name).2 h]
  rfl

example : freqText "farfield (f=30.5) [1].txt".toList = .ok "30.5".toList := by decide +kernel
example : freqText "farfield_30.txt".toList = .error .indexError := by decide +kernel

/-- One column of a header, as CST writes it. -/
def written (c : Str × Str) : Str := c.1 ++ '[' :: (c.2 ++ [']'])

theorem splitOn_written : ∀ (l : List (Str × Str)) (e : Str), (∀ c ∈ l, ']' ∉ c.1 ∧ ']' ∉ c.2) → ']' ∉ e →
    splitOn ']' (l.flatMap written ++ e) = (l.map fun c => c.1 ++ '[' :: c.2) ++ [e]
  | [], e, _, he => by simpa using splitOn_none ']' e he
  | c :: l, e, h, he => by
    have hc := h c (by simp)
    have : (c :: l).flatMap written ++ e = (c.1 ++ '[' :: c.2) ++ ']' :: (l.flatMap written ++ e) := by
      simp [written, List.flatMap_cons]
    rw [this, splitOn_append ']' _ _ (by simp [hc.1, hc.2]), splitOn_written l e (fun d hd => h d (List.mem_cons_of_mem _ hd)) he]
    rfl

theorem column_written (n u : Str) (hn : '[' ∉ n) (hu : '[' ∉ u) :
    column (n ++ '[' :: u) = .ok (n.filter (· ≠ ' '), (strip u).filter (· ≠ '.')) := by
  unfold column
  rw [splitOn_append '[' n u hn, splitOn_none '[' u hu]
  exact if_pos (by decide : 2 = 2)

theorem mapM_column : ∀ l : List (Str × Str), (∀ c ∈ l, '[' ∉ c.1 ∧ '[' ∉ c.2) →
    (l.map fun c => c.1 ++ '[' :: c.2).mapM column = .ok (l.map fun c => (c.1.filter (· ≠ ' '), (strip c.2).filter (· ≠ '.')))
  | [], _ => rfl
  | c :: l, h => by
    rw [List.map_cons, List.mapM_cons, column_written c.1 c.2 (h c (by simp)).1 (h c (by simp)).2, mapM_column l fun d hd => h d (List.mem_cons_of_mem _ hd)]
    rfl

/-- Every column of a header is found, in order, whatever follows the last one. -/
theorem columns_read (l : List (Str × Str)) (e : Str) (h : ∀ c ∈ l, '[' ∉ c.1 ∧ '[' ∉ c.2 ∧ ']' ∉ c.1 ∧ ']' ∉ c.2) (he : ']' ∉ e) :
    columns (l.flatMap written ++ e) = .ok (l.map fun c => (c.1.filter (· ≠ ' '), (strip c.2).filter (· ≠ '.'))) := by
  unfold columns
  rw [splitOn_written l e (fun c hc => ⟨(h c hc).2.2.1, (h c hc).2.2.2⟩) he, List.dropLast_concat]
  exact mapM_column l fun c hc => ⟨(h c hc).1, (h c hc).2.1⟩

example : columns "Theta [deg.]  Phi [deg.]  Abs(E)[      ]\n".toList =
    .ok [("Theta".toList, "deg".toList), ("Phi".toList, "deg".toList), ("Abs(E)".toList, [])] := by decide +kernel

/-! ## Grid -/

/-- The table of a file whose `Theta` changes the fastest. -/
def table (m n : Nat) (ph th : Nat → ℚ) (g : Nat → Nat → ℚ) : List Row :=
  (List.range m).flatMap fun i => (List.range n).map fun j => ⟨ph i, th j, g i j⟩

theorem table_length (m n : Nat) (ph th : Nat → ℚ) (g : Nat → Nat → ℚ) : (table m n ph th g).length = m * n := by
  simp [table, List.length_flatMap]

theorem table_get (m n : Nat) (ph th : Nat → ℚ) (g : Nat → Nat → ℚ) (i j : Nat) (hi : i < m) (hj : j < n) :
    cell (table m n ph th g) n i j = ⟨ph i, th j, g i j⟩ := by
  unfold cell table
  induction m with
  | zero => omega
  | succ m ih =>
    rw [List.range_succ, List.flatMap_append, List.flatMap_singleton]
    have hl : ((List.range m).flatMap fun i => (List.range n).map fun j => (⟨ph i, th j, g i j⟩ : Row)).length = m * n := table_length m n ph th g
    by_cases h : i < m
    · have hlt : i * n + j < m * n := by
        calc i * n + j < i * n + n := by omega
          _ = (i + 1) * n := by ring
          _ ≤ m * n := Nat.mul_le_mul_right n h
      rw [List.getD_append _ _ _ _ (by rw [hl]; exact hlt)]
      exact ih h
    · obtain rfl : i = m := by omega
      rw [List.getD_append_right _ _ _ _ (by rw [hl]; omega), hl, Nat.add_sub_cancel_left]
      simp [hj]

theorem dedup_card (l : List ℚ) : l.dedup.length = l.toFinset.card := (List.card_toFinset l).symm

theorem table_phi (m n : Nat) (hn : 0 < n) (ph th : Nat → ℚ) (g : Nat → Nat → ℚ) (hp : ∀ i < m, ∀ k < m, ph i = ph k → i = k) :
    ((table m n ph th g).map Row.phi).dedup.length = m := by
  rw [dedup_card]
  have : ((table m n ph th g).map Row.phi).toFinset = (Finset.range m).image ph := by
    ext x
    simp only [List.mem_toFinset, List.mem_map, table, List.mem_flatMap, List.mem_range, Finset.mem_image, Finset.mem_range]
    constructor
    · rintro ⟨r, ⟨i, hi, j, hj, rfl⟩, rfl⟩; exact ⟨i, hi, rfl⟩
    · rintro ⟨i, hi, rfl⟩; exact ⟨_, ⟨i, hi, 0, hn, rfl⟩, rfl⟩
  rw [this, Finset.card_image_of_injOn (fun a ha b hb e => hp a (by simpa using ha) b (by simpa using hb) e), Finset.card_range]

theorem table_theta (m n : Nat) (hm : 0 < m) (ph th : Nat → ℚ) (g : Nat → Nat → ℚ) (ht : ∀ i < n, ∀ k < n, th i = th k → i = k) :
    ((table m n ph th g).map Row.theta).dedup.length = n := by
  rw [dedup_card]
  have : ((table m n ph th g).map Row.theta).toFinset = (Finset.range n).image th := by
    ext x
    simp only [List.mem_toFinset, List.mem_map, table, List.mem_flatMap, List.mem_range, Finset.mem_image, Finset.mem_range]
    constructor
    · rintro ⟨r, ⟨i, hi, j, hj, rfl⟩, rfl⟩; exact ⟨j, hj, rfl⟩
    · rintro ⟨j, hj, rfl⟩; exact ⟨_, ⟨0, hm, j, hj, rfl⟩, rfl⟩
  rw [this, Finset.card_image_of_injOn (fun a ha b hb e => ht a (by simpa using ha) b (by simpa using hb) e), Finset.card_range]

/-- A shape is found exactly when there are rows, as many as the product of the numbers of coordinates. -/
theorem shape_spec (rows : List Row) (s : Nat × Nat) : shape rows = .ok s ↔
    rows ≠ [] ∧ rows.length = (rows.map Row.phi).dedup.length * (rows.map Row.theta).dedup.length ∧
      s = ((rows.map Row.phi).dedup.length, (rows.map Row.theta).dedup.length) := by
  unfold shape
  have h0 : (rows.map Row.theta).dedup.length = 0 ↔ rows = [] := by
    rw [dedup_card, Finset.card_eq_zero, List.toFinset_eq_empty_iff, List.map_eq_nil_iff]
  by_cases h : (rows.map Row.theta).dedup.length = 0
  · rw [if_pos h]
    exact ⟨(fun e => nomatch e), fun e => absurd (h0.1 h) e.1⟩
  · rw [if_neg h]
    have hr : rows ≠ [] := fun e => h (h0.2 e)
    have hq : (((rows.map Row.theta).dedup.length : ℕ) : ℚ) ≠ 0 := by exact_mod_cast h
    by_cases e : (rows.length : ℚ) / ((rows.map Row.theta).dedup.length : ℚ) = ((rows.map Row.phi).dedup.length : ℚ)
    · rw [if_pos e]
      have e' : rows.length = (rows.map Row.phi).dedup.length * (rows.map Row.theta).dedup.length := by
        rw [div_eq_iff hq] at e; exact_mod_cast e
      exact ⟨fun k => ⟨hr, e', (Except.ok.inj k).symm⟩, fun k => by rw [k.2.2]⟩
    · rw [if_neg e]
      refine ⟨(fun k => nomatch k), fun k => absurd ?_ e⟩
      rw [div_eq_iff hq]; exact_mod_cast k.2.1

/-- The grid of a complete table: its coordinates, 360 degrees added, with the gains in their places. -/
def expected (m n : Nat) (ph th : Nat → ℚ) (g : Nat → Nat → ℚ) : Grid :=
  ⟨(List.range m).map ph ++ [360], (List.range n).map fun j => 90 - th j,
    ((List.range m).map fun i => (List.range n).map fun j => g i j) ++ [(List.range n).map fun j => g 0 j]⟩

theorem table_shape (m n : Nat) (hm : 0 < m) (hn : 0 < n) (ph th : Nat → ℚ) (g : Nat → Nat → ℚ) (hp : ∀ i < m, ∀ k < m, ph i = ph k → i = k)
    (ht : ∀ i < n, ∀ k < n, th i = th k → i = k) : shape (table m n ph th g) = .ok (m, n) := by
  rw [shape_spec, table_length, table_phi m n hn ph th g hp, table_theta m n hm ph th g ht]
  refine ⟨fun e => ?_, rfl, rfl⟩
  have := congrArg List.length e
  rw [table_length] at this
  exact (Nat.mul_pos hm hn).ne' this

theorem table_grid (m n : Nat) (hm : 0 < m) (hn : 0 < n) (ph th : Nat → ℚ) (g : Nat → Nat → ℚ) :
    gridOf (table m n ph th g) (m, n) = expected m n ph th g := by
  unfold gridOf expected
  have h1 : ((List.range m).map fun i => (cell (table m n ph th g) n i 0).phi) = (List.range m).map ph :=
    List.map_congr_left fun i hi => by rw [table_get m n ph th g i 0 (List.mem_range.1 hi) hn]
  have h2 : ((List.range n).map fun j => 90 - (cell (table m n ph th g) n 0 j).theta) = (List.range n).map fun j => 90 - th j :=
    List.map_congr_left fun j hj => by rw [table_get m n ph th g 0 j hm (List.mem_range.1 hj)]
  have h3 : ((List.range m).map fun i => (List.range n).map fun j => (cell (table m n ph th g) n i j).gain) =
      (List.range m).map fun i => (List.range n).map fun j => g i j :=
    List.map_congr_left fun i hi => List.map_congr_left fun j hj => by
      rw [table_get m n ph th g i j (List.mem_range.1 hi) (List.mem_range.1 hj)]
  have h4 : ((List.range n).map fun j => (cell (table m n ph th g) n 0 j).gain) = (List.range n).map fun j => g 0 j :=
    List.map_congr_left fun j hj => by rw [table_get m n ph th g 0 j hm (List.mem_range.1 hj)]
  simp only [h1, h2, h3, h4]

/-- A complete table, with increasing azimuths below 360 degrees and increasing zenith distances, gives its own grid. -/
theorem grid_read (m n : Nat) (hm : 0 < m) (hn : 0 < n) (ph th : Nat → ℚ) (g : Nat → Nat → ℚ) (hp : ∀ i k, i < k → k < m → ph i < ph k)
    (h360 : ∀ i < m, ph i < 360) (ht : ∀ i k, i < k → k < n → th i < th k) :
    interpolator (table m n ph th g) = .ok (expected m n ph th g) := by
  have inj : ∀ (N : Nat) (f : Nat → ℚ), (∀ i k, i < k → k < N → f i < f k) → ∀ i < N, ∀ k < N, f i = f k → i = k := by
    intro N f hf i hi k hk e
    rcases Nat.lt_trichotomy i k with h | h | h
    · exact absurd e (hf i k h hk).ne
    · exact h
    · exact absurd e (hf k i h hi).ne'
  unfold interpolator
  rw [table_shape m n hm hn ph th g (inj m ph hp) (inj n th ht)]
  show (if monotonic (gridOf (table m n ph th g) (m, n)).xs ∧ monotonic (gridOf (table m n ph th g) (m, n)).ys then
    Except.ok (gridOf (table m n ph th g) (m, n)) else Except.error Err.valueError) = _
  rw [table_grid m n hm hn]
  refine if_pos ⟨Or.inl ?_, Or.inr ?_⟩
  · show ((List.range m).map ph ++ [360]).Pairwise (· < ·)
    rw [List.pairwise_append]
    refine ⟨?_, List.pairwise_singleton _ _, ?_⟩
    · rw [List.pairwise_map]
      exact List.Pairwise.imp_of_mem (fun _ hb hab => hp _ _ hab (List.mem_range.1 hb)) List.pairwise_lt_range
    · intro a ha b hb
      obtain ⟨i, hi, rfl⟩ := List.mem_map.1 ha
      rw [List.mem_singleton.1 hb]; exact h360 i (List.mem_range.1 hi)
  · show ((List.range n).map fun j => 90 - th j).Pairwise (· > ·)
    rw [List.pairwise_map]
    exact List.Pairwise.imp_of_mem (fun _ hb hab => by have := ht _ _ hab (List.mem_range.1 hb); show 90 - th _ > 90 - th _; linarith) List.pairwise_lt_range

theorem monotonic_nodup (l : List ℚ) (h : monotonic l) : l.Nodup :=
  h.elim (fun h => h.imp fun e => e.ne) fun h => h.imp fun e => e.ne'

/-- A table which has 360 degrees as well as 0 (as the exports of a closed surface) is refused. -/
theorem closed_table_refused (m n : Nat) (hm : 0 < m) (hn : 0 < n) (ph th : Nat → ℚ) (g : Nat → Nat → ℚ) (hp : ∀ i < m, ∀ k < m, ph i = ph k → i = k)
    (ht : ∀ i < n, ∀ k < n, th i = th k → i = k) (i : Nat) (hi : i < m) (h : ph i = 360) :
    interpolator (table m n ph th g) = .error .valueError := by
  unfold interpolator
  rw [table_shape m n hm hn ph th g hp ht]
  show (if monotonic (gridOf (table m n ph th g) (m, n)).xs ∧ monotonic (gridOf (table m n ph th g) (m, n)).ys then
    Except.ok (gridOf (table m n ph th g) (m, n)) else Except.error Err.valueError) = _
  rw [table_grid m n hm hn]
  refine if_neg fun hh => ?_
  have hd : ((List.range m).map ph ++ [360]).Nodup := monotonic_nodup _ hh.1
  rw [List.nodup_append] at hd
  exact hd.2.2 (ph i) (List.mem_map.2 ⟨i, List.mem_range.2 hi, rfl⟩) 360 (by simp) h

/-- The same table with `Phi` changing the fastest. -/
def tableByTheta (m n : Nat) (ph th : Nat → ℚ) (g : Nat → Nat → ℚ) : List Row :=
  (List.range n).flatMap fun j => (List.range m).map fun i => ⟨ph i, th j, g i j⟩

/-- The other roles of the coordinates. -/
def swapped (r : Row) : Row := ⟨r.theta, r.phi, r.gain⟩

theorem byTheta_swapped (m n : Nat) (ph th : Nat → ℚ) (g : Nat → Nat → ℚ) :
    tableByTheta m n ph th g = (table n m th ph fun j i => g i j).map swapped := by
  unfold tableByTheta table
  rw [List.map_flatMap]
  congr 1
  funext j
  rw [List.map_map]
  rfl

theorem byTheta_shape (m n : Nat) (hm : 0 < m) (hn : 0 < n) (ph th : Nat → ℚ) (g : Nat → Nat → ℚ) (hp : ∀ i < m, ∀ k < m, ph i = ph k → i = k)
    (ht : ∀ i < n, ∀ k < n, th i = th k → i = k) : shape (tableByTheta m n ph th g) = .ok (m, n) := by
  have e1 : ((tableByTheta m n ph th g).map Row.phi).dedup.length = m := by
    rw [byTheta_swapped, List.map_map]; exact table_theta n m hn th ph _ hp
  have e2 : ((tableByTheta m n ph th g).map Row.theta).dedup.length = n := by
    rw [byTheta_swapped, List.map_map]; exact table_phi n m hm th ph _ ht
  have e3 : (tableByTheta m n ph th g).length = m * n := by rw [byTheta_swapped, List.length_map, table_length, Nat.mul_comm]
  rw [shape_spec, e1, e2, e3]
  refine ⟨fun e => ?_, rfl, rfl⟩
  rw [e] at e3
  exact (Nat.mul_pos hm hn).ne e3

/-- A complete table is refused when `Phi` changes the fastest, although it is the same grid. -/
theorem theta_major_refused (m n : Nat) (hm : 2 ≤ m) (hn : 2 ≤ n) (ph th : Nat → ℚ) (g : Nat → Nat → ℚ) (hp : ∀ i < m, ∀ k < m, ph i = ph k → i = k)
    (ht : ∀ i < n, ∀ k < n, th i = th k → i = k) : interpolator (tableByTheta m n ph th g) = .error .valueError := by
  unfold interpolator
  rw [byTheta_shape m n (by omega) (by omega) ph th g hp ht]
  show (if monotonic (gridOf (tableByTheta m n ph th g) (m, n)).xs ∧ monotonic (gridOf (tableByTheta m n ph th g) (m, n)).ys then
    Except.ok (gridOf (tableByTheta m n ph th g) (m, n)) else Except.error Err.valueError) = _
  refine if_neg fun hh => ?_
  have hc : ∀ j < 2, (cell (tableByTheta m n ph th g) n 0 j).theta = th 0 := by
    intro j hj
    have := table_get n m th ph (fun j i => g i j) 0 j (by omega) (by omega)
    unfold cell at this ⊢
    rw [Nat.zero_mul] at this ⊢
    rw [byTheta_swapped]
    have hlt : 0 + j < (table n m th ph fun j i => g i j).length := by rw [table_length]; nlinarith
    rw [List.getD_eq_getElem _ _ hlt] at this
    rw [List.getD_eq_getElem _ _ (by rwa [List.length_map]), List.getElem_map, this]
    rfl
  have hd : ((List.range n).map fun j => 90 - (cell (tableByTheta m n ph th g) n 0 j).theta).Nodup := monotonic_nodup _ hh.2
  have := List.inj_on_of_nodup_map hd (List.mem_range.2 (by omega : 0 < n)) (List.mem_range.2 (by omega : 1 < n))
    (by show 90 - _ = 90 - _; rw [hc 0 (by omega), hc 1 (by omega)])
  omega

/-! ## Interpolation -/

/-- Value on the line through two points. -/
def onLine (x₀ x₁ v₀ v₁ a : ℚ) : ℚ := v₀ + (v₁ - v₀) * ((a - x₀) / (x₁ - x₀))

theorem lerp_cell (h : Nat → ℚ × ℚ) : ∀ (N s k : Nat) (a : ℚ), k + 1 < N → (∀ i, i + 1 < N → (h (s + i)).1 < (h (s + i + 1)).1) →
    (h (s + k)).1 ≤ a → a ≤ (h (s + k + 1)).1 →
    lerp ((List.range' s N).map h) a = some (onLine (h (s + k)).1 (h (s + k + 1)).1 (h (s + k)).2 (h (s + k + 1)).2 a)
  | 0, _, _, _, hk, _, _, _ => by omega
  | 1, _, _, _, hk, _, _, _ => by omega
  | N + 2, s, 0, a, _, _, h1, h2 => by
    rw [List.range'_succ, List.range'_succ, List.map_cons, List.map_cons, lerp]
    exact if_pos (Or.inl ⟨h1, h2⟩)
  | N + 2, s, k + 1, a, hk, hm, h1, h2 => by
    have e : s + 1 + k = s + (k + 1) := by omega
    have ih := lerp_cell h (N + 1) (s + 1) k a (by omega) (fun i hi => by
      have := hm (i + 1) (by omega)
      rwa [show s + 1 + i = s + (i + 1) by omega]) (by rw [e]; exact h1) (by rw [e]; exact h2)
    rw [e] at ih
    have hs : (h s).1 < (h (s + 1)).1 := by simpa using hm 0 (by omega)
    have up : ∀ j, j + 1 < N + 2 → (h (s + 1)).1 ≤ (h (s + (j + 1))).1 := by
      intro j
      induction j with
      | zero => intro _; exact le_rfl
      | succ j ih => intro hj; exact le_trans (ih (by omega)) (hm (j + 1) (by omega)).le
    have hq : (h (s + 1)).1 ≤ a := le_trans (up k (by omega)) h1
    rw [List.range'_succ, List.range'_succ, List.map_cons, List.map_cons, lerp]
    rw [List.range'_succ, List.map_cons] at ih
    by_cases c : a ≤ (h (s + 1)).1
    · have ea : a = (h (s + 1)).1 := le_antisymm c hq
      rw [if_pos (Or.inl ⟨le_trans hs.le hq, c⟩)]
      have hk0 : (h (s + (k + 1))).1 = (h (s + 1)).1 := le_antisymm (ea ▸ h1) (up k (by omega))
      have hk1 : k = 0 := by
        rcases Nat.eq_zero_or_pos k with z | z
        · exact z
        · exfalso
          have a1 := up (k - 1) (by omega)
          have a2 := hm (k - 1 + 1) (by omega)
          rw [show s + (k - 1 + 1) + 1 = s + (k + 1) by omega] at a2
          linarith
      subst hk1
      have hne : (h (s + 1)).1 - (h s).1 ≠ 0 := by linarith
      congr 1
      show _ = onLine (h (s + 1)).1 _ (h (s + 1)).2 _ a
      unfold onLine
      rw [ea, div_self hne, sub_self, zero_div]; ring
    · rw [if_neg (by
        rintro (⟨_, k2⟩ | ⟨_, k2⟩)
        · exact c k2
        · linarith)]
      exact ih

theorem lerp_neg : ∀ (l : List (ℚ × ℚ)) (a : ℚ), lerp (l.map fun p => (-p.1, p.2)) (-a) = lerp l a
  | [], _ => rfl
  | [_], _ => rfl
  | p :: q :: l, a => by
    have ih := lerp_neg (q :: l) a
    rw [List.map_cons, List.map_cons] at *
    rw [lerp, lerp, ih]
    have e : (-a - -p.1) / (-q.1 - -p.1) = (a - p.1) / (q.1 - p.1) := by
      rw [show -a - -p.1 = -(a - p.1) by ring, show -q.1 - -p.1 = -(q.1 - p.1) by ring, neg_div_neg_eq]
    by_cases c : (p.1 ≤ a ∧ a ≤ q.1) ∨ (q.1 ≤ a ∧ a ≤ p.1)
    · rw [if_pos c, if_pos (by
        rcases c with c | c
        · right; exact ⟨by show -q.1 ≤ -a; linarith [c.2], by show -a ≤ -p.1; linarith [c.1]⟩
        · left; exact ⟨by show -p.1 ≤ -a; linarith [c.2], by show -a ≤ -q.1; linarith [c.1]⟩)]
      show some (p.2 + (q.2 - p.2) * ((-a - -p.1) / (-q.1 - -p.1))) = _
      rw [e]
    · rw [if_neg c, if_neg (fun k => c (by
        rcases k with k | k
        · have k1 : -p.1 ≤ -a := k.1
          have k2 : -a ≤ -q.1 := k.2
          right; constructor <;> linarith
        · have k1 : -q.1 ≤ -a := k.1
          have k2 : -a ≤ -p.1 := k.2
          left; constructor <;> linarith))]

theorem lerp_within (lo hi : ℚ) : ∀ (l : List (ℚ × ℚ)) (a v : ℚ), (∀ p ∈ l, lo ≤ p.2 ∧ p.2 ≤ hi) → lerp l a = some v → lo ≤ v ∧ v ≤ hi
  | [], _, _, _, h => by cases h
  | [_], _, _, _, h => by cases h
  | p :: q :: l, a, v, hl, h => by
    rw [lerp] at h
    by_cases c : (p.1 ≤ a ∧ a ≤ q.1) ∨ (q.1 ≤ a ∧ a ≤ p.1)
    · rw [if_pos c] at h
      have hv := Option.some.inj h
      have hp := hl p (by simp)
      have hq := hl q (by simp)
      have t0 : 0 ≤ (a - p.1) / (q.1 - p.1) := by
        rcases c with c | c
        · exact div_nonneg (by linarith) (by linarith)
        · exact div_nonneg_of_nonpos (by linarith) (by linarith)
      have t1 : (a - p.1) / (q.1 - p.1) ≤ 1 := by
        rcases c with c | c
        · exact div_le_one_of_le₀ (by linarith) (by linarith)
        · rw [← neg_div_neg_eq]; exact div_le_one_of_le₀ (by linarith) (by linarith)
      generalize (a - p.1) / (q.1 - p.1) = t at *
      subst hv
      constructor <;> nlinarith
    · rw [if_neg c] at h
      exact lerp_within lo hi (q :: l) a v (fun r hr => hl r (List.mem_cons_of_mem _ hr)) h

theorem lerp_below : ∀ (l : List (ℚ × ℚ)) (a : ℚ), (∀ p ∈ l, a < p.1) → lerp l a = none
  | [], _, _ => rfl
  | [_], _, _ => rfl
  | p :: q :: l, a, h => by
    rw [lerp, if_neg (by
      rintro (k | k)
      · exact absurd k.1 (not_le.2 (h p (by simp)))
      · exact absurd k.1 (not_le.2 (h q (by simp))))]
    exact lerp_below (q :: l) a fun r hr => h r (List.mem_cons_of_mem _ hr)

theorem mapM_some {α β : Type} (f : α → Option β) (F : α → β) : ∀ l : List α, (∀ x ∈ l, f x = some (F x)) → l.mapM f = some (l.map F)
  | [], _ => rfl
  | x :: l, h => by
    rw [List.mapM_cons, h x (by simp), mapM_some f F l fun y hy => h y (List.mem_cons_of_mem _ hy)]
    rfl

theorem mapM_mem {α β : Type} (f : α → Option β) : ∀ (l : List α) (r : List β), l.mapM f = some r → ∀ y ∈ r, ∃ x ∈ l, f x = some y
  | [], r, h, y, hy => by
    rw [List.mapM_nil] at h
    obtain rfl := Option.some.inj h
    cases hy
  | x :: l, r, h, y, hy => by
    rw [List.mapM_cons] at h
    rcases hx : f x with _ | b
    · rw [hx] at h; cases h
    rcases hl : l.mapM f with _ | r'
    · rw [hx, hl] at h; cases h
    rw [hx, hl] at h
    obtain rfl := Option.some.inj h
    rcases List.mem_cons.1 hy with e | e
    · exact ⟨x, by simp, by rw [hx, e]⟩
    · obtain ⟨z, hz, k⟩ := mapM_mem f l r' hl y e
      exact ⟨z, List.mem_cons_of_mem _ hz, k⟩

/-- Azimuths of the grid: those of the table, then 360 degrees. -/
def azAt (m : Nat) (ph : Nat → ℚ) (i : Nat) : ℚ := if i < m then ph i else 360

/-- Row of the table which holds the gains of an azimuth of the grid: the first one at 360 degrees. -/
def rowOf (m i : Nat) : Nat := if i < m then i else 0

theorem range_snoc {α : Type} (m : Nat) (f : Nat → α) (x : α) : (List.range m).map f ++ [x] = (List.range (m + 1)).map fun i => if i < m then f i else x := by
  rw [List.range_succ, List.map_append, List.map_singleton, if_neg (by omega)]
  congr 1
  exact List.map_congr_left fun i hi => (if_pos (List.mem_range.1 hi)).symm

theorem expected_eq (m n : Nat) (ph th : Nat → ℚ) (g : Nat → Nat → ℚ) : expected m n ph th g =
    ⟨(List.range (m + 1)).map (azAt m ph), (List.range n).map fun j => 90 - th j,
      (List.range (m + 1)).map fun i => (List.range n).map fun j => g (rowOf m i) j⟩ := by
  unfold expected
  rw [range_snoc, range_snoc]
  congr 1
  refine List.map_congr_left fun i _ => ?_
  unfold rowOf
  by_cases c : i < m
  · rw [if_pos c, if_pos c]
  · rw [if_neg c, if_neg c]

/-- The gain inside a cell of the grid is the bilinear one of its four corners; the last cell of azimuth goes from the last one of the table to 360 degrees, where the gains are those of the first one. -/
theorem gain_bilinear (m n : Nat) (ph th : Nat → ℚ) (g : Nat → Nat → ℚ) (hp : ∀ i, i + 1 < m → ph i < ph (i + 1))
    (h360 : ∀ i < m, ph i < 360) (ht : ∀ j, j + 1 < n → th j < th (j + 1)) (i j : Nat) (hi : i < m) (hj : j + 1 < n) (a z : ℚ)
    (ha : ph i ≤ a ∧ a ≤ azAt m ph (i + 1)) (hz : th j ≤ z ∧ z ≤ th (j + 1)) :
    gainAt (expected m n ph th g) a (90 - z) = some (onLine (ph i) (azAt m ph (i + 1)) (onLine (th j) (th (j + 1)) (g i j) (g i (j + 1)) z)
      (onLine (th j) (th (j + 1)) (g (rowOf m (i + 1)) j) (g (rowOf m (i + 1)) (j + 1)) z) a) := by
  rw [expected_eq]
  have hrow : ∀ k : Nat, lerp (((List.range n).map fun j => 90 - th j).zip ((List.range n).map fun j => g k j)) (90 - z) =
      some (onLine (th j) (th (j + 1)) (g k j) (g k (j + 1)) z) := by
    intro k
    rw [List.zip_map', ← lerp_neg, List.map_map, List.range_eq_range']
    have := lerp_cell (fun j => (th j - 90, g k j)) n 0 j (z - 90) hj (fun i hi => by
      have := ht i hi
      simp only [Nat.zero_add]; linarith) (by simp only [Nat.zero_add]; linarith [hz.1]) (by simp only [Nat.zero_add]; linarith [hz.2])
    simp only [Nat.zero_add] at this
    have e : ((fun p : ℚ × ℚ => (-p.1, p.2)) ∘ fun j => (90 - th j, g k j)) = fun j => (th j - 90, g k j) := by
      funext j; simp
    rw [e, show -(90 - z) = z - 90 by ring, this]
    unfold onLine
    rw [show z - 90 - (th j - 90) = z - th j by ring, show th (j + 1) - 90 - (th j - 90) = th (j + 1) - th j by ring]
  unfold gainAt rowsAt
  have hm2 : (((List.range (m + 1)).map fun i => (List.range n).map fun j => g (rowOf m i) j).mapM fun row =>
      lerp (((List.range n).map fun j => 90 - th j).zip row) (90 - z)) =
      some ((List.range (m + 1)).map fun i => onLine (th j) (th (j + 1)) (g (rowOf m i) j) (g (rowOf m i) (j + 1)) z) := by
    rw [List.mapM_map]
    exact mapM_some _ _ _ fun i _ => hrow (rowOf m i)
  show Option.bind (((List.range (m + 1)).map fun i => (List.range n).map fun j => g (rowOf m i) j).mapM fun row =>
      lerp (((List.range n).map fun j => 90 - th j).zip row) (90 - z)) (fun v => lerp (((List.range (m + 1)).map (azAt m ph)).zip v) a) = _
  rw [hm2]
  show lerp (((List.range (m + 1)).map (azAt m ph)).zip _) a = _
  rw [List.zip_map', List.range_eq_range']
  have := lerp_cell (fun i => (azAt m ph i, onLine (th j) (th (j + 1)) (g (rowOf m i) j) (g (rowOf m i) (j + 1)) z)) (m + 1) 0 i a (by omega)
    (fun k hk => by
      simp only [Nat.zero_add]
      unfold azAt
      rw [if_pos (by omega : k < m)]
      by_cases c : k + 1 < m
      · rw [if_pos c]; exact hp k c
      · rw [if_neg c]; exact h360 k (by omega))
    (by simp only [Nat.zero_add]; unfold azAt; rw [if_pos hi]; exact ha.1) (by simp only [Nat.zero_add]; exact ha.2)
  simp only [Nat.zero_add] at this
  rw [this]
  have e1 : azAt m ph i = ph i := if_pos hi
  have e2 : rowOf m i = i := if_pos hi
  rw [e1, e2]

/-- On the directions of the table, the gain is the one of the table. -/
theorem gain_node (m n : Nat) (ph th : Nat → ℚ) (g : Nat → Nat → ℚ) (hp : ∀ i, i + 1 < m → ph i < ph (i + 1))
    (h360 : ∀ i < m, ph i < 360) (ht : ∀ j, j + 1 < n → th j < th (j + 1)) (hn : 2 ≤ n) (i j : Nat) (hi : i < m) (hj : j < n) :
    gainAt (expected m n ph th g) (ph i) (90 - th j) = some (g i j) := by
  have up : ph i ≤ azAt m ph (i + 1) := by
    unfold azAt
    by_cases c : i + 1 < m
    · rw [if_pos c]; exact (hp i c).le
    · rw [if_neg c]; exact (h360 i hi).le
  by_cases c : j + 1 < n
  · rw [gain_bilinear m n ph th g hp h360 ht i j hi c (ph i) (th j) ⟨le_rfl, up⟩ ⟨le_rfl, (ht j c).le⟩]
    simp [onLine]
  · obtain ⟨k, rfl⟩ : ∃ k, j = k + 1 := ⟨j - 1, by omega⟩
    have hk := ht k hj
    rw [gain_bilinear m n ph th g hp h360 ht i k hi hj (ph i) (th (k + 1)) ⟨le_rfl, up⟩ ⟨hk.le, le_rfl⟩]
    have hne : th (k + 1) - th k ≠ 0 := by linarith
    simp [onLine, div_self hne]

/-- At 360 degrees the gain is the one of the first azimuth. -/
theorem gain_closed (m n : Nat) (ph th : Nat → ℚ) (g : Nat → Nat → ℚ) (hp : ∀ i, i + 1 < m → ph i < ph (i + 1))
    (h360 : ∀ i < m, ph i < 360) (ht : ∀ j, j + 1 < n → th j < th (j + 1)) (hm : 0 < m) (z : ℚ) (j : Nat) (hj : j + 1 < n)
    (hz : th j ≤ z ∧ z ≤ th (j + 1)) :
    gainAt (expected m n ph th g) 360 (90 - z) = gainAt (expected m n ph th g) (ph 0) (90 - z) := by
  obtain ⟨k, rfl⟩ : ∃ k, m = k + 1 := ⟨m - 1, by omega⟩
  have e : azAt (k + 1) ph (k + 1) = 360 := if_neg (by omega)
  have r : rowOf (k + 1) (k + 1) = 0 := if_neg (by omega)
  have h0 : ph 0 ≤ azAt (k + 1) ph (0 + 1) := by
    unfold azAt
    by_cases c : 0 + 1 < k + 1
    · rw [if_pos c]; exact (hp 0 c).le
    · rw [if_neg c]; exact (h360 0 (by omega)).le
  have hne : (360 : ℚ) - ph k ≠ 0 := by linarith [h360 k (by omega)]
  rw [gain_bilinear (k + 1) n ph th g hp h360 ht k j (by omega) hj 360 z ⟨(h360 k (by omega)).le, e.ge⟩ hz,
    gain_bilinear (k + 1) n ph th g hp h360 ht 0 j (by omega) hj (ph 0) z ⟨le_rfl, h0⟩ hz, e, r]
  unfold onLine
  rw [div_self hne, sub_self (ph 0), zero_div]
  congr 1; ring

/-- No gain is out of the range of those of the table. -/
theorem gain_bounded (m n : Nat) (ph th : Nat → ℚ) (g : Nat → Nat → ℚ) (hm : 0 < m) (lo hi : ℚ) (hg : ∀ i < m, ∀ j < n, lo ≤ g i j ∧ g i j ≤ hi)
    (a e v : ℚ) (h : gainAt (expected m n ph th g) a e = some v) : lo ≤ v ∧ v ≤ hi := by
  rw [expected_eq] at h
  unfold gainAt rowsAt at h
  obtain ⟨w, hw, h⟩ := Option.bind_eq_some_iff.1 h
  refine lerp_within lo hi _ a v (fun p hp => ?_) h
  have hp2 := (List.of_mem_zip hp).2
  obtain ⟨row, hrow, hr⟩ := mapM_mem _ _ _ hw p.2 hp2
  obtain ⟨i, _, rfl⟩ := List.mem_map.1 hrow
  refine lerp_within lo hi _ e p.2 (fun q hq => ?_) hr
  obtain ⟨j, hj, hq2⟩ := List.mem_map.1 (List.of_mem_zip hq).2
  rw [← hq2]
  refine hg _ ?_ j (List.mem_range.1 hj)
  unfold rowOf
  by_cases c : i < m
  · rw [if_pos c]; exact c
  · rw [if_neg c]; exact hm

/-- There is a gain in each direction of the sky when the table begins at an azimuth of 0 and covers the zenith distances. -/
theorem gain_everywhere_partial (m n : Nat) (ph th : Nat → ℚ) (g : Nat → Nat → ℚ) (hp : ∀ i, i + 1 < m → ph i < ph (i + 1))
    (h360 : ∀ i < m, ph i < 360) (ht : ∀ j, j + 1 < n → th j < th (j + 1)) (hm : 0 < m) (hn : 2 ≤ n) (h0 : ph 0 = 0) (a z : ℚ)
    (ha : 0 ≤ a ∧ a ≤ 360) (hz : th 0 ≤ z ∧ z ≤ th (n - 1)) : ∃ v : ℚ, gainAt (expected m n ph th g) a (90 - z) = some v := by
  have find : ∀ (f : Nat → ℚ) (N : Nat) (x : ℚ), f 0 ≤ x → x ≤ f (N + 1) → ∃ k ≤ N, f k ≤ x ∧ x ≤ f (k + 1) := by
    intro f N x h0 h1
    induction N with
    | zero => exact ⟨0, le_rfl, h0, h1⟩
    | succ N ih =>
      by_cases c : x ≤ f (N + 1)
      · obtain ⟨k, hk, h⟩ := ih c; exact ⟨k, by omega, h⟩
      · exact ⟨N + 1, le_rfl, (not_le.1 c).le, h1⟩
  obtain ⟨i, hi, hi2⟩ := find (azAt m ph) (m - 1) a (by unfold azAt; rw [if_pos hm, h0]; exact ha.1)
    (by unfold azAt; rw [if_neg (by omega)]; exact ha.2)
  obtain ⟨j, hj, hj2⟩ := find th (n - 2) z hz.1 (by rw [show n - 2 + 1 = n - 1 by omega]; exact hz.2)
  have e1 : azAt m ph i = ph i := if_pos (by omega)
  rw [e1] at hi2
  exact ⟨_, gain_bilinear m n ph th g hp h360 ht i j (by omega) (by omega) a z hi2 hj2⟩

/-- A table whose azimuths begin after 0 has no gain before its first azimuth, although the grid goes all around the sky. -/
theorem gain_gap_violated (m n : Nat) (ph th : Nat → ℚ) (g : Nat → Nat → ℚ) (a e : ℚ) (h : ∀ i < m, a < ph i) (ha : a < 360) :
    gainAt (expected m n ph th g) a e = none := by
  rw [expected_eq]
  unfold gainAt
  rw [Option.bind_eq_none_iff]
  intro v _
  refine lerp_below _ a fun p hp => ?_
  obtain ⟨i, _, hp1⟩ := List.mem_map.1 (List.of_mem_zip hp).1
  rw [← hp1]
  unfold azAt
  by_cases c : i < m
  · rw [if_pos c]; exact h i c
  · rw [if_neg c]; exact ha

/-- A table of four azimuths and three zenith distances. -/
example : (interpolator (table 4 3 (fun i => 90 * i) (fun j => 90 * j) fun i j => i + 10 * j)).toOption.bind (fun g => gainAt g 315 45) = some (1.5 + 5) := by
  decide +kernel

example : (interpolator (table 4 3 (fun i => 45 + 90 * i) (fun j => 90 * j) fun i j => i + 10 * j)).toOption.bind (fun g => gainAt g 10 45) = none := by
  decide +kernel

example : interpolator (table 5 3 (fun i => 90 * i) (fun j => 90 * j) fun i j => i + 10 * j) = .error .valueError := by decide +kernel

end Verif.Instru.Cst
