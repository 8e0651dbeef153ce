import Verif.IO.Corr
import Verif.IO.PropsXst
import Verif.IO.PropsDraw

/-!
# C178: the matrix of correlations shows each pair at its mini-arrays
-/

namespace Verif.IO

open Classical

/-! ## Indices and numbers -/

theorem moved_succ (mas : List Nat) (m i : Nat) : moved mas (m + 1) i = if m ∉ mas ∧ m ≤ moved mas m i then moved mas m i + 1 else moved mas m i := by
  unfold moved
  rw [List.range_succ, List.foldl_append]
  rfl

theorem moved_congr (l l' : List Nat) (h : ∀ x, x ∈ l ↔ x ∈ l') (m i : Nat) : moved l m i = moved l' m i := by
  induction m with
  | zero => rfl
  | succ m ih =>
    rw [moved_succ, moved_succ, ih]
    simp only [h m]

/-- Numbers of the list which are below `m`. -/
def below (l : List Nat) (m : Nat) : Nat := l.countP fun x => decide (x < m)

theorem below_le (l : List Nat) (m : Nat) : below l m ≤ l.length := List.countP_le_length

theorem below_succ (l : List Nat) (h : l.Nodup) (m : Nat) : below l (m + 1) = below l m + if m ∈ l then 1 else 0 := by
  unfold below
  induction l with
  | nil => rfl
  | cons a l ih =>
    have hn := List.nodup_cons.1 h
    rw [List.countP_cons, List.countP_cons, ih hn.2]
    by_cases ha : a = m
    · subst ha
      simp [hn.1]
    · have : (a < m + 1) ↔ a < m := by omega
      simp only [this, List.mem_cons, Ne.symm ha, false_or]
      omega

theorem below_at (S : List Nat) (hS : S.Pairwise (· < ·)) (i : Nat) (hi : i < S.length) : below S S[i] = i ∧ ∀ m : Nat, m ≤ S[i] → below S m ≤ i := by
  have hs := List.pairwise_iff_getElem.1 hS
  have key : ∀ m : Nat, m ≤ S[i] → below S m = (S.take i).countP fun x => decide (x < m) := by
    intro m hm
    unfold below
    conv_lhs => rw [← List.take_append_drop i S]
    rw [List.countP_append]
    have : (S.drop i).countP (fun x => decide (x < m)) = 0 := by
      rw [List.countP_eq_zero]
      intro y hy
      obtain ⟨j, hj, rfl⟩ := List.mem_iff_getElem.1 hy
      rw [List.length_drop] at hj
      rw [List.getElem_drop, decide_eq_true_eq, not_lt]
      rcases Nat.eq_zero_or_pos j with rfl | hp
      · simpa using hm
      · exact hm.trans (hs i (i + j) hi (by omega) (by omega)).le
    rw [this, Nat.add_zero]
  constructor
  · rw [key _ (le_refl _)]
    have : (S.take i).countP (fun x => decide (x < S[i])) = (S.take i).length := by
      rw [List.countP_eq_length]
      intro y hy
      obtain ⟨j, hj, rfl⟩ := List.mem_iff_getElem.1 hy
      rw [List.length_take] at hj
      rw [List.getElem_take, decide_eq_true_eq]
      exact hs j i (by omega) hi (by omega)
    rw [this, List.length_take]
    omega
  · intro m hm
    rw [key m hm]
    refine List.countP_le_length.trans ?_
    rw [List.length_take]
    omega

/-- The loop on increasing numbers, until `m`. -/
theorem moved_in (S : List Nat) (hS : S.Pairwise (· < ·)) (i : Nat) (hi : i < S.length) : ∀ m : Nat, moved S m i = if S[i] < m then S[i] else i + m - below S m := by
  have hn : S.Nodup := hS.imp fun h => Nat.ne_of_lt h
  obtain ⟨hb, hb'⟩ := below_at S hS i hi
  intro m
  induction m with
  | zero =>
    have h0 : below S 0 = 0 := by
      have := hb' 0 (Nat.zero_le _)
      unfold below
      rw [List.countP_eq_zero]
      intro x _
      simp
    rw [if_neg (Nat.not_lt_zero _), h0]
    rfl
  | succ m ih =>
    rw [moved_succ, below_succ S hn m]
    rcases Nat.lt_trichotomy S[i] m with h | h | h
    · have e : moved S m i = S[i] := by rw [ih, if_pos h]
      rw [e, if_neg (fun c => absurd c.2 (not_le.2 h)), if_pos (Nat.lt_succ_of_lt h)]
    · have hm : m ∈ S := h ▸ List.getElem_mem hi
      have e : moved S m i = m := by
        rw [ih, if_neg (by rw [h]; exact lt_irrefl m)]
        rw [h] at hb
        omega
      rw [e, if_neg (fun c => c.1 hm), if_pos (by rw [h]; exact Nat.lt_succ_self m), h]
    · have hbm := hb' m h.le
      have e : moved S m i = i + m - below S m := by rw [ih, if_neg (not_lt.2 h.le)]
      have hr : ¬ S[i] < m + 1 := by omega
      by_cases hm : m ∈ S
      · rw [e, if_neg (fun c => c.1 hm), if_neg hr, if_pos hm]
        have := hb' (m + 1) h
        rw [below_succ S hn m, if_pos hm] at this
        omega
      · rw [e, if_pos ⟨hm, by omega⟩, if_neg hr, if_neg hm]
        omega

/-- Indices after the last number leave the matrix. -/
theorem moved_out (S : List Nat) (hn : S.Nodup) (i : Nat) (hi : S.length ≤ i) : ∀ m : Nat, moved S m i = i + m - below S m := by
  intro m
  induction m with
  | zero =>
    have h0 : below S 0 = 0 := by
      unfold below
      rw [List.countP_eq_zero]
      intro x _
      simp
    rw [h0]
    rfl
  | succ m ih =>
    rw [moved_succ, ih, below_succ S hn m]
    have := below_le S m
    by_cases hm : m ∈ S
    · rw [if_neg (fun c => c.1 hm), if_pos hm]
      have h2 := below_le S (m + 1)
      rw [below_succ S hn m, if_pos hm] at h2
      omega
    · rw [if_pos ⟨hm, by omega⟩, if_neg hm]
      omega

/-- The numbers in increasing order. -/
def inRank (mas : List Nat) : List Nat := mas.insertionSort (· ≤ ·)

theorem rank_sorted (mas : List Nat) (h : mas.Nodup) : (inRank mas).Pairwise (· < ·) := by
  have h1 : (inRank mas).Pairwise (· ≤ ·) := List.pairwise_insertionSort _ _
  have h2 : (inRank mas).Nodup := (List.perm_insertionSort _ _).nodup_iff.2 h
  exact List.Pairwise.imp₂ (fun a b (hab : a ≤ b) (hne : a ≠ b) => lt_of_le_of_ne hab hne) h1 h2

theorem rank_length (mas : List Nat) : (inRank mas).length = mas.length := List.length_insertionSort _ _

theorem rank_mem (mas : List Nat) (x : Nat) : x ∈ inRank mas ↔ x ∈ mas := (List.perm_insertionSort _ _).mem_iff

/-- **Numbers of the indices**: after the loop, the index `i` has become the number of rank `i`. -/
theorem moved_rank (mas : List Nat) (h : mas.Nodup) (top : Nat) (ht : ∀ x ∈ mas, x ≤ top) (i : Nat) (hi : i < mas.length) : moved mas (top + 1) i = (inRank mas).getD i 0 := by
  have hi' : i < (inRank mas).length := by rw [rank_length]; exact hi
  rw [moved_congr mas (inRank mas) (fun x => (rank_mem mas x).symm), moved_in _ (rank_sorted mas h) i hi', List.getD_eq_getElem?_getD, List.getElem?_eq_getElem hi', if_pos]
  · rfl
  · have := ht _ ((rank_mem mas _).1 (List.getElem_mem hi'))
    omega

theorem rank_inj (mas : List Nat) (h : mas.Nodup) (i j : Nat) (hi : i < mas.length) (hj : j < mas.length) (e : (inRank mas).getD i 0 = (inRank mas).getD j 0) : i = j := by
  have hi' : i < (inRank mas).length := by rw [rank_length]; exact hi
  have hj' : j < (inRank mas).length := by rw [rank_length]; exact hj
  rw [List.getD_eq_getElem?_getD, List.getElem?_eq_getElem hi', List.getD_eq_getElem?_getD, List.getElem?_eq_getElem hj'] at e
  have hn : (inRank mas).Nodup := (List.perm_insertionSort _ _).nodup_iff.2 h
  exact (List.Nodup.getElem_inj_iff hn).1 e

/-! ## The matrix -/

theorem tril_nodup (n : Nat) : (tril n).Nodup := by
  induction n with
  | zero => exact List.nodup_nil
  | succ n ih =>
    rw [tril_succ]
    refine List.Nodup.append ih (List.nodup_range.map fun a b h => (Prod.mk.inj h).2) ?_
    intro p hp hq
    obtain ⟨j, -, rfl⟩ := List.mem_map.1 hq
    have := (mem_tril.1 hp).2
    exact lt_irrefl _ this

/-- Cell of a table. -/
def cellOf (d : Shape (Option EReal)) (r c : Nat) : Option (Option EReal) :=
  d.casesOn (fun _ _ => none) fun _ _ rows => rows[r]?.bind fun l => l[c]?

theorem corr_cell_drawn (db : Bool) (top : Nat) (m : Nat → Nat → Option ℂ) (r c : Nat) (hr : r ≤ top) (hc : c ≤ top) :
    cellOf (corrTable db top m) r c = some (drawnAs db ((m r c).map fun z => ‖z‖)) := by
  show (((List.range (top + 1)).map fun r => (List.range (top + 1)).map fun c => drawnAs db ((m r c).map fun z => ‖z‖))[r]?.bind fun l => l[c]?) = _
  rw [List.getElem?_map, List.getElem?_range (by omega)]
  show ((List.range (top + 1)).map fun c => drawnAs db ((m r c).map fun z => ‖z‖))[c]? = _
  rw [List.getElem?_map, List.getElem?_range (by omega)]
  rfl

/-- Entries of the matrix. -/
theorem mem_entries (mask : Bool) (mas : List Nat) (h : mas.Nodup) (top : Nat) (ht : ∀ x ∈ mas, x ≤ top) (mean : Nat → ℂ) (nbl : Nat) (hb : nbl = (tril mas.length).length) (e : (Nat × Nat) × ℂ) :
    e ∈ corrEntries mask mas top nbl mean ↔ ∃ (k : Nat) (i j : Nat), (tril mas.length)[k]? = some (i, j) ∧ (mask = true → i ≠ j) ∧
      e = (((inRank mas).getD i 0, (inRank mas).getD j 0), mean k) := by
  have hk : ∀ (k i j : Nat), (tril mas.length)[k]? = some (i, j) → (if nbl = 1 then 0 else k) = k ∧ i < mas.length ∧ j < mas.length := by
    intro k i j hk
    obtain ⟨hlt, -⟩ := List.getElem?_eq_some_iff.1 hk
    have hm := mem_tril.1 (List.mem_of_getElem? hk)
    refine ⟨?_, hm.2, by have := hm.1; have := hm.2; omega⟩
    split_ifs with h1
    · omega
    · rfl
  unfold corrEntries
  rw [List.mem_map]
  constructor
  · rintro ⟨⟨⟨i, j⟩, k⟩, hq, rfl⟩
    obtain ⟨hq1, hq2⟩ := List.mem_filter.1 hq
    have hkk : (tril mas.length)[k]? = some (i, j) := List.mem_zipIdx_iff_getElem?.1 hq1
    obtain ⟨h1, h2, h3⟩ := hk k i j hkk
    refine ⟨k, i, j, hkk, fun hm hij => ?_, ?_⟩
    · subst hij
      simp [hm] at hq2
    · show ((moved mas (top + 1) i, moved mas (top + 1) j), mean (if nbl = 1 then 0 else k)) = _
      rw [h1, moved_rank mas h top ht i h2, moved_rank mas h top ht j h3]
  · rintro ⟨k, i, j, hkk, hm, rfl⟩
    obtain ⟨h1, h2, h3⟩ := hk k i j hkk
    refine ⟨((i, j), k), List.mem_filter.2 ⟨List.mem_zipIdx_iff_getElem?.2 hkk, ?_⟩, ?_⟩
    · show (!mask || decide (moved mas (top + 1) i ≠ moved mas (top + 1) j)) = true
      rw [moved_rank mas h top ht i h2, moved_rank mas h top ht j h3]
      cases mask with
      | false => rfl
      | true =>
        rw [Bool.not_true, Bool.false_or, decide_eq_true_eq]
        exact fun c => hm rfl (rank_inj mas h i j h2 h3 c)
    · show ((moved mas (top + 1) i, moved mas (top + 1) j), mean (if nbl = 1 then 0 else k)) = _
      rw [h1, moved_rank mas h top ht i h2, moved_rank mas h top ht j h3]

theorem corr_cell_eq (mask : Bool) (mas : List Nat) (h : mas.Nodup) (top : Nat) (ht : ∀ x ∈ mas, x ≤ top) (mean : Nat → ℂ) (nbl : Nat) (hb : nbl = (tril mas.length).length) :
    (∀ (k i j : Nat), (tril mas.length)[k]? = some (i, j) → (mask = true → i ≠ j) →
      corrCell (corrEntries mask mas top nbl mean) ((inRank mas).getD j 0) ((inRank mas).getD i 0) = some (mean k)) ∧
    ∀ r c : Nat, (∀ (k i j : Nat), (tril mas.length)[k]? = some (i, j) → (mask = true → i ≠ j) → ¬ (r = (inRank mas).getD j 0 ∧ c = (inRank mas).getD i 0)) →
      corrCell (corrEntries mask mas top nbl mean) r c = none := by
  constructor
  · intro k i j hk hm
    have hmem := (mem_entries mask mas h top ht mean nbl hb _).2 ⟨k, i, j, hk, hm, rfl⟩
    unfold corrCell
    cases hf : (corrEntries mask mas top nbl mean).reverse.find? (fun e => decide (e.1 = ((inRank mas).getD i 0, (inRank mas).getD j 0))) with
    | none =>
      have := List.find?_eq_none.1 hf _ (List.mem_reverse.2 hmem)
      simp at this
    | some e =>
      have h1 := List.find?_some hf
      have h2 := List.mem_reverse.1 (List.mem_of_find?_eq_some hf)
      obtain ⟨k', i', j', hk', -, rfl⟩ := (mem_entries mask mas h top ht mean nbl hb e).1 h2
      rw [decide_eq_true_eq] at h1
      obtain ⟨e1, e2⟩ := Prod.mk.inj h1
      have hm1 := mem_tril.1 (List.mem_of_getElem? hk)
      have hm2 := mem_tril.1 (List.mem_of_getElem? hk')
      have a1 := hm1.1
      have a2 := hm1.2
      have a3 := hm2.1
      have a4 := hm2.2
      have hi := rank_inj mas h i' i a4 a2 e1
      have hj := rank_inj mas h j' j (by omega) (by omega) e2
      subst hi hj
      obtain ⟨hlt, -⟩ := List.getElem?_eq_some_iff.1 hk
      have : k = k' := (List.getElem?_inj hlt (tril_nodup mas.length)).1 (hk.trans hk'.symm)
      rw [this]
      rfl
  · intro r c hno
    unfold corrCell
    rw [List.find?_eq_none.2]
    · rfl
    · intro e he hd
      obtain ⟨k, i, j, hk, hm, rfl⟩ := (mem_entries mask mas h top ht mean nbl hb e).1 (List.mem_reverse.1 he)
      rw [decide_eq_true_eq] at hd
      obtain ⟨e1, e2⟩ := Prod.mk.inj hd
      exact hno k i j hk hm ⟨e2.symm, e1.symm⟩

theorem max_is (mas : List Nat) (hne : mas ≠ []) : ∃ top, mas.max? = some top ∧ top ∈ mas ∧ ∀ x ∈ mas, x ≤ top := by
  cases h : mas.max? with
  | none => exact absurd (List.max?_eq_none_iff.1 h) hne
  | some a =>
    obtain ⟨h1, h2⟩ := List.max?_eq_some_iff.1 h
    exact ⟨a, rfl, h1, h2⟩

/-- **What is drawn**, for mini-arrays in any order: the value of the pair of indices `i ≥ j` is at the column of rank `i` and at the row of rank `j`; all other cells are empty. -/
theorem matrix_rank (mask db : Bool) (mas : List Nat) (hne : mas ≠ []) (h : mas.Nodup) (nt nf : Nat) (v : Nat → Nat → Nat → ℂ) :
    ∃ d top, corrMatrix mask db mas nt nf (tril mas.length).length v = .ok d ∧ mas.max? = some top ∧
      (∀ (k i j : Nat), (tril mas.length)[k]? = some (i, j) → (mask = true → i ≠ j) →
        cellOf d ((inRank mas).getD j 0) ((inRank mas).getD i 0) = some (drawnAs db (some ‖meanVis nt nf v k‖))) ∧
      ∀ r c : Nat, r ≤ top → c ≤ top → (∀ i j : Nat, j ≤ i → i < mas.length → (mask = true → i ≠ j) → ¬ (r = (inRank mas).getD j 0 ∧ c = (inRank mas).getD i 0)) → cellOf d r c = some none := by
  obtain ⟨top, htop, -, hle⟩ := max_is mas hne
  have hrank : ∀ i : Nat, i < mas.length → (inRank mas).getD i 0 ≤ top := by
    intro i hi
    have hi' : i < (inRank mas).length := by rw [rank_length]; exact hi
    rw [List.getD_eq_getElem?_getD, List.getElem?_eq_getElem hi']
    exact hle _ ((rank_mem mas _).1 (List.getElem_mem hi'))
  obtain ⟨c1, c2⟩ := corr_cell_eq mask mas h top hle (meanVis nt nf v) _ rfl
  have hb : ∀ (k i j : Nat), (tril mas.length)[k]? = some (i, j) → i < mas.length ∧ j < mas.length ∧ j ≤ i := by
    intro k i j hk
    have hm := mem_tril.1 (List.mem_of_getElem? hk)
    have a1 := hm.1
    have a2 := hm.2
    exact ⟨a2, by omega, a1⟩
  refine ⟨corrTable db top (corrCell (corrEntries mask mas top (tril mas.length).length (meanVis nt nf v))), top, ?_, htop, fun k i j hk hm => ?_, fun r c hr hc hno => ?_⟩
  · unfold corrMatrix
    rw [htop]
    show (if mask = true ∧ (tril mas.length).length ≠ (tril mas.length).length then Except.error Err.indexError
      else if mask = false ∧ (tril mas.length).length ≠ (tril mas.length).length ∧ (tril mas.length).length ≠ 1 then Except.error Err.valueError
      else if ∃ e ∈ corrEntries mask mas top (tril mas.length).length (meanVis nt nf v), top < e.1.1 ∨ top < e.1.2 then Except.error Err.indexError
      else Except.ok (corrTable db top (corrCell (corrEntries mask mas top (tril mas.length).length (meanVis nt nf v))))) = _
    rw [if_neg (fun c => c.2 rfl), if_neg (fun c => c.2.1 rfl), if_neg]
    rintro ⟨e, he, hlt⟩
    obtain ⟨k, i, j, hk, -, rfl⟩ := (mem_entries mask mas h top hle _ _ rfl e).1 he
    obtain ⟨b1, b2, -⟩ := hb k i j hk
    have h1 := hrank i b1
    have h2 := hrank j b2
    rcases hlt with hlt | hlt
    · exact absurd hlt (not_lt.2 h1)
    · exact absurd hlt (not_lt.2 h2)
  · obtain ⟨b1, b2, -⟩ := hb k i j hk
    rw [corr_cell_drawn db top _ _ _ (hrank j b2) (hrank i b1), c1 k i j hk hm]
    rfl
  · rw [corr_cell_drawn db top _ _ _ hr hc, c2 r c]
    · cases db <;> rfl
    · intro k i j hk hm hrc
      obtain ⟨b1, -, b3⟩ := hb k i j hk
      exact hno i j b3 b1 hm hrc

/-- **Mini-arrays in increasing order** (as in files): each pair is drawn at the column and the row of its mini-arrays, whichever are missing. -/
theorem matrix_exact_partial (mask db : Bool) (mas : List Nat) (hne : mas ≠ []) (h : mas.Pairwise (· < ·)) (nt nf : Nat) (v : Nat → Nat → Nat → ℂ) :
    ∃ d, corrMatrix mask db mas nt nf (tril mas.length).length v = .ok d ∧ ∀ (k i j a b : Nat), (tril mas.length)[k]? = some (i, j) → (mask = true → i ≠ j) → mas[i]? = some a → mas[j]? = some b →
      cellOf d b a = some (drawnAs db (some ‖meanVis nt nf v k‖)) := by
  have hr : inRank mas = mas := List.Pairwise.insertionSort_eq (h.imp fun hab => Nat.le_of_lt hab)
  obtain ⟨d, top, hd, -, h1, -⟩ := matrix_rank mask db mas hne (h.imp fun hab => Nat.ne_of_lt hab) nt nf v
  refine ⟨d, hd, fun k i j a b hk hm ha hb => ?_⟩
  have := h1 k i j hk hm
  rw [hr, List.getD_eq_getElem?_getD, List.getD_eq_getElem?_getD, ha, hb] at this
  exact this

/-- **Violated: mini-arrays of a slice in another order**: the autocorrelation of at least one of them is drawn at the place of another one. -/
theorem matrix_order_violated (db : Bool) (mas : List Nat) (hne : mas ≠ []) (h : mas.Nodup) (hu : ¬ mas.Pairwise (· < ·)) (nt nf : Nat) (v : Nat → Nat → Nat → ℂ) :
    ∃ d, corrMatrix false db mas nt nf (tril mas.length).length v = .ok d ∧ ∃ (k i a b : Nat), (tril mas.length)[k]? = some (i, i) ∧ mas[i]? = some a ∧ a ≠ b ∧
      cellOf d b b = some (drawnAs db (some ‖meanVis nt nf v k‖)) := by
  obtain ⟨d, top, hd, -, h1, -⟩ := matrix_rank false db mas hne h nt nf v
  refine ⟨d, hd, ?_⟩
  have hdiff : ∃ i : Nat, ∃ hi : i < mas.length, mas[i] ≠ (inRank mas).getD i 0 := by
    by_contra hcon
    push Not at hcon
    apply hu
    have : mas = inRank mas := by
      apply List.ext_getElem (rank_length mas).symm
      intro i hi hi'
      rw [hcon i hi, List.getD_eq_getElem?_getD, List.getElem?_eq_getElem hi']
      rfl
    rw [this]
    exact rank_sorted mas h
  obtain ⟨i, hi, hne'⟩ := hdiff
  obtain ⟨k, hk, hke⟩ := List.mem_iff_getElem.1 (mem_tril.2 ⟨le_refl i, hi⟩ : ((i, i) : Nat × Nat) ∈ tril mas.length)
  have hk' : (tril mas.length)[k]? = some (i, i) := by rw [List.getElem?_eq_getElem hk, hke]
  exact ⟨k, i, mas[i], (inRank mas).getD i 0, hk', List.getElem?_eq_getElem hi, hne', h1 k i i hk' (fun c => nomatch c)⟩

/-- **Refusals**: no mini-array; numbers of values and pairs which differ. -/
theorem matrix_refused (mask db : Bool) (mas : List Nat) (nt nf nbl : Nat) (v : Nat → Nat → Nat → ℂ) : corrMatrix mask db [] nt nf nbl v = .error .valueError ∧
    (mas ≠ [] → nbl ≠ (tril mas.length).length → nbl ≠ 1 → ∃ e, corrMatrix mask db mas nt nf nbl v = .error e) := by
  refine ⟨rfl, fun hne hb h1 => ?_⟩
  obtain ⟨top, htop, -, -⟩ := max_is mas hne
  cases mask with
  | true =>
    refine ⟨.indexError, ?_⟩
    unfold corrMatrix
    rw [htop]
    show (if true = true ∧ nbl ≠ (tril mas.length).length then Except.error Err.indexError else _) = _
    rw [if_pos ⟨rfl, hb⟩]
  | false =>
    refine ⟨.valueError, ?_⟩
    unfold corrMatrix
    rw [htop]
    show (if false = true ∧ nbl ≠ (tril mas.length).length then Except.error Err.indexError
      else if false = false ∧ nbl ≠ (tril mas.length).length ∧ nbl ≠ 1 then Except.error Err.valueError else _) = _
    rw [if_neg (fun c => nomatch c.1), if_pos ⟨rfl, hb, h1⟩]

/-- A mini-array which is there twice is refused. -/
theorem matrix_repeated (db : Bool) (mas : List Nat) (h : ¬ mas.Nodup) (nt nf : Nat) (v : Nat → Nat → Nat → ℂ) : corrMatrix false db mas nt nf (tril mas.length).length v = .error .indexError := by
  have hne : mas ≠ [] := by
    rintro rfl
    exact h List.nodup_nil
  obtain ⟨top, htop, -, hle⟩ := max_is mas hne
  have hpos : 0 < mas.length := List.length_pos_iff.2 hne
  have hlen : mas.dedup.length < mas.length := by
    refine lt_of_le_of_ne (List.dedup_sublist mas).length_le fun e => h ?_
    rw [← (List.dedup_sublist mas).eq_of_length e]
    exact List.nodup_dedup mas
  have hout : top < moved mas (top + 1) (mas.length - 1) := by
    rw [moved_congr mas mas.dedup (fun x => List.mem_dedup.symm), moved_out _ (List.nodup_dedup mas) _ (by omega)]
    have := below_le mas.dedup (top + 1)
    omega
  obtain ⟨k, hk, hke⟩ := List.mem_iff_getElem.1 (mem_tril.2 ⟨le_refl (mas.length - 1), by show mas.length - 1 < mas.length; omega⟩ : ((mas.length - 1, mas.length - 1) : Nat × Nat) ∈ tril mas.length)
  have hex : ∃ e ∈ corrEntries false mas top (tril mas.length).length (meanVis nt nf v), top < e.1.1 ∨ top < e.1.2 := by
    refine ⟨((moved mas (top + 1) (mas.length - 1), moved mas (top + 1) (mas.length - 1)), _), List.mem_map.2 ⟨((mas.length - 1, mas.length - 1), k), List.mem_filter.2 ⟨?_, rfl⟩, rfl⟩, Or.inl hout⟩
    exact List.mem_zipIdx_iff_getElem?.2 (by rw [List.getElem?_eq_getElem hk, hke])
  unfold corrMatrix
  rw [htop]
  show (if false = true ∧ (tril mas.length).length ≠ (tril mas.length).length then Except.error Err.indexError
    else if false = false ∧ (tril mas.length).length ≠ (tril mas.length).length ∧ (tril mas.length).length ≠ 1 then Except.error Err.valueError
    else if ∃ e ∈ corrEntries false mas top (tril mas.length).length (meanVis nt nf v), top < e.1.1 ∨ top < e.1.2 then Except.error Err.indexError else _) = _
  rw [if_neg (fun c => c.2 rfl), if_neg (fun c => c.2.1 rfl), if_pos hex]

/-! ## From the file to the drawing -/

/-- Selected mini-arrays of a file in increasing order: their numbers by position are those of the selection by rank. -/
theorem rank_of_selection (recorded sel : List Nat) (hr : recorded.Pairwise (· < ·)) (hs : sel.Nodup) (hsub : ∀ m ∈ sel, m ∈ recorded) :
    (maIndices recorded sel).map (fun a => recorded.getD a 0) = inRank sel := by
  have hlt : ∀ a ∈ maIndices recorded sel, a < recorded.length := fun a ha => List.mem_range.1 (List.mem_filter.1 ha).1
  have hsorted : ((maIndices recorded sel).map fun a => recorded.getD a 0).Pairwise (· < ·) := by
    rw [List.pairwise_map]
    have h0 : (maIndices recorded sel).Pairwise (· < ·) := List.pairwise_lt_range.filter _
    refine List.Pairwise.imp_of_mem ?_ h0
    intro a b ha hb hab
    rw [List.getD_eq_getElem?_getD, List.getElem?_eq_getElem (hlt a ha), List.getD_eq_getElem?_getD, List.getElem?_eq_getElem (hlt b hb)]
    exact List.pairwise_iff_getElem.1 hr a b _ _ hab
  have hmem : ∀ x, x ∈ (maIndices recorded sel).map (fun a => recorded.getD a 0) ↔ x ∈ inRank sel := by
    intro x
    rw [rank_mem, List.mem_map]
    constructor
    · rintro ⟨a, ha, rfl⟩
      obtain ⟨m, hm, he⟩ := of_decide_eq_true (List.mem_filter.1 ha).2
      rw [List.getD_eq_getElem?_getD, he]
      exact hm
    · intro hx
      obtain ⟨a, ha, rfl⟩ := List.mem_iff_getElem.1 (hsub x hx)
      refine ⟨a, List.mem_filter.2 ⟨List.mem_range.2 ha, decide_eq_true ⟨_, hx, List.getElem?_eq_getElem ha⟩⟩, ?_⟩
      rw [List.getD_eq_getElem?_getD, List.getElem?_eq_getElem ha]
      rfl
  have hperm : ((maIndices recorded sel).map fun a => recorded.getD a 0).Perm (inRank sel) :=
    (List.perm_ext_iff_of_nodup (hsorted.imp fun h => Nat.ne_of_lt h) ((rank_sorted sel hs).imp fun h => Nat.ne_of_lt h)).2 hmem
  exact hperm.eq_of_pairwise (fun a b _ _ h1 h2 => absurd h1 (Nat.lt_asymm h2)) hsorted (rank_sorted sel hs)

/-- **From the file to the drawing**: for a file whose mini-arrays are in increasing order and any mini-arrays selected in any order, the products `XX`, `YX` and `YY` of the mini-arrays at
positions `a ≥ b` of the file are drawn at the column and the row of their numbers, as the mean over all times and frequencies. -/
theorem matrix_of_file (db : Bool) (recorded sel : List Nat) (hr : recorded.Pairwise (· < ·)) (hne : sel ≠ []) (hs : sel.Nodup) (hsub : ∀ m ∈ sel, m ∈ recorded) (p : Prod2) (hp : p ≠ ⟨.X, .Y⟩)
    (nt nf : Nat) (v : Nat → Nat → Nat → Nat → ℂ) : ∃ w : Nat → Nat → List ℂ, (∀ t f : Nat, getCross recorded sel nt nf p (packed recorded.length (v t f)) = .ok (w t f)) ∧
      ∃ d, corrMatrix false db sel nt nf (tril sel.length).length (fun t f k => (w t f).getD k 0) = .ok d ∧
        ∀ (a b A B : Nat), b ≤ a → recorded[a]? = some A → recorded[b]? = some B → A ∈ sel → B ∈ sel →
          cellOf d B A = some (drawnAs db (some ‖(∑ t ∈ Finset.range nt, ∑ f ∈ Finset.range nf, v t f (2 * a + off p.first) (2 * b + off p.second)) / ((nt * nf : Nat) : ℂ)‖)) := by
  have hrank := rank_of_selection recorded sel hr hs hsub
  have hlen : (maIndices recorded sel).length = sel.length := by
    have := congrArg List.length hrank
    rwa [List.length_map, rank_length] at this
  have hpp : pairs p.first p.second = tril := by
    funext n
    unfold pairs
    rw [if_neg]
    intro h
    apply hp
    cases p
    cases h.1; cases h.2; rfl
  refine ⟨fun t f => (tril sel.length).map fun q => v t f (2 * (maIndices recorded sel).getD q.1 0 + off p.first) (2 * (maIndices recorded sel).getD q.2 0 + off p.second), fun t f => ?_, ?_⟩
  · unfold getCross
    rw [if_neg hp, if_neg (by rw [cross_idx_length, hpp, hlen]; simp), cross_idx_exact, hpp, hlen]
  · obtain ⟨d, top, hd, -, h1, -⟩ := matrix_rank false db sel hne hs nt nf (fun t f k => ((tril sel.length).map fun q => v t f (2 * (maIndices recorded sel).getD q.1 0 + off p.first)
      (2 * (maIndices recorded sel).getD q.2 0 + off p.second)).getD k 0)
    refine ⟨d, hd, fun a b A B hab hA hB hAs hBs => ?_⟩
    have hpos : ∀ (a A : Nat), recorded[a]? = some A → A ∈ sel → ∃ i, i < sel.length ∧ (maIndices recorded sel)[i]? = some a ∧ (inRank sel).getD i 0 = A := by
      intro a A hA hAs
      have ha : a ∈ maIndices recorded sel :=
        List.mem_filter.2 ⟨List.mem_range.2 (List.getElem?_eq_some_iff.1 hA).1, decide_eq_true ⟨A, hAs, hA⟩⟩
      obtain ⟨i, hi, he⟩ := List.mem_iff_getElem.1 ha
      have hi2 : (maIndices recorded sel)[i]? = some a := by rw [List.getElem?_eq_getElem hi, he]
      refine ⟨i, by omega, hi2, ?_⟩
      rw [← hrank, List.getD_eq_getElem?_getD, List.getElem?_map, hi2]
      show recorded.getD a 0 = A
      rw [List.getD_eq_getElem?_getD, hA]
      rfl
    obtain ⟨i, hi, hia, hiA⟩ := hpos a A hA hAs
    obtain ⟨j, hj, hjb, hjB⟩ := hpos b B hB hBs
    have hji : j ≤ i := by
      by_contra hcon
      have h0 : (maIndices recorded sel).Pairwise (· < ·) := List.pairwise_lt_range.filter _
      obtain ⟨h2, h3⟩ := List.getElem?_eq_some_iff.1 hia
      obtain ⟨h4, h5⟩ := List.getElem?_eq_some_iff.1 hjb
      have := List.pairwise_iff_getElem.1 h0 i j h2 h4 (by omega)
      omega
    obtain ⟨k, hk, hke⟩ := List.mem_iff_getElem.1 (mem_tril.2 ⟨hji, hi⟩ : ((i, j) : Nat × Nat) ∈ tril sel.length)
    have hk' : (tril sel.length)[k]? = some (i, j) := by rw [List.getElem?_eq_getElem hk, hke]
    have := h1 k i j hk' (fun c => nomatch c)
    rw [hiA, hjB] at this
    rw [this]
    congr 4
    unfold meanVis
    congr 1
    refine Finset.sum_congr rfl fun t _ => Finset.sum_congr rfl fun f _ => ?_
    dsimp only
    rw [List.getD_eq_getElem?_getD, List.getElem?_map, hk']
    show v t f (2 * (maIndices recorded sel).getD i 0 + off p.first) (2 * (maIndices recorded sel).getD j 0 + off p.second) = _
    rw [List.getD_eq_getElem?_getD, List.getD_eq_getElem?_getD, hia, hjb]
    rfl

/-! ## Examples -/

example : moved [1, 3, 4] 5 0 = 1 ∧ moved [1, 3, 4] 5 1 = 3 ∧ moved [1, 3, 4] 5 2 = 4 := by decide

example (v : Nat → Nat → Nat → ℂ) : ∃ d, corrMatrix false true [1, 3] 2 5 3 v = .ok d ∧ cellOf d 1 3 = some (drawnAs true (some ‖meanVis 2 5 v 1‖)) := by
  obtain ⟨d, hd, h⟩ := matrix_exact_partial false true [1, 3] (by simp) (by decide) 2 5 v
  exact ⟨d, hd, h 1 1 0 3 1 (by decide) (fun c => nomatch c) rfl rfl⟩

example (v : Nat → Nat → Nat → ℂ) : ∃ d, corrMatrix false true [3, 1] 2 5 3 v = .ok d := by
  obtain ⟨d, hd, -⟩ := matrix_order_violated true [3, 1] (by simp) (by decide) (by decide) 2 5 v
  exact ⟨d, hd⟩

example (v : Nat → Nat → Nat → ℂ) : corrMatrix false true [2, 2] 2 5 3 v = .error .indexError := matrix_repeated true [2, 2] (by decide) 2 5 v

end Verif.IO
