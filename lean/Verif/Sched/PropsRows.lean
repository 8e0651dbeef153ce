import Verif.Sched.Rows
import Verif.Sched.PropsMisc
import Mathlib.Algebra.Order.Floor.Ring
import Mathlib.Data.Rat.Floor

/-!
# Properties of the drawings of a schedule
-/

namespace Verif.Scheduler

/-! ## Helpers -/

theorem row_count_ok (s : Sched) (d : ℚ) (hs : s.size ≠ 0) (hdt : 0 < s.dt) (hd : 0 < d) :
    rowCount s d = .ok ⌈(lastStop s - firstMidnight s) / d⌉.toNat ∧ 0 < ⌈(lastStop s - firstMidnight s) / d⌉ := by
  have h1 : (firstMidnight s) ≤ s.slotStart 0 := Int.floor_le _
  have h2 : s.slotStart 0 < lastStop s := by
    unfold lastStop Sched.slotStop Sched.slotStart
    have : (0 : ℚ) ≤ ((s.size - 1 : Nat) : ℚ) * s.dt := by positivity
    push_cast
    linarith
  have hc : 0 < ⌈(lastStop s - firstMidnight s) / d⌉ := Int.ceil_pos.2 (div_pos (by linarith) hd)
  refine ⟨?_, hc⟩
  unfold rowCount
  rw [if_neg hs, if_neg hd.ne', if_neg (not_le.2 hc)]

theorem rows_ok (s : Sched) (res : List (ℚ × ℚ)) (d : ℚ) (grid : Bool) (hs : s.size ≠ 0) (hdt : 0 < s.dt) (hd : 0 < d) :
    plotRows s res d grid = .ok ((List.range ⌈(lastStop s - firstMidnight s) / d⌉.toNat).map (plotRow s res d grid)) := by
  unfold plotRows
  rw [(row_count_ok s d hs hdt hd).1]
  rfl

/-- A time from the first midnight on, before the last end, lies in exactly one row. -/
theorem row_of (s : Sched) (d t : ℚ) (hd : 0 < d) (h0 : firstMidnight s ≤ t) (h1 : t < lastStop s) :
    ∃ i < ⌈(lastStop s - firstMidnight s) / d⌉.toNat, (rowLeft s d i ≤ t ∧ t < rowRight s d i) ∧
      ∀ j, rowLeft s d j ≤ t → t < rowRight s d j → j = i := by
  have hn : 0 ≤ (t - firstMidnight s) / d := div_nonneg (by linarith) hd.le
  have f1 := Nat.floor_le hn
  have f2 := Nat.lt_floor_add_one ((t - firstMidnight s) / d)
  generalize ⌊(t - firstMidnight s) / d⌋₊ = i at f1 f2
  rw [le_div_iff₀ hd] at f1
  rw [div_lt_iff₀ hd] at f2
  refine ⟨i, ?_, ⟨?_, ?_⟩, ?_⟩
  · have h3 : ((i : ℤ) : ℚ) < (lastStop s - firstMidnight s) / d := by
      rw [lt_div_iff₀ hd]
      push_cast
      linarith
    have h4 := Int.lt_ceil.2 h3
    omega
  · unfold rowLeft
    linarith
  · unfold rowRight
    push_cast
    linarith
  · intro j hj1 hj2
    unfold rowLeft at hj1
    unfold rowRight at hj2
    push_cast at hj2
    have a1 : (j : ℚ) < i + 1 := by
      by_contra hc
      have := mul_le_mul_of_nonneg_right (not_lt.1 hc) hd.le
      linarith
    have a2 : (i : ℚ) < j + 1 := by
      by_contra hc
      have := mul_le_mul_of_nonneg_right (not_lt.1 hc) hd.le
      linarith
    have a3 : j < i + 1 := by exact_mod_cast a1
    have a4 : i < j + 1 := by exact_mod_cast a2
    omega

theorem mem_booked (s : Sched) (k : Nat) (a b : ℚ) : (k, a, b) ∈ bookedBlocks s ↔
    ∃ blk, s.blocks[k]? = some blk ∧ blk.start.isSome = true ∧ blk.tMin = some a ∧ blk.tMax = some b := by
  unfold bookedBlocks
  rw [List.mem_filterMap]
  constructor
  · rintro ⟨i, _, h⟩
    unfold bookedAt at h
    rw [Option.bind_eq_some_iff] at h
    obtain ⟨blk, hb, h⟩ := h
    split_ifs at h with hst
    rw [Option.bind_eq_some_iff] at h
    obtain ⟨t, ht, h⟩ := h
    rw [Option.map_eq_some_iff] at h
    obtain ⟨u, hu, e⟩ := h
    cases e
    exact ⟨blk, hb, hst, ht, hu⟩
  · rintro ⟨blk, hb, hst, ht, hu⟩
    refine ⟨k, List.mem_range.2 (List.getElem?_eq_some_iff.1 hb).1, ?_⟩
    unfold bookedAt
    rw [hb, Option.bind_some, if_pos hst, ht, Option.bind_some, hu]
    rfl

theorem mem_titles (bs : List (Nat × ℚ × ℚ)) (l r : ℚ) (k : Nat) (x : ℚ) : (k, x) ∈ titlesIn bs l r ↔
    ∃ a b, (k, a, b) ∈ bs ∧ x = a + (b - a) / 2 ∧ l ≤ x ∧ x < r := by
  unfold titlesIn
  rw [List.mem_map]
  constructor
  · rintro ⟨⟨k', a, b⟩, h, e⟩
    rw [List.mem_filter, Bool.and_eq_true, decide_eq_true_iff, decide_eq_true_iff] at h
    cases e
    exact ⟨a, b, h.1, rfl, h.2.1, h.2.2⟩
  · rintro ⟨a, b, h, rfl, h1, h2⟩
    refine ⟨(k, a, b), ?_, rfl⟩
    rw [List.mem_filter, Bool.and_eq_true, decide_eq_true_iff, decide_eq_true_iff]
    exact ⟨h, h1, h2⟩

theorem mem_marks (s : Sched) (l r x : ℚ) : x ∈ marksIn s l r ↔ ∃ k < s.size, l ≤ s.slotStart k ∧ s.slotStop k ≤ r ∧ x = s.slotStart k := by
  unfold marksIn
  rw [List.mem_map]
  constructor
  · rintro ⟨k, h, rfl⟩
    rw [List.mem_filter, Bool.and_eq_true, decide_eq_true_iff, decide_eq_true_iff, List.mem_range] at h
    exact ⟨k, h.1, h.2.1, h.2.2, rfl⟩
  · rintro ⟨k, hk, h1, h2, rfl⟩
    refine ⟨k, ?_, rfl⟩
    rw [List.mem_filter, Bool.and_eq_true, decide_eq_true_iff, decide_eq_true_iff, List.mem_range]
    exact ⟨hk, h1, h2⟩

theorem row_get (s : Sched) (res : List (ℚ × ℚ)) (d : ℚ) (grid : Bool) (n i : Nat) (row : RowDrawn)
    (h : ((List.range n).map (plotRow s res d grid))[i]? = some row) : i < n ∧ row = plotRow s res d grid i := by
  rw [List.getElem?_map, Option.map_eq_some_iff] at h
  obtain ⟨j, hj, e⟩ := h
  obtain ⟨h1, h2⟩ := List.getElem?_eq_some_iff.1 hj
  rw [List.length_range] at h1
  rw [List.getElem_range] at h2
  exact ⟨h1, by rw [← e, h2]⟩

theorem row_at (s : Sched) (res : List (ℚ × ℚ)) (d : ℚ) (grid : Bool) (n i : Nat) (h : i < n) :
    ((List.range n).map (plotRow s res d grid))[i]? = some (plotRow s res d grid i) := by
  rw [List.getElem?_map, List.getElem?_range h]
  rfl

/-! ## Properties -/

/-- **C176.** The rows follow one another from the midnight before the schedule, have the length asked, and every moment of the schedule lies in
exactly one of them; the last row still shows some of the schedule. -/
theorem rows_cover (s : Sched) (res : List (ℚ × ℚ)) (d : ℚ) (grid : Bool) (hs : s.size ≠ 0) (hdt : 0 < s.dt) (hd : 0 < d) :
    ∃ rows : List RowDrawn, plotRows s res d grid = .ok rows ∧ rows ≠ [] ∧
      (∀ (i : Nat) row, rows[i]? = some row → row.left = ⌊s.t0⌋ + i * d ∧ row.right = row.left + d) ∧
      (∀ row, rows.getLast? = some row → row.left < s.t0 + s.size * s.dt ∧ s.t0 + s.size * s.dt ≤ row.right) ∧
      ∀ t, s.t0 ≤ t → t < s.t0 + s.size * s.dt →
        ∃! i : Nat, ∃ row : RowDrawn, rows[i]? = some row ∧ row.left ≤ t ∧ t < row.right := by
  have hm : firstMidnight s = ⌊s.t0⌋ := by
    unfold firstMidnight Sched.slotStart
    simp
  have hl : lastStop s = s.t0 + s.size * s.dt := by
    unfold lastStop Sched.slotStop Sched.slotStart
    have : ((s.size - 1 : Nat) : ℚ) = s.size - 1 := by
      rw [Nat.cast_sub (by omega)]
      simp
    rw [this]
    ring
  have hc := (row_count_ok s d hs hdt hd).2
  refine ⟨_, rows_ok s res d grid hs hdt hd, ?_, ?_, ?_, ?_⟩
  · intro h0
    rw [List.map_eq_nil_iff, List.range_eq_nil] at h0
    omega
  · intro i row h
    obtain ⟨_, rfl⟩ := row_get _ _ _ _ _ _ _ h
    constructor
    · show rowLeft s d i = _
      unfold rowLeft
      rw [hm]
    · show rowRight s d i = rowLeft s d i + d
      unfold rowLeft rowRight
      push_cast
      ring
  · intro row h
    rw [List.getLast?_eq_getElem?, List.length_map, List.length_range] at h
    obtain ⟨_, rfl⟩ := row_get _ _ _ _ _ _ _ h
    have c1 := Int.ceil_lt_add_one ((lastStop s - firstMidnight s) / d)
    have c2 := Int.le_ceil ((lastStop s - firstMidnight s) / d)
    obtain ⟨n, hn⟩ : ∃ n : Nat, ⌈(lastStop s - firstMidnight s) / d⌉ = ((n + 1 : Nat) : ℤ) :=
      ⟨(⌈(lastStop s - firstMidnight s) / d⌉ - 1).toNat, by omega⟩
    rw [hn] at c1 c2
    rw [hn, Int.toNat_natCast, Nat.add_sub_cancel]
    push_cast at c1 c2
    rw [div_le_iff₀ hd] at c2
    have c3 : (n : ℚ) < (lastStop s - firstMidnight s) / d := by linarith
    rw [lt_div_iff₀ hd] at c3
    rw [← hl]
    constructor
    · show rowLeft s d n < _
      unfold rowLeft
      linarith
    · show _ ≤ rowRight s d n
      unfold rowRight
      push_cast
      linarith
  · intro t ht0 ht1
    obtain ⟨i, hi, hin, hu⟩ := row_of s d t hd (by rw [hm]; exact le_trans (Int.floor_le _) ht0) (by rw [hl]; exact ht1)
    refine ⟨i, ⟨_, row_at _ _ _ _ _ _ hi, hin⟩, ?_⟩
    rintro j ⟨row, hr, hj⟩
    obtain ⟨_, rfl⟩ := row_get _ _ _ _ _ _ _ hr
    exact hu j hj.1 hj.2

/-- **C176.** Each booked block within the schedule has its title in exactly one row, at its middle. -/
theorem title_once (s : Sched) (res : List (ℚ × ℚ)) (d : ℚ) (grid : Bool) (hs : s.size ≠ 0) (hdt : 0 < s.dt) (hd : 0 < d)
    (k : Nat) (b : Block) (u v : ℚ) (hb : s.blocks[k]? = some b) (hst : b.start.isSome = true) (hu : b.tMin = some u) (hv : b.tMax = some v)
    (h0 : s.t0 ≤ u) (huv : u < v) (h1 : v ≤ s.t0 + s.size * s.dt) :
    ∃ rows : List RowDrawn, plotRows s res d grid = .ok rows ∧
      ∃! i : Nat, ∃ row : RowDrawn, rows[i]? = some row ∧ (k, (u + v) / 2) ∈ row.titles := by
  have hm : firstMidnight s = ⌊s.t0⌋ := by
    unfold firstMidnight Sched.slotStart
    simp
  have hl : lastStop s = s.t0 + s.size * s.dt := by
    unfold lastStop Sched.slotStop Sched.slotStart
    have : ((s.size - 1 : Nat) : ℚ) = s.size - 1 := by
      rw [Nat.cast_sub (by omega)]
      simp
    rw [this]
    ring
  refine ⟨_, rows_ok s res d grid hs hdt hd, ?_⟩
  have hf := Int.floor_le s.t0
  obtain ⟨i, hi, hin, huq⟩ := row_of s d ((u + v) / 2) hd (by rw [hm]; linarith) (by rw [hl]; linarith)
  have hmem := (mem_booked s k u v).2 ⟨b, hb, hst, hu, hv⟩
  refine ⟨i, ⟨_, row_at _ _ _ _ _ _ hi, ?_⟩, ?_⟩
  · show _ ∈ titlesIn (bookedBlocks s) (rowLeft s d i) (rowRight s d i)
    exact (mem_titles _ _ _ _ _).2 ⟨u, v, hmem, by ring, hin.1, hin.2⟩
  · rintro j ⟨row, hr, hj⟩
    obtain ⟨_, rfl⟩ := row_get _ _ _ _ _ _ _ hr
    obtain ⟨_, _, _, _, h2, h3⟩ := (mem_titles _ _ _ _ _).1 (show _ ∈ titlesIn (bookedBlocks s) (rowLeft s d j) (rowRight s d j) from hj)
    exact huq j h2 h3

/-- **C176.** What is drawn in a row: the reserved and the booked blocks, and titles only of booked blocks whose middle is in the row. -/
theorem row_content (s : Sched) (res : List (ℚ × ℚ)) (d : ℚ) (grid : Bool) (rows : List RowDrawn) (i : Nat) (row : RowDrawn)
    (h : plotRows s res d grid = .ok rows) (hr : rows[i]? = some row) :
    row.reserved = res ∧
    (∀ k u v, (k, u, v) ∈ row.spans ↔ ∃ b, s.blocks[k]? = some b ∧ b.start.isSome = true ∧ b.tMin = some u ∧ b.tMax = some v) ∧
    (∀ k x, (k, x) ∈ row.titles → ∃ u v, (k, u, v) ∈ row.spans ∧ x = (u + v) / 2 ∧ row.left ≤ x ∧ x < row.right) ∧
    ∀ x, x ∈ row.marks ↔ grid = true ∧ ∃ k < s.size, x = s.slotStart k ∧ row.left ≤ s.slotStart k ∧ s.slotStop k ≤ row.right := by
  unfold plotRows at h
  cases hc : rowCount s d with
  | error e => rw [hc] at h; cases h
  | ok n =>
    rw [hc] at h
    cases h
    obtain ⟨_, rfl⟩ := row_get _ _ _ _ _ _ _ hr
    refine ⟨rfl, fun k u v => mem_booked s k u v, ?_, ?_⟩
    · intro k x hx
      obtain ⟨u, v, h1, h2, h3, h4⟩ := (mem_titles _ _ _ _ _).1 (show _ ∈ titlesIn (bookedBlocks s) (rowLeft s d i) (rowRight s d i) from hx)
      exact ⟨u, v, h1, by rw [h2]; ring, h3, h4⟩
    · intro x
      show x ∈ (if grid = true then marksIn s (rowLeft s d i) (rowRight s d i) else []) ↔ _
      cases grid with
      | false => simp
      | true =>
        rw [if_pos rfl, mem_marks]
        constructor
        · rintro ⟨k, h1, h2, h3, h4⟩
          exact ⟨rfl, k, h1, h4, h2, h3⟩
        · rintro ⟨_, k, h1, h4, h2, h3⟩
          exact ⟨k, h1, h2, h3, h4⟩

/-- **C176.** A length of zero or below is refused. -/
theorem rows_refused (s : Sched) (res : List (ℚ × ℚ)) (d : ℚ) (grid : Bool) (hs : s.size ≠ 0) (hdt : 0 < s.dt) :
    plotRows s res 0 grid = .error .overflow ∧ (d < 0 → plotRows s res d grid = .error .valueError) := by
  constructor
  · unfold plotRows rowCount
    rw [if_neg hs, if_pos rfl]
    rfl
  · intro hd
    have h1 : (firstMidnight s) ≤ s.slotStart 0 := Int.floor_le _
    have h2 : s.slotStart 0 < lastStop s := by
      unfold lastStop Sched.slotStop Sched.slotStart
      have : (0 : ℚ) ≤ ((s.size - 1 : Nat) : ℚ) * s.dt := by positivity
      push_cast
      linarith
    have hc : ⌈(lastStop s - firstMidnight s) / d⌉ ≤ 0 := by
      rw [Int.ceil_le]
      push_cast
      exact div_nonpos_of_nonneg_of_nonpos (by linarith) hd.le
    unfold plotRows rowCount
    rw [if_neg hs, if_neg hd.ne, if_pos hc]
    rfl

/-- **C176 (violated).** "Every slot is marked." A slot which begins in a row and ends in the next one is marked in no row. -/
theorem marks_cut_violated (s : Sched) (res : List (ℚ × ℚ)) (d : ℚ) (hs : s.size ≠ 0) (hdt : 0 < s.dt) (hd : 0 < d)
    (k i : Nat) (h1 : s.slotStart k < ⌊s.t0⌋ + i * d) (h2 : ⌊s.t0⌋ + i * d < s.slotStop k) :
    ∃ rows : List RowDrawn, plotRows s res d true = .ok rows ∧ ∀ row ∈ rows, s.slotStart k ∉ row.marks := by
  refine ⟨_, rows_ok s res d true hs hdt hd, ?_⟩
  intro row hr hm
  obtain ⟨j, _, rfl⟩ := List.mem_map.1 hr
  obtain ⟨k', _, h3, h4, h5⟩ := (mem_marks _ _ _ _).1 (show _ ∈ marksIn s (rowLeft s d j) (rowRight s d j) from hm)
  have e : s.slotStop k = s.slotStop k' := by
    unfold Sched.slotStop
    rw [h5]
  have hf : firstMidnight s = ⌊s.t0⌋ := by
    unfold firstMidnight Sched.slotStart
    simp
  unfold rowLeft at h3
  unfold rowRight at h4
  rw [← h5, hf] at h3
  rw [← e, hf] at h4
  have a1 : (j : ℚ) < i := by
    by_contra hc
    have := mul_le_mul_of_nonneg_right (not_lt.1 hc) hd.le
    linarith
  have a2 : (i : ℚ) < (j + 1 : Nat) := by
    by_contra hc
    have := mul_le_mul_of_nonneg_right (not_lt.1 hc) hd.le
    linarith
  have a3 : j < i := by exact_mod_cast a1
  have a4 : i < j + 1 := by exact_mod_cast a2
  omega

/-- **C176 (partial: the rows are whole numbers of slots, and the first midnight is at a slot's limit).** Every slot is marked in exactly one row. -/
theorem marks_once_partial (s : Sched) (res : List (ℚ × ℚ)) (hs : s.size ≠ 0) (hdt : 0 < s.dt) (m j : Nat) (hm : 0 < m)
    (hj : s.t0 = ⌊s.t0⌋ + j * s.dt) (k : Nat) (hk : k < s.size) :
    ∃ rows : List RowDrawn, plotRows s res (m * s.dt) true = .ok rows ∧
      ∃! i : Nat, ∃ row : RowDrawn, rows[i]? = some row ∧ s.slotStart k ∈ row.marks := by
  have hmq : (0 : ℚ) < m := by exact_mod_cast hm
  have hd : 0 < (m : ℚ) * s.dt := mul_pos hmq hdt
  have hf : firstMidnight s = ⌊s.t0⌋ := by
    unfold firstMidnight Sched.slotStart
    simp
  have hl : lastStop s = s.t0 + s.size * s.dt := by
    unfold lastStop Sched.slotStop Sched.slotStart
    have : ((s.size - 1 : Nat) : ℚ) = s.size - 1 := by
      rw [Nat.cast_sub (by omega)]
      simp
    rw [this]
    ring
  have hkq : (k : ℚ) + 1 ≤ s.size := by exact_mod_cast hk
  have hks : ((k : ℚ) + 1) * s.dt ≤ s.size * s.dt := mul_le_mul_of_nonneg_right hkq hdt.le
  have hk0 : 0 ≤ (k : ℚ) * s.dt := by positivity
  refine ⟨_, rows_ok s res _ true hs hdt hd, ?_⟩
  have hfl := Int.floor_le s.t0
  obtain ⟨i, hi, hin, huq⟩ := row_of s (m * s.dt) (s.slotStart k) hd (by rw [hf]; unfold Sched.slotStart; linarith)
    (by rw [hl]; unfold Sched.slotStart; linarith)
  refine ⟨i, ⟨_, row_at _ _ _ _ _ _ hi, ?_⟩, ?_⟩
  · show _ ∈ marksIn s (rowLeft s (m * s.dt) i) (rowRight s (m * s.dt) i)
    refine (mem_marks _ _ _ _).2 ⟨k, hk, hin.1, ?_, rfl⟩
    have h2 := hin.2
    unfold rowRight at h2 ⊢
    unfold Sched.slotStop
    unfold Sched.slotStart at h2 ⊢
    rw [hf] at h2 ⊢
    have h3 : ((j : ℚ) + k) * s.dt < ((i + 1 : Nat) * m : ℚ) * s.dt := by
      have : (((i + 1 : Nat) : ℚ) * m) * s.dt = ((i + 1 : Nat) : ℚ) * (m * s.dt) := by ring
      rw [this]
      linarith
    have h4 := lt_of_mul_lt_mul_right h3 hdt.le
    have h5 : j + k < (i + 1) * m := by exact_mod_cast h4
    have h6 : ((j + k + 1 : Nat) : ℚ) ≤ (((i + 1) * m : Nat) : ℚ) := by exact_mod_cast h5
    have h7 := mul_le_mul_of_nonneg_right h6 hdt.le
    push_cast at h7 ⊢
    linarith
  · rintro i' ⟨row, hr, hx⟩
    obtain ⟨_, rfl⟩ := row_get _ _ _ _ _ _ _ hr
    obtain ⟨k', _, h3, h4, h5⟩ := (mem_marks _ _ _ _).1 (show _ ∈ marksIn s (rowLeft s (m * s.dt) i') (rowRight s (m * s.dt) i') from hx)
    refine huq i' (by rw [h5]; exact h3) ?_
    rw [h5]
    have : s.slotStart k' < s.slotStop k' := by unfold Sched.slotStop; linarith
    linarith

/-- **C176 (violated).** "Every row shows some of the schedule." The first row is empty when it ends before the first slot. -/
theorem first_row_violated (s : Sched) (res : List (ℚ × ℚ)) (d : ℚ) (grid : Bool) (hs : s.size ≠ 0) (hdt : 0 < s.dt) (hd : 0 < d)
    (h : ⌊s.t0⌋ + d ≤ s.t0) :
    ∃ (rows : List RowDrawn) (row : RowDrawn), plotRows s res d grid = .ok rows ∧ rows[0]? = some row ∧ (∀ t, t < row.right → t < s.t0) ∧ row.marks = [] := by
  have hf : firstMidnight s = ⌊s.t0⌋ := by
    unfold firstMidnight Sched.slotStart
    simp
  have hc := (row_count_ok s d hs hdt hd).2
  have hr : rowRight s d 0 ≤ s.t0 := by
    unfold rowRight
    rw [hf]
    push_cast
    linarith
  refine ⟨_, _, rows_ok s res d grid hs hdt hd, row_at _ _ _ _ _ _ (by omega), fun t ht => lt_of_lt_of_le ht hr, ?_⟩
  rw [List.eq_nil_iff_forall_not_mem]
  intro x hx
  have hx' : x ∈ (if grid = true then marksIn s (rowLeft s d 0) (rowRight s d 0) else []) := hx
  split_ifs at hx' with hg
  · obtain ⟨k, _, _, h3, _⟩ := (mem_marks _ _ _ _).1 hx'
    have : s.t0 < s.slotStop k := by
      unfold Sched.slotStop Sched.slotStart
      have : 0 ≤ (k : ℚ) * s.dt := by positivity
      linarith
    linarith
  · simp at hx'

/-- **C176 (partial: no common limit).** A drawing of a range has exactly the booked blocks which share some time with it. -/
theorem range_blocks_partial (s : Sched) (res : List (ℚ × ℚ)) (start stop : ℚ) (grid : Bool) (hss : start < stop)
    (k : Nat) (b : Block) (u v : ℚ) (hb : s.blocks[k]? = some b) (hst : b.start.isSome = true) (hu : b.tMin = some u) (hv : b.tMax = some v)
    (huv : u < v) (h1 : u ≠ start) (h2 : v ≠ stop) :
    (k, u, v) ∈ (plotRange s res start stop grid).spans ↔ ∃ x, u < x ∧ x < v ∧ start < x ∧ x < stop := by
  have hmem := (mem_booked s k u v).2 ⟨b, hb, hst, hu, hv⟩
  rw [← is_within_partial u v start stop huv hss h1 h2]
  unfold plotRange
  dsimp only
  rw [List.mem_filter]
  exact ⟨fun h => h.2, fun h => ⟨hmem, h⟩⟩

/-- **C176.** A drawing of a range: the marks of the slots within it, and only booked blocks. -/
theorem range_content (s : Sched) (res : List (ℚ × ℚ)) (start stop : ℚ) (grid : Bool) :
    (plotRange s res start stop grid).left = start ∧ (plotRange s res start stop grid).right = stop ∧
    (∀ x, x ∈ (plotRange s res start stop grid).marks ↔ grid = true ∧ ∃ k < s.size, x = s.slotStart k ∧ start ≤ s.slotStart k ∧ s.slotStop k ≤ stop) ∧
    (∀ k u v, (k, u, v) ∈ (plotRange s res start stop grid).spans →
      ∃ b, s.blocks[k]? = some b ∧ b.start.isSome = true ∧ b.tMin = some u ∧ b.tMax = some v) ∧
    (∀ r, r ∈ (plotRange s res start stop grid).reserved ↔ r ∈ res ∧ isWithin r.1 r.2 start stop = true) ∧
    ∀ k x, (k, x) ∈ (plotRange s res start stop grid).titles ↔ ∃ u v, (k, u, v) ∈ (plotRange s res start stop grid).spans ∧ x = (u + v) / 2 := by
  refine ⟨rfl, rfl, ?_, ?_, fun r => by unfold plotRange; exact List.mem_filter, ?_⟩
  · intro x
    show x ∈ (if grid = true then marksIn s start stop else []) ↔ _
    cases grid with
    | false => simp
    | true =>
      rw [if_pos rfl, mem_marks]
      constructor
      · rintro ⟨k, h1, h2, h3, h4⟩
        exact ⟨rfl, k, h1, h4, h2, h3⟩
      · rintro ⟨_, k, h1, h4, h2, h3⟩
        exact ⟨k, h1, h2, h3, h4⟩
  · intro k u v h
    exact (mem_booked s k u v).1 (List.mem_filter.1 (show (k, u, v) ∈ (bookedBlocks s).filter fun b => isWithin b.2.1 b.2.2 start stop from h)).1
  · intro k x
    constructor
    · intro h
      obtain ⟨⟨k', u, v⟩, h1, e⟩ := List.mem_map.1 h
      cases e
      exact ⟨u, v, h1, by unfold textPos; ring⟩
    · rintro ⟨u, v, h1, rfl⟩
      refine List.mem_map.2 ⟨(k, u, v), h1, ?_⟩
      unfold textPos
      rw [Prod.mk.injEq]
      exact ⟨rfl, by ring⟩

/-- **C176 (violated).** "Titles are within the drawing." A block with less than half of its time in a range has its title outside the limits. -/
theorem range_title_violated (s : Sched) (res : List (ℚ × ℚ)) (start stop : ℚ) (grid : Bool)
    (k : Nat) (b : Block) (u v : ℚ) (hb : s.blocks[k]? = some b) (hst : b.start.isSome = true) (hu : b.tMin = some u) (hv : b.tMax = some v)
    (h1 : start < v) (h2 : v < stop) (h3 : (u + v) / 2 < start) :
    ∃ x, (k, x) ∈ (plotRange s res start stop grid).titles ∧ x < (plotRange s res start stop grid).left := by
  have hmem := (mem_booked s k u v).2 ⟨b, hb, hst, hu, hv⟩
  refine ⟨(u + v) / 2, ((range_content s res start stop grid).2.2.2.2.2 _ _).2 ⟨u, v, ?_, rfl⟩, h3⟩
  refine List.mem_filter.2 ⟨hmem, ?_⟩
  show isWithin u v start stop = true
  rw [is_within_iff u v start stop (by linarith) (by linarith)]
  refine ⟨⟨(start + v) / 2, by linarith, by linarith, by linarith, by linarith⟩, h2.ne, fun hc => by linarith [hc.1]⟩

/-- **C176 (violated).** "Blocks within the range are drawn." A block which ends with the range is not. -/
theorem range_end_violated (s : Sched) (res : List (ℚ × ℚ)) (start stop u : ℚ) (grid : Bool) (k : Nat) (h1 : u < stop) (h2 : start < stop) :
    (k, u, stop) ∉ (plotRange s res start stop grid).spans := by
  intro h
  have h3 := (List.mem_filter.1 (show (k, u, stop) ∈ (bookedBlocks s).filter fun b => isWithin b.2.1 b.2.2 start stop from h)).2
  exact ((is_within_iff u stop start stop h1 h2).1 h3).2.1 rfl

/-! ## Non-vacuity -/

/-- A block from 22 h to 2 h. -/
def nightBlock : Block :=
  ⟨1 / 6, none, none, 4, 0, fun _ => 1, some 4, some (11 / 12), some (13 / 12), fun _ => 1, true⟩

/-- A schedule from 18 h to 6 h, in slots of one hour, with this block. -/
def nightSched : Sched := ⟨3 / 4, 1 / 24, 12, fun _ => true, fun _ => 0, fun _ => false, [nightBlock]⟩

example : bookedBlocks nightSched = [(0, 11 / 12, 13 / 12)] := by decide +kernel

/-- The night is drawn in two rows of one day, the title being in the second one. -/
example : ∃ rows : List RowDrawn, plotRows nightSched [] 1 true = .ok rows ∧ ∃! i : Nat, ∃ row : RowDrawn, rows[i]? = some row ∧ (0, 1) ∈ row.titles := by
  have := title_once nightSched [] 1 true (by decide) (by decide +kernel) (by norm_num) 0 nightBlock (11 / 12) (13 / 12) rfl rfl rfl rfl
    (by norm_num [nightSched]) (by norm_num) (by norm_num [nightSched])
  norm_num at this
  exact this

example : nightSched.t0 = ⌊nightSched.t0⌋ + (18 : Nat) * nightSched.dt := by
  have : ⌊(3 / 4 : ℚ)⌋ = 0 := by norm_num [Int.floor_eq_iff]
  show (3 / 4 : ℚ) = (⌊(3 / 4 : ℚ)⌋ : ℤ) + _
  rw [this]
  norm_num [nightSched]

/-- From half past midnight, the title of the block is left of the drawing. -/
example : ∃ x, (0, x) ∈ (plotRange nightSched [] (49 / 48) 2 true).titles ∧ x < 49 / 48 :=
  range_title_violated nightSched [] (49 / 48) 2 true 0 nightBlock (11 / 12) (13 / 12) rfl rfl rfl rfl (by norm_num) (by norm_num) (by norm_num)

end Verif.Scheduler
