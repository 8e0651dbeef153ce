import Verif.Sched.FineTune
import Mathlib.Tactic.Linarith
import Mathlib.Tactic.NormNum
import Mathlib.Data.List.GetD
import Mathlib.Algebra.BigOperators.Group.List.Basic

/-!
# Properties of the fine tuning of schedules
-/

namespace Verif.Scheduler

/-! ## Moves -/

theorem tsort_perm (bs : List TBlock) : (tSort bs).Perm bs := List.perm_insertionSort _ bs

theorem tsort_mem (bs : List TBlock) (i : Nat) (b : TBlock) (h : (tSort bs)[i]? = some b) : b ∈ bs :=
  (tsort_perm bs).mem_iff.1 (List.mem_of_getElem? h)

instance tTotal : Std.Total (fun a b : TBlock => a.start ≤ b.start) := ⟨fun a b => Nat.le_total a.start b.start⟩
instance tTrans : IsTrans TBlock (fun a b : TBlock => a.start ≤ b.start) := ⟨fun _ _ _ h1 h2 => Nat.le_trans h1 h2⟩

theorem tsort_sorted (bs : List TBlock) (i j : Nat) (a b : TBlock) (hij : i ≤ j) (ha : (tSort bs)[i]? = some a) (hb : (tSort bs)[j]? = some b) : a.start ≤ b.start := by
  rcases Nat.eq_or_lt_of_le hij with rfl | h
  · rw [ha] at hb
    cases hb
    exact le_refl _
  · have hs : (tSort bs).Pairwise (fun a b => a.start ≤ b.start) := List.pairwise_insertionSort _ bs
    obtain ⟨hi, rfl⟩ := List.getElem?_eq_some_iff.1 ha
    obtain ⟨hj, rfl⟩ := List.getElem?_eq_some_iff.1 hb
    exact List.pairwise_iff_getElem.1 hs i j hi hj h

theorem left_pos (sc : Nat → Nat → ℚ) (l : List TBlock) (i : Nat) (b : TBlock) (h : 0 < leftScore sc l i b) :
    gapLow l i < b.start ∧ sc b.idx b.start < sc b.idx (b.start - 1) ∧
      (b.delay = 0 ∨ i < prevDelay l i ∨ ∀ p, l[prevDelay l i]? = some p → p.start + p.n + p.delay < b.start) := by
  have key : 0 < leftGain sc l i b → gapLow l i < b.start ∧ sc b.idx b.start < sc b.idx (b.start - 1) := by
    intro h
    unfold leftGain at h
    split_ifs at h with h1
    · exact ⟨h1, by linarith⟩
    · norm_num at h
  unfold leftScore at h
  split_ifs at h with h1 h2
  · exact ⟨(key h).1, (key h).2, h1.elim Or.inl fun h => .inr (.inl h)⟩
  · norm_num at h
  · refine ⟨(key h).1, (key h).2, .inr (.inr fun p hp => ?_)⟩
    rw [hp] at h2
    simpa using h2

theorem right_pos (size : Nat) (sc : Nat → Nat → ℚ) (l : List TBlock) (i : Nat) (b : TBlock) (h : 0 < rightScore size sc l i b) :
    (b.start : Int) + 1 < gapHigh size l i b ∧ sc b.idx b.start < sc b.idx (b.start + 1) ∧
      (b.delay = 0 ∨ nextDelay l i < i ∨ ∀ q, l[nextDelay l i]? = some q → b.start + b.n + b.delay < q.start) := by
  have key : 0 < rightGain size sc l i b → (b.start : Int) + 1 < gapHigh size l i b ∧ sc b.idx b.start < sc b.idx (b.start + 1) := by
    intro h
    unfold rightGain at h
    split_ifs at h with h1
    · exact ⟨h1, by linarith⟩
    · norm_num at h
  unfold rightScore at h
  split_ifs at h with h1 h2
  · exact ⟨(key h).1, (key h).2, h1.elim Or.inl fun h => .inr (.inl h)⟩
  · norm_num at h
  · refine ⟨(key h).1, (key h).2, .inr (.inr fun p hp => ?_)⟩
    rw [hp] at h2
    simpa using h2

/-- What a turn of the loop may do. -/
theorem step_move (size : Nat) (sc : Nat → Nat → ℚ) (bs bs' : List TBlock) (h : tuneStep size sc bs = .ok (some bs')) :
    ∃ i b, (tSort bs)[i]? = some b ∧ ((0 < leftScore sc (tSort bs) i b ∧ bs' = moveBlock bs b.idx (b.start - 1) ∧ b.start - 1 + b.n - 1 < size) ∨
      (0 < rightScore size sc (tSort bs) i b ∧ bs' = moveBlock bs b.idx (b.start + 1) ∧ b.start + 1 + b.n - 1 < size)) := by
  unfold tuneStep at h
  generalize hr : tunedRank size sc bs = r at h
  cases hb : (tSort bs)[r]? with
  | none => rw [hb] at h; exact nomatch h
  | some b =>
    rw [hb] at h
    have h2 : (if bestScore size sc (tSort bs) r ≤ 0 then Except.ok none else if size ≤ newStart size sc (tSort bs) r b + b.n - 1 then .error .indexError
      else .ok (some (moveBlock bs b.idx (newStart size sc (tSort bs) r b))) : Except Err (Option (List TBlock))) = .ok (some bs') := h
    by_cases h3 : bestScore size sc (tSort bs) r ≤ 0
    · rw [if_pos h3] at h2; exact nomatch h2
    rw [if_neg h3] at h2
    by_cases h4 : size ≤ newStart size sc (tSort bs) r b + b.n - 1
    · rw [if_pos h4] at h2; exact nomatch h2
    rw [if_neg h4] at h2
    have h5 := Option.some.inj (Except.ok.inj h2)
    refine ⟨r, b, hb, ?_⟩
    have hbest : bestScore size sc (tSort bs) r = if leftScore sc (tSort bs) r b < rightScore size sc (tSort bs) r b then rightScore size sc (tSort bs) r b
      else leftScore sc (tSort bs) r b := by unfold bestScore; rw [hb]; rfl
    rw [hbest] at h3
    unfold newStart at h4 h5
    by_cases hlr : leftScore sc (tSort bs) r b < rightScore size sc (tSort bs) r b
    · rw [if_pos hlr] at h3 h4 h5
      exact .inr ⟨not_le.1 h3, h5.symm, not_le.1 h4⟩
    · rw [if_neg hlr] at h3 h4 h5
      exact .inl ⟨not_le.1 h3, h5.symm, not_le.1 h4⟩

/-! ## Specification -/

/-- Slots used by two blocks at once. -/
def Overlap (a b : TBlock) : Prop := a.start < b.start + b.n ∧ b.start < a.start + a.n

/-- No two blocks use the same slot. -/
def NoOverlap (bs : List TBlock) : Prop := ∀ a ∈ bs, ∀ b ∈ bs, a.idx ≠ b.idx → ¬ Overlap a b

/-- The next block with a delay begins when the processing of the first is over. -/
def GapsKept (bs : List TBlock) : Prop :=
  ∀ a ∈ bs, ∀ b ∈ bs, a.idx ≠ b.idx → a.delay ≠ 0 → b.delay ≠ 0 → a.start + a.n + a.delay ≤ b.start ∨ b.start + b.n + b.delay ≤ a.start

/-- Sum of the scores of the blocks. -/
def total (sc : Nat → Nat → ℚ) (bs : List TBlock) : ℚ := (bs.map fun b => sc b.idx b.start).sum

theorem mem_move (bs : List TBlock) (k s : Nat) (c : TBlock) : c ∈ moveBlock bs k s ↔ ∃ c0 ∈ bs, c = if c0.idx = k then { c0 with start := s } else c0 := by
  unfold moveBlock
  rw [List.mem_map]
  exact ⟨fun ⟨a, h1, h2⟩ => ⟨a, h1, h2.symm⟩, fun ⟨a, h1, h2⟩ => ⟨a, h1, h2.symm⟩⟩

theorem idx_unique (bs : List TBlock) (hn : (bs.map TBlock.idx).Nodup) (a b : TBlock) (ha : a ∈ bs) (hb : b ∈ bs) (h : a.idx = b.idx) : a = b :=
  List.inj_on_of_nodup_map hn ha hb h

theorem move_idx (bs : List TBlock) (k s : Nat) : (moveBlock bs k s).map TBlock.idx = bs.map TBlock.idx := by
  unfold moveBlock
  rw [List.map_map]
  refine List.map_congr_left fun c _ => ?_
  show (if c.idx = k then { c with start := s } else c : TBlock).idx = c.idx
  split_ifs <;> rfl

/-! ## Scores -/

theorem step_scores (size : Nat) (sc : Nat → Nat → ℚ) (bs bs' : List TBlock) (hn : (bs.map TBlock.idx).Nodup) (h : tuneStep size sc bs = .ok (some bs')) :
    ∃ b ∈ bs, ∃ s, bs' = moveBlock bs b.idx s ∧ (s + 1 = b.start ∨ s = b.start + 1) ∧ sc b.idx b.start < sc b.idx s ∧ s + b.n - 1 < size := by
  obtain ⟨i, b, hb, h2⟩ := step_move size sc bs bs' h
  refine ⟨b, tsort_mem bs i b hb, ?_⟩
  rcases h2 with ⟨h3, h4, h5⟩ | ⟨h3, h4, h5⟩
  · obtain ⟨g1, g2, -⟩ := left_pos sc _ i b h3
    exact ⟨_, h4, .inl (by omega), g2, h5⟩
  · obtain ⟨g1, g2, -⟩ := right_pos size sc _ i b h3
    exact ⟨_, h4, .inr rfl, g2, h5⟩

/-- **A turn of the loop moves one block by one slot to a better score**; all others stay. -/
theorem tune_one_block (size : Nat) (sc : Nat → Nat → ℚ) (bs bs' : List TBlock) (hn : (bs.map TBlock.idx).Nodup) (h : tuneStep size sc bs = .ok (some bs')) :
    ∃ b ∈ bs, ∃ s, (s + 1 = b.start ∨ s = b.start + 1) ∧ sc b.idx b.start < sc b.idx s ∧
      ∀ c, c ∈ bs' ↔ (c ∈ bs ∧ c ≠ b) ∨ c = { b with start := s } := by
  obtain ⟨b, hb, s, rfl, h1, h2, -⟩ := step_scores size sc bs bs' hn h
  refine ⟨b, hb, s, h1, h2, fun c => ?_⟩
  rw [mem_move]
  constructor
  · rintro ⟨c0, h3, rfl⟩
    by_cases h4 : c0.idx = b.idx
    · rw [if_pos h4, idx_unique bs hn c0 b h3 hb h4]
      exact .inr rfl
    · rw [if_neg h4]
      exact .inl ⟨h3, fun h5 => h4 (h5 ▸ rfl)⟩
  · rintro (⟨h3, h4⟩ | rfl)
    · exact ⟨c, h3, (if_neg fun h5 => h4 (idx_unique bs hn c b h3 hb h5)).symm⟩
    · exact ⟨b, hb, (if_pos rfl).symm⟩

theorem total_move (sc : Nat → Nat → ℚ) (bs : List TBlock) (hn : (bs.map TBlock.idx).Nodup) (b : TBlock) (hb : b ∈ bs) (s : Nat) :
    total sc (moveBlock bs b.idx s) = total sc bs + (sc b.idx s - sc b.idx b.start) := by
  induction bs with
  | nil => exact absurd hb (by simp)
  | cons a l ih =>
    rw [List.map_cons, List.nodup_cons] at hn
    have e : total sc (moveBlock (a :: l) b.idx s) = sc (if a.idx = b.idx then { a with start := s } else a : TBlock).idx
      (if a.idx = b.idx then { a with start := s } else a : TBlock).start + total sc (moveBlock l b.idx s) := by
      unfold total moveBlock
      rw [List.map_cons, List.map_cons, List.sum_cons]
    have e2 : total sc (a :: l) = sc a.idx a.start + total sc l := by unfold total; rw [List.map_cons, List.sum_cons]
    rw [e, e2]
    by_cases h : a.idx = b.idx
    · have hab : a = b := by
        rcases List.mem_cons.1 hb with h2 | h2
        · exact h2.symm
        · exact absurd (List.mem_map.2 ⟨b, h2, h.symm⟩) hn.1
      subst hab
      have hl : moveBlock l a.idx s = l := by
        unfold moveBlock
        conv_rhs => rw [← List.map_id l]
        refine List.map_congr_left fun c hc => if_neg fun h3 => hn.1 (List.mem_map.2 ⟨c, hc, h3⟩)
      rw [hl, if_pos rfl]
      ring
    · have hb2 : b ∈ l := by
        rcases List.mem_cons.1 hb with h2 | h2
        · exact absurd (h2 ▸ rfl) h
        · exact h2
      rw [if_neg h, ih hn.2 hb2]
      ring

theorem run_succ (size : Nat) (sc : Nat → Nat → ℚ) (k : Nat) (bs : List TBlock) (m : Nat) (bs' : List TBlock) (h : tuneRun size sc (k + 1) bs = .ok (m, bs')) :
    (tuneStep size sc bs = .ok none ∧ m = 0 ∧ bs' = bs) ∨ ∃ b1 m', tuneStep size sc bs = .ok (some b1) ∧ tuneRun size sc k b1 = .ok (m', bs') ∧ m = m' + 1 := by
  have h2 : (tuneStep size sc bs).bind (fun o => o.elim (.ok (0, bs)) fun bs' => (tuneRun size sc k bs').map fun p => (p.1 + 1, p.2)) = .ok (m, bs') := h
  cases h3 : tuneStep size sc bs with
  | error e => rw [h3] at h2; exact nomatch h2
  | ok o =>
    cases o with
    | none =>
      rw [h3] at h2
      have h4 := Except.ok.inj h2
      exact .inl ⟨rfl, (congrArg Prod.fst h4).symm, (congrArg Prod.snd h4).symm⟩
    | some b1 =>
      rw [h3] at h2
      have h5 : (tuneRun size sc k b1).map (fun p => (p.1 + 1, p.2)) = .ok (m, bs') := h2
      cases h6 : tuneRun size sc k b1 with
      | error e => rw [h6] at h5; exact nomatch h5
      | ok p =>
        rw [h6] at h5
        have h7 : (p.1 + 1, p.2) = (m, bs') := Except.ok.inj h5
        refine .inr ⟨b1, p.1, rfl, ?_, (congrArg Prod.fst h7).symm⟩
        have h8 : p.2 = bs' := congrArg Prod.snd h7
        rw [h6, ← h8]

theorem step_nodup (size : Nat) (sc : Nat → Nat → ℚ) (bs bs' : List TBlock) (hn : (bs.map TBlock.idx).Nodup) (h : tuneStep size sc bs = .ok (some bs')) :
    bs'.map TBlock.idx = bs.map TBlock.idx := by
  obtain ⟨b, hb, s, rfl, -⟩ := step_scores size sc bs bs' hn h
  exact move_idx bs _ s

/-- **Fine tuning makes the schedule better**: no block has a lower score, the same blocks are booked with the same durations, and the sum of the scores grows if
anything was moved. For all limits on the number of moves. -/
theorem tune_better (size : Nat) (sc : Nat → Nat → ℚ) (k : Nat) (bs : List TBlock) (hn : (bs.map TBlock.idx).Nodup) (m : Nat) (bs' : List TBlock)
    (h : tuneRun size sc k bs = .ok (m, bs')) :
    m ≤ k ∧ (∀ c' ∈ bs', ∃ c ∈ bs, c.idx = c'.idx ∧ c.n = c'.n ∧ c.delay = c'.delay ∧ sc c.idx c.start ≤ sc c'.idx c'.start) ∧ bs'.map TBlock.idx = bs.map TBlock.idx ∧
      (0 < m → total sc bs < total sc bs') ∧ (m = 0 → bs' = bs) := by
  induction k generalizing bs m with
  | zero =>
    have h0 := Except.ok.inj h
    cases h0
    exact ⟨le_refl _, fun c hc => ⟨c, hc, rfl, rfl, rfl, le_refl _⟩, rfl, fun h => absurd h (lt_irrefl _), fun _ => rfl⟩
  | succ k ih =>
    rcases run_succ size sc k bs m bs' h with ⟨-, rfl, rfl⟩ | ⟨b1, m', h1, h2, rfl⟩
    · exact ⟨by omega, fun c hc => ⟨c, hc, rfl, rfl, rfl, le_refl _⟩, rfl, fun h => absurd h (lt_irrefl _), fun _ => rfl⟩
    · have hn1 := step_nodup size sc bs b1 hn h1
      obtain ⟨i1, i2, i3, i4, i5⟩ := ih b1 (hn1 ▸ hn) m' h2
      obtain ⟨b, hb, s, he, -, hs, -⟩ := step_scores size sc bs b1 hn h1
      have ht : total sc bs < total sc b1 := by
        rw [he, total_move sc bs hn b hb s]
        linarith
      refine ⟨by omega, fun c' hc' => ?_, i3.trans hn1, fun _ => ?_, fun h => absurd h (by omega)⟩
      · obtain ⟨c, hc, e1, e2, e3, e4⟩ := i2 c' hc'
        rw [he, mem_move] at hc
        obtain ⟨c0, hc0, rfl⟩ := hc
        by_cases h4 : c0.idx = b.idx
        · rw [if_pos h4] at e1 e2 e3 e4
          have := idx_unique bs hn c0 b hc0 hb h4
          subst this
          exact ⟨c0, hc0, e1, e2, e3, hs.le.trans e4⟩
        · rw [if_neg h4] at e1 e2 e3 e4
          exact ⟨c0, hc0, e1, e2, e3, e4⟩
      · rcases Nat.eq_zero_or_pos m' with h0 | h0
        · rw [i5 h0]; exact ht
        · exact ht.trans (i4 h0)

/-! ## End of the loop -/

/-- Number of slots with a better score than the one of the block. -/
def betterSlots (size : Nat) (sc : Nat → Nat → ℚ) (b : TBlock) : Nat := ((List.range size).filter fun j => decide (sc b.idx b.start < sc b.idx j)).length

theorem better_less (size : Nat) (sc : Nat → Nat → ℚ) (b : TBlock) (s : Nat) (hs : s < size) (h : sc b.idx b.start < sc b.idx s) :
    betterSlots size sc { b with start := s } < betterSlots size sc b := by
  unfold betterSlots
  rw [← List.countP_eq_length_filter, ← List.countP_eq_length_filter]
  have hsplit : List.range size = List.range s ++ s :: (List.range' (s + 1) (size - s - 1)) := by
    have e1 : List.range size = List.range (s + (size - s)) := by rw [Nat.add_sub_cancel' hs.le]
    rw [e1, List.range_add]
    congr 1
    rw [show size - s = (size - s - 1) + 1 by omega, List.range_succ_eq_map, List.map_cons, List.map_map, Nat.add_zero]
    congr 1
    rw [show size - s - 1 + 1 - 1 = size - s - 1 by omega, List.range'_eq_map_range]
    refine List.map_congr_left fun x _ => ?_
    show s + (x + 1) = s + 1 + x
    omega
  rw [hsplit, List.countP_append, List.countP_append, List.countP_cons, List.countP_cons]
  have mono : ∀ l : List Nat, l.countP (fun j => decide (sc b.idx s < sc b.idx j)) ≤ l.countP (fun j => decide (sc b.idx b.start < sc b.idx j)) := by
    intro l
    refine List.countP_mono_left fun x _ hx => ?_
    have := of_decide_eq_true hx
    exact decide_eq_true (h.trans this)
  have m1 := mono (List.range s)
  have m2 := mono (List.range' (s + 1) (size - s - 1))
  have c1 : (decide (sc b.idx s < sc b.idx s)) = false := by simp
  have c2 : (decide (sc b.idx b.start < sc b.idx s)) = true := decide_eq_true h
  show List.countP (fun j => decide (sc b.idx s < sc b.idx j)) (List.range s) +
    (List.countP (fun j => decide (sc b.idx s < sc b.idx j)) (List.range' (s + 1) (size - s - 1)) + if decide (sc b.idx s < sc b.idx s) = true then 1 else 0) < _
  rw [c1, c2]
  simp only [Bool.false_eq_true, if_false, if_true]
  omega

def leftToTry (size : Nat) (sc : Nat → Nat → ℚ) (bs : List TBlock) : Nat := (bs.map (betterSlots size sc)).sum

theorem try_move (size : Nat) (sc : Nat → Nat → ℚ) (bs : List TBlock) (hn : (bs.map TBlock.idx).Nodup) (b : TBlock) (hb : b ∈ bs) (s : Nat) (hs : s < size)
    (h : sc b.idx b.start < sc b.idx s) : leftToTry size sc (moveBlock bs b.idx s) < leftToTry size sc bs := by
  induction bs with
  | nil => exact absurd hb (by simp)
  | cons a l ih =>
    rw [List.map_cons, List.nodup_cons] at hn
    have e : leftToTry size sc (moveBlock (a :: l) b.idx s) = betterSlots size sc (if a.idx = b.idx then { a with start := s } else a : TBlock) +
      leftToTry size sc (moveBlock l b.idx s) := by
      unfold leftToTry moveBlock
      rw [List.map_cons, List.map_cons, List.sum_cons]
    have e2 : leftToTry size sc (a :: l) = betterSlots size sc a + leftToTry size sc l := by unfold leftToTry; rw [List.map_cons, List.sum_cons]
    rw [e, e2]
    by_cases h3 : a.idx = b.idx
    · have hab : a = b := by
        rcases List.mem_cons.1 hb with h2 | h2
        · exact h2.symm
        · exact absurd (List.mem_map.2 ⟨b, h2, h3.symm⟩) hn.1
      subst hab
      have hl : moveBlock l a.idx s = l := by
        unfold moveBlock
        conv_rhs => rw [← List.map_id l]
        refine List.map_congr_left fun c hc => if_neg fun h3 => hn.1 (List.mem_map.2 ⟨c, hc, h3⟩)
      rw [hl, if_pos rfl]
      have := better_less size sc a s hs h
      omega
    · have hb2 : b ∈ l := by
        rcases List.mem_cons.1 hb with h2 | h2
        · exact absurd (h2 ▸ rfl) h3
        · exact h2
      rw [if_neg h3]
      have := ih hn.2 hb2
      omega

theorem run_tries (size : Nat) (sc : Nat → Nat → ℚ) (k : Nat) (bs : List TBlock) (hn : (bs.map TBlock.idx).Nodup) (hp : ∀ b ∈ bs, 0 < b.n) (m : Nat) (bs' : List TBlock)
    (h : tuneRun size sc k bs = .ok (m, bs')) : m ≤ leftToTry size sc bs ∧ (m < k → tuneStep size sc bs' = .ok none) := by
  induction k generalizing bs m with
  | zero =>
    have h0 := Except.ok.inj h
    cases h0
    exact ⟨Nat.zero_le _, fun h => absurd h (lt_irrefl _)⟩
  | succ k ih =>
    rcases run_succ size sc k bs m bs' h with ⟨h1, rfl, rfl⟩ | ⟨b1, m', h1, h2, rfl⟩
    · exact ⟨Nat.zero_le _, fun _ => h1⟩
    · have hn1 := step_nodup size sc bs b1 hn h1
      obtain ⟨b, hb, s, he, -, hs, hsz⟩ := step_scores size sc bs b1 hn h1
      have hp1 : ∀ c ∈ b1, 0 < c.n := by
        intro c hc
        rw [he, mem_move] at hc
        obtain ⟨c0, hc0, rfl⟩ := hc
        split_ifs
        · exact hp c0 hc0
        · exact hp c0 hc0
      obtain ⟨i1, i2⟩ := ih b1 (hn1 ▸ hn) hp1 m' h2
      have ht : leftToTry size sc b1 < leftToTry size sc bs := by
        rw [he]
        refine try_move size sc bs hn b hb s ?_ hs
        have := hp b hb
        omega
      exact ⟨by omega, fun h => i2 (by omega)⟩

theorem sum_le_mul (l : List Nat) (n : Nat) (h : ∀ x ∈ l, x ≤ n) : l.sum ≤ l.length * n := by
  induction l with
  | nil => simp
  | cons a l ih =>
    rw [List.sum_cons, List.length_cons]
    have := h a (by simp)
    have := ih fun x hx => h x (by simp [hx])
    nlinarith

/-- **The loop ends by itself** after at most one move for each block and slot, whatever the limit: with a larger limit, no move which gains is left. -/
theorem tune_ends (size : Nat) (sc : Nat → Nat → ℚ) (k : Nat) (bs : List TBlock) (hn : (bs.map TBlock.idx).Nodup) (hp : ∀ b ∈ bs, 0 < b.n) (m : Nat) (bs' : List TBlock)
    (h : tuneRun size sc k bs = .ok (m, bs')) : m ≤ bs.length * size ∧ (bs.length * size < k → tuneStep size sc bs' = .ok none) := by
  obtain ⟨h1, h2⟩ := run_tries size sc k bs hn hp m bs' h
  have h3 : leftToTry size sc bs ≤ bs.length * size := by
    unfold leftToTry
    have := sum_le_mul (bs.map (betterSlots size sc)) size fun x hx => by
      obtain ⟨b, -, rfl⟩ := List.mem_map.1 hx
      unfold betterSlots
      refine (List.length_filter_le _ _).trans ?_
      rw [List.length_range]
    rwa [List.length_map] at this
  exact ⟨by omega, fun h => h2 (by omega)⟩

/-- No booked block: the maximum of nothing. -/
theorem tune_empty_violated (size : Nat) (sc : Nat → Nat → ℚ) (k : Nat) : tuneRun size sc (k + 1) [] = .error .valueError := rfl

/-! ## Best places -/

theorem rank_of (bs : List TBlock) (b : TBlock) (hb : b ∈ bs) : ∃ i : Nat, (tSort bs)[i]? = some b := List.getElem?_of_mem ((tsort_perm bs).mem_iff.2 hb)

theorem step_none (size : Nat) (sc : Nat → Nat → ℚ) (bs : List TBlock) (h : tuneStep size sc bs = .ok none) (i : Nat) (b : TBlock) (hb : (tSort bs)[i]? = some b) :
    leftScore sc (tSort bs) i b ≤ 0 ∧ rightScore size sc (tSort bs) i b ≤ 0 := by
  have hbest : bestScore size sc (tSort bs) (tunedRank size sc bs) ≤ 0 := by
    unfold tuneStep at h
    generalize tunedRank size sc bs = r at h
    cases hr : (tSort bs)[r]? with
    | none => rw [hr] at h; exact nomatch h
    | some c =>
      rw [hr] at h
      have h2 : (if bestScore size sc (tSort bs) r ≤ 0 then Except.ok none else if size ≤ newStart size sc (tSort bs) r c + c.n - 1 then .error .indexError
        else .ok (some (moveBlock bs c.idx (newStart size sc (tSort bs) r c))) : Except Err (Option (List TBlock))) = .ok none := h
      by_cases h3 : bestScore size sc (tSort bs) r ≤ 0
      · exact h3
      rw [if_neg h3] at h2
      by_cases h4 : size ≤ newStart size sc (tSort bs) r c + c.n - 1
      · rw [if_pos h4] at h2; exact nomatch h2
      · rw [if_neg h4] at h2; exact nomatch h2
  have hi : i < (tSort bs).length := (List.getElem?_eq_some_iff.1 hb).1
  have h1 := argmax_max (bestScore size sc (tSort bs)) hi
  have h2 : bestScore size sc (tSort bs) i ≤ 0 := h1.trans hbest
  have e : bestScore size sc (tSort bs) i = if leftScore sc (tSort bs) i b < rightScore size sc (tSort bs) i b then rightScore size sc (tSort bs) i b
      else leftScore sc (tSort bs) i b := by unfold bestScore; rw [hb]; rfl
  rw [e] at h2
  split_ifs at h2 with h3
  · exact ⟨h3.le.trans h2, h2⟩
  · exact ⟨h2, (not_lt.1 h3).trans h2⟩

/-- **At the end no block without delay would gain by moving** by one slot to the left into a free slot, or to the right (leaving the last slot of the schedule). -/
theorem tune_optimum (size : Nat) (sc : Nat → Nat → ℚ) (bs : List TBlock) (hn : (bs.map TBlock.idx).Nodup) (hp : ∀ b ∈ bs, 0 < b.n) (hov : NoOverlap bs)
    (h : tuneStep size sc bs = .ok none) (b : TBlock) (hb : b ∈ bs) (hd : b.delay = 0) :
    (0 < b.start → (∀ c ∈ bs, ¬ (c.start ≤ b.start - 1 ∧ b.start - 1 < c.start + c.n)) → sc b.idx (b.start - 1) ≤ sc b.idx b.start) ∧
    (b.start + 2 < size → (∀ c ∈ bs, ¬ (c.start ≤ b.start + b.n ∧ b.start + b.n < c.start + c.n)) → sc b.idx (b.start + 1) ≤ sc b.idx b.start) := by
  obtain ⟨i, hi⟩ := rank_of bs b hb
  obtain ⟨h1, h2⟩ := step_none size sc bs h i b hi
  have hpb := hp b hb
  constructor
  · intro h0 hc
    unfold leftScore leftGain at h1
    rw [if_pos (.inl hd), if_pos] at h1
    · linarith
    · unfold gapLow
      split_ifs with h3
      · cases hq : (tSort bs)[i - 1]? with
        | none => exact h0
        | some q =>
          show q.start + q.n < b.start
          have hq2 := tsort_sorted bs (i - 1) i q b (by omega) hq hi
          have hqm := tsort_mem bs _ q hq
          have := hc q hqm
          by_cases hqb : q.idx = b.idx
          · exfalso
            have e := idx_unique bs hn q b hqm hb hqb
            rw [e] at hq
            obtain ⟨k1, k2⟩ := List.getElem?_eq_some_iff.1 hq
            obtain ⟨k3, k4⟩ := List.getElem?_eq_some_iff.1 hi
            have hnd : (tSort bs).Nodup := (tsort_perm bs).nodup_iff.2 (List.Nodup.of_map _ hn)
            have := hnd.getElem_inj_iff.1 (k2.trans k4.symm)
            omega
          · have hno := hov q hqm b hb hqb
            unfold Overlap at hno
            have := hp q hqm
            omega
      · exact h0
  · intro h0 hc
    unfold rightScore rightGain at h2
    rw [if_pos (.inl hd), if_pos] at h2
    · linarith
    · unfold gapHigh
      cases hq : (tSort bs)[i + 1]? with
      | none => show (b.start : Int) + 1 < (size : Int) - 1; omega
      | some q =>
        show (b.start : Int) + 1 < (q.start : Int) - b.n + 1
        have hq2 := tsort_sorted bs i (i + 1) b q (by omega) hi hq
        have hqm := tsort_mem bs _ q hq
        have hc2 := hc q hqm
        have hpq := hp q hqm
        have hqb : q.idx ≠ b.idx := by
          intro hqb
          have e := idx_unique bs hn q b hqm hb hqb
          rw [e] at hq
          obtain ⟨k1, k2⟩ := List.getElem?_eq_some_iff.1 hq
          obtain ⟨k3, k4⟩ := List.getElem?_eq_some_iff.1 hi
          have hnd : (tSort bs).Nodup := (tsort_perm bs).nodup_iff.2 (List.Nodup.of_map _ hn)
          have := hnd.getElem_inj_iff.1 (k2.trans k4.symm)
          omega
        have hno := hov q hqm b hb hqb
        unfold Overlap at hno
        omega

/-! ## Limits of the schedule -/

/-- Scores as computed by the schedule: not negative, and zero where the block would end after the schedule. -/
def FromScores (size : Nat) (sc : Nat → Nat → ℚ) (bs : List TBlock) : Prop := ∀ b ∈ bs, ∀ j, 0 ≤ sc b.idx j ∧ (size < j + b.n → sc b.idx j = 0)

/-- **Blocks stay in the schedule** and there is no error, when the scores are those of a schedule. -/
theorem tune_inside (size : Nat) (sc : Nat → Nat → ℚ) (bs : List TBlock) (hne : bs ≠ []) (hn : (bs.map TBlock.idx).Nodup) (hp : ∀ b ∈ bs, 0 < b.n) (hs : FromScores size sc bs)
    (hin : ∀ b ∈ bs, b.start + b.n ≤ size) (k : Nat) : ∃ m bs', tuneRun size sc k bs = .ok (m, bs') ∧ ∀ b ∈ bs', b.start + b.n ≤ size := by
  induction k generalizing bs with
  | zero => exact ⟨0, bs, rfl, hin⟩
  | succ k ih =>
    have hstep : tuneStep size sc bs = .ok none ∨ ∃ b1, tuneStep size sc bs = .ok (some b1) := by
      unfold tuneStep
      generalize hr : tunedRank size sc bs = r
      have hlt : r < (tSort bs).length := by
        rw [← hr]
        refine argmax_lt _ ?_
        rw [(tsort_perm bs).length_eq]
        exact List.length_pos_of_ne_nil hne
      rw [List.getElem?_eq_getElem hlt]
      generalize hb : (tSort bs)[r] = b
      have hb' : (tSort bs)[r]? = some b := by rw [List.getElem?_eq_getElem hlt, hb]
      have hbm := tsort_mem bs r b hb'
      show (if bestScore size sc (tSort bs) r ≤ 0 then Except.ok none else if size ≤ newStart size sc (tSort bs) r b + b.n - 1 then .error .indexError
        else .ok (some (moveBlock bs b.idx (newStart size sc (tSort bs) r b))) : Except Err (Option (List TBlock))) = .ok none ∨ _
      by_cases h3 : bestScore size sc (tSort bs) r ≤ 0
      · rw [if_pos h3]; exact .inl rfl
      right
      have hbest : bestScore size sc (tSort bs) r = if leftScore sc (tSort bs) r b < rightScore size sc (tSort bs) r b then rightScore size sc (tSort bs) r b
        else leftScore sc (tSort bs) r b := by unfold bestScore; rw [hb']; rfl
      have hpb := hp b hbm
      have hib := hin b hbm
      have h4 : ¬ size ≤ newStart size sc (tSort bs) r b + b.n - 1 := by
        rw [hbest] at h3
        unfold newStart
        by_cases hlr : leftScore sc (tSort bs) r b < rightScore size sc (tSort bs) r b
        · rw [if_pos hlr] at h3 ⊢
          obtain ⟨-, g2, -⟩ := right_pos size sc _ r b (not_le.1 h3)
          intro h5
          have z := (hs b hbm (b.start + 1)).2 (by omega)
          have z2 := (hs b hbm b.start).1
          rw [z] at g2
          linarith
        · rw [if_neg hlr] at h3 ⊢
          omega
      refine ⟨moveBlock bs b.idx (newStart size sc (tSort bs) r b), ?_⟩
      show (if bestScore size sc (tSort bs) r ≤ 0 then Except.ok none else if size ≤ newStart size sc (tSort bs) r b + b.n - 1 then .error .indexError
        else .ok (some (moveBlock bs b.idx (newStart size sc (tSort bs) r b))) : Except Err (Option (List TBlock))) = _
      rw [if_neg h3, if_neg h4]
    have hrun : tuneRun size sc (k + 1) bs = (tuneStep size sc bs).bind fun o => o.elim (.ok (0, bs)) fun bs' => (tuneRun size sc k bs').map fun p => (p.1 + 1, p.2) := rfl
    rcases hstep with h | ⟨b1, h⟩
    · exact ⟨0, bs, by rw [hrun, h]; rfl, hin⟩
    · obtain ⟨b, hb, s, he, hs1, hs2, hs3⟩ := step_scores size sc bs b1 hn h
      have hmem : ∀ c ∈ b1, ∃ c0 ∈ bs, c.idx = c0.idx ∧ c.n = c0.n ∧ c.start + c.n ≤ size := by
        intro c hc
        rw [he, mem_move] at hc
        obtain ⟨c0, hc0, rfl⟩ := hc
        have hp0 := hp c0 hc0
        by_cases h4 : c0.idx = b.idx
        · rw [if_pos h4]
          have := idx_unique bs hn c0 b hc0 hb h4
          subst this
          exact ⟨c0, hc0, rfl, rfl, by show s + c0.n ≤ size; omega⟩
        · rw [if_neg h4]
          exact ⟨c0, hc0, rfl, rfl, hin c0 hc0⟩
      obtain ⟨m, bs', h2, h3⟩ := ih b1 (by rw [he]; unfold moveBlock; exact fun h0 => hne (List.map_eq_nil_iff.1 h0)) (by rw [step_nodup size sc bs b1 hn h]; exact hn)
        (fun c hc => by obtain ⟨c0, h0, -, h2, -⟩ := hmem c hc; rw [h2]; exact hp c0 h0)
        (fun c hc j => by obtain ⟨c0, h0, h1, h2, -⟩ := hmem c hc; rw [h1, h2]; exact hs c0 h0 j)
        (fun c hc => by obtain ⟨c0, h0, h1, h2, h3⟩ := hmem c hc; exact h3)
      refine ⟨m + 1, bs', ?_, h3⟩
      rw [hrun, h]
      show (tuneRun size sc k b1).map _ = _
      rw [h2]
      rfl

/-- **No block is moved to a start of score zero**, such as one whose slots are reserved: with scores that are not negative, each block is where it was or at a start of
positive score. -/
theorem tune_reserved (size : Nat) (sc : Nat → Nat → ℚ) (hs : ∀ i j, 0 ≤ sc i j) (k : Nat) (bs : List TBlock) (hn : (bs.map TBlock.idx).Nodup) (m : Nat) (bs' : List TBlock)
    (h : tuneRun size sc k bs = .ok (m, bs')) : ∀ b ∈ bs', b ∈ bs ∨ 0 < sc b.idx b.start := by
  induction k generalizing bs m with
  | zero => cases Except.ok.inj h; exact fun b hb => .inl hb
  | succ k ih =>
    rcases run_succ size sc k bs m bs' h with ⟨-, -, rfl⟩ | ⟨b1, m', h1, h2, -⟩
    · exact fun b hb => .inl hb
    · intro b hb
      rcases ih b1 (by rw [step_nodup size sc bs b1 hn h1]; exact hn) m' h2 b hb with h3 | h3
      · obtain ⟨a, ha, s, he, -, hs3, -⟩ := step_scores size sc bs b1 hn h1
        rw [he, mem_move] at h3
        obtain ⟨c, hc, rfl⟩ := h3
        by_cases h4 : c.idx = a.idx
        · right
          rw [if_pos h4]
          show 0 < sc c.idx s
          rw [h4]
          exact (hs _ _).trans_lt hs3
        · left
          rw [if_neg h4]
          exact hc
      · exact .inr h3

/-! ## Overlaps -/

theorem rank_inj (bs : List TBlock) (hn : (bs.map TBlock.idx).Nodup) (i j : Nat) (a b : TBlock) (ha : (tSort bs)[i]? = some a) (hb : (tSort bs)[j]? = some b)
    (h : a.idx = b.idx) : i = j := by
  have e := idx_unique bs hn a b (tsort_mem bs i a ha) (tsort_mem bs j b hb) h
  subst e
  obtain ⟨k1, k2⟩ := List.getElem?_eq_some_iff.1 ha
  obtain ⟨k3, k4⟩ := List.getElem?_eq_some_iff.1 hb
  have hnd : (tSort bs).Nodup := (tsort_perm bs).nodup_iff.2 (List.Nodup.of_map _ hn)
  exact hnd.getElem_inj_iff.1 (k2.trans k4.symm)

/-- Missing: **no overlap is made by a move**, except by the second block of the schedule when it follows the first one at once and moves left. -/
theorem tune_disjoint_partial (size : Nat) (sc : Nat → Nat → ℚ) (bs bs' : List TBlock) (hn : (bs.map TBlock.idx).Nodup) (hp : ∀ b ∈ bs, 0 < b.n) (hov : NoOverlap bs)
    (h : tuneStep size sc bs = .ok (some bs')) :
    NoOverlap bs' ∨ ∃ a ∈ bs, ∃ b ∈ bs, a.idx ≠ b.idx ∧ (∀ c ∈ bs, a.start ≤ c.start) ∧ b.start = a.start + a.n ∧ bs' = moveBlock bs b.idx (b.start - 1) := by
  obtain ⟨i, b, hi, hm⟩ := step_move size sc bs bs' h
  have hbm := tsort_mem bs i b hi
  have hpb := hp b hbm
  -- it is enough to look at the moved block
  have key : ∀ s, (∀ c ∈ bs, c.idx ≠ b.idx → ¬ (c.start < s + b.n ∧ s < c.start + c.n)) → NoOverlap (moveBlock bs b.idx s) := by
    intro s hs x hx y hy hxy hxyo
    rw [mem_move] at hx hy
    obtain ⟨x0, hx0, rfl⟩ := hx
    obtain ⟨y0, hy0, rfl⟩ := hy
    by_cases h1 : x0.idx = b.idx <;> by_cases h2 : y0.idx = b.idx
    · rw [if_pos h1, if_pos h2] at hxy
      exact hxy (h1.trans h2.symm)
    · rw [if_pos h1, if_neg h2] at hxyo
      have e := idx_unique bs hn x0 b hx0 hbm h1
      subst e
      obtain ⟨o1, o2⟩ := hxyo
      exact hs y0 hy0 h2 ⟨o2, o1⟩
    · rw [if_neg h1, if_pos h2] at hxyo
      have e := idx_unique bs hn y0 b hy0 hbm h2
      subst e
      obtain ⟨o1, o2⟩ := hxyo
      exact hs x0 hx0 h1 ⟨o1, o2⟩
    · rw [if_neg h1, if_neg h2] at hxyo
      rw [if_neg h1, if_neg h2] at hxy
      exact hov x0 hx0 y0 hy0 hxy hxyo
  rcases hm with ⟨h3, h4, -⟩ | ⟨h3, h4, -⟩
  · obtain ⟨g1, -, -⟩ := left_pos sc _ i b h3
    by_cases hcl : ∀ c ∈ bs, c.idx ≠ b.idx → ¬ (c.start < b.start - 1 + b.n ∧ b.start - 1 < c.start + c.n)
    · left; rw [h4]; exact key _ hcl
    right
    push Not at hcl
    obtain ⟨a, ha, hab, h5, h6⟩ := hcl
    have hno := hov a ha b hbm hab
    unfold Overlap at hno
    have hpa := hp a ha
    have hb0 : 0 < b.start := by omega
    have hend : b.start = a.start + a.n := by omega
    refine ⟨a, ha, b, hbm, hab, ?_, hend, h4⟩
    obtain ⟨j, hj⟩ := rank_of bs a ha
    have hji : j < i := by
      by_contra hc
      have := tsort_sorted bs i j b a (by omega) hi hj
      omega
    have hi1 : i < 2 := by
      by_contra hc
      have hlt : i < (tSort bs).length := (List.getElem?_eq_some_iff.1 hi).1
      have hq : (tSort bs)[i - 1]? = some ((tSort bs)[i - 1]'(by omega)) := List.getElem?_eq_getElem (by omega)
      generalize (tSort bs)[i - 1]'(by omega) = q at hq
      unfold gapLow at g1
      rw [if_pos (by omega), hq] at g1
      have g2 : q.start + q.n < b.start := g1
      have h7 := tsort_sorted bs j (i - 1) a q (by omega) hj hq
      have hqm := tsort_mem bs _ q hq
      have hpq := hp q hqm
      by_cases hqa : a.idx = q.idx
      · have := idx_unique bs hn a q ha hqm hqa
        subst this
        omega
      · have := hov a ha q hqm hqa
        unfold Overlap at this
        omega
    intro c hc
    obtain ⟨jc, hjc⟩ := rank_of bs c hc
    exact tsort_sorted bs j jc a c (by omega) hj hjc
  · left
    rw [h4]
    obtain ⟨g1, -, -⟩ := right_pos size sc _ i b h3
    refine key _ fun c hc hcb hco => ?_
    have hno := hov c hc b hbm hcb
    unfold Overlap at hno
    have hpc := hp c hc
    have hend : b.start + b.n = c.start := by omega
    obtain ⟨j, hj⟩ := rank_of bs c hc
    have hij : i < j := by
      by_contra hc2
      have := tsort_sorted bs j i c b (by omega) hj hi
      omega
    have hlt : j < (tSort bs).length := (List.getElem?_eq_some_iff.1 hj).1
    have hq : (tSort bs)[i + 1]? = some ((tSort bs)[i + 1]'(by omega)) := List.getElem?_eq_getElem (by omega)
    generalize (tSort bs)[i + 1]'(by omega) = q at hq
    unfold gapHigh at g1
    rw [hq] at g1
    have g2 : (b.start : Int) + 1 < (q.start : Int) - b.n + 1 := g1
    have := tsort_sorted bs (i + 1) j q c (by omega) hq hj
    omega

/-- **Whenever the second of two blocks follows the first one at once and would gain by moving left** (more than to the right, while the first one would not gain), it is moved onto the last slot of the
first: for all starts, durations and scores. -/
theorem tune_slides_violated (size : Nat) (sc : Nat → Nat → ℚ) (a b : TBlock) (hab : a.idx ≠ b.idx) (ha : 0 < a.n) (hb : 0 < b.n) (had : a.delay = 0) (hbd : b.delay = 0)
    (hs : b.start = a.start + a.n) (hin : b.start + b.n ≤ size) (hl : sc b.idx b.start < sc b.idx (b.start - 1)) (hr : sc b.idx (b.start + 1) ≤ sc b.idx (b.start - 1))
    (h0 : sc a.idx (a.start - 1) ≤ sc a.idx a.start) :
    NoOverlap [a, b] ∧ tuneStep size sc [a, b] = .ok (some [a, { b with start := b.start - 1 }]) ∧ ¬ NoOverlap [a, { b with start := b.start - 1 }] := by
  have hsort : tSort [a, b] = [a, b] := by
    unfold tSort
    exact List.Pairwise.insertionSort_eq (by simp; omega)
  have e1 : leftScore sc [a, b] 1 b = sc b.idx (b.start - 1) - sc b.idx b.start := by
    unfold leftScore
    rw [if_pos (Or.inl hbd)]
    have hg : gapLow [a, b] 1 = 0 := rfl
    unfold leftGain
    rw [hg, if_pos (by omega)]
  have e2 : rightScore size sc [a, b] 1 b ≤ leftScore sc [a, b] 1 b := by
    rw [e1]
    unfold rightScore
    rw [if_pos (Or.inl hbd)]
    unfold rightGain
    split_ifs <;> linarith
  have e3 : leftScore sc [a, b] 0 a ≤ 0 := by
    unfold leftScore
    rw [if_pos (Or.inl had)]
    unfold leftGain
    split_ifs <;> linarith
  have e4 : rightScore size sc [a, b] 0 a = -1 := by
    unfold rightScore
    rw [if_pos (Or.inl had)]
    unfold rightGain gapHigh
    rw [if_neg]
    show ¬ ((a.start : Int) + 1 < (b.start : Int) - a.n + 1)
    omega
  have b0 : bestScore size sc [a, b] 0 ≤ 0 := by
    show (if leftScore sc [a, b] 0 a < rightScore size sc [a, b] 0 a then rightScore size sc [a, b] 0 a else leftScore sc [a, b] 0 a) ≤ 0
    split_ifs
    · rw [e4]; norm_num
    · exact e3
  have b1 : bestScore size sc [a, b] 1 = leftScore sc [a, b] 1 b := by
    show (if leftScore sc [a, b] 1 b < rightScore size sc [a, b] 1 b then rightScore size sc [a, b] 1 b else leftScore sc [a, b] 1 b) = _
    rw [if_neg (not_lt.2 e2)]
  have hrank : tunedRank size sc [a, b] = 1 := by
    unfold tunedRank
    rw [hsort]
    show (if bestScore size sc [a, b] (argmax (bestScore size sc [a, b]) 1) < bestScore size sc [a, b] 1 then 1 else argmax (bestScore size sc [a, b]) 1) = 1
    have : argmax (bestScore size sc [a, b]) 1 = 0 := by have := argmax_lt (bestScore size sc [a, b]) (n := 1) (by omega); omega
    rw [this, if_pos]
    rw [b1, e1]; linarith
  have hnew : newStart size sc [a, b] 1 b = b.start - 1 := by
    unfold newStart
    rw [if_neg (not_lt.2 e2)]
  refine ⟨?_, ?_, ?_⟩
  · intro x hx y hy hxy
    simp only [List.mem_cons, List.not_mem_nil, or_false] at hx hy
    unfold Overlap
    rcases hx with rfl | rfl <;> rcases hy with rfl | rfl
    · exact absurd rfl hxy
    · omega
    · omega
    · exact absurd rfl hxy
  · unfold tuneStep
    rw [hrank, hsort]
    show (if bestScore size sc [a, b] 1 ≤ 0 then Except.ok none else if size ≤ newStart size sc [a, b] 1 b + b.n - 1 then Except.error Err.indexError
      else Except.ok (some (moveBlock [a, b] b.idx (newStart size sc [a, b] 1 b)))) = _
    rw [if_neg (by rw [b1, e1]; intro h; linarith), hnew, if_neg (by omega)]
    unfold moveBlock
    rw [List.map_cons, List.map_cons, List.map_nil, if_neg hab, if_pos rfl]
  · intro h
    refine h a List.mem_cons_self { b with start := b.start - 1 } (by simp) hab ⟨?_, ?_⟩
    · show a.start < b.start - 1 + b.n
      omega
    · show b.start - 1 < a.start + a.n
      omega

/-- The second block slides over the first: two blocks of two slots, the second at a better place one slot earlier. -/
theorem tune_overlap_violated : ∃ (sc : Nat → Nat → ℚ) (bs bs' : List TBlock), (bs.map TBlock.idx).Nodup ∧ (∀ b ∈ bs, 0 < b.n) ∧ FromScores 8 sc bs ∧ NoOverlap bs ∧
    tuneRun 8 sc 1000 bs = .ok (1, bs') ∧ ¬ NoOverlap bs' := by
  refine ⟨fun k j => if k = 1 ∧ j = 3 then 1 else if 6 < j then 0 else 1 / 2, [⟨0, 2, 2, 0⟩, ⟨1, 4, 2, 0⟩], [⟨0, 2, 2, 0⟩, ⟨1, 3, 2, 0⟩], by decide, by decide, ?_, ?_, ?_, ?_⟩
  · intro b hb j
    have hbn : b.n = 2 := by
      rcases List.mem_cons.1 hb with rfl | hb
      · rfl
      · rcases List.mem_cons.1 hb with rfl | hb
        · rfl
        · exact absurd hb (by simp)
    rw [hbn]
    show (0 : ℚ) ≤ (if b.idx = 1 ∧ j = 3 then 1 else if 6 < j then 0 else 1 / 2) ∧ (8 < j + 2 → (if b.idx = 1 ∧ j = 3 then 1 else if 6 < j then 0 else 1 / 2 : ℚ) = 0)
    constructor
    · split_ifs <;> norm_num
    · intro h
      rw [if_neg (by omega), if_pos (by omega)]
  · intro a ha b hb
    simp only [List.mem_cons, List.not_mem_nil, or_false] at ha hb
    rcases ha with rfl | rfl <;> rcases hb with rfl | rfl <;> unfold Overlap <;> simp
  · decide +kernel
  · intro h
    have := h ⟨0, 2, 2, 0⟩ (by decide) ⟨1, 3, 2, 0⟩ (by decide) (by decide)
    exact this ⟨by decide, by decide⟩

/-! ## Delays -/

theorem mem_withDelay (l : List TBlock) (k : Nat) : k ∈ withDelay l ↔ ∃ c, l[k]? = some c ∧ c.delay ≠ 0 := by
  unfold withDelay
  rw [List.mem_filter, List.mem_range]
  constructor
  · rintro ⟨h1, h2⟩
    rw [List.getElem?_eq_getElem h1] at h2 ⊢
    exact ⟨_, rfl, by simpa using h2⟩
  · rintro ⟨c, h1, h2⟩
    refine ⟨(List.getElem?_eq_some_iff.1 h1).1, ?_⟩
    rw [h1]
    simpa using h2

theorem withDelay_sorted (l : List TBlock) : (withDelay l).Pairwise (· < ·) := List.Pairwise.filter _ (List.pairwise_lt_range)

theorem withDelay_lt (l : List TBlock) (p q : Nat) (hp : p < (withDelay l).length) (hq : q < (withDelay l).length) : (withDelay l)[p] < (withDelay l)[q] ↔ p < q := by
  have hs := List.pairwise_iff_getElem.1 (withDelay_sorted l)
  constructor
  · intro h
    by_contra hc
    rcases Nat.eq_or_lt_of_le (not_lt.1 hc) with rfl | h2
    · exact lt_irrefl _ h
    · have := hs q p hq hp h2
      omega
  · exact hs p q hp hq

theorem prev_spec (l : List TBlock) (i : Nat) (hi : i ∈ withDelay l) : prevDelay l i ∈ withDelay l ∧ ∀ j ∈ withDelay l, j < i → j ≤ prevDelay l i ∧ prevDelay l i < i := by
  have hp : (withDelay l).idxOf i < (withDelay l).length := List.idxOf_lt_length_of_mem hi
  have hpi : (withDelay l)[(withDelay l).idxOf i] = i := List.getElem_idxOf hp
  have hm : ((withDelay l).idxOf i + (withDelay l).length - 1) % (withDelay l).length < (withDelay l).length := Nat.mod_lt _ (by omega)
  unfold prevDelay
  rw [List.getD_eq_getElem _ _ hm]
  refine ⟨List.getElem_mem hm, fun j hj hji => ?_⟩
  obtain ⟨q, hq, rfl⟩ := List.getElem_of_mem hj
  have hqp : q < (withDelay l).idxOf i := by
    rw [← withDelay_lt l q _ hq hp, hpi]
    exact hji
  have e : ((withDelay l).idxOf i + (withDelay l).length - 1) % (withDelay l).length = (withDelay l).idxOf i - 1 := by
    rw [show (withDelay l).idxOf i + (withDelay l).length - 1 = (withDelay l).idxOf i - 1 + (withDelay l).length by omega, Nat.add_mod_right, Nat.mod_eq_of_lt (by omega)]
  constructor
  · rcases Nat.lt_or_ge q (((withDelay l).idxOf i + (withDelay l).length - 1) % (withDelay l).length) with h | h
    · exact ((withDelay_lt l q _ hq hm).2 h).le
    · have : q = ((withDelay l).idxOf i + (withDelay l).length - 1) % (withDelay l).length := by omega
      exact le_of_eq (by congr 1)
  · have := (withDelay_lt l (((withDelay l).idxOf i + (withDelay l).length - 1) % (withDelay l).length) _ hm hp).2 (by omega)
    rw [hpi] at this
    exact this

theorem next_spec (l : List TBlock) (i : Nat) (hi : i ∈ withDelay l) : nextDelay l i ∈ withDelay l ∧ ∀ j ∈ withDelay l, i < j → nextDelay l i ≤ j ∧ i < nextDelay l i := by
  have hp : (withDelay l).idxOf i < (withDelay l).length := List.idxOf_lt_length_of_mem hi
  have hpi : (withDelay l)[(withDelay l).idxOf i] = i := List.getElem_idxOf hp
  have hm : ((withDelay l).idxOf i + 1) % (withDelay l).length < (withDelay l).length := Nat.mod_lt _ (by omega)
  unfold nextDelay
  rw [List.getD_eq_getElem _ _ hm]
  refine ⟨List.getElem_mem hm, fun j hj hji => ?_⟩
  obtain ⟨q, hq, rfl⟩ := List.getElem_of_mem hj
  have hqp : (withDelay l).idxOf i < q := by
    rw [← withDelay_lt l _ q hp hq, hpi]
    exact hji
  have e : ((withDelay l).idxOf i + 1) % (withDelay l).length = (withDelay l).idxOf i + 1 := Nat.mod_eq_of_lt (by omega)
  constructor
  · rcases Nat.lt_or_ge (((withDelay l).idxOf i + 1) % (withDelay l).length) q with h | h
    · exact ((withDelay_lt l _ q hm hq).2 h).le
    · have : ((withDelay l).idxOf i + 1) % (withDelay l).length = q := by omega
      exact le_of_eq (by congr 1)
  · have := (withDelay_lt l _ (((withDelay l).idxOf i + 1) % (withDelay l).length) hp hm).2 (by omega)
    rw [hpi] at this
    exact this

theorem prev_wrap (l : List TBlock) (i : Nat) (hi : i ∈ withDelay l) (hf : ∀ j ∈ withDelay l, i ≤ j) : ∀ j ∈ withDelay l, j ≤ prevDelay l i := by
  have hp : (withDelay l).idxOf i < (withDelay l).length := List.idxOf_lt_length_of_mem hi
  have hpi : (withDelay l)[(withDelay l).idxOf i] = i := List.getElem_idxOf hp
  have h0 : (withDelay l).idxOf i = 0 := by
    by_contra hc
    have h1 := (withDelay_lt l 0 _ (by omega) hp).2 (Nat.pos_of_ne_zero hc)
    rw [hpi] at h1
    have := hf _ (List.getElem_mem (show 0 < (withDelay l).length by omega))
    omega
  have hm : (withDelay l).length - 1 < (withDelay l).length := by omega
  have e : prevDelay l i = (withDelay l)[(withDelay l).length - 1] := by
    unfold prevDelay
    rw [h0, Nat.zero_add, Nat.mod_eq_of_lt hm, List.getD_eq_getElem _ _ hm]
  intro j hj
  obtain ⟨q, hq, rfl⟩ := List.getElem_of_mem hj
  rw [e]
  by_contra hc
  have := (withDelay_lt l _ q hm hq).1 (not_le.1 hc)
  omega

theorem next_wrap (l : List TBlock) (i : Nat) (hi : i ∈ withDelay l) (hf : ∀ j ∈ withDelay l, j ≤ i) : ∀ j ∈ withDelay l, nextDelay l i ≤ j := by
  have hp : (withDelay l).idxOf i < (withDelay l).length := List.idxOf_lt_length_of_mem hi
  have hpi : (withDelay l)[(withDelay l).idxOf i] = i := List.getElem_idxOf hp
  have hm : (withDelay l).length - 1 < (withDelay l).length := by omega
  have h0 : (withDelay l).idxOf i + 1 = (withDelay l).length := by
    by_contra hc
    have h1 := (withDelay_lt l _ ((withDelay l).length - 1) hp hm).2 (by omega)
    rw [hpi] at h1
    have := hf _ (List.getElem_mem hm)
    omega
  have hz : 0 < (withDelay l).length := by omega
  have e : nextDelay l i = (withDelay l)[0] := by
    unfold nextDelay
    rw [h0, Nat.mod_self, List.getD_eq_getElem _ _ hz]
  intro j hj
  obtain ⟨q, hq, rfl⟩ := List.getElem_of_mem hj
  rw [e]
  by_contra hc
  have := (withDelay_lt l q _ hq hz).1 (not_le.1 hc)
  omega

/-- **At the end no block with a delay would gain by moving** into a free slot, as long as the delays remain strictly kept and there is another block with a delay
(see `tune_lone_violated`). -/
theorem tune_optimum_delay (size : Nat) (sc : Nat → Nat → ℚ) (bs : List TBlock) (hn : (bs.map TBlock.idx).Nodup) (hp : ∀ b ∈ bs, 0 < b.n) (hov : NoOverlap bs)
    (h : tuneStep size sc bs = .ok none) (b a : TBlock) (hb : b ∈ bs) (hd : b.delay ≠ 0) (ha : a ∈ bs) (hab : a.idx ≠ b.idx) (had : a.delay ≠ 0) :
    (0 < b.start → (∀ c ∈ bs, ¬ (c.start ≤ b.start - 1 ∧ b.start - 1 < c.start + c.n)) → (∀ c ∈ bs, c.delay ≠ 0 → c.start < b.start → c.start + c.n + c.delay < b.start) →
      sc b.idx (b.start - 1) ≤ sc b.idx b.start) ∧
    (b.start + 2 < size → (∀ c ∈ bs, ¬ (c.start ≤ b.start + b.n ∧ b.start + b.n < c.start + c.n)) → (∀ c ∈ bs, c.delay ≠ 0 → b.start < c.start → b.start + b.n + b.delay < c.start) →
      sc b.idx (b.start + 1) ≤ sc b.idx b.start) := by
  obtain ⟨i, hi⟩ := rank_of bs b hb
  obtain ⟨j, hj⟩ := rank_of bs a ha
  have hji : j ≠ i := fun e => by
    rw [e, hi] at hj
    exact hab (congrArg TBlock.idx (Option.some.inj hj)).symm
  have him : i ∈ withDelay (tSort bs) := (mem_withDelay _ _).2 ⟨b, hi, hd⟩
  have hjm : j ∈ withDelay (tSort bs) := (mem_withDelay _ _).2 ⟨a, hj, had⟩
  obtain ⟨h1, h2⟩ := step_none size sc bs h i b hi
  have hpb := hp b hb
  -- different ranks are different starts
  have strict : ∀ (k l : Nat) (x y : TBlock), (tSort bs)[k]? = some x → (tSort bs)[l]? = some y → k < l → x.start < y.start := by
    intro k l x y hx hy hkl
    have hle := tsort_sorted bs k l x y hkl.le hx hy
    have hxy : x.idx ≠ y.idx := fun e => by
      have := rank_inj bs hn k l x y hx hy e
      omega
    have h3 := hov x (tsort_mem bs _ x hx) y (tsort_mem bs _ y hy) hxy
    have h4 := hp x (tsort_mem bs _ x hx)
    have h5 := hp y (tsort_mem bs _ y hy)
    unfold Overlap at h3
    omega
  constructor
  · intro h0 hc hk
    have hL : leftScore sc (tSort bs) i b = leftGain sc (tSort bs) i b := by
      unfold leftScore
      by_cases h3 : b.delay = 0 ∨ i < prevDelay (tSort bs) i
      · rw [if_pos h3]
      rw [if_neg h3, if_neg]
      have h3' : prevDelay (tSort bs) i ≤ i := by
        by_contra h4
        exact h3 (.inr (not_le.1 h4))
      have hlt : prevDelay (tSort bs) i < i := by
        by_cases hf : ∀ k ∈ withDelay (tSort bs), i ≤ k
        · have := prev_wrap _ i him hf j hjm
          have := hf j hjm
          omega
        · push Not at hf
          obtain ⟨k, hk1, hk2⟩ := hf
          exact ((prev_spec _ i him).2 k hk1 hk2).2
      obtain ⟨q, hq, hq0⟩ := (mem_withDelay _ _).1 (prev_spec _ i him).1
      rw [hq]
      have := hk q (tsort_mem bs _ q hq) hq0 (strict _ _ q b hq hi hlt)
      simpa using this
    rw [hL] at h1
    unfold leftGain at h1
    rw [if_pos] at h1
    · linarith
    · unfold gapLow
      split_ifs with h3
      · cases hq : (tSort bs)[i - 1]? with
        | none => exact h0
        | some q =>
          show q.start + q.n < b.start
          have h4 := strict (i - 1) i q b hq hi (by omega)
          have := hc q (tsort_mem bs _ q hq)
          omega
      · exact h0
  · intro h0 hc hk
    have hR : rightScore size sc (tSort bs) i b = rightGain size sc (tSort bs) i b := by
      unfold rightScore
      by_cases h3 : b.delay = 0 ∨ nextDelay (tSort bs) i < i
      · rw [if_pos h3]
      rw [if_neg h3, if_neg]
      have h3' : i ≤ nextDelay (tSort bs) i := by
        by_contra h4
        exact h3 (.inr (not_le.1 h4))
      have hlt : i < nextDelay (tSort bs) i := by
        by_cases hf : ∀ k ∈ withDelay (tSort bs), k ≤ i
        · have := next_wrap _ i him hf j hjm
          have := hf j hjm
          omega
        · push Not at hf
          obtain ⟨k, hk1, hk2⟩ := hf
          exact ((next_spec _ i him).2 k hk1 hk2).2
      obtain ⟨q, hq, hq0⟩ := (mem_withDelay _ _).1 (next_spec _ i him).1
      rw [hq]
      have := hk q (tsort_mem bs _ q hq) hq0 (strict _ _ b q hi hq hlt)
      simpa using this
    rw [hR] at h2
    unfold rightGain at h2
    rw [if_pos] at h2
    · linarith
    · unfold gapHigh
      cases hq : (tSort bs)[i + 1]? with
      | none => show (b.start : Int) + 1 < (size : Int) - 1; omega
      | some q =>
        show (b.start : Int) + 1 < (q.start : Int) - b.n + 1
        have h4 := strict i (i + 1) b q hi hq (by omega)
        have hqb : q.idx ≠ b.idx := fun e => by
          have := rank_inj bs hn (i + 1) i q b hq hi e
          omega
        have h5 := hc q (tsort_mem bs _ q hq)
        have h6 := hov q (tsort_mem bs _ q hq) b hb hqb
        have h7 := hp q (tsort_mem bs _ q hq)
        unfold Overlap at h6
        omega

/-- **Delays are kept** by each move: a block with a delay does not begin before the processing of another is over, if it was so before. -/
theorem tune_delays (size : Nat) (sc : Nat → Nat → ℚ) (bs bs' : List TBlock) (hn : (bs.map TBlock.idx).Nodup) (hd : GapsKept bs)
    (h : tuneStep size sc bs = .ok (some bs')) : GapsKept bs' := by
  obtain ⟨i, b, hi, hm⟩ := step_move size sc bs bs' h
  have hbm := tsort_mem bs i b hi
  have key : ∀ s, (b.delay ≠ 0 → ∀ c ∈ bs, c.idx ≠ b.idx → c.delay ≠ 0 → c.start + c.n + c.delay ≤ s ∨ s + b.n + b.delay ≤ c.start) → GapsKept (moveBlock bs b.idx s) := by
    intro s hs x hx y hy hxy hx0 hy0
    rw [mem_move] at hx hy
    obtain ⟨x0, hxm, rfl⟩ := hx
    obtain ⟨y0, hym, rfl⟩ := hy
    by_cases h1 : x0.idx = b.idx <;> by_cases h2 : y0.idx = b.idx
    · rw [if_pos h1, if_pos h2] at hxy
      exact absurd (h1.trans h2.symm) hxy
    · rw [if_pos h1] at hx0
      rw [if_neg h2] at hy0
      rw [if_pos h1, if_neg h2]
      have e := idx_unique bs hn x0 b hxm hbm h1
      subst e
      exact (hs hx0 y0 hym h2 hy0).symm
    · rw [if_neg h1] at hx0
      rw [if_pos h2] at hy0
      rw [if_neg h1, if_pos h2]
      have e := idx_unique bs hn y0 b hym hbm h2
      subst e
      exact hs hy0 x0 hxm h1 hx0
    · rw [if_neg h1] at hx0
      rw [if_neg h2] at hy0
      rw [if_neg h1, if_neg h2]
      rw [if_neg h1, if_neg h2] at hxy
      exact hd x0 hxm y0 hym hxy hx0 hy0
  rcases hm with ⟨h3, h4, -⟩ | ⟨h3, h4, -⟩
  · rw [h4]
    obtain ⟨g1, -, g3⟩ := left_pos sc _ i b h3
    refine key _ fun hb0 c hc hcb hc0 => ?_
    rcases hd c hc b hbm hcb hc0 hb0 with h5 | h5
    · left
      obtain ⟨j, hj⟩ := rank_of bs c hc
      have hji : j < i := by
        by_contra hcc
        have := tsort_sorted bs i j b c (by omega) hi hj
        omega
      obtain ⟨p1, p2⟩ := prev_spec (tSort bs) i ((mem_withDelay _ _).2 ⟨b, hi, hb0⟩)
      obtain ⟨p3, p4⟩ := p2 j ((mem_withDelay _ _).2 ⟨c, hj, hc0⟩) hji
      obtain ⟨p, hp, hp0⟩ := (mem_withDelay _ _).1 p1
      have g4 : p.start + p.n + p.delay < b.start := by
        rcases g3 with g3 | g3 | g3
        · exact absurd g3 hb0
        · omega
        · exact g3 p hp
      have hs := tsort_sorted bs j _ c p p3 hj hp
      by_cases hcp : c.idx = p.idx
      · have e := idx_unique bs hn c p hc (tsort_mem bs _ p hp) hcp
        subst e
        omega
      · rcases hd c hc p (tsort_mem bs _ p hp) hcp hc0 hp0 with h6 | h6 <;> omega
    · right
      omega
  · rw [h4]
    obtain ⟨g1, -, g3⟩ := right_pos size sc _ i b h3
    refine key _ fun hb0 c hc hcb hc0 => ?_
    rcases hd c hc b hbm hcb hc0 hb0 with h5 | h5
    · left
      omega
    · right
      obtain ⟨j, hj⟩ := rank_of bs c hc
      have hji : i < j := by
        by_contra hcc
        have := tsort_sorted bs j i c b (by omega) hj hi
        omega
      obtain ⟨p1, p2⟩ := next_spec (tSort bs) i ((mem_withDelay _ _).2 ⟨b, hi, hb0⟩)
      obtain ⟨p3, p4⟩ := p2 j ((mem_withDelay _ _).2 ⟨c, hj, hc0⟩) hji
      obtain ⟨p, hp, hp0⟩ := (mem_withDelay _ _).1 p1
      have g4 : b.start + b.n + b.delay < p.start := by
        rcases g3 with g3 | g3 | g3
        · exact absurd g3 hb0
        · omega
        · exact g3 p hp
      have hs := tsort_sorted bs _ j p c p3 hp hj
      omega

/-- The same for the whole run. -/
theorem tune_delays_run (size : Nat) (sc : Nat → Nat → ℚ) (k : Nat) (bs : List TBlock) (hn : (bs.map TBlock.idx).Nodup) (hd : GapsKept bs) (m : Nat) (bs' : List TBlock)
    (h : tuneRun size sc k bs = .ok (m, bs')) : GapsKept bs' := by
  induction k generalizing bs m with
  | zero => cases Except.ok.inj h; exact hd
  | succ k ih =>
    rcases run_succ size sc k bs m bs' h with ⟨-, -, rfl⟩ | ⟨b1, m', h1, h2, -⟩
    · exact hd
    · exact ih b1 (by rw [step_nodup size sc bs b1 hn h1]; exact hn) (tune_delays size sc bs b1 hn hd h1) m' h2

/-- A block with a delay which is the only one of its kind is compared with itself, and never moved, whatever the scores. -/
theorem tune_lone_violated (size : Nat) (sc : Nat → Nat → ℚ) (k : Nat) (bs : List TBlock) (hn : (bs.map TBlock.idx).Nodup) (b : TBlock) (hb : b ∈ bs) (hb0 : b.delay ≠ 0)
    (hl : ∀ c ∈ bs, c ≠ b → c.delay = 0) (m : Nat) (bs' : List TBlock) (h : tuneRun size sc k bs = .ok (m, bs')) : b ∈ bs' := by
  induction k generalizing bs m with
  | zero => cases Except.ok.inj h; exact hb
  | succ k ih =>
    rcases run_succ size sc k bs m bs' h with ⟨-, -, rfl⟩ | ⟨b1, m', h1, h2, -⟩
    · exact hb
    · obtain ⟨i, a, hi, hm⟩ := step_move size sc bs b1 h1
      have ham := tsort_mem bs i a hi
      have hab : a ≠ b := by
        rintro rfl
        have hdel : i ∈ withDelay (tSort bs) := (mem_withDelay _ _).2 ⟨a, hi, hb0⟩
        have only : ∀ j ∈ withDelay (tSort bs), j = i := by
          intro j hj
          obtain ⟨c, hc, hc0⟩ := (mem_withDelay _ _).1 hj
          by_cases hca : c = a
          · exact rank_inj bs hn j i c a hc hi (hca ▸ rfl)
          · exact absurd (hl c (tsort_mem bs j c hc) hca) hc0
        rcases hm with ⟨h3, -, -⟩ | ⟨h3, -, -⟩
        · obtain ⟨-, -, g3⟩ := left_pos sc _ i a h3
          have e := only _ (prev_spec _ i hdel).1
          rw [e] at g3
          rcases g3 with g3 | g3 | g3
          · exact hb0 g3
          · exact lt_irrefl _ g3
          · have := g3 a hi; omega
        · obtain ⟨-, -, g3⟩ := right_pos size sc _ i a h3
          have e := only _ (next_spec _ i hdel).1
          rw [e] at g3
          rcases g3 with g3 | g3 | g3
          · exact hb0 g3
          · exact lt_irrefl _ g3
          · have := g3 a hi; omega
      have hidx : b.idx ≠ a.idx := fun h => hab (idx_unique bs hn a b ham hb h.symm)
      have hb1 : ∀ s, b1 = moveBlock bs a.idx s → b ∈ b1 := fun s he => by rw [he, mem_move]; exact ⟨b, hb, (if_neg hidx).symm⟩
      have hl1 : ∀ s, b1 = moveBlock bs a.idx s → ∀ c ∈ b1, c ≠ b → c.delay = 0 := by
        intro s he c hc hcb
        rw [he, mem_move] at hc
        obtain ⟨c0, hc0, rfl⟩ := hc
        by_cases h4 : c0.idx = a.idx
        · rw [if_pos h4]
          exact hl c0 hc0 fun h5 => hidx (h5 ▸ h4)
        · rw [if_neg h4] at hcb ⊢
          exact hl c0 hc0 hcb
      rcases hm with ⟨-, h4, -⟩ | ⟨-, h4, -⟩
      · exact ih b1 (by rw [step_nodup size sc bs b1 hn h1]; exact hn) (hb1 _ h4) (hl1 _ h4) m' h2
      · exact ih b1 (by rw [step_nodup size sc bs b1 hn h1]; exact hn) (hb1 _ h4) (hl1 _ h4) m' h2

/-- Two blocks with delays and one without, which moves left by two slots to its best place. -/
example : tuneRun 20 (fun k j => if k = 1 then (20 - j : Nat) / 20 else if j = 3 ∨ j = 14 then 1 else 0) 1000 [⟨0, 3, 2, 2⟩, ⟨1, 9, 2, 0⟩, ⟨2, 14, 2, 2⟩] =
    .ok (9, [⟨0, 3, 2, 2⟩, ⟨1, 0, 2, 0⟩, ⟨2, 14, 2, 2⟩]) := by decide +kernel

end Verif.Scheduler
