import Verif.Sched.Spec
import Verif.Sched.Lemmas

/-!
# Which blocks are candidates for booking (properties C01 and C76)
-/

namespace Verif.Scheduler

/-- Window `j` of `n` slots is scored: inside the schedule with at least one slot after it, and on available slots only. -/
def Scored (s : Sched) (n j : Nat) : Prop := j + n < s.size ∧ ∀ k < n, s.free (j + k) = true

theorem row_exact (s : Sched) (n : Nat) (c : Nat → ℚ) (j : Nat) (hj : j < s.size) :
    (Scored s n j → cnstRow s.size n s.free c j = sumTo (fun k => c (j + k)) n / n) ∧
      (¬ Scored s n j → cnstRow s.size n s.free c j = 0) := by
  unfold cnstRow Scored
  have hlt : j < s.size - n ↔ j + n < s.size := by omega
  have hany : ((List.range n).any fun k => !s.free (j + k)) = true ↔ ¬ ∀ k < n, s.free (j + k) = true := by
    rw [List.any_eq_true]
    push Not
    constructor
    · rintro ⟨k, hk, h⟩; exact ⟨k, List.mem_range.1 hk, by simpa using h⟩
    · rintro ⟨k, hk, h⟩; exact ⟨k, List.mem_range.2 hk, by simpa using h⟩
  constructor
  · rintro ⟨h1, h2⟩
    rw [if_pos (hlt.2 h1), if_neg (fun h => hany.1 h h2)]
  · intro h
    by_cases h1 : j < s.size - n
    · rw [if_pos h1, if_pos]
      exact hany.2 fun h2 => h ⟨hlt.1 h1, h2⟩
    · rw [if_neg h1]

/-- **C76**: after the scores are computed, a block remains a candidate exactly if it was one and some scored window has a positive mean
score. -/
theorem candidates_exact (s : Sched) (i : Nat) (b : Block) (hb : s.blocks[i]? = some b) (hc : ∀ k, 0 ≤ b.cnst k) :
    ∃ b', s.computeScores.blocks[i]? = some b' ∧ b'.start = b.start ∧ (b'.toSched = true ↔ b.toSched = true ∧
      ∃ j, Scored s (ceilSlots b.duration s.dt) j ∧ 0 < sumTo (fun k => b.cnst (j + k)) (ceilSlots b.duration s.dt) / ceilSlots b.duration s.dt) := by
  refine ⟨s.scoreBlock b, by show (s.blocks.map s.scoreBlock)[i]? = _; rw [List.getElem?_map, hb]; rfl, rfl, ?_⟩
  show (b.toSched && decide (cnstRow s.size (ceilSlots b.duration s.dt) s.free b.cnst
    (argmax (cnstRow s.size (ceilSlots b.duration s.dt) s.free b.cnst) s.size) ≠ 0)) = true ↔ _
  rw [Bool.and_eq_true, decide_eq_true_iff]
  refine and_congr_right fun _ => ?_
  generalize ceilSlots b.duration s.dt = n
  have hsum : ∀ j, 0 ≤ sumTo (fun k => b.cnst (j + k)) n / n := by
    intro j
    have : 0 ≤ sumTo (fun k => b.cnst (j + k)) n := sumTo_nonneg fun k _ => hc _
    positivity
  have hnonneg : ∀ j, j < s.size → 0 ≤ cnstRow s.size n s.free b.cnst j := by
    intro j hj
    by_cases h : Scored s n j
    · rw [(row_exact s n b.cnst j hj).1 h]; exact hsum j
    · rw [(row_exact s n b.cnst j hj).2 h]
  constructor
  · intro h
    by_cases h0 : 0 < s.size
    · have hl := argmax_lt (cnstRow s.size n s.free b.cnst) h0
      generalize argmax (cnstRow s.size n s.free b.cnst) s.size = a at *
      have hS : Scored s n a := by
        by_contra hx
        exact h ((row_exact s n b.cnst a hl).2 hx)
      refine ⟨a, hS, ?_⟩
      rw [(row_exact s n b.cnst a hl).1 hS] at h
      exact lt_of_le_of_ne (hsum a) (Ne.symm h)
    · exfalso
      apply h
      have : s.size = 0 := by omega
      unfold cnstRow
      rw [if_neg (by omega)]
  · rintro ⟨j, hS, hpos⟩ h
    have hj : j < s.size := by have := hS.1; omega
    have := argmax_max (cnstRow s.size n s.free b.cnst) hj
    rw [h, (row_exact s n b.cnst j hj).1 hS] at this
    exact absurd hpos (not_lt.2 this)

/-- **C76** fails for blocks which only fit at the very end of the schedule: the last window is never scored. -/
theorem last_window_violated (s : Sched) (n j : Nat) (h : j + n = s.size) (c : Nat → ℚ) : cnstRow s.size n s.free c j = 0 := by
  unfold cnstRow
  rw [if_neg (by omega)]

/-- **C76**: the strict filter keeps exactly the candidates with a run of `nSlots` consecutive starts of positive score. -/
theorem very_strict_exact (s : Sched) (i : Nat) (b : Block) (hb : s.blocks[i]? = some b) :
    ∃ b', s.veryStrict.blocks[i]? = some b' ∧ (b'.toSched = true ↔ b.toSched = true ∧
      1 ≤ b.nSlots ∧ ∃ j, j + b.nSlots ≤ s.size ∧ ∀ k < b.nSlots, 0 < b.row (j + k)) := by
  refine ⟨_, by show (s.blocks.map _)[i]? = _; rw [List.getElem?_map, hb]; rfl, ?_⟩
  show (b.toSched && hasRun s.size b.nSlots b.row) = true ↔ _
  rw [Bool.and_eq_true]
  refine and_congr_right fun _ => ?_
  unfold hasRun
  rw [List.any_eq_true]
  constructor
  · rintro ⟨j, _, h⟩
    rw [Bool.and_eq_true, Bool.and_eq_true, decide_eq_true_iff, decide_eq_true_iff, List.all_eq_true] at h
    exact ⟨h.1.2, j, h.1.1, fun k hk => of_decide_eq_true (h.2 k (List.mem_range.2 hk))⟩
  · rintro ⟨h1, j, h2, h3⟩
    refine ⟨j, List.mem_range.2 (by omega), ?_⟩
    rw [Bool.and_eq_true, Bool.and_eq_true, decide_eq_true_iff, decide_eq_true_iff, List.all_eq_true]
    exact ⟨⟨h2, h1⟩, fun k hk => decide_eq_true (h3 k (List.mem_range.1 hk))⟩

/-- The strict filter refuses all the blocks of two slots or more which could be booked at a single place: it asks for `nSlots` starts in a row
instead of one. -/
theorem very_strict_violated (s : Sched) (i : Nat) (b : Block) (hb : s.blocks[i]? = some b) (j : Nat) (hn : 2 ≤ b.nSlots)
    (hone : ∀ k, b.row k ≠ 0 ↔ k = j) : (s.veryStrict.blocks[i]?).map Block.toSched = some false := by
  obtain ⟨b', h1, h2⟩ := very_strict_exact s i b hb
  rw [h1, Option.map_some, Option.some.injEq, Bool.eq_false_iff]
  intro h
  obtain ⟨_, _, k, _, hk⟩ := h2.1 h
  have a1 := (hone _).1 (hk 0 (by omega)).ne'
  have a2 := (hone _).1 (hk 1 (by omega)).ne'
  omega

example : ∃ (s : Sched) (b : Block), s.blocks[0]? = some b ∧ b.toSched = true ∧ b.nSlots = 2 ∧ 0 < b.row 0 ∧ ∀ k, b.row k ≠ 0 ↔ k = 0 := by
  refine ⟨⟨0, 1, 4, fun _ => true, fun _ => 0, fun _ => true, [⟨2, none, none, 2, 0, fun _ => 1, none, none, none, fun j => if j = 0 then 1 else 0, true⟩]⟩, _,
    rfl, rfl, rfl, ?_, ?_⟩
  · decide +kernel
  · intro k
    show (if k = 0 then (1 : ℚ) else 0) ≠ 0 ↔ k = 0
    by_cases h : k = 0 <;> simp [h]

end Verif.Scheduler
