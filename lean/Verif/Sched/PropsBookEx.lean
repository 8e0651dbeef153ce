import Verif.Sched.PropsBook
import Verif.Sched.Demo

/-!
# Booking properties: concrete cases meeting the hypotheses, and counter-examples

Counter-examples are theorems named `…_violated`: the English property fails for the code as written.
-/

namespace Verif.Scheduler

/-! ## Cases meeting the hypotheses of `PropsBook` -/

/-- Two observations with delays, a reservation, a booking, an extension, then a second booking. -/
def hist : List Op :=
  [.insertObs [obsOn 2 none (some 4) [2, 3, 4, 5], obsOn 1 none none [6, 7]], .reserve 0 1,
   .book (plain [0, 1]), .extend none (fun _ _ => true), .bookGA true false [2, 6] [] (fun _ => 0)]

theorem hist_legal : (demo 10).LegalRun hist := by
  refine ⟨legal_obsOn ?_, trivial, trivial, trivial, ?_, trivial⟩
  · intro o ho
    simp only [List.mem_cons, List.not_mem_nil, or_false] at ho
    rcases ho with rfl | rfl
    · exact ⟨2, _, _, _, rfl, by norm_num⟩
    · exact ⟨1, _, _, _, rfl, by norm_num⟩
  · change (Sched.bookGA _ _ _ _ _ _).2 = none
    decide +kernel

theorem hist_reachable : Reachable ((demo 10).run hist) :=
  ⟨0, 10, 1, _, demo 10, hist, by norm_num, mk_demo 10 (by norm_num), hist_legal, rfl⟩

/-- The history does book blocks, next to each other. -/
example : ((demo 10).run hist).starts = [some 2, some 6] := by decide +kernel

/-- The history is careful: the hypotheses of `slot_accounting` and `reset_restores_slots` are met. -/
theorem hist_careful : (demo 10).CarefulRun hist := by
  refine ⟨trivial, ?_, trivial, trivial, rfl, trivial⟩
  intro c hc t ho
  obtain ⟨st, hst, _⟩ := ho
  have hn : c.start = none := by
    simp only [Sched.apply, Sched.insertObs, demo, List.nil_append, List.map_map, List.mem_map] at hc
    obtain ⟨o, _, rfl⟩ := hc
    rfl
  rw [hn] at hst
  exact absurd hst (by simp)

/-- Reserved slots are reserved, the other ones available, apart from those used. -/
example : ((demo 10).run hist).frees = [false, true, false, false, false, false, false, true, true, true] := by
  decide +kernel

/-- State before the first booking, with delays. -/
def delayed : Sched := (demo 10).run [.insertObs [obsOn 1 (some 1) none [5], ⟨1, some 1, none, fun t => if t = 6 then 1 else if t = 8 then 1/2 else 0⟩]]

theorem delayed_reachable : Reachable delayed := by
  refine reachable_demo 10 (by norm_num) _ ⟨?_, trivial⟩
  intro o ho
  simp only [List.mem_cons, List.not_mem_nil, or_false] at ho
  rcases ho with rfl | rfl
  · exact legal_obsOn (os := [obsOn 1 (some 1) none [5]])
      (fun o ho => ⟨1, some 1, none, [5], by simpa using ho, by norm_num⟩) _ (by simp)
  · refine ⟨by norm_num, fun j => ?_⟩
    simp only
    split
    · norm_num
    · split <;> norm_num

/-- Hypotheses of `processing_delay_respected` and `heuristic_first_best_partial` are met by `delayed`, order `[0, 1]`. -/
example : (∀ t, delayed.proc t = 0) ∧ (plain [0, 1]).order.Nodup ∧
    (∀ k ∈ (plain [0, 1]).order, k < delayed.blocks.length) :=
  ⟨fun _ => rfl, by decide, by intro k hk; simp [plain] at hk; rcases hk with rfl | rfl <;> decide +kernel⟩

/-- The second block keeps clear of slot 6, its best one, because of the delay of the first. -/
example : (delayed.book (plain [0, 1])).1.starts = [some 5, some 8] ∧
    (delayed.book (plain [0, 1])).1.blocks.map (·.nDelay) = [1, 1] := by decide +kernel

/-- Second block in the state where the loop examines it: to schedule and unbooked. -/
example : (loopState delayed (plain [0, 1]) [0]).s.blocks.map (fun b => (b.toSched, b.start)) =
    [(true, some 5), (true, none)] := by decide +kernel

/-- Hypotheses of `reset_counters_violated`. -/
example : ∃ (s : Sched) (b : Block), 0 < b.nSlots ∧ b.nDelay ≠ 0 ∧ b.nDelay < 5 ∧ 5 + b.nSlots ≤ s.size ∧
    (∀ t, s.proc t = 0) ∧ s.blocks = [b] := by
  refine ⟨(demo 10).insertObs [obsOn 1 (some 1) none [5]], _, ?_, ?_, ?_, ?_, fun _ => rfl, rfl⟩ <;> decide +kernel

/-- Hypotheses of `bookGA_succeeds` are met by the state of the history above before its last operation. -/
example : GenomeFits 10 (((demo 10).run (hist.take 4)).prepare true false).blocks [2, 6] := by
  have h : (((demo 10).run (hist.take 4)).prepare true false).blocks.map (fun b => (b.toSched, b.nSlots)) =
      [(true, 4), (true, 1)] := by decide +kernel
  generalize (((demo 10).run (hist.take 4)).prepare true false).blocks = l at h ⊢
  obtain ⟨a, b, hab, ha, hb⟩ := pair_of_map h
  simp only [Prod.mk.injEq] at ha hb
  simp [hab, GenomeFits, ha.1, ha.2, hb.1, hb.2]

/-- Hypotheses of `bookGA_strict_violated`: a block of four slots whose constraint holds on the first slot only. -/
example : (∃ b ∈ (((demo 10).insertObs [obsOn 4 none none [0]]).prepare true false).blocks, b.toSched = true) ∧
    ∀ b ∈ (((demo 10).insertObs [obsOn 4 none none [0]]).prepare true true).blocks, b.toSched = false := by
  decide +kernel

/-- Extension does extend: a block of two slots grows to its maximum of four. -/
example : ((demo 10).run (hist.take 4)).blocks.map (fun b => (b.start, b.nSlots)) = [(some 1, 4), (some 6, 1)] ∧
    ((demo 10).run (hist.take 3)).blocks.map (fun b => (b.start, b.nSlots)) = [(some 2, 2), (some 6, 1)] := by
  decide +kernel

/-! ## Counter-examples -/

/-- **C03 violated, last start.** A block whose constraints are met only at the very last slot of the schedule, which is free, is not
booked. -/
theorem last_start_violated :
    ∃ (s : Sched) (b : Block), Reachable s ∧ s.blocks = [b] ∧ b.toSched = true ∧ b.start = none ∧
      Feasible s b 2 ∧ b.cnst 2 = 1 ∧ (s.book (plain [0])).1.starts = [none] := by
  refine ⟨(demo 3).run [.insertObs [obsOn 1 none none [2]]], _,
    reachable_demo 3 (by norm_num) _ ⟨legal_obsOn ?_, trivial⟩,
    rfl, rfl, rfl, ?_, ?_, by decide +kernel⟩
  · intro o ho
    exact ⟨1, none, none, [2], by simpa using ho, by norm_num⟩
  · refine ⟨by decide +kernel, fun t _ _ => ⟨rfl, fun h => absurd rfl h⟩⟩
  · decide +kernel

/-- **C03, C05 violated, lost blocks.** `book()`, then `book(reset_booking=False)`, then `book()` again: nothing is booked at the
end, although the first call booked the block and nothing was reserved in between. -/
theorem rebook_violated :
    ∃ s, Reachable s ∧ (s.book (plain [0])).1.starts = [some 5] ∧
      (s.run [.book (plain [0]), .book (noReset [0]), .book (plain [0])]).starts = [none] := by
  refine ⟨(demo 10).run [.insertObs [obsOn 1 none none [5]]],
    reachable_demo 10 (by norm_num) _ ⟨legal_obsOn ?_, trivial⟩, ?_, ?_⟩
  · intro o ho
    exact ⟨1, none, none, [5], by simpa using ho, by norm_num⟩
  · decide +kernel
  · decide +kernel

/-- **C04 violated.** The same `book()` call made twice: the second result breaks the processing delay, since the reset between the two
left the counters wrong. -/
theorem processing_delay_violated :
    ∃ s, Reachable s ∧ (∀ t, s.proc t = 0) ∧
      ∃ bi bj, (s.run [.book (plain [0, 1]), .book (plain [0, 1])]).blocks = [bi, bj] ∧
        bi.nDelay = 1 ∧ bj.nDelay = 1 ∧ ¬ ClearOf bj bi := by
  refine ⟨delayed, delayed_reachable, fun _ => rfl, ?_⟩
  have h : (delayed.run [.book (plain [0, 1]), .book (plain [0, 1])]).blocks.map (fun b => (b.start, b.nSlots, b.nDelay)) =
      [(some 5, 1, 1), (some 6, 1, 1)] := by decide +kernel
  obtain ⟨a, b, hab, ha, hb⟩ := pair_of_map h
  simp only [Prod.mk.injEq] at ha hb
  obtain ⟨h1, h2, h3⟩ := ha
  obtain ⟨h4, h5, h6⟩ := hb
  refine ⟨a, b, hab, h3, h6, fun hc => ?_⟩
  exact hc 5 h1 6 ⟨6, h4, le_refl _, by omega⟩ ⟨by omega, by omega⟩

/-- **C04 violated for extension.** Extending observations ignores processing delays: two blocks with a one-slot delay end up
next to each other. -/
theorem extension_delay_violated :
    ∃ s, Reachable s ∧ s.starts = [some 3, some 6] ∧
      ∃ bi bj, (s.extend none (fun _ _ => true)).1.blocks = [bi, bj] ∧
        bi.nDelay = 1 ∧ bj.nDelay = 1 ∧ ¬ ClearOf bj bi := by
  refine ⟨(demo 12).run [.insertObs [obsOn 1 (some 1) none [3], obsOn 1 (some 1) (some 5) [6]], .book (plain [0, 1])],
    reachable_demo 12 (by norm_num) _ ⟨legal_obsOn ?_, trivial, trivial⟩,
    by decide +kernel, ?_⟩
  · intro o ho
    simp only [List.mem_cons, List.not_mem_nil, or_false] at ho
    rcases ho with rfl | rfl
    · exact ⟨1, _, _, _, rfl, by norm_num⟩
    · exact ⟨1, _, _, _, rfl, by norm_num⟩
  generalize hs : ((demo 12).run [.insertObs [obsOn 1 (some 1) none [3], obsOn 1 (some 1) (some 5) [6]],
    .book (plain [0, 1])]).extend none (fun _ _ => true) = r
  have h : r.1.blocks.map (fun b => (b.start, b.nSlots, b.nDelay)) = [(some 3, 1, 1), (some 4, 5, 1)] := by
    rw [← hs]; decide +kernel
  obtain ⟨a, b, hab, ha, hb⟩ := pair_of_map h
  simp only [Prod.mk.injEq] at ha hb
  obtain ⟨h1, h2, h3⟩ := ha
  obtain ⟨h4, h5, h6⟩ := hb
  refine ⟨a, b, hab, h3, h6, fun hc => ?_⟩
  exact hc 3 h1 4 ⟨4, h4, le_refl _, by omega⟩ ⟨by omega, by omega⟩

/-- **C02 violated.** A reservation placed over a booked observation is accepted, but the next booking uses its slot again. -/
theorem reservation_over_booked_violated :
    ∃ s, Reachable s ∧ s.starts = [some 5] ∧
      (s.run [.reserve 5 6, .book (plain [0])]).starts = [some 5] := by
  refine ⟨(demo 10).run [.insertObs [obsOn 1 none none [5]], .book (plain [0])],
    reachable_demo 10 (by norm_num) _ ⟨legal_obsOn ?_, trivial, trivial⟩, ?_, ?_⟩
  · intro o ho
    exact ⟨1, none, none, [5], by simpa using ho, by norm_num⟩
  · decide +kernel
  · decide +kernel

/-- **C06 violated: the worse block wins.** Two blocks compete for slot 5 in a genetic booking; the one with the *lower*
score keeps it. -/
theorem genetic_conflict_violated :
    ∃ s, Reachable s ∧ ∃ score : Nat → ℚ, score 0 < score 1 ∧
      (s.bookGA true false [5, 5] [] score).2 = none ∧
      (s.bookGA true false [5, 5] [] score).1.starts = [some 5, none] := by
  refine ⟨(demo 10).run [.insertObs [obsOn 1 none none [5], obsOn 1 none none [5]]],
    reachable_demo 10 (by norm_num) _ ⟨legal_obsOn ?_, trivial⟩,
    fun i => if i = 0 then 1 / 4 else 1, by norm_num, ?_, ?_⟩
  · intro o ho
    simp only [List.mem_cons, List.not_mem_nil, or_false] at ho
    rcases ho with rfl | rfl <;> exact ⟨1, _, _, _, rfl, by norm_num⟩
  · decide +kernel
  · decide +kernel

/-- **C05 violated for genetic booking without reset.** The block is unbooked by the clean-up, but its slot stays unavailable. -/
theorem genetic_leak_violated :
    ∃ s, Reachable s ∧ s.starts = [some 5, none] ∧
      (s.bookGA false false [7] [] (fun _ => 0)).2 = none ∧
      (s.bookGA false false [7] [] (fun _ => 0)).1.starts = [none, some 7] ∧
      (s.bookGA false false [7] [] (fun _ => 0)).1.free 5 = false := by
  refine ⟨(demo 10).run [.insertObs [obsOn 1 none none [5]], .book (plain [0]), .book (noReset [0]),
      .insertObs [obsOn 1 none none [7]]],
    reachable_demo 10 (by norm_num) _ ⟨legal_obsOn ?_, trivial, trivial, legal_obsOn ?_, trivial⟩,
    ?_, ?_, ?_, ?_⟩
  · intro o ho
    exact ⟨1, none, none, [5], by simpa using ho, by norm_num⟩
  · intro o ho
    exact ⟨1, none, none, [7], by simpa using ho, by norm_num⟩
  all_goals decide +kernel

/-- **C12 violated: crash.** Asking for an extension up to a duration shorter than a booked block raises instead of leaving
the block alone. -/
theorem extension_shorter_violated :
    ∃ s, Reachable s ∧ (s.extend (some 1) (fun _ _ => true)).2 = some .indexError := by
  refine ⟨(demo 10).run [.insertObs [obsOn 2 none none [4, 5, 6]], .book (plain [0])],
    reachable_demo 10 (by norm_num) _ ⟨legal_obsOn ?_, trivial, trivial⟩, ?_⟩
  · intro o ho
    exact ⟨2, none, none, [4, 5, 6], by simpa using ho, by norm_num⟩
  · decide +kernel

end Verif.Scheduler
