import Verif.Sched.PropsMisc

/-!
# C10: everything a shift can do

Exact outcome of a shift of a booked block, from any reachable state.
-/

namespace Verif.Scheduler

/-- The shift is carried out: one end of the new place is free and its score is high enough. -/
def Tried (s : Sched) (b : Block) (ns : Nat) (m : ℚ) : Prop := (s.free ns = true ∨ s.free (ns + b.nSlots - 1) = true) ∧ m ≤ b.row ns

/-- Every slot of the new place is free, or one of the block itself, which is at `st`. -/
def RoomFor (s : Sched) (b : Block) (st ns : Nat) : Prop := ∀ t, ns ≤ t → t < ns + b.nSlots → s.free t = true ∨ (st ≤ t ∧ t < st + b.nSlots)

/-- The block at `st`, with its processing time on both sides, does not reach over the ends of the schedule. -/
def MarginInside (s : Sched) (b : Block) (st : Nat) : Prop := b.nDelay ≤ st ∧ st + b.nSlots + b.nDelay ≤ s.size

/-- Slot `t` belongs to the block at `st` or to its processing time. -/
def Processes (b : Block) (st t : Nat) : Prop := b.nDelay ≠ 0 ∧ st ≤ t + b.nDelay ∧ t < st + b.nSlots + b.nDelay

instance (b : Block) (st t : Nat) : Decidable (Processes b st t) := inferInstanceAs (Decidable (_ ∧ _ ∧ _))

theorem freeSlots_ok (s : Sched) (a n : Nat) (hn : 0 < n) (h : a + n ≤ s.size) (hf : ∀ t, a ≤ t → t < a + n → s.free t = false) :
    (s.freeSlots a ((a : Int) + n)).2 = none ∧ (s.freeSlots a ((a : Int) + n)).1.size = s.size ∧ (s.freeSlots a ((a : Int) + n)).1.proc = s.proc ∧
      ∀ t, (s.freeSlots a ((a : Int) + n)).1.free t = if a ≤ t ∧ t < a + n then true else s.free t := by
  have e : s.freeSlots a ((a : Int) + n) = ({ s with free := fun t => if inSlice s.size (a : Int) ((a : Int) + n) t then true else s.free t }, none) := by
    unfold Sched.freeSlots
    rw [if_neg (by omega), if_neg]
    simp only [List.any_eq_true, not_exists, not_and, Bool.and_eq_true]
    rintro t _ ht1 ht2
    rw [inSlice_int h] at ht1
    rw [hf t ht1.1 ht1.2] at ht2
    cases ht2
  rw [e]
  refine ⟨rfl, rfl, rfl, fun t => ?_⟩
  show (if inSlice s.size (a : Int) ((a : Int) + n) t then true else s.free t) = _
  by_cases c : a ≤ t ∧ t < a + n
  · rw [if_pos c, if_pos ((inSlice_int h).2 c)]
  · rw [if_neg c, if_neg (mt (inSlice_int h).1 c)]

theorem freezeSlots_full (s : Sched) (a n : Nat) (hn : 0 < n) (h : a + n ≤ s.size) (hf : ¬ ∀ t, a ≤ t → t < a + n → s.free t = true) :
    (s.freezeSlots a ((a : Int) + n)).2 = some .valueError := by
  unfold Sched.freezeSlots
  rw [if_neg (by omega), if_pos]
  push Not at hf
  obtain ⟨t, h1, h2, h3⟩ := hf
  refine List.any_eq_true.2 ⟨t, List.mem_range.2 (by omega), ?_⟩
  rw [Bool.and_eq_true]
  exact ⟨(inSlice_int h).2 ⟨h1, h2⟩, by simpa using h3⟩

theorem freezeSlots_ok (s : Sched) (a n : Nat) (hn : 0 < n) (h : a + n ≤ s.size) (hf : ∀ t, a ≤ t → t < a + n → s.free t = true) :
    (s.freezeSlots a ((a : Int) + n)).2 = none ∧ (s.freezeSlots a ((a : Int) + n)).1.size = s.size ∧ (s.freezeSlots a ((a : Int) + n)).1.proc = s.proc ∧
      ∀ t, (s.freezeSlots a ((a : Int) + n)).1.free t = if a ≤ t ∧ t < a + n then false else s.free t := by
  have e : s.freezeSlots a ((a : Int) + n) = ({ s with free := fun t => if inSlice s.size (a : Int) ((a : Int) + n) t then false else s.free t }, none) := by
    unfold Sched.freezeSlots
    rw [if_neg (by omega), if_neg]
    simp only [List.any_eq_true, not_exists, not_and, Bool.and_eq_true]
    rintro t _ ht1 ht2
    rw [inSlice_int h] at ht1
    rw [hf t ht1.1 ht1.2] at ht2
    cases ht2
  rw [e]
  refine ⟨rfl, rfl, rfl, fun t => ?_⟩
  show (if inSlice s.size (a : Int) ((a : Int) + n) t then false else s.free t) = _
  by_cases c : a ≤ t ∧ t < a + n
  · rw [if_pos c, if_pos ((inSlice_int h).2 c)]
  · rw [if_neg c, if_neg (mt (inSlice_int h).1 c)]

theorem freeProc_low (s : Sched) (a n : Nat) (hn : 0 < n) (h : a + n ≤ s.size) (hf : ¬ ∀ t, a ≤ t → t < a + n → 1 ≤ s.proc t) :
    (s.freeProc a ((a : Int) + n)).2 = some .valueError := by
  unfold Sched.freeProc
  rw [if_neg (by omega), if_pos]
  push Not at hf
  obtain ⟨t, h1, h2, h3⟩ := hf
  refine List.any_eq_true.2 ⟨t, List.mem_range.2 (by omega), ?_⟩
  rw [Bool.and_eq_true]
  exact ⟨(inSlice_int h).2 ⟨h1, h2⟩, decide_eq_true h3⟩

theorem freeProc_ok (s : Sched) (a n : Nat) (hn : 0 < n) (h : a + n ≤ s.size) (hf : ∀ t, a ≤ t → t < a + n → 1 ≤ s.proc t) :
    (s.freeProc a ((a : Int) + n)).2 = none ∧ (s.freeProc a ((a : Int) + n)).1.size = s.size ∧ (s.freeProc a ((a : Int) + n)).1.free = s.free ∧
      ∀ t, (s.freeProc a ((a : Int) + n)).1.proc t = if a ≤ t ∧ t < a + n then s.proc t - 1 else s.proc t := by
  have e : s.freeProc a ((a : Int) + n) = ({ s with proc := fun t => if inSlice s.size (a : Int) ((a : Int) + n) t then s.proc t - 1 else s.proc t }, none) := by
    unfold Sched.freeProc
    rw [if_neg (by omega), if_neg]
    simp only [List.any_eq_true, not_exists, not_and, Bool.and_eq_true]
    rintro t _ ht1 ht2
    rw [inSlice_int h] at ht1
    have := hf t ht1.1 ht1.2
    have := of_decide_eq_true ht2
    omega
  rw [e]
  refine ⟨rfl, rfl, rfl, fun t => ?_⟩
  show (if inSlice s.size (a : Int) ((a : Int) + n) t then s.proc t - 1 else s.proc t) = _
  by_cases c : a ≤ t ∧ t < a + n
  · rw [if_pos c, if_pos ((inSlice_int h).2 c)]
  · rw [if_neg c, if_neg (mt (inSlice_int h).1 c)]

theorem freezeProc_ok (s : Sched) (ns n d : Nat) (hn : 0 < n) :
    (s.freezeProc ((ns : Int) - d) ((ns : Int) + n - 1 + d + 1)).2 = none ∧
      (s.freezeProc ((ns : Int) - d) ((ns : Int) + n - 1 + d + 1)).1.free = s.free ∧
      ∀ t < s.size, (s.freezeProc ((ns : Int) - d) ((ns : Int) + n - 1 + d + 1)).1.proc t =
        if ns ≤ t + d ∧ t < ns + n + d then s.proc t + 1 else s.proc t := by
  unfold Sched.freezeProc
  rw [if_neg (by omega)]
  refine ⟨rfl, rfl, fun t ht => ?_⟩
  show (if inSlice s.size (if (ns : Int) - d < 0 then 0 else (ns : Int) - d)
    (if (ns : Int) + n - 1 + d + 1 > s.size then (s.size : Int) else (ns : Int) + n - 1 + d + 1) t then s.proc t + 1 else s.proc t) = _
  have ea : (if (ns : Int) - d < 0 then 0 else (ns : Int) - d) = ((ns - d : Nat) : Int) := by split_ifs <;> omega
  have eb : (if (ns : Int) + n - 1 + d + 1 > s.size then (s.size : Int) else (ns : Int) + n - 1 + d + 1) = ((min s.size (ns + n + d) : Nat) : Int) := by
    split_ifs <;> omega
  rw [ea, eb]
  have k := inSlice_nat s.size (ns - d) (min s.size (ns + n + d)) t
  by_cases c : ns ≤ t + d ∧ t < ns + n + d
  · rw [if_pos c, if_pos (k.2 (by omega))]
  · rw [if_neg c, if_neg (mt k.1 (by omega))]

theorem andThen_none {r : Sched × Option Err} {k : Sched → Sched × Option Err} (h : r.2 = none) : andThen r k = k r.1 := by
  unfold andThen; rw [h]

theorem andThen_some {r : Sched × Option Err} {k : Sched → Sched × Option Err} {e : Err} (h : r.2 = some e) : (andThen r k).2 = some e := by
  unfold andThen; rw [h]

/-- **C10, all outcomes.** A booked block of a reachable schedule is shifted by `k` slots, which brings it to `ns` (kept inside the schedule). Unless one
end of the new place is free and the score there reaches the minimum, nothing happens. Otherwise the call raises exactly when a slot of the new
place is taken by something else, when the processing time of the *old* place reaches over an end of the schedule, or when a slot of it is not
counted; and if it does not raise, the slots and the counters of processing are those of the block at its new place. -/
theorem shift_exact {s : Sched} (h : Reachable s) (i : Nat) (k : Int) (m : ℚ) (b : Block) (st ns : Nat) (hb : s.blocks[i]? = some b)
    (hst : b.start = some st) (hns : shiftTarget s.size b.nSlots st k = ns) :
    (¬ Tried s b ns m → s.shift i k m = (s, none)) ∧
    (Tried s b ns m → ¬ RoomFor s b st ns → (s.shift i k m).2 = some .valueError) ∧
    (Tried s b ns m → RoomFor s b st ns → b.nDelay ≠ 0 → ¬ MarginInside s b st → (s.shift i k m).2 = some .indexError) ∧
    (Tried s b ns m → RoomFor s b st ns → MarginInside s b st → (∃ t, Processes b st t ∧ s.proc t < 1) → (s.shift i k m).2 = some .valueError) ∧
    (Tried s b ns m → RoomFor s b st ns → (b.nDelay ≠ 0 → MarginInside s b st) → (∀ t, Processes b st t → 1 ≤ s.proc t) →
      (s.shift i k m).2 = none ∧ ∀ t < s.size,
        (s.shift i k m).1.free t = (if ns ≤ t ∧ t < ns + b.nSlots then false else if st ≤ t ∧ t < st + b.nSlots then true else s.free t) ∧
        (s.shift i k m).1.proc t = s.proc t - (if Processes b st t then 1 else 0) + (if Processes b ns t then 1 else 0)) := by
  have g := h.good
  have hbm := getElem?_mem hb
  have hn := g.nSlots_pos hbm
  have hfit : st + b.nSlots ≤ s.size := by
    have := g.inside b hbm (st + b.nSlots - 1) ⟨st, hst, by omega, by omega⟩
    omega
  have own : ∀ t, st ≤ t → t < st + b.nSlots → s.free t = false := fun t h1 h2 => g.notFree b hbm t ⟨st, hst, h1, h2⟩
  generalize hnsI : (if (st : Int) + k ≤ 0 then (0 : Int)
    else if (st : Int) + k + b.nSlots ≥ s.size then (s.size : Int) - b.nSlots else (st : Int) + k) = nsI
  have hns0 : 0 ≤ nsI := by rw [← hnsI]; split_ifs <;> omega
  have hnsfit : nsI + b.nSlots ≤ s.size := by rw [← hnsI]; split_ifs <;> omega
  have hnsE : nsI = ns := by
    unfold shiftTarget at hns
    rw [hnsI] at hns
    omega
  subst hnsE
  have hnsfit' : ns + b.nSlots ≤ s.size := by omega
  have hshift : s.shift i k m =
      if !(s.free ns || s.free ((ns : Int) + b.nSlots - 1).toNat) then (s, none)
      else if b.row ns < m then (s, none)
      else
        andThen ((s.setBlock i (s.placed b ns)).freeSlots st (st + b.nSlots)) fun s2 =>
        andThen (s2.freezeSlots ns ((ns : Int) + b.nSlots - 1 + 1)) fun s3 =>
        if b.nDelay ≠ 0 then
          andThen (s3.freeProc ((st : Int) - b.nDelay) ((st : Int) + b.nSlots + b.nDelay)) fun s4 =>
          s4.freezeProc ((ns : Int) - b.nDelay) ((ns : Int) + b.nSlots - 1 + b.nDelay + 1)
        else (s3, none) := by
    unfold Sched.shift
    rw [hb]
    simp only [hst]
    rw [hnsI, Int.toNat_natCast]
  rw [show (ns : Int) + b.nSlots - 1 + 1 = (ns : Int) + b.nSlots by ring,
    show ((ns : Int) + b.nSlots - 1).toNat = ns + b.nSlots - 1 by omega] at hshift
  have no : ¬ Tried s b ns m → s.shift i k m = (s, none) := by
    intro c
    rw [hshift]
    by_cases hend : (!(s.free ns || s.free (ns + b.nSlots - 1))) = true
    · rw [if_pos hend]
    · rw [if_neg hend, if_pos]
      refine not_le.1 fun q => c ⟨?_, q⟩
      rw [Bool.not_eq_true, Bool.not_eq_false', Bool.or_eq_true] at hend
      exact hend
  obtain ⟨f1, f2, f3, f4⟩ := freeSlots_ok (s.setBlock i (s.placed b ns)) st b.nSlots hn hfit own
  generalize (s.setBlock i (s.placed b ns)).freeSlots st ((st : Int) + b.nSlots) = r2 at hshift f1 f2 f3 f4
  have start : Tried s b ns m → s.shift i k m = andThen (r2.1.freezeSlots ns ((ns : Int) + b.nSlots)) fun s3 =>
        if b.nDelay ≠ 0 then
          andThen (s3.freeProc ((st : Int) - b.nDelay) ((st : Int) + b.nSlots + b.nDelay)) fun s4 =>
          s4.freezeProc ((ns : Int) - b.nDelay) ((ns : Int) + b.nSlots - 1 + b.nDelay + 1)
        else (s3, none) := by
    rintro ⟨c1, c2⟩
    rw [hshift, if_neg, if_neg (not_lt.2 c2), andThen_none f1]
    rcases c1 with c | c <;> simp [c]
  have size2 : r2.1.size = s.size := f2
  have proc2 : r2.1.proc = s.proc := f3
  have free2 : ∀ t, r2.1.free t = if st ≤ t ∧ t < st + b.nSlots then true else s.free t := f4
  have room : RoomFor s b st ns ↔ ∀ t, ns ≤ t → t < ns + b.nSlots → r2.1.free t = true := by
    refine forall_congr' fun t => imp_congr_right fun h1 => imp_congr_right fun h2 => ?_
    rw [free2]
    by_cases c : st ≤ t ∧ t < st + b.nSlots
    · rw [if_pos c]; exact ⟨fun _ => rfl, fun _ => Or.inr c⟩
    · rw [if_neg c]; exact ⟨fun q => q.resolve_right c, Or.inl⟩
  refine ⟨no, fun c hr => ?_, fun c hr hd hm => ?_, fun c hr hm hp => ?_, fun c hr hm hp => ?_⟩
  · rw [start c]
    exact andThen_some (freezeSlots_full r2.1 ns b.nSlots hn (by rw [size2]; exact hnsfit') (mt room.2 hr))
  all_goals
    obtain ⟨z1, z2, z3, z4⟩ := freezeSlots_ok r2.1 ns b.nSlots hn (by rw [size2]; exact hnsfit') (room.1 hr)
    rw [start c, andThen_none z1]
    generalize (r2.1.freezeSlots ns ((ns : Int) + b.nSlots)).1 = s3 at z2 z3 z4
    have size3 : s3.size = s.size := z2.trans size2
    have proc3 : s3.proc = s.proc := z3.trans proc2
    have free3 : ∀ t, s3.free t = if ns ≤ t ∧ t < ns + b.nSlots then false else if st ≤ t ∧ t < st + b.nSlots then true else s.free t := fun t => by
      rw [z4, free2]
  · rw [if_pos hd]
    refine andThen_some ?_
    unfold Sched.freeProc
    rw [if_pos]
    unfold MarginInside at hm
    rw [size3]
    omega
  · obtain ⟨t, ⟨hd, p1, p2⟩, p3⟩ := hp
    rw [if_pos hd]
    refine andThen_some ?_
    have e1 : (st : Int) - b.nDelay = ((st - b.nDelay : Nat) : Int) := by have := hm.1; omega
    have e2 : (st : Int) + b.nSlots + b.nDelay = ((st - b.nDelay : Nat) : Int) + ((b.nSlots + 2 * b.nDelay : Nat) : Int) := by have := hm.1; omega
    rw [e1, e2]
    refine freeProc_low s3 _ _ (by omega) (by rw [size3]; have := hm.2; have := hm.1; omega) fun q => ?_
    have := q t (by omega) (by have := hm.1; omega)
    rw [proc3] at this
    omega
  · by_cases hd : b.nDelay ≠ 0
    · rw [if_pos hd]
      have hm := hm hd
      have e1 : (st : Int) - b.nDelay = ((st - b.nDelay : Nat) : Int) := by have := hm.1; omega
      have e2 : (st : Int) + b.nSlots + b.nDelay = ((st - b.nDelay : Nat) : Int) + ((b.nSlots + 2 * b.nDelay : Nat) : Int) := by have := hm.1; omega
      obtain ⟨q1, q2, q3, q4⟩ := freeProc_ok s3 (st - b.nDelay) (b.nSlots + 2 * b.nDelay) (by omega)
        (by rw [size3]; have := hm.2; have := hm.1; omega) (fun t h1 h2 => by
          rw [proc3]; exact hp t ⟨hd, by omega, by have := hm.1; omega⟩)
      rw [← e2, ← e1] at q1 q2 q3 q4
      rw [andThen_none q1]
      generalize (s3.freeProc ((st : Int) - b.nDelay) ((st : Int) + b.nSlots + b.nDelay)).1 = s4 at q2 q3 q4
      have size4 : s4.size = s.size := q2.trans size3
      obtain ⟨y1, y2, y3⟩ := freezeProc_ok s4 ns b.nSlots b.nDelay hn
      refine ⟨y1, fun t ht => ⟨by rw [y2, q3, free3], ?_⟩⟩
      rw [y3 t (by rw [size4]; exact ht), q4, proc3]
      have a1 : Processes b st t ↔ st - b.nDelay ≤ t ∧ t < st - b.nDelay + (b.nSlots + 2 * b.nDelay) := by
        have := hm.1
        exact ⟨fun x => ⟨by have := x.2.1; omega, by have := x.2.2; omega⟩, fun x => ⟨hd, by omega, by omega⟩⟩
      have a2 : Processes b ns t ↔ ns ≤ t + b.nDelay ∧ t < ns + b.nSlots + b.nDelay := ⟨fun x => x.2, fun x => ⟨hd, x⟩⟩
      by_cases c1 : Processes b st t <;> by_cases c2 : Processes b ns t
      · rw [if_pos c1, if_pos c2, if_pos (a1.1 c1), if_pos (a2.1 c2)]
      · rw [if_pos c1, if_neg c2, if_pos (a1.1 c1), if_neg (mt a2.2 c2)]; omega
      · rw [if_neg c1, if_pos c2, if_neg (mt a1.2 c1), if_pos (a2.1 c2)]; omega
      · rw [if_neg c1, if_neg c2, if_neg (mt a1.2 c1), if_neg (mt a2.2 c2)]; omega
    · rw [if_neg hd]
      refine ⟨rfl, fun t _ => ⟨free3 t, ?_⟩⟩
      show s3.proc t = _
      rw [proc3, if_neg fun x : Processes b st t => hd x.1, if_neg fun x : Processes b ns t => hd x.1]
      omega

/-- **C10 violated (every schedule).** A block with processing time which is so close to an end of the schedule that the processing time reaches over
it can be booked, but a shift of it never succeeds: whenever it is carried out, it raises. -/
theorem shift_edge_violated {s : Sched} (h : Reachable s) (i : Nat) (k : Int) (m : ℚ) (b : Block) (st : Nat) (hb : s.blocks[i]? = some b)
    (hst : b.start = some st) (hd : b.nDelay ≠ 0) (he : st < b.nDelay ∨ s.size < st + b.nSlots + b.nDelay) :
    s.shift i k m = (s, none) ∨ (s.shift i k m).2 = some .valueError ∨ (s.shift i k m).2 = some .indexError := by
  obtain ⟨a1, a2, a3, -⟩ := shift_exact h i k m b st _ hb hst rfl
  by_cases c : Tried s b (shiftTarget s.size b.nSlots st k) m
  · by_cases r : RoomFor s b st (shiftTarget s.size b.nSlots st k)
    · exact Or.inr (Or.inr (a3 c r hd fun x => by have := x.1; have := x.2; omega))
    · exact Or.inr (Or.inl (a2 c r))
  · exact Or.inl (a1 c)

/-- **C10.** Without a duration, a block is shifted by one slot, later or earlier. -/
theorem shift_one (s : Sched) (i : Nat) (m : ℚ) : s.shiftLater i none m = s.shift i 1 m ∧ s.shiftEarlier i none m = s.shift i (-1) m := ⟨rfl, rfl⟩

/-- **C10.** With a duration, a block is shifted later by the whole slots of the duration, whatever its sign. -/
theorem shift_duration (s : Sched) (i : Nat) (m d : ℚ) (n : Nat) (hn : (n : ℚ) * s.dt ≤ |d|) (hd : |d| < (n + 1) * s.dt) (hp : 0 < s.dt) :
    s.shiftLater i (some d) m = s.shift i n m := by
  show s.shift i ⌊|d| / s.dt⌋ m = _
  rw [show ⌊|d| / s.dt⌋ = (n : Int) from Int.floor_eq_iff.2 ⟨by rw [le_div_iff₀ hp]; exact_mod_cast hn, by rw [div_lt_iff₀ hp]; exact_mod_cast hd⟩]

/-- Hypotheses: a block of two slots at slot 2 with its place one slot later. -/
example : (shiftDemo.blocks.map fun b => (b.start, b.nSlots, b.nDelay)) = [(some 2, 2, 0)] ∧ shiftTarget shiftDemo.size 2 2 1 = 3 ∧
    (shiftDemo.blocks.map fun b => (shiftDemo.free 3 || shiftDemo.free 4, decide (0 ≤ b.row 3))) = [(true, true)] := by decide +kernel

/-- A block of one slot with one slot of processing time, booked on slot 0: the shift by one slot raises, after the block has been moved. -/
def edgeDemo : Sched := (demo 10).run [.insertObs [obsOn 1 (some 1) none [0, 1, 2]], .book (plain [0])]

theorem edgeDemo_reachable : Reachable edgeDemo := by
  refine reachable_demo 10 (by norm_num) _ ⟨legal_obsOn ?_, trivial, trivial⟩
  intro o ho
  exact ⟨1, some 1, none, [0, 1, 2], by simpa using ho, by norm_num⟩

example : (edgeDemo.blocks.map fun b => (b.start, b.nSlots, b.nDelay)) = [(some 0, 1, 1)] ∧ (edgeDemo.shift 0 1 0).2 = some .indexError ∧
    (edgeDemo.shift 0 1 0).1.starts = [some 1] := by decide +kernel

/-- The same block away from the ends is shifted, with its counters. -/
example : (((demo 10).run [.insertObs [obsOn 1 (some 1) none [4, 5]], .book (plain [0])]).shift 0 1 0).2 = none ∧
    ((List.range 10).map (((demo 10).run [.insertObs [obsOn 1 (some 1) none [4, 5]], .book (plain [0])]).shift 0 1 0).1.proc) =
      [0, 0, 0, 0, 1, 1, 1, 0, 0, 0] := by decide +kernel

end Verif.Scheduler
