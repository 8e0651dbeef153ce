import Verif.Sched.LemmasDelay

/-!
# Booking properties

C01 (no double booking), C02 (inside, off reserved slots), C03 (first best window), C04 (processing delays), C05 (reset),
C06 (genetic booking), C12 (extension), and later additions.
-/

namespace Verif.Scheduler

theorem Reachable.good {s : Sched} (h : Reachable s) : Good s := by
  obtain ⟨_, _, _, _, _, ops, hdt, hmk, hl, rfl⟩ := h
  exact Good.run ops (Good.ofMk hdt hmk) hl

/-! ## C01, C06: no double booking in any history -/

/-- **C01, C06.** Whatever the history of insertions, reservations, heuristic bookings (any order, weights and minimal
score), genetic bookings (any genome, fine-tuning moves and scores) and extensions, no slot is used by two booked blocks. -/
theorem no_double_booking {s : Sched} (h : Reachable s) : NoDoubleBooking s := h.good.noDouble

/-- **C01.** In particular right after a heuristic booking. -/
theorem heuristic_no_double_booking {s : Sched} (h : Reachable s) (p : BookParams) : NoDoubleBooking (s.book p).1 :=
  (h.good.book p).noDouble

/-- **C06.** And right after a genetic booking, for whatever genome, moves and scores. -/
theorem genetic_no_double_booking {s : Sched} (h : Reachable s) {r v : Bool} {g : List Nat} {m : List (Nat × Bool)}
    {sc : Nat → ℚ} (hok : (s.bookGA r v g m sc).2 = none) :
    NoDoubleBooking (s.bookGA r v g m sc).1 ∧ BookedNotFree (s.bookGA r v g m sc).1 :=
  ⟨(h.good.bookGA hok).noDouble, (h.good.bookGA hok).notFree⟩

/-! ## C02: inside the schedule, off reserved slots -/

/-- **C02.** In every reachable state booked blocks lie inside the schedule, use the least number of slots covering
their duration, report the times of these slots, and their slots are not offered any more. -/
theorem booked_inside {s : Sched} (h : Reachable s) :
    InsideSchedule s ∧ BookedNotFree s ∧ TimesMatch s ∧ SlotsCoverDuration s := by
  have g := h.good
  refine ⟨g.inside, g.notFree, g.times, fun b hb => ?_⟩
  obtain ⟨h1, h2⟩ := g.dur b hb
  rw [h2]
  exact ceilSlots_cover h1 g.dt_pos

/-- **C02.** A heuristic booking only uses slots that were available, or were given back by a block booked before. -/
theorem heuristic_off_reserved {s : Sched} (h : Reachable s) (p : BookParams) :
    ∀ b ∈ (s.book p).1.blocks, ∀ t, Occupies b t → s.free t = true ∨ ∃ c ∈ s.blocks, Occupies c t := by
  have g := h.good
  have hacc : Acc (fun t => s.free t = false ∧ ∀ c ∈ s.blocks, ¬ Occupies c t) s := by
    intro t _
    refine ⟨⟨fun hf => ⟨fun hR => by rw [hR.1] at hf; exact absurd hf (by simp), fun c hc ho => ?_⟩, ?_⟩, fun hR => hR.2⟩
    · rw [g.notFree c hc t ho] at hf; exact absurd hf (by simp)
    · rintro ⟨hR, hno⟩
      by_contra hf
      exact hR ⟨by simpa using hf, hno⟩
  intro b hb t ho
  have hsz : t < s.size := by
    have := (g.book p).inside b hb t ho
    rwa [show (s.book p).1.size = s.size from (apply_fields s (.book p)).1] at this
  by_contra hc
  push Not at hc
  have h2 := ((hacc.book g p) t (by rw [show (s.book p).1.size = s.size from (apply_fields s (.book p)).1]; exact hsz)).2
  exact h2 ⟨by simpa using hc.1, hc.2⟩ b hb ho

/-- **C02, C05.** Exact accounting: as long as reservations are not placed over booked observations (and genetic bookings
reset first), a slot is available iff no reservation of the history covers it and no booked block uses it; and reserved slots are never
used. -/
theorem slot_accounting {tMin tMax dt : ℚ} {day : Nat → Bool} {s : Sched} (hdt : 0 < dt)
    (hmk : mkSched tMin tMax dt day = .ok s) {ops : List Op} (hl : s.LegalRun ops) (hc : s.CarefulRun ops) :
    ∀ t, t < s.size →
      ((s.run ops).free t = true ↔ ¬ s.ReservedBy ops t ∧ ∀ b ∈ (s.run ops).blocks, ¬ Occupies b t) ∧
      (s.ReservedBy ops t → ∀ b ∈ (s.run ops).blocks, ¬ Occupies b t) := by
  have h := (Acc.run ops (Good.ofMk hdt hmk) (Acc.ofMk hmk) hl hc).congr (R' := s.ReservedBy ops) (fun t => by simp)
  intro t ht
  refine h t ?_
  have : ∀ (ops : List Op) (s : Sched), (s.run ops).size = s.size := by
    intro ops
    induction ops with
    | nil => intro s; rfl
    | cons op ops ih => intro s; exact (ih (s.apply op)).trans (apply_fields s op).1
  rw [this]; exact ht

/-! ## C03: the heuristic takes the first best window -/

/-- State of the booking loop when the blocks `l` of the order have been examined. -/
def loopState (s : Sched) (p : BookParams) (l : List Nat) : BState :=
  l.foldl (fun a i => (bookStep p a i).1) ⟨s.prepare p.reset p.veryStrict, 0, 0⟩

/-- Weighted score of starting block `b` at slot `j`: the mean of its constraint scores over its window, scaled by what
remains of the day or night hours. -/
def weightedScore (m : BState) (p : BookParams) (b : Block) (j : Nat) : ℚ :=
  (sumTo (fun k => b.cnst (j + k)) b.nSlots / b.nSlots) *
    (if m.s.day j then hoursWeight p.dayHours m.dayUsed else hoursWeight p.nightHours m.nightUsed)

theorem feasible_iff_avail {s : Sched} {b : Block} {j : Nat} :
    Feasible s b j ↔ j + b.nSlots ≤ s.size ∧ ∀ t, j ≤ t → t < j + b.nSlots → s.avail b t = true := by
  unfold Feasible Sched.avail
  refine and_congr_right fun _ => ?_
  refine forall_congr' fun t => forall_congr' fun _ => forall_congr' fun _ => ?_
  split
  · rename_i h; rw [Bool.and_eq_true, decide_eq_true_iff]; tauto
  · rename_i h; tauto

/-- On feasible starts other than the last one the code's score is the weighted score; elsewhere it is zero. -/
theorem bookScore_eq {m : BState} {p : BookParams} {b : Block} (hm : RowsMean m.s) (hb : b ∈ m.s.blocks)
    (hn : 0 < b.nSlots) {j : Nat} (hj : j + b.nSlots < m.s.size) (hf : Feasible m.s b j) :
    m.s.bookScore p m.dayUsed m.nightUsed b j = weightedScore m p b j := by
  have hav := (feasible_iff_avail.mp hf).2
  unfold Sched.bookScore weightedScore
  have h1 : m.s.availStart b j = true := (availStart_iff (by omega) hn).mpr (fun t h1 h2 _ => hav t h1 h2)
  have h2 : m.s.free j = true := (hf.2 j (le_refl _) (by omega)).1
  rw [h1, h2, hm b hb j hj (fun t h1 h2 => (hf.2 t h1 h2).1)]
  simp [b2q, meanScore]

theorem bookScore_pos_feasible {m : BState} {p : BookParams} {b : Block} (hr : RowsOK m.s) (hs : RowsStrict m.s)
    (hb : b ∈ m.s.blocks) {j : Nat} (h : m.s.bookScore p m.dayUsed m.nightUsed b j ≠ 0) :
    j + b.nSlots < m.s.size ∧ Feasible m.s b j := by
  obtain ⟨h1, h2⟩ := bookScore_ne_zero h
  have hlt := hs b hb j h1
  exact ⟨hlt, feasible_iff_avail.mpr ⟨(hr b hb j).2 h1, fun t a c => availStart_all h2 t a c (by omega)⟩⟩

/-- **C03 (partial: the very last start of the schedule is not considered).** Take any block `i` of the processing order, and the
state `m` in which the loop examines it; it is to be scheduled and not booked yet.
If it ends up booked at `j`: the window is feasible, its weighted score is positive and at least the minimal
score, no feasible start scores more and no earlier feasible start scores as much.
If it is left unbooked: every feasible start scores zero, or every feasible start scores less than the minimal score. -/
theorem heuristic_first_best_partial {s : Sched} (h : Reachable s) (p : BookParams) {l1 l2 : List Nat} {i : Nat}
    (hord : p.order = l1 ++ i :: l2) (hnd : p.order.Nodup) (hidx : ∀ k ∈ p.order, k < s.blocks.length)
    {b b' : Block} (hb : (loopState s p l1).s.blocks[i]? = some b) (hts : b.toSched = true) (hun : b.start = none)
    (hb' : (s.book p).1.blocks[i]? = some b') :
    (∀ j, b'.start = some j →
      Feasible (loopState s p l1).s b j ∧ 0 < weightedScore (loopState s p l1) p b j ∧
      p.minScore ≤ weightedScore (loopState s p l1) p b j ∧
      (∀ k, k + b.nSlots < s.size → Feasible (loopState s p l1).s b k →
        weightedScore (loopState s p l1) p b k ≤ weightedScore (loopState s p l1) p b j ∧
        (k < j → weightedScore (loopState s p l1) p b k < weightedScore (loopState s p l1) p b j))) ∧
    (b'.start = none →
      (∀ k, k + b.nSlots < s.size → Feasible (loopState s p l1).s b k → weightedScore (loopState s p l1) p b k = 0) ∨
      (∀ k, k + b.nSlots < s.size → Feasible (loopState s p l1).s b k →
        weightedScore (loopState s p l1) p b k < p.minScore)) := by
  have g := h.good
  have hp := g.prepare p.reset p.veryStrict
  set st0 : BState := ⟨s.prepare p.reset p.veryStrict, 0, 0⟩ with hst0
  have hlen0 : st0.s.blocks.length = s.blocks.length := by
    simp only [hst0, Sched.prepare]
    cases p.reset <;> cases p.veryStrict <;>
      simp [Sched.computeScores, Sched.veryStrict, reset_blocks]
  set m := loopState s p l1 with hmdef
  have hgm : Good m.s ∧ RowsOK m.s := bookFold_good l1 (st := st0) hp.1 hp.2
  have hmean : RowsMean m.s := RowsMean.fold l1 (st := st0) (prepare_rowsMean _ _ _)
  have hstr : RowsStrict m.s := RowsStrict.fold l1 (st := st0) (prepare_rowsStrict _ _ _)
  have hsz : m.s.size = s.size := by
    have hprep : st0.s.size = s.size := by
      simp only [hst0, Sched.prepare]
      cases p.reset <;> cases p.veryStrict <;> rfl
    have : ∀ (l : List Nat) (st : BState), (l.foldl (fun a i => (bookStep p a i).1) st).s.size = st.s.size := by
      intro l
      induction l with
      | nil => intro st; rfl
      | cons k l ih =>
        intro st
        rw [List.foldl_cons, ih]
        rcases bookStep_cases p st k with he | ⟨b, j, _, _, _, _, he, _⟩
        · rw [he]
        · rw [he, (bookAt_fields st.s k b j).2.2.1]
    exact (this l1 st0).trans hprep
  have hbm := getElem?_mem hb
  have hn := hgm.1.nSlots_pos hbm
  have hlt : i < m.s.blocks.length := (List.getElem?_eq_some_iff.mp hb).1
  have hnd' := hnd
  rw [hord, List.nodup_append] at hnd'
  have hi2 : i ∉ l2 := (List.nodup_cons.mp hnd'.2.1).1
  have hfin : (bookStep p m i).1.s.blocks[i]? = some b' := by
    have hl : bookLoop p st0 p.order = (p.order.foldl (fun a i => (bookStep p a i).1) st0, none) :=
      bookLoop_fold p.order (fun k hk => by rw [hlen0]; exact hidx k hk)
    have : (s.book p).1 = (p.order.foldl (fun a i => (bookStep p a i).1) st0).s := by
      unfold Sched.book; simp only; rw [hl]
    rw [this, hord, List.foldl_append, List.foldl_cons, bookFold_other p i l2 _ hi2] at hb'
    exact hb'
  have hrow := hgm.2 b hbm
  -- value of the code's score on feasible starts
  have hval : ∀ k, k + b.nSlots < s.size → Feasible m.s b k →
      m.s.bookScore p m.dayUsed m.nightUsed b k = weightedScore m p b k := by
    intro k hk hf
    exact bookScore_eq hmean hbm hn (by omega) hf
  have hstep : bookStep p m i =
      match m.s.choose p m.dayUsed m.nightUsed b with
      | none => (m, none)
      | some j =>
        ({ s := m.s.bookAt i b j
           dayUsed := if p.dayHours.isSome then
               m.dayUsed + countIn (m.s.bookAt i b j).size (m.s.bookAt i b j).day j b.nSlots * (m.s.bookAt i b j).dt / 3600
             else m.dayUsed
           nightUsed := if p.nightHours.isSome then
               m.nightUsed + countIn (m.s.bookAt i b j).size (fun k => !(m.s.bookAt i b j).day k) j b.nSlots *
                 (m.s.bookAt i b j).dt / 3600 else m.nightUsed }, none) := by
    unfold bookStep
    rw [hb]
    simp only [hts, hun, Bool.not_true, Option.isSome_none, Bool.or_self, Bool.false_eq_true, if_false]
    cases m.s.choose p m.dayUsed m.nightUsed b <;> rfl
  cases hch : m.s.choose p m.dayUsed m.nightUsed b with
  | none =>
    rw [hch] at hstep
    simp only at hstep
    rw [hstep] at hfin
    have hbb : b' = b := by
      rw [hb] at hfin; exact (Option.some.inj hfin).symm
    subst hbb
    refine ⟨fun j hj => by rw [hun] at hj; exact absurd hj (by simp), fun _ => ?_⟩
    rcases choose_none hch with h0 | h0
    · left
      intro k hk hf
      rw [← hval k hk hf]
      exact h0 k (by omega)
    · right
      intro k hk hf
      rw [← hval k hk hf]
      exact h0 k (by omega)
  | some j =>
    rw [hch] at hstep
    simp only at hstep
    rw [hstep] at hfin
    simp only at hfin
    rw [(bookAt_fields m.s i b j).1, List.getElem?_set_self hlt] at hfin
    obtain rfl := Option.some.inj hfin
    obtain ⟨hj1, hj2, hj3, hj4, hj5⟩ := choose_some hch (fun j => (hrow j).1)
    obtain ⟨hjlt, hjf⟩ := bookScore_pos_feasible hgm.2 hstr hbm hj2.ne'
    have hjv := hval j (by omega) hjf
    refine ⟨fun j' hj' => ?_, fun hnone => by simp [Sched.placed] at hnone⟩
    have : j = j' := by simpa [Sched.placed] using hj'
    subst this
    rw [← hjv]
    refine ⟨hjf, hj2, hj3, fun k hk hf => ?_⟩
    rw [← hval k hk hf]
    exact ⟨hj4 k (by omega), fun hkj => hj5 k hkj⟩

/-! ## C04: processing delays -/

/-- **C04.** First heuristic booking of a schedule (nothing booked, no processing slot frozen): when blocks `i` and `j` both
have a processing delay and `i` comes first in the processing order, then the slots of `j` keep clear of the slots of `i`
enlarged on both sides by the delay of `i`. -/
theorem processing_delay_respected {s : Sched} (h : Reachable s) (hfresh : ∀ t, s.proc t = 0)
    (hunb : ∀ b ∈ s.blocks, b.start = none) (p : BookParams) {l1 l2 : List Nat} {i j : Nat}
    (hord : p.order = l1 ++ j :: l2) (hi : i ∈ l1) (hnd : p.order.Nodup) (hidx : ∀ k ∈ p.order, k < s.blocks.length)
    {bi bj : Block} (hbi : (s.book p).1.blocks[i]? = some bi) (hbj : (s.book p).1.blocks[j]? = some bj)
    (hdi : bi.nDelay ≠ 0) (hdj : bj.nDelay ≠ 0) : ClearOf bj bi := by
  have g := h.good
  have hp := g.prepare p.reset p.veryStrict
  set st0 : BState := ⟨s.prepare p.reset p.veryStrict, 0, 0⟩ with hst0
  have hlen0 : st0.s.blocks.length = s.blocks.length := by
    simp only [hst0, Sched.prepare]
    cases p.reset <;> cases p.veryStrict <;>
      simp [Sched.computeScores, Sched.veryStrict, reset_blocks]
  have hreset : s.reset.proc = s.proc := by
    have : ∀ (bs : List Block) (f : Nat → Bool) (q : Nat → Int), (∀ b ∈ bs, b.start = none) →
        (resetLoop s.size bs f q).2.2 = q := by
      intro bs
      induction bs with
      | nil => intro f q _; rfl
      | cons b bs ih =>
        intro f q hh
        unfold resetLoop
        rw [hh b List.mem_cons_self]
        exact ih f q (fun c hc => hh c (List.mem_cons_of_mem _ hc))
    exact this _ _ _ hunb
  have hproc0 : ∀ t, st0.s.proc t = 0 := by
    intro t
    rw [← hfresh t]
    simp only [hst0, Sched.prepare]
    cases p.reset <;> cases p.veryStrict <;>
      simp [Sched.computeScores, Sched.veryStrict, hreset]
  have hun0 : ∀ b ∈ st0.s.blocks, b.start = none := by
    have hr : ∀ b ∈ (if p.reset then s.reset else s).blocks, b.start = none := by
      split
      · exact reset_unbooked s
      · exact hunb
    have hc : ∀ b ∈ (if p.reset then s.reset else s).computeScores.blocks, b.start = none := by
      intro b hb
      obtain ⟨c, hc, rfl⟩ := List.mem_map.mp hb
      exact hr c hc
    simp only [hst0, Sched.prepare]
    split
    · intro b hb
      obtain ⟨c, hc', rfl⟩ := List.mem_map.mp hb
      exact hc c hc'
    · exact hc
  have hP0 : ProcOK st0.s := by
    refine ⟨fun t => by rw [hproc0 t], fun k b st hb hst => ?_⟩
    rw [hun0 b (getElem?_mem hb)] at hst; exact absurd hst (by simp)
  set m : BState := l1.foldl (fun a i => (bookStep p a i).1) st0 with hm
  have hgm : Good m.s ∧ RowsOK m.s := bookFold_good l1 (st := st0) hp.1 hp.2
  have hPm : ProcOK m.s := ProcOK.fold l1 (st := st0) hp.1 hp.2 hP0
  have hnd' := hnd
  rw [hord, List.nodup_append] at hnd'
  have hj2 : j ∉ l2 := (List.nodup_cons.mp hnd'.2.1).1
  have hj1 : j ∉ l1 := fun hc => hnd'.2.2 j hc j List.mem_cons_self rfl
  have hij : i ≠ j := fun e => hj1 (e ▸ hi)
  have hi2 : i ∉ l2 := fun hc => hnd'.2.2 i hi i (List.mem_cons_of_mem _ hc) rfl
  have hl : bookLoop p st0 p.order = (p.order.foldl (fun a i => (bookStep p a i).1) st0, none) :=
    bookLoop_fold p.order (fun k hk => by rw [hlen0]; exact hidx k hk)
  have hfin : (s.book p).1 = (l2.foldl (fun a i => (bookStep p a i).1) (bookStep p m j).1).s := by
    unfold Sched.book; simp only; rw [hl, hord, List.foldl_append, List.foldl_cons]
  rw [hfin, bookFold_other p i l2 _ hi2, bookStep_other p m j i hij] at hbi
  rw [hfin, bookFold_other p j l2 _ hj2] at hbj
  intro si hsi t ho hz
  rcases bookStep_cases p m j with he | ⟨b, x, hb, _, _, hx, he, _⟩
  · rw [he] at hbj
    rw [hm, bookFold_other p j l1 st0 hj1] at hbj
    exact not_occ_of_none (hun0 bj (getElem?_mem hbj)) t ho
  · rw [he, (bookAt_fields m.s j b x).1,
      List.getElem?_set_self (List.getElem?_eq_some_iff.mp hb).1] at hbj
    obtain rfl := Option.some.inj hbj
    have hw := choose_window (hgm.2 b (getElem?_mem hb)) hx
    have hr := occ_placed.mp ho
    have hav := hw.2 t hr.1 hr.2
    have h0 := avail_proc hdj hav
    have h1 := hPm.2 i bi si hbi hsi hdi t (by have := hw.1; change t < m.s.size; omega) hz.1 hz.2
    omega

/-! ## C05: reset -/

/-- **C05, slots.** After any careful history, un-booking everything makes available exactly the slots that no reservation
covers: nothing leaks from the earlier bookings. -/
theorem reset_restores_slots {tMin tMax dt : ℚ} {day : Nat → Bool} {s : Sched} (hdt : 0 < dt)
    (hmk : mkSched tMin tMax dt day = .ok s) {ops : List Op} (hl : s.LegalRun ops) (hc : s.CarefulRun ops) :
    (∀ t, t < s.size → ((s.run ops).reset.free t = true ↔ ¬ s.ReservedBy ops t)) ∧
    ∀ b ∈ (s.run ops).reset.blocks, b.start = none := by
  refine ⟨fun t ht => ?_, reset_unbooked _⟩
  obtain ⟨h1, h2⟩ := slot_accounting hdt hmk hl hc t ht
  have hsz : t < (s.run ops).size := by
    have : ∀ (ops : List Op) (s : Sched), (s.run ops).size = s.size := by
      intro ops
      induction ops with
      | nil => intro s; rfl
      | cons op ops ih => intro s; exact (ih (s.apply op)).trans (apply_fields s op).1
    rw [this]; exact ht
  rw [reset_free]
  constructor
  · rintro (hf | ⟨_, b, hb, ho⟩)
    · exact (h1.mp hf).1
    · exact fun hR => h2 hR b hb ho
  · intro hR
    by_cases hex : ∃ b ∈ (s.run ops).blocks, Occupies b t
    · exact Or.inr ⟨hsz, hex⟩
    · push Not at hex
      exact Or.inl (h1.mpr ⟨hR, hex⟩)

/-- **C05, processing counters, violated.** For every schedule without frozen processing slots and every block with a delay `d` booked at
a start `st > d`, booking the block and resetting leaves slot `st - d - 1` marked as frozen (counter `-1`). -/
theorem reset_counters_violated (s : Sched) (b : Block) (st : Nat) (hn : 0 < b.nSlots) (hd : b.nDelay ≠ 0)
    (hst : b.nDelay < st) (hfit : st + b.nSlots ≤ s.size) (hz : ∀ t, s.proc t = 0) (hbl : s.blocks = [b]) :
    (s.bookAt 0 b st).reset.proc (st - b.nDelay - 1) = -1 := by
  obtain ⟨f1, _, f3, _⟩ := bookAt_fields s 0 b st
  have hb : (s.bookAt 0 b st).blocks = [s.placed b st] := by rw [f1, hbl]; rfl
  unfold Sched.reset
  rw [hb, f3]
  have hps : (s.placed b st).start = some st := rfl
  have hpd : (s.placed b st).nDelay = b.nDelay := rfl
  have hpn : (s.placed b st).nSlots = b.nSlots := rfl
  simp only [resetLoop, hps]
  rw [if_pos (show (s.placed b st).nDelay ≠ 0 from hd)]
  simp only [hpd, hpn]
  rw [if_pos]
  · have := bookAt_proc (s := s) (i := 0) (b := b) (st := st) hn (st - b.nDelay - 1) (by omega)
    rw [this, if_neg (by omega), hz]
    rfl
  · unfold inSlice pyBound
    rw [Bool.and_eq_true, decide_eq_true_iff, decide_eq_true_iff]
    split_ifs <;> omega

/-- **C05, processing counters (partial).** Without processing delays the counters are untouched by booking and resetting. -/
theorem reset_counters_partial (s : Sched) (h : ∀ b ∈ s.blocks, b.nDelay = 0) : s.reset.proc = s.proc := by
  have : ∀ (bs : List Block) (f : Nat → Bool) (q : Nat → Int), (∀ b ∈ bs, b.nDelay = 0) →
      (resetLoop s.size bs f q).2.2 = q := by
    intro bs
    induction bs with
    | nil => intro f q _; rfl
    | cons b bs ih =>
      intro f q hh
      have hb := hh b List.mem_cons_self
      have ih' := fun f q => ih f q (fun c hc => hh c (List.mem_cons_of_mem _ hc))
      unfold resetLoop
      split
      · exact ih' f q
      · simp only [hb]
        exact ih' _ q
  exact this _ _ _ h

/-! ## C06: genetic booking succeeds on the genomes the search can return -/

/-- A genome is usable: one entry per block to schedule, each leaving the block inside the schedule. -/
def GenomeFits (size : Nat) : List Block → List Nat → Prop
  | [], _ => True
  | b :: bs, g =>
    if b.toSched then
      match g with
      | [] => False
      | x :: xs => x + b.nSlots ≤ size ∧ 0 < b.nSlots ∧ GenomeFits size bs xs
    else GenomeFits size bs g

theorem assignGenome_succeeds {s : Sched} : ∀ (bs : List Block) (g : List Nat), GenomeFits s.size bs g →
    (assignGenome s bs g).2 = none
  | [], _, _ => rfl
  | b :: bs, g, h => by
    unfold GenomeFits at h
    unfold assignGenome
    split at h
    · rename_i hb
      rw [if_neg (by simp [hb])]
      cases g with
      | nil => exact h.elim
      | cons x xs =>
        simp only at h ⊢
        split
        · exact assignGenome_succeeds bs xs h.2.2
        · rw [if_pos (by omega)]
          exact assignGenome_succeeds bs xs h.2.2
    · rename_i hb
      rw [if_pos (by simpa using hb)]
      exact assignGenome_succeeds bs g h

/-- **C06.** A genetic booking does not raise when a block is left to schedule after the strict filter, the genome fits and at
least one block gets placed from it. -/
theorem bookGA_succeeds (s : Sched) (r v : Bool) (g : List Nat) (m : List (Nat × Bool)) (sc : Nat → ℚ)
    (hleft : ∃ b ∈ (s.prepare r v).blocks, b.toSched = true)
    (hg : GenomeFits (s.prepare r v).size (s.prepare r v).blocks g)
    (hone : ∃ b ∈ (assignGenome (s.prepare r v) (s.prepare r v).blocks g).1, b.start ≠ none) :
    (s.bookGA r v g m sc).2 = none := by
  unfold Sched.bookGA
  simp only
  rw [assignGenome_succeeds _ _ hg]
  split
  · rfl
  · rw [if_neg (by
      simp only [List.all_eq_true, not_forall, Bool.not_eq_true', Bool.not_eq_false]
      obtain ⟨b, hb, ht⟩ := hleft
      exact ⟨b, hb, ht⟩)]
    simp only
    rw [if_neg]
    simp only [List.all_eq_true, not_forall, Option.isNone_iff_eq_none]
    obtain ⟨b, hb, hne⟩ := hone
    exact ⟨b, hb, hne⟩

/-- **C06, violated.** When only the strict filter removes every block, the genetic booking raises a `TypeError` instead of
leaving the schedule empty, whatever the genome. -/
theorem bookGA_strict_violated (s : Sched) (r : Bool) (g : List Nat) (m : List (Nat × Bool)) (sc : Nat → ℚ)
    (hsome : ∃ b ∈ (s.prepare r false).blocks, b.toSched = true)
    (hnone : ∀ b ∈ (s.prepare r true).blocks, b.toSched = false) :
    (s.bookGA r true g m sc).2 = some .typeError := by
  unfold Sched.bookGA
  simp only
  rw [if_neg (by
    simp only [List.all_eq_true, not_forall, Bool.not_eq_true', Bool.not_eq_false]
    obtain ⟨b, hb, ht⟩ := hsome
    exact ⟨b, hb, ht⟩), if_pos (by
    simp only [List.all_eq_true, Bool.not_eq_true']
    exact hnone)]

/-- **C06.** Genes produced by the search are first clipped: for a block shorter than the schedule, a clipped gene always leaves the block
inside the schedule, and even clear of its last slot. -/
theorem boundGene_fits (size n : Nat) (x : Int) (hn : n < size) :
    0 ≤ boundGene size n x ∧ boundGene size n x + n < size := by
  unfold boundGene
  simp only
  split_ifs <;> omega

/-! ## C12: extension -/

/-- **C12.** Extending observations from any reachable state: every block is still there, occupies at least the slots it had,
blocks that were not booked are untouched, all blocks stay disjoint, inside the schedule, on slots which were available or their own. -/
theorem extension_grows {s : Sched} (h : Reachable s) (d : Option ℚ) (k : Nat → Nat → Bool) :
    NoDoubleBooking (s.extend d k).1 ∧ InsideSchedule (s.extend d k).1 ∧ TimesMatch (s.extend d k).1 ∧
    (∀ (i : Nat) (b : Block), s.blocks[i]? = some b → ∃ b' : Block, (s.extend d k).1.blocks[i]? = some b' ∧
      (∀ t, Occupies b t → Occupies b' t) ∧ (b.start = none → b' = b)) ∧
    (∀ b' ∈ (s.extend d k).1.blocks, ∀ t, Occupies b' t → s.free t = true ∨ ∃ c ∈ s.blocks, Occupies c t) := by
  have g := h.good
  have g' := g.extend d k
  have hacc : Acc (fun t => s.free t = false ∧ ∀ c ∈ s.blocks, ¬ Occupies c t) s := by
    intro t _
    refine ⟨⟨fun hf => ⟨fun hR => by rw [hR.1] at hf; exact absurd hf (by simp), fun c hc ho => ?_⟩, ?_⟩, fun hR => hR.2⟩
    · rw [g.notFree c hc t ho] at hf; exact absurd hf (by simp)
    · rintro ⟨hR, hno⟩
      by_contra hf
      exact hR ⟨by simpa using hf, hno⟩
  have hx := hacc.extend g d k
  refine ⟨g'.noDouble, g'.inside, g'.times, hx.2, ?_⟩
  intro b hb t ho
  by_contra hc
  push Not at hc
  exact (hx.1 t (g'.inside b hb t ho)).2 ⟨by simpa using hc.1, hc.2⟩ b hb ho

/-- **C12.** No block grows beyond the maximal duration: a block that changed has fewer slots than its limit plus one slot. -/
theorem extension_bounded {s : Sched} (h : Reachable s) (d : Option ℚ) (k : Nat → Nat → Bool) {i : Nat} {b b' : Block}
    (hb : s.blocks[i]? = some b) (hb' : (s.extend d k).1.blocks[i]? = some b') :
    b' = b ∨ ∃ e, (d = some e ∨ (d = none ∧ b.maxExt = some e)) ∧ (b'.nSlots : ℚ) * s.dt < max e 0 + s.dt := by
  rcases extend_bounded s d k i b' hb' with hold | ⟨b0, e, hb0, he, hle⟩
  · rw [hb] at hold; exact Or.inl (Option.some.inj hold).symm
  · right
    rw [hb] at hb0; obtain rfl := Option.some.inj hb0
    refine ⟨e, ?_, ?_⟩
    · unfold extLimit at he
      split at he
      · exact Or.inr ⟨rfl, he⟩
      · exact Or.inl he
    · have hdt := h.good.dt_pos
      have hle' : (b'.nSlots : ℚ) ≤ ceilSlots e s.dt := by exact_mod_cast hle
      by_cases hpos : 0 < e
      · have := (ceilSlots_cover hpos hdt).2
        have h2 : (b'.nSlots : ℚ) * s.dt ≤ ceilSlots e s.dt * s.dt := mul_le_mul_of_nonneg_right hle' hdt.le
        have h3 : e ≤ max e 0 := le_max_left _ _
        linarith
      · have h0 : ceilSlots e s.dt = 0 := by
          unfold ceilSlots
          have : ⌈e / s.dt⌉ ≤ 0 := Int.ceil_le.mpr (by
            simpa using div_nonpos_of_nonpos_of_nonneg (not_lt.mp hpos) hdt.le)
          omega
        rw [h0] at hle'
        have h2 : (b'.nSlots : ℚ) * s.dt ≤ (0 : ℕ) * s.dt := mul_le_mul_of_nonneg_right hle' hdt.le
        have h3 : 0 ≤ max e 0 := le_max_right _ _
        simp only [Nat.cast_zero, zero_mul] at h2
        linarith

end Verif.Scheduler
