/-
General forms of counter-examples of bookings: what always happens, in every schedule, not only in the examples of `PropsBookEx`.
-/
import Verif.Sched.PropsOrder
import Verif.Sched.PropsTime
import Verif.Sched.PropsMisc

namespace Verif.Scheduler

/-- Block `i` is neither booked nor to be booked. -/
def LeftOut (s : Sched) (i : Nat) : Prop := ∃ c, s.blocks[i]? = some c ∧ c.start = none ∧ c.toSched = false

theorem excluded_map {s s' : Sched} {i : Nat} (h : LeftOut s i) (f : Block → Block) (hs : s'.blocks = s.blocks.map f)
    (h1 : ∀ c, c.start = none → (f c).start = none) (h2 : ∀ c, c.toSched = false → (f c).toSched = false) : LeftOut s' i := by
  obtain ⟨c, hc, h3, h4⟩ := h
  exact ⟨f c, by rw [hs, List.getElem?_map, hc]; rfl, h1 c h3, h2 c h4⟩

theorem excluded_prepare {s : Sched} {i : Nat} (h : LeftOut s i) (r v : Bool) : LeftOut (s.prepare r v) i := by
  have h1 : LeftOut (if r then s.reset else s) i := by
    cases r
    · exact h
    · exact excluded_map h (fun b => { b with start := none }) (resetLoop_blocks s.size s.blocks s.free s.proc) (fun _ _ => rfl) (fun _ hc => hc)
  have h2 : LeftOut (if r then s.reset else s).computeScores i :=
    excluded_map h1 (Sched.scoreBlock (if r then s.reset else s)) rfl (fun _ hc => hc) (fun c hc => by
      show (c.toSched && _) = false
      rw [hc, Bool.false_and])
  show LeftOut (if v then Sched.veryStrict (Sched.computeScores (if r then s.reset else s)) else Sched.computeScores (if r then s.reset else s)) i
  cases v
  · exact h2
  · exact excluded_map h2 (fun b => { b with toSched := b.toSched && hasRun _ b.nSlots b.row }) rfl (fun _ hc => hc) (fun c hc => by
      show (c.toSched && _) = false
      rw [hc, Bool.false_and])

theorem excluded_loop (p : BookParams) (i : Nat) : ∀ (l : List Nat) (st : BState), LeftOut st.s i → LeftOut (bookLoop p st l).1.s i
  | [], _, h => h
  | k :: l, st, h => by
    have hstep : LeftOut (bookStep p st k).1.s i := by
      by_cases hk : i = k
      · subst hk
        rcases bookStep_cases p st i with he | ⟨b, j, hb, ht, _⟩
        · rw [he]; exact h
        · obtain ⟨c, hc, _, h4⟩ := h
          rw [hb] at hc
          cases hc
          rw [ht] at h4
          cases h4
      · obtain ⟨c, hc, h3⟩ := h
        exact ⟨c, by rw [bookStep_other p st k i hk]; exact hc, h3⟩
    unfold bookLoop
    split
    · rename_i st' e
      rw [e] at hstep
      exact excluded_loop p i l st' hstep
    · rename_i st' x e
      rw [e] at hstep
      exact hstep

/-- **C03, C05** (lost blocks, for every schedule): a block which one booking left out as impossible is never booked again by any further heuristic bookings, whatever their options, with or without
reset, and whatever was freed in between by the resets. -/
theorem excluded_forever_violated (s : Sched) (i : Nat) (h : LeftOut s i) (ps : List BookParams) : LeftOut (ps.foldl (fun s p => (s.book p).1) s) i := by
  induction ps generalizing s with
  | nil => exact h
  | cons p ps ih =>
    rw [List.foldl_cons]
    exact ih _ (excluded_loop p i p.order _ (excluded_prepare h _ _))

/-- How a block gets there: a booking without reset leaves out every unbooked block with no free window at that moment. -/
theorem excluded_by (s : Sched) (i : Nat) (b : Block) (v : Bool) (hb : s.blocks[i]? = some b) (hs : b.start = none)
    (h : ∀ j, cnstRow s.size (ceilSlots b.duration s.dt) s.free b.cnst j = 0) : LeftOut (s.prepare false v) i := by
  have h2 : LeftOut s.computeScores i := by
    refine ⟨s.scoreBlock b, ?_, hs, ?_⟩
    · show (s.blocks.map s.scoreBlock)[i]? = _
      rw [List.getElem?_map, hb]
      rfl
    · show (b.toSched && decide (cnstRow s.size (ceilSlots b.duration s.dt) s.free b.cnst _ ≠ 0)) = false
      rw [h, Bool.and_eq_false_iff]
      exact Or.inr (decide_eq_false fun hn => hn rfl)
  show LeftOut (if v then s.computeScores.veryStrict else s.computeScores) i
  cases v
  · exact h2
  · exact excluded_map h2 (fun b => { b with toSched := b.toSched && hasRun _ b.nSlots b.row }) rfl (fun _ hc => hc) (fun c hc => by
      show (c.toSched && _) = false
      rw [hc, Bool.false_and])

/-- **C02** (lost reservations, for every schedule): wherever a reservation covers a booked observation, it is lost by the reset made before the next booking; all the slots of the
observation are offered again. -/
theorem reservation_lost_violated (s : Sched) (a e : ℚ) (b : Block) (t : Nat) (hb : b ∈ s.blocks) (ho : Occupies b t) (ht : t < s.size) :
    (s.addBooking a e).1.reset.free t = true := by
  have h : (s.addBooking a e).1.blocks = s.blocks ∧ (s.addBooking a e).1.size = s.size := by
    unfold Sched.addBooking
    split <;> exact ⟨rfl, rfl⟩
  show (resetLoop (s.addBooking a e).1.size (s.addBooking a e).1.blocks (s.addBooking a e).1.free (s.addBooking a e).1.proc).2.1 t = true
  rw [resetLoop_free, h.1, h.2]
  exact Or.inr ⟨ht, b, hb, ho⟩

/-- **C12** (crash, for every schedule): an extension up to a duration which takes fewer slots than some booked block always raises, and nothing is extended. -/
theorem extension_crash_violated (s : Sched) (d : ℚ) (keep : Nat → Nat → Bool) (b : Block) (hb : b ∈ s.blocks) (hs : b.start.isSome = true) (hd : ceilSlots d s.dt < b.nSlots) :
    s.extend (some d) keep = (s, some .indexError) := by
  have key : ∀ (l : List Block) (i : Nat), b ∈ l → allCandidates s.dt (some d) keep i l = .error .indexError := by
    intro l
    induction l with
    | nil => intro i h; cases h
    | cons c l ih =>
      intro i h
      rw [allCandidates]
      by_cases hc : c.start.isSome = true ∧ ceilSlots d s.dt < c.nSlots
      · have e : (if c.start.isSome = true then extCandidates c.nSlots (some d) s.dt (keep i) else Except.ok []) = Except.error Err.indexError := by
          rw [if_pos hc.1]
          show (if c.nSlots = ceilSlots d s.dt then Except.ok [] else if ceilSlots d s.dt < c.nSlots then Except.error Err.indexError else Except.ok _) = _
          rw [if_neg (by omega), if_pos hc.2]
        simp only [e]
      · have hne : b ≠ c := by
          rintro rfl
          exact hc ⟨hs, hd⟩
        have hl : b ∈ l := (List.mem_cons.1 h).resolve_left hne
        have e : ∃ x, (if c.start.isSome = true then extCandidates c.nSlots (some d) s.dt (keep i) else Except.ok []) = Except.ok x := by
          by_cases h1 : c.start.isSome = true
          · rw [if_pos h1]
            show ∃ x, (if c.nSlots = ceilSlots d s.dt then Except.ok [] else if ceilSlots d s.dt < c.nSlots then Except.error Err.indexError else Except.ok _) = Except.ok x
            by_cases h2 : c.nSlots = ceilSlots d s.dt
            · exact ⟨_, if_pos h2⟩
            · rw [if_neg h2, if_neg (fun h3 => hc ⟨h1, h3⟩)]
              exact ⟨_, rfl⟩
          · exact ⟨_, if_neg h1⟩
        obtain ⟨x, e⟩ := e
        simp only [e, ih (i + 1) hl]
  unfold Sched.extend
  rw [key s.blocks 0 hb]

/-- **C07, C01** (removed over others, for every schedule): removing a reservation makes each of its slots available, whatever else uses them: another reservation which was not removed, or a
booked observation. -/
theorem removal_frees_violated (s : Sched) (a b c d : ℚ) (t : Nat) (ht : t < s.size) (h1 : s.Overlaps t a b) (_h2 : s.Overlaps t c d) :
    outstanding [] [.add c d, .add a b, .remove a b] = [(c, d)] ∧ (s.runR [.add c d, .add a b, .remove a b]).free t = true ∧
    ∀ x ∈ s.blocks, Occupies x t → x ∈ (s.removeBooking a b).1.blocks ∧ (s.removeBooking a b).1.free t = true := by
  have hfree : ∀ s' : Sched, s'.size = s.size → s'.dt = s.dt → s'.t0 = s.t0 → (s'.removeBooking a b).1.free t = true := by
    intro s' e1 e2 e3
    refine (applyR_free s' (.remove a b) t (by rw [e1]; exact ht)).1 ?_
    show s'.Overlaps t a b
    unfold Sched.Overlaps at h1 ⊢
    rw [e2, e3]
    exact h1
  refine ⟨?_, ?_, fun x hx _ => ⟨?_, hfree s rfl rfl rfl⟩⟩
  · show List.erase [(a, b), (c, d)] (a, b) = [(c, d)]
    exact List.erase_cons_head ..
  · show (((s.applyR (.add c d)).applyR (.add a b)).removeBooking a b).1.free t = true
    obtain ⟨f1, f2, f3, _⟩ := applyR_fields s (.add c d)
    obtain ⟨g1, g2, g3, _⟩ := applyR_fields (s.applyR (.add c d)) (.add a b)
    exact hfree _ (g1.trans f1) (g2.trans f2) (g3.trans f3)
  · have : (s.removeBooking a b).1.blocks = s.blocks := by
      unfold Sched.removeBooking
      split <;> rfl
    rw [this]
    exact hx

theorem reserveAll_fails : ∀ (pre : List (ℚ × ℚ)) (bad : ℚ × ℚ) (post : List (ℚ × ℚ)) (s : Sched), (∀ g ∈ pre, g.1 ≤ g.2) → bad.2 < bad.1 →
    (s.reserveAll (pre ++ bad :: post)).2 = some .valueError ∧ (s.reserveAll (pre ++ bad :: post)).1 = (s.reserveAll pre).1
  | [], bad, post, s, _, hb => by
    have e : s.insertReserved bad.1 bad.2 = (s, some .valueError) := by
      unfold Sched.insertReserved Sched.addBooking Sched.time2idx2
      rw [if_pos hb]
    have e2 : s.reserveAll (bad :: post) = (s, some .valueError) := by
      show Sched.reserveAll s ((bad.1, bad.2) :: post) = _
      rw [Sched.reserveAll, e]
    rw [List.nil_append, e2]
    exact ⟨rfl, rfl⟩
  | (a, b) :: pre, bad, post, s, h, hb => by
    have hab : a ≤ b := h (a, b) List.mem_cons_self
    have hr2 : (s.insertReserved a b).2 = none := by
      have hnone : (s.addBooking a b).2 = none := by
        unfold Sched.addBooking Sched.time2idx2
        rw [if_neg (not_lt.mpr hab)]
      simp [Sched.insertReserved, hnone]
    have e : ∀ l, s.reserveAll ((a, b) :: l) = (s.insertReserved a b).1.reserveAll l := fun l => by rw [Sched.reserveAll, hr2]
    rw [List.cons_append, e, e]
    exact reserveAll_fails pre bad post _ (fun g hg => h g (List.mem_cons_of_mem _ hg)) hb

/-- **C09** (not atomic, for every schedule): windows whose first backward gap is `bad` are refused, but all the gaps before it stay reserved. -/
theorem free_windows_half_violated (s : Sched) (starts stops : List ℚ) (f l bad : ℚ × ℚ) (pre post : List (ℚ × ℚ)) (hl : starts.length = stops.length)
    (hf : (starts.zip stops).head? = some f) (hll : (starts.zip stops).getLast? = some l)
    (hg : gapList s.t0 (s.t0 + s.size * s.dt) (starts.zip stops) f l = pre ++ bad :: post) (hp : ∀ g ∈ pre, g.1 ≤ g.2) (hb : bad.2 < bad.1) :
    (s.setFreeSlots starts stops).2 = some .valueError ∧
    ∀ t < s.size, ((s.setFreeSlots starts stops).1.free t = true ↔ s.free t = true ∧ ∀ g ∈ pre, ¬ s.Overlaps t g.1 g.2) := by
  have e : s.setFreeSlots starts stops = s.reserveAll (pre ++ bad :: post) := by
    unfold Sched.setFreeSlots
    rw [if_neg (fun h => h hl), hf, hll]
    dsimp only
    rw [hg]
  obtain ⟨h1, h2⟩ := reserveAll_fails pre bad post s hp hb
  rw [e]
  refine ⟨h1, fun t ht => ?_⟩
  rw [h2]
  exact (reserveAll_ok pre s hp).2.2 t ht

/-- The same for two windows which overlap: the time before the first one stays reserved. -/
theorem free_windows_two_violated (s : Sched) (a b c d : ℚ) (h0 : s.t0 ≤ a) (hov : c < b) :
    (s.setFreeSlots [a, c] [b, d]).2 = some .valueError ∧
    ∀ t < s.size, s.t0 < a → s.Overlaps t s.t0 a → (s.setFreeSlots [a, c] [b, d]).1.free t = false := by
  by_cases h : s.t0 < a
  · have := free_windows_half_violated s [a, c] [b, d] (a, b) (c, d) (b, c) [(s.t0, a)] (if d < s.t0 + s.size * s.dt then [(d, s.t0 + s.size * s.dt)] else []) rfl rfl rfl
      (by
        show (if s.t0 < a then [(s.t0, a)] else []) ++ [(b, c)] ++ _ = _
        rw [if_pos h]
        rfl) (by
        intro g hg
        rw [List.mem_singleton.1 hg]
        exact h0) hov
    refine ⟨this.1, fun t ht _ ho => ?_⟩
    rw [← Bool.not_eq_true, this.2 t ht]
    exact fun hn => hn.2 _ List.mem_cons_self ho
  · have := free_windows_half_violated s [a, c] [b, d] (a, b) (c, d) (b, c) [] (if d < s.t0 + s.size * s.dt then [(d, s.t0 + s.size * s.dt)] else []) rfl rfl rfl
      (by
        show (if s.t0 < a then [(s.t0, a)] else []) ++ [(b, c)] ++ _ = _
        rw [if_neg h]
        rfl) (fun g hg => by cases hg) hov
    exact ⟨this.1, fun t ht h' => absurd h' h⟩

theorem freeSlots_keeps (s : Sched) (a b : Int) : (s.freeSlots a b).1.blocks = s.blocks := by unfold Sched.freeSlots; split_ifs <;> rfl
theorem freezeSlots_keeps (s : Sched) (a b : Int) : (s.freezeSlots a b).1.blocks = s.blocks := by unfold Sched.freezeSlots; split_ifs <;> rfl
theorem freeProc_keeps (s : Sched) (a b : Int) : (s.freeProc a b).1.blocks = s.blocks := by unfold Sched.freeProc; split_ifs <;> rfl
theorem freezeProc_keeps (s : Sched) (a b : Int) : (s.freezeProc a b).1.blocks = s.blocks := by unfold Sched.freezeProc; split_ifs <;> rfl

theorem andThen_keeps (r : Sched × Option Err) (k : Sched → Sched × Option Err) (bs : List Block) (h1 : r.1.blocks = bs) (h2 : ∀ s : Sched, s.blocks = bs → (k s).1.blocks = bs) :
    (andThen r k).1.blocks = bs := by
  unfold andThen
  split
  · exact h2 _ h1
  · exact h1

/-- **C10** (not atomic, for every schedule): whenever the shift of a booked block raises, the block has been moved all the same. -/
theorem shift_raises_violated (s : Sched) (i : Nat) (k : Int) (m : ℚ) (b : Block) (st : Nat) (hb : s.blocks[i]? = some b) (hs : b.start = some st) (e : Err)
    (he : (s.shift i k m).2 = some e) : (s.shift i k m).1.blocks = s.blocks.set i (s.placed b (shiftTarget s.size b.nSlots st k)) := by
  unfold Sched.shift at he
  unfold Sched.shift shiftTarget
  simp only [hb, hs] at he ⊢
  generalize (if (st : Int) + k ≤ 0 then 0 else if (st : Int) + k + b.nSlots ≥ s.size then (s.size : Int) - b.nSlots else (st : Int) + k) = ns at he ⊢
  by_cases h1 : (!(s.free ns.toNat || s.free (ns + b.nSlots - 1).toNat)) = true
  · rw [if_pos h1] at he
    cases he
  · rw [if_neg h1] at he ⊢
    by_cases h2 : b.row ns.toNat < m
    · rw [if_pos h2] at he
      cases he
    · rw [if_neg h2]
      refine andThen_keeps _ _ _ (freeSlots_keeps _ _ _) fun s2 e2 => ?_
      refine andThen_keeps _ _ _ ((freezeSlots_keeps _ _ _).trans e2) fun s3 e3 => ?_
      by_cases h3 : b.nDelay ≠ 0
      · rw [if_pos h3]
        exact andThen_keeps _ _ _ ((freeProc_keeps _ _ _).trans e3) fun s4 e4 => (freezeProc_keeps _ _ _).trans e4
      · rw [if_neg h3]
        exact e3

/-- The cases of `PropsBookEx` meet the hypotheses: a block booked alone is left out by a second booking without reset; a booked block of two slots and an extension up to one slot. -/
example : (((demo 10).run [.insertObs [obsOn 1 none none [5]], .insertObs [obsOn 1 none none [5]], .book (plain [0, 1])]).blocks.map fun b => (b.start, b.toSched)) =
    [(some 5, true), (none, true)] ∧
    (((demo 10).run [.insertObs [obsOn 1 none none [5]], .insertObs [obsOn 1 none none [5]], .book (plain [0, 1]), .book (noReset [0, 1])]).blocks.map fun b => (b.start, b.toSched)) =
    [(some 5, false), (none, false)] := by decide +kernel

example : (((demo 10).run [.insertObs [obsOn 2 none none [4, 5, 6]], .book (plain [0])]).blocks.map fun b => (b.start.isSome, decide (ceilSlots 1 1 < b.nSlots))) = [(true, true)] := by
  decide +kernel

end Verif.Scheduler
