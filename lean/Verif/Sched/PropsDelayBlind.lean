/-
Extension of booked observations against processing delays: what always happens, in every schedule.
-/
import Verif.Sched.PropsGeneral

namespace Verif.Scheduler

/-- The same schedule with other processing delays: counters `p`, and delays given by `q` and `n` for each block. Nothing else is changed. -/
def Sched.redelay (p : Nat → Int) (q : Block → Option ℚ) (n : Block → Nat) (s : Sched) : Sched :=
  { s with proc := p, blocks := s.blocks.map fun b => { b with procDelay := q b, nDelay := n b } }

/-- What a user reads of a schedule: the slots still free and, for each observation, its first slot, its number of slots and its times. -/
def Sched.timetable (s : Sched) : List (Option Nat × Nat × Option ℚ × Option ℚ) :=
  s.blocks.map fun b => (b.start, b.nSlots, b.tMin, b.tMax)

/-- Two blocks equal but for their processing delays. -/
def SameBlock (b c : Block) : Prop := ∃ q n, c = { b with procDelay := q, nDelay := n }

/-- Two schedules equal but for the processing delays. -/
structure SameButDelays (s u : Sched) : Prop where
  t0 : u.t0 = s.t0
  dt : u.dt = s.dt
  size : u.size = s.size
  free : u.free = s.free
  blocks : List.Forall₂ SameBlock s.blocks u.blocks

theorem forall₂_getElem? {α β : Type} {R : α → β → Prop} : ∀ {l : List α} {m : List β}, List.Forall₂ R l m → ∀ i : Nat,
    (l[i]? = none ∧ m[i]? = none) ∨ ∃ a b, l[i]? = some a ∧ m[i]? = some b ∧ R a b
  | _, _, .nil, _ => Or.inl ⟨rfl, rfl⟩
  | _, _, .cons h _, 0 => Or.inr ⟨_, _, rfl, rfl, h⟩
  | _, _, .cons _ t, i + 1 => forall₂_getElem? t i

theorem forall₂_set {α β : Type} {R : α → β → Prop} : ∀ {l : List α} {m : List β}, List.Forall₂ R l m → ∀ (i : Nat) {a : α} {b : β}, R a b →
    List.Forall₂ R (l.set i a) (m.set i b)
  | _, _, .nil, _, _, _, _ => .nil
  | _, _, .cons _ t, 0, _, _, h => .cons h t
  | _, _, .cons h t, i + 1, _, _, h' => .cons h (forall₂_set t i h')

theorem sameButDelays_attempt {s u : Sched} (h : SameButDelays s u) (i : Nat) (w : List Nat) :
    SameButDelays (s.extendAttempt i w) (u.extendAttempt i w) := by
  unfold Sched.extendAttempt
  rcases forall₂_getElem? h.blocks i with ⟨h1, h2⟩ | ⟨b, c, h1, h2, q, n, rfl⟩
  · rw [h1, h2]; exact h
  · rw [h1, h2]
    obtain ⟨d, pd, me, ns, nd, cn, st, tm, tM, row, ts⟩ := b
    cases st with
    | none => exact h
    | some st =>
      simp only [h.free]
      by_cases hf : w.any s.free = true
      · rw [if_pos hf, if_pos hf]
        generalize hw : w.filter (fun x => s.free x || (decide (st ≤ x) && decide (x < st + ns))) = w'
        by_cases hc : consecutive w' = true
        · rw [if_pos hc, if_pos hc]
          cases w' with
          | nil => exact h
          | cons a l =>
            refine ⟨h.t0, h.dt, h.size, ?_, ?_⟩
            · show (fun j => if inSlice u.size _ _ j then false else u.free j) = fun j => if inSlice s.size _ _ j then false else s.free j
              rw [h.size, h.free]
            · refine forall₂_set h.blocks i ⟨q, n, ?_⟩
              show Sched.placed _ _ _ = _
              unfold Sched.placed Sched.slotStop Sched.slotStart
              rw [h.t0, h.dt]
        · rw [if_neg hc, if_neg hc]; exact h
      · rw [if_neg hf, if_neg hf]; exact h

theorem sameButDelays_block {s u : Sched} (h : SameButDelays s u) {o v : List Block} (ho : List.Forall₂ SameBlock o v) (c : List (List Nat)) (it i : Nat) :
    SameButDelays (extendBlock o c it s i) (extendBlock v c it u i) := by
  unfold extendBlock
  rcases forall₂_getElem? ho i with ⟨h1, h2⟩ | ⟨b, b', h1, h2, q, n, rfl⟩
  · rw [h1, h2]; exact h
  · rw [h1, h2]
    cases hc : c[i]? with
    | none => exact h
    | some cs =>
      obtain ⟨d, pd, me, ns, nd, cn, st, tm, tM, row, ts⟩ := b
      cases st with
      | none => exact h
      | some st =>
        simp only
        cases hi : cs[it]? with
        | none => exact h
        | some w =>
          simp only [h.size]
          exact sameButDelays_attempt h i _

theorem sameButDelays_fold {β : Type} {f g : Sched → β → Sched} (hf : ∀ s u b, SameButDelays s u → SameButDelays (f s b) (g u b)) :
    ∀ (l : List β) (s u : Sched), SameButDelays s u → SameButDelays (l.foldl f s) (l.foldl g u)
  | [], _, _, h => h
  | b :: l, s, u, h => sameButDelays_fold hf l (f s b) (g u b) (hf s u b h)

theorem allCandidates_same (dt : ℚ) (d : Option ℚ) (keep : Nat → Nat → Bool) : ∀ {l m : List Block}, List.Forall₂ SameBlock l m → ∀ i,
    allCandidates dt d keep i m = allCandidates dt d keep i l
  | _, _, .nil, _ => rfl
  | _, _, .cons ⟨q, n, e⟩ t, i => by
    subst e
    simp only [allCandidates, allCandidates_same dt d keep t (i + 1)]

theorem sameButDelays_extend {s u : Sched} (h : SameButDelays s u) (d : Option ℚ) (keep : Nat → Nat → Bool) :
    SameButDelays (s.extend d keep).1 (u.extend d keep).1 ∧ (u.extend d keep).2 = (s.extend d keep).2 := by
  unfold Sched.extend
  rw [h.dt, allCandidates_same s.dt d keep h.blocks 0]
  cases allCandidates s.dt d keep 0 s.blocks with
  | error e => exact ⟨h, rfl⟩
  | ok c =>
    refine ⟨sameButDelays_fold (fun a b it hab => ?_) _ _ _ h, rfl⟩
    unfold extendIter
    rw [h.blocks.length_eq]
    exact sameButDelays_fold (fun x y i hxy => sameButDelays_block hxy h.blocks c it i) _ _ _ hab

/-- **C04 violated for extension, in every schedule.** Whatever the processing delays of the observations and the slots frozen for them, the extension ends in
the same way: same outcome, same free slots, same timetable. So no delay, however long, ever prevents an extension. -/
theorem extension_delay_all_violated (s : Sched) (p : Nat → Int) (q : Block → Option ℚ) (n : Block → Nat) (d : Option ℚ) (keep : Nat → Nat → Bool) :
    ((s.redelay p q n).extend d keep).2 = (s.extend d keep).2 ∧
    ((s.redelay p q n).extend d keep).1.free = (s.extend d keep).1.free ∧
    ((s.redelay p q n).extend d keep).1.timetable = (s.extend d keep).1.timetable := by
  have h : SameButDelays s (s.redelay p q n) := by
    refine ⟨rfl, rfl, rfl, rfl, ?_⟩
    show List.Forall₂ SameBlock s.blocks (s.blocks.map _)
    rw [List.forall₂_map_right_iff]
    exact List.forall₂_same.2 fun b _ => ⟨_, _, rfl⟩
  obtain ⟨h1, h2⟩ := sameButDelays_extend h d keep
  refine ⟨h2, h1.free, ?_⟩
  unfold Sched.timetable
  have key : ∀ {l m : List Block}, List.Forall₂ SameBlock l m →
      m.map (fun b => (b.start, b.nSlots, b.tMin, b.tMax)) = l.map (fun b => (b.start, b.nSlots, b.tMin, b.tMax)) := by
    intro l m hlm
    induction hlm with
    | nil => rfl
    | cons e _ ih =>
      obtain ⟨q, n, rfl⟩ := e
      rw [List.map_cons, List.map_cons, ih]
  exact key h1.blocks

/-- Non-vacuity: delays may be erased or made longer, and this is another schedule. -/
example (s : Sched) (b : Block) (l : List Block) (h : s.blocks = b :: l) :
    (s.redelay s.proc (fun _ => some 7) fun b => b.nDelay + 7) ≠ s := by
  intro e
  have e1 := congrArg Sched.blocks e
  rw [h] at e1
  have e2 : (s.blocks.map fun b => ({ b with procDelay := some 7, nDelay := b.nDelay + 7 } : Block)) = b :: l := e1
  rw [h, List.map_cons, List.cons.injEq] at e2
  have e3 := congrArg Block.nDelay e2.1
  simp at e3

end Verif.Scheduler
