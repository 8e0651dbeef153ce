/-
Genetic booking on top of an earlier booking: what always becomes of the slots and of the observations booked before.
-/
import Verif.Sched.PropsGeneral
import Verif.Sched.PropsBookEx

namespace Verif.Scheduler

theorem prepare_keep_free (s : Sched) (v : Bool) : (s.prepare false v).free = s.free ∧ (s.prepare false v).size = s.size := by
  cases v <;> exact ⟨rfl, rfl⟩

theorem cleanFold_taken : ∀ (l : List Nat) (s : Sched) (t : Nat), s.free t = false → (l.foldl Sched.cleanStep s).free t = false
  | [], _, _, h => h
  | i :: l, s, t, h => by
    rw [List.foldl_cons]
    refine cleanFold_taken l _ t ?_
    cases hc : (s.cleanStep i).free t with
    | false => rfl
    | true => rw [((cleanStep_free s i t).1 hc).1] at h; cases h

/-- What the genetic booking does after the genome is given out. -/
theorem bookGA_cases (s : Sched) (r v : Bool) (g : List Nat) (m : List (Nat × Bool)) (sc : Nat → ℚ) :
    (s.bookGA r v g m sc).1 = s.prepare r v ∨
    (s.bookGA r v g m sc).1 = { s.prepare r v with blocks := (assignGenome (s.prepare r v) (s.prepare r v).blocks g).1 } ∨
    ∃ n, (s.bookGA r v g m sc).1 = (sortByScore sc n).foldl Sched.cleanStep
      (m.foldl Sched.tuneMove { s.prepare r v with blocks := (assignGenome (s.prepare r v) (s.prepare r v).blocks g).1 }) := by
  unfold Sched.bookGA
  simp only
  split
  · exact Or.inl rfl
  · split
    · exact Or.inl rfl
    · split
      · exact Or.inr (Or.inl rfl)
      · split
        · exact Or.inr (Or.inl rfl)
        · exact Or.inr (Or.inr ⟨_, rfl⟩)

/-- **C05 violated for genetic booking without reset, in every schedule.** Whatever the genome, the fine tuning and the scores, and whether the call returns or raises,
a slot used by an observation booked before is never offered again, be this observation moved or unbooked by the call. -/
theorem genetic_leak_all_violated {s : Sched} (h : Reachable s) (v : Bool) (g : List Nat) (m : List (Nat × Bool)) (sc : Nat → ℚ) (b : Block) (hb : b ∈ s.blocks)
    (t : Nat) (ho : Occupies b t) : (s.bookGA false v g m sc).1.free t = false := by
  have hf : s.free t = false := h.good.notFree b hb t ho
  have hp : (s.prepare false v).free t = false := by rw [(prepare_keep_free s v).1]; exact hf
  rcases bookGA_cases s false v g m sc with e | e | ⟨n, e⟩
  · rw [e]; exact hp
  · rw [e]; exact hp
  · rw [e]
    refine cleanFold_taken _ _ t ?_
    rw [(tune_fields m _).1]
    exact hp

theorem assignGenome_out (s : Sched) (b : Block) (hts : b.toSched = false) : ∀ (bs : List Block) (g : List Nat) (i : Nat), bs[i]? = some b →
    (assignGenome s bs g).1[i]? = some b
  | [], _, _, h => by cases h
  | c :: bs, g, 0, h => by
    have e : c = b := by simpa using h
    subst e
    unfold assignGenome
    rw [if_pos (by rw [hts]; rfl)]
    rfl
  | c :: bs, g, i + 1, h => by
    have h' : bs[i]? = some b := by simpa using h
    unfold assignGenome
    split
    · simpa using assignGenome_out s b hts bs g i h'
    · cases g with
      | nil => simpa using h'
      | cons x xs =>
        simp only
        split
        · simpa using assignGenome_out s b hts bs xs i h'
        · split
          · simpa using assignGenome_out s b hts bs xs i h'
          · simpa using h'

theorem tuneMove_other (s : Sched) (mv : Nat × Bool) (i : Nat) (h : mv.1 ≠ i) : (s.tuneMove mv).blocks[i]? = s.blocks[i]? := by
  unfold Sched.tuneMove
  split
  · rfl
  · split
    · rfl
    · split <;> split
      · exact List.getElem?_set_ne h
      · rfl
      · exact List.getElem?_set_ne h
      · rfl

theorem tuneFold_other (i : Nat) : ∀ (m : List (Nat × Bool)) (s : Sched), (∀ mv ∈ m, mv.1 ≠ i) → (m.foldl Sched.tuneMove s).blocks[i]? = s.blocks[i]?
  | [], _, _ => rfl
  | mv :: m, s, h => by
    rw [List.foldl_cons, tuneFold_other i m _ fun x hx => h x (List.mem_cons_of_mem _ hx), tuneMove_other s mv i (h mv List.mem_cons_self)]

theorem cleanFold_unbooks (i : Nat) (b : Block) (st t : Nat) (hst : b.start = some st) (h1 : st ≤ t) (h2 : t < st + b.nSlots) :
    ∀ (l : List Nat) (s : Sched), i ∈ l → l.Nodup → s.blocks[i]? = some b → t < s.size → s.free t = false →
      (l.foldl Sched.cleanStep s).blocks[i]? = some { b with start := none }
  | [], _, h, _, _, _, _ => by cases h
  | j :: l, s, h, hn, hb, ht, hf => by
    rw [List.foldl_cons]
    by_cases e : j = i
    · subst e
      rw [cleanFold_other l _ j (List.nodup_cons.1 hn).1]
      refine ((cleanStep_self s j b st hb hst).2 fun hall => ?_).1
      rw [hall t h1 h2 ht] at hf
      cases hf
    · refine cleanFold_unbooks i b st t hst h1 h2 l _ ((List.mem_cons.1 h).resolve_left fun x => e x.symm) (List.nodup_cons.1 hn).2 ?_ ?_ ?_
      · rw [cleanStep_other s j i fun x => e x.symm]; exact hb
      · rw [cleanStep_size]; exact ht
      · exact cleanFold_taken [j] s t hf

/-- The observation at index `i` after the preparation of a booking without reset. -/
theorem prepare_keep_block {s : Sched} (h : Good s) (v : Bool) (i : Nat) (b : Block) (hb : s.blocks[i]? = some b) :
    ∃ c, (s.prepare false v).blocks[i]? = some c ∧ c.start = b.start ∧ c.nSlots = b.nSlots := by
  have hn : ceilSlots b.duration s.dt = b.nSlots := (h.dur b (getElem?_mem hb)).2.symm
  have h1 : s.computeScores.blocks[i]? = some (s.scoreBlock b) := by
    show (s.blocks.map s.scoreBlock)[i]? = _
    rw [List.getElem?_map, hb]; rfl
  cases v with
  | false => exact ⟨s.scoreBlock b, h1, rfl, hn⟩
  | true =>
    refine ⟨{ s.scoreBlock b with toSched := (s.scoreBlock b).toSched && hasRun s.size (s.scoreBlock b).nSlots (s.scoreBlock b).row }, ?_, rfl, hn⟩
    show (s.computeScores.blocks.map _)[i]? = _
    rw [List.getElem?_map, h1]; rfl

/-- **C05 violated for genetic booking without reset, in every schedule.** An observation booked before and which the call has not to place is unbooked by the call, whatever the
genome and the scores, as soon as there is something else to place and the fine tuning leaves it where it is: the clean-up finds that its slots are taken, by itself. -/
theorem genetic_unbooks_violated {s : Sched} (h : Reachable s) (v : Bool) (g : List Nat) (m : List (Nat × Bool)) (sc : Nat → ℚ) (i : Nat) (b : Block)
    (hb : s.blocks[i]? = some b) (hst : b.start.isSome = true)
    (hts : ∀ c, (s.prepare false v).blocks[i]? = some c → c.toSched = false) (hm : ∀ mv ∈ m, mv.1 ≠ i)
    (hsome : ∃ c ∈ (s.prepare false false).blocks, c.toSched = true) (hret : (s.bookGA false v g m sc).2 = none) :
    ∃ c, (s.bookGA false v g m sc).1.blocks[i]? = some c ∧ c.start = none := by
  have hg := h.good
  obtain ⟨st, hst⟩ := Option.isSome_iff_exists.1 hst
  have hpos : 0 < b.nSlots := by
    rw [(hg.dur b (getElem?_mem hb)).2]
    exact ceilSlots_pos (hg.dur b (getElem?_mem hb)).1 hg.dt_pos
  have ho : Occupies b st := ⟨st, hst, le_refl _, by omega⟩
  have hf := hg.notFree b (getElem?_mem hb) st ho
  have hin := hg.inside b (getElem?_mem hb) st ho
  obtain ⟨c, hc, c1, c2⟩ := prepare_keep_block hg v i b hb
  have c3 := hts c hc
  obtain ⟨p1, p2⟩ := prepare_keep_free s v
  have hlen : i < (s.prepare false v).blocks.length := (List.getElem?_eq_some_iff.1 hc).1
  refine ⟨{ c with start := none }, ?_, rfl⟩
  have e0 : ((s.prepare false false).blocks.all fun b => !b.toSched) = false := by
    obtain ⟨d, hd, hd'⟩ := hsome
    rw [List.all_eq_false]
    exact ⟨d, hd, by rw [hd']; simp⟩
  unfold Sched.bookGA at hret ⊢
  simp only [e0, Bool.false_eq_true, if_false] at hret ⊢
  split at hret
  · cases hret
  · rename_i e1
    rw [if_neg e1]
    split at hret
    · cases hret
    · rename_i e2
      split at hret
      · cases hret
      · rename_i e3
        rw [if_neg e3]
        simp only
        refine cleanFold_unbooks i c st st (by rw [c1, hst]) (le_refl _) (by omega) _ _ ?_ (nodup_sortByScore _ _) ?_ ?_ ?_
        · rw [mem_sortByScore]
          have hl : ∀ (l : List (Nat × Bool)) (u : Sched), (l.foldl Sched.tuneMove u).blocks.length = u.blocks.length := by
            intro l
            induction l with
            | nil => intro u; rfl
            | cons a l ih => intro u; rw [List.foldl_cons, ih, (tuneMove_fields u a).2.2.2]
          rw [hl]
          show i < (assignGenome _ _ _).1.length
          rw [assignGenome_length]
          exact hlen
        · rw [tuneFold_other i m _ hm]
          exact assignGenome_out _ c c3 _ g i hc
        · rw [(tune_fields m _).2]
          show st < (s.prepare false v).size
          rw [p2]; exact hin
        · rw [(tune_fields m _).1]
          show (s.prepare false v).free st = false
          rw [p1]; exact hf

/-- Non-vacuity: an observation booked on slot 5, kept out of the next booking, and a second one to be placed on slot 7. -/
example : ∃ s, Reachable s ∧ (s.blocks[0]?.map fun b => b.start) = some (some 5) ∧
    ((s.prepare false false).blocks.map fun b => (b.start, b.toSched)) = [(some 5, false), (none, true)] ∧ (s.bookGA false false [7] [] fun _ => 0).2 = none := by
  refine ⟨(demo 10).run [.insertObs [obsOn 1 none none [5]], .book (plain [0]), .book (noReset [0]),
      .insertObs [obsOn 1 none none [7]]],
    reachable_demo 10 (by norm_num) _ ⟨legal_obsOn ?_, trivial, trivial, legal_obsOn ?_, trivial⟩,
    ?_, ?_, ?_⟩
  · intro o ho
    exact ⟨1, none, none, [5], by simpa using ho, by norm_num⟩
  · intro o ho
    exact ⟨1, none, none, [7], by simpa using ho, by norm_num⟩
  all_goals decide +kernel

end Verif.Scheduler
