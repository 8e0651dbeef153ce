/-
The orders in which blocks are taken: the order of the heuristic booking, and the order of the final clean-up after a genetic search.
-/
import Verif.Sched.LemmasDelay
import Verif.Sched.LemmasAcc
import Verif.Sched.PropsBookEx

namespace Verif.Scheduler

/-- A list of the first `n` numbers sorted by increasing score, equal scores by increasing number: what Python's `sorted` gives for the key `score`. -/
structure StableOrder (score : Nat → ℚ) (n : Nat) (l : List Nat) : Prop where
  perm : l.Perm (List.range n)
  sorted : l.Pairwise fun i j => score i < score j ∨ score i = score j ∧ i < j

theorem insert_perm (score : Nat → ℚ) (i : Nat) : ∀ l : List Nat, (insertByScore score i l).Perm (i :: l)
  | [] => List.Perm.refl _
  | j :: js => by
    unfold insertByScore
    split
    · exact List.Perm.refl _
    · exact ((insert_perm score i js).cons j).trans (List.Perm.swap i j js)

theorem insert_sorted (score : Nat → ℚ) (i : Nat) : ∀ l : List Nat, (∀ j ∈ l, j < i) →
    l.Pairwise (fun a b => score a < score b ∨ score a = score b ∧ a < b) →
    (insertByScore score i l).Pairwise fun a b => score a < score b ∨ score a = score b ∧ a < b
  | [], _, _ => List.pairwise_singleton _ _
  | j :: js, hl, hp => by
    have hj := hl j List.mem_cons_self
    rw [List.pairwise_cons] at hp
    unfold insertByScore
    split
    · rename_i h
      refine List.pairwise_cons.2 ⟨fun b hb => Or.inl ?_, List.pairwise_cons.2 hp⟩
      rcases List.mem_cons.1 hb with rfl | hb
      · exact h
      · rcases hp.1 b hb with h' | h'
        · exact lt_trans h h'
        · rw [← h'.1]; exact h
    · rename_i h
      refine List.pairwise_cons.2 ⟨fun b hb => ?_, insert_sorted score i js (fun k hk => hl k (List.mem_cons_of_mem _ hk)) hp.2⟩
      rcases (mem_insertByScore score i b js).1 hb with rfl | hb
      · rcases lt_or_eq_of_le (not_lt.1 h) with h' | h'
        · exact Or.inl h'
        · exact Or.inr ⟨h', hj⟩
      · exact hp.1 b hb

/-- **C02.** The clean-up after a genetic search takes every block once, by increasing score, and blocks of equal scores in the order in which they were inserted. -/
theorem cleanup_order (score : Nat → ℚ) (n : Nat) : StableOrder score n (sortByScore score n) := by
  induction n with
  | zero => exact ⟨List.Perm.refl _, List.Pairwise.nil⟩
  | succ n ih =>
    have e : sortByScore score (n + 1) = insertByScore score n (sortByScore score n) := by
      unfold sortByScore
      rw [List.range_succ, List.foldl_append]
      rfl
    rw [e]
    refine ⟨(insert_perm score n _).trans ?_, insert_sorted score n _ (fun j hj => (mem_sortByScore score n j).1 hj) ih.sorted⟩
    rw [List.range_succ]
    exact (ih.perm.cons n).trans (List.perm_append_comm (l₁ := [n]))

/-- There is one such order. -/
theorem stable_order_unique (score : Nat → ℚ) (n : Nat) (l m : List Nat) (hl : StableOrder score n l) (hm : StableOrder score n m) : l = m := by
  refine List.Perm.eq_of_pairwise (le := fun i j => score i < score j ∨ score i = score j ∧ i < j) ?_ hl.sorted hm.sorted (hl.perm.trans hm.perm.symm)
  intro a b _ _ h1 h2
  rcases h1 with h1 | h1 <;> rcases h2 with h2 | h2
  · exact absurd h2 (not_lt.2 h1.le)
  · exact absurd h2.1.symm h1.ne
  · exact absurd h1.1.symm h2.ne
  · exact absurd h2.2 (not_lt.2 h1.2.le)

example : sortByScore (fun i => if i = 1 then 0 else 1) 4 = [1, 0, 2, 3] := by decide +kernel

theorem prepare_length (s : Sched) (r v : Bool) : (s.prepare r v).blocks.length = s.blocks.length := by
  have hr : s.reset.blocks.length = s.blocks.length := by
    show (resetLoop s.size s.blocks s.free s.proc).1.length = _
    rw [resetLoop_blocks, List.length_map]
  unfold Sched.prepare Sched.computeScores Sched.veryStrict
  cases r <;> cases v <;> simp [hr]

theorem bookLoop_stops (p : BookParams) : ∀ (pre : List Nat) (i : Nat) (post : List Nat) (st : BState), (∀ k ∈ pre, k < st.s.blocks.length) → st.s.blocks.length ≤ i →
    bookLoop p st (pre ++ i :: post) = ((bookLoop p st pre).1, some .indexError)
  | [], i, post, st, _, hi => by
    have h : bookStep p st i = (st, some .indexError) := by
      unfold bookStep
      rw [List.getElem?_eq_none hi]
    show bookLoop p st (i :: post) = (st, some .indexError)
    unfold bookLoop
    rw [h]
  | j :: pre, i, post, st, hp, hi => by
    have h1 := bookStep_none (p := p) (hp j List.mem_cons_self)
    obtain ⟨st', e⟩ : ∃ st', bookStep p st j = (st', none) := ⟨(bookStep p st j).1, by rw [← h1]⟩
    have hl : st'.s.blocks.length = st.s.blocks.length := by
      rw [← bookStep_length p st j, e]
    have ih := bookLoop_stops p pre i post st' (fun k hk => by rw [hl]; exact hp k (List.mem_cons_of_mem _ hk)) (by rw [hl]; exact hi)
    have e1 : ∀ l, bookLoop p st (j :: l) = bookLoop p st' l := by
      intro l
      rw [bookLoop, e]
    rw [List.cons_append, e1, e1, ih]

theorem bookLoop_order (p : BookParams) (o : List Nat) : ∀ (l : List Nat) (st : BState), bookLoop { p with order := o } st l = bookLoop p st l
  | [], _ => rfl
  | i :: l, st => by
    have h : bookStep { p with order := o } st i = bookStep p st i := rfl
    rw [bookLoop, bookLoop, h]
    split
    · exact bookLoop_order p o l _
    · rfl

/-- **C03.** When the heuristic raises: never, if all the blocks it is told to take are there; otherwise at the first which is not, with an `IndexError`, and what was booked before it stays. -/
theorem book_raises (s : Sched) (p : BookParams) :
    ((∀ i ∈ p.order, i < s.blocks.length) → (s.book p).2 = none) ∧
    ∀ (pre post : List Nat) (i : Nat), p.order = pre ++ i :: post → (∀ k ∈ pre, k < s.blocks.length) → s.blocks.length ≤ i →
      s.book p = ((s.book { p with order := pre }).1, some .indexError) := by
  have hl := prepare_length s p.reset p.veryStrict
  constructor
  · intro h
    unfold Sched.book
    rw [bookLoop_fold p.order (fun i hi => by rw [hl]; exact h i hi)]
  · intro pre post i ho hp hi
    have e := bookLoop_stops p pre i post ⟨s.prepare p.reset p.veryStrict, 0, 0⟩ (fun k hk => by rw [hl]; exact hp k hk) (by rw [hl]; exact hi)
    show ((bookLoop p ⟨s.prepare p.reset p.veryStrict, 0, 0⟩ p.order).1.s, (bookLoop p ⟨s.prepare p.reset p.veryStrict, 0, 0⟩ p.order).2) =
      ((bookLoop { p with order := pre } ⟨s.prepare p.reset p.veryStrict, 0, 0⟩ pre).1.s, some .indexError)
    rw [ho, e, show bookLoop { p with order := pre } ⟨s.prepare p.reset p.veryStrict, 0, 0⟩ pre = bookLoop p ⟨s.prepare p.reset p.veryStrict, 0, 0⟩ pre from bookLoop_order p pre pre _]

/-- Slot `t` of a schedule of `size` slots is used by a block, where it is booked. -/
def Uses (size : Nat) (b : Block) (t : Nat) : Prop := ∃ st, b.start = some st ∧ st ≤ t ∧ t < st + b.nSlots ∧ t < size

theorem inSlice_uses (size st n t : Nat) : inSlice size st (st + n : Nat) t = true ↔ st ≤ t ∧ t < st + n ∧ t < size := inSlice_nat size st (st + n) t

theorem cleanStep_other (s : Sched) (i k : Nat) (h : k ≠ i) : (s.cleanStep i).blocks[k]? = s.blocks[k]? := by
  unfold Sched.cleanStep
  split
  · rfl
  · split
    · rfl
    · split
      · rfl
      · exact List.getElem?_set_ne (Ne.symm h)

/-- What one step does to its block. -/
theorem cleanStep_self (s : Sched) (i : Nat) (b : Block) (st : Nat) (hb : s.blocks[i]? = some b) (hst : b.start = some st) :
    ((∀ t, st ≤ t → t < st + b.nSlots → t < s.size → s.free t = true) →
      (s.cleanStep i).blocks[i]? = some b ∧ ∀ t, (s.cleanStep i).free t = true ↔ s.free t = true ∧ ¬ (st ≤ t ∧ t < st + b.nSlots ∧ t < s.size)) ∧
    (¬ (∀ t, st ≤ t → t < st + b.nSlots → t < s.size → s.free t = true) →
      (s.cleanStep i).blocks[i]? = some { b with start := none } ∧ (s.cleanStep i).free = s.free) := by
  have hi : i < s.blocks.length := (List.getElem?_eq_some_iff.1 hb).1
  have hall : ((List.range s.size).all fun t => !inSlice s.size st (st + b.nSlots : Nat) t || s.free t) = true ↔
      ∀ t, st ≤ t → t < st + b.nSlots → t < s.size → s.free t = true := by
    rw [List.all_eq_true]
    constructor
    · intro h t h1 h2 h3
      have := h t (List.mem_range.2 h3)
      rw [(inSlice_uses s.size st b.nSlots t).2 ⟨h1, h2, h3⟩] at this
      simpa using this
    · intro h t ht
      by_cases hs : inSlice s.size st (st + b.nSlots : Nat) t = true
      · obtain ⟨h1, h2, h3⟩ := (inSlice_uses s.size st b.nSlots t).1 hs
        rw [h t h1 h2 h3, Bool.or_true]
      · rw [Bool.not_eq_true] at hs
        rw [hs]
        rfl
  have e : s.cleanStep i = if ((List.range s.size).all fun t => !inSlice s.size st (st + b.nSlots : Nat) t || s.free t) = true then s.setFree st b.nSlots false
      else s.setBlock i { b with start := none } := by
    unfold Sched.cleanStep
    simp only [hb, hst]
  constructor
  · intro h
    rw [e, if_pos (hall.2 h)]
    refine ⟨hb, fun t => ?_⟩
    show (if inSlice s.size st (st + b.nSlots : Nat) t then false else s.free t) = true ↔ _
    rw [← inSlice_uses]
    by_cases hs : inSlice s.size st (st + b.nSlots : Nat) t = true
    · rw [if_pos hs]
      exact ⟨fun h => absurd h Bool.false_ne_true, fun h => absurd hs h.2⟩
    · rw [if_neg hs]
      exact ⟨fun h => ⟨h, hs⟩, fun h => h.1⟩
  · intro h
    rw [e, if_neg (fun hc => h (hall.1 hc))]
    refine ⟨?_, rfl⟩
    show (s.blocks.set i _)[i]? = _
    rw [List.getElem?_set_self hi]

theorem cleanFold_other : ∀ (l : List Nat) (s : Sched) (k : Nat), k ∉ l → (l.foldl Sched.cleanStep s).blocks[k]? = s.blocks[k]?
  | [], _, _, _ => rfl
  | i :: l, s, k, h => by
    rw [List.foldl_cons, cleanFold_other l _ k (fun hk => h (List.mem_cons_of_mem _ hk)), cleanStep_other s i k (fun e => h (e ▸ List.mem_cons_self))]

theorem cleanFold_size : ∀ (l : List Nat) (s : Sched), (l.foldl Sched.cleanStep s).size = s.size
  | [], _ => rfl
  | i :: l, s => by rw [List.foldl_cons, cleanFold_size l, cleanStep_size]

theorem cleanStep_free (s : Sched) (i t : Nat) :
    (s.cleanStep i).free t = true ↔ s.free t = true ∧ ∀ c, (s.cleanStep i).blocks[i]? = some c → ¬ Uses s.size c t := by
  cases hb : s.blocks[i]? with
  | none =>
    have e : s.cleanStep i = s := by
      unfold Sched.cleanStep
      simp only [hb]
    rw [e]
    refine ⟨fun h => ⟨h, fun c hc => ?_⟩, fun h => h.1⟩
    rw [hb] at hc
    cases hc
  | some b =>
    cases hst : b.start with
    | none =>
      have e : s.cleanStep i = s := by
        unfold Sched.cleanStep
        simp only [hb, hst]
      rw [e]
      refine ⟨fun h => ⟨h, fun c hc => ?_⟩, fun h => h.1⟩
      rw [hb] at hc
      cases hc
      rintro ⟨st, h1, _⟩
      rw [hst] at h1
      cases h1
    | some st =>
      obtain ⟨h1, h2⟩ := cleanStep_self s i b st hb hst
      by_cases hf : ∀ t, st ≤ t → t < st + b.nSlots → t < s.size → s.free t = true
      · obtain ⟨h3, h4⟩ := h1 hf
        rw [h4 t]
        refine and_congr_right fun _ => ⟨fun hn c hc => ?_, fun hn hu => hn b h3 ⟨st, hst, hu⟩⟩
        rw [h3] at hc
        cases hc
        rintro ⟨su, h5, h6⟩
        rw [hst] at h5
        cases h5
        exact hn h6
      · obtain ⟨h3, h4⟩ := h2 hf
        rw [h4]
        refine ⟨fun h => ⟨h, fun c hc => ?_⟩, fun h => h.1⟩
        rw [h3] at hc
        cases hc
        rintro ⟨su, h5, _⟩
        cases h5

theorem cleanFold_free : ∀ (l : List Nat), l.Nodup → ∀ (s : Sched) (t : Nat),
    (l.foldl Sched.cleanStep s).free t = true ↔ s.free t = true ∧ ∀ j ∈ l, ∀ c, (l.foldl Sched.cleanStep s).blocks[j]? = some c → ¬ Uses s.size c t
  | [], _, s, t => by simp
  | i :: l, hl, s, t => by
    rw [List.nodup_cons] at hl
    rw [List.foldl_cons, cleanFold_free l hl.2, cleanStep_free, cleanStep_size, and_assoc]
    refine and_congr_right fun _ => ?_
    have hi := cleanFold_other l (s.cleanStep i) i hl.1
    constructor
    · rintro ⟨h1, h2⟩ j hj c hc
      rcases List.mem_cons.1 hj with rfl | hj
      · rw [hi] at hc
        exact h1 c hc
      · exact h2 j hj c hc
    · intro h
      exact ⟨fun c hc => h i List.mem_cons_self c (by rw [hi]; exact hc), fun j hj c hc => h j (List.mem_cons_of_mem _ hj) c hc⟩

/-- **C06.** The clean-up, exactly, for any schedule and any order: a block keeps its place if and only if all its slots were free before the clean-up and none of them is used by a block which
comes before it in the order and keeps its own place; otherwise it is taken out. Nothing else of the block changes. -/
theorem cleanup_exact (s : Sched) (order pre post : List Nat) (hn : order.Nodup) (i st : Nat) (b : Block) (ho : order = pre ++ i :: post) (hb : s.blocks[i]? = some b)
    (hst : b.start = some st) :
    ((order.foldl Sched.cleanStep s).blocks[i]? = some b ↔ ∀ t, Uses s.size b t → s.free t = true ∧ ∀ j ∈ pre, ∀ c, (order.foldl Sched.cleanStep s).blocks[j]? = some c →
      ¬ Uses s.size c t) ∧
    ((order.foldl Sched.cleanStep s).blocks[i]? = some b ∨ (order.foldl Sched.cleanStep s).blocks[i]? = some { b with start := none }) := by
  subst ho
  rw [List.nodup_append] at hn
  obtain ⟨hn1, hn2, hd⟩ := hn
  rw [List.nodup_cons] at hn2
  have hipre : i ∉ pre := fun h => hd i h i List.mem_cons_self rfl
  have hpost : ∀ j ∈ pre, (((pre ++ i :: post).foldl Sched.cleanStep s).blocks[j]?) = (pre.foldl Sched.cleanStep s).blocks[j]? := by
    intro j hj
    rw [List.foldl_append]
    exact cleanFold_other _ _ j (fun h => hd j hj j h rfl)
  have hself : ((pre ++ i :: post).foldl Sched.cleanStep s).blocks[i]? = ((pre.foldl Sched.cleanStep s).cleanStep i).blocks[i]? := by
    rw [List.foldl_append, List.foldl_cons]
    exact cleanFold_other _ _ i hn2.1
  have hb' : (pre.foldl Sched.cleanStep s).blocks[i]? = some b := by rw [cleanFold_other pre s i hipre]; exact hb
  have hsz := cleanFold_size pre s
  obtain ⟨h1, h2⟩ := cleanStep_self (pre.foldl Sched.cleanStep s) i b st hb' hst
  rw [hself]
  have hcond : (∀ t, st ≤ t → t < st + b.nSlots → t < (pre.foldl Sched.cleanStep s).size → (pre.foldl Sched.cleanStep s).free t = true) ↔
      ∀ t, Uses s.size b t → s.free t = true ∧ ∀ j ∈ pre, ∀ c, ((pre ++ i :: post).foldl Sched.cleanStep s).blocks[j]? = some c → ¬ Uses s.size c t := by
    rw [hsz]
    constructor
    · rintro h t ⟨su, h3, h4, h5, h6⟩
      rw [hst] at h3
      cases h3
      have h7 := (cleanFold_free pre hn1 s t).1 (h t h4 h5 h6)
      exact ⟨h7.1, fun j hj c hc => h7.2 j hj c (by rw [← hpost j hj]; exact hc)⟩
    · intro h t h4 h5 h6
      obtain ⟨h7, h8⟩ := h t ⟨st, hst, h4, h5, h6⟩
      exact (cleanFold_free pre hn1 s t).2 ⟨h7, fun j hj c hc => h8 j hj c (by rw [hpost j hj]; exact hc)⟩
  have hne : b ≠ { b with start := none } := by
    intro h
    have := congrArg Block.start h
    rw [hst] at this
    cases this
  rw [← hcond]
  by_cases hf : ∀ t, st ≤ t → t < st + b.nSlots → t < (pre.foldl Sched.cleanStep s).size → (pre.foldl Sched.cleanStep s).free t = true
  · exact ⟨⟨fun _ => hf, fun _ => (h1 hf).1⟩, Or.inl (h1 hf).1⟩
  · refine ⟨⟨fun h => ?_, fun h => absurd h hf⟩, Or.inr (h2 hf).1⟩
    rw [(h2 hf).1] at h
    exact absurd (Option.some.inj h).symm hne

/-- **C06** (the better block loses, for every schedule): of two blocks which want a common slot, the one with the higher score is taken out whenever the other one is kept. -/
theorem worse_kept_violated (s : Sched) (score : Nat → ℚ) (i j sj t : Nat) (b c : Block) (hb : s.blocks[i]? = some b) (hc : s.blocks[j]? = some c)
    (hj : c.start = some sj) (hbt : Uses s.size b t) (hct : Uses s.size c t) (hs : score i < score j)
    (hk : ((sortByScore score s.blocks.length).foldl Sched.cleanStep s).blocks[i]? = some b) :
    ((sortByScore score s.blocks.length).foldl Sched.cleanStep s).blocks[j]? = some { c with start := none } := by
  have ho := cleanup_order score s.blocks.length
  have hjm : j ∈ sortByScore score s.blocks.length := (mem_sortByScore _ _ _).2 (List.getElem?_eq_some_iff.1 hc).1
  have him : i ∈ sortByScore score s.blocks.length := (mem_sortByScore _ _ _).2 (List.getElem?_eq_some_iff.1 hb).1
  obtain ⟨pre, post, e⟩ := List.append_of_mem hjm
  obtain ⟨h1, h2⟩ := cleanup_exact s _ pre post (nodup_sortByScore score _) j sj c e hc hj
  rcases h2 with h2 | h2
  · exfalso
    refine (((h1.1 h2) t hct).2 i ?_ b hk) hbt
    have hp := ho.sorted
    rw [e] at him hp
    rcases List.mem_append.1 him with h | h
    · exact h
    · exfalso
      rcases List.mem_cons.1 h with rfl | h
      · exact lt_irrefl _ hs
      · have := (List.pairwise_cons.1 (List.pairwise_append.1 hp).2.1).1 i h
        rcases this with h' | h'
        · exact absurd h' (not_lt.2 hs.le)
        · exact hs.ne h'.1.symm
  · exact h2

/-- Two blocks at slot 5, and a third one at slots 5 and 6: the lowest score is kept, and the others are taken out, whichever comes first. -/
example : (((demo 10).run [.insertObs [obsOn 1 none none [5], obsOn 1 none none [5], obsOn 2 none none [5]]]).blocks.map fun b => b.nSlots) = [1, 1, 2] ∧
    ((sortByScore (fun i => if i = 1 then 1 / 4 else 1) 3).foldl Sched.cleanStep { (demo 10).run [.insertObs [obsOn 1 none none [5], obsOn 1 none none [5], obsOn 2 none none [5]]] with
      blocks := ((demo 10).run [.insertObs [obsOn 1 none none [5], obsOn 1 none none [5], obsOn 2 none none [5]]]).blocks.map fun b => { b with start := some 5 } }).starts =
      [none, some 5, none] := by decide +kernel

end Verif.Scheduler
