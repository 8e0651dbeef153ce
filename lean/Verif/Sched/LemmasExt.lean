import Verif.Sched.LemmasAcc

/-! Helper lemmas: extension only grows blocks; processing counters. -/

namespace Verif.Scheduler

/-- Every block of `s` is still there in `s'`, and occupies at least the same slots; unbooked blocks are unchanged. -/
def Grows (s s' : Sched) : Prop :=
  ∀ (i : Nat) (b : Block), s.blocks[i]? = some b → ∃ b' : Block, s'.blocks[i]? = some b' ∧ (∀ t, Occupies b t → Occupies b' t) ∧
    (b.start = none → b' = b)

theorem Grows.refl (s : Sched) : Grows s s := fun _ b hb => ⟨b, hb, fun _ h => h, fun _ => rfl⟩

theorem Grows.trans {a b c : Sched} (h1 : Grows a b) (h2 : Grows b c) : Grows a c := by
  intro i x hx
  obtain ⟨y, hy, g1, g2⟩ := h1 i x hx
  obtain ⟨z, hz, g3, g4⟩ := h2 i y hy
  refine ⟨z, hz, fun t ht => g3 t (g1 t ht), fun hn => ?_⟩
  have := g2 hn
  subst this
  exact g4 hn

/-- Candidate `w` at position `k` of block `i`, centred on the original block. -/
def CandWin (size : Nat) (orig : List Block) (c : List (List Nat)) (i k x : Nat) : Prop :=
  ∀ (b0 : Block) (s0 : Nat) (cs : List Nat) (w : Nat), orig[i]? = some b0 → b0.start = some s0 → c[i]? = some cs → cs[k]? = some w →
    x ∈ extWindow size s0 b0.nSlots w

/-- Blocks lie within all the windows still to be tried from iteration `it` on. -/
def Fits (orig : List Block) (c : List (List Nat)) (it : Nat) (s : Sched) : Prop :=
  ∀ (i : Nat) (b : Block), s.blocks[i]? = some b → ∀ t, Occupies b t → ∀ k, it ≤ k → CandWin s.size orig c i k t

/-- Candidate sizes are increasing for each block, and larger than the original block. -/
def CandOK (orig : List Block) (c : List (List Nat)) : Prop :=
  ∀ (i : Nat) (b0 : Block) (cs : List Nat), orig[i]? = some b0 → c[i]? = some cs → cs.Pairwise (· < ·) ∧ ∀ w ∈ cs, b0.nSlots < w

theorem extWindow_mono {size s0 n0 w w' x : Nat} (h : w ≤ w') (hx : x ∈ extWindow size s0 n0 w) :
    x ∈ extWindow size s0 n0 w' := by
  rw [mem_extWindow] at hx ⊢
  omega

theorem extWindow_own {size s0 n0 w x : Nat} (h : n0 ≤ w) (h1 : s0 ≤ x) (h2 : x < s0 + n0) (h3 : x < size) :
    x ∈ extWindow size s0 n0 w := by
  rw [mem_extWindow]
  omega

theorem occ_iff {b : Block} {st t : Nat} (hst : b.start = some st) :
    Occupies b t ↔ st ≤ t ∧ t < st + b.nSlots := by
  constructor
  · rintro ⟨st', h', h1, h2⟩
    rw [hst] at h'; obtain rfl := Option.some.inj h'; exact ⟨h1, h2⟩
  · rintro ⟨h1, h2⟩; exact ⟨st, hst, h1, h2⟩

/-- One attempt whose window contains the block: the block grows, accounting stays exact. -/
theorem extendAttempt_grow {R : Nat → Prop} {s : Sched} (h : Acc R s) {i : Nat} {w : List Nat}
    (hfit : ∀ b, s.blocks[i]? = some b → ∀ t, Occupies b t → t ∈ w) :
    Acc R (s.extendAttempt i w) ∧ Grows s (s.extendAttempt i w) ∧
    (∀ (j : Nat) (b' : Block), (s.extendAttempt i w).blocks[j]? = some b' → s.blocks[j]? = some b' ∨
      (j = i ∧ ∀ t, Occupies b' t → t ∈ w)) := by
  rcases extendAttempt_cases s i w with he | ⟨b, st, hd, w', hb, hst, hlen, hmem, hrange, he⟩
  · rw [he]; exact ⟨h, Grows.refl s, fun j b' hb' => Or.inl hb'⟩
  · rw [he]
    have hlt : i < s.blocks.length := (List.getElem?_eq_some_iff.mp hb).1
    have hgrow : ∀ t, Occupies b t →
        Occupies (s.placed { b with nSlots := w'.length, duration := w'.length * s.dt } hd) t := by
      intro t ho
      rw [occ_placed]
      refine (hrange t).mp ((hmem t).mpr ⟨hfit b hb t ho, Or.inr ((occ_iff hst).mp ho)⟩)
    refine ⟨?_, ?_, ?_⟩
    · refine h.replace hb rfl rfl hgrow ?_ ?_
      · intro t ho
        have := (hmem t).mp ((hrange t).mpr (occ_placed.mp ho))
        rcases this.2 with hf | ho'
        · exact Or.inl hf
        · exact Or.inr ((occ_iff hst).mpr ho')
      · intro t ht
        show (s.setFree hd w'.length false).free t = true ↔ _
        rw [setFree_free, occ_placed]
        split
        · rename_i hc; simp [hc.1, hc.2.1]
        · rename_i hc
          constructor
          · intro hf; exact ⟨hf, fun hh => hc ⟨hh.1, hh.2, ht⟩⟩
          · exact fun hh => hh.1
    · intro j c hc
      by_cases hji : j = i
      · subst hji
        rw [hb] at hc; obtain rfl := Option.some.inj hc
        refine ⟨_, List.getElem?_set_self hlt, hgrow, fun hn => ?_⟩
        rw [hst] at hn; exact absurd hn (by simp)
      · refine ⟨c, ?_, fun _ ho => ho, fun _ => rfl⟩
        show (s.blocks.set i _)[j]? = _
        rw [List.getElem?_set_ne (Ne.symm hji)]; exact hc
    · intro j b' hb'
      by_cases hji : j = i
      · subst hji
        right
        refine ⟨rfl, fun t ho => ?_⟩
        have hb'' : (s.blocks.set j (s.placed { b with nSlots := w'.length, duration := w'.length * s.dt } hd))[j]? = some b' := hb'
        rw [List.getElem?_set_self hlt] at hb''
        obtain rfl := Option.some.inj hb''
        exact ((hmem t).mp ((hrange t).mpr (occ_placed.mp ho))).1
      · left
        have hb'' : (s.blocks.set i (s.placed { b with nSlots := w'.length, duration := w'.length * s.dt } hd))[j]? = some b' := hb'
        rw [List.getElem?_set_ne (Ne.symm hji)] at hb''
        exact hb''

theorem extendBlock_grow {R : Nat → Prop} {s : Sched} {orig : List Block} {c : List (List Nat)} {it i : Nat}
    (hc : CandOK orig c) (h : Acc R s) (hf : Fits orig c it s) :
    Acc R (extendBlock orig c it s i) ∧ Grows s (extendBlock orig c it s i) ∧
    Fits orig c it (extendBlock orig c it s i) ∧ (extendBlock orig c it s i).dt = s.dt ∧
    (extendBlock orig c it s i).size = s.size := by
  unfold extendBlock
  split
  · rename_i b0 cs hb0 hcs
    split
    · rename_i s0 w hs0 hw
      obtain ⟨e1, e2, _⟩ := extendAttempt_fields s i (extWindow s.size s0 b0.nSlots w)
      have key := extendAttempt_grow h (i := i) (w := extWindow s.size s0 b0.nSlots w)
        (fun b hb t ho => hf i b hb t ho it (le_refl _) b0 s0 cs w hb0 hs0 hcs hw)
      refine ⟨key.1, key.2.1, ?_, e2, e1⟩
      intro j b' hb' t ho k hk
      rw [e1]
      rcases key.2.2 j b' hb' with hold | ⟨rfl, hin⟩
      · exact hf j b' hold t ho k hk
      · intro b0' s0' cs' w' hb0' hs0' hcs' hw'
        rw [hb0] at hb0'; obtain rfl := Option.some.inj hb0'
        rw [hs0] at hs0'; obtain rfl := Option.some.inj hs0'
        rw [hcs] at hcs'; obtain rfl := Option.some.inj hcs'
        refine extWindow_mono ?_ (hin t ho)
        rcases Nat.lt_or_eq_of_le hk with hlt | rfl
        · have hp := (hc j b0 cs hb0 hcs).1
          rw [List.pairwise_iff_getElem] at hp
          obtain ⟨h1, rfl⟩ := List.getElem?_eq_some_iff.mp hw
          obtain ⟨h2, rfl⟩ := List.getElem?_eq_some_iff.mp hw'
          exact (hp it k h1 h2 hlt).le
        · rw [hw] at hw'; obtain rfl := Option.some.inj hw'; exact le_refl _
    · exact ⟨h, Grows.refl s, hf, rfl, rfl⟩
  · exact ⟨h, Grows.refl s, hf, rfl, rfl⟩

theorem extendIter_grow {R : Nat → Prop} {orig : List Block} {c : List (List Nat)} {it : Nat} :
    ∀ (l : List Nat) {s : Sched}, CandOK orig c → Acc R s → Fits orig c it s →
    Acc R (l.foldl (extendBlock orig c it) s) ∧ Grows s (l.foldl (extendBlock orig c it) s) ∧
    Fits orig c it (l.foldl (extendBlock orig c it) s) ∧ (l.foldl (extendBlock orig c it) s).dt = s.dt ∧
    (l.foldl (extendBlock orig c it) s).size = s.size
  | [], s, _, h, hf => ⟨h, Grows.refl s, hf, rfl, rfl⟩
  | i :: l, s, hc, h, hf => by
    obtain ⟨a1, a2, a3, a4, a5⟩ := extendBlock_grow (i := i) hc h hf
    obtain ⟨b1, b2, b3, b4, b5⟩ := extendIter_grow l hc a1 a3
    exact ⟨b1, a2.trans b2, b3, b4.trans a4, b5.trans a5⟩

theorem extendLoop_grow {R : Nat → Prop} {orig : List Block} {c : List (List Nat)} :
    ∀ (n start : Nat) {s : Sched}, CandOK orig c → Acc R s → Fits orig c start s →
    Acc R ((List.range' start n).foldl (extendIter orig c) s) ∧
    Grows s ((List.range' start n).foldl (extendIter orig c) s)
  | 0, start, s, _, h, _ => ⟨h, Grows.refl s⟩
  | n + 1, start, s, hc, h, hf => by
    obtain ⟨a1, a2, a3, a4, a5⟩ := extendIter_grow (it := start) (List.range orig.length) hc h hf
    have hf' : Fits orig c (start + 1) (extendIter orig c s start) :=
      fun i b hb t ho k hk => a3 i b hb t ho k (by omega)
    obtain ⟨b1, b2⟩ := extendLoop_grow n (start + 1) hc a1 hf'
    rw [List.range'_succ, List.foldl_cons]
    exact ⟨b1, Grows.trans a2 b2⟩

/-- The longest duration allowed for a block. -/
def extLimit (d : Option ℚ) (b : Block) : Option ℚ := match d with | none => b.maxExt | some x => some x

theorem extCandidates_ok {n : Nat} {ext : Option ℚ} {dt : ℚ} {keep : Nat → Bool} {cs : List Nat}
    (h : extCandidates n ext dt keep = .ok cs) :
    cs.Pairwise (· < ·) ∧ ∀ w ∈ cs, n < w ∧ ∃ e, ext = some e ∧ w ≤ ceilSlots e dt := by
  unfold extCandidates at h
  split at h
  · obtain rfl := Except.ok.inj h; simp
  · rename_i e
    simp only at h
    split at h
    · obtain rfl := Except.ok.inj h; simp
    · split at h
      · exact absurd h (by simp)
      · obtain rfl := Except.ok.inj h
        refine ⟨(List.pairwise_lt_range').filter _, ?_⟩
        intro w hw
        rw [List.mem_filter, List.mem_range'_1] at hw
        exact ⟨by omega, e, rfl, by omega⟩

theorem allCandidates_ok {dt : ℚ} {d : Option ℚ} {keep : Nat → Nat → Bool} :
    ∀ (bs : List Block) (i : Nat) {c : List (List Nat)}, allCandidates dt d keep i bs = .ok c →
    ∀ (j : Nat) (b0 : Block) (cs : List Nat), bs[j]? = some b0 → c[j]? = some cs → cs.Pairwise (· < ·) ∧
      ∀ w ∈ cs, b0.nSlots < w ∧ ∃ e, extLimit d b0 = some e ∧ w ≤ ceilSlots e dt
  | [], i, c, h => by intro j b0 cs hb; simp at hb
  | b :: bs, i, c, h => by
    unfold allCandidates at h
    split at h
    · exact absurd h (by simp)
    · rename_i c0 hc0
      split at h
      · exact absurd h (by simp)
      · rename_i cs' hcs'
        obtain rfl := Except.ok.inj h
        intro j b0 cs hb hc
        cases j with
        | zero =>
          simp only [List.getElem?_cons_zero, Option.some.injEq] at hb hc
          subst hb; subst hc
          split at hc0
          · have := extCandidates_ok hc0
            cases d <;> exact this
          · obtain rfl := Except.ok.inj hc0; simp
        | succ j =>
          simp only [List.getElem?_cons_succ] at hb hc
          exact allCandidates_ok bs (i + 1) hcs' j b0 cs hb hc

theorem Acc.extend {R : Nat → Prop} {s : Sched} (hg : Good s) (h : Acc R s) (d : Option ℚ) (k : Nat → Nat → Bool) :
    Acc R (s.extend d k).1 ∧ Grows s (s.extend d k).1 := by
  unfold Sched.extend
  split
  · exact ⟨h, Grows.refl s⟩
  · rename_i c hc
    have hall := allCandidates_ok s.blocks 0 hc
    have hcok : CandOK s.blocks c :=
      fun i b0 cs hb hcs => ⟨(hall i b0 cs hb hcs).1, fun w hw => ((hall i b0 cs hb hcs).2 w hw).1⟩
    have hfit : Fits s.blocks c 0 s := by
      intro i b hb t ho k _ b0 s0 cs w hb0 hs0 hcs hw
      rw [hb] at hb0; obtain rfl := Option.some.inj hb0
      have hr := (occ_iff hs0).mp ho
      exact extWindow_own ((hcok i b cs hb hcs).2 w (List.mem_of_getElem? hw)).le hr.1 hr.2
        (hg.inside b (getElem?_mem hb) t ho)
    have := extendLoop_grow ((c.map List.length).foldl max 0) 0 hcok h hfit
    rw [List.range_eq_range']
    exact this

/-! ### Extension never exceeds the maximum -/

theorem card_extWindow {size s0 n0 w st n : Nat} (h : ∀ t, st ≤ t → t < st + n → t ∈ extWindow size s0 n0 w) :
    n ≤ w := by
  by_contra hc
  have h1 := mem_extWindow.mp (h st (le_refl _) (by omega))
  have h2 := mem_extWindow.mp (h (st + n - 1) (by omega) (by omega))
  omega

/-- Either block `i` is as in `orig`, or it lies in some candidate window. -/
def Bounded (orig : List Block) (c : List (List Nat)) (s : Sched) : Prop :=
  ∀ (i : Nat) (b : Block), s.blocks[i]? = some b → orig[i]? = some b ∨
    ∃ (b0 : Block) (s0 : Nat) (cs : List Nat) (w : Nat), orig[i]? = some b0 ∧ b0.start = some s0 ∧ c[i]? = some cs ∧ w ∈ cs ∧ b.nSlots ≤ w

theorem Bounded.extendAttempt {orig : List Block} {c : List (List Nat)} {s : Sched} (h : Bounded orig c s) {i : Nat}
    {b0 : Block} {s0 : Nat} {cs : List Nat} {w : Nat} (hb0 : orig[i]? = some b0) (hs0 : b0.start = some s0)
    (hcs : c[i]? = some cs) (hw : w ∈ cs) :
    Bounded orig c (s.extendAttempt i (extWindow s.size s0 b0.nSlots w)) := by
  rcases extendAttempt_cases s i (extWindow s.size s0 b0.nSlots w) with
    he | ⟨b, st, hd, w', hb, hst, hlen, hmem, hrange, he⟩
  · rw [he]; exact h
  · rw [he]
    have hlt : i < s.blocks.length := (List.getElem?_eq_some_iff.mp hb).1
    intro j b' hb'
    have hb'' : (s.blocks.set i (s.placed { b with nSlots := w'.length, duration := w'.length * s.dt } hd))[j]? = some b' := hb'
    by_cases hji : j = i
    · subst hji
      right
      rw [List.getElem?_set_self hlt] at hb''
      obtain rfl := Option.some.inj hb''
      refine ⟨b0, s0, cs, w, hb0, hs0, hcs, hw, ?_⟩
      exact card_extWindow (size := s.size) (s0 := s0) (n0 := b0.nSlots) (w := w) (st := hd) (n := w'.length)
        (fun t h1 h2 => ((hmem t).mp ((hrange t).mpr ⟨h1, h2⟩)).1)
    · rw [List.getElem?_set_ne (Ne.symm hji)] at hb''
      exact h j b' hb''

theorem Bounded.extendBlock {orig : List Block} {c : List (List Nat)} {s : Sched} (h : Bounded orig c s) (it i : Nat) :
    Bounded orig c (Scheduler.extendBlock orig c it s i) := by
  unfold Scheduler.extendBlock
  split
  · rename_i b0 cs hb0 hcs
    split
    · rename_i s0 w hs0 hw
      exact h.extendAttempt hb0 hs0 hcs (List.mem_of_getElem? hw)
    · exact h
  · exact h

theorem extend_bounded (s : Sched) (d : Option ℚ) (k : Nat → Nat → Bool) :
    ∀ (i : Nat) (b : Block), (s.extend d k).1.blocks[i]? = some b → s.blocks[i]? = some b ∨
      ∃ (b0 : Block) (e : ℚ), s.blocks[i]? = some b0 ∧ extLimit d b0 = some e ∧ b.nSlots ≤ ceilSlots e s.dt := by
  unfold Sched.extend
  split
  · intro i b hb; exact Or.inl hb
  · rename_i c hc
    have hall := allCandidates_ok s.blocks 0 hc
    have hB : Bounded s.blocks c s := fun i b hb => Or.inl hb
    have hB' : Bounded s.blocks c ((List.range ((c.map List.length).foldl max 0)).foldl (extendIter s.blocks c) s) := by
      refine foldl_inv (P := Bounded s.blocks c) ?_ _ _ hB
      intro a it ha
      exact foldl_inv (P := Bounded s.blocks c) (fun a i ha => ha.extendBlock _ _) _ _ ha
    intro i b hb
    rcases hB' i b hb with hold | ⟨b0, s0, cs, w, hb0, _, hcs, hw, hle⟩
    · exact Or.inl hold
    · right
      obtain ⟨_, e, he, hwe⟩ := (hall i b0 cs hb0 hcs).2 w hw
      exact ⟨b0, e, hb0, he, le_trans hle hwe⟩

/-! ### Histories -/

theorem apply_fields (s : Sched) (op : Op) : (s.apply op).size = s.size ∧ (s.apply op).dt = s.dt ∧ (s.apply op).t0 = s.t0 := by
  have hprep : ∀ r v, (s.prepare r v).size = s.size ∧ (s.prepare r v).dt = s.dt ∧ (s.prepare r v).t0 = s.t0 := by
    intro r v
    unfold Sched.prepare
    simp only
    cases r <;> cases v <;> simp [Sched.computeScores, Sched.veryStrict, Sched.reset]
  cases op with
  | insertObs os => exact ⟨rfl, rfl, rfl⟩
  | reserve a b =>
    simp only [Sched.apply, Sched.insertReserved, Sched.addBooking]
    split
    · split <;> simp
    · split <;> simp
  | book p =>
    simp only [Sched.apply, Sched.book]
    have hl : ∀ (is : List Nat) (st : BState), (bookLoop p st is).1.s.size = st.s.size ∧
        (bookLoop p st is).1.s.dt = st.s.dt ∧ (bookLoop p st is).1.s.t0 = st.s.t0 := by
      intro is
      induction is with
      | nil => intro st; exact ⟨rfl, rfl, rfl⟩
      | cons i is ih =>
        intro st
        have hs : (bookStep p st i).1.s.size = st.s.size ∧ (bookStep p st i).1.s.dt = st.s.dt ∧
            (bookStep p st i).1.s.t0 = st.s.t0 := by
          rcases bookStep_cases p st i with he | ⟨b, j, _, _, _, _, he, _⟩
          · rw [he]; exact ⟨rfl, rfl, rfl⟩
          · rw [he]
            obtain ⟨_, _, f3, f4, f5, _⟩ := bookAt_fields st.s i b j
            exact ⟨f3, f4, f5⟩
        unfold bookLoop
        split
        · rename_i st' heq
          rw [heq] at hs
          obtain ⟨a, b, c⟩ := ih st'
          exact ⟨a.trans hs.1, b.trans hs.2.1, c.trans hs.2.2⟩
        · rename_i st' e heq
          rw [heq] at hs
          exact hs
    obtain ⟨a, b, c⟩ := hl p.order ⟨s.prepare p.reset p.veryStrict, 0, 0⟩
    obtain ⟨a', b', c'⟩ := hprep p.reset p.veryStrict
    exact ⟨a.trans a', b.trans b', c.trans c'⟩
  | bookGA r v g m sc =>
    have ht : ∀ (m : List (Nat × Bool)) (x : Sched), (m.foldl Sched.tuneMove x).size = x.size ∧
        (m.foldl Sched.tuneMove x).dt = x.dt ∧ (m.foldl Sched.tuneMove x).t0 = x.t0 := by
      intro m
      induction m with
      | nil => intro x; exact ⟨rfl, rfl, rfl⟩
      | cons mv m ih =>
        intro x
        have : (x.tuneMove mv).size = x.size ∧ (x.tuneMove mv).dt = x.dt ∧ (x.tuneMove mv).t0 = x.t0 := by
          unfold Sched.tuneMove
          split
          · simp
          · split
            · simp
            · split <;> split <;> simp [Sched.setBlock]
        obtain ⟨a, b, c⟩ := ih (x.tuneMove mv)
        exact ⟨a.trans this.1, b.trans this.2.1, c.trans this.2.2⟩
    have hcl : ∀ (l : List Nat) (x : Sched), (l.foldl Sched.cleanStep x).size = x.size ∧
        (l.foldl Sched.cleanStep x).dt = x.dt ∧ (l.foldl Sched.cleanStep x).t0 = x.t0 := by
      intro l
      induction l with
      | nil => intro x; exact ⟨rfl, rfl, rfl⟩
      | cons i l ih =>
        intro x
        have : (x.cleanStep i).size = x.size ∧ (x.cleanStep i).dt = x.dt ∧ (x.cleanStep i).t0 = x.t0 := by
          unfold Sched.cleanStep
          split
          · simp
          · split
            · simp
            · split <;> simp [Sched.setBlock, Sched.setFree]
        obtain ⟨a, b, c⟩ := ih (x.cleanStep i)
        exact ⟨a.trans this.1, b.trans this.2.1, c.trans this.2.2⟩
    obtain ⟨a', b', c'⟩ := hprep r v
    simp only [Sched.apply, Sched.bookGA]
    split
    · exact ⟨a', b', c'⟩
    split
    · exact ⟨a', b', c'⟩
    · split
      · exact ⟨a', b', c'⟩
      · split
        · exact ⟨a', b', c'⟩
        · obtain ⟨x1, x2, x3⟩ := hcl (sortByScore sc (List.foldl Sched.tuneMove
            { (s.prepare r v) with blocks := (assignGenome (s.prepare r v) (s.prepare r v).blocks g).1 } m).blocks.length)
            (List.foldl Sched.tuneMove
            { (s.prepare r v) with blocks := (assignGenome (s.prepare r v) (s.prepare r v).blocks g).1 } m)
          obtain ⟨y1, y2, y3⟩ := ht m
            { (s.prepare r v) with blocks := (assignGenome (s.prepare r v) (s.prepare r v).blocks g).1 }
          exact ⟨x1.trans (y1.trans a'), x2.trans (y2.trans b'), x3.trans (y3.trans c')⟩
  | extend d k =>
    simp only [Sched.apply, Sched.extend]
    split
    · exact ⟨rfl, rfl, rfl⟩
    · rename_i c hc
      refine foldl_inv (P := fun x : Sched => x.size = s.size ∧ x.dt = s.dt ∧ x.t0 = s.t0) ?_ _ _ ⟨rfl, rfl, rfl⟩
      intro a it ha
      refine foldl_inv (P := fun x : Sched => x.size = s.size ∧ x.dt = s.dt ∧ x.t0 = s.t0) ?_ _ _ ha
      intro x i hx
      unfold extendBlock
      split
      · rename_i b0 _ _ _
        split
        · rename_i s0 w _ _
          obtain ⟨e1, e2, e3⟩ := extendAttempt_fields x i (extWindow x.size s0 b0.nSlots w)
          exact ⟨e1.trans hx.1, e2.trans hx.2.1, e3.trans hx.2.2⟩
        · exact hx
      · exact hx

theorem Acc.congr {R R' : Nat → Prop} {s : Sched} (h : Acc R s) (he : ∀ t, R t ↔ R' t) : Acc R' s := by
  intro t ht
  rw [← he t]
  exact h t ht

theorem Acc.apply {R : Nat → Prop} {s : Sched} (hg : Good s) (h : Acc R s) {op : Op} (hl : s.Legal op)
    (hc : s.Careful op) :
    Acc (fun t => R t ∨ ∃ a b, op = Op.reserve a b ∧ s.Overlaps t a b) (s.apply op) := by
  have plain : (∀ a b, op ≠ Op.reserve a b) → Acc R (s.apply op) →
      Acc (fun t => R t ∨ ∃ a b, op = Op.reserve a b ∧ s.Overlaps t a b) (s.apply op) := by
    intro hne ha
    refine ha.congr fun t => ?_
    constructor
    · exact Or.inl
    · rintro (hR | ⟨a, b, he, _⟩)
      · exact hR
      · exact absurd he (hne a b)
  cases op with
  | insertObs os => exact plain (by simp) (h.insertObs os)
  | reserve a b =>
    refine (h.reserve (a := a) (b := b) hc).congr fun t => ?_
    constructor
    · rintro (hR | hO)
      · exact Or.inl hR
      · exact Or.inr ⟨a, b, rfl, hO⟩
    · rintro (hR | ⟨a', b', he, hO⟩)
      · exact Or.inl hR
      · simp only [Op.reserve.injEq] at he
        obtain ⟨rfl, rfl⟩ := he
        exact Or.inr hO
  | book p => exact plain (by simp) (h.book hg p)
  | bookGA r v g m sc =>
    have : r = true := hc
    subst this
    exact plain (by simp) (h.bookGA hg hl)
  | extend d k => exact plain (by simp) (h.extend hg d k).1

theorem Acc.run : ∀ (ops : List Op) {R : Nat → Prop} {s : Sched}, Good s → Acc R s → s.LegalRun ops →
    s.CarefulRun ops → Acc (fun t => R t ∨ s.ReservedBy ops t) (s.run ops)
  | [], R, s, _, h, _, _ => by
    refine h.congr fun t => ?_
    simp [Sched.ReservedBy]
  | op :: ops, R, s, hg, h, hl, hc => by
    have h1 := h.apply hg hl.1 hc.1
    have h2 := Acc.run ops (hg.apply hl.1) h1 hl.2 hc.2
    have hov : ∀ t a b, (s.apply op).Overlaps t a b ↔ s.Overlaps t a b := by
      intro t a b
      obtain ⟨_, e2, e3⟩ := apply_fields s op
      unfold Sched.Overlaps
      rw [e2, e3]
    refine h2.congr fun t => ?_
    unfold Sched.ReservedBy
    simp only [hov, List.mem_cons]
    constructor
    · rintro ((hR | ⟨a, b, he, hO⟩) | ⟨a, b, hm, hO⟩)
      · exact Or.inl hR
      · exact Or.inr ⟨a, b, Or.inl he.symm, hO⟩
      · exact Or.inr ⟨a, b, Or.inr hm, hO⟩
    · rintro (hR | ⟨a, b, hm | hm, hO⟩)
      · exact Or.inl (Or.inl hR)
      · exact Or.inl (Or.inr ⟨a, b, hm.symm, hO⟩)
      · exact Or.inr ⟨a, b, hm, hO⟩

theorem Acc.ofMk {a b dt : ℚ} {day : Nat → Bool} {s : Sched} (h : mkSched a b dt day = .ok s) :
    Acc (fun _ => False) s := by
  unfold mkSched at h
  split at h
  · exact absurd h (by simp)
  · obtain rfl := Except.ok.inj h
    intro t _
    simp

end Verif.Scheduler
