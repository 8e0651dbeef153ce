import Verif.Sched.LemmasExt
import Verif.Sched.Model2

/-! Helper lemmas: processing delays; locality of the heuristic loop; rows of the score table. -/

namespace Verif.Scheduler

theorem bookStep_other (p : BookParams) (st : BState) (i k : Nat) (h : k ≠ i) :
    (bookStep p st i).1.s.blocks[k]? = st.s.blocks[k]? := by
  rcases bookStep_cases p st i with he | ⟨b, j, _, _, _, _, he, _⟩
  · rw [he]
  · rw [he, (bookAt_fields st.s i b j).1, List.getElem?_set_ne (Ne.symm h)]

theorem bookStep_length (p : BookParams) (st : BState) (i : Nat) :
    (bookStep p st i).1.s.blocks.length = st.s.blocks.length := by
  rcases bookStep_cases p st i with he | ⟨b, j, _, _, _, _, he, _⟩
  · rw [he]
  · rw [he, (bookAt_fields st.s i b j).1, List.length_set]

theorem bookStep_none {p : BookParams} {st : BState} {i : Nat} (h : i < st.s.blocks.length) :
    (bookStep p st i).2 = none := by
  unfold bookStep
  split
  · rename_i hb
    rw [List.getElem?_eq_none_iff] at hb
    omega
  · split
    · rfl
    · split <;> rfl

/-- With valid indices the loop never raises, and it is a plain fold. -/
theorem bookLoop_fold {p : BookParams} : ∀ (is : List Nat) {st : BState}, (∀ i ∈ is, i < st.s.blocks.length) →
    bookLoop p st is = (is.foldl (fun a i => (bookStep p a i).1) st, none)
  | [], _, _ => rfl
  | i :: is, st, h => by
    have h1 := bookStep_none (p := p) (h i List.mem_cons_self)
    have h2 := bookLoop_fold (p := p) is (st := (bookStep p st i).1)
      (fun k hk => by rw [bookStep_length]; exact h k (List.mem_cons_of_mem _ hk))
    unfold bookLoop
    rw [List.foldl_cons, ← h2]
    split
    · rename_i st' heq; rw [heq]
    · rename_i st' e heq; rw [heq] at h1; exact absurd h1 (by simp)

theorem bookFold_other (p : BookParams) (k : Nat) : ∀ (is : List Nat) (st : BState), k ∉ is →
    (is.foldl (fun a i => (Scheduler.bookStep p a i).1) st).s.blocks[k]? = st.s.blocks[k]?
  | [], _, _ => rfl
  | i :: is, st, h => by
    simp only [List.mem_cons, not_or] at h
    rw [List.foldl_cons, bookFold_other p k is _ h.2, bookStep_other p st i k h.1]

theorem bookFold_length (p : BookParams) : ∀ (is : List Nat) (st : BState),
    (is.foldl (fun a i => (Scheduler.bookStep p a i).1) st).s.blocks.length = st.s.blocks.length
  | [], _ => rfl
  | i :: is, st => by rw [List.foldl_cons, bookFold_length p is, bookStep_length]

theorem bookFold_good {p : BookParams} : ∀ (is : List Nat) {st : BState}, Good st.s → RowsOK st.s →
    Good (is.foldl (fun a i => (Scheduler.bookStep p a i).1) st).s ∧ RowsOK (is.foldl (fun a i => (Scheduler.bookStep p a i).1) st).s
  | [], _, h, hr => ⟨h, hr⟩
  | i :: is, _, h, hr => by
    rw [List.foldl_cons]
    exact bookFold_good is (h.bookStep hr).1 (h.bookStep hr).2

/-! ### Processing counters -/

/-- Counters are non-negative and positive around every booked block with a delay. -/
def ProcOK (s : Sched) : Prop :=
  (∀ t, 0 ≤ s.proc t) ∧ ∀ (i : Nat) (b : Block) (st : Nat), s.blocks[i]? = some b → b.start = some st →
    b.nDelay ≠ 0 → ∀ t, t < s.size → st ≤ t + b.nDelay → t < st + b.nSlots + b.nDelay → 1 ≤ s.proc t

theorem freezeProc_proc {s : Sched} {a b : Int} (h : a < b) (hb : 0 ≤ b) (t : Nat) (ht : t < s.size) :
    (s.freezeProc a b).1.proc t = if a ≤ t ∧ (t : Int) < b then s.proc t + 1 else s.proc t := by
  unfold Sched.freezeProc
  rw [if_neg (by omega)]
  simp only
  have : inSlice s.size (if a < 0 then 0 else a) (if b > s.size then (s.size : Int) else b) t = true ↔
      (a ≤ t ∧ (t : Int) < b) := by
    unfold inSlice pyBound
    rw [Bool.and_eq_true, decide_eq_true_iff, decide_eq_true_iff]
    split_ifs <;> omega
  by_cases hc : a ≤ t ∧ (t : Int) < b
  · rw [if_pos (this.mpr hc), if_pos hc]
  · rw [if_neg (fun hh => hc (this.mp hh)), if_neg hc]

theorem bookAt_proc {s : Sched} {i : Nat} {b : Block} {st : Nat} (hn : 0 < b.nSlots) (t : Nat) (ht : t < s.size) :
    (s.bookAt i b st).proc t =
      if b.nDelay ≠ 0 ∧ st ≤ t + b.nDelay ∧ t < st + b.nSlots + b.nDelay then s.proc t + 1 else s.proc t := by
  unfold Sched.bookAt
  simp only [Sched.setBlock]
  split
  · rename_i hd
    rw [freezeProc_proc (s := s.setFree st b.nSlots false) (by omega) (by omega) t ht]
    show (if _ then s.proc t + 1 else s.proc t) = _
    by_cases hc : st ≤ t + b.nDelay ∧ t < st + b.nSlots + b.nDelay
    · rw [if_pos (by omega), if_pos ⟨hd, hc⟩]
    · rw [if_neg (by omega), if_neg (fun hh => hc hh.2)]
  · rename_i hd
    rw [if_neg (fun hh => hd hh.1)]
    rfl

theorem bookAt_proc_ge (s : Sched) (i : Nat) (b : Block) (st t : Nat) : s.proc t ≤ (s.bookAt i b st).proc t := by
  unfold Sched.bookAt
  simp only [Sched.setBlock]
  split
  · unfold Sched.freezeProc
    have e : (s.setFree st b.nSlots false).proc t = s.proc t := rfl
    split
    · exact le_of_eq e.symm
    · simp only
      split <;> omega
  · exact le_of_eq rfl

theorem ProcOK.bookStep {p : BookParams} {st : BState} {i : Nat} (hg : Good st.s) (h : ProcOK st.s) :
    ProcOK (bookStep p st i).1.s := by
  rcases bookStep_cases p st i with he | ⟨b, j, hb, _, hun, hj, he, _⟩
  · rw [he]; exact h
  · rw [he]
    have hn := hg.nSlots_pos (getElem?_mem hb)
    have hlt : i < st.s.blocks.length := (List.getElem?_eq_some_iff.mp hb).1
    refine ⟨fun t => le_trans (h.1 t) (bookAt_proc_ge _ _ _ _ _), ?_⟩
    intro k c s0 hc hs0 hd t ht h1 h2
    obtain ⟨f1, _, f3, _⟩ := bookAt_fields st.s i b j
    rw [f3] at ht
    rw [f1] at hc
    by_cases hki : k = i
    · subst hki
      rw [List.getElem?_set_self hlt] at hc
      obtain rfl := Option.some.inj hc
      have : j = s0 := by simpa [Sched.placed] using hs0
      subst this
      rw [bookAt_proc hn t ht, if_pos ⟨hd, h1, h2⟩]
      have := h.1 t
      omega
    · rw [List.getElem?_set_ne (Ne.symm hki)] at hc
      exact le_trans (h.2 k c s0 hc hs0 hd t ht h1 h2) (bookAt_proc_ge _ _ _ _ _)

theorem ProcOK.fold {p : BookParams} : ∀ (is : List Nat) {st : BState}, Good st.s → RowsOK st.s → ProcOK st.s →
    ProcOK (is.foldl (fun a i => (Scheduler.bookStep p a i).1) st).s
  | [], _, _, _, h => h
  | i :: is, _, hg, hr, h => by
    rw [List.foldl_cons]
    exact ProcOK.fold is (hg.bookStep hr).1 (hg.bookStep hr).2 (h.bookStep hg)

theorem avail_proc {s : Sched} {b : Block} {j : Nat} (hd : b.nDelay ≠ 0) (h : s.avail b j = true) : s.proc j = 0 := by
  unfold Sched.avail at h
  rw [if_pos hd] at h
  rw [Bool.and_eq_true, decide_eq_true_iff] at h
  exact h.2

/-! ### Rows -/

/-- Mean constraint score of a block started at slot `j`. -/
def meanScore (b : Block) (j : Nat) : ℚ := sumTo (fun k => b.cnst (j + k)) b.nSlots / b.nSlots

/-- Rows of the table agree with the mean scores on the windows that are still free. -/
def RowsMean (s : Sched) : Prop :=
  ∀ b ∈ s.blocks, ∀ j, j + b.nSlots < s.size → (∀ t, j ≤ t → t < j + b.nSlots → s.free t = true) →
    b.row j = meanScore b j

theorem computeScores_rowsMean (s : Sched) : RowsMean s.computeScores := by
  intro b hb j hj hf
  obtain ⟨c, hc, rfl⟩ := List.mem_map.mp hb
  simp only [Sched.scoreBlock, Sched.computeScores] at hj hf ⊢
  unfold cnstRow
  rw [if_pos (by omega), if_neg]
  · rfl
  · simp only [List.any_eq_true, List.mem_range, Bool.not_eq_true', not_exists, not_and, Bool.not_eq_false]
    intro k hk
    exact hf (j + k) (by omega) (by omega)

theorem prepare_rowsMean (s : Sched) (r v : Bool) : RowsMean (s.prepare r v) := by
  unfold Sched.prepare
  simp only
  have h := computeScores_rowsMean (if r then s.reset else s)
  split
  · intro b hb j hj hf
    obtain ⟨c, hc, rfl⟩ := List.mem_map.mp hb
    exact h c hc j hj hf
  · exact h

theorem RowsMean.bookStep {p : BookParams} {st : BState} {i : Nat} (h : RowsMean st.s) :
    RowsMean (bookStep p st i).1.s := by
  rcases bookStep_cases p st i with he | ⟨b, j, hb, _, _, _, he, _⟩
  · rw [he]; exact h
  · rw [he]
    obtain ⟨f1, f2, f3, _⟩ := bookAt_fields st.s i b j
    intro c hc k hk hf
    rw [f3] at hk
    have hf' : ∀ t, k ≤ t → t < k + c.nSlots → st.s.free t = true := by
      intro t h1 h2
      have := hf t h1 h2
      rw [f2, setFree_free] at this
      split at this
      · exact absurd this (by simp)
      · exact this
    rw [f1] at hc
    rcases List.mem_or_eq_of_mem_set hc with hc | rfl
    · exact h c hc k hk hf'
    · exact h b (getElem?_mem hb) k hk hf'

theorem RowsMean.fold {p : BookParams} : ∀ (is : List Nat) {st : BState}, RowsMean st.s →
    RowsMean (is.foldl (fun a i => (Scheduler.bookStep p a i).1) st).s
  | [], _, h => h
  | _ :: is, _, h => RowsMean.fold is h.bookStep

/-- Rows of the table only reach starts that leave room for one more slot: the last possible start is never scored. -/
def RowsStrict (s : Sched) : Prop := ∀ b ∈ s.blocks, ∀ j, b.row j ≠ 0 → j + b.nSlots < s.size

theorem prepare_rowsStrict (s : Sched) (r v : Bool) : RowsStrict (s.prepare r v) := by
  have h : RowsStrict (if r then s.reset else s).computeScores := by
    intro b hb j hj
    obtain ⟨c, hc, rfl⟩ := List.mem_map.mp hb
    have := (cnstRow_ne_zero hj).1
    simp only [Sched.scoreBlock, Sched.computeScores]
    omega
  unfold Sched.prepare
  simp only
  split
  · intro b hb j hj
    obtain ⟨c, hc, rfl⟩ := List.mem_map.mp hb
    exact h c hc j hj
  · exact h

theorem RowsStrict.bookStep {p : BookParams} {st : BState} {i : Nat} (h : RowsStrict st.s) :
    RowsStrict (bookStep p st i).1.s := by
  rcases bookStep_cases p st i with he | ⟨b, j, hb, _, _, _, he, _⟩
  · rw [he]; exact h
  · rw [he]
    obtain ⟨f1, f2, f3, _⟩ := bookAt_fields st.s i b j
    intro c hc k hk
    rw [f3]
    rw [f1] at hc
    rcases List.mem_or_eq_of_mem_set hc with hc | rfl
    · exact h c hc k hk
    · exact h b (getElem?_mem hb) k hk

theorem RowsStrict.fold {p : BookParams} : ∀ (is : List Nat) {st : BState}, RowsStrict st.s →
    RowsStrict (is.foldl (fun a i => (Scheduler.bookStep p a i).1) st).s
  | [], _, h => h
  | _ :: is, _, h => RowsStrict.fold is h.bookStep

end Verif.Scheduler
