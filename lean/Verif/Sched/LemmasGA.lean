import Verif.Sched.Lemmas

/-! Helper lemmas: booking from a genome, fine tuning and clean-up; extension; histories. -/

namespace Verif.Scheduler

/-- The part of the invariant that holds while the genetic algorithm's blocks still overlap: everything but
exclusivity. -/
structure Loose (s : Sched) : Prop where
  dt_pos : 0 < s.dt
  dur : ∀ b ∈ s.blocks, 0 < b.duration ∧ b.nSlots = ceilSlots b.duration s.dt
  cnst : ∀ b ∈ s.blocks, ∀ j, 0 ≤ b.cnst j
  rows : RowsOK s
  inside : InsideSchedule s
  times : TimesMatch s

theorem Good.loose {s : Sched} (h : Good s) (hr : RowsOK s) : Loose s :=
  ⟨h.dt_pos, h.dur, h.cnst, hr, h.inside, h.times⟩

theorem Loose.nSlots_pos {s : Sched} (h : Loose s) {b : Block} (hb : b ∈ s.blocks) : 0 < b.nSlots := by
  rw [(h.dur b hb).2]; exact ceilSlots_pos (h.dur b hb).1 h.dt_pos

/-- What holds of one block in a loose schedule. -/
def BlockOK (s : Sched) (b : Block) : Prop :=
  (0 < b.duration ∧ b.nSlots = ceilSlots b.duration s.dt) ∧ (∀ j, 0 ≤ b.cnst j) ∧
  (∀ j, 0 ≤ b.row j ∧ (b.row j ≠ 0 → j + b.nSlots ≤ s.size)) ∧
  (∀ t, Occupies b t → t < s.size) ∧
  (∀ st, b.start = some st →
    b.tMin = some (s.t0 + st * s.dt) ∧ b.tMax = some (s.t0 + (st + b.nSlots : ℕ) * s.dt))

theorem loose_iff {s : Sched} : Loose s ↔ 0 < s.dt ∧ ∀ b ∈ s.blocks, BlockOK s b := by
  constructor
  · intro h
    exact ⟨h.dt_pos, fun b hb => ⟨h.dur b hb, h.cnst b hb, h.rows b hb, h.inside b hb, h.times b hb⟩⟩
  · rintro ⟨h0, h⟩
    exact ⟨h0, fun b hb => (h b hb).1, fun b hb => (h b hb).2.1, fun b hb => (h b hb).2.2.1,
      fun b hb => (h b hb).2.2.2.1, fun b hb => (h b hb).2.2.2.2⟩

theorem BlockOK.placed {s : Sched} {b : Block} (h0 : 0 < s.dt) (h : BlockOK s b) {x : Nat}
    (hx : x + b.nSlots ≤ s.size) : BlockOK s (s.placed b x) := by
  have hn : 0 < b.nSlots := by rw [h.1.2]; exact ceilSlots_pos h.1.1 h0
  refine ⟨h.1, h.2.1, h.2.2.1, ?_, ?_⟩
  · intro t ht
    have := occ_placed.mp ht
    omega
  · intro st hst
    have : x = st := by simpa [Sched.placed] using hst
    subst this
    exact placed_times s b x hn

theorem BlockOK.unbook {s : Sched} {b : Block} (h : BlockOK s b) : BlockOK s { b with start := none } :=
  ⟨h.1, h.2.1, h.2.2.1, fun t ht => absurd ht (not_occ_of_none rfl t), fun st hst => by simp at hst⟩

theorem assignGenome_ok {s : Sched} (h0 : 0 < s.dt) : ∀ (bs : List Block) (g : List Nat),
    (∀ b ∈ bs, BlockOK s b) → (assignGenome s bs g).2 = none → ∀ b ∈ (assignGenome s bs g).1, BlockOK s b
  | [], g, _, _ => by simp [assignGenome]
  | b :: bs, g, h, he => by
    have hb := h b List.mem_cons_self
    have hbs : ∀ b ∈ bs, BlockOK s b := fun c hc => h c (List.mem_cons_of_mem _ hc)
    unfold assignGenome at he ⊢
    split at he
    · rename_i ht
      rw [if_pos ht]
      intro c hc
      rcases List.mem_cons.mp hc with rfl | hc
      · exact hb
      · exact assignGenome_ok h0 bs g hbs he c hc
    · rename_i ht
      rw [if_neg ht]
      cases g with
      | nil => simp at he
      | cons x xs =>
        simp only at he ⊢
        split at he
        · rename_i hz
          rw [if_pos hz]
          intro c hc
          rcases List.mem_cons.mp hc with rfl | hc
          · exact hb
          · exact assignGenome_ok h0 bs xs hbs he c hc
        · rename_i hz
          rw [if_neg hz]
          split at he
          · rename_i hx
            rw [if_pos hx]
            intro c hc
            rcases List.mem_cons.mp hc with rfl | hc
            · refine BlockOK.placed h0 hb ?_
              have hn : 0 < b.nSlots := by rw [hb.1.2]; exact ceilSlots_pos hb.1.1 h0
              omega
            · exact assignGenome_ok h0 bs xs hbs he c hc
          · simp at he

theorem assignGenome_length {s : Sched} : ∀ (bs : List Block) (g : List Nat),
    (assignGenome s bs g).1.length = bs.length
  | [], _ => rfl
  | b :: bs, g => by
    unfold assignGenome
    split
    · simp [assignGenome_length bs g]
    · cases g with
      | nil => rfl
      | cons x xs =>
        simp only
        split
        · simp [assignGenome_length bs xs]
        · split
          · simp [assignGenome_length bs xs]
          · simp

theorem loose_set {s : Sched} (h : Loose s) (i : Nat) {b : Block} (hb : BlockOK s b) :
    Loose (s.setBlock i b) := by
  rw [loose_iff] at h ⊢
  refine ⟨h.1, fun c hc => ?_⟩
  rcases List.mem_or_eq_of_mem_set hc with hc | rfl
  · exact h.2 c hc
  · exact hb

theorem Loose.tuneMove {s : Sched} (h : Loose s) (mv : Nat × Bool) : Loose (s.tuneMove mv) := by
  unfold Sched.tuneMove
  split
  · exact h
  · rename_i b hb
    have hm := getElem?_mem hb
    have hok := (loose_iff.mp h).2 b hm
    split
    · exact h
    · rename_i st hst
      have hn := h.nSlots_pos hm
      split
      · split
        · rename_i hc
          refine loose_set h _ (BlockOK.placed h.dt_pos hok ?_)
          have h0 := (h.rows b hm st).1
          exact (h.rows b hm (st - 1)).2 (by linarith [hc.2] |> fun (x : 0 < b.row (st-1)) => x.ne')
        · exact h
      · split
        · rename_i hc
          refine loose_set h _ (BlockOK.placed h.dt_pos hok ?_)
          have h0 := (h.rows b hm st).1
          exact (h.rows b hm (st + 1)).2 (by linarith [hc] |> fun (x : 0 < b.row (st+1)) => x.ne')
        · exact h

theorem Loose.tune {s : Sched} (h : Loose s) : ∀ (mvs : List (Nat × Bool)), Loose (mvs.foldl Sched.tuneMove s)
  | [] => h
  | mv :: mvs => (h.tuneMove mv).tune mvs

theorem tuneMove_fields (s : Sched) (mv : Nat × Bool) :
    (s.tuneMove mv).free = s.free ∧ (s.tuneMove mv).size = s.size ∧ (s.tuneMove mv).dt = s.dt ∧
    (s.tuneMove mv).blocks.length = s.blocks.length := by
  unfold Sched.tuneMove
  split
  · simp
  · split
    · simp
    · split <;> split <;> simp [Sched.setBlock]

/-- Invariant of the clean-up: the blocks already examined (`P`) hold disjoint, taken slots. -/
structure Cleaned (s : Sched) (P : Nat → Prop) : Prop where
  loose : Loose s
  taken : ∀ i b, P i → s.blocks[i]? = some b → ∀ t, Occupies b t → s.free t = false
  disj : ∀ i j bi bj, P i → P j → i ≠ j → s.blocks[i]? = some bi → s.blocks[j]? = some bj →
    ∀ t, Occupies bi t → ¬ Occupies bj t

theorem loose_free {s : Sched} (h : Loose s) (f : Nat → Bool) : Loose { s with free := f } :=
  ⟨h.dt_pos, h.dur, h.cnst, h.rows, h.inside, h.times⟩

theorem Cleaned.step {s : Sched} {P : Nat → Prop} (h : Cleaned s P) (i : Nat) :
    Cleaned (s.cleanStep i) (fun k => k = i ∨ P k) := by
  unfold Sched.cleanStep
  split
  · rename_i hb
    refine ⟨h.loose, ?_, ?_⟩
    · rintro k b (rfl | hk) hkb
      · rw [hb] at hkb; exact absurd hkb (by simp)
      · exact h.taken k b hk hkb
    · rintro k j bk bj (rfl | hk) (rfl | hj) hne hkb hjb
      · exact absurd rfl hne
      · rw [hb] at hkb; exact absurd hkb (by simp)
      · rw [hb] at hjb; exact absurd hjb (by simp)
      · exact h.disj k j bk bj hk hj hne hkb hjb
  · rename_i b hb
    have hm := getElem?_mem hb
    split
    · rename_i hst
      have hno := not_occ_of_none hst
      refine ⟨h.loose, ?_, ?_⟩
      · rintro k c (rfl | hk) hkb t ho
        · rw [hb] at hkb; obtain rfl := Option.some.inj hkb; exact absurd ho (hno t)
        · exact h.taken k c hk hkb t ho
      · rintro k j bk bj (rfl | hk) (rfl | hj) hne hkb hjb t ho1 ho2
        · exact absurd rfl hne
        · rw [hb] at hkb; obtain rfl := Option.some.inj hkb; exact absurd ho1 (hno t)
        · rw [hb] at hjb; obtain rfl := Option.some.inj hjb; exact absurd ho2 (hno t)
        · exact h.disj k j bk bj hk hj hne hkb hjb t ho1 ho2
    · rename_i st hst
      have hocc : ∀ t, Occupies b t ↔ st ≤ t ∧ t < st + b.nSlots := by
        intro t
        constructor
        · rintro ⟨st', h', h1, h2⟩
          rw [hst] at h'; obtain rfl := Option.some.inj h'; exact ⟨h1, h2⟩
        · rintro ⟨h1, h2⟩; exact ⟨st, hst, h1, h2⟩
      split
      · rename_i hall
        have hfree : ∀ t, Occupies b t → s.free t = true := by
          intro t ho
          have hlt := h.loose.inside b hm t ho
          simp only [List.all_eq_true, List.mem_range, Bool.or_eq_true, Bool.not_eq_true'] at hall
          have hin : inSlice s.size st (st + b.nSlots : Nat) t = true := by
            rw [inSlice_nat]; exact ⟨((hocc t).mp ho).1, ((hocc t).mp ho).2, hlt⟩
          rcases hall t hlt with hx | hx
          · rw [hin] at hx; exact absurd hx (by simp)
          · exact hx
        refine ⟨loose_free h.loose _, ?_, ?_⟩
        · rintro k c hk hkb t ho
          rw [setFree_free]
          split
          · rfl
          · rename_i hneg
            rcases hk with rfl | hk
            · have hkb' : s.blocks[k]? = some c := hkb
              rw [hb] at hkb'; obtain rfl := Option.some.inj hkb'
              exact absurd ⟨((hocc t).mp ho).1, ((hocc t).mp ho).2, h.loose.inside b hm t ho⟩ hneg
            · exact h.taken k c hk hkb t ho
        · have base : ∀ k bk, P k → k ≠ i → s.blocks[k]? = some bk → ∀ t, Occupies bk t → ¬ Occupies b t := by
            intro k bk hk hki hkb t ho1 ho2
            have h1 := h.taken k bk hk hkb t ho1
            rw [hfree t ho2] at h1; exact absurd h1 (by simp)
          rintro k j bk bj hk hj hne hkb hjb t ho1 ho2
          have hkb' : s.blocks[k]? = some bk := hkb
          have hjb' : s.blocks[j]? = some bj := hjb
          by_cases hki : k = i
          · subst hki
            rw [hb] at hkb'; obtain rfl := Option.some.inj hkb'
            rcases hj with rfl | hj
            · exact hne rfl
            · exact base j bj hj (Ne.symm hne) hjb' t ho2 ho1
          · have hk' : P k := hk.resolve_left hki
            by_cases hji : j = i
            · subst hji
              rw [hb] at hjb'; obtain rfl := Option.some.inj hjb'
              exact base k bk hk' hki hkb' t ho1 ho2
            · exact h.disj k j bk bj hk' (hj.resolve_left hji) hne hkb' hjb' t ho1 ho2
      · have hget : ∀ (k : Nat) (c : Block), (s.setBlock i { b with start := none }).blocks[k]? = some c →
            (k = i ∧ c.start = none) ∨ (k ≠ i ∧ s.blocks[k]? = some c) := by
          intro k c hc
          simp only [Sched.setBlock, List.getElem?_set] at hc
          split at hc
          · rename_i hik
            split at hc
            · left; exact ⟨hik.symm, by rw [← Option.some.inj hc]⟩
            · exact absurd hc (by simp)
          · rename_i hik
            right; exact ⟨fun e => hik e.symm, hc⟩
        refine ⟨loose_set h.loose i (BlockOK.unbook ((loose_iff.mp h.loose).2 b hm)), ?_, ?_⟩
        · rintro k c hk hkb t ho
          rcases hget k c hkb with ⟨_, hn⟩ | ⟨hki, hkb'⟩
          · exact absurd ho (not_occ_of_none hn t)
          · exact h.taken k c (hk.resolve_left hki) hkb' t ho
        · rintro k j bk bj hk hj hne hkb hjb t ho1 ho2
          rcases hget k bk hkb with ⟨_, hn⟩ | ⟨hki, hkb'⟩
          · exact absurd ho1 (not_occ_of_none hn t)
          rcases hget j bj hjb with ⟨_, hn⟩ | ⟨hji, hjb'⟩
          · exact absurd ho2 (not_occ_of_none hn t)
          exact h.disj k j bk bj (hk.resolve_left hki) (hj.resolve_left hji) hne hkb' hjb' t ho1 ho2

theorem cleanStep_length (s : Sched) (i : Nat) : (s.cleanStep i).blocks.length = s.blocks.length := by
  unfold Sched.cleanStep
  split
  · rfl
  · split
    · rfl
    · split <;> simp [Sched.setBlock, Sched.setFree]

theorem Cleaned.fold : ∀ (is : List Nat) {s : Sched} {P : Nat → Prop}, Cleaned s P →
    Cleaned (is.foldl Sched.cleanStep s) (fun k => k ∈ is ∨ P k) ∧
    (is.foldl Sched.cleanStep s).blocks.length = s.blocks.length
  | [], s, P, h => by simpa using h
  | i :: is, s, P, h => by
    have := Cleaned.fold is (h.step i)
    refine ⟨?_, by rw [List.foldl_cons, this.2, cleanStep_length]⟩
    rw [List.foldl_cons]
    have e : (fun k => k ∈ i :: is ∨ P k) = (fun k => k ∈ is ∨ (k = i ∨ P k)) := by
      funext k
      simp only [List.mem_cons]
      apply propext; tauto
    rw [e]
    exact this.1

theorem mem_insertByScore (score : Nat → ℚ) (i k : Nat) : ∀ (l : List Nat),
    k ∈ insertByScore score i l ↔ k = i ∨ k ∈ l
  | [] => by simp [insertByScore]
  | j :: js => by
    unfold insertByScore
    split
    · simp
    · simp only [List.mem_cons, mem_insertByScore score i k js]; tauto

theorem mem_foldl_insert (score : Nat → ℚ) (k : Nat) : ∀ (l acc : List Nat),
    k ∈ l.foldl (fun acc i => insertByScore score i acc) acc ↔ k ∈ l ∨ k ∈ acc
  | [], acc => by simp
  | i :: l, acc => by
    rw [List.foldl_cons, mem_foldl_insert score k l, mem_insertByScore, List.mem_cons]; tauto

theorem mem_sortByScore (score : Nat → ℚ) (n k : Nat) : k ∈ sortByScore score n ↔ k < n := by
  unfold sortByScore
  rw [mem_foldl_insert]; simp

theorem Cleaned.good {s : Sched} {P : Nat → Prop} (h : Cleaned s P)
    (hall : ∀ k, k < s.blocks.length → P k) : Good s := by
  have hP : ∀ k b, s.blocks[k]? = some b → P k := fun k b hk => hall k (List.getElem?_eq_some_iff.mp hk).1
  refine ⟨h.loose.dt_pos, h.loose.dur, h.loose.cnst, ?_, h.loose.inside, ?_, h.loose.times⟩
  · intro i j bi bj t hi hj hne
    exact h.disj i j bi bj (hP i bi hi) (hP j bj hj) hne hi hj t
  · intro b hb t ho
    obtain ⟨k, hk⟩ := List.mem_iff_getElem?.mp hb
    exact h.taken k b (hP k b hk) hk t ho

theorem Good.bookGA {s : Sched} (h : Good s) {r v : Bool} {g : List Nat} {m : List (Nat × Bool)} {sc : Nat → ℚ}
    (hok : (s.bookGA r v g m sc).2 = none) : Good (s.bookGA r v g m sc).1 := by
  have hp := h.prepare r v
  unfold Sched.bookGA at hok ⊢
  simp only at hok ⊢
  split at hok
  · rename_i hc
    rw [if_pos hc]; exact hp.1
  · rename_i hz
    rw [if_neg hz]
    split at hok
    · simp at hok
    rename_i hc
    rw [if_neg hc]
    split at hok
    · simp at hok
    · rename_i he
      split at hok
      · simp at hok
      · rename_i hbk
        rw [if_neg hbk]
        have hl := hp.1.loose hp.2
        have hl2 : Loose { (s.prepare r v) with blocks := (assignGenome (s.prepare r v) (s.prepare r v).blocks g).1 } := by
          rw [loose_iff] at hl ⊢
          exact ⟨hl.1, assignGenome_ok hl.1 _ _ hl.2 he⟩
        have hl3 := hl2.tune m
        have hc3 : Cleaned _ (fun _ => False) := ⟨hl3, fun _ _ hf => hf.elim, fun _ _ _ _ hf => hf.elim⟩
        have hf := Cleaned.fold (sortByScore sc (List.foldl Sched.tuneMove
          { (s.prepare r v) with blocks := (assignGenome (s.prepare r v) (s.prepare r v).blocks g).1 } m).blocks.length) hc3
        refine hf.1.good ?_
        intro k hk
        rw [hf.2] at hk
        exact Or.inl ((mem_sortByScore _ _ _).mpr hk)

/-! ### Extension -/

theorem mem_extWindow {size s0 n0 w x : Nat} :
    x ∈ extWindow size s0 n0 w ↔ x < size ∧ s0 + n0 / 2 ≤ x + w / 2 ∧ x + w / 2 < s0 + n0 / 2 + w := by
  unfold extWindow
  simp only [List.mem_filterMap, List.mem_range]
  constructor
  · rintro ⟨k, hk, h⟩
    split at h
    · rename_i hx
      obtain rfl := Option.some.inj h
      omega
    · exact absurd h (by simp)
  · rintro ⟨h1, h2, h3⟩
    refine ⟨x + w / 2 - (s0 + n0 / 2), by omega, ?_⟩
    rw [if_pos (by omega)]
    congr 1
    omega

theorem consecutive_mem : ∀ {l : List Nat} {h : Nat}, consecutive (h :: l) = true →
    ∀ x, x ∈ h :: l ↔ h ≤ x ∧ x < h + (h :: l).length
  | [], h, _, x => by simp; omega
  | b :: l, h, hc, x => by
    simp only [consecutive, Bool.and_eq_true, decide_eq_true_iff] at hc
    have := consecutive_mem hc.2 x
    rw [List.mem_cons, this, hc.1]
    simp only [List.length_cons]
    omega

/-- What one extension attempt does: nothing, or a larger contiguous window made of free slots and the block's own. -/
theorem extendAttempt_cases (s : Sched) (i : Nat) (w : List Nat) :
    s.extendAttempt i w = s ∨
    ∃ (b : Block) (st h : Nat) (w' : List Nat), s.blocks[i]? = some b ∧ b.start = some st ∧ 0 < w'.length ∧
      (∀ x, x ∈ w' ↔ x ∈ w ∧ (s.free x = true ∨ (st ≤ x ∧ x < st + b.nSlots))) ∧
      (∀ x, x ∈ w' ↔ h ≤ x ∧ x < h + w'.length) ∧
      s.extendAttempt i w = (s.setFree h w'.length false).setBlock i
        (s.placed { b with nSlots := w'.length, duration := w'.length * s.dt } h) := by
  unfold Sched.extendAttempt
  split
  · left; rfl
  · rename_i b hb
    split
    · left; rfl
    · rename_i st hst
      split
      · simp only
        split
        · rename_i hc
          split
          · left; rfl
          · rename_i h l heq
            right
            refine ⟨b, st, h, w.filter fun x => s.free x || (decide (st ≤ x) && decide (x < st + b.nSlots)),
              hb, hst, ?_, ?_, ?_, ?_⟩
            · rw [heq]; simp
            · intro x; simp [List.mem_filter]
            · intro x
              rw [heq] at hc ⊢
              exact consecutive_mem hc x
            · rw [heq]
        · left; rfl
      · left; rfl

theorem Good.extendAttempt {s : Sched} (h : Good s) (i : Nat) (w : List Nat) (hw : ∀ x ∈ w, x < s.size) :
    Good (s.extendAttempt i w) := by
  rcases extendAttempt_cases s i w with he | ⟨b, st, hd, w', hb, hst, hlen, hmem, hrange, he⟩
  · rw [he]; exact h
  · rw [he]
    have hm := getElem?_mem hb
    have hpos : (0 : ℚ) < (w'.length : ℚ) * s.dt := mul_pos (by exact_mod_cast hlen) h.dt_pos
    refine h.replace (b' := s.placed { b with nSlots := w'.length, duration := w'.length * s.dt } hd)
      hb rfl rfl rfl rfl ⟨hpos, (ceilSlots_mul h.dt_pos).symm⟩ (h.cnst b hm) ?_ ?_ ?_
    · intro t ht
      have ht' := occ_placed.mp ht
      have hx := (hmem t).mp ((hrange t).mpr ht')
      have hsz := hw t hx.1
      refine ⟨hsz, ?_, ?_⟩
      · rcases hx.2 with hf | ⟨h1, h2⟩
        · exact Or.inl hf
        · exact Or.inr ⟨st, hst, h1, h2⟩
      · show (s.setFree hd w'.length false).free t = false
        rw [setFree_free, if_pos ⟨ht'.1, ht'.2, hsz⟩]
    · intro t ht
      show (s.setFree hd w'.length false).free t = false
      rw [setFree_free]
      split
      · rfl
      · exact ht
    · intro st' hst'
      have : hd = st' := by simpa [Sched.placed] using hst'
      subst this
      exact placed_times s _ hd hlen

theorem extendAttempt_fields (s : Sched) (i : Nat) (w : List Nat) :
    (s.extendAttempt i w).size = s.size ∧ (s.extendAttempt i w).dt = s.dt ∧ (s.extendAttempt i w).t0 = s.t0 := by
  rcases extendAttempt_cases s i w with he | ⟨b, st, hd, w', _, _, _, _, _, he⟩ <;> rw [he]
  · simp
  · simp [Sched.setBlock, Sched.setFree]

theorem Good.extendBlock {s : Sched} (h : Good s) (orig : List Block) (c : List (List Nat)) (it i : Nat) :
    Good (extendBlock orig c it s i) := by
  unfold Scheduler.extendBlock
  split
  · split
    · exact h.extendAttempt _ _ (fun x hx => (mem_extWindow.mp hx).1)
    · exact h
  · exact h

theorem foldl_inv {α β : Type} {f : α → β → α} {P : α → Prop} (hf : ∀ a b, P a → P (f a b)) :
    ∀ (l : List β) (a : α), P a → P (l.foldl f a)
  | [], _, h => h
  | b :: l, a, h => foldl_inv hf l (f a b) (hf a b h)

theorem Good.extend {s : Sched} (h : Good s) (d : Option ℚ) (k : Nat → Nat → Bool) : Good (s.extend d k).1 := by
  unfold Sched.extend
  split
  · exact h
  · refine foldl_inv (P := Good) ?_ _ _ h
    intro a it ha
    exact foldl_inv (P := Good) (fun a i ha => ha.extendBlock _ _ _ _) _ _ ha

/-! ### Histories -/

theorem Good.apply {s : Sched} (h : Good s) {op : Op} (hl : s.Legal op) : Good (s.apply op) := by
  cases op with
  | insertObs os => exact h.insertObs os hl
  | reserve a b => exact h.insertReserved a b
  | book p => exact h.book p
  | bookGA r v g m sc => exact h.bookGA hl
  | extend d k => exact h.extend d k

theorem Good.run : ∀ (ops : List Op) {s : Sched}, Good s → s.LegalRun ops → Good (s.run ops)
  | [], _, h, _ => h
  | _ :: ops, _, h, hl => Good.run ops (h.apply hl.1) hl.2

theorem Good.ofMk {a b dt : ℚ} {day : Nat → Bool} {s : Sched} (hdt : 0 < dt) (h : mkSched a b dt day = .ok s) :
    Good s := by
  unfold mkSched at h
  split at h
  · exact absurd h (by simp)
  · obtain rfl := Except.ok.inj h
    exact Good.of_unbooked hdt (by simp) (by simp) (by simp)

end Verif.Scheduler
