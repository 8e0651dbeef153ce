import Verif.Sched.LemmasGA

/-! Helper lemmas: exact accounting of slots. A slot is available iff it is neither reserved (`R`) nor occupied. -/

namespace Verif.Scheduler

/-- Exact accounting with reserved set `R`. -/
def Acc (R : Nat → Prop) (s : Sched) : Prop :=
  ∀ t, t < s.size → (s.free t = true ↔ ¬ R t ∧ ∀ b ∈ s.blocks, ¬ Occupies b t) ∧
    (R t → ∀ b ∈ s.blocks, ¬ Occupies b t)

theorem Acc.reset {R : Nat → Prop} {s : Sched} (h : Acc R s) : Acc R s.reset := by
  intro t ht
  have hu : ∀ b ∈ s.reset.blocks, ¬ Occupies b t := fun b hb => not_occ_of_none (reset_unbooked s b hb) t
  obtain ⟨h1, h2⟩ := h t ht
  refine ⟨?_, fun _ => hu⟩
  rw [reset_free]
  constructor
  · rintro (hf | ⟨_, b, hb, ho⟩)
    · exact ⟨(h1.mp hf).1, hu⟩
    · exact ⟨fun hR => h2 hR b hb ho, hu⟩
  · rintro ⟨hR, _⟩
    by_cases hex : ∃ b ∈ s.blocks, Occupies b t
    · exact Or.inr ⟨ht, hex⟩
    · left
      push Not at hex
      exact h1.mpr ⟨hR, hex⟩

theorem Acc.mapBlocks {R : Nat → Prop} {s : Sched} (h : Acc R s) (g : Block → Block)
    (hg : ∀ b ∈ s.blocks, (g b).start = b.start ∧ (g b).nSlots = b.nSlots) :
    Acc R { s with blocks := s.blocks.map g } := by
  intro t ht
  have hocc : ∀ b ∈ s.blocks, (Occupies (g b) t ↔ Occupies b t) := by
    intro b hb
    unfold Occupies
    rw [(hg b hb).1, (hg b hb).2]
  have he : (∀ b ∈ s.blocks.map g, ¬ Occupies b t) ↔ ∀ b ∈ s.blocks, ¬ Occupies b t := by
    constructor
    · intro hh b hb ho
      exact hh (g b) (List.mem_map_of_mem hb) ((hocc b hb).mpr ho)
    · intro hh b hb ho
      obtain ⟨c, hc, rfl⟩ := List.mem_map.mp hb
      exact hh c hc ((hocc c hc).mp ho)
  obtain ⟨h1, h2⟩ := h t ht
  exact ⟨by rw [he]; exact h1, fun hR => he.mpr (h2 hR)⟩

theorem Acc.prepare {R : Nat → Prop} {s : Sched} (hg : Good s) (h : Acc R s) (r v : Bool) :
    Acc R (s.prepare r v) := by
  have hg1 : Good (if r then s.reset else s) := by
    split
    · exact hg.reset
    · exact hg
  have h1 : Acc R (if r then s.reset else s) := by
    split
    · exact h.reset
    · exact h
  have h2 : Acc R (if r then s.reset else s).computeScores :=
    h1.mapBlocks _ (fun b hb => ⟨rfl, (hg1.dur b hb).2.symm⟩)
  unfold Sched.prepare
  simp only
  split
  · exact h2.mapBlocks _ (fun b _ => ⟨rfl, rfl⟩)
  · exact h2

/-- Replacing block `i` by one whose occupied set is the old one plus some free slots, which become unavailable. -/
theorem Acc.replace {R : Nat → Prop} {s : Sched} (h : Acc R s) {i : Nat} {b b' : Block} {s' : Sched}
    (hb : s.blocks[i]? = some b) (hsz : s'.size = s.size) (hbl : s'.blocks = s.blocks.set i b')
    (hgrow : ∀ t, Occupies b t → Occupies b' t)
    (hnew : ∀ t, Occupies b' t → s.free t = true ∨ Occupies b t)
    (hfree : ∀ t, t < s.size → (s'.free t = true ↔ s.free t = true ∧ ¬ Occupies b' t)) : Acc R s' := by
  have hlt : i < s.blocks.length := (List.getElem?_eq_some_iff.mp hb).1
  have hm := getElem?_mem hb
  have hocc : ∀ t, (∀ c ∈ s'.blocks, ¬ Occupies c t) ↔ ((∀ c ∈ s.blocks, ¬ Occupies c t) ∧ ¬ Occupies b' t) := by
    intro t
    constructor
    · intro hh
      have hb' : ¬ Occupies b' t := hh b' (by rw [hbl]; exact List.mem_set hlt b')
      refine ⟨fun c hc ho => ?_, hb'⟩
      obtain ⟨k, hk⟩ := List.mem_iff_getElem?.mp hc
      by_cases hki : k = i
      · subst hki
        rw [hb] at hk; obtain rfl := Option.some.inj hk
        exact hb' (hgrow t ho)
      · refine hh c ?_ ho
        rw [hbl]
        refine List.mem_of_getElem? (i := k) ?_
        rw [List.getElem?_set_ne (Ne.symm hki)]; exact hk
    · rintro ⟨h1, h2⟩ c hc
      rw [hbl] at hc
      rcases List.mem_or_eq_of_mem_set hc with hc | rfl
      · exact h1 c hc
      · exact h2
  intro t ht
  rw [hsz] at ht
  obtain ⟨h1, h2⟩ := h t ht
  refine ⟨?_, ?_⟩
  · rw [hfree t ht, hocc t, h1]; tauto
  · intro hR
    rw [hocc t]
    refine ⟨h2 hR, fun ho => ?_⟩
    rcases hnew t ho with hf | hown
    · exact (h1.mp hf).1 hR
    · exact h2 hR b hm hown

theorem Acc.bookAt {R : Nat → Prop} {s : Sched} (h : Acc R s) {i : Nat} {b : Block} {st : Nat}
    (hb : s.blocks[i]? = some b) (hun : b.start = none)
    (hfree : ∀ t, st ≤ t → t < st + b.nSlots → s.free t = true) : Acc R (s.bookAt i b st) := by
  obtain ⟨f1, f2, f3, _⟩ := bookAt_fields s i b st
  refine h.replace hb f3 f1 (fun t ho => absurd ho (not_occ_of_none hun t)) ?_ ?_
  · intro t ho
    have := occ_placed.mp ho
    exact Or.inl (hfree t this.1 this.2)
  · intro t ht
    rw [f2, setFree_free, occ_placed]
    split
    · rename_i hc; simp [hc.1, hc.2.1]
    · rename_i hc
      constructor
      · intro hf; exact ⟨hf, fun hh => hc ⟨hh.1, hh.2, ht⟩⟩
      · exact fun hh => hh.1

theorem Acc.bookStep {R : Nat → Prop} {p : BookParams} {st : BState} {i : Nat} (hr : RowsOK st.s)
    (h : Acc R st.s) : Acc R (bookStep p st i).1.s := by
  rcases bookStep_cases p st i with he | ⟨b, j, hb, _, hun, hj, he, _⟩
  · rw [he]; exact h
  · rw [he]
    obtain ⟨_, hav⟩ := choose_window (hr b (getElem?_mem hb)) hj
    exact h.bookAt hb hun (fun t h1 h2 => avail_free (hav t h1 h2))

theorem Acc.bookLoop {R : Nat → Prop} {p : BookParams} : ∀ {is : List Nat} {st : BState}, Good st.s → RowsOK st.s →
    Acc R st.s → Acc R (bookLoop p st is).1.s
  | [], _, _, _, h => h
  | i :: is, st, hg, hr, h => by
    have hs := hg.bookStep (p := p) (i := i) hr
    have ha := h.bookStep (p := p) (i := i) hr
    unfold Scheduler.bookLoop
    split
    · rename_i st' heq
      rw [heq] at hs ha
      exact Acc.bookLoop hs.1 hs.2 ha
    · rename_i st' e heq
      rw [heq] at ha
      exact ha

theorem Acc.book {R : Nat → Prop} {s : Sched} (hg : Good s) (h : Acc R s) (p : BookParams) : Acc R (s.book p).1 := by
  have hp := hg.prepare p.reset p.veryStrict
  exact Acc.bookLoop (st := ⟨s.prepare p.reset p.veryStrict, 0, 0⟩) hp.1 hp.2 (h.prepare hg _ _)

theorem Acc.insertObs {R : Nat → Prop} {s : Sched} (h : Acc R s) (os : List ObsSpec) : Acc R (s.insertObs os) := by
  have h1 : Acc R { s with blocks := s.blocks ++ os.map (ObsSpec.toBlock s.dt) } := by
    intro t ht
    have he : (∀ b ∈ s.blocks ++ os.map (ObsSpec.toBlock s.dt), ¬ Occupies b t) ↔ ∀ b ∈ s.blocks, ¬ Occupies b t := by
      constructor
      · exact fun hh b hb => hh b (List.mem_append_left _ hb)
      · intro hh b hb
        rcases List.mem_append.mp hb with hb | hb
        · exact hh b hb
        · obtain ⟨o, _, rfl⟩ := List.mem_map.mp hb
          exact not_occ_of_none rfl t
    obtain ⟨h1, h2⟩ := h t ht
    exact ⟨by rw [he]; exact h1, fun hR => he.mpr (h2 hR)⟩
  exact h1.mapBlocks _ (fun b _ => ⟨rfl, rfl⟩)

theorem mem_time2idx2 {s : Sched} {a b : ℚ} {idx : List Nat} (h : s.time2idx2 a b = .ok idx) {t : Nat}
    (ht : t < s.size) : t ∈ idx ↔ s.Overlaps t a b := by
  have hab : a ≤ b := by
    unfold Sched.time2idx2 at h
    split at h
    · exact absurd h (by simp)
    · rename_i hc; exact not_lt.mp hc
  rw [time2idx2_ok h]
  unfold Sched.Overlaps Sched.slotStop Sched.slotStart
  have : s.t0 + (t : ℚ) * s.dt + s.dt = s.t0 + (t + 1) * s.dt := by ring
  rw [this]
  tauto

theorem Acc.reserve {R : Nat → Prop} {s : Sched} (h : Acc R s) {a b : ℚ}
    (hc : ∀ c ∈ s.blocks, ∀ t, Occupies c t → ¬ s.Overlaps t a b) :
    Acc (fun t => R t ∨ s.Overlaps t a b) (s.insertReserved a b).1 := by
  have h1 : Acc (fun t => R t ∨ s.Overlaps t a b) (s.addBooking a b).1 := by
    unfold Sched.addBooking
    split
    · rename_i e he
      have hab : b < a := by
        unfold Sched.time2idx2 at he
        split at he
        · assumption
        · exact absurd he (by simp)
      intro t ht
      have : ¬ s.Overlaps t a b := fun ho => absurd ho.1 (not_le.mpr hab)
      obtain ⟨h1, h2⟩ := h t ht
      constructor
      · rw [h1]; tauto
      · rintro (hR | hO)
        · exact h2 hR
        · exact absurd hO this
    · rename_i idx hidx
      intro t ht
      obtain ⟨h1, h2⟩ := h t ht
      have hmem := mem_time2idx2 hidx ht
      constructor
      · simp only
        split
        · rename_i hin
          have := hmem.mp hin
          simp [this]
        · rename_i hin
          have : ¬ s.Overlaps t a b := fun ho => hin (hmem.mpr ho)
          rw [h1]; tauto
      · rintro (hR | hO)
        · exact h2 hR
        · exact fun c hcm ho => hc c hcm t ho hO
  unfold Sched.insertReserved
  simp only
  split
  · exact h1
  · exact h1.mapBlocks _ (fun b _ => ⟨rfl, rfl⟩)

/-! ### Genetic clean-up -/

/-- Exact accounting during the clean-up, over the examined blocks. -/
def AccP (R P : Nat → Prop) (s : Sched) : Prop :=
  ∀ t, t < s.size → (s.free t = true ↔ ¬ R t ∧ ∀ i b, P i → s.blocks[i]? = some b → ¬ Occupies b t) ∧
    (R t → ∀ i b, P i → s.blocks[i]? = some b → ¬ Occupies b t)

theorem cleanStep_size (s : Sched) (i : Nat) : (s.cleanStep i).size = s.size := by
  unfold Sched.cleanStep
  split
  · rfl
  · split
    · rfl
    · split <;> rfl

theorem AccP.step {R P : Nat → Prop} {s : Sched} {i : Nat} (hP : ¬ P i) (hl : Loose s) (h : AccP R P s) :
    AccP R (fun k => k = i ∨ P k) (s.cleanStep i) := by
  have none_case : ∀ (s' : Sched), s'.size = s.size → s'.free = s.free →
      (∀ t b, s'.blocks[i]? = some b → ¬ Occupies b t) →
      (∀ k, k ≠ i → s'.blocks[k]? = s.blocks[k]?) → AccP R (fun k => k = i ∨ P k) s' := by
    intro s' e1 e2 e3 e4 t ht
    rw [e1] at ht
    obtain ⟨h1, h2⟩ := h t ht
    have he : (∀ k b, (k = i ∨ P k) → s'.blocks[k]? = some b → ¬ Occupies b t) ↔
        ∀ k b, P k → s.blocks[k]? = some b → ¬ Occupies b t := by
      constructor
      · intro hh k b hk hb
        have hki : k ≠ i := fun e => hP (e ▸ hk)
        exact hh k b (Or.inr hk) (by rw [e4 k hki]; exact hb)
      · rintro hh k b (rfl | hk) hb
        · exact e3 t b hb
        · have hki : k ≠ i := fun e => hP (e ▸ hk)
          exact hh k b hk (by rw [← e4 k hki]; exact hb)
    rw [e2]
    exact ⟨by rw [he]; exact h1, fun hR => he.mpr (h2 hR)⟩
  unfold Sched.cleanStep
  split
  · rename_i hb
    exact none_case s rfl rfl (fun t b hb' => by rw [hb] at hb'; exact absurd hb' (by simp)) (fun _ _ => rfl)
  · rename_i b hb
    have hm := getElem?_mem hb
    split
    · rename_i hst
      refine none_case s rfl rfl (fun t b' hb' => ?_) (fun _ _ => rfl)
      rw [hb] at hb'; obtain rfl := Option.some.inj hb'
      exact not_occ_of_none hst t
    · rename_i st hst
      have hocc : ∀ t, Occupies b t ↔ st ≤ t ∧ t < st + b.nSlots := by
        intro t
        constructor
        · rintro ⟨st', h', h1, h2⟩
          rw [hst] at h'; obtain rfl := Option.some.inj h'; exact ⟨h1, h2⟩
        · rintro ⟨h1, h2⟩; exact ⟨st, hst, h1, h2⟩
      split
      · rename_i hall
        have hfree : ∀ t, Occupies b t → s.free t = true := by
          intro t ho
          have hlt := hl.inside b hm t ho
          simp only [List.all_eq_true, List.mem_range, Bool.or_eq_true, Bool.not_eq_true'] at hall
          have hin : inSlice s.size st (st + b.nSlots : Nat) t = true := by
            rw [inSlice_nat]; exact ⟨((hocc t).mp ho).1, ((hocc t).mp ho).2, hlt⟩
          rcases hall t hlt with hx | hx
          · rw [hin] at hx; exact absurd hx (by simp)
          · exact hx
        intro t ht
        have ht' : t < s.size := ht
        obtain ⟨h1, h2⟩ := h t ht'
        have he : (∀ k c, (k = i ∨ P k) → (s.setFree st b.nSlots false).blocks[k]? = some c → ¬ Occupies c t) ↔
            (¬ Occupies b t ∧ ∀ k c, P k → s.blocks[k]? = some c → ¬ Occupies c t) := by
          constructor
          · intro hh
            exact ⟨hh i b (Or.inl rfl) hb, fun k c hk hc => hh k c (Or.inr hk) hc⟩
          · rintro ⟨hA, hB⟩ k c (rfl | hk) hc
            · have hc' : s.blocks[k]? = some c := hc
              rw [hb] at hc'; obtain rfl := Option.some.inj hc'
              exact hA
            · exact hB k c hk hc
        constructor
        · rw [he, setFree_free]
          split
          · rename_i hc
            have : Occupies b t := (hocc t).mpr ⟨hc.1, hc.2.1⟩
            simp [this]
          · rename_i hc
            have : ¬ Occupies b t := fun ho => hc ⟨((hocc t).mp ho).1, ((hocc t).mp ho).2, ht'⟩
            rw [h1]; tauto
        · intro hR
          rw [he]
          exact ⟨fun ho => (h1.mp (hfree t ho)).1 hR, h2 hR⟩
      · refine none_case _ rfl rfl ?_ ?_
        · intro t c hc
          simp only [Sched.setBlock] at hc
          have hlt : i < s.blocks.length := (List.getElem?_eq_some_iff.mp hb).1
          rw [List.getElem?_set_self hlt] at hc
          obtain rfl := Option.some.inj hc
          exact not_occ_of_none rfl t
        · intro k hk
          simp only [Sched.setBlock]
          rw [List.getElem?_set_ne (Ne.symm hk)]

theorem AccP.fold {R : Nat → Prop} : ∀ (is : List Nat) {s : Sched} {P : Nat → Prop}, is.Nodup → (∀ i ∈ is, ¬ P i) →
    Cleaned s P → AccP R P s → AccP R (fun k => k ∈ is ∨ P k) (is.foldl Sched.cleanStep s)
  | [], s, P, _, _, _, h => by simpa using h
  | i :: is, s, P, hn, hd, hc, h => by
    rw [List.nodup_cons] at hn
    have h1 := AccP.step (hd i List.mem_cons_self) hc.loose h
    have h2 := AccP.fold is hn.2 (P := fun k => k = i ∨ P k) ?_ (hc.step i) h1
    · rw [List.foldl_cons]
      have e : (fun k => k ∈ i :: is ∨ P k) = (fun k => k ∈ is ∨ (k = i ∨ P k)) := by
        funext k
        simp only [List.mem_cons]
        apply propext; tauto
      rw [e]
      exact h2
    · rintro k hk (rfl | hPk)
      · exact hn.1 hk
      · exact hd k (List.mem_cons_of_mem _ hk) hPk

theorem nodup_insertByScore (score : Nat → ℚ) (i : Nat) : ∀ (l : List Nat), l.Nodup → i ∉ l →
    (insertByScore score i l).Nodup
  | [], _, _ => by simp [insertByScore]
  | j :: js, hn, hi => by
    unfold insertByScore
    split
    · exact List.nodup_cons.mpr ⟨hi, hn⟩
    · rw [List.nodup_cons] at hn
      simp only [List.mem_cons, not_or] at hi
      refine List.nodup_cons.mpr ⟨?_, nodup_insertByScore score i js hn.2 hi.2⟩
      rw [mem_insertByScore]
      rintro (rfl | h)
      · exact hi.1 rfl
      · exact hn.1 h

theorem nodup_foldl_insert (score : Nat → ℚ) : ∀ (l acc : List Nat), l.Nodup → acc.Nodup → (∀ i ∈ l, i ∉ acc) →
    (l.foldl (fun acc i => insertByScore score i acc) acc).Nodup
  | [], acc, _, h, _ => h
  | i :: l, acc, hl, h, hd => by
    rw [List.nodup_cons] at hl
    rw [List.foldl_cons]
    refine nodup_foldl_insert score l _ hl.2 (nodup_insertByScore score i acc h (hd i List.mem_cons_self)) ?_
    intro k hk
    rw [mem_insertByScore]
    rintro (rfl | h')
    · exact hl.1 hk
    · exact hd k (List.mem_cons_of_mem _ hk) h'

theorem nodup_sortByScore (score : Nat → ℚ) (n : Nat) : (sortByScore score n).Nodup :=
  nodup_foldl_insert score _ _ List.nodup_range List.nodup_nil (by simp)

theorem tune_fields : ∀ (m : List (Nat × Bool)) (s : Sched), (m.foldl Sched.tuneMove s).free = s.free ∧
    (m.foldl Sched.tuneMove s).size = s.size
  | [], _ => ⟨rfl, rfl⟩
  | mv :: m, s => by
    have h := tune_fields m (s.tuneMove mv)
    have h' := tuneMove_fields s mv
    exact ⟨h.1.trans h'.1, h.2.trans h'.2.1⟩

theorem prepare_reset_unbooked (s : Sched) (v : Bool) : ∀ b ∈ (s.prepare true v).blocks, b.start = none := by
  have h1 : ∀ b ∈ s.reset.computeScores.blocks, b.start = none := by
    intro b hb
    obtain ⟨c, hc, rfl⟩ := List.mem_map.mp hb
    exact reset_unbooked s c hc
  unfold Sched.prepare
  simp only [if_true]
  split
  · intro b hb
    obtain ⟨c, hc, rfl⟩ := List.mem_map.mp hb
    exact h1 c hc
  · exact h1

theorem Acc.bookGA {R : Nat → Prop} {s : Sched} (hg : Good s) (h : Acc R s) {v : Bool} {g : List Nat}
    {m : List (Nat × Bool)} {sc : Nat → ℚ} (hok : (s.bookGA true v g m sc).2 = none) :
    Acc R (s.bookGA true v g m sc).1 := by
  have hp := hg.prepare true v
  have ha := h.prepare hg true v
  have hun := prepare_reset_unbooked s v
  unfold Sched.bookGA at hok ⊢
  simp only at hok ⊢
  split at hok
  · rename_i hc
    rw [if_pos hc]; exact ha
  · rename_i hz
    rw [if_neg hz]
    split at hok
    · simp at hok
    rename_i hc
    rw [if_neg hc]
    split at hok
    · simp at hok
    · rename_i he
      split at hok
      · simp at hok
      · rename_i hbk
        rw [if_neg hbk]
        have hl := hp.1.loose hp.2
        have hl2 : Loose { (s.prepare true v) with blocks := (assignGenome (s.prepare true v) (s.prepare true v).blocks g).1 } := by
          rw [loose_iff] at hl ⊢
          exact ⟨hl.1, assignGenome_ok hl.1 _ _ hl.2 he⟩
        have hl3 := hl2.tune m
        have hc3 : Cleaned _ (fun _ => False) := ⟨hl3, fun _ _ hf => hf.elim, fun _ _ _ _ hf => hf.elim⟩
        have ha3 : AccP R (fun _ => False) (List.foldl Sched.tuneMove
            { (s.prepare true v) with blocks := (assignGenome (s.prepare true v) (s.prepare true v).blocks g).1 } m) := by
          intro t ht
          obtain ⟨f1, f2⟩ := tune_fields m
            { (s.prepare true v) with blocks := (assignGenome (s.prepare true v) (s.prepare true v).blocks g).1 }
          rw [f2] at ht
          obtain ⟨h1, _⟩ := ha t ht
          refine ⟨?_, fun _ _ _ hf => hf.elim⟩
          rw [f1]
          show (s.prepare true v).free t = true ↔ _
          rw [h1]
          constructor
          · rintro ⟨hR, _⟩; exact ⟨hR, fun _ _ hf => hf.elim⟩
          · rintro ⟨hR, _⟩; exact ⟨hR, fun b hb => not_occ_of_none (hun b hb) t⟩
        have hf := AccP.fold (R := R) (sortByScore sc (List.foldl Sched.tuneMove
          { (s.prepare true v) with blocks := (assignGenome (s.prepare true v) (s.prepare true v).blocks g).1 } m).blocks.length)
          (nodup_sortByScore _ _) (fun _ _ hf => hf) hc3 ha3
        have hlen := (Cleaned.fold (sortByScore sc (List.foldl Sched.tuneMove
          { (s.prepare true v) with blocks := (assignGenome (s.prepare true v) (s.prepare true v).blocks g).1 } m).blocks.length) hc3).2
        intro t ht
        obtain ⟨h1, h2⟩ := hf t ht
        have hall : ∀ (k : Nat) (b : Block), (List.foldl Sched.cleanStep (List.foldl Sched.tuneMove
          { (s.prepare true v) with blocks := (assignGenome (s.prepare true v) (s.prepare true v).blocks g).1 } m)
          (sortByScore sc (List.foldl Sched.tuneMove
          { (s.prepare true v) with blocks := (assignGenome (s.prepare true v) (s.prepare true v).blocks g).1 } m).blocks.length)).blocks[k]? = some b →
          (k ∈ sortByScore sc (List.foldl Sched.tuneMove
          { (s.prepare true v) with blocks := (assignGenome (s.prepare true v) (s.prepare true v).blocks g).1 } m).blocks.length ∨ False) := by
          intro k b hk
          left
          rw [mem_sortByScore, ← hlen]
          exact (List.getElem?_eq_some_iff.mp hk).1
        constructor
        · rw [h1]
          constructor
          · rintro ⟨hR, hh⟩
            refine ⟨hR, fun b hb => ?_⟩
            obtain ⟨k, hk⟩ := List.mem_iff_getElem?.mp hb
            exact hh k b (hall k b hk) hk
          · rintro ⟨hR, hh⟩
            exact ⟨hR, fun k b _ hk => hh b (getElem?_mem hk)⟩
        · intro hR b hb
          obtain ⟨k, hk⟩ := List.mem_iff_getElem?.mp hb
          exact h2 hR k b (hall k b hk) hk

end Verif.Scheduler
