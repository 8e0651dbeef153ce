import Verif.Sched.Spec

/-! Helper lemmas for the scheduler: effect of each primitive, and preservation of the invariant. -/

namespace Verif.Scheduler

/-- Invariant of every reachable schedule. -/
structure Good (s : Sched) : Prop where
  dt_pos : 0 < s.dt
  dur : ∀ b ∈ s.blocks, 0 < b.duration ∧ b.nSlots = ceilSlots b.duration s.dt
  cnst : ∀ b ∈ s.blocks, ∀ j, 0 ≤ b.cnst j
  noDouble : NoDoubleBooking s
  inside : InsideSchedule s
  notFree : BookedNotFree s
  times : TimesMatch s

/-- Rows of the score table: non-negative, and non-zero only where the block fits. -/
def RowsOK (s : Sched) : Prop :=
  ∀ b ∈ s.blocks, ∀ j, 0 ≤ b.row j ∧ (b.row j ≠ 0 → j + b.nSlots ≤ s.size)

theorem ceilSlots_pos {x dt : ℚ} (hx : 0 < x) (hdt : 0 < dt) : 0 < ceilSlots x dt := by
  unfold ceilSlots
  have : 0 < ⌈x / dt⌉ := Int.ceil_pos.mpr (div_pos hx hdt)
  omega

theorem ceilSlots_cover {x dt : ℚ} (hx : 0 < x) (hdt : 0 < dt) :
    x ≤ ceilSlots x dt * dt ∧ (ceilSlots x dt : ℚ) * dt < x + dt := by
  have hp : 0 < ⌈x / dt⌉ := Int.ceil_pos.mpr (div_pos hx hdt)
  have hc : ((ceilSlots x dt : ℕ) : ℚ) = (⌈x / dt⌉ : ℚ) := by
    unfold ceilSlots
    have : ((⌈x / dt⌉.toNat : ℤ)) = ⌈x / dt⌉ := Int.toNat_of_nonneg hp.le
    exact_mod_cast congrArg (fun z : ℤ => (z : ℚ)) this
  rw [hc]
  have h1 := Int.le_ceil (x / dt)
  have h2 := Int.ceil_lt_add_one (x / dt)
  constructor
  · calc x = x / dt * dt := by field_simp
      _ ≤ _ := by exact mul_le_mul_of_nonneg_right h1 hdt.le
  · calc _ < (x / dt + 1) * dt := mul_lt_mul_of_pos_right h2 hdt
      _ = x + dt := by field_simp

theorem ceilSlots_mul {n : Nat} {dt : ℚ} (hdt : 0 < dt) : ceilSlots (n * dt) dt = n := by
  unfold ceilSlots
  rw [mul_div_assoc, div_self hdt.ne', mul_one]
  simp

theorem Good.nSlots_pos {s : Sched} (h : Good s) {b : Block} (hb : b ∈ s.blocks) : 0 < b.nSlots := by
  rw [(h.dur b hb).2]; exact ceilSlots_pos (h.dur b hb).1 h.dt_pos

theorem getElem?_mem {α} {l : List α} {i : Nat} {a : α} (h : l[i]? = some a) : a ∈ l :=
  List.mem_of_getElem? h

/-! ### Placing one block -/

theorem placed_start (s : Sched) (b : Block) (st : Nat) : (s.placed b st).start = some st := rfl
theorem placed_nSlots (s : Sched) (b : Block) (st : Nat) : (s.placed b st).nSlots = b.nSlots := rfl

theorem placed_times (s : Sched) (b : Block) (st : Nat) (hn : 0 < b.nSlots) :
    (s.placed b st).tMin = some (s.t0 + st * s.dt) ∧
    (s.placed b st).tMax = some (s.t0 + (st + b.nSlots : ℕ) * s.dt) := by
  refine ⟨rfl, ?_⟩
  simp only [Sched.placed, Sched.slotStop, Sched.slotStart, Option.some.injEq]
  have : ((st + b.nSlots - 1 : ℕ) : ℚ) = ((st + b.nSlots : ℕ) : ℚ) - 1 := by
    rw [Nat.cast_sub (by omega)]; simp
  rw [this]; ring

theorem occ_placed {s : Sched} {b : Block} {st t : Nat} :
    Occupies (s.placed b st) t ↔ st ≤ t ∧ t < st + b.nSlots := by
  constructor
  · rintro ⟨st', h, h1, h2⟩
    simp only [Sched.placed, Option.some.injEq] at h h2
    subst h; exact ⟨h1, h2⟩
  · rintro ⟨h1, h2⟩; exact ⟨st, rfl, h1, h2⟩

/-- Replace block `i` by a block occupying only slots that were free or its own, marking its new slots taken
and possibly releasing its old ones: the invariant is kept. -/
theorem Good.replaceOwn {s : Sched} (h : Good s) {i : Nat} {b b' : Block} {s' : Sched}
    (hb : s.blocks[i]? = some b)
    (hdt : s'.dt = s.dt) (ht0 : s'.t0 = s.t0) (hsz : s'.size = s.size)
    (hbl : s'.blocks = s.blocks.set i b')
    (hdur : 0 < b'.duration ∧ b'.nSlots = ceilSlots b'.duration s.dt)
    (hcn : ∀ j, 0 ≤ b'.cnst j)
    (hocc : ∀ t, Occupies b' t → t < s.size ∧ (s.free t = true ∨ Occupies b t) ∧ s'.free t = false)
    (hnf : ∀ t, s.free t = false → ¬ Occupies b t → s'.free t = false)
    (htm : ∀ st, b'.start = some st →
      b'.tMin = some (s.t0 + st * s.dt) ∧ b'.tMax = some (s.t0 + (st + b'.nSlots : ℕ) * s.dt)) :
    Good s' := by
  have hmem : ∀ c ∈ s'.blocks, c ∈ s.blocks ∨ c = b' := by
    intro c hc; rw [hbl] at hc; exact List.mem_or_eq_of_mem_set hc
  have hlt : i < s.blocks.length := (List.getElem?_eq_some_iff.mp hb).1
  have hget : ∀ (j : Nat) (c : Block), s'.blocks[j]? = some c → (j = i ∧ c = b') ∨ (j ≠ i ∧ s.blocks[j]? = some c) := by
    intro j c hc
    rw [hbl, List.getElem?_set] at hc
    split at hc
    · rename_i hji
      exact Or.inl ⟨hji.symm, (Option.some.inj hc).symm⟩
    · rename_i hji
      exact Or.inr ⟨fun e => hji e.symm, hc⟩
  have key : ∀ (j : Nat) (c : Block) (t : Nat), j ≠ i → s.blocks[j]? = some c → Occupies c t → ¬ Occupies b' t := by
    intro j c t hji hc hoc hob
    rcases (hocc t hob).2.1 with hf | hown
    · have := h.notFree c (getElem?_mem hc) t hoc
      rw [this] at hf; exact absurd hf (by simp)
    · exact h.noDouble j i c b t hc hb hji hoc hown
  refine ⟨hdt ▸ h.dt_pos, ?_, ?_, ?_, ?_, ?_, ?_⟩
  · intro c hc
    rw [hdt]
    rcases hmem c hc with hc | rfl
    · exact h.dur c hc
    · exact hdur
  · intro c hc
    rcases hmem c hc with hc | rfl
    · exact h.cnst c hc
    · exact hcn
  · intro j k bj bk t hj hk hne hoj hok
    rcases hget j bj hj with ⟨rfl, rfl⟩ | ⟨hji, hj'⟩
    · rcases hget k bk hk with ⟨rfl, rfl⟩ | ⟨hki, hk'⟩
      · exact hne rfl
      · exact key k bk t hki hk' hok hoj
    · rcases hget k bk hk with ⟨rfl, rfl⟩ | ⟨hki, hk'⟩
      · exact key j bj t hji hj' hoj hok
      · exact h.noDouble j k bj bk t hj' hk' hne hoj hok
  · intro c hc t ho
    rw [hsz]
    rcases hmem c hc with hc | rfl
    · exact h.inside c hc t ho
    · exact (hocc t ho).1
  · intro c hc t ho
    obtain ⟨j, hj⟩ := List.mem_iff_getElem?.mp hc
    rcases hget j c hj with ⟨rfl, rfl⟩ | ⟨hji, hj'⟩
    · exact (hocc t ho).2.2
    · exact hnf t (h.notFree c (getElem?_mem hj') t ho) (h.noDouble j i c b t hj' hb hji ho)
  · intro c hc st hst
    rw [hdt, ht0]
    rcases hmem c hc with hc | rfl
    · exact h.times c hc st hst
    · exact htm st hst

/-- The same when the slots of the old block stay taken. Used for heuristic booking, extension. -/
theorem Good.replace {s : Sched} (h : Good s) {i : Nat} {b b' : Block} {s' : Sched}
    (hb : s.blocks[i]? = some b)
    (hdt : s'.dt = s.dt) (ht0 : s'.t0 = s.t0) (hsz : s'.size = s.size)
    (hbl : s'.blocks = s.blocks.set i b')
    (hdur : 0 < b'.duration ∧ b'.nSlots = ceilSlots b'.duration s.dt)
    (hcn : ∀ j, 0 ≤ b'.cnst j)
    (hocc : ∀ t, Occupies b' t → t < s.size ∧ (s.free t = true ∨ Occupies b t) ∧ s'.free t = false)
    (hnf : ∀ t, s.free t = false → s'.free t = false)
    (htm : ∀ st, b'.start = some st →
      b'.tMin = some (s.t0 + st * s.dt) ∧ b'.tMax = some (s.t0 + (st + b'.nSlots : ℕ) * s.dt)) :
    Good s' :=
  h.replaceOwn hb hdt ht0 hsz hbl hdur hcn hocc (fun t ht _ => hnf t ht) htm

theorem setFree_free (s : Sched) (a n : Nat) (v : Bool) (i : Nat) :
    (s.setFree a n v).free i = if (a ≤ i ∧ i < a + n ∧ i < s.size) then v else s.free i := by
  unfold Sched.setFree
  simp only
  by_cases h : inSlice s.size a (a + n : Nat) i = true
  · rw [if_pos h, if_pos ((inSlice_nat _ _ _ _).mp h)]
  · rw [if_neg h, if_neg (fun hc => h ((inSlice_nat _ _ _ _).mpr hc))]

/-! ### Masking and choosing -/

theorem masked_iff {size n : Nat} {f : Nat → Bool} {j : Nat} :
    masked size n f j = true ↔ ∃ t, t < size ∧ f t = false ∧ j ≤ t ∧ t < j + n := by
  unfold masked
  simp only [List.any_eq_true, List.mem_range, Bool.and_eq_true, Bool.not_eq_true', decide_eq_true_iff]
  constructor
  · rintro ⟨t, ht, hf, k, hk, hkt, hj⟩
    exact ⟨t, ht, hf, by omega, by omega⟩
  · rintro ⟨t, ht, hf, h1, h2⟩
    exact ⟨t, ht, hf, t - j, by omega, by omega, by omega⟩

theorem avail_free {s : Sched} {b : Block} {j : Nat} (h : s.avail b j = true) : s.free j = true := by
  unfold Sched.avail at h
  split at h
  · exact (Bool.and_eq_true _ _ ▸ h).1
  · exact h

theorem availStart_all {s : Sched} {b : Block} {j : Nat} (h : s.availStart b j = true) :
    ∀ t, j ≤ t → t < j + b.nSlots → t < s.size → s.avail b t = true := by
  intro t h1 h2 h3
  unfold Sched.availStart at h
  rw [Bool.and_eq_true, Bool.not_eq_true'] at h
  by_contra hc
  have : masked s.size b.nSlots (s.avail b) j = true :=
    masked_iff.mpr ⟨t, h3, by simpa using hc, h1, h2⟩
  rw [this] at h; exact absurd h.2 (by simp)

theorem availStart_iff {s : Sched} {b : Block} {j : Nat} (hj : j < s.size) (hn : 0 < b.nSlots) :
    s.availStart b j = true ↔ ∀ t, j ≤ t → t < j + b.nSlots → t < s.size → s.avail b t = true := by
  refine ⟨availStart_all, fun h => ?_⟩
  unfold Sched.availStart
  rw [Bool.and_eq_true, Bool.not_eq_true']
  refine ⟨h j (le_refl _) (by omega) hj, ?_⟩
  by_contra hc
  rw [Bool.not_eq_false, masked_iff] at hc
  obtain ⟨t, h1, h2, h3, h4⟩ := hc
  rw [h t h3 h4 h1] at h2; exact absurd h2 (by simp)

theorem hoursWeight_nonneg (h : Option ℚ) (u : ℚ) : 0 ≤ hoursWeight h u := by
  unfold hoursWeight
  split
  · norm_num
  · split
    · exact le_refl _
    · have := min_le_left (1 : ℚ) (u / ‹ℚ›); linarith

theorem b2q_nonneg (b : Bool) : 0 ≤ b2q b := by cases b <;> simp [b2q]

theorem bookScore_nonneg {s : Sched} {p : BookParams} {du nu : ℚ} {b : Block} {j : Nat} (h : 0 ≤ b.row j) :
    0 ≤ s.bookScore p du nu b j := by
  unfold Sched.bookScore
  have h1 := hoursWeight_nonneg p.dayHours du
  have h2 := hoursWeight_nonneg p.nightHours nu
  have h3 := b2q_nonneg (s.free j)
  have h4 := b2q_nonneg (s.availStart b j)
  split <;> positivity

theorem bookScore_ne_zero {s : Sched} {p : BookParams} {du nu : ℚ} {b : Block} {j : Nat}
    (h : s.bookScore p du nu b j ≠ 0) : b.row j ≠ 0 ∧ s.availStart b j = true := by
  unfold Sched.bookScore at h
  constructor
  · intro hr; apply h; rw [hr]; ring
  · by_contra hc
    apply h
    have : s.availStart b j = false := by simpa using hc
    rw [this]; simp [b2q]

theorem choose_some {s : Sched} {p : BookParams} {du nu : ℚ} {b : Block} {j : Nat}
    (h : s.choose p du nu b = some j) (hrow : ∀ j, 0 ≤ b.row j) :
    j < s.size ∧ 0 < s.bookScore p du nu b j ∧ p.minScore ≤ s.bookScore p du nu b j ∧
    (∀ k, k < s.size → s.bookScore p du nu b k ≤ s.bookScore p du nu b j) ∧
    (∀ k, k < j → s.bookScore p du nu b k < s.bookScore p du nu b j) := by
  unfold Sched.choose at h
  simp only at h
  split at h
  · exact absurd h (by simp)
  · rename_i h1
    split at h
    · exact absurd h (by simp)
    · rename_i h2
      simp only [Option.some.injEq] at h
      subst h
      simp only [List.all_eq_true, List.mem_range, decide_eq_true_iff, not_forall] at h1
      obtain ⟨k, hk, hne⟩ := h1
      simp only [Bool.not_eq_true', Bool.not_eq_false, List.any_eq_true, List.mem_range,
        decide_eq_true_iff] at h2
      obtain ⟨m, hm, hmin⟩ := h2
      have hsz : 0 < s.size := by omega
      have hmax := fun k (hk : k < s.size) => argmax_max (s.bookScore p du nu b) hk
      have hkpos : 0 < s.bookScore p du nu b k :=
        lt_of_le_of_ne (bookScore_nonneg (hrow k)) (Ne.symm hne)
      exact ⟨argmax_lt _ hsz, lt_of_lt_of_le hkpos (hmax k hk), le_trans hmin (hmax m hm), hmax,
        fun k hk => argmax_first _ hk⟩

theorem choose_none {s : Sched} {p : BookParams} {du nu : ℚ} {b : Block}
    (h : s.choose p du nu b = none) :
    (∀ k, k < s.size → s.bookScore p du nu b k = 0) ∨ (∀ k, k < s.size → s.bookScore p du nu b k < p.minScore) := by
  unfold Sched.choose at h
  simp only at h
  split at h
  · rename_i h1
    left
    simpa only [List.all_eq_true, List.mem_range, decide_eq_true_iff] using h1
  · split at h
    · rename_i h2
      right
      intro k hk
      by_contra hc
      simp only [Bool.not_eq_true', List.any_eq_false, List.mem_range, decide_eq_true_iff] at h2
      exact h2 k hk (not_lt.mp hc)
    · exact absurd h (by simp)

/-! ### Heuristic step -/

theorem freezeProc_fields (s : Sched) (a b : Int) :
    (s.freezeProc a b).1.blocks = s.blocks ∧ (s.freezeProc a b).1.free = s.free ∧
    (s.freezeProc a b).1.size = s.size ∧ (s.freezeProc a b).1.dt = s.dt ∧ (s.freezeProc a b).1.t0 = s.t0 ∧
    (s.freezeProc a b).1.day = s.day := by
  unfold Sched.freezeProc
  split <;> simp

theorem bookAt_fields (s : Sched) (i : Nat) (b : Block) (st : Nat) :
    (s.bookAt i b st).blocks = s.blocks.set i (s.placed b st) ∧
    (s.bookAt i b st).free = (s.setFree st b.nSlots false).free ∧
    (s.bookAt i b st).size = s.size ∧ (s.bookAt i b st).dt = s.dt ∧ (s.bookAt i b st).t0 = s.t0 ∧
    (s.bookAt i b st).day = s.day := by
  unfold Sched.bookAt
  simp only [Sched.setBlock]
  split
  · have h := freezeProc_fields (s.setFree st b.nSlots false) ((st : Int) - b.nDelay)
      ((st : Int) + b.nSlots - 1 + b.nDelay + 1)
    refine ⟨?_, h.2.1, ?_, ?_, ?_, ?_⟩
    · rw [h.1]; rfl
    · exact h.2.2.1
    · exact h.2.2.2.1
    · exact h.2.2.2.2.1
    · exact h.2.2.2.2.2
  · simp [Sched.setFree]

theorem Good.bookAt {s : Sched} (h : Good s) {i : Nat} {b : Block} {st : Nat}
    (hb : s.blocks[i]? = some b) (hfit : st + b.nSlots ≤ s.size)
    (hfree : ∀ t, st ≤ t → t < st + b.nSlots → s.free t = true) : Good (s.bookAt i b st) := by
  obtain ⟨f1, f2, f3, f4, f5, _⟩ := bookAt_fields s i b st
  have hm := getElem?_mem hb
  refine h.replace hb f4 f5 f3 f1 (h.dur b hm) (h.cnst b hm) ?_ ?_ ?_
  · intro t ht
    rw [occ_placed] at ht
    refine ⟨by omega, Or.inl (hfree t ht.1 ht.2), ?_⟩
    rw [f2, setFree_free, if_pos ⟨ht.1, ht.2, by omega⟩]
  · intro t ht
    rw [f2, setFree_free]
    split
    · rfl
    · exact ht
  · intro st' hst'
    have : st = st' := by simpa [Sched.placed] using hst'
    subst this
    exact placed_times s b st (h.nSlots_pos hm)

theorem RowsOK.bookAt {s : Sched} (h : RowsOK s) {i : Nat} {b : Block} {st : Nat}
    (hb : s.blocks[i]? = some b) : RowsOK (s.bookAt i b st) := by
  obtain ⟨f1, _, f3, _⟩ := bookAt_fields s i b st
  intro c hc j
  rw [f1] at hc
  rw [f3]
  rcases List.mem_or_eq_of_mem_set hc with hc | rfl
  · exact h c hc j
  · exact h b (getElem?_mem hb) j

/-- Everything one loop iteration can do. -/
theorem bookStep_cases (p : BookParams) (st : BState) (i : Nat) :
    ((bookStep p st i).1 = st) ∨
    ∃ b j, st.s.blocks[i]? = some b ∧ b.toSched = true ∧ b.start = none ∧
      st.s.choose p st.dayUsed st.nightUsed b = some j ∧
      (bookStep p st i).1.s = st.s.bookAt i b j ∧ (bookStep p st i).2 = none := by
  unfold bookStep
  split
  · left; rfl
  · rename_i b hb
    split
    · left; rfl
    · rename_i hc
      simp only [Bool.or_eq_true, Bool.not_eq_true', not_or, Bool.not_eq_false, Bool.not_eq_true,
        Option.isSome_eq_false_iff, Option.isNone_iff_eq_none] at hc
      split
      · left; rfl
      · rename_i j hj
        right
        exact ⟨b, j, hb, hc.1, hc.2, hj, rfl, rfl⟩

/-- A chosen start is a window of free slots inside the schedule. -/
theorem choose_window {s : Sched} {p : BookParams} {du nu : ℚ} {b : Block} {j : Nat}
    (hr : ∀ j, 0 ≤ b.row j ∧ (b.row j ≠ 0 → j + b.nSlots ≤ s.size))
    (h : s.choose p du nu b = some j) :
    j + b.nSlots ≤ s.size ∧ ∀ t, j ≤ t → t < j + b.nSlots → s.avail b t = true := by
  obtain ⟨_, hpos, _⟩ := choose_some h (fun j => (hr j).1)
  obtain ⟨h1, h2⟩ := bookScore_ne_zero hpos.ne'
  have hfit := (hr j).2 h1
  exact ⟨hfit, fun t ht1 ht2 => availStart_all h2 t ht1 ht2 (by omega)⟩

theorem Good.bookStep {p : BookParams} {st : BState} {i : Nat} (h : Good st.s) (hr : RowsOK st.s) :
    Good (bookStep p st i).1.s ∧ RowsOK (Scheduler.bookStep p st i).1.s := by
  rcases bookStep_cases p st i with he | ⟨b, j, hb, _, _, hj, he, _⟩
  · rw [he]; exact ⟨h, hr⟩
  · rw [he]
    obtain ⟨hfit, hav⟩ := choose_window (hr b (getElem?_mem hb)) hj
    exact ⟨h.bookAt hb hfit (fun t h1 h2 => avail_free (hav t h1 h2)), hr.bookAt hb⟩

theorem Good.bookLoop {p : BookParams} : ∀ {is : List Nat} {st : BState}, Good st.s → RowsOK st.s →
    Good (bookLoop p st is).1.s ∧ RowsOK (Scheduler.bookLoop p st is).1.s
  | [], _, h, hr => ⟨h, hr⟩
  | i :: is, st, h, hr => by
    have hs := h.bookStep (p := p) (i := i) hr
    unfold Scheduler.bookLoop
    split
    · rename_i st' heq
      rw [heq] at hs
      exact Good.bookLoop hs.1 hs.2
    · rename_i st' e heq
      rw [heq] at hs
      exact hs

/-! ### Reset, scoring -/

/-- Blocks are the same up to booking information. -/
theorem resetLoop_blocks (size : Nat) : ∀ (bs : List Block) (f : Nat → Bool) (p : Nat → Int),
    (resetLoop size bs f p).1 = bs.map fun b => { b with start := none }
  | [], _, _ => rfl
  | b :: bs, f, p => by
    unfold resetLoop
    split
    · rename_i hs
      simp only [List.map_cons, resetLoop_blocks size bs]
      congr 1
      cases b; simp_all
    · simp only [List.map_cons, resetLoop_blocks size bs]

theorem resetLoop_free (size : Nat) : ∀ (bs : List Block) (f : Nat → Bool) (p : Nat → Int) (t : Nat),
    (resetLoop size bs f p).2.1 t = true ↔ f t = true ∨ (t < size ∧ ∃ b ∈ bs, Occupies b t)
  | [], f, p, t => by simp [resetLoop]
  | b :: bs, f, p, t => by
    unfold resetLoop
    split
    · rename_i hs
      simp only
      rw [resetLoop_free size bs]
      constructor
      · rintro (h | ⟨h, c, hc, ho⟩)
        · exact Or.inl h
        · exact Or.inr ⟨h, c, List.mem_cons_of_mem _ hc, ho⟩
      · rintro (h | ⟨h, c, hc, ho⟩)
        · exact Or.inl h
        · rcases List.mem_cons.mp hc with rfl | hc
          · obtain ⟨st, hst, _⟩ := ho
            rw [hs] at hst; exact absurd hst (by simp)
          · exact Or.inr ⟨h, c, hc, ho⟩
    · rename_i st hs
      simp only
      rw [resetLoop_free size bs]
      constructor
      · rintro (h | ⟨h, c, hc, ho⟩)
        · split at h
          · rename_i hin
            rw [inSlice_nat] at hin
            exact Or.inr ⟨hin.2.2, b, List.mem_cons_self, st, hs, hin.1, hin.2.1⟩
          · exact Or.inl h
        · exact Or.inr ⟨h, c, List.mem_cons_of_mem _ hc, ho⟩
      · rintro (h | ⟨h, c, hc, ho⟩)
        · left; split
          · rfl
          · exact h
        · rcases List.mem_cons.mp hc with rfl | hc
          · left
            obtain ⟨st', hst, h1, h2⟩ := ho
            rw [hs] at hst
            obtain rfl := Option.some.inj hst
            rw [if_pos ((inSlice_nat _ _ _ _).mpr ⟨h1, h2, h⟩)]
          · exact Or.inr ⟨h, c, hc, ho⟩

theorem reset_blocks (s : Sched) : s.reset.blocks = s.blocks.map fun b => { b with start := none } :=
  resetLoop_blocks _ _ _ _

theorem reset_free (s : Sched) (t : Nat) :
    s.reset.free t = true ↔ s.free t = true ∨ (t < s.size ∧ ∃ b ∈ s.blocks, Occupies b t) :=
  resetLoop_free _ _ _ _ _

theorem reset_unbooked (s : Sched) : ∀ b ∈ s.reset.blocks, b.start = none := by
  intro b hb
  rw [reset_blocks, List.mem_map] at hb
  obtain ⟨c, _, rfl⟩ := hb
  rfl

theorem not_occ_of_none {b : Block} (h : b.start = none) (t : Nat) : ¬ Occupies b t := by
  rintro ⟨st, hst, _⟩; rw [h] at hst; exact absurd hst (by simp)

theorem Good.of_unbooked {s : Sched} (hdt : 0 < s.dt)
    (hdur : ∀ b ∈ s.blocks, 0 < b.duration ∧ b.nSlots = ceilSlots b.duration s.dt)
    (hc : ∀ b ∈ s.blocks, ∀ j, 0 ≤ b.cnst j) (hu : ∀ b ∈ s.blocks, b.start = none) : Good s := by
  refine ⟨hdt, hdur, hc, ?_, ?_, ?_, ?_⟩
  · intro i j bi bj t hi _ _ ho
    exact absurd ho (not_occ_of_none (hu bi (getElem?_mem hi)) t)
  · intro b hb t ho; exact absurd ho (not_occ_of_none (hu b hb) t)
  · intro b hb t ho; exact absurd ho (not_occ_of_none (hu b hb) t)
  · intro b hb st hst; rw [hu b hb] at hst; exact absurd hst (by simp)

theorem Good.reset {s : Sched} (h : Good s) : Good s.reset := by
  refine Good.of_unbooked h.dt_pos ?_ ?_ (reset_unbooked s)
  · intro b hb
    rw [reset_blocks, List.mem_map] at hb
    obtain ⟨c, hc, rfl⟩ := hb
    exact h.dur c hc
  · intro b hb
    rw [reset_blocks, List.mem_map] at hb
    obtain ⟨c, hc, rfl⟩ := hb
    exact h.cnst c hc

/-- Updating fields of the blocks that do not concern booking keeps the invariant. -/
theorem Good.mapBlocks {s : Sched} (h : Good s) (g : Block → Block)
    (h1 : ∀ b ∈ s.blocks, (g b).start = b.start ∧ (g b).tMin = b.tMin ∧ (g b).tMax = b.tMax ∧
      (g b).nSlots = b.nSlots ∧ (g b).duration = b.duration ∧ (g b).cnst = b.cnst) :
    Good { s with blocks := s.blocks.map g } := by
  have hocc : ∀ b ∈ s.blocks, ∀ t, Occupies (g b) t ↔ Occupies b t := by
    intro b hb t
    unfold Occupies
    rw [(h1 b hb).1, (h1 b hb).2.2.2.1]
  refine ⟨h.dt_pos, ?_, ?_, ?_, ?_, ?_, ?_⟩
  · intro b hb
    obtain ⟨c, hc, rfl⟩ := List.mem_map.mp hb
    obtain ⟨_, _, _, e4, e5, _⟩ := h1 c hc
    rw [e4, e5]; exact h.dur c hc
  · intro b hb
    obtain ⟨c, hc, rfl⟩ := List.mem_map.mp hb
    rw [(h1 c hc).2.2.2.2.2]; exact h.cnst c hc
  · intro i j bi bj t hi hj hne hoi hoj
    simp only [List.getElem?_map, Option.map_eq_some_iff] at hi hj
    obtain ⟨ci, hci, rfl⟩ := hi
    obtain ⟨cj, hcj, rfl⟩ := hj
    exact h.noDouble i j ci cj t hci hcj hne ((hocc ci (getElem?_mem hci) t).mp hoi)
      ((hocc cj (getElem?_mem hcj) t).mp hoj)
  · intro b hb t ho
    obtain ⟨c, hc, rfl⟩ := List.mem_map.mp hb
    exact h.inside c hc t ((hocc c hc t).mp ho)
  · intro b hb t ho
    obtain ⟨c, hc, rfl⟩ := List.mem_map.mp hb
    exact h.notFree c hc t ((hocc c hc t).mp ho)
  · intro b hb st hst
    obtain ⟨c, hc, rfl⟩ := List.mem_map.mp hb
    obtain ⟨e1, e2, e3, e4, _⟩ := h1 c hc
    rw [e2, e3, e4]
    exact h.times c hc st (e1 ▸ hst)

theorem cnstRow_nonneg {size n : Nat} {free : Nat → Bool} {c : Nat → ℚ} (hc : ∀ j, 0 ≤ c j) (j : Nat) :
    0 ≤ cnstRow size n free c j := by
  unfold cnstRow
  split
  · split
    · exact le_refl _
    · exact div_nonneg (sumTo_nonneg fun k _ => hc _) (Nat.cast_nonneg _)
  · exact le_refl _

theorem cnstRow_ne_zero {size n : Nat} {free : Nat → Bool} {c : Nat → ℚ} {j : Nat}
    (h : cnstRow size n free c j ≠ 0) : j < size - n ∧ ∀ k, k < n → free (j + k) = true := by
  unfold cnstRow at h
  split at h
  · rename_i hj
    split at h
    · exact absurd rfl h
    · rename_i hany
      refine ⟨hj, fun k hk => ?_⟩
      simp only [List.any_eq_true, List.mem_range, Bool.not_eq_true', not_exists, not_and,
        Bool.not_eq_false] at hany
      exact hany k hk
  · exact absurd rfl h

theorem Good.computeScores {s : Sched} (h : Good s) : Good s.computeScores ∧ RowsOK s.computeScores := by
  constructor
  · refine h.mapBlocks s.scoreBlock ?_
    intro b hb
    refine ⟨rfl, rfl, rfl, ?_, rfl, rfl⟩
    exact (h.dur b hb).2.symm
  · intro b hb j
    obtain ⟨c, hc, rfl⟩ := List.mem_map.mp hb
    simp only [Sched.scoreBlock, Sched.computeScores]
    refine ⟨cnstRow_nonneg (h.cnst c hc) j, fun hne => ?_⟩
    have := (cnstRow_ne_zero hne).1
    omega

theorem Good.prepare {s : Sched} (h : Good s) (r v : Bool) : Good (s.prepare r v) ∧ RowsOK (s.prepare r v) := by
  unfold Sched.prepare
  have h1 : Good (if r then s.reset else s) := by
    split
    · exact h.reset
    · exact h
  have h2 := h1.computeScores
  simp only
  split
  · constructor
    · exact h2.1.mapBlocks _ (fun b _ => ⟨rfl, rfl, rfl, rfl, rfl, rfl⟩)
    · intro b hb j
      obtain ⟨c, hc, rfl⟩ := List.mem_map.mp hb
      exact h2.2 c hc j
  · exact h2

theorem Good.book {s : Sched} (h : Good s) (p : BookParams) : Good (s.book p).1 := by
  have hp := h.prepare p.reset p.veryStrict
  exact (Good.bookLoop (st := ⟨s.prepare p.reset p.veryStrict, 0, 0⟩) hp.1 hp.2).1

/-! ### Insertions and reservations -/

theorem Good.insertObs {s : Sched} (h : Good s) (os : List ObsSpec)
    (hv : ∀ o ∈ os, 0 < o.duration ∧ ∀ j, 0 ≤ o.cnst j) : Good (s.insertObs os) := by
  have h1 : Good { s with blocks := s.blocks ++ os.map (ObsSpec.toBlock s.dt) } := by
    have hnew : ∀ b ∈ os.map (ObsSpec.toBlock s.dt), b.start = none ∧
        (0 < b.duration ∧ b.nSlots = ceilSlots b.duration s.dt) ∧ ∀ j, 0 ≤ b.cnst j := by
      intro b hb
      obtain ⟨o, ho, rfl⟩ := List.mem_map.mp hb
      exact ⟨rfl, ⟨(hv o ho).1, rfl⟩, (hv o ho).2⟩
    have hold : ∀ (b : Block) (t : Nat), b ∈ s.blocks ++ os.map (ObsSpec.toBlock s.dt) → Occupies b t →
        b ∈ s.blocks := by
      intro b t hb ho
      rcases List.mem_append.mp hb with hb | hb
      · exact hb
      · exact absurd ho (not_occ_of_none (hnew b hb).1 t)
    refine ⟨h.dt_pos, ?_, ?_, ?_, ?_, ?_, ?_⟩
    · intro b hb
      rcases List.mem_append.mp hb with hb | hb
      · exact h.dur b hb
      · exact (hnew b hb).2.1
    · intro b hb
      rcases List.mem_append.mp hb with hb | hb
      · exact h.cnst b hb
      · exact (hnew b hb).2.2
    · intro i j bi bj t hi hj hne hoi hoj
      have hio : s.blocks[i]? = some bi := by
        simp only [List.getElem?_append] at hi
        split at hi
        · exact hi
        · exact absurd hoi (not_occ_of_none (hnew bi (getElem?_mem hi)).1 t)
      have hjo : s.blocks[j]? = some bj := by
        simp only [List.getElem?_append] at hj
        split at hj
        · exact hj
        · exact absurd hoj (not_occ_of_none (hnew bj (getElem?_mem hj)).1 t)
      exact h.noDouble i j bi bj t hio hjo hne hoi hoj
    · intro b hb t ho; exact h.inside b (hold b t hb ho) t ho
    · intro b hb t ho; exact h.notFree b (hold b t hb ho) t ho
    · intro b hb st hst
      rcases List.mem_append.mp hb with hb | hb
      · exact h.times b hb st hst
      · rw [(hnew b hb).1] at hst; exact absurd hst (by simp)
  exact h1.mapBlocks (fun b => { b with toSched := true }) (fun b _ => ⟨rfl, rfl, rfl, rfl, rfl, rfl⟩)

theorem time2idx2_ok {s : Sched} {a b : ℚ} {idx : List Nat} (h : s.time2idx2 a b = .ok idx) (i : Nat) :
    i ∈ idx ↔ i < s.size ∧ a < s.slotStop i ∧ s.slotStart i < b := by
  unfold Sched.time2idx2 at h
  split at h
  · exact absurd h (by simp)
  · obtain rfl := Except.ok.inj h
    simp [List.mem_filter, List.mem_range]

theorem Good.lessFree {s : Sched} (h : Good s) (f : Nat → Bool) (hf : ∀ t, s.free t = false → f t = false) :
    Good { s with free := f } :=
  ⟨h.dt_pos, h.dur, h.cnst, h.noDouble, h.inside, fun b hb t ho => hf t (h.notFree b hb t ho), h.times⟩

theorem Good.addBooking {s : Sched} (h : Good s) (a b : ℚ) : Good (s.addBooking a b).1 := by
  unfold Sched.addBooking
  split
  · exact h
  · refine h.lessFree _ ?_
    intro t ht
    split
    · rfl
    · exact ht

theorem Good.insertReserved {s : Sched} (h : Good s) (a b : ℚ) : Good (s.insertReserved a b).1 := by
  unfold Sched.insertReserved
  simp only
  split
  · exact h.addBooking a b
  · exact (h.addBooking a b).mapBlocks (fun b => { b with toSched := true }) (fun b _ => ⟨rfl, rfl, rfl, rfl, rfl, rfl⟩)

end Verif.Scheduler
