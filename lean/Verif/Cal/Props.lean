import Verif.Cal.Model

/-!
# Calendars: properties C21 to C24
-/

namespace Verif.Cal

/-! ## C21 Night and day hours -/

/-- Length of the common part of `[a, b]` and `[c, d]`. -/
def common (a b c d : ℚ) : ℚ := max 0 (min b d - max a c)

/-- Hours of `[a, b]` that fall at night, for a period within two consecutive days of the same season. -/
def nightHours (s : Season) (a b : ℚ) : ℚ :=
  common a b 0 (nightBounds s).1 + common a b (nightBounds s).2 (24 + (nightBounds s).1) + common a b (24 + (nightBounds s).2) 48

theorem common_zero {a b c d : ℚ} (h : b ≤ c ∨ d ≤ a) : common a b c d = 0 := by
  unfold common
  rw [max_eq_left]
  rcases h with h | h
  · linarith [min_le_left b d, le_max_right a c]
  · linarith [min_le_right b d, le_max_left a c]

theorem common_split {a b c d m : ℚ} (h1 : a ≤ m) (h2 : m ≤ b) : common a b c d = common a m c d + common m b c d := by
  rcases le_total d m with h | h
  · rw [common_zero (a := m) (Or.inr h)]
    unfold common; rw [min_eq_right h, min_eq_right (by linarith)]; ring
  · rcases le_total m c with h' | h'
    · rw [common_zero (b := m) (Or.inl h')]
      unfold common; rw [max_eq_right h', max_eq_right (h1.trans h')]; ring
    · unfold common
      rw [min_eq_left h, max_eq_left h']
      have e1 : (0 : ℚ) ≤ m - max a c := by rw [sub_nonneg]; exact max_le h1 h'
      have e2 : (0 : ℚ) ≤ min b d - m := by rw [sub_nonneg]; exact le_min h2 h
      rw [max_eq_right e1, max_eq_right e2, max_eq_right (by linarith)]; ring

theorem common_full {a b c d : ℚ} (h1 : c ≤ a) (h2 : a ≤ b) (h3 : b ≤ d) : common a b c d = b - a := by
  unfold common; rw [min_eq_left h3, max_eq_left h1, max_eq_right (by linarith)]

theorem bounds_order (s : Season) : 0 ≤ (nightBounds s).1 ∧ (nightBounds s).1 ≤ (nightBounds s).2 ∧ (nightBounds s).2 ≤ 24 := by
  cases s <;> simp only [nightBounds] <;> norm_num

/-- Over whole days the night repeats. -/
theorem nightHours_split (s : Season) {a b m : ℚ} (h1 : a ≤ m) (h2 : m ≤ b) : nightHours s a b = nightHours s a m + nightHours s m b := by
  unfold nightHours; rw [common_split h1 h2, common_split h1 h2, common_split h1 h2]; ring

theorem common_shift (a b c d k : ℚ) : common (k + a) (k + b) (k + c) (k + d) = common a b c d := by
  unfold common; rw [min_add_add_left, max_add_add_left]; congr 1; ring

theorem nightHours_nextDay (s : Season) {b : ℚ} (h : b ≤ 24) : nightHours s 24 (24 + b) = nightHours s 0 b := by
  obtain ⟨o1, o2, o3⟩ := bounds_order s
  unfold nightHours
  rw [common_zero (a := 24) (d := (nightBounds s).1) (Or.inr (by linarith)), common_zero (a := 0) (c := 24 + (nightBounds s).2) (Or.inl (by linarith))]
  have e1 : common 24 (24 + b) (24 + (nightBounds s).2) 48 = common 0 b (nightBounds s).2 (24 + (nightBounds s).1) := by
    have := common_shift 0 b (nightBounds s).2 24 24
    rw [show (24 : ℚ) + 0 = 24 by ring, show (24 : ℚ) + 24 = 48 by ring] at this
    rw [this]; unfold common; rw [min_eq_left h, min_eq_left (by linarith)]
  have e2 : common 24 (24 + b) (nightBounds s).2 (24 + (nightBounds s).1) = common 0 b 0 (nightBounds s).1 := by
    have := common_shift 0 b 0 (nightBounds s).1 24
    rw [show (24 : ℚ) + 0 = 24 by ring] at this
    rw [← this]; unfold common; rw [max_eq_left o3, max_self]
  rw [e1, e2]; ring

/-- Within one day, the split between day and night is exact. -/
theorem night_split_exact (s : Season) (a b : ℚ) (h0 : 0 ≤ a) (hab : a ≤ b) (h24 : b ≤ 24) :
    (sortNight s a b).2 = nightHours s a b ∧ (sortNight s a b).1 + (sortNight s a b).2 = b - a
      ∧ 0 ≤ (sortNight s a b).1 ∧ 0 ≤ (sortNight s a b).2 := by
  have key : (sortNight s a b).2 = nightHours s a b ∧ 0 ≤ (sortNight s a b).2 ∧ (sortNight s a b).2 ≤ b - a := by
    obtain ⟨o1, o2, o3⟩ := bounds_order s
    unfold nightHours sortNight
    dsimp only
    generalize (nightBounds s).1 = m at *
    generalize (nightBounds s).2 = e at *
    rw [common_zero (c := 24 + e) (Or.inl (by linarith)), add_zero]
    rcases le_total b m with hbm | hmb
    · rw [common_full h0 hab hbm, common_zero (c := e) (Or.inl (by linarith)), max_eq_right (by linarith : (0 : ℚ) ≤ m - a),
        max_eq_left (by linarith : b - e ≤ 0), min_eq_right (by linarith)]
      refine ⟨?_, ?_, ?_⟩ <;> linarith
    · rcases le_total e a with hea | hae
      · rw [common_zero (d := m) (Or.inr (by linarith)), common_full hea hab (by linarith), max_eq_left (by linarith : m - a ≤ 0),
          max_eq_right (by linarith : (0 : ℚ) ≤ b - e), min_eq_right (by linarith)]
        refine ⟨?_, ?_, ?_⟩ <;> linarith
      · have c1 : common a b 0 m = max 0 (m - a) := by unfold common; rw [min_eq_right hmb, max_eq_left h0]
        have c2 : common a b e (24 + m) = max 0 (b - e) := by unfold common; rw [min_eq_left (by linarith), max_eq_right hae]
        rw [c1, c2]
        have hle : max 0 (m - a) + max 0 (b - e) ≤ b - a := by
          rcases le_total m a with x | x <;> rcases le_total b e with y | y
          · rw [max_eq_left (by linarith), max_eq_left (by linarith)]; linarith
          · rw [max_eq_left (by linarith), max_eq_right (by linarith)]; linarith
          · rw [max_eq_right (by linarith), max_eq_left (by linarith)]; linarith
          · rw [max_eq_right (by linarith), max_eq_right (by linarith)]; linarith
        have p1 := le_max_left 0 (m - a)
        have p2 := le_max_left 0 (b - e)
        rw [min_eq_left (by linarith)]
        refine ⟨?_, ?_, ?_⟩ <;> linarith
  have hsum : (sortNight s a b).1 + (sortNight s a b).2 = b - a := by
    simp only [sortNight]; ring
  exact ⟨key.1, hsum, by linarith [key.2.2], key.2.1⟩

example : (sortNight .winter 2 22).2 = 4 ∧ (sortNight .summer 4 10).2 = 0 ∧ (sortNight .summer 20 22).1 = 0 := by decide +kernel

/-- The hours of an event that lasts at most one day are counted exactly. -/
theorem event_hours_exact (s : Season) (h d : ℚ) (h0 : 0 ≤ h) (h24 : h < 24) (hd0 : 0 < d) (hd : d ≤ 24) :
    (eventHours s h d).2 = nightHours s h (h + d) ∧ (eventHours s h d).1 + (eventHours s h d).2 = d := by
  unfold eventHours
  by_cases hc : h + d < 24
  · have hf : ⌊(h + d) / 24⌋ = 0 := by
      rw [Int.floor_eq_iff]; constructor
      · have : (0 : ℚ) ≤ (h + d) / 24 := by positivity
        simpa using this
      · rw [div_lt_iff₀ (by norm_num)]; push_cast; linarith
    rw [hf]
    have e : h + d - 24 * ((0 : Int) : ℚ) = h + d := by push_cast; ring
    simp only [e]
    rw [if_neg (by linarith)]
    obtain ⟨a1, a2, -, -⟩ := night_split_exact s h (h + d) h0 (by linarith) hc.le
    exact ⟨a1, by rw [a2]; ring⟩
  · have hf : ⌊(h + d) / 24⌋ = 1 := by
      rw [Int.floor_eq_iff]; constructor
      · rw [le_div_iff₀ (by norm_num)]; push_cast; linarith
      · rw [div_lt_iff₀ (by norm_num)]; push_cast; linarith
    rw [hf]
    have e : h + d - 24 * ((1 : Int) : ℚ) = h + d - 24 := by push_cast; ring
    simp only [e]
    rw [if_pos (by linarith)]
    obtain ⟨a1, a2, -, -⟩ := night_split_exact s h 24 h0 h24.le le_rfl
    obtain ⟨b1, b2, -, -⟩ := night_split_exact s 0 (h + d - 24) le_rfl (by linarith) (by linarith)
    refine ⟨?_, by linarith⟩
    show (sortNight s h 24).2 + (sortNight s 0 (h + d - 24)).2 = _
    rw [a1, b1, ← nightHours_nextDay s (b := h + d - 24) (by linarith), show (24 : ℚ) + (h + d - 24) = h + d by ring,
      ← nightHours_split s h24.le (by linarith)]

example : eventHours .summer 18 12 = (3 + 1, 8) := by decide +kernel

/-- An event of more than one day is not counted in full: 25 hours are counted as one. -/
theorem long_event_violated : (eventHours .winter 10 25).1 + (eventHours .winter 10 25).2 = 1 := by decide +kernel

/-- In general whole days are lost. -/
theorem long_event_loses_days (s : Season) (h d : ℚ) (h0 : 0 ≤ h) (h24 : h < 24) (hd0 : 0 < d) (hd : d ≤ 24) (n : Nat) :
    (eventHours s h (d + 24 * n)).1 + (eventHours s h (d + 24 * n)).2 = d := by
  have e : ⌊(h + (d + 24 * (n : ℚ))) / 24⌋ = ⌊(h + d) / 24⌋ + (n : Int) := by
    rw [← Int.floor_add_natCast]; congr 1; ring
  have : eventHours s h (d + 24 * n) = eventHours s h d := by
    unfold eventHours
    rw [e]
    have : h + (d + 24 * (n : ℚ)) - 24 * ((⌊(h + d) / 24⌋ + (n : Int) : Int) : ℚ) = h + d - 24 * (⌊(h + d) / 24⌋ : ℚ) := by
      push_cast; ring
    simp only [this]
  rw [this]
  exact (event_hours_exact s h d h0 h24 hd0 hd).2

/-! ## C22 Overlap tests -/

/-- Two events share time. -/
def Meet (x y : Ev) : Prop := ∃ t, x.b < t ∧ t < x.e ∧ y.b < t ∧ t < y.e

/-- For events of positive length the overlap test is exact. -/
theorem overlap_exact (x y : Ev) (hx : x.b < x.e) (hy : y.b < y.e) : x.overlaps y = true ↔ Meet x y := by
  unfold Ev.overlaps Meet
  rw [decide_eq_true_iff, max_lt_iff]
  constructor
  · rintro ⟨h1, h2⟩
    rw [abs_lt] at h1 h2
    refine ⟨(max x.b y.b + min x.e y.e) / 2, ?_, ?_, ?_, ?_⟩ <;>
    · simp only [max_def, min_def]; split_ifs <;> linarith [h1.1, h1.2, h2.1, h2.2]
  · rintro ⟨t, h1, h2, h3, h4⟩
    constructor <;> rw [abs_lt] <;> constructor <;> linarith

theorem overlap_symm (x y : Ev) : x.overlaps y = y.overlaps x := by
  unfold Ev.overlaps
  rw [max_comm, add_comm]

theorem intersection_exact (b1 e1 b2 e2 : ℚ) (h1 : b1 < e1) (h2 : b2 < e2) :
    timeIntersection b1 e1 b2 e2 = true ↔ ∃ t, b1 < t ∧ t < e1 ∧ b2 < t ∧ t < e2 := by
  unfold timeIntersection
  rw [decide_eq_true_iff]
  constructor
  · intro h
    refine ⟨(max b1 b2 + min e1 e2) / 2, ?_, ?_, ?_, ?_⟩ <;>
    · simp only [max_def, min_def] at h ⊢; split_ifs at h ⊢ <;> linarith
  · rintro ⟨t, h3, h4, h5, h6⟩
    simp only [max_def, min_def]; split_ifs <;> linarith

/-- Both tests agree for events of positive length. -/
theorem overlap_agree (x y : Ev) (hx : x.b < x.e) (hy : y.b < y.e) : x.overlaps y = timeIntersection x.b x.e y.b y.e := by
  rw [Bool.eq_iff_iff, overlap_exact x y hx hy, intersection_exact _ _ _ _ hx hy]; rfl

example : (Ev.mk 0 2 "ES00" none).overlaps (Ev.mk 1 3 "ES01" none) = true
    ∧ (Ev.mk 0 1 "ES00" none).overlaps (Ev.mk 1 3 "ES01" none) = false := by decide +kernel

/-- **C22** (violated): every event of no length inside another one is reported as an overlap, although they share no time. -/
theorem empty_event_violated (x y : Ev) (hy : y.e = y.b) (h1 : x.b < y.b) (h2 : y.b < x.e) : x.overlaps y = true ∧ ¬ Meet x y := by
  constructor
  · unfold Ev.overlaps
    rw [decide_eq_true_iff, max_lt_iff, abs_lt, abs_lt, hy]
    refine ⟨⟨?_, ?_⟩, ?_, ?_⟩ <;> linarith
  · rintro ⟨t, -, -, h3, h4⟩
    linarith

example : (Ev.mk 0 2 "" none).overlaps (Ev.mk 1 1 "" none) = true := by decide +kernel

/-! ## C23 The file of bookings -/

/-- What sorting leaves: of two neighbours, the first may stand before the second. -/
def Chain : List Ev → Prop
  | [] => True
  | [_] => True
  | x :: y :: l => (x.lt y ∨ ¬ y.lt x) ∧ Chain (y :: l)

theorem chain_cons {x y : Ev} {l : List Ev} : Chain (x :: y :: l) ↔ (x.lt y ∨ ¬ y.lt x) ∧ Chain (y :: l) := Iff.rfl

theorem chain_tail {x : Ev} {l : List Ev} (h : Chain (x :: l)) : Chain l := by
  cases l with
  | nil => trivial
  | cons y l => exact (chain_cons.mp h).2

theorem chain_insert (a : Ev) : ∀ l : List Ev, Chain l → Chain (List.orderedInsert Ev.lt a l)
  | [], _ => trivial
  | b :: l, h => by
    rw [List.orderedInsert_cons]
    split
    · rename_i hab; exact ⟨Or.inl hab, h⟩
    · rename_i hab
      have ih := chain_insert a l (chain_tail h)
      cases l with
      | nil => exact ⟨Or.inr hab, trivial⟩
      | cons c l =>
        rw [List.orderedInsert_cons] at ih ⊢
        split
        · rename_i hac
          rw [if_pos hac] at ih
          exact ⟨Or.inr hab, ih⟩
        · rename_i hac
          rw [if_neg hac] at ih
          exact ⟨(chain_cons.mp h).1, ih⟩

/-- Sorting leaves such a list, with the same events. -/
theorem sort_chain : ∀ l : List Ev, Chain (sortEvents l) ∧ (sortEvents l).Perm l
  | [] => ⟨trivial, List.Perm.refl _⟩
  | a :: l => by
    refine ⟨?_, List.perm_insertionSort _ _⟩
    show Chain (List.orderedInsert Ev.lt a (sortEvents l))
    exact chain_insert a _ (sort_chain l).1

/-- Events have a positive length. -/
def Positive (l : List Ev) : Prop := ∀ x ∈ l, x.b < x.e

/-- Neighbours do not overlap. -/
def NeighboursApart : List Ev → Prop
  | [] => True
  | [_] => True
  | x :: y :: l => y.overlaps x = false ∧ NeighboursApart (y :: l)

theorem apart_le {x y : Ev} (hx : x.b < x.e) (hy : y.b < y.e) (hc : x.lt y ∨ ¬ y.lt x) (ho : y.overlaps x = false) : x.e ≤ y.b := by
  by_contra hne
  rw [not_le] at hne
  have hnm : ¬ Meet y x := by
    rw [← overlap_exact y x hy hx, ho]; simp
  apply hnm
  have h2 : x.b < y.e := by
    rcases hc with h | h
    · exact h
    · unfold Ev.lt at h; rw [not_lt] at h; linarith
  refine ⟨(max x.b y.b + min x.e y.e) / 2, ?_, ?_, ?_, ?_⟩ <;>
  · simp only [max_def, min_def]; split_ifs <;> linarith

/-- Checking neighbours is enough: if no two neighbours overlap, all events are disjoint and in order. -/
theorem neighbours_enough : ∀ l : List Ev, Positive l → Chain l → NeighboursApart l → l.Pairwise (fun x y => x.e ≤ y.b)
  | [], _, _, _ => List.Pairwise.nil
  | [x], _, _, _ => List.pairwise_singleton _ _
  | x :: y :: l, hp, hc, hn => by
    have ih := neighbours_enough (y :: l) (fun z hz => hp z (List.mem_cons_of_mem _ hz)) (chain_tail hc) hn.2
    have hxy := apart_le (hp x (by simp)) (hp y (by simp)) (chain_cons.mp hc).1 hn.1
    refine List.Pairwise.cons (fun z hz => ?_) ih
    rcases List.mem_cons.mp hz with rfl | hz
    · exact hxy
    · have h1 := (List.pairwise_cons.mp ih).1 z hz
      have h2 := hp y (by simp)
      linarith

/-- Time covered by a list of lines. -/
def covered (L : List Line) (k : String) (t : ℚ) : Prop := ∃ l ∈ L, l.kp = k ∧ l.start ≤ t ∧ t < l.stop

/-- Time booked by the events. -/
def booked (L : List Ev) (k : String) (t : ℚ) : Prop := ∃ x ∈ L, x.kp = k ∧ x.b ≤ t ∧ t < x.e

theorem lineOf_ok {start : ℚ} {x : Ev} {l : Line} (h : lineOf start x = .ok l) : l = ⟨start, x.e, x.kp⟩ := by
  unfold lineOf at h
  cases hn : x.nameKp with
  | none => rw [hn] at h; cases h
  | some k =>
    rw [hn] at h
    by_cases hk : rename k ≠ x.kp
    · simp only [if_pos hk] at h; cases h
    · simp only [if_neg hk] at h
      rw [not_not] at hk
      injection h with h
      rw [← h, hk]

theorem vcr_covers (k : String) (t : ℚ) : ∀ (r : List Ev) (start : ℚ) (m : Bool) (x : Ev), start ≤ x.b → Positive (x :: r) →
    (vcrLoop start m x r).2 = none →
    (covered (vcrLoop start m x r).1 k t ↔ (x.kp = k ∧ start ≤ t ∧ t < x.e) ∨ booked r k t)
  | [], start, m, x, hs, hp, hok => by
    unfold vcrLoop at hok ⊢
    cases m with
    | true => simp at hok
    | false =>
      simp only [Bool.false_eq_true, if_false] at hok ⊢
      cases hl : lineOf start x with
      | error e => rw [hl] at hok; simp at hok
      | ok l =>
        rw [lineOf_ok hl]
        unfold covered booked
        simp
  | y :: r, start, m, x, hs, hp, hok => by
    have hpx := hp x (by simp)
    have hp' : Positive (y :: r) := fun z hz => hp z (List.mem_cons_of_mem _ hz)
    have hpy := hp' y (by simp)
    rw [vcrLoop] at hok ⊢
    by_cases h1 : (!m && y.overlaps x) = true
    · rw [if_pos h1] at hok; cases hok
    · rw [if_neg h1] at hok ⊢
      by_cases h2 : x.kp = y.kp ∧ x.e = y.b
      · rw [if_pos h2] at hok ⊢
        by_cases h3 : y.overlaps x = true
        · rw [if_pos h3] at hok; cases hok
        · rw [if_neg h3] at hok ⊢
          rw [vcr_covers k t r start true y (by linarith [h2.2]) hp' hok]
          unfold booked
          constructor
          · rintro (⟨a, b, c⟩ | h)
            · by_cases ht : t < x.e
              · exact Or.inl ⟨by rw [h2.1]; exact a, b, ht⟩
              · rw [not_lt] at ht
                exact Or.inr ⟨y, by simp, a, by linarith [h2.2], c⟩
            · obtain ⟨z, hz, h⟩ := h; exact Or.inr ⟨z, by simp [hz], h⟩
          · rintro (⟨a, b, c⟩ | ⟨z, hz, h⟩)
            · exact Or.inl ⟨by rw [← h2.1]; exact a, b, by linarith [h2.2]⟩
            · rcases List.mem_cons.mp hz with rfl | hz
              · exact Or.inl ⟨h.1, by linarith [h2.2, h.2.1], h.2.2⟩
              · exact Or.inr ⟨z, hz, h⟩
      · rw [if_neg h2] at hok ⊢
        cases hl : lineOf start x with
        | error e => rw [hl] at hok; simp at hok
        | ok l =>
          rw [hl] at hok
          have ih := vcr_covers k t r y.b false y le_rfl hp' hok
          rw [lineOf_ok hl]
          show covered (⟨start, x.e, x.kp⟩ :: (vcrLoop y.b false y r).1) k t ↔ _
          unfold covered booked at *
          rw [List.exists_mem_cons_iff, List.exists_mem_cons_iff, ih]

/-- When the file is written without error, each project holds exactly the time of its events. -/
theorem vcr_keeps_time (l : List Ev) (hp : Positive l) (hok : (writeVcr l).2 = none) (k : String) (t : ℚ) :
    covered (writeVcr l).1 k t ↔ booked l k t := by
  cases l with
  | nil => simp [writeVcr] at hok
  | cons x r =>
    show covered (vcrLoop x.b false x r).1 k t ↔ _
    rw [vcr_covers k t r x.b false x le_rfl hp hok]
    unfold booked
    rw [List.exists_mem_cons_iff]

/-- The project in the name matches the project of the calendar, and is not one of the renamed ones. -/
def Named (x : Ev) : Prop := x.nameKp = some x.kp ∧ x.kp ≠ "LT00" ∧ x.kp ≠ "RP5A"

theorem lineOf_named {x : Ev} (h : Named x) (start : ℚ) : lineOf start x = .ok ⟨start, x.e, x.kp⟩ := by
  unfold lineOf
  have hr : rename x.kp = x.kp := by
    unfold rename; rw [if_neg h.2.1, if_neg h.2.2]
  rw [h.1]
  show (if rename x.kp ≠ x.kp then Except.error Err.exception else Except.ok (Line.mk start x.e (rename x.kp))) = _
  rw [hr]; simp

/-- The last two events are not to be merged. -/
def LastApart : List Ev → Prop
  | [] => True
  | [_] => True
  | [x, y] => ¬ (x.kp = y.kp ∧ x.e = y.b)
  | _ :: y :: z :: l => LastApart (y :: z :: l)

theorem lastApart_tail : ∀ {x : Ev} {l : List Ev}, LastApart (x :: l) → LastApart l
  | _, [], _ => trivial
  | _, [_], _ => trivial
  | _, _ :: _ :: _, h => h

theorem vcr_ok : ∀ (r : List Ev) (start : ℚ) (m : Bool) (x : Ev), start ≤ x.b → Positive (x :: r) → (∀ z ∈ x :: r, Named z) →
    (x :: r).Pairwise (fun x y => x.e ≤ y.b) → LastApart (x :: r) → (m = true → r ≠ []) →
    (vcrLoop start m x r).2 = none ∧ (vcrLoop start m x r).1.Pairwise (fun p q => p.stop ≤ q.start)
      ∧ ∀ p ∈ (vcrLoop start m x r).1, start ≤ p.start ∧ p.start < p.stop
  | [], start, m, x, hs, hp, hn, hd, hl, hm => by
    have : m = false := by cases m with | true => exact absurd rfl (hm rfl) | false => rfl
    subst this
    unfold vcrLoop
    rw [lineOf_named (hn x (by simp))]
    have := hp x (by simp)
    simp; linarith
  | y :: r, start, m, x, hs, hp, hn, hd, hl, hm => by
    have hpx := hp x (by simp)
    have hp' : Positive (y :: r) := fun z hz => hp z (List.mem_cons_of_mem _ hz)
    have hn' : ∀ z ∈ y :: r, Named z := fun z hz => hn z (List.mem_cons_of_mem _ hz)
    have hd' := (List.pairwise_cons.mp hd).2
    have hxy : x.e ≤ y.b := (List.pairwise_cons.mp hd).1 y (by simp)
    have hpy := hp' y (by simp)
    have hno : y.overlaps x = false := by
      have : ¬ Meet y x := by rintro ⟨t, a, b, c, d⟩; linarith
      rw [← overlap_exact y x hpy hpx] at this
      simpa using this
    rw [vcrLoop, hno]
    rw [if_neg (by simp)]
    by_cases h2 : x.kp = y.kp ∧ x.e = y.b
    · rw [if_pos h2, if_neg (by simp)]
      refine vcr_ok r start true y (by linarith) hp' hn' hd' (lastApart_tail hl) ?_
      rintro - rfl
      exact hl h2
    · rw [if_neg h2, lineOf_named (hn x (by simp))]
      obtain ⟨a, b, c⟩ := vcr_ok r y.b false y le_rfl hp' hn' hd' (lastApart_tail hl) (by simp)
      refine ⟨a, List.Pairwise.cons (fun p hpm => ?_) b, fun p hpm => ?_⟩
      · have := (c p hpm).1; show x.e ≤ p.start; linarith
      · rcases List.mem_cons.mp hpm with rfl | hpm
        · exact ⟨le_rfl, show start < x.e by linarith⟩
        · exact ⟨by linarith [(c p hpm).1], (c p hpm).2⟩

/-- A calendar of disjoint, well named events is written in full, as disjoint lines in order, provided the last two events are not to be merged. -/
theorem vcr_succeeds_partial (l : List Ev) (hne : l ≠ []) (hp : Positive l) (hn : ∀ x ∈ l, Named x) (hd : l.Pairwise (fun x y => x.e ≤ y.b))
    (hl : LastApart l) :
    (writeVcr l).2 = none ∧ (writeVcr l).1.Pairwise (fun p q => p.stop ≤ q.start) ∧ ∀ k t, covered (writeVcr l).1 k t ↔ booked l k t := by
  cases l with
  | nil => exact absurd rfl hne
  | cons x r =>
    obtain ⟨a, b, -⟩ := vcr_ok r x.b false x le_rfl hp hn hd hl (by simp)
    exact ⟨a, b, fun k t => vcr_keeps_time (x :: r) hp a k t⟩

example : writeVcr [⟨0, 1, "ES01", some "ES01"⟩, ⟨1, 3, "ES01", some "ES01"⟩, ⟨4, 5, "LT02", some "LT02"⟩]
    = ([⟨0, 3, "ES01"⟩, ⟨4, 5, "LT02"⟩], none) := by decide +kernel

theorem vcrLoop_ne : ∀ (l : List Ev) (start : ℚ) (m : Bool) (x : Ev), (vcrLoop start m x l).2 = none → (vcrLoop start m x l).1 ≠ []
  | [], start, m, x, h => by
    unfold vcrLoop at h ⊢
    cases m with
    | true => simp at h
    | false =>
      simp only [Bool.false_eq_true, if_false] at h ⊢
      cases hl : lineOf start x with
      | error e => rw [hl] at h; simp at h
      | ok l => simp
  | y :: r, start, m, x, h => by
    rw [vcrLoop] at h ⊢
    by_cases h1 : (!m && y.overlaps x) = true
    · rw [if_pos h1] at h; cases h
    · rw [if_neg h1] at h ⊢
      by_cases h2 : x.kp = y.kp ∧ x.e = y.b
      · rw [if_pos h2] at h ⊢
        by_cases h3 : y.overlaps x = true
        · rw [if_pos h3] at h; cases h
        · rw [if_neg h3] at h ⊢
          exact vcrLoop_ne r start true y h
      · rw [if_neg h2] at h ⊢
        cases hl : lineOf start x with
        | error e => rw [hl] at h; simp at h
        | ok l => simp

/-- The default file holds the bookings, then the last of them once more: the hours of the projects are those of the events, and the file always has two lines in conflict when
the last booking has a duration, so that it can not be taken as it is. -/
theorem vcr_add_error (l : List Ev) (hok : (writeVcr l).2 = none) :
    ∃ last : Line, (writeVcr l).1.getLast? = some last ∧ (writeVcrAll true l).1 = (writeVcr l).1 ++ [last] ∧ (writeVcrAll true l).2 = none ∧
      (∀ k t, covered (writeVcrAll true l).1 k t ↔ covered (writeVcr l).1 k t) ∧
      (last.start < last.stop → ¬ (writeVcrAll true l).1.Pairwise (fun p q => p.stop ≤ q.start)) := by
  have hne : (writeVcr l).1 ≠ [] := by
    cases l with
    | nil => cases hok
    | cons x r => exact vcrLoop_ne r x.b false x hok
  have hla : (writeVcr l).1.getLast? = some ((writeVcr l).1.getLast hne) := List.getLast?_eq_some_getLast hne
  have hall : writeVcrAll true l = ((writeVcr l).1 ++ [(writeVcr l).1.getLast hne], none) := by
    unfold writeVcrAll
    rw [if_pos ⟨rfl, hok⟩, hla]; rfl
  have hmem := List.getLast_mem hne
  refine ⟨_, hla, by rw [hall], by rw [hall], fun k t => ?_, fun hd hp => ?_⟩
  · rw [hall]
    unfold covered
    constructor
    · rintro ⟨p, hp, h⟩
      rcases List.mem_append.1 hp with hp | hp
      · exact ⟨p, hp, h⟩
      · rw [List.mem_singleton.1 hp] at h; exact ⟨_, hmem, h⟩
    · rintro ⟨p, hp, h⟩; exact ⟨p, List.mem_append_left _ hp, h⟩
  · rw [hall] at hp
    have := (List.pairwise_append.1 hp).2.2 _ hmem _ (List.mem_singleton.2 rfl)
    linarith

/-- Without the flag, or when an exception ends the writing, nothing is repeated. -/
theorem vcr_no_repeat (f : Bool) (l : List Ev) (h : f = false ∨ (writeVcr l).2 ≠ none) : writeVcrAll f l = writeVcr l := by
  unfold writeVcrAll
  rw [if_neg]
  rintro ⟨a, b⟩
  rcases h with h | h
  · rw [h] at a; cases a
  · exact h b

example : writeVcrAll true [⟨0, 1, "ES01", some "ES01"⟩, ⟨4, 5, "LT02", some "LT02"⟩] = ([⟨0, 1, "ES01"⟩, ⟨4, 5, "LT02"⟩, ⟨4, 5, "LT02"⟩], none) := by decide +kernel

/-- Two final bookings of the same project, one right after the other: `AttributeError`. -/
theorem vcr_last_two (x y : Ev) (hx : x.b < x.e) (hy : y.b < y.e) (hk : x.kp = y.kp) (ht : x.e = y.b) (start : ℚ) (m : Bool) :
    vcrLoop start m x [y] = ([], some .attributeError) := by
  have hno : y.overlaps x = false := by
    have : ¬ Meet y x := by rintro ⟨t, a, b, c, d⟩; linarith
    rw [← overlap_exact y x hy hx] at this
    simpa using this
  simp [vcrLoop, hno, hk, ht]

theorem vcr_last_two_loop (x y : Ev) (hx : x.b < x.e) (hy : y.b < y.e) (hk : x.kp = y.kp) (ht : x.e = y.b) :
    ∀ (l : List Ev) (start : ℚ) (m : Bool) (z : Ev), (vcrLoop start m z (l ++ [x, y])).2 ≠ none
  | [], start, m, z => by
    show (vcrLoop start m z (x :: [y])).2 ≠ none
    rw [vcrLoop]
    split
    · simp
    · split
      · split
        · simp
        · rw [vcr_last_two x y hx hy hk ht]; simp
      · split
        · simp
        · rw [vcr_last_two x y hx hy hk ht]; simp
  | w :: l, start, m, z => by
    show (vcrLoop start m z (w :: (l ++ [x, y]))).2 ≠ none
    rw [vcrLoop]
    split
    · simp
    · split
      · split
        · simp
        · exact vcr_last_two_loop x y hx hy hk ht l start true w
      · split
        · simp
        · exact vcr_last_two_loop x y hx hy hk ht l w.b false w

/-- When the last two bookings belong to the same project and follow each other, the file cannot be written, whatever comes before. -/
theorem vcr_last_merge_violated (l : List Ev) (x y : Ev) (hx : x.b < x.e) (hy : y.b < y.e) (hk : x.kp = y.kp) (ht : x.e = y.b) :
    (writeVcr (l ++ [x, y])).2 ≠ none := by
  cases l with
  | nil => show (vcrLoop x.b false x [y]).2 ≠ none; rw [vcr_last_two x y hx hy hk ht]; simp
  | cons z l => exact vcr_last_two_loop x y hx hy hk ht l z.b false z

example : ∃ x y : Ev, x.b < x.e ∧ y.b < y.e ∧ x.kp = y.kp ∧ x.e = y.b := ⟨⟨0, 1, "ES01", none⟩, ⟨1, 2, "ES01", none⟩, by decide +kernel⟩

/-- After a merge the next overlap is not seen: overlapping lines are written without error. -/
theorem vcr_overlap_violated : ∃ l : List Ev, Positive l ∧ Chain l ∧ (writeVcr l).2 = none
    ∧ ∃ p q : Line, (writeVcr l).1 = [p, q] ∧ q.start < p.stop ∧ p.kp ≠ q.kp := by
  refine ⟨[⟨0, 1, "ES01", some "ES01"⟩, ⟨1, 3, "ES01", some "ES01"⟩, ⟨2, 4, "ES02", some "ES02"⟩], ?_, ?_, by decide +kernel,
    ⟨0, 3, "ES01"⟩, ⟨2, 4, "ES02"⟩, by decide +kernel⟩
  · intro x hx
    simp only [List.mem_cons, List.mem_nil_iff, or_false] at hx
    rcases hx with rfl | rfl | rfl <;> norm_num
  · refine ⟨Or.inl ?_, Or.inl ?_, trivial⟩ <;> simp only [Ev.lt] <;> norm_num

/-- A booking of project `LT00` can never be written: its name is changed, then compared with the unchanged project. -/
theorem vcr_renamed_violated (b e : ℚ) : writeVcr [⟨b, e, "LT00", some "LT00"⟩] = ([], some .exception) := by
  have : rename "LT00" ≠ "LT00" := by decide
  simp [writeVcr, vcrLoop, lineOf, this]

/-- An empty calendar cannot be written. -/
theorem vcr_empty_violated : (writeVcr []).2 = some .indexError := rfl

/-! ### Bookings of a spreadsheet -/

/-- Time of the bookings. -/
def bkTime (L : List Bk) (t : ℚ) : Prop := ∃ x ∈ L, x.b ≤ t ∧ t < x.e

theorem mergeGo_time (t : ℚ) : ∀ (l : List Bk) (a : Bk), a.b ≤ a.e → (∀ x ∈ l, x.b ≤ x.e) → (bkTime (mergeGo a l) t ↔ bkTime (a :: l) t)
  | [], a, _, _ => Iff.rfl
  | b :: l, a, ha, hl => by
    have hb := hl b (by simp)
    have hl' : ∀ x ∈ l, x.b ≤ x.e := fun x hx => hl x (List.mem_cons_of_mem _ hx)
    rw [mergeGo]
    split
    · rename_i h
      rw [mergeGo_time t l _ (show a.b ≤ b.e by linarith [h.1]) hl']
      unfold bkTime
      rw [List.exists_mem_cons_iff, List.exists_mem_cons_iff, List.exists_mem_cons_iff]
      constructor
      · rintro (⟨h1, h2⟩ | h')
        · by_cases ht : t < a.e
          · exact Or.inl ⟨h1, ht⟩
          · rw [not_lt] at ht
            exact Or.inr (Or.inl ⟨by linarith [h.1], h2⟩)
        · exact Or.inr (Or.inr h')
      · rintro (⟨h1, h2⟩ | ⟨h1, h2⟩ | h')
        · exact Or.inl ⟨h1, show t < b.e by linarith [h.1]⟩
        · exact Or.inl ⟨show a.b ≤ t by linarith [h.1], h2⟩
        · exact Or.inr h'
    · have ih := mergeGo_time t l b hb hl'
      unfold bkTime at ih ⊢
      rw [List.exists_mem_cons_iff, List.exists_mem_cons_iff, ih]

/-- Merging keeps exactly the booked time. -/
theorem merge_keeps_time (l : List Bk) (hl : ∀ x ∈ l, x.b ≤ x.e) (t : ℚ) : bkTime (mergeBk l) t ↔ bkTime l t := by
  cases l with
  | nil => exact Iff.rfl
  | cons a l => exact mergeGo_time t l a (hl a (by simp)) (fun x hx => hl x (List.mem_cons_of_mem _ hx))

theorem commentOf_none : ∀ {n : List (Option Nat)}, (∀ c ∈ n, c = none) → commentOf n = []
  | n, h => by
    have : n.dropWhile Option.isNone = [] := by
      induction n with
      | nil => rfl
      | cons x n ih =>
        rw [h x (by simp), List.dropWhile_cons_of_pos rfl]
        exact ih (fun c hc => h c (List.mem_cons_of_mem _ hc))
    unfold commentOf; rw [this]; rfl

/-- Two neighbours of the result are never contiguous. -/
def NoContact : List Bk → Prop
  | [] => True
  | [_] => True
  | x :: y :: l => x.e ≠ y.b ∧ NoContact (y :: l)

theorem mergeGo_head : ∀ (l : List Bk) (a : Bk), ∃ c r, mergeGo a l = c :: r ∧ c.b = a.b
  | [], a => ⟨a, [], rfl, rfl⟩
  | b :: l, a => by
    rw [mergeGo]; split
    · obtain ⟨c, r, h1, h2⟩ := mergeGo_head l ⟨a.b, b.e, a.name ++ b.name⟩; exact ⟨c, r, h1, h2⟩
    · exact ⟨a, _, rfl, rfl⟩

theorem mergeGo_contact : ∀ (l : List Bk) (a : Bk), (∀ c ∈ a.name, c = none) → (∀ x ∈ l, ∀ c ∈ x.name, c = none) → NoContact (mergeGo a l)
  | [], _, _, _ => trivial
  | b :: l, a, ha, hl => by
    have hb := hl b (by simp)
    have hl' : ∀ x ∈ l, ∀ c ∈ x.name, c = none := fun x hx => hl x (List.mem_cons_of_mem _ hx)
    rw [mergeGo]
    split
    · refine mergeGo_contact l _ ?_ hl'
      intro c hc
      rcases List.mem_append.mp hc with hc | hc
      · exact ha c hc
      · exact hb c hc
    · rename_i h
      have hne : b.b ≠ a.e := fun he => h ⟨he, by rw [commentOf_none ha, commentOf_none hb]⟩
      have ih := mergeGo_contact l b hb hl'
      obtain ⟨c, r, h1, h2⟩ := mergeGo_head l b
      rw [h1] at ih ⊢
      exact ⟨by rw [h2]; exact fun e => hne e.symm, ih⟩

/-- Bookings without comments are fully merged: no two contiguous bookings are left. -/
theorem merge_complete_partial (l : List Bk) (hl : ∀ x ∈ l, ∀ c ∈ x.name, c = none) : NoContact (mergeBk l) := by
  cases l with
  | nil => trivial
  | cons a l => exact mergeGo_contact l a (hl a (by simp)) (fun x hx => hl x (List.mem_cons_of_mem _ hx))

theorem dropNone (i : Nat) (c : Nat) (l : List (Option Nat)) : (List.replicate i none ++ some c :: l).dropWhile Option.isNone = some c :: l := by
  induction i with
  | zero => rfl
  | succ i ih => rw [List.replicate_succ, List.cons_append, List.dropWhile_cons_of_pos rfl, ih]

/-- The comment of a joined name goes from its first comment to its last one. -/
theorem comment_exact (i j c d : Nat) (m : List (Option Nat)) :
    commentOf (List.replicate i none ++ (some c :: m ++ [some d]) ++ List.replicate j none) = some c :: m ++ [some d] ∧
    commentOf (List.replicate i none ++ [some c] ++ List.replicate j none) = [some c] := by
  constructor
  · unfold commentOf
    rw [List.append_assoc, List.cons_append, List.cons_append, dropNone, ← List.cons_append, ← List.cons_append, List.reverse_append, List.reverse_append,
      List.reverse_replicate, List.reverse_singleton, List.singleton_append, dropNone]
    simp
  · unfold commentOf
    rw [List.append_assoc, List.singleton_append, dropNone, List.reverse_cons, List.reverse_replicate, dropNone]
    rfl

theorem comment_single (x : Option Nat) : commentOf [x] = x.toList.map some := by cases x <;> rfl

/-- Two contiguous bookings are merged exactly if they have the same comment, or none. -/
theorem merge_two (a b d : ℚ) (x y : Option Nat) :
    mergeBk [⟨a, b, [x]⟩, ⟨b, d, [y]⟩] = if x = y then [⟨a, d, [x, y]⟩] else [⟨a, b, [x]⟩, ⟨b, d, [y]⟩] := by
  have hc : commentOf [y] = commentOf [x] ↔ x = y := by
    rw [comment_single, comment_single]
    cases x <;> cases y <;> simp [eq_comm]
  show (if b = b ∧ commentOf [y] = commentOf [x] then _ else _) = _
  by_cases h : x = y
  · rw [if_pos h, if_pos ⟨rfl, hc.2 h⟩]; rfl
  · rw [if_neg h, if_neg (fun hh => h (hc.1 hh.2))]; rfl

/-- Three contiguous bookings with the same comment are not merged into one. -/
theorem merge_comments_violated (c : Nat) : (mergeBk [⟨0, 1, [some c]⟩, ⟨1, 2, [some c]⟩, ⟨2, 3, [some c]⟩]).map (fun x => (x.b, x.e)) = [(0, 2), (2, 3)] := by
  have h1 : commentOf [some c] = [some c] := rfl
  have h2 : commentOf [some c, some c] = [some c, some c] := rfl
  simp [mergeBk, mergeGo, h1, h2]

/-! ### Spreadsheet rows -/

/-- The value a reader of the sheet sees in column `i`: that of the closest cell to the left that is not covered by a merged region. -/
def shown (row : List Cell) : Nat → Option Nat
  | 0 => (row[0]?).bind Cell.val
  | i + 1 => if row[i + 1]? = some .merged then shown row i else (row[i + 1]?).bind Cell.val

theorem rowGo_length : ∀ (l : List Cell) (p : Option Nat), (rowGo p l).length = l.length
  | [], _ => rfl
  | c :: l, p => by cases c <;> simp [rowGo, rowGo_length l]

theorem rowGo_get : ∀ (pre l : List Cell) (p : Option Nat), (∀ n, pre.length = n + 1 → p = shown (pre ++ l) n) → (pre = [] → l[0]? ≠ some .merged) →
    ∀ i, i < l.length → (rowGo p l)[i]? = some (shown (pre ++ l) (pre.length + i))
  | _, [], _, _, _, i, hi => by simp at hi
  | pre, c :: l, p, hp, h0, i, hi => by
    have e : pre ++ c :: l = (pre ++ [c]) ++ l := by simp
    have hat : (pre ++ c :: l)[pre.length]? = some c := by simp
    -- the value of the current column
    have hcur : (rowGo p (c :: l))[0]? = some (shown (pre ++ c :: l) pre.length) := by
      cases hn : pre.length with
      | zero =>
        have : pre = [] := List.length_eq_zero_iff.mp hn
        subst this
        have hc : c ≠ .merged := by have := h0 rfl; simpa using this
        cases c with
        | merged => exact absurd rfl hc
        | value v => simp [rowGo, shown, Cell.val]
        | empty => simp [rowGo, shown, Cell.val]
      | succ n =>
        have hpn := hp n hn
        rw [hn] at hat
        cases c with
        | merged => simp only [rowGo, shown, hat]; simp [hpn]
        | value v => simp only [rowGo, shown, hat]; simp [Cell.val]
        | empty => simp only [rowGo, shown, hat]; simp [Cell.val]
    have hshape : rowGo p (c :: l) = shown (pre ++ c :: l) pre.length :: rowGo (shown (pre ++ c :: l) pre.length) l := by
      cases c with
      | merged =>
        rw [rowGo] at hcur ⊢
        simp only [List.getElem?_cons_zero, Option.some.injEq] at hcur
        rw [← hcur]
      | value v =>
        rw [rowGo] at hcur ⊢
        · simp only [List.getElem?_cons_zero, Option.some.injEq] at hcur
          rw [← hcur]
        all_goals simp
      | empty =>
        rw [rowGo] at hcur ⊢
        · simp only [List.getElem?_cons_zero, Option.some.injEq] at hcur
          rw [← hcur]
        all_goals simp
    cases i with
    | zero => simpa using hcur
    | succ i =>
      rw [hshape, List.getElem?_cons_succ]
      have := rowGo_get (pre ++ [c]) l (shown (pre ++ c :: l) pre.length)
        (by intro n hn; rw [List.length_append] at hn; simp at hn; rw [← hn, e]) (by simp) i (by simpa using hi)
      rw [this, ← e]
      congr 2
      simp; omega

/-- Each hour of a row gets the value shown by the sheet, when the row does not begin inside a merged region. -/
theorem row_exact (row : List Cell) (hl : row.length = 24) (h0 : row[0]? ≠ some .merged) :
    ∃ v : List (Option Nat), rowToList row = .ok v ∧ v.length = 24 ∧ ∀ i, i < 24 → v[i]? = some (shown row i) := by
  refine ⟨rowGo (row.getLast?.bind Cell.val) row, if_pos hl, by rw [rowGo_length, hl], fun i hi => ?_⟩
  have := rowGo_get [] row (row.getLast?.bind Cell.val) (by simp) (fun _ => h0) i (by omega)
  simpa using this

/-- Rows with another number of hours are refused. -/
theorem row_refused (row : List Cell) : (∃ v : List (Option Nat), rowToList row = .ok v) ↔ row.length = 24 := by
  unfold rowToList
  by_cases h : row.length = 24
  · rw [if_pos h]; exact ⟨fun _ => h, fun _ => ⟨_, rfl⟩⟩
  · rw [if_neg h]; exact ⟨(fun ⟨_, e⟩ => nomatch e), fun e => absurd e h⟩

theorem rowGo_merged (p : Option Nat) (rest : List Cell) : ∀ n : Nat, rowGo p (List.replicate n Cell.merged ++ rest) = List.replicate n p ++ rowGo p rest
  | 0 => rfl
  | n + 1 => by
    rw [List.replicate_succ, List.cons_append, List.replicate_succ, List.cons_append, ← rowGo_merged p rest n]; rfl

/-- A row that begins inside a merged region (a booking that goes on from the day before): its first hours are given to whoever holds the last hour of the row, whatever the sheet
shows. -/
theorem row_first_merged_violated (n : Nat) (hn : 0 < n) (mid : List Cell) (k : Nat) (hl : n + mid.length + 1 = 24) :
    ∃ v : List (Option Nat), rowToList (List.replicate n Cell.merged ++ (mid ++ [.value k])) = .ok v ∧ (∀ i, i < n → v[i]? = some (some k)) ∧
      shown (List.replicate n Cell.merged ++ (mid ++ [.value k])) 0 = none := by
  have hlast : (List.replicate n Cell.merged ++ (mid ++ [Cell.value k])).getLast?.bind Cell.val = some k := by
    rw [← List.append_assoc, List.getLast?_append]; rfl
  refine ⟨_, if_pos (by simp; omega), fun i hi => ?_, ?_⟩
  · rw [hlast, rowGo_merged, List.getElem?_append_left (by simpa using hi), List.getElem?_replicate, if_pos hi]
  · obtain ⟨m, rfl⟩ : ∃ m, n = m + 1 := ⟨n - 1, by omega⟩
    rfl

example : rowToList (.value 3 :: .merged :: .merged :: .empty :: .merged :: List.replicate 18 .empty ++ [.value 4])
    = .ok (some 3 :: some 3 :: some 3 :: List.replicate 20 none ++ [some 4]) := rfl

example : rowToList (.merged :: .merged :: List.replicate 21 .empty ++ [.value 4]) = .ok (some 4 :: some 4 :: List.replicate 21 none ++ [some 4]) := rfl

/-! ## C24 Season and night masks -/

/-- `t` is in summer. -/
def InSummer (Y : Years) (t : ℚ) : Prop := ∃ y, Y.summer y ≤ t ∧ t < Y.winter y

/-- `t` belongs to year `y`. -/
def InYear (Y : Years) (y : Int) (t : ℚ) : Prop := Y.jan y ≤ t ∧ t < Y.jan (y + 1)

theorem jan_mono {Y : Years} (h : Y.Ok) (y : Int) : ∀ n : Nat, Y.jan y ≤ Y.jan (y + n)
  | 0 => by simp
  | n + 1 => by
    have := jan_mono h y n
    have h1 := h.js (y + n)
    have h2 := h.sw (y + n)
    have h3 := h.wj (y + n)
    have e : y + ((n + 1 : Nat) : Int) = y + n + 1 := by push_cast; ring
    rw [e]; linarith

theorem jan_le {Y : Years} (h : Y.Ok) {y z : Int} (hyz : y ≤ z) : Y.jan y ≤ Y.jan z := by
  obtain ⟨n, rfl⟩ := Int.le.dest hyz
  exact jan_mono h y n

/-- A time lies in at most one year. -/
theorem year_unique {Y : Years} (h : Y.Ok) {y z : Int} {t : ℚ} (h1 : InYear Y y t) (h2 : InYear Y z t) : y = z := by
  rcases lt_trichotomy y z with hlt | heq | hgt
  · have := jan_le h (show y + 1 ≤ z by omega); linarith [h1.2, h2.1]
  · exact heq
  · have := jan_le h (show z + 1 ≤ y by omega); linarith [h2.2, h1.1]

theorem summerLoop_iff (Y : Years) (t : ℚ) : ∀ (n : Nat) (y : Int), summerLoop Y t y n = true ↔ ∃ z, y ≤ z ∧ z < y + n ∧ Y.summer z ≤ t ∧ t < Y.winter z
  | 0, y => by simp [summerLoop]; intros; omega
  | n + 1, y => by
    rw [summerLoop, Bool.or_eq_true, summerLoop_iff Y t n (y + 1), Bool.and_eq_true, decide_eq_true_iff, decide_eq_true_iff]
    constructor
    · rintro (h | ⟨z, h1, h2, h3⟩)
      · exact ⟨y, le_rfl, by push_cast; omega, h⟩
      · exact ⟨z, by omega, by push_cast; omega, h3⟩
    · rintro ⟨z, h1, h2, h3⟩
      by_cases hz : z = y
      · subst hz; exact Or.inl h3
      · exact Or.inr ⟨z, by omega, by push_cast at h2; omega, h3⟩

theorem summer_year {Y : Years} (h : Y.Ok) {t : ℚ} {y z : Int} (hy : InYear Y y t) (hz : Y.summer z ≤ t ∧ t < Y.winter z) : z = y :=
  year_unique h ⟨by linarith [h.js z], by linarith [h.wj z]⟩ hy

/-- For times between the first one and the last one, the summer mask is exact. -/
theorem summer_mask_exact (Y : Years) (h : Y.Ok) (first last t : ℚ) (y0 y1 y : Int) (hy0 : InYear Y y0 first) (hy1 : InYear Y y1 last) (hy : InYear Y y t)
    (c : Int) (hc : c = y1 ∨ c = y1 + 1) (h1 : first ≤ t) (h2 : t ≤ last) :
    summerMask Y y0 c t = true ↔ InSummer Y t := by
  have hyy0 : y0 ≤ y := by
    by_contra hlt
    have := jan_le h (show y + 1 ≤ y0 by omega); linarith [hy.2, hy0.1]
  have hyy1 : y ≤ y1 := by
    by_contra hlt
    have := jan_le h (show y1 + 1 ≤ y by omega); linarith [hy1.2, hy.1]
  unfold summerMask
  rw [summerLoop_iff]
  constructor
  · rintro ⟨z, -, -, h3⟩; exact ⟨z, h3⟩
  · rintro ⟨z, h3⟩
    have := summer_year h hy h3
    exact ⟨z, by omega, by omega, h3⟩

/-- The mask and the season of the calendar agree. -/
theorem season_agrees (Y : Years) (h : Y.Ok) (t : ℚ) (y : Int) (hy : InYear Y y t) : seasonOf Y y t = .summer ↔ InSummer Y t := by
  unfold seasonOf
  constructor
  · intro hs
    by_cases hc : Y.summer y ≤ t ∧ t < Y.winter y
    · exact ⟨y, hc⟩
    · rw [if_neg hc] at hs; cases hs
  · rintro ⟨z, hz⟩
    have := summer_year h hy hz
    subst this
    rw [if_pos hz]

/-- A calendar of years of 12 months. -/
def months : Years := ⟨fun y => 12 * y, fun y => 12 * y + 3, fun y => 12 * y + 9⟩

theorem months_ok : months.Ok where
  js y := by simp [months]
  sw y := by simp only [months]; linarith
  wj y := by simp only [months]; push_cast; linarith

example : InYear months 0 5 ∧ summerMask months 0 1 5 = true ∧ summerMask months 0 1 10 = false := by
  refine ⟨by simp only [InYear, months]; norm_num, by decide +kernel, by decide +kernel⟩

/-- Times that are not sorted: a summer time of an earlier year than the first one is taken for a winter time. -/
theorem season_unsorted_violated (Y : Years) (h : Y.Ok) (y : Int) :
    ∃ t, InSummer Y t ∧ summerMask Y (y + 1) (y + 2) t = false := by
  refine ⟨Y.summer y, ⟨y, le_rfl, h.sw y⟩, ?_⟩
  rw [Bool.eq_false_iff]
  unfold summerMask
  intro hh
  rw [summerLoop_iff] at hh
  obtain ⟨z, h1, -, h3⟩ := hh
  have := summer_year h (y := y) ⟨(h.js y).le, by linarith [h.sw y, h.wj y]⟩ h3
  omega

/-- Night hours of a season. -/
def IsNight (s : Season) (h : ℚ) : Prop := (0 ≤ h ∧ h ≤ (nightBounds s).1) ∨ ((nightBounds s).2 ≤ h ∧ h ≤ 24)

/-- In summer the night mask is exact; in winter it is exact before the evening. -/
theorem night_mask_partial (h : ℚ) : (nightMask true h = true ↔ IsNight .summer h)
    ∧ (h < 20 → (nightMask false h = true ↔ IsNight .winter h)) := by
  unfold nightMask IsNight nightBounds
  simp only [if_true, Bool.or_eq_true, Bool.and_eq_true, decide_eq_true_iff, true_and]
  intro hh
  simp only [Bool.false_eq_true, if_false, Bool.or_eq_true, Bool.and_eq_true, decide_eq_true_iff, or_self]
  constructor
  · exact Or.inl
  · rintro (h1 | h1)
    · exact h1
    · linarith [h1.1]

/-- In winter no hour after 4 h is ever night: the whole evening is missed. -/
theorem winter_evening_violated (h : ℚ) (h1 : 20 ≤ h) (h2 : h ≤ 24) : IsNight .winter h ∧ nightMask false h = false := by
  refine ⟨Or.inr ⟨h1, h2⟩, ?_⟩
  unfold nightMask
  have : ¬ h ≤ 4 := by linarith
  simp [this]

end Verif.Cal
