import Verif.Sched.Booking
import Verif.Sched.PropsTime
import Verif.Sched.PropsMisc

/-!
# Schedules and reservations made from files: property C129
-/

namespace Verif.Scheduler

/-! ## Specification -/

/-- The events which are asked for: all of them, or those whose name contains a text. -/
def Asked (sel : Option Txt) (e : Event) : Prop := ∀ t, sel = some t → ∃ n u v, e.name = some n ∧ n = u ++ t ++ v

/-- Events which last, and which neither overlap nor touch. -/
def Apart (l : List Event) : Prop := (∀ e ∈ l, e.start < e.stop) ∧ l.Pairwise fun e f => e.stop < f.start ∨ f.stop < e.start

/-! ## Sorting -/

/-- Start and end of an event. -/
def Event.pair (e : Event) : ℚ × ℚ := (e.start, e.stop)

/-- Order of the events, on their bounds. -/
def pairLe (p q : ℚ × ℚ) : Prop := p.1 < q.1 ∨ (p.1 = q.1 ∧ p.2 ≤ q.2)

instance : Std.Antisymm pairLe := ⟨fun p q h h' => by
  rcases h with h | ⟨h, k⟩
  · rcases h' with h' | ⟨h', -⟩
    · exact absurd h (not_lt.2 h'.le)
    · exact absurd h' h.ne'
  · rcases h' with h' | ⟨-, k'⟩
    · exact absurd h h'.ne'
    · exact Prod.ext h (le_antisymm k k')⟩

instance : Std.Total Event.le := ⟨fun e f => by
  unfold Event.le
  rcases lt_trichotomy e.start f.start with h | h | h
  · exact .inl (.inl h)
  · rcases le_total e.stop f.stop with k | k
    · exact .inl (.inr ⟨h, k⟩)
    · exact .inr (.inr ⟨h.symm, k⟩)
  · exact .inr (.inl h)⟩

instance : IsTrans Event Event.le := ⟨fun e f g h k => by
  unfold Event.le at *
  rcases h with h | ⟨h, h'⟩
  · rcases k with k | ⟨k, -⟩
    · exact .inl (h.trans k)
    · exact .inl (k ▸ h)
  · rcases k with k | ⟨k, k'⟩
    · exact .inl (h ▸ k)
    · exact .inr ⟨h.trans k, h'.trans k'⟩⟩

/-- The events which the code keeps. -/
def keeps (sel : Option Txt) (e : Event) : Bool := sel.elim true fun t => e.named t

theorem keeps_iff (sel : Option Txt) (e : Event) : keeps sel e = true ↔ Asked sel e := by
  unfold keeps Asked
  cases sel with
  | none => exact ⟨(fun _ t h => nomatch h), fun _ => rfl⟩
  | some t =>
    show Event.named t e = true ↔ _
    unfold Event.named
    cases hn : e.name with
    | none =>
      constructor
      · intro h
        exact nomatch (show (false : Bool) = true from h)
      · intro h
        obtain ⟨n, u, v, h, -⟩ := h t rfl
        exact nomatch h
    | some n =>
      show decide (t <:+: n) = true ↔ _
      rw [decide_eq_true_iff]
      constructor
      · rintro ⟨u, v, h⟩ t' ht
        injection ht with ht
        subst ht
        exact ⟨n, u, v, rfl, h.symm⟩
      · intro h
        obtain ⟨n', u, v, h, h'⟩ := h t rfl
        injection h with h
        subst h
        exact ⟨u, v, h'.symm⟩

theorem icsEvents_ok (l : List Event) (sel : Option Txt) (h : sel = none ∨ ∀ e ∈ l, e.name ≠ none) :
    icsEvents l sel = .ok ((l.insertionSort Event.le).filter (keeps sel)) := by
  unfold icsEvents
  cases sel with
  | none =>
    show Except.ok _ = _
    congr 1
    exact (List.filter_eq_self.2 fun e _ => rfl).symm
  | some t =>
    show (if _ then _ else _) = _
    have hno : ¬ (l.any fun e => e.name.isNone) = true := by
      intro hc
      obtain ⟨e, he, hn⟩ := List.any_eq_true.1 hc
      rcases h with h | h
      · cases h
      · exact h e he (Option.isNone_iff_eq_none.1 hn)
    rw [if_neg hno]
    rfl

theorem icsEvents_perm {l m : List Event} (h : l.Perm m) (sel : Option Txt) :
    (icsEvents l sel).map (List.map Event.pair) = (icsEvents m sel).map (List.map Event.pair) := by
  have key : ∀ p : Event → Bool, ((l.insertionSort Event.le).filter p).map Event.pair = ((m.insertionSort Event.le).filter p).map Event.pair := by
    intro p
    have srt : ∀ l : List Event, (((l.insertionSort Event.le).filter p).map Event.pair).Pairwise pairLe := fun l => by
      rw [List.pairwise_map]
      exact ((List.pairwise_insertionSort Event.le l).sublist List.filter_sublist).imp fun h => h
    refine List.Perm.eq_of_pairwise' (srt l) (srt m) ?_
    exact ((((List.perm_insertionSort _ l).trans h).trans (List.perm_insertionSort _ m).symm).filter p).map _
  unfold icsEvents
  cases sel with
  | none =>
    show Except.ok _ = Except.ok _
    have := key fun _ => true
    rw [List.filter_eq_self.2 fun _ _ => rfl, List.filter_eq_self.2 fun _ _ => rfl] at this
    rw [this]
  | some t =>
    show Except.map _ (if _ then _ else _) = Except.map _ (if _ then _ else _)
    have ha : (l.any fun e => e.name.isNone) = m.any fun e => e.name.isNone := by
      rw [Bool.eq_iff_iff, List.any_eq_true, List.any_eq_true]
      exact ⟨fun ⟨e, he, hn⟩ => ⟨e, h.mem_iff.1 he, hn⟩, fun ⟨e, he, hn⟩ => ⟨e, h.mem_iff.2 he, hn⟩⟩
    rw [ha]
    by_cases hc : (m.any fun e => e.name.isNone) = true
    · rw [if_pos hc, if_pos hc]
    · rw [if_neg hc, if_neg hc]
      show Except.ok _ = Except.ok _
      rw [key]

/-- The schedule of sorted bounds. -/
def pairSchedule (dt : ℚ) (day : Nat → Bool) (l : List (ℚ × ℚ)) : Except Err Sched :=
  l.head?.elim (.error .indexError) fun f => l.getLast?.elim (.error .indexError) fun e =>
    (mkSched f.1 e.2 dt day).bind fun s => raised (s.setFreeSlots (l.map Prod.fst) (l.map Prod.snd))

theorem icsSchedule_pair (dt : ℚ) (day : Nat → Bool) (l : List Event) : icsSchedule dt day l = pairSchedule dt day (l.map Event.pair) := by
  unfold icsSchedule pairSchedule
  rw [List.head?_map, List.getLast?_map, List.map_map, List.map_map]
  cases l.head? with
  | none => rfl
  | some f =>
    cases l.getLast? with
    | none => rfl
    | some e => rfl

theorem reserve_fields (s : Sched) (a b : ℚ) :
    (s.insertReserved a b).1.t0 = s.t0 ∧ (s.insertReserved a b).1.dt = s.dt ∧ (s.insertReserved a b).1.size = s.size := by
  unfold Sched.insertReserved Sched.addBooking
  by_cases h : b < a
  · simp [Sched.time2idx2, h]
  · simp [Sched.time2idx2, h]

theorem reserveAll_fields : ∀ (l : List (ℚ × ℚ)) (s : Sched), (s.reserveAll l).1.t0 = s.t0 ∧ (s.reserveAll l).1.dt = s.dt ∧ (s.reserveAll l).1.size = s.size
  | [], s => ⟨rfl, rfl, rfl⟩
  | (a, b) :: l, s => by
    obtain ⟨h1, h2, h3⟩ := reserve_fields s a b
    rw [Sched.reserveAll]
    cases (s.insertReserved a b).2 with
    | none =>
      obtain ⟨k1, k2, k3⟩ := reserveAll_fields l (s.insertReserved a b).1
      exact ⟨k1.trans h1, k2.trans h2, k3.trans h3⟩
    | some e => exact ⟨h1, h2, h3⟩

theorem setFree_fields (s : Sched) (starts stops : List ℚ) :
    (s.setFreeSlots starts stops).1.t0 = s.t0 ∧ (s.setFreeSlots starts stops).1.dt = s.dt ∧ (s.setFreeSlots starts stops).1.size = s.size := by
  unfold Sched.setFreeSlots
  by_cases h : starts.length ≠ stops.length
  · rw [if_pos h]
    exact ⟨rfl, rfl, rfl⟩
  · rw [if_neg h]
    cases (starts.zip stops).head? with
    | none => exact ⟨rfl, rfl, rfl⟩
    | some f =>
      cases (starts.zip stops).getLast? with
      | none => exact ⟨rfl, rfl, rfl⟩
      | some e => exact reserveAll_fields _ s

/-! ## C129 Calendars -/

/-- **C129**: the order of the events in a calendar has no effect. -/
theorem ics_order {l m : List Event} (h : l.Perm m) (dt : ℚ) (sel : Option Txt) (day : Nat → Bool) : fromIcs l dt sel day = fromIcs m dt sel day := by
  have e : ∀ l, fromIcs l dt sel day = ((icsEvents l sel).map (List.map Event.pair)).bind (pairSchedule dt day) := fun l => by
    unfold fromIcs
    cases icsEvents l sel with
    | error e => rfl
    | ok m => exact icsSchedule_pair dt day m
  rw [e, e, icsEvents_perm h]

theorem apart_sorted {l : List Event} (h : Apart l) (sel : Option Txt) :
    SortedWindows (((l.insertionSort Event.le).filter (keeps sel)).map Event.pair) := by
  obtain ⟨h1, h2⟩ := h
  have hp : (l.insertionSort Event.le).Pairwise fun e f => e.stop < f.start ∨ f.stop < e.start :=
    ((List.perm_insertionSort Event.le l).pairwise_iff fun {a b} h => h.symm).2 h2
  have hs := List.pairwise_insertionSort Event.le l
  have hm : ∀ e ∈ l.insertionSort Event.le, e.start < e.stop := fun e he => h1 e ((List.mem_insertionSort _).1 he)
  refine ⟨?_, ?_⟩
  · intro w hw
    obtain ⟨e, he, rfl⟩ := List.mem_map.1 hw
    exact (hm e (List.mem_filter.1 he).1).le
  · rw [List.pairwise_map]
    refine List.Pairwise.sublist List.filter_sublist ?_
    have hall := hp.and hs
    refine hall.imp_of_mem fun {e f} he hf h => ?_
    rcases h.1 with k | k
    · exact k
    · have a := hm e he
      have b := hm f hf
      rcases h.2 with c | ⟨c, -⟩
      · show e.stop < f.start
        linarith
      · show e.stop < f.start
        linarith

theorem zip_pairs (l : List (ℚ × ℚ)) : (l.map Prod.fst).zip (l.map Prod.snd) = l := by
  induction l with
  | nil => rfl
  | cons a l ih => rw [List.map_cons, List.map_cons, List.zip_cons_cons, ih]

theorem sorted_last : ∀ {l : List (ℚ × ℚ)}, SortedWindows l → ∀ {e}, l.getLast? = some e → ∀ w ∈ l, w.2 ≤ e.2
  | [], _, _, h, _, _ => nomatch h
  | [a], _, e, h, w, hw => by
    rw [List.getLast?_singleton] at h
    injection h with h
    rw [List.mem_singleton] at hw
    rw [hw, h]
  | a :: b :: l, hs, e, h, w, hw => by
    rw [List.getLast?_cons_cons] at h
    have hs' : SortedWindows (b :: l) := ⟨fun w hw => hs.1 w (List.mem_cons_of_mem _ hw), (List.pairwise_cons.1 hs.2).2⟩
    rcases List.mem_cons.1 hw with rfl | hw
    · have k := (List.pairwise_cons.1 hs.2).1 b List.mem_cons_self
      have k' := hs.1 b (by simp)
      have k'' := sorted_last hs' h b List.mem_cons_self
      linarith
    · exact sorted_last hs' h w hw

theorem sorted_first {w : ℚ × ℚ} {l : List (ℚ × ℚ)} (hs : SortedWindows (w :: l)) : ∀ v ∈ w :: l, w.1 ≤ v.1 := by
  intro v hv
  rcases List.mem_cons.1 hv with rfl | hv
  · exact le_rfl
  · have a := (List.pairwise_cons.1 hs.2).1 v hv
    have b := hs.1 w List.mem_cons_self
    linarith

/-- **C129**, for events which neither overlap nor touch: the schedule goes from the first start to the last end of the events asked
for (less than one slot is left over), and a slot is available exactly when all its interior times are in these events. -/
theorem ics_partial (l : List Event) (dt : ℚ) (sel : Option Txt) (day : Nat → Bool) (hdt : 0 < dt) (ha : Apart l)
    (hn : sel = none ∨ ∀ e ∈ l, e.name ≠ none) (hsel : ∃ e ∈ l, Asked sel e) :
    ∃ s t1, fromIcs l dt sel day = .ok s ∧ s.dt = dt ∧
      (∃ e ∈ l, Asked sel e ∧ s.t0 = e.start) ∧ (∃ e ∈ l, Asked sel e ∧ t1 = e.stop) ∧
      (∀ e ∈ l, Asked sel e → s.t0 ≤ e.start ∧ e.stop ≤ t1) ∧
      s.t0 + s.size * dt ≤ t1 ∧ t1 < s.t0 + s.size * dt + dt ∧
      ∀ t, t < s.size → (s.free t = true ↔ ∀ x, s.slotStart t < x → x < s.slotStop t → ∃ e ∈ l, Asked sel e ∧ e.start ≤ x ∧ x ≤ e.stop) := by
  have hsort := apart_sorted ha sel
  have hmem : ∀ w, w ∈ ((l.insertionSort Event.le).filter (keeps sel)).map Event.pair ↔ ∃ e ∈ l, Asked sel e ∧ e.pair = w := by
    intro w
    rw [List.mem_map]
    constructor
    · rintro ⟨e, he, hw⟩
      rw [List.mem_filter, List.mem_insertionSort] at he
      exact ⟨e, he.1, (keeps_iff sel e).1 he.2, hw⟩
    · rintro ⟨e, he, hk, hw⟩
      exact ⟨e, by rw [List.mem_filter, List.mem_insertionSort]; exact ⟨he, (keeps_iff sel e).2 hk⟩, hw⟩
  have hf : fromIcs l dt sel day = pairSchedule dt day (((l.insertionSort Event.le).filter (keeps sel)).map Event.pair) := by
    unfold fromIcs
    rw [icsEvents_ok l sel hn]
    exact icsSchedule_pair dt day _
  rw [hf]
  obtain ⟨e0, he0, hk0⟩ := hsel
  generalize ((l.insertionSort Event.le).filter (keeps sel)).map Event.pair = ws at hsort hmem
  cases ws with
  | nil => exact absurd ((hmem e0.pair).2 ⟨e0, he0, hk0, rfl⟩) List.not_mem_nil
  | cons w ws =>
    obtain ⟨e, he⟩ : ∃ e, (w :: ws).getLast? = some e := Option.isSome_iff_exists.1 (by simp)
    have hlast := sorted_last hsort he
    have hfirst := sorted_first hsort
    have hlt : w.1 < e.2 := by
      obtain ⟨f, hf1, -, hf3⟩ := (hmem w).1 List.mem_cons_self
      have a := ha.1 f hf1
      have b := hlast w List.mem_cons_self
      rw [← hf3] at b ⊢
      exact lt_of_lt_of_le a b
    obtain ⟨s0, hs0, hd0, -, -, hz1, hz2, hfree⟩ := (slots_partition w.1 e.2 dt day hdt).2 hlt
    have ht0 : s0.t0 = w.1 := by
      unfold mkSched at hs0
      rw [if_neg (not_le.2 hlt)] at hs0
      injection hs0 with hs0
      rw [← hs0]
    obtain ⟨hex1, hex2⟩ := free_windows_exact s0 (hd0 ▸ hdt) ((w :: ws).map Prod.fst) ((w :: ws).map Prod.snd) (by simp) (by simp)
      (by rw [zip_pairs]; exact hsort)
    rw [zip_pairs] at hex2
    have hfields := setFree_fields s0 ((w :: ws).map Prod.fst) ((w :: ws).map Prod.snd)
    refine ⟨(s0.setFreeSlots ((w :: ws).map Prod.fst) ((w :: ws).map Prod.snd)).1, e.2, ?_, ?_, ?_, ?_, ?_, ?_, ?_, ?_⟩
    · unfold pairSchedule
      rw [he]
      show (mkSched w.1 e.2 dt day).bind _ = _
      rw [hs0]
      show raised _ = _
      unfold raised
      rw [hex1]
      rfl
    · rw [hfields.2.1, hd0]
    · obtain ⟨f, hf1, hf2, hf3⟩ := (hmem w).1 List.mem_cons_self
      exact ⟨f, hf1, hf2, by rw [hfields.1, ht0, ← hf3]; rfl⟩
    · obtain ⟨f, hf1, hf2, hf3⟩ := (hmem e).1 (List.mem_of_getLast? he)
      exact ⟨f, hf1, hf2, by rw [← hf3]; rfl⟩
    · intro f hf1 hf2
      have hm := (hmem f.pair).2 ⟨f, hf1, hf2, rfl⟩
      rw [hfields.1, ht0]
      exact ⟨hfirst _ hm, hlast _ hm⟩
    · rw [hfields.1, hfields.2.2, ht0]
      exact hz1
    · rw [hfields.1, hfields.2.2, ht0]
      exact hz2
    · intro t ht
      rw [hfields.2.2] at ht
      have := hex2 t ht
      rw [this]
      have hsl : ∀ t, (s0.setFreeSlots ((w :: ws).map Prod.fst) ((w :: ws).map Prod.snd)).1.slotStart t = s0.slotStart t := fun t => by
        unfold Sched.slotStart
        rw [hfields.1, hfields.2.1]
      have hst : ∀ t, (s0.setFreeSlots ((w :: ws).map Prod.fst) ((w :: ws).map Prod.snd)).1.slotStop t = s0.slotStop t := fun t => by
        unfold Sched.slotStop
        rw [hsl, hfields.2.1]
      rw [hsl, hst]
      constructor
      · rintro ⟨-, h⟩ x hx1 hx2
        obtain ⟨v, hv, hv1, hv2⟩ := h x hx1 hx2
        obtain ⟨f, hf1, hf2, rfl⟩ := (hmem v).1 hv
        exact ⟨f, hf1, hf2, hv1, hv2⟩
      · intro h
        refine ⟨hfree t, fun x hx1 hx2 => ?_⟩
        obtain ⟨f, hf1, hf2, hf3, hf4⟩ := h x hx1 hx2
        exact ⟨f.pair, (hmem _).2 ⟨f, hf1, hf2, rfl⟩, hf3, hf4⟩

/-- **C129**: a calendar without any event asked for is refused. -/
theorem ics_empty (l : List Event) (dt : ℚ) (sel : Option Txt) (day : Nat → Bool) (hn : sel = none ∨ ∀ e ∈ l, e.name ≠ none)
    (h : ∀ e ∈ l, ¬ Asked sel e) : fromIcs l dt sel day = .error .indexError := by
  have hf : fromIcs l dt sel day = icsSchedule dt day ((l.insertionSort Event.le).filter (keeps sel)) := by
    unfold fromIcs
    rw [icsEvents_ok l sel hn]
    rfl
  have he : (l.insertionSort Event.le).filter (keeps sel) = [] := List.filter_eq_nil_iff.2 fun e he hk =>
    h e ((List.mem_insertionSort _).1 he) ((keeps_iff sel e).1 hk)
  rw [hf, he]
  rfl

/-- **C129** fails for calendars with an event without name, when a name is asked for: the whole calendar is refused. -/
theorem ics_unnamed_violated (l : List Event) (dt : ℚ) (t : Txt) (day : Nat → Bool) (h : ∃ e ∈ l, e.name = none) :
    fromIcs l dt (some t) day = .error .typeError := by
  obtain ⟨e, he, hn⟩ := h
  unfold fromIcs icsEvents
  show Except.bind (if _ then _ else _) _ = _
  rw [if_pos (List.any_eq_true.2 ⟨e, he, by rw [hn]; rfl⟩)]
  rfl

/-- **C129** fails for events which overlap: the calendar is refused, although the times are well defined. -/
theorem ics_overlap_violated (a b c d : ℚ) (n m : Option Txt) (dt : ℚ) (day : Nat → Bool) (h1 : a < c) (h2 : c < b) :
    ∃ e, fromIcs [⟨a, b, n⟩, ⟨c, d, m⟩] dt none day = .error e := by
  have hs : ([⟨a, b, n⟩, ⟨c, d, m⟩] : List Event).insertionSort Event.le = [⟨a, b, n⟩, ⟨c, d, m⟩] :=
    List.Pairwise.insertionSort_eq (by simp [Event.le, h1])
  have hf : fromIcs [⟨a, b, n⟩, ⟨c, d, m⟩] dt none day =
      (mkSched a d dt day).bind fun s => raised (s.setFreeSlots [a, c] [b, d]) := by
    unfold fromIcs icsEvents
    show (Except.ok _).bind _ = _
    rw [hs]
    rfl
  rw [hf]
  cases mkSched a d dt day with
  | error e => exact ⟨e, rfl⟩
  | ok s =>
    obtain ⟨e, he⟩ := free_windows_overlapping s a b c d h2
    refine ⟨e, ?_⟩
    show raised _ = _
    unfold raised
    rw [he]
    rfl

/-- **C129** fails for events which touch within a slot: whatever the two events and the step, exactly the slot in which they touch is lost,
although all its times are in the events. -/
theorem ics_touch_violated (a b d dt : ℚ) (n m : Option Txt) (day : Nat → Bool) (h1 : a < b) (h2 : b < d) (hdt : 0 < dt) :
    ∃ s, fromIcs [⟨a, b, n⟩, ⟨b, d, m⟩] dt none day = .ok s ∧ s.t0 = a ∧ s.dt = dt ∧ s.size = ⌊(d - a) / dt⌋.toNat ∧
      ∀ t, t < s.size → (s.free t = false ↔ s.slotStart t < b ∧ b < s.slotStop t) := by
  have hs : ([⟨a, b, n⟩, ⟨b, d, m⟩] : List Event).insertionSort Event.le = [⟨a, b, n⟩, ⟨b, d, m⟩] :=
    List.Pairwise.insertionSort_eq (by simp [Event.le, h1])
  have hf : fromIcs [⟨a, b, n⟩, ⟨b, d, m⟩] dt none day =
      (mkSched a d dt day).bind fun s => raised (s.setFreeSlots [a, b] [b, d]) := by
    unfold fromIcs icsEvents
    show (Except.ok _).bind _ = _
    rw [hs]
    rfl
  obtain ⟨s0, hs0⟩ : ∃ s0 : Sched, s0 = ⟨a, dt, ⌊(d - a) / dt⌋.toNat, fun _ => true, fun _ => 0, day, []⟩ := ⟨_, rfl⟩
  have hmk : mkSched a d dt day = .ok s0 := by
    unfold mkSched
    rw [if_neg (by linarith), hs0]
  have e0 : s0.t0 = a := by rw [hs0]
  have e1 : s0.dt = dt := by rw [hs0]
  have e2 : s0.size = ⌊(d - a) / dt⌋.toNat := by rw [hs0]
  have e3 : ∀ t, s0.free t = true := fun t => by rw [hs0]
  have hq : 0 ≤ (d - a) / dt := div_nonneg (by linarith) hdt.le
  have hle : s0.t0 + s0.size * s0.dt ≤ d := by
    rw [e0, e1, e2]
    have h3 := Int.floor_le ((d - a) / dt)
    have h4 : ((⌊(d - a) / dt⌋.toNat : Nat) : ℚ) = (⌊(d - a) / dt⌋ : ℚ) := by
      have := Int.toNat_of_nonneg (Int.floor_nonneg.2 hq)
      exact_mod_cast congrArg (fun z : ℤ => (z : ℚ)) this
    rw [h4]
    rw [le_div_iff₀ hdt] at h3
    linarith
  have hg : gapList s0.t0 (s0.t0 + s0.size * s0.dt) [(a, b), (b, d)] (a, b) (b, d) = [(b, b)] := by
    unfold gapList
    rw [if_neg (by rw [e0]; exact lt_irrefl _), if_neg (by exact not_lt.2 hle)]
    rfl
  have ha : s0.addBooking b b = ({ s0 with free := fun i => if i ∈ (List.range s0.size).filter (fun i => decide (b < s0.slotStop i) && decide (s0.slotStart i < b)) then false else s0.free i }, none) := by
    unfold Sched.addBooking Sched.time2idx2
    rw [if_neg (lt_irrefl _)]
  have hset : s0.setFreeSlots [a, b] [b, d] = (⟨s0.t0, s0.dt, s0.size,
      fun i => if i ∈ (List.range s0.size).filter (fun i => decide (b < s0.slotStop i) && decide (s0.slotStart i < b)) then false else s0.free i,
      s0.proc, s0.day, s0.blocks.map fun b => { b with toSched := true }⟩, none) := by
    unfold Sched.setFreeSlots
    rw [if_neg (by simp)]
    show s0.reserveAll (gapList s0.t0 (s0.t0 + s0.size * s0.dt) [(a, b), (b, d)] (a, b) (b, d)) = _
    rw [hg]
    unfold Sched.reserveAll Sched.insertReserved
    rw [ha]
    rfl
  rw [hf, hmk]
  show ∃ s, raised (s0.setFreeSlots [a, b] [b, d]) = Except.ok s ∧ _
  rw [hset]
  refine ⟨_, rfl, e0, e1, e2, ?_⟩
  intro t ht
  show (if t ∈ (List.range s0.size).filter (fun i => decide (b < s0.slotStop i) && decide (s0.slotStart i < b)) then false else s0.free t) = false ↔
    s0.slotStart t < b ∧ b < s0.slotStop t
  have hmem : t ∈ (List.range s0.size).filter (fun i => decide (b < s0.slotStop i) && decide (s0.slotStart i < b)) ↔
      s0.slotStart t < b ∧ b < s0.slotStop t := by
    rw [List.mem_filter, List.mem_range, Bool.and_eq_true, decide_eq_true_iff, decide_eq_true_iff]
    exact ⟨fun h => ⟨h.2.2, h.2.1⟩, fun h => ⟨ht, h.2, h.1⟩⟩
  rw [← hmem]
  by_cases hc : t ∈ (List.range s0.size).filter (fun i => decide (b < s0.slotStop i) && decide (s0.slotStart i < b))
  · rw [if_pos hc]
    exact ⟨fun _ => hc, fun _ => rfl⟩
  · rw [if_neg hc, e3]
    exact ⟨fun h => (by cases h), fun h => absurd h hc⟩

/-- Events from 0 to 3.5 and from 3.5 to 10: the slot from 3 to 4 is lost. -/
example : ∃ s, fromIcs [⟨0, 7/2, none⟩, ⟨7/2, 10, none⟩] 1 none (fun _ => true) = .ok s ∧ s.slotStart 3 < 7/2 ∧ (7/2 : ℚ) < s.slotStop 3 := by
  obtain ⟨s, hs, h0, h1, _⟩ := ics_touch_violated 0 (7/2) 10 1 none none (fun _ => true) (by norm_num) (by norm_num) (by norm_num)
  refine ⟨s, hs, ?_, ?_⟩
  · unfold Sched.slotStart
    rw [h0, h1]
    norm_num
  · unfold Sched.slotStop Sched.slotStart
    rw [h0, h1]
    norm_num

/-! ## C129 Reservations of a booking file -/

/-- The program is excluded, whatever the case of its letters. -/
def Excluded (excl : List Txt) (kp : Txt) : Prop := ∃ x ∈ excl, lowerTxt x = lowerTxt kp

theorem not_excluded (excl : List Txt) (kp : Txt) : (!decide (lowerTxt kp ∈ excl.map lowerTxt)) = true ↔ ¬ Excluded excl kp := by
  rw [Bool.not_eq_true', decide_eq_false_iff_not, List.mem_map]
  rfl

/-- **C129**, for files of several rows, programs of at most four letters and not all excluded: the reservations are those of the
rows not excluded, in their order. -/
theorem vcr_partial (rows : List Row) (excl : List Txt) (h1 : 2 ≤ rows.length) (h4 : ∀ r ∈ rows, r.kp.length ≤ 4) (hk : ∃ r ∈ rows, ¬ Excluded excl r.kp) :
    ∃ kept : List Row, fromVcr rows excl = .ok (kept.map fun r => (r.start, r.stop, r.kp)) ∧ kept.Sublist rows ∧ ∀ r ∈ rows, r ∈ kept ↔ ¬ Excluded excl r.kp := by
  have hc : ∀ r ∈ rows, r.code = r.kp := fun r hr => List.take_of_length_le (h4 r hr)
  have hkept : vcrKept rows excl = (rows.filter fun r => !decide (lowerTxt r.code ∈ excl.map lowerTxt)).map fun r => (r.start, r.stop, r.kp) := by
    unfold vcrKept
    refine List.map_congr_left fun r hr => ?_
    rw [hc r (List.mem_filter.1 hr).1]
  have hmem : ∀ r ∈ rows, r ∈ (rows.filter fun r => !decide (lowerTxt r.code ∈ excl.map lowerTxt)) ↔ ¬ Excluded excl r.kp := by
    intro r hr
    rw [List.mem_filter, not_excluded, hc r hr]
    exact ⟨fun h => h.2, fun h => ⟨hr, h⟩⟩
  refine ⟨rows.filter fun r => !decide (lowerTxt r.code ∈ excl.map lowerTxt), ?_, List.filter_sublist, hmem⟩
  have hne : ¬ vcrKept rows excl = [] := by
    obtain ⟨r, hr, hx⟩ := hk
    have := (hmem r hr).2 hx
    rw [hkept]
    intro e
    rw [List.map_eq_nil_iff] at e
    rw [e] at this
    exact List.not_mem_nil this
  have hl : ¬ rows.length = 1 := by omega
  unfold fromVcr
  rw [if_neg hl, if_neg hne, hkept]

/-- **C129** fails for files of one row, which are refused. -/
theorem vcr_one_violated (r : Row) (excl : List Txt) : fromVcr [r] excl = .error .typeError := rfl

/-- **C129** fails when all programs are excluded: there is nothing to reserve, which is an error. -/
theorem vcr_none_violated (rows : List Row) (excl : List Txt) (h4 : ∀ r ∈ rows, r.kp.length ≤ 4) (h : ∀ r ∈ rows, Excluded excl r.kp) :
    fromVcr rows excl = .error .typeError := by
  have he : vcrKept rows excl = [] := by
    unfold vcrKept
    rw [List.map_eq_nil_iff, List.filter_eq_nil_iff]
    intro r hr
    rw [not_excluded, show r.code = r.kp from List.take_of_length_le (h4 r hr)]
    exact not_not_intro (h r hr)
  unfold fromVcr
  by_cases hl : rows.length = 1
  · rw [if_pos hl]
  · rw [if_neg hl, if_pos he]

/-- **C129** fails for names of more than four letters: excluding them has no effect. -/
theorem vcr_long_violated (rows : List Row) (x : Txt) (excl : List Txt) (h : 4 < x.length) : fromVcr rows (x :: excl) = fromVcr rows excl := by
  have e : vcrKept rows (x :: excl) = vcrKept rows excl := by
    unfold vcrKept
    congr 1
    refine List.filter_congr fun r _ => ?_
    have hx : lowerTxt r.code ≠ lowerTxt x := by
      intro e
      have := congrArg List.length e
      unfold lowerTxt Row.code at this
      rw [List.length_map, List.length_map, List.length_take] at this
      omega
    congr 1
    rw [decide_eq_decide, List.map_cons, List.mem_cons]
    exact ⟨fun k => k.resolve_left hx, .inr⟩
  unfold fromVcr
  rw [e]

/-! ## C129 Bookings of a program -/

/-- The bookings of the program. -/
def ofProgram (rows : List Row) (key : Txt) : List (ℚ × ℚ) := (rows.filter fun r => decide (r.kp = key)).map fun r => (r.start, r.stop)

theorem bookings_pairs (s : Sched) (rows : List Row) (key : Txt) (h4 : ∀ r ∈ rows, r.kp.length ≤ 4) :
    (s.bookings rows key).map (fun r => (r.start, r.stop)) = (ofProgram rows key).filter fun w => matchBookingMask s.t0 (s.t0 + s.size * s.dt) w.1 w.2 := by
  unfold Sched.bookings ofProgram
  rw [List.filter_map]
  have : (rows.filter fun r => decide (r.code = key)) = rows.filter fun r => decide (r.kp = key) := List.filter_congr fun r hr => by
    rw [show r.code = r.kp from List.take_of_length_le (h4 r hr)]
  rw [this]
  rfl

/-- **C129**, for bookings of the program in increasing order with gaps between them, one of them at least in the schedule: a slot
stays available exactly when all its interior times are booked by the program; other programs have no effect. -/
theorem matched_partial (s : Sched) (hdt : 0 < s.dt) (hsz : 0 < s.size) (rows : List Row) (key : Txt) (h4 : ∀ r ∈ rows, r.kp.length ≤ 4)
    (hs : SortedWindows (ofProgram rows key)) (hlt : ∀ w ∈ ofProgram rows key, w.1 < w.2)
    (hin : ∃ w ∈ ofProgram rows key, ∃ x, s.t0 < x ∧ x < s.t0 + s.size * s.dt ∧ w.1 < x ∧ x < w.2) :
    (s.matchBooking rows key).2 = none ∧
    ∀ t, t < s.size → ((s.matchBooking rows key).1.free t = true ↔
      s.free t = true ∧ ∀ x, s.slotStart t < x → x < s.slotStop t → InWindows (ofProgram rows key) x) := by
  have hT : s.t0 < s.t0 + s.size * s.dt := by
    have : (0 : ℚ) < s.size := by exact_mod_cast hsz
    have := mul_pos this hdt
    linarith
  obtain ⟨w, hw, hx⟩ := hin
  have hwm := (match_booking_exact s.t0 (s.t0 + s.size * s.dt) w.1 w.2 hT (hlt w hw)).2 hx
  have hb := bookings_pairs s rows key h4
  have hmemw : w ∈ (s.bookings rows key).map fun r => (r.start, r.stop) := by
    rw [hb, List.mem_filter]
    exact ⟨hw, hwm⟩
  have hkey : key ∈ rows.map Row.code := by
    obtain ⟨r, hr, -⟩ := List.mem_map.1 hmemw
    unfold Sched.bookings at hr
    have hr' := List.mem_filter.1 (List.mem_filter.1 hr).1
    exact List.mem_map.2 ⟨r, hr'.1, of_decide_eq_true hr'.2⟩
  have hz : ((s.bookings rows key).map Row.start).zip ((s.bookings rows key).map Row.stop) =
      (ofProgram rows key).filter fun w => matchBookingMask s.t0 (s.t0 + s.size * s.dt) w.1 w.2 := by
    rw [← hb, List.zip_map']
  have hne : (s.bookings rows key).map Row.start ≠ [] := by
    intro e
    rw [List.map_eq_nil_iff] at e
    rw [e] at hmemw
    exact List.not_mem_nil hmemw
  have hss : SortedWindows (((s.bookings rows key).map Row.start).zip ((s.bookings rows key).map Row.stop)) := by
    rw [hz]
    exact ⟨fun w hw => hs.1 w (List.mem_filter.1 hw).1, hs.2.sublist List.filter_sublist⟩
  obtain ⟨e1, e2⟩ := free_windows_exact s hdt _ _ (by rw [List.length_map, List.length_map]) hne hss
  unfold Sched.matchBooking
  rw [if_pos hkey]
  refine ⟨e1, fun t ht => ?_⟩
  rw [e2 t ht, hz]
  refine and_congr_right fun _ => forall_congr' fun x => forall_congr' fun hx1 => forall_congr' fun hx2 => ?_
  have hx0 : s.t0 < x := by
    have : s.t0 ≤ s.slotStart t := by
      unfold Sched.slotStart
      have := mul_nonneg (Nat.cast_nonneg (α := ℚ) t) hdt.le
      linarith
    linarith
  have hx3 : x < s.t0 + s.size * s.dt := by
    have : s.slotStop t ≤ s.t0 + s.size * s.dt := by
      unfold Sched.slotStop Sched.slotStart
      have h : ((t + 1 : ℕ) : ℚ) ≤ s.size := by exact_mod_cast ht
      have := mul_le_mul_of_nonneg_right h hdt.le
      push_cast at this
      linarith
    linarith
  constructor
  · rintro ⟨v, hv, hv'⟩
    exact ⟨v, (List.mem_filter.1 hv).1, hv'⟩
  · rintro ⟨v, hv, hv1, hv2⟩
    refine ⟨v, List.mem_filter.2 ⟨hv, ?_⟩, hv1, hv2⟩
    have hvl := hlt v hv
    refine (match_booking_exact s.t0 (s.t0 + s.size * s.dt) v.1 v.2 hT hvl).2 ?_
    rcases hv2.lt_or_eq with h | h
    · refine ⟨(x + min v.2 (s.t0 + s.size * s.dt)) / 2, ?_, ?_, ?_, ?_⟩
      all_goals
        have m1 := lt_min h hx3
        have m2 := min_le_left v.2 (s.t0 + s.size * s.dt)
        have m3 := min_le_right v.2 (s.t0 + s.size * s.dt)
        linarith
    · refine ⟨(max v.1 s.t0 + x) / 2, ?_, ?_, ?_, ?_⟩
      all_goals
        have m1 : max v.1 s.t0 < x := max_lt (h ▸ hvl) hx0
        have m2 := le_max_left v.1 s.t0
        have m3 := le_max_right v.1 s.t0
        linarith

/-- **C129**: a program which is not in the file is refused and nothing changes. -/
theorem matched_unknown (s : Sched) (rows : List Row) (key : Txt) (h4 : ∀ r ∈ rows, r.kp.length ≤ 4) (h : ∀ r ∈ rows, r.kp ≠ key) :
    s.matchBooking rows key = (s, some .valueError) := by
  unfold Sched.matchBooking
  rw [if_neg]
  intro hk
  obtain ⟨r, hr, e⟩ := List.mem_map.1 hk
  exact h r hr (by rw [← e]; exact (List.take_of_length_le (h4 r hr)).symm)

/-- **C129** fails for programs of more than four letters, which are never found. -/
theorem matched_long_violated (s : Sched) (rows : List Row) (key : Txt) (h : 4 < key.length) : s.matchBooking rows key = (s, some .valueError) := by
  unfold Sched.matchBooking
  rw [if_neg]
  intro hk
  obtain ⟨r, -, e⟩ := List.mem_map.1 hk
  have := congrArg List.length e
  unfold Row.code at this
  rw [List.length_take] at this
  omega

/-- **C129** fails for files which are not in order: two bookings of the program in the schedule, the later first, are refused. -/
theorem matched_order_violated (s : Sched) (rows : List Row) (key : Txt) (a b c d : ℚ) (h4 : ∀ r ∈ rows, r.kp.length ≤ 4)
    (ho : ofProgram rows key = [(a, b), (c, d)]) (h1 : c < d) (h2 : d < a) (h3 : a < b) (hc : s.t0 ≤ c) (hd : b ≤ s.t0 + s.size * s.dt) :
    ∃ e, (s.matchBooking rows key).2 = some e := by
  have hm : ∀ x y, s.t0 ≤ x → y ≤ s.t0 + s.size * s.dt → matchBookingMask s.t0 (s.t0 + s.size * s.dt) x y = true := by
    intro x y hx hy
    unfold matchBookingMask
    rw [decide_eq_true hx, decide_eq_true hy]
    rfl
  have hb := bookings_pairs s rows key h4
  have hall : (ofProgram rows key).filter (fun w => matchBookingMask s.t0 (s.t0 + s.size * s.dt) w.1 w.2) = [(a, b), (c, d)] := by
    rw [ho]
    refine List.filter_eq_self.2 fun w hw => ?_
    rcases List.mem_cons.1 hw with rfl | hw
    · exact hm a b (by linarith) hd
    · rw [List.mem_singleton] at hw
      subst hw
      exact hm c d hc (by linarith)
  rw [hall] at hb
  have hs : (s.bookings rows key).map Row.start = [a, c] := by
    have := congrArg (List.map Prod.fst) hb
    rw [List.map_map] at this
    exact this
  have ht : (s.bookings rows key).map Row.stop = [b, d] := by
    have := congrArg (List.map Prod.snd) hb
    rw [List.map_map] at this
    exact this
  have hkey : key ∈ rows.map Row.code := by
    have hne : (a, b) ∈ ofProgram rows key := by rw [ho]; simp
    unfold ofProgram at hne
    obtain ⟨r, hr, -⟩ := List.mem_map.1 hne
    have hr' := List.mem_filter.1 hr
    exact List.mem_map.2 ⟨r, hr'.1, by rw [show r.code = r.kp from List.take_of_length_le (h4 r hr'.1)]; exact of_decide_eq_true hr'.2⟩
  unfold Sched.matchBooking
  rw [if_pos hkey, hs, ht]
  exact free_windows_overlapping s a b c d (by linarith)

/-! ## The hypotheses can be met -/

/-- A calendar of three events, not in order. -/
def someEvents : List Event := [⟨5, 7, some ['b', 'x']⟩, ⟨1, 3, some ['a', 'x']⟩, ⟨8, 9, some ['x', 'b']⟩]

example : Apart someEvents ∧ (∀ e ∈ someEvents, e.name ≠ none) ∧ ∃ e ∈ someEvents, Asked (some ['b']) e := by
  refine ⟨⟨?_, ?_⟩, ?_, ⟨5, 7, some ['b', 'x']⟩, by simp [someEvents], ?_⟩
  · intro e he
    simp only [someEvents, List.mem_cons, List.not_mem_nil, or_false] at he
    rcases he with rfl | rfl | rfl <;> norm_num
  · simp only [someEvents, List.pairwise_cons, List.mem_cons, List.not_mem_nil, or_false, forall_eq_or_imp, forall_eq, IsEmpty.forall_iff, implies_true, List.Pairwise.nil, and_true]
    norm_num
  · intro e he
    simp only [someEvents, List.mem_cons, List.not_mem_nil, or_false] at he
    rcases he with rfl | rfl | rfl <;> exact fun h => nomatch h
  · intro t ht
    injection ht with ht
    subst ht
    exact ⟨_, [], ['x'], rfl, rfl⟩

/-- The available slots of a schedule. -/
def freesOf (s : Sched) : List Bool := (List.range s.size).map s.free

example : ((fromIcs someEvents 1 (some ['b']) fun _ => true).toOption.map fun s => (s.t0, freesOf s)) = some (5, [true, true, false, true]) := by decide +kernel

/-- A booking file. -/
def someRows : List Row := [⟨1, 3, "ES02".toList⟩, ⟨3, 5, "LT02".toList⟩, ⟨5, 7, "ES02".toList⟩]

example : ofProgram someRows "ES02".toList = [(1, 3), (5, 7)] ∧ (∀ r ∈ someRows, r.kp.length ≤ 4) ∧
    freesOf ((demo 10).matchBooking someRows "ES02".toList).1 = [false, true, true, false, false, true, true, false, false, false] := by
  refine ⟨by decide +kernel, by decide +kernel, by decide +kernel⟩

example : 2 ≤ someRows.length ∧ (∃ r ∈ someRows, ¬ Excluded ["es02".toList] r.kp) ∧
    (fromVcr someRows ["es02".toList]).toOption = some [(3, 5, "LT02".toList)] := by
  refine ⟨by decide, ⟨_, List.mem_cons_of_mem _ List.mem_cons_self, ?_⟩, by decide +kernel⟩
  rintro ⟨x, hx, e⟩
  rw [List.mem_singleton] at hx
  subst hx
  revert e
  decide +kernel

end Verif.Scheduler
