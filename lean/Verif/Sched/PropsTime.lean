import Verif.Sched.LemmasDelay
import Verif.Sched.Model2
import Verif.Sched.Demo

/-!
# Time slots and reservations

C07 (reservations), C08 (slots and time look-ups), C09 (free windows).
-/

namespace Verif.Scheduler

/-! ## C08: slots and look-ups -/

/-- **C08.** A new schedule starts at the requested time, its slots follow each other without gap, they do not exceed the
requested range and less than one slot is left over; an empty or reversed range is refused. -/
theorem slots_partition (tMin tMax dt : ℚ) (day : Nat → Bool) (hdt : 0 < dt) :
    (tMax ≤ tMin → mkSched tMin tMax dt day = .error .valueError) ∧
    (tMin < tMax → ∃ s, mkSched tMin tMax dt day = .ok s ∧ s.dt = dt ∧ s.slotStart 0 = tMin ∧
      (∀ i, s.slotStop i = s.slotStart (i + 1) ∧ s.slotStop i - s.slotStart i = dt) ∧
      tMin + s.size * dt ≤ tMax ∧ tMax < tMin + s.size * dt + dt ∧ ∀ t, s.free t = true) := by
  refine ⟨fun h => by simp [mkSched, h], fun h => ?_⟩
  refine ⟨_, by unfold mkSched; rw [if_neg (not_le.mpr h)], rfl, ?_, ?_, ?_, ?_, fun _ => rfl⟩
  · simp [Sched.slotStart]
  · intro i
    constructor
    · simp only [Sched.slotStop, Sched.slotStart]; push_cast; ring
    · simp only [Sched.slotStop, Sched.slotStart]; ring
  · have h0 : 0 ≤ (tMax - tMin) / dt := div_nonneg (by linarith) hdt.le
    have hf : 0 ≤ ⌊(tMax - tMin) / dt⌋ := Int.floor_nonneg.mpr h0
    have h1 := Int.floor_le ((tMax - tMin) / dt)
    have h2 : ((⌊(tMax - tMin) / dt⌋.toNat : ℕ) : ℚ) = (⌊(tMax - tMin) / dt⌋ : ℚ) := by
      rw [← Int.cast_natCast, Int.toNat_of_nonneg hf]
    simp only
    rw [h2]
    have h3 : (⌊(tMax - tMin) / dt⌋ : ℚ) * dt ≤ (tMax - tMin) / dt * dt := mul_le_mul_of_nonneg_right h1 hdt.le
    rw [div_mul_cancel₀ _ hdt.ne'] at h3
    linarith
  · have h0 : 0 ≤ (tMax - tMin) / dt := div_nonneg (by linarith) hdt.le
    have hf : 0 ≤ ⌊(tMax - tMin) / dt⌋ := Int.floor_nonneg.mpr h0
    have h1 := Int.lt_floor_add_one ((tMax - tMin) / dt)
    have h2 : ((⌊(tMax - tMin) / dt⌋.toNat : ℕ) : ℚ) = (⌊(tMax - tMin) / dt⌋ : ℚ) := by
      rw [← Int.cast_natCast, Int.toNat_of_nonneg hf]
    simp only
    rw [h2]
    have h3 : (tMax - tMin) / dt * dt < ((⌊(tMax - tMin) / dt⌋ : ℚ) + 1) * dt := mul_lt_mul_of_pos_right h1 hdt
    rw [div_mul_cancel₀ _ hdt.ne'] at h3
    linarith

example : ∃ tMin tMax dt : ℚ, 0 < dt ∧ tMin < tMax ∧ ⌊(tMax - tMin) / dt⌋.toNat = 3 :=
  ⟨0, 7/2, 1, by norm_num, by norm_num, by decide +kernel⟩

/-- **C08.** Looking up one time inside the schedule gives exactly one slot, the one containing it (its start included, its end
excluded); outside of the schedule the look-up is empty. -/
theorem time_lookup_exact (s : Sched) (hdt : 0 < s.dt) (t : ℚ) :
    (s.t0 ≤ t → t < s.t0 + s.size * s.dt → ∃ i, i < s.size ∧ s.time2idx1 t = [i] ∧
      s.slotStart i ≤ t ∧ t < s.slotStop i) ∧
    (t < s.t0 ∨ s.t0 + s.size * s.dt ≤ t → s.time2idx1 t = []) := by
  have hmem : ∀ i, i ∈ s.time2idx1 t ↔ i < s.size ∧ s.slotStart i ≤ t ∧ t < s.slotStop i := by
    intro i; simp [Sched.time2idx1]
  constructor
  · intro h1 h2
    have h0 : 0 ≤ (t - s.t0) / s.dt := div_nonneg (by linarith) hdt.le
    have hf : 0 ≤ ⌊(t - s.t0) / s.dt⌋ := Int.floor_nonneg.mpr h0
    have hlo := Int.floor_le ((t - s.t0) / s.dt)
    have hhi := Int.lt_floor_add_one ((t - s.t0) / s.dt)
    obtain ⟨i, hi⟩ : ∃ i : ℕ, (i : ℤ) = ⌊(t - s.t0) / s.dt⌋ := ⟨_, Int.toNat_of_nonneg hf⟩
    have hiq : ((⌊(t - s.t0) / s.dt⌋ : ℤ) : ℚ) = i := by rw [← hi]; simp
    rw [hiq] at hlo hhi
    have e1 : (i : ℚ) * s.dt ≤ t - s.t0 := by
      have := mul_le_mul_of_nonneg_right hlo hdt.le
      rwa [div_mul_cancel₀ _ hdt.ne'] at this
    have e2 : t - s.t0 < ((i : ℚ) + 1) * s.dt := by
      have := mul_lt_mul_of_pos_right hhi hdt
      rwa [div_mul_cancel₀ _ hdt.ne'] at this
    have hs1 : s.slotStart i ≤ t := by simp only [Sched.slotStart]; linarith
    have hs2 : t < s.slotStop i := by simp only [Sched.slotStop, Sched.slotStart]; linarith
    have hlt : i < s.size := by
      by_contra hc
      have : (s.size : ℚ) ≤ i := by exact_mod_cast not_lt.mp hc
      have := mul_le_mul_of_nonneg_right this hdt.le
      linarith
    refine ⟨i, hlt, ?_, hs1, hs2⟩
    have huniq : ∀ j ∈ s.time2idx1 t, j = i := by
      intro j hj
      obtain ⟨_, hj1, hj2⟩ := (hmem j).mp hj
      simp only [Sched.slotStart, Sched.slotStop] at hj1 hj2
      have hji : (j : ℚ) < i + 1 := by
        by_contra hc
        have := mul_le_mul_of_nonneg_right (not_lt.mp hc) hdt.le
        linarith
      have hij : (i : ℚ) < j + 1 := by
        by_contra hc
        have := mul_le_mul_of_nonneg_right (not_lt.mp hc) hdt.le
        linarith
      have h3 : j < i + 1 := by exact_mod_cast hji
      have h4 : i < j + 1 := by exact_mod_cast hij
      omega
    have hnd : (s.time2idx1 t).Nodup := List.Nodup.filter _ List.nodup_range
    have hin : i ∈ s.time2idx1 t := (hmem i).mpr ⟨hlt, hs1, hs2⟩
    match hl : s.time2idx1 t with
    | [] => rw [hl] at hin; simp at hin
    | [a] => rw [huniq a (by rw [hl]; simp)]
    | a :: b :: l =>
      rw [hl] at hnd
      have ha := huniq a (by rw [hl]; simp)
      have hb := huniq b (by rw [hl]; simp)
      rw [ha, hb] at hnd
      simp at hnd
  · intro h
    rw [List.eq_nil_iff_forall_not_mem]
    intro i hi
    obtain ⟨hlt, h1, h2⟩ := (hmem i).mp hi
    simp only [Sched.slotStart, Sched.slotStop] at h1 h2
    rcases h with h | h
    · have : 0 ≤ (i : ℚ) * s.dt := by positivity
      linarith
    · have : (i : ℚ) + 1 ≤ s.size := by exact_mod_cast hlt
      have := mul_le_mul_of_nonneg_right this hdt.le
      linarith

example : (demo 10).time2idx1 (7/2) = [3] := by decide +kernel
example : (demo 10).time2idx1 10 = [] := by decide +kernel

/-- **C08.** Looking up a time range is refused when reversed, and otherwise lists exactly the slots whose open interval meets the open range, or
strictly contains it when it is a single time; they come in increasing order. -/
theorem range_lookup_exact (s : Sched) (a b : ℚ) :
    (b < a → s.time2idx2 a b = .error .valueError) ∧
    (a ≤ b → ∃ l, s.time2idx2 a b = .ok l ∧ l.Pairwise (· < ·) ∧
      ∀ i, i ∈ l ↔ i < s.size ∧ a < s.slotStop i ∧ s.slotStart i < b) := by
  refine ⟨fun h => by simp [Sched.time2idx2, h], fun h => ?_⟩
  refine ⟨_, by unfold Sched.time2idx2; rw [if_neg (not_lt.mpr h)], ?_, ?_⟩
  · exact List.Pairwise.filter _ List.pairwise_lt_range
  · intro i; simp

/-- The overlap condition is the existence of a common interior time. -/
theorem overlap_iff_common_time {a b c d : ℚ} (h1 : a < b) (h2 : c < d) :
    (a < d ∧ c < b) ↔ ∃ x, a < x ∧ x < b ∧ c < x ∧ x < d := by
  constructor
  · rintro ⟨h3, h4⟩
    have hlt : max a c < min b d := by
      rw [max_lt_iff, lt_min_iff, lt_min_iff]; exact ⟨⟨h1, h3⟩, h4, h2⟩
    refine ⟨(max a c + min b d) / 2, ?_, ?_, ?_, ?_⟩
    · have := le_max_left a c; linarith
    · have := min_le_left b d; linarith
    · have := le_max_right a c; linarith
    · have := min_le_right b d; linarith
  · rintro ⟨x, h3, h4, h5, h6⟩
    exact ⟨by linarith, by linarith⟩

/-! ## C07: reservations -/

/-- Adding or removing a reservation `[a, b]`. -/
inductive ROp
  | add (a b : ℚ)
  | remove (a b : ℚ)

/-- State after one such call, whether it raises or not. -/
def Sched.applyR (s : Sched) : ROp → Sched
  | .add a b => (s.addBooking a b).1
  | .remove a b => (s.removeBooking a b).1

/-- State after a history. -/
def Sched.runR (s : Sched) (ops : List ROp) : Sched := ops.foldl Sched.applyR s

/-- The interval of a call. -/
def ROp.range : ROp → ℚ × ℚ
  | .add a b => (a, b)
  | .remove a b => (a, b)

/-- What a call covering a slot makes of it. -/
def ROp.frees : ROp → Bool
  | .add _ _ => false
  | .remove _ _ => true

theorem applyR_fields (s : Sched) (o : ROp) : (s.applyR o).size = s.size ∧ (s.applyR o).dt = s.dt ∧
    (s.applyR o).t0 = s.t0 ∧ (s.applyR o).blocks = s.blocks := by
  cases o <;> simp only [Sched.applyR, Sched.addBooking, Sched.removeBooking] <;> split <;> exact ⟨rfl, rfl, rfl, rfl⟩

theorem applyR_free (s : Sched) (o : ROp) (t : Nat) (ht : t < s.size) :
    (s.Overlaps t o.range.1 o.range.2 → (s.applyR o).free t = o.frees) ∧
    (¬ s.Overlaps t o.range.1 o.range.2 → (s.applyR o).free t = s.free t) := by
  have key : ∀ a b : ℚ, ∀ idx, s.time2idx2 a b = .ok idx → (t ∈ idx ↔ s.Overlaps t a b) := by
    intro a b idx h
    by_cases hab : b < a
    · simp [Sched.time2idx2, hab] at h
    · obtain ⟨l, hl, _, hm⟩ := (range_lookup_exact s a b).2 (not_lt.mp hab)
      rw [hl] at h
      obtain rfl := Except.ok.inj h
      rw [hm]
      unfold Sched.Overlaps Sched.slotStart Sched.slotStop Sched.slotStart
      have : s.t0 + (t : ℚ) * s.dt + s.dt = s.t0 + (t + 1) * s.dt := by ring
      rw [this]
      have := not_lt.mp hab
      tauto
  have kerr : ∀ a b : ℚ, ∀ e, s.time2idx2 a b = .error e → ¬ s.Overlaps t a b := by
    intro a b e h ho
    unfold Sched.time2idx2 at h
    rw [if_neg (not_lt.mpr ho.1)] at h
    exact absurd h (by simp)
  cases o with
  | add a b =>
    simp only [Sched.applyR, Sched.addBooking, ROp.range, ROp.frees]
    split
    · rename_i e he
      exact ⟨fun h => absurd h (kerr a b e he), fun _ => rfl⟩
    · rename_i idx hidx
      have := key a b idx hidx
      exact ⟨fun h => by simp [this.mpr h], fun h => by simp [mt this.mp h]⟩
  | remove a b =>
    simp only [Sched.applyR, Sched.removeBooking, ROp.range, ROp.frees]
    split
    · rename_i e he
      exact ⟨fun h => absurd h (kerr a b e he), fun _ => rfl⟩
    · rename_i idx hidx
      have := key a b idx hidx
      exact ⟨fun h => by simp [this.mpr h], fun h => by simp [mt this.mp h]⟩

theorem overlaps_applyR (s : Sched) (o : ROp) (t : Nat) (a b : ℚ) :
    (s.applyR o).Overlaps t a b ↔ s.Overlaps t a b := by
  obtain ⟨_, h2, h3, _⟩ := applyR_fields s o
  unfold Sched.Overlaps
  rw [h2, h3]

/-- **C07, what the code does.** After any history of reservations and removals, a slot covered by no call is as before, and otherwise
the *last* call covering the slot decides. -/
theorem reservation_last_call_wins (s : Sched) (ops : List ROp) (t : Nat) (ht : t < s.size) :
    ((∀ o ∈ ops, ¬ s.Overlaps t o.range.1 o.range.2) → (s.runR ops).free t = s.free t) ∧
    (∀ l1 o l2, ops = l1 ++ o :: l2 → s.Overlaps t o.range.1 o.range.2 →
      (∀ o' ∈ l2, ¬ s.Overlaps t o'.range.1 o'.range.2) → (s.runR ops).free t = o.frees) := by
  have hno : ∀ (ops : List ROp) (s : Sched), t < s.size → (∀ o ∈ ops, ¬ s.Overlaps t o.range.1 o.range.2) →
      (s.runR ops).free t = s.free t := by
    intro ops
    induction ops with
    | nil => intro s _ _; rfl
    | cons o ops ih =>
      intro s ht h
      change ((s.applyR o).runR ops).free t = _
      rw [ih (s.applyR o) (by rw [(applyR_fields s o).1]; exact ht)
        (fun o' ho' => by rw [overlaps_applyR]; exact h o' (List.mem_cons_of_mem _ ho'))]
      exact (applyR_free s o t ht).2 (h o List.mem_cons_self)
  refine ⟨hno ops s ht, ?_⟩
  rintro l1 o l2 rfl ho hl2
  have hrun : s.runR (l1 ++ o :: l2) = ((s.runR l1).applyR o).runR l2 := by
    simp [Sched.runR, List.foldl_append]
  have hinv : ∀ (l : List ROp) (s : Sched), (s.runR l).size = s.size ∧
      ∀ a b, (s.runR l).Overlaps t a b ↔ s.Overlaps t a b := by
    intro l
    induction l with
    | nil => intro s; exact ⟨rfl, fun _ _ => Iff.rfl⟩
    | cons o l ih =>
      intro s
      obtain ⟨h1, h2⟩ := ih (s.applyR o)
      exact ⟨h1.trans (applyR_fields s o).1, fun a b => (h2 a b).trans (overlaps_applyR s o t a b)⟩
  obtain ⟨hs, hov⟩ := hinv l1 s
  rw [hrun, hno l2 _ (by rw [(applyR_fields _ o).1, hs]; exact ht)
    (fun o' ho' => by rw [overlaps_applyR, hov]; exact hl2 o' ho')]
  exact (applyR_free _ o t (by rw [hs]; exact ht)).1 ((hov _ _).mpr ho)

/-- The reservations outstanding after a history. -/
def outstanding (L : List (ℚ × ℚ)) : List ROp → List (ℚ × ℚ)
  | [] => L
  | .add a b :: ops => outstanding ((a, b) :: L) ops
  | .remove a b :: ops => outstanding (L.erase (a, b)) ops

/-- Each new reservation shares no slot with an outstanding one; each removal is of an outstanding reservation. -/
def Sched.Tidy (s : Sched) (L : List (ℚ × ℚ)) : List ROp → Prop
  | [] => True
  | .add a b :: ops => (∀ w ∈ L, ∀ t, t < s.size → s.Overlaps t a b → ¬ s.Overlaps t w.1 w.2) ∧ s.Tidy ((a, b) :: L) ops
  | .remove a b :: ops => (a, b) ∈ L ∧ s.Tidy (L.erase (a, b)) ops

/-- **C07 (partial: reservations that share no slot).** A slot is available exactly when no outstanding
reservation covers it. -/
theorem reservations_counted_partial (s : Sched) (hfree : ∀ t, s.free t = true) (ops : List ROp) (h : s.Tidy [] ops) :
    ∀ t, t < s.size → ((s.runR ops).free t = true ↔ ∀ w ∈ outstanding [] ops, ¬ s.Overlaps t w.1 w.2) := by
  have gen : ∀ (ops : List ROp) (L : List (ℚ × ℚ)) (s' : Sched), s'.size = s.size → s'.dt = s.dt → s'.t0 = s.t0 →
      s.Tidy L ops → (∀ t, t < s.size → (s'.free t = true ↔ ∀ w ∈ L, ¬ s.Overlaps t w.1 w.2)) →
      (L.Pairwise fun w v => ∀ t, t < s.size → s.Overlaps t w.1 w.2 → ¬ s.Overlaps t v.1 v.2) →
      ∀ t, t < s.size → ((s'.runR ops).free t = true ↔ ∀ w ∈ outstanding L ops, ¬ s.Overlaps t w.1 w.2) := by
    intro ops
    induction ops with
    | nil => intro L s' _ _ _ _ h _; exact h
    | cons o ops ih =>
      intro L s' hsz hdt ht0 htidy hL hp
      obtain ⟨f1, f2, f3, _⟩ := applyR_fields s' o
      have hov : ∀ t a b, s'.Overlaps t a b ↔ s.Overlaps t a b := by
        intro t a b; unfold Sched.Overlaps; rw [hdt, ht0]
      cases o with
      | add a b =>
        obtain ⟨hnew, htidy'⟩ := htidy
        refine ih ((a, b) :: L) _ (f1.trans hsz) (f2.trans hdt) (f3.trans ht0) htidy' ?_ ?_
        · intro t ht
          have hf := applyR_free s' (.add a b) t (by rw [hsz]; exact ht)
          simp only [ROp.range, ROp.frees, hov] at hf
          simp only [List.mem_cons, forall_eq_or_imp]
          by_cases ho : s.Overlaps t a b
          · rw [hf.1 ho]; simp [ho]
          · rw [hf.2 ho, hL t ht]; simp [ho]
        · rw [List.pairwise_cons]
          exact ⟨fun w hw t ht ho => hnew w hw t ht ho, hp⟩
      | remove a b =>
        obtain ⟨hin, htidy'⟩ := htidy
        refine ih (L.erase (a, b)) _ (f1.trans hsz) (f2.trans hdt) (f3.trans ht0) htidy' ?_ (hp.sublist List.erase_sublist)
        intro t ht
        have hf := applyR_free s' (.remove a b) t (by rw [hsz]; exact ht)
        simp only [ROp.range, ROp.frees, hov] at hf
        have hperm := List.perm_cons_erase hin
        have hp' : ((a, b) :: L.erase (a, b)).Pairwise
            fun w v => ∀ t, t < s.size → s.Overlaps t w.1 w.2 → ¬ s.Overlaps t v.1 v.2 :=
          (hperm.pairwise_iff (fun {w v} h t ht h1 h2 => h t ht h2 h1)).mp hp
        rw [List.pairwise_cons] at hp'
        by_cases ho : s.Overlaps t a b
        · rw [hf.1 ho]
          exact ⟨fun _ w hw => hp'.1 w hw t ht ho, fun _ => rfl⟩
        · rw [hf.2 ho, hL t ht]
          constructor
          · intro hh w hw; exact hh w (List.mem_of_mem_erase hw)
          · intro hh w hw
            rcases List.mem_cons.mp (hperm.mem_iff.mp hw) with rfl | hw
            · exact ho
            · exact hh w hw
  exact gen ops [] s rfl rfl rfl h (fun t _ => by simp [hfree]) List.Pairwise.nil

/-- The hypotheses are met by a history that adds two disjoint reservations and removes one. -/
example : (demo 10).Tidy [] [.add 0 2, .add 4 6, .remove 0 2] ∧
    outstanding [] [.add 0 2, .add 4 6, .remove 0 2] = [(4, 6)] ∧
    ((demo 10).runR [.add 0 2, .add 4 6, .remove 0 2]).frees =
      [true, true, true, true, false, false, true, true, true, true] := by
  refine ⟨⟨by simp, ⟨?_, by simp, trivial⟩⟩, by decide +kernel, by decide +kernel⟩
  intro w hw t _ h1 h2
  simp only [List.mem_cons, List.not_mem_nil, or_false] at hw
  subst hw
  simp only [Sched.Overlaps, demo] at h1 h2
  have := h1.2.1
  have := h2.2.2
  have h3 : (3 : ℚ) < t := by linarith
  have h4 : (t : ℚ) < 2 := by linarith
  linarith

/-- **C07 violated.** Two overlapping reservations, one of which is removed: the slots they share become available although
the other reservation is still there. -/
theorem reservations_counted_violated :
    ∃ (s : Sched) (ops : List ROp) (t : Nat), t < s.size ∧ outstanding [] ops = [(1, 3)] ∧ s.Overlaps t 1 3 ∧
      (∀ t, s.free t = true) ∧ (s.runR ops).free t = true := by
  refine ⟨demo 10, [.add 1 3, .add 0 2, .remove 0 2], 1, by decide, by decide +kernel, ?_, fun _ => rfl, by decide +kernel⟩
  refine ⟨by norm_num, ?_, ?_⟩ <;> norm_num [demo]

/-- **C07, C01 violated.** Removing a reservation that overlaps a booked observation makes the observation's slot available, and a
booking without reset then puts a second observation on the same slot. -/
theorem remove_over_booked_violated :
    ∃ s, Reachable s ∧ s.starts = [some 5] ∧
      (((s.removeBooking 5 6).1.insertObs [obsOn 1 none none [5]]).book (noReset [0, 1])).1.starts = [some 5, some 5] := by
  refine ⟨(demo 10).run [.insertObs [obsOn 1 none none [5]], .book (plain [0])],
    reachable_demo 10 (by norm_num) _ ⟨legal_obsOn ?_, trivial, trivial⟩, by decide +kernel, by decide +kernel⟩
  intro o ho
  exact ⟨1, none, none, [5], by simpa using ho, by norm_num⟩

/-! ## C09: free windows -/

/-- Windows in increasing order with a gap between consecutive ones. -/
def SortedWindows (ws : List (ℚ × ℚ)) : Prop := (∀ w ∈ ws, w.1 ≤ w.2) ∧ ws.Pairwise fun w v => w.2 < v.1

/-- The time `x` lies in one of the windows, bounds included. -/
def InWindows (ws : List (ℚ × ℚ)) (x : ℚ) : Prop := ∃ w ∈ ws, w.1 ≤ x ∧ x ≤ w.2

theorem innerGaps_mem : ∀ {ws : List (ℚ × ℚ)}, SortedWindows ws → ∀ g ∈ innerGaps ws, g.1 < g.2 ∧
    ∀ x, g.1 < x → x < g.2 → ¬ InWindows ws x
  | [], _, g, hg => by simp [innerGaps] at hg
  | [_], _, g, hg => by simp [innerGaps] at hg
  | (a, b) :: (c, d) :: l, h, g, hg => by
    obtain ⟨h1, h2⟩ := h
    rw [List.pairwise_cons] at h2
    have hbc : b < c := h2.1 (c, d) List.mem_cons_self
    have hrest : SortedWindows ((c, d) :: l) := ⟨fun w hw => h1 w (List.mem_cons_of_mem _ hw), h2.2⟩
    rw [innerGaps, List.mem_cons] at hg
    rcases hg with rfl | hg
    · refine ⟨hbc, ?_⟩
      rintro x hx1 hx2 ⟨w, hw, hw1, hw2⟩
      simp only at hx1 hx2
      rcases List.mem_cons.mp hw with rfl | hw
      · linarith
      · rcases List.mem_cons.mp hw with rfl | hw
        · simp only at hw1; linarith
        · have h3 := (List.pairwise_cons.mp h2.2).1 w hw
          have := h1 (c, d) (by simp)
          simp only at h3 this
          linarith
    · obtain ⟨hg1, hg2⟩ := innerGaps_mem hrest g hg
      refine ⟨hg1, ?_⟩
      rintro x hx1 hx2 ⟨w, hw, hw1, hw2⟩
      rcases List.mem_cons.mp hw with rfl | hw
      · -- gaps of the rest start after `d`
        have hge : ∀ (ws : List (ℚ × ℚ)) (y : ℚ), (∀ w ∈ ws, y ≤ w.2) → ∀ g ∈ innerGaps ws, y ≤ g.1 := by
          intro ws
          induction ws with
          | nil => intro y _ g hg; simp [innerGaps] at hg
          | cons w ws ih =>
            intro y hy g hg
            cases ws with
            | nil => simp [innerGaps] at hg
            | cons v ws =>
              obtain ⟨w1, w2⟩ := w
              obtain ⟨v1, v2⟩ := v
              rw [innerGaps, List.mem_cons] at hg
              rcases hg with rfl | hg
              · exact hy (w1, w2) List.mem_cons_self
              · exact ih y (fun w hw => hy w (List.mem_cons_of_mem _ hw)) g hg
        have : b ≤ g.1 := hge ((c, d) :: l) b (fun w hw => by
          have := h2.1 w hw
          have := h1 w (List.mem_cons_of_mem _ hw)
          linarith) g hg
        simp only at hw2
        linarith
      · exact hg2 x hx1 hx2 ⟨w, hw, hw1, hw2⟩

theorem windows_cover : ∀ {w : ℚ × ℚ} {ws : List (ℚ × ℚ)}, SortedWindows (w :: ws) → ∀ l, (w :: ws).getLast? = some l →
    ∀ x, x < w.1 ∨ l.2 < x ∨ InWindows (w :: ws) x ∨ ∃ g ∈ innerGaps (w :: ws), g.1 < x ∧ x < g.2
  | (a, b), [], _, l, hl, x => by
    simp only [List.getLast?_singleton, Option.some.injEq] at hl
    subst hl
    by_cases h1 : x < a
    · exact Or.inl h1
    · by_cases h2 : b < x
      · exact Or.inr (Or.inl h2)
      · exact Or.inr (Or.inr (Or.inl ⟨(a, b), by simp, not_lt.mp h1, not_lt.mp h2⟩))
  | (a, b), (c, d) :: ws, h, l, hl, x => by
    obtain ⟨h1, h2⟩ := h
    rw [List.pairwise_cons] at h2
    have hrest : SortedWindows ((c, d) :: ws) := ⟨fun w hw => h1 w (List.mem_cons_of_mem _ hw), h2.2⟩
    have hl' : ((c, d) :: ws).getLast? = some l := by rwa [List.getLast?_cons_cons] at hl
    rcases windows_cover hrest l hl' x with hx | hx | ⟨w, hw, hx⟩ | ⟨g, hg, hx⟩
    · by_cases h3 : x < a
      · exact Or.inl h3
      · by_cases h4 : b < x
        · exact Or.inr (Or.inr (Or.inr ⟨(b, c), by simp [innerGaps], h4, hx⟩))
        · exact Or.inr (Or.inr (Or.inl ⟨(a, b), by simp, not_lt.mp h3, not_lt.mp h4⟩))
    · exact Or.inr (Or.inl hx)
    · exact Or.inr (Or.inr (Or.inl ⟨w, List.mem_cons_of_mem _ hw, hx⟩))
    · exact Or.inr (Or.inr (Or.inr ⟨g, by rw [innerGaps]; exact List.mem_cons_of_mem _ hg, hx⟩))

theorem reserveAll_ok : ∀ (gs : List (ℚ × ℚ)) (s : Sched), (∀ g ∈ gs, g.1 ≤ g.2) →
    (s.reserveAll gs).2 = none ∧ (s.reserveAll gs).1.size = s.size ∧
    ∀ t, t < s.size → ((s.reserveAll gs).1.free t = true ↔ s.free t = true ∧ ∀ g ∈ gs, ¬ s.Overlaps t g.1 g.2)
  | [], s, _ => ⟨rfl, rfl, fun t _ => by simp [Sched.reserveAll]⟩
  | (a, b) :: gs, s, h => by
    have hab : a ≤ b := h (a, b) List.mem_cons_self
    have hstep := applyR_free s (.add a b)
    obtain ⟨f1, f2, f3, _⟩ := applyR_fields s (.add a b)
    simp only [Sched.applyR] at hstep f1 f2 f3
    have hnone : (s.addBooking a b).2 = none := by
      unfold Sched.addBooking Sched.time2idx2
      rw [if_neg (not_lt.mpr hab)]
    have hr2 : (s.insertReserved a b).2 = none := by simp [Sched.insertReserved, hnone]
    have hfields : (s.insertReserved a b).1.size = s.size ∧ (s.insertReserved a b).1.dt = s.dt ∧
        (s.insertReserved a b).1.t0 = s.t0 ∧ (s.insertReserved a b).1.free = (s.addBooking a b).1.free := by
      unfold Sched.insertReserved
      simp only [hnone]
      exact ⟨f1, f2, f3, trivial⟩
    obtain ⟨ih1, ih2, ih3⟩ := reserveAll_ok gs (s.insertReserved a b).1 (fun g hg => h g (List.mem_cons_of_mem _ hg))
    have hrw : s.reserveAll ((a, b) :: gs) = (s.insertReserved a b).1.reserveAll gs := by
      rw [Sched.reserveAll, hr2]
    rw [hrw]
    refine ⟨ih1, ih2.trans hfields.1, fun t ht => ?_⟩
    rw [ih3 t (by rw [hfields.1]; exact ht), hfields.2.2.2]
    have hov : ∀ c d, (s.insertReserved a b).1.Overlaps t c d ↔ s.Overlaps t c d := by
      intro c d; unfold Sched.Overlaps; rw [hfields.2.1, hfields.2.2.1]
    simp only [hov, List.mem_cons, forall_eq_or_imp]
    have := hstep t ht
    simp only [ROp.range, ROp.frees] at this
    by_cases ho : s.Overlaps t a b
    · rw [this.1 ho]; simp [ho]
    · rw [this.2 ho]; simp [ho]

/-- **C09.** For windows in increasing order with gaps between them, `set_free_slots` succeeds, and a slot is then available exactly when
it was available and all its interior times lie in the windows. -/
theorem free_windows_exact (s : Sched) (hdt : 0 < s.dt) (starts stops : List ℚ) (hlen : starts.length = stops.length)
    (hne : starts ≠ []) (hs : SortedWindows (starts.zip stops)) :
    (s.setFreeSlots starts stops).2 = none ∧
    ∀ t, t < s.size → ((s.setFreeSlots starts stops).1.free t = true ↔
      s.free t = true ∧ ∀ x, s.slotStart t < x → x < s.slotStop t → InWindows (starts.zip stops) x) := by
  obtain ⟨w, ws, hws⟩ : ∃ w ws, starts.zip stops = w :: ws := by
    cases starts with
    | nil => exact absurd rfl hne
    | cons a as =>
      cases stops with
      | nil => simp at hlen
      | cons b bs => exact ⟨(a, b), as.zip bs, rfl⟩
  unfold Sched.setFreeSlots
  rw [if_neg (not_not.mpr hlen), hws]
  rw [hws] at hs
  obtain ⟨l, hl⟩ : ∃ l, (w :: ws).getLast? = some l := ⟨_, List.getLast?_cons⟩
  rw [hl]
  simp only [List.head?_cons]
  have hgap : ∀ g ∈ gapList s.t0 (s.t0 + s.size * s.dt) (w :: ws) w l, g.1 < g.2 := by
    intro g hg
    unfold gapList at hg
    rw [List.mem_append, List.mem_append] at hg
    rcases hg with (hg | hg) | hg
    · split at hg
      · simp only [List.mem_cons, List.not_mem_nil, or_false] at hg; subst hg; assumption
      · simp at hg
    · exact (innerGaps_mem hs g hg).1
    · split at hg
      · simp only [List.mem_cons, List.not_mem_nil, or_false] at hg; subst hg; assumption
      · simp at hg
  obtain ⟨r1, _, r3⟩ := reserveAll_ok _ s (fun g hg => (hgap g hg).le)
  refine ⟨r1, fun t ht => ?_⟩
  rw [r3 t ht]
  refine and_congr_right fun _ => ?_
  have hslot : s.slotStart t < s.slotStop t := by simp only [Sched.slotStop]; linarith
  have hst : s.slotStart t = s.t0 + t * s.dt := rfl
  have hsp : s.slotStop t = s.t0 + (t + 1) * s.dt := by simp only [Sched.slotStop, Sched.slotStart]; ring
  have hlast : ∀ v ∈ (w :: ws), v.2 ≤ l.2 := by
    intro v hv
    have hsplit : ∃ init, w :: ws = init ++ [l] := by
      refine ⟨(w :: ws).dropLast, ?_⟩
      exact (List.dropLast_append_getLast? l hl).symm
    obtain ⟨init, hi⟩ := hsplit
    have hp := hs.2
    rw [hi, List.pairwise_append] at hp
    rw [hi, List.mem_append] at hv
    rcases hv with hv | hv
    · have := hp.2.2 v hv l (by simp)
      have := hs.1 l (by rw [hi]; simp)
      linarith
    · simp only [List.mem_cons, List.not_mem_nil, or_false] at hv; rw [hv]
  have hfirst : ∀ v ∈ (w :: ws), w.1 ≤ v.1 := by
    intro v hv
    rcases List.mem_cons.mp hv with rfl | hv
    · exact le_refl _
    · have := (List.pairwise_cons.mp hs.2).1 v hv
      have := hs.1 w List.mem_cons_self
      linarith
  constructor
  · intro hno x hx1 hx2
    have htlt : (t : ℚ) + 1 ≤ s.size := by exact_mod_cast ht
    have hmul := mul_le_mul_of_nonneg_right htlt hdt.le
    have hpos : 0 ≤ (t : ℚ) * s.dt := by positivity
    have key : ∀ g ∈ gapList s.t0 (s.t0 + s.size * s.dt) (w :: ws) w l, ¬ (g.1 < x ∧ x < g.2) := by
      rintro g hg ⟨h1, h2⟩
      refine hno g hg ⟨(hgap g hg).le, ?_, ?_⟩ <;> linarith
    rcases windows_cover hs l hl x with h | h | h | ⟨g, hg, h⟩
    · exfalso
      have h0 : s.t0 < w.1 := by linarith
      refine key (s.t0, w.1) ?_ ⟨by simp only; linarith, h⟩
      simp [gapList, h0]
    · exfalso
      have h0 : l.2 < s.t0 + s.size * s.dt := by linarith
      refine key (l.2, s.t0 + s.size * s.dt) ?_ ⟨h, by simp only; linarith⟩
      simp [gapList, h0]
    · exact h
    · exfalso
      refine key g ?_ h
      simp [gapList, hg]
  · intro hall g hg ho
    obtain ⟨_, h1, h2⟩ := ho
    rw [← hsp] at h1
    rw [← hst] at h2
    obtain ⟨x, hx1, hx2, hx3, hx4⟩ := (overlap_iff_common_time (hgap g hg) hslot).mp ⟨h1, h2⟩
    obtain ⟨v, hv, hv1, hv2⟩ := hall x hx3 hx4
    unfold gapList at hg
    rw [List.mem_append, List.mem_append] at hg
    rcases hg with (hg | hg) | hg
    · split at hg
      · simp only [List.mem_cons, List.not_mem_nil, or_false] at hg
        subst hg
        have := hfirst v hv
        simp only at hx2
        linarith
      · simp at hg
    · exact (innerGaps_mem hs g hg).2 x hx1 hx2 ⟨v, hv, hv1, hv2⟩
    · split at hg
      · simp only [List.mem_cons, List.not_mem_nil, or_false] at hg
        subst hg
        have := hlast v hv
        simp only at hx1
        linarith
      · simp at hg

example : SortedWindows ([1, 5].zip [3, (15/2 : ℚ)]) ∧
    ((demo 10).setFreeSlots [1, 5] [3, 15/2]).1.frees =
      [false, true, true, false, false, true, true, false, false, false] := by
  refine ⟨⟨?_, ?_⟩, by decide +kernel⟩
  · intro w hw; simp at hw; rcases hw with rfl | rfl <;> norm_num
  · simp; norm_num

/-- **C09.** Start and stop lists of different lengths are refused, and nothing changes; empty lists raise as well. -/
theorem free_windows_malformed (s : Sched) (starts stops : List ℚ) :
    (starts.length ≠ stops.length → s.setFreeSlots starts stops = (s, some .valueError)) ∧
    (s.setFreeSlots [] []).1 = s ∧ (s.setFreeSlots [] []).2 = some .indexError := by
  refine ⟨fun h => by unfold Sched.setFreeSlots; rw [if_pos h], ?_, ?_⟩ <;> simp [Sched.setFreeSlots]

/-- **C09.** Two windows that overlap are refused. -/
theorem free_windows_overlapping (s : Sched) (a b c d : ℚ) (hov : c < b) :
    ∃ e, (s.setFreeSlots [a, c] [b, d]).2 = some e := by
  unfold Sched.setFreeSlots
  simp only [List.length_cons, List.length_nil, List.zip_cons_cons, List.zip_nil_right, List.head?_cons,
    List.getLast?_cons_cons, List.getLast?_singleton, ne_eq, not_true_eq_false, if_false]
  have herr : ∀ s' : Sched, (s'.insertReserved b c).2 = some .valueError := by
    intro s'; simp [Sched.insertReserved, Sched.addBooking, Sched.time2idx2, hov]
  unfold gapList
  simp only [innerGaps]
  split
  · simp only [List.cons_append, List.nil_append]
    rw [Sched.reserveAll]
    split
    · rw [Sched.reserveAll, herr]; exact ⟨_, rfl⟩
    · rename_i e _; exact ⟨e, rfl⟩
  · simp only [List.nil_append, List.cons_append]
    rw [Sched.reserveAll, herr]; exact ⟨_, rfl⟩

/-- **C09 violated: not atomic.** When overlapping windows are refused, the first gap has already been reserved. -/
theorem free_windows_atomic_violated :
    ((demo 10).setFreeSlots [2, 4] [5, 6]).2 = some .valueError ∧ ((demo 10).setFreeSlots [2, 4] [5, 6]).1.free 0 = false := by
  decide +kernel

/-- **C09 violated: windows that touch.** With two windows `[a, m]` and `[m, b]`, which leave no gap, a slot which has `m` inside of it is not available
any more. -/
theorem touching_windows_violated (s : Sched) (a m b : ℚ) (k : Nat) (hk : k < s.size) (h1 : s.slotStart k < m) (h2 : m < s.slotStop k) :
    (s.setFreeSlots [a, m] [m, b]).2 = none ∧ (s.setFreeSlots [a, m] [m, b]).1.free k = false := by
  have e : s.setFreeSlots [a, m] [m, b] = s.reserveAll (gapList s.t0 (s.t0 + s.size * s.dt) [(a, m), (m, b)] (a, m) (m, b)) := rfl
  have hg : ∀ g ∈ gapList s.t0 (s.t0 + s.size * s.dt) [(a, m), (m, b)] (a, m) (m, b), g.1 ≤ g.2 := by
    intro g hg
    unfold gapList at hg
    rw [List.mem_append, List.mem_append] at hg
    rcases hg with (hg | hg) | hg
    · split at hg
      · rw [List.mem_singleton] at hg; subst hg; exact le_of_lt ‹_›
      · cases hg
    · have : g = (m, m) := List.mem_singleton.1 hg
      rw [this]
    · split at hg
      · rw [List.mem_singleton] at hg; subst hg; exact le_of_lt ‹_›
      · cases hg
  have hm : (m, m) ∈ gapList s.t0 (s.t0 + s.size * s.dt) [(a, m), (m, b)] (a, m) (m, b) := by
    unfold gapList
    rw [List.mem_append, List.mem_append]
    exact Or.inl (Or.inr (List.mem_singleton.2 rfl))
  obtain ⟨r1, -, r3⟩ := reserveAll_ok _ s hg
  rw [e]
  refine ⟨r1, ?_⟩
  rw [Bool.eq_false_iff]
  intro hf
  unfold Sched.slotStart at h1
  unfold Sched.slotStop Sched.slotStart at h2
  exact ((r3 k hk).1 hf).2 _ hm ⟨le_refl _, by show m < _; linarith, by show _ < m; linarith⟩

/-- The windows `[0, 7/2]` and `[7/2, 10]` cover the whole schedule. -/
example : ((demo 10).setFreeSlots [0, 7/2] [7/2, 10]).1.free 3 = false ∧ ∀ x : ℚ, 0 ≤ x → x ≤ 10 → InWindows ([0, 7/2].zip [7/2, 10]) x := by
  refine ⟨by decide +kernel, fun x h1 h2 => ?_⟩
  by_cases h : x ≤ 7/2
  · exact ⟨(0, 7/2), by simp, h1, h⟩
  · exact ⟨(7/2, 10), by simp, (not_le.mp h).le, h2⟩

end Verif.Scheduler
