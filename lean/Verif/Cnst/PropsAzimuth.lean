import Verif.Cnst.Props
import Mathlib.Tactic.Linarith
import Mathlib.Tactic.Ring

/-!
# C154: slots in which a target passes through an azimuth
-/

namespace Verif.Cnst

/-! ## Specification -/

/-- Going from azimuth `a` to azimuth `b` by the shorter way (less than half a turn), clockwise or not, one passes through azimuth `az`. Angles are in
degrees and defined up to whole turns. -/
def OnArc (a b az : ℚ) : Prop :=
  ∃ m k : ℤ, |b + 360 * m - a| < 180 ∧
    ((a ≤ az + 360 * k ∧ az + 360 * k ≤ b + 360 * m) ∨ (b + 360 * m ≤ az + 360 * k ∧ az + 360 * k ≤ a))

example : OnArc 350 20 5 ∧ OnArc 20 350 5 ∧ OnArc 100 130 120 := by
  refine ⟨⟨1, 1, ?_, Or.inl ?_⟩, ⟨-1, 0, ?_, Or.inr ?_⟩, ⟨0, 0, ?_, Or.inl ?_⟩⟩ <;> norm_num

/-! ## Angles -/

/-- A whole number of turns smaller than one turn is none. -/
theorem no_turn {m : ℤ} (h1 : -360 < 360 * (m : ℚ)) (h2 : 360 * (m : ℚ) < 360) : m = 0 := by
  have a1 : (-1 : ℚ) < m := by linarith
  have a2 : (m : ℚ) < 1 := by linarith
  have b1 : -1 < m := by exact_mod_cast a1
  have b2 : m < 1 := by exact_mod_cast a2
  omega

/-- The representative is the same angle, in the half-open turn around 0. -/
theorem angle180_spec {x : ℚ} (h0 : 0 ≤ x) (h1 : x ≤ 360) : -180 < angle180 x ∧ angle180 x ≤ 180 ∧ ∃ t : ℤ, angle180 x = x + 360 * t := by
  unfold angle180
  split_ifs with h
  · exact ⟨by linarith, h, 0, by norm_num⟩
  · exact ⟨by linarith, by linarith, -1, by norm_num; ring⟩

/-- The arc does not depend on the turns. -/
theorem arc_turns {a b az : ℚ} (ta tb tz : ℤ) : OnArc (a + 360 * ta) (b + 360 * tb) (az + 360 * tz) ↔ OnArc a b az := by
  constructor
  · rintro ⟨m, k, h1, h2⟩
    refine ⟨m + tb - ta, k + tz - ta, ?_, ?_⟩
    · have e : b + 360 * ((m + tb - ta : ℤ) : ℚ) - a = b + 360 * tb + 360 * m - (a + 360 * ta) := by push_cast; ring
      rw [e]; exact h1
    · push_cast
      rcases h2 with h2 | h2
      · exact Or.inl ⟨by linarith [h2.1], by linarith [h2.2]⟩
      · exact Or.inr ⟨by linarith [h2.1], by linarith [h2.2]⟩
  · rintro ⟨m, k, h1, h2⟩
    refine ⟨m - tb + ta, k - tz + ta, ?_, ?_⟩
    · have e : b + 360 * tb + 360 * ((m - tb + ta : ℤ) : ℚ) - (a + 360 * ta) = b + 360 * m - a := by push_cast; ring
      rw [e]; exact h1
    · push_cast
      rcases h2 with h2 | h2
      · exact Or.inl ⟨by linarith [h2.1], by linarith [h2.2]⟩
      · exact Or.inr ⟨by linarith [h2.1], by linarith [h2.2]⟩

/-- On angles of one turn `(c, c + 360]`, less than half a turn apart, the arc is the interval. -/
theorem arc_near {c a b az : ℚ} (ha : c < a ∧ a ≤ c + 360) (hb : c < b ∧ b ≤ c + 360) (hz : c < az ∧ az ≤ c + 360) (h : |a - b| < 180) :
    OnArc a b az ↔ (a ≤ az ∧ az ≤ b) ∨ (az ≤ a ∧ b ≤ az) := by
  rw [abs_lt] at h
  constructor
  · rintro ⟨m, k, h1, h2⟩
    rw [abs_lt] at h1
    have hm : m = 0 := no_turn (by linarith) (by linarith)
    subst hm
    simp only [Int.cast_zero, mul_zero, add_zero] at h1 h2
    have hk : k = 0 := by
      rcases h2 with h2 | h2
      · exact no_turn (by linarith) (by linarith)
      · exact no_turn (by linarith) (by linarith)
    subst hk
    simp only [Int.cast_zero, mul_zero, add_zero] at h2
    exact h2.imp id fun x => ⟨x.2, x.1⟩
  · intro h2
    refine ⟨0, 0, ?_, ?_⟩
    · rw [abs_lt]; push_cast; constructor <;> linarith
    · simp only [Int.cast_zero, mul_zero, add_zero]
      exact h2.imp id fun x => ⟨x.2, x.1⟩

/-- On angles of one turn more than half a turn apart, the arc is what is outside of the interval, with its bounds. -/
theorem arc_far {c a b az : ℚ} (ha : c < a ∧ a ≤ c + 360) (hb : c < b ∧ b ≤ c + 360) (hz : c < az ∧ az ≤ c + 360) (h : 180 < |a - b|)
    (h360 : |a - b| < 360) :
    OnArc a b az ↔ ¬ ((a < az ∧ az < b) ∨ (az < a ∧ b < az)) := by
  rw [abs_lt] at h360
  constructor
  · rintro ⟨m, k, h1, h2⟩ hc
    rw [abs_lt] at h1
    rcases lt_abs.1 h with h3 | h3
    · -- `b` is a turn below
      have hm : m = 1 := by
        have : m - 1 = 0 := no_turn (by push_cast; linarith) (by push_cast; linarith)
        omega
      subst hm
      push_cast at h1 h2
      rcases hc with hc | hc
      · linarith
      · rcases h2 with h2 | h2
        · rcases lt_or_ge (k : ℚ) 1 with hk | hk
          · have : k ≤ 0 := by
              have : k < 1 := by exact_mod_cast hk
              omega
            have : (k : ℚ) ≤ 0 := by exact_mod_cast this
            linarith
          · linarith
        · linarith
    · have hm : m = -1 := by
        have : m + 1 = 0 := no_turn (by push_cast; linarith) (by push_cast; linarith)
        omega
      subst hm
      push_cast at h1 h2
      rcases hc with hc | hc
      · rcases h2 with h2 | h2
        · linarith
        · rcases lt_or_ge (-1 : ℚ) k with hk | hk
          · have : 0 ≤ k := by
              have : -1 < k := by exact_mod_cast hk
              omega
            have : (0 : ℚ) ≤ k := by exact_mod_cast this
            linarith
          · linarith
      · linarith
  · intro hc
    push Not at hc
    rcases lt_abs.1 h with h3 | h3
    · rcases lt_or_ge az a with hza | hza
      · have := hc.2 hza
        refine ⟨1, 1, ?_, Or.inl ?_⟩
        · rw [abs_lt]; push_cast; constructor <;> linarith
        · push_cast; constructor <;> linarith
      · refine ⟨1, 0, ?_, Or.inl ?_⟩
        · rw [abs_lt]; push_cast; constructor <;> linarith
        · push_cast; constructor <;> linarith
    · rcases lt_or_ge a az with hza | hza
      · have := hc.1 hza
        refine ⟨-1, -1, ?_, Or.inr ?_⟩
        · rw [abs_lt]; push_cast; constructor <;> linarith
        · push_cast; constructor <;> linarith
      · refine ⟨-1, 0, ?_, Or.inr ?_⟩
        · rw [abs_lt]; push_cast; constructor <;> linarith
        · push_cast; constructor <;> linarith

/-- The same arc with the representatives around 0. -/
theorem arc_angle180 {a b az : ℚ} (ha : 0 ≤ a ∧ a ≤ 360) (hb : 0 ≤ b ∧ b ≤ 360) (hz : 0 ≤ az ∧ az ≤ 360) :
    OnArc (angle180 a) (angle180 b) (angle180 az) ↔ OnArc a b az := by
  obtain ⟨_, _, ta, ea⟩ := angle180_spec ha.1 ha.2
  obtain ⟨_, _, tb, eb⟩ := angle180_spec hb.1 hb.2
  obtain ⟨_, _, tz, ez⟩ := angle180_spec hz.1 hz.2
  rw [ea, eb, ez]
  exact arc_turns ta tb tz

theorem azHitCircum_iff (az : ℚ) (f : Nat → ℚ) (i : Nat) :
    azHitCircum az f i = true ↔ (angle180 (f i) ≤ angle180 az ∧ angle180 az ≤ angle180 (f (i + 1))) ∨
      (angle180 az ≤ angle180 (f i) ∧ angle180 (f (i + 1)) ≤ angle180 az) := by
  unfold azHitCircum
  simp only [Bool.or_eq_true, Bool.and_eq_true, decide_eq_true_iff]

theorem azHit_iff (az : ℚ) (f : Nat → ℚ) (i : Nat) : azHit az f i = true ↔ f i ≤ az ∧ az ≤ f (i + 1) := by
  unfold azHit
  simp only [Bool.and_eq_true, decide_eq_true_iff]

/-! ## Properties -/

/-- **C154** for circumpolar targets: a slot in which the target does not pass through the south is kept exactly if the target passes through the
azimuth of the constraint during the slot, whichever way it moves. -/
theorem azimuth_circumpolar_partial (az : ℚ) (f : Nat → ℚ) (i : Nat) (ha : 0 ≤ f i ∧ f i ≤ 360) (hb : 0 ≤ f (i + 1) ∧ f (i + 1) ≤ 360)
    (hz : 0 ≤ az ∧ az ≤ 360) (h : |angle180 (f i) - angle180 (f (i + 1))| < 180) :
    azHitCircum az f i = true ↔ OnArc (f i) (f (i + 1)) az := by
  rw [azHitCircum_iff, ← arc_angle180 ha hb hz]
  obtain ⟨a1, a2, _⟩ := angle180_spec ha.1 ha.2
  obtain ⟨b1, b2, _⟩ := angle180_spec hb.1 hb.2
  obtain ⟨z1, z2, _⟩ := angle180_spec hz.1 hz.2
  exact (arc_near (c := -180) ⟨a1, by linarith⟩ ⟨b1, by linarith⟩ ⟨z1, by linarith⟩ h).symm

example : |angle180 350 - angle180 20| < 180 := by decide +kernel

/-- **C154** (violated): in the slot in which a circumpolar target passes through the south, every azimuth is found except those through which the
target passes. -/
theorem azimuth_south_violated (az : ℚ) (f : Nat → ℚ) (i : Nat) (ha : 0 ≤ f i ∧ f i ≤ 360) (hb : 0 ≤ f (i + 1) ∧ f (i + 1) ≤ 360)
    (hz : 0 ≤ az ∧ az ≤ 360) (h : 180 < |angle180 (f i) - angle180 (f (i + 1))|) (hza : angle180 az ≠ angle180 (f i))
    (hzb : angle180 az ≠ angle180 (f (i + 1))) :
    azHitCircum az f i = true ↔ ¬ OnArc (f i) (f (i + 1)) az := by
  rw [azHitCircum_iff, ← arc_angle180 ha hb hz]
  obtain ⟨a1, a2, _⟩ := angle180_spec ha.1 ha.2
  obtain ⟨b1, b2, _⟩ := angle180_spec hb.1 hb.2
  obtain ⟨z1, z2, _⟩ := angle180_spec hz.1 hz.2
  rw [arc_far (c := -180) ⟨a1, by linarith⟩ ⟨b1, by linarith⟩ ⟨z1, by linarith⟩ h (by rw [abs_lt]; constructor <;> linarith), not_not]
  constructor
  · rintro (x | x)
    · exact Or.inl ⟨lt_of_le_of_ne x.1 (Ne.symm hza), lt_of_le_of_ne x.2 hzb⟩
    · exact Or.inr ⟨lt_of_le_of_ne x.1 hza, lt_of_le_of_ne x.2 (Ne.symm hzb)⟩
  · rintro (x | x)
    · exact Or.inl ⟨x.1.le, x.2.le⟩
    · exact Or.inr ⟨x.1.le, x.2.le⟩

example : 180 < |angle180 178 - angle180 182| ∧ azHitCircum 90 (fun i => 178 + 4 * i) 0 = true := by decide +kernel

/-- **C154** for the other targets: a slot in which the azimuth increases is kept exactly if the target passes through the azimuth of the constraint. -/
theorem azimuth_other_partial (az : ℚ) (f : Nat → ℚ) (i : Nat) (ha : 0 ≤ f i ∧ f i < 360) (hb : 0 ≤ f (i + 1) ∧ f (i + 1) < 360)
    (hz : 0 ≤ az ∧ az < 360) (h1 : f i < f (i + 1)) (h2 : f (i + 1) - f i < 180) :
    azHit az f i = true ↔ OnArc (f i) (f (i + 1)) az := by
  have hc : ∃ c : ℚ, c < 0 ∧ f i ≤ c + 360 ∧ f (i + 1) ≤ c + 360 ∧ az ≤ c + 360 := by
    refine ⟨max (f i) (max (f (i + 1)) az) - 360, ?_, ?_, ?_, ?_⟩
    · have : max (f i) (max (f (i + 1)) az) < 360 := max_lt ha.2 (max_lt hb.2 hz.2)
      linarith
    · have := le_max_left (f i) (max (f (i + 1)) az); linarith
    · have := (le_max_left (f (i + 1)) az).trans (le_max_right (f i) _); linarith
    · have := (le_max_right (f (i + 1)) az).trans (le_max_right (f i) _); linarith
  obtain ⟨c, c0, c1, c2, c3⟩ := hc
  rw [azHit_iff, arc_near (c := c) ⟨by linarith, c1⟩ ⟨by linarith, c2⟩ ⟨by linarith, c3⟩ (by rw [abs_lt]; constructor <;> linarith)]
  constructor
  · exact Or.inl
  · rintro (x | x)
    · exact x
    · linarith [x.1, x.2]

example : azHit 120 (fun i => 100 + 30 * i) 0 = true := by decide +kernel

/-- **C154** (violated): a target which culminates between the zenith and the pole without being circumpolar moves towards smaller azimuths. It passes
through all of those between its positions, and none is found. -/
theorem azimuth_decreasing_violated (az : ℚ) (f : Nat → ℚ) (i : Nat) (h1 : f (i + 1) < f i) (h2 : f i - f (i + 1) < 180) (hz : f (i + 1) ≤ az)
    (hz2 : az ≤ f i) : OnArc (f i) (f (i + 1)) az ∧ azHit az f i = false := by
  constructor
  · refine ⟨0, 0, ?_, Or.inr ?_⟩
    · rw [abs_lt]; push_cast; constructor <;> linarith
    · push_cast; constructor <;> linarith
  · rw [Bool.eq_false_iff]
    intro h
    rw [azHit_iff] at h
    linarith [h.1, h.2]

example : azHit 40 (fun i => 50 - 20 * i) 0 = false := by decide +kernel

/-- **C154** (violated): in the slot in which such a target passes through the north (towards the west), every azimuth is found except those through
which it passes. -/
theorem azimuth_north_violated (az : ℚ) (f : Nat → ℚ) (i : Nat) (ha : 0 ≤ f i) (hb : f (i + 1) < 360)
    (hz : 0 ≤ az ∧ az < 360) (h : 180 < f (i + 1) - f i) (hza : az ≠ f i) (hzb : az ≠ f (i + 1)) :
    azHit az f i = true ↔ ¬ OnArc (f i) (f (i + 1)) az := by
  have hc : ∃ c : ℚ, c < 0 ∧ f (i + 1) ≤ c + 360 ∧ az ≤ c + 360 := by
    refine ⟨max (f (i + 1)) az - 360, ?_, ?_, ?_⟩
    · have : max (f (i + 1)) az < 360 := max_lt hb hz.2
      linarith
    · have := le_max_left (f (i + 1)) az; linarith
    · have := le_max_right (f (i + 1)) az; linarith
  obtain ⟨c, c0, c2, c3⟩ := hc
  rw [azHit_iff, arc_far (c := c) ⟨by linarith, by linarith⟩ ⟨by linarith, c2⟩ ⟨by linarith [hz.1], c3⟩
    (by rw [lt_abs]; right; linarith) (by rw [abs_lt]; constructor <;> linarith), not_not]
  constructor
  · exact fun x => Or.inl ⟨lt_of_le_of_ne x.1 (Ne.symm hza), lt_of_le_of_ne x.2 hzb⟩
  · rintro (x | x)
    · exact ⟨x.1.le, x.2.le⟩
    · linarith [x.1, x.2]

example : azHit 180 (fun i => 5 + 350 * i) 0 = true := by decide +kernel

/-- **C154** for a whole schedule: for a target whose azimuth increases from slot to slot, or a circumpolar one which does not pass through the south,
the row of the constraint is positive exactly around the slots in which the target passes through the azimuth. -/
theorem azimuth_row_partial (E : Env) (sun : Nat → Option ℚ) (T : Ephem) (az : ℚ) (hT : E.target = some T) (hn : 0 < E.nslots)
    (hz : 0 ≤ az ∧ az < 360) (hf : ∀ i, i ≤ E.n → 0 ≤ T.azimuth i ∧ T.azimuth i < 360)
    (hc : T.circumpolar = true → ∀ i, i < E.n → |angle180 (T.azimuth i) - angle180 (T.azimuth (i + 1))| < 180)
    (ho : T.circumpolar = false → ∀ i, i < E.n → T.azimuth i < T.azimuth (i + 1) ∧ T.azimuth (i + 1) - T.azimuth i < 180) :
    ∃ row, (evalOne E sun (.azimuth az)).2 = .ok (some row) ∧
      ∀ i, i < E.n → (row i ≠ some 0 ↔ Near E (fun k => OnArc (T.azimuth k) (T.azimuth (k + 1)) az) i) := by
  refine ⟨fun i => some (crossScore E.n E.nslots (if T.circumpolar then azHitCircum az T.azimuth else azHit az T.azimuth) i), ?_, ?_⟩
  · show Except.ok (E.target.map _) = _
    rw [hT]
    rfl
  · intro i hi
    have hP : ∀ k, k < E.n → ((if T.circumpolar then azHitCircum az T.azimuth else azHit az T.azimuth) k = true ↔
        OnArc (T.azimuth k) (T.azimuth (k + 1)) az) := by
      intro k hk
      have f1 := hf k hk.le
      have f2 := hf (k + 1) hk
      by_cases hcp : T.circumpolar = true
      · rw [if_pos hcp]
        exact azimuth_circumpolar_partial az T.azimuth k ⟨f1.1, f1.2.le⟩ ⟨f2.1, f2.2.le⟩ ⟨hz.1, hz.2.le⟩ (hc hcp k hk)
      · rw [if_neg hcp]
        have := ho (by simpa using hcp) k hk
        exact azimuth_other_partial az T.azimuth k f1 f2 hz this.1 this.2
    have h0 := near_iff hn (hit := if T.circumpolar then azHitCircum az T.azimuth else azHit az T.azimuth) (fun k => Iff.rfl) hi
    have hN : Near E (fun k => (if T.circumpolar then azHitCircum az T.azimuth else azHit az T.azimuth) k = true) i ↔
        Near E (fun k => OnArc (T.azimuth k) (T.azimuth (k + 1)) az) i := by
      constructor
      · rintro ⟨k, h1, h2, h3⟩
        exact ⟨k, h1, (hP k h1).1 h2, h3⟩
      · rintro ⟨k, h1, h2, h3⟩
        exact ⟨k, h1, (hP k h1).2 h2, h3⟩
    rw [hN] at h0
    constructor
    · intro h
      by_contra hN
      exact h (congrArg some (h0.2 hN))
    · intro hN h
      exact h0.1 (Option.some.inj h) hN

/-- Azimuths as the theorem asks for: a target which goes from the east to the west through the south, and a circumpolar one around the north. -/
example : (∀ i : Nat, i < 8 → (90 + 20 * i : ℚ) < 90 + 20 * (i + 1 : Nat) ∧ (90 + 20 * (i + 1 : Nat) : ℚ) - (90 + 20 * i) < 180) ∧
    ∀ i : Nat, i < 3 → |angle180 ([340, 355, 10, 25].getD i 0) - angle180 ([340, 355, 10, 25].getD (i + 1) 0)| < 180 := by
  decide +kernel

end Verif.Cnst
