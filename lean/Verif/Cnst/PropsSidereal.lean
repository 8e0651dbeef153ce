import Verif.Cnst.Sidereal
import Mathlib.Tactic.Linarith
import Mathlib.Tactic.Ring
import Mathlib.Algebra.Order.Archimedean.Basic

/-!
# C109: sidereal times and hour angles of the targets of a schedule
-/

namespace Verif.Cnst

/-! ## Specification -/

/-- The sidereal time in degrees, without reduction: it increases by a bit more than a turn in a day. -/
def trueLst (jd : ℚ) : ℚ := 15 * rawGmst jd + siteLon

/-- Start of slot `i` of a schedule. -/
def slotJd (jd0 dt : ℚ) (i : Nat) : ℚ := jd0 + i * dt

/-- The sidereal time `lst` is reached between the start and the end of slot `i`. -/
def ReachedIn (lst jd0 dt : ℚ) (i : Nat) : Prop := ∃ k : ℤ, trueLst (slotJd jd0 dt i) ≤ lst + 360 * k ∧ lst + 360 * k ≤ trueLst (slotJd jd0 dt (i + 1))

/-! ## Values -/

/-- The turn that is removed. -/
def turnOf (jd : ℚ) : ℤ := ⌊rawGmst jd / 24⌋

theorem sidereal_eq (jd : ℚ) : siderealDeg jd = trueLst jd - 360 * (turnOf jd : ℚ) := by
  have h1 := Int.floor_le (rawGmst jd / 24)
  rw [le_div_iff₀ (by norm_num)] at h1
  have h : ¬ (pyMod (rawGmst jd) 24 + siteLon / 15 < 0) := by
    unfold pyMod siteLon
    rw [not_lt]
    linarith
  unfold siderealDeg fixLst trueLst turnOf
  rw [if_neg h]
  unfold pyMod
  ring

/-- **C109.** The sidereal time is right up to a number of turns, and is at least the longitude of the site and less than a turn above it. -/
theorem sidereal_range (jd : ℚ) : (∃ k : ℤ, siderealDeg jd = trueLst jd + 360 * k) ∧ siteLon ≤ siderealDeg jd ∧ siderealDeg jd < 360 + siteLon := by
  have e := sidereal_eq jd
  have h1 := Int.floor_le (rawGmst jd / 24)
  have h2 := Int.lt_floor_add_one (rawGmst jd / 24)
  rw [le_div_iff₀ (by norm_num)] at h1
  rw [div_lt_iff₀ (by norm_num)] at h2
  refine ⟨⟨- turnOf jd, by rw [e]; push_cast; ring⟩, ?_, ?_⟩
  · rw [e]; unfold trueLst turnOf; linarith
  · rw [e]; unfold trueLst turnOf; linarith

/-- **C109 violated.** A sidereal time of less than a turn is not always given: at some dates it is 24 hours or more. -/
theorem sidereal_above_violated : ∃ jd, 360 ≤ siderealDeg jd := ⟨2451545 + (24 - 18697374558 / 1000000000 - 1 / 100) / (2406570982441908 / 100000000000000), by decide +kernel⟩

/-- **C109.** The hour angle is between 0 and a turn, and is the difference of the sidereal time and the right ascension, up to a turn. -/
theorem hour_angle_range (jd ra : ℚ) (h0 : 0 ≤ ra) (h1 : ra < 360) :
    0 ≤ hourAngleDeg (siderealDeg jd) ra ∧ hourAngleDeg (siderealDeg jd) ra ≤ 360 ∧ ∃ k : ℤ, hourAngleDeg (siderealDeg jd) ra = trueLst jd - ra + 360 * k := by
  obtain ⟨⟨k, hk⟩, h2, h3⟩ := sidereal_range jd
  have hs : siteLon = 21924 / 10000 := rfl
  unfold hourAngleDeg
  split_ifs with a b
  · exact ⟨by linarith, by linarith, k + 1, by rw [hk]; push_cast; ring⟩
  · exact ⟨by linarith, by linarith, k - 1, by rw [hk]; push_cast; ring⟩
  · exact ⟨by linarith, by linarith, k, by rw [hk]; ring⟩

/-! ## Steps -/

theorem lst_step (jd0 dt : ℚ) (i : Nat) : trueLst (slotJd jd0 dt (i + 1)) = trueLst (slotJd jd0 dt i) + 15 * (2406570982441908 / 100000000000000) * dt := by
  unfold trueLst rawGmst slotJd
  push_cast
  ring

theorem turn_step {jd0 dt : ℚ} (h0 : 0 < dt) (h1 : dt < 99 / 100) (i : Nat) :
    turnOf (slotJd jd0 dt (i + 1)) = turnOf (slotJd jd0 dt i) ∨ turnOf (slotJd jd0 dt (i + 1)) = turnOf (slotJd jd0 dt i) + 1 := by
  have e := lst_step jd0 dt i
  unfold trueLst at e
  have a1 := Int.floor_le (rawGmst (slotJd jd0 dt i) / 24)
  have a2 := Int.lt_floor_add_one (rawGmst (slotJd jd0 dt i) / 24)
  have b1 := Int.floor_le (rawGmst (slotJd jd0 dt (i + 1)) / 24)
  have b2 := Int.lt_floor_add_one (rawGmst (slotJd jd0 dt (i + 1)) / 24)
  rw [le_div_iff₀ (by norm_num)] at a1 b1
  rw [div_lt_iff₀ (by norm_num)] at a2 b2
  have c1 : ((⌊rawGmst (slotJd jd0 dt i) / 24⌋ : ℤ) : ℚ) < ((⌊rawGmst (slotJd jd0 dt (i + 1)) / 24⌋ + 1 : ℤ) : ℚ) := by push_cast; linarith
  have c2 : ((⌊rawGmst (slotJd jd0 dt (i + 1)) / 24⌋ : ℤ) : ℚ) < ((⌊rawGmst (slotJd jd0 dt i) / 24⌋ + 2 : ℤ) : ℚ) := by push_cast; linarith
  have d1 : ⌊rawGmst (slotJd jd0 dt i) / 24⌋ < ⌊rawGmst (slotJd jd0 dt (i + 1)) / 24⌋ + 1 := by exact_mod_cast c1
  have d2 : ⌊rawGmst (slotJd jd0 dt (i + 1)) / 24⌋ < ⌊rawGmst (slotJd jd0 dt i) / 24⌋ + 2 := by exact_mod_cast c2
  unfold turnOf
  omega

/-- What the constraint looks at, in terms of the two ends of a slot. -/
theorem hit_cases {lst jd0 dt : ℚ} (hl1 : lst < 360) (h0 : 0 < dt) (h1 : dt ≤ 11 / 24) (i : Nat) :
    lstHit lst (fun i => siderealDeg (slotJd jd0 dt i)) i = true ↔
      (turnOf (slotJd jd0 dt (i + 1)) = turnOf (slotJd jd0 dt i) ∧ siderealDeg (slotJd jd0 dt i) ≤ lst ∧ lst ≤ siderealDeg (slotJd jd0 dt (i + 1))) ∨
      (turnOf (slotJd jd0 dt (i + 1)) = turnOf (slotJd jd0 dt i) + 1 ∧
        ((lst < 180 ∧ siderealDeg (slotJd jd0 dt i) ≤ lst + 360 ∧ lst ≤ siderealDeg (slotJd jd0 dt (i + 1))) ∨
          (180 ≤ lst ∧ siderealDeg (slotJd jd0 dt i) ≤ lst))) := by
  have hs : siteLon = 21924 / 10000 := rfl
  have e := lst_step jd0 dt i
  have ea := sidereal_eq (slotJd jd0 dt i)
  have eb := sidereal_eq (slotJd jd0 dt (i + 1))
  obtain ⟨_, a2, a3⟩ := sidereal_range (slotJd jd0 dt i)
  obtain ⟨_, b2, b3⟩ := sidereal_range (slotJd jd0 dt (i + 1))
  rw [hs] at a2 a3 b2 b3
  unfold lstHit
  dsimp only
  rcases turn_step h0 (lt_of_le_of_lt h1 (by norm_num)) i (jd0 := jd0) with ht | ht
  · rw [ht] at eb
    rw [if_neg (by rw [ea, eb]; linarith), Bool.and_eq_true, decide_eq_true_iff, decide_eq_true_iff]
    constructor
    · rintro ⟨h2, h3⟩; exact Or.inl ⟨ht, h2, h3⟩
    · rintro (⟨_, h2, h3⟩ | ⟨h2, _⟩)
      · exact ⟨h2, h3⟩
      · omega
  · rw [ht] at eb
    push_cast at eb
    have e1 : siderealDeg (slotJd jd0 dt (i + 1)) = siderealDeg (slotJd jd0 dt i) + 15 * (2406570982441908 / 100000000000000) * dt - 360 := by
      rw [ea, eb, e]; ring
    have l1 : 180 ≤ siderealDeg (slotJd jd0 dt i) := by linarith
    have l2 : siderealDeg (slotJd jd0 dt (i + 1)) < 180 := by linarith
    rw [if_pos (by linarith), Bool.and_eq_true, decide_eq_true_iff, decide_eq_true_iff]
    have w1 : wrap180 (siderealDeg (slotJd jd0 dt i)) = siderealDeg (slotJd jd0 dt i) - 180 := if_neg (not_lt.2 l1)
    have w2 : wrap180 (siderealDeg (slotJd jd0 dt (i + 1))) = siderealDeg (slotJd jd0 dt (i + 1)) + 180 := if_pos l2
    rw [w1, w2]
    rcases lt_or_ge lst 180 with hl | hl
    · have w3 : wrap180 lst = lst + 180 := if_pos hl
      rw [w3]
      constructor
      · rintro ⟨h2, h3⟩; exact Or.inr ⟨ht, Or.inl ⟨hl, by linarith, by linarith⟩⟩
      · rintro (⟨h2, _⟩ | ⟨_, ⟨_, h2, h3⟩ | ⟨h2, _⟩⟩)
        · omega
        · exact ⟨by linarith, by linarith⟩
        · linarith
    · have w3 : wrap180 lst = lst - 180 := if_neg (not_lt.2 hl)
      rw [w3]
      constructor
      · rintro ⟨h2, h3⟩; exact Or.inr ⟨ht, Or.inr ⟨hl, by linarith⟩⟩
      · rintro (⟨h2, _⟩ | ⟨_, ⟨h2, _⟩ | ⟨_, h2⟩⟩)
        · omega
        · linarith
        · exact ⟨by linarith, by linarith⟩

/-- **C109, partial.** For slots of at most 11 hours, and sidereal times from the longitude of the site (8 min 46 s) to 24 hours, a slot holds a crossing for
`LocalSiderealTimeCnst` exactly when the sidereal time is reached in it. -/
theorem lst_slot_partial {lst jd0 dt : ℚ} (hl0 : siteLon ≤ lst) (hl1 : lst < 360) (h0 : 0 < dt) (h1 : dt ≤ 11 / 24) (i : Nat) :
    lstHit lst (fun i => siderealDeg (slotJd jd0 dt i)) i = true ↔ ReachedIn lst jd0 dt i := by
  have hs : siteLon = 21924 / 10000 := rfl
  rw [hs] at hl0
  have e := lst_step jd0 dt i
  have ea := sidereal_eq (slotJd jd0 dt i)
  have eb := sidereal_eq (slotJd jd0 dt (i + 1))
  obtain ⟨_, a2, a3⟩ := sidereal_range (slotJd jd0 dt i)
  obtain ⟨_, b2, b3⟩ := sidereal_range (slotJd jd0 dt (i + 1))
  rw [hs] at a2 a3 b2 b3
  rw [hit_cases hl1 h0 h1]
  constructor
  · rintro (⟨ht, h2, h3⟩ | ⟨ht, ⟨_, h2, h3⟩ | ⟨h2, h3⟩⟩)
    · rw [ht] at eb
      exact ⟨turnOf (slotJd jd0 dt i), by linarith, by linarith⟩
    · rw [ht] at eb
      push_cast at eb
      exact ⟨turnOf (slotJd jd0 dt i) + 1, by push_cast; linarith, by push_cast; linarith⟩
    · rw [ht] at eb
      push_cast at eb
      exact ⟨turnOf (slotJd jd0 dt i), by linarith, by linarith⟩
  · rintro ⟨k, h2, h3⟩
    rcases turn_step h0 (lt_of_le_of_lt h1 (by norm_num)) i (jd0 := jd0) with ht | ht
    · rw [ht] at eb
      have k1 : (k : ℚ) < ((turnOf (slotJd jd0 dt i) + 1 : ℤ) : ℚ) := by push_cast; linarith
      have k2 : ((turnOf (slotJd jd0 dt i) - 1 : ℤ) : ℚ) < (k : ℚ) := by push_cast; linarith
      have k3 : k < turnOf (slotJd jd0 dt i) + 1 := by exact_mod_cast k1
      have k4 : turnOf (slotJd jd0 dt i) - 1 < k := by exact_mod_cast k2
      have : k = turnOf (slotJd jd0 dt i) := by omega
      rw [this] at h2 h3
      exact Or.inl ⟨ht, by linarith, by linarith⟩
    · rw [ht] at eb
      push_cast at eb
      have k1 : (k : ℚ) < ((turnOf (slotJd jd0 dt i) + 2 : ℤ) : ℚ) := by push_cast; linarith
      have k2 : ((turnOf (slotJd jd0 dt i) - 1 : ℤ) : ℚ) < (k : ℚ) := by push_cast; linarith
      have k3 : k < turnOf (slotJd jd0 dt i) + 2 := by exact_mod_cast k1
      have k4 : turnOf (slotJd jd0 dt i) - 1 < k := by exact_mod_cast k2
      refine Or.inr ⟨ht, ?_⟩
      rcases (show k = turnOf (slotJd jd0 dt i) ∨ k = turnOf (slotJd jd0 dt i) + 1 by omega) with hk | hk
      · rw [hk] at h2 h3
        have hbig : 180 ≤ lst := by linarith
        exact Or.inr ⟨hbig, by linarith⟩
      · rw [hk] at h2 h3
        push_cast at h2 h3
        rcases lt_or_ge lst 180 with hl | hl
        · exact Or.inl ⟨hl, by linarith, by linarith⟩
        · exfalso; linarith

/-- **C109 violated.** For sidereal times below the longitude of the site (8 min 46 s), with slots shorter than what is missing, no slot of any schedule ever holds a
crossing. -/
theorem lst_lost_violated {lst jd0 dt : ℚ} (hl0 : 0 ≤ lst) (h0 : 0 < dt) (h1 : 15 * (2406570982441908 / 100000000000000) * dt < siteLon - lst) (i : Nat) :
    lstHit lst (fun i => siderealDeg (slotJd jd0 dt i)) i = false := by
  have hs : siteLon = 21924 / 10000 := rfl
  rw [hs] at h1
  have e := lst_step jd0 dt i
  have ea := sidereal_eq (slotJd jd0 dt i)
  have eb := sidereal_eq (slotJd jd0 dt (i + 1))
  obtain ⟨_, a2, a3⟩ := sidereal_range (slotJd jd0 dt i)
  obtain ⟨_, b2, b3⟩ := sidereal_range (slotJd jd0 dt (i + 1))
  rw [hs] at a2 a3 b2 b3
  rw [Bool.eq_false_iff]
  intro h
  rcases (hit_cases (by linarith) h0 (by linarith) i).1 h with ⟨ht, h2, h3⟩ | ⟨ht, ⟨_, h2, h3⟩ | ⟨h2, h3⟩⟩
  · linarith
  · rw [ht] at eb
    push_cast at eb
    linarith
  · linarith

/-- Nevertheless such a sidereal time is reached, in some slot of any schedule that lasts long enough. -/
theorem lst_reached (lst jd0 : ℚ) {dt : ℚ} (h0 : 0 < dt) : ∃ i, ReachedIn lst jd0 dt i := by
  obtain ⟨k', hk⟩ := exists_nat_gt ((trueLst jd0 - lst) / 360)
  obtain ⟨k, hkk⟩ : ∃ k : ℤ, ((k' : ℕ) : ℚ) = (k : ℚ) := ⟨k', by push_cast; rfl⟩
  rw [hkk] at hk
  rw [div_lt_iff₀ (by norm_num)] at hk
  obtain ⟨n, hn⟩ := exists_nat_gt ((lst + 360 * k - trueLst jd0) / (15 * (2406570982441908 / 100000000000000) * dt))
  rw [div_lt_iff₀ (by positivity)] at hn
  have lin : ∀ n : Nat, trueLst (slotJd jd0 dt n) = trueLst jd0 + n * (15 * (2406570982441908 / 100000000000000) * dt) := by
    intro n
    unfold trueLst rawGmst slotJd
    ring
  have hex : ∃ n : Nat, lst + 360 * k ≤ trueLst (slotJd jd0 dt n) := ⟨n, by rw [lin]; linarith⟩
  classical
  have hf := Nat.find_spec hex
  have hmin : ∀ m, m < Nat.find hex → ¬ (lst + 360 * k ≤ trueLst (slotJd jd0 dt m)) := fun m hm => Nat.find_min hex hm
  cases hq : Nat.find hex with
  | zero =>
    rw [hq, lin] at hf
    push_cast at hf
    linarith
  | succ m =>
    rw [hq] at hf hmin
    have := hmin m (Nat.lt_succ_self m)
    exact ⟨m, k, (not_le.1 this).le, hf⟩

/-! ## Transits -/

theorem hour_angle_floor {jd ra : ℚ} (h0 : 0 ≤ ra) (h1 : ra < 360) (hne : siderealDeg jd - ra ≠ 360) :
    hourAngleDeg (siderealDeg jd) ra = trueLst jd - ra - 360 * (⌊(trueLst jd - ra) / 360⌋ : ℚ) := by
  obtain ⟨a, b, k, hk⟩ := hour_angle_range jd ra h0 h1
  have hlt : hourAngleDeg (siderealDeg jd) ra < 360 := by
    rcases lt_or_eq_of_le b with h | h
    · exact h
    · exfalso
      obtain ⟨_, h2, h3⟩ := sidereal_range jd
      have hs : siteLon = 21924 / 10000 := rfl
      unfold hourAngleDeg at h
      split_ifs at h with c d
      · linarith
      · linarith
      · exact hne h
  have : ⌊(trueLst jd - ra) / 360⌋ = -k := by
    rw [Int.floor_eq_iff]
    constructor
    · rw [le_div_iff₀ (by norm_num)]; push_cast; linarith
    · rw [div_lt_iff₀ (by norm_num)]; push_cast; linarith
  rw [this, hk]
  push_cast
  ring

/-- **C109.** `MeridianTransitCnst` finds a transit in a slot exactly when the hour angle reaches a whole turn in it, after its start and at its end at the latest (dates at which
the hour angle is given as exactly 360 degrees left out). -/
theorem transit_slot {ra jd0 dt : ℚ} (hr0 : 0 ≤ ra) (hr1 : ra < 360) (h0 : 0 < dt) (h1 : dt < 99 / 100) (i : Nat)
    (ha : siderealDeg (slotJd jd0 dt i) - ra ≠ 360) (hb : siderealDeg (slotJd jd0 dt (i + 1)) - ra ≠ 360) :
    transitHit (fun i => hourAngleDeg (siderealDeg (slotJd jd0 dt i)) ra) i = true ↔
      ∃ k : ℤ, trueLst (slotJd jd0 dt i) - ra < 360 * k ∧ 360 * k ≤ trueLst (slotJd jd0 dt (i + 1)) - ra := by
  unfold transitHit
  rw [decide_eq_true_iff]
  dsimp only
  rw [hour_angle_floor hr0 hr1 ha, hour_angle_floor hr0 hr1 hb]
  have e := lst_step jd0 dt i
  generalize trueLst (slotJd jd0 dt i) = A at *
  generalize trueLst (slotJd jd0 dt (i + 1)) = B at *
  have a1 := Int.floor_le ((A - ra) / 360)
  have a2 := Int.lt_floor_add_one ((A - ra) / 360)
  have b1 := Int.floor_le ((B - ra) / 360)
  have b2 := Int.lt_floor_add_one ((B - ra) / 360)
  rw [le_div_iff₀ (by norm_num)] at a1 b1
  rw [div_lt_iff₀ (by norm_num)] at a2 b2
  have hs1 : 0 < 15 * (2406570982441908 / 100000000000000) * dt := by positivity
  have hs2 : 15 * (2406570982441908 / 100000000000000) * dt < 360 := by linarith
  constructor
  · intro h
    refine ⟨⌊(B - ra) / 360⌋, ?_, by linarith⟩
    have : ((⌊(A - ra) / 360⌋ : ℤ) : ℚ) < ((⌊(B - ra) / 360⌋ : ℤ) : ℚ) := by linarith
    have h3 : ⌊(A - ra) / 360⌋ + 1 ≤ ⌊(B - ra) / 360⌋ := by exact_mod_cast this
    have h4 : ((⌊(A - ra) / 360⌋ : ℤ) : ℚ) + 1 ≤ ((⌊(B - ra) / 360⌋ : ℤ) : ℚ) := by exact_mod_cast h3
    linarith
  · rintro ⟨k, h2, h3⟩
    have c1 : ((⌊(A - ra) / 360⌋ : ℤ) : ℚ) < (k : ℚ) := by linarith
    have c2 : (k : ℚ) < ((⌊(B - ra) / 360⌋ + 1 : ℤ) : ℚ) := by push_cast; linarith
    have d1 : ⌊(A - ra) / 360⌋ < k := by exact_mod_cast c1
    have d2 : k < ⌊(B - ra) / 360⌋ + 1 := by exact_mod_cast c2
    have h4 : ⌊(A - ra) / 360⌋ + 1 ≤ ⌊(B - ra) / 360⌋ := by omega
    have h5 : ((⌊(A - ra) / 360⌋ : ℤ) : ℚ) + 1 ≤ ((⌊(B - ra) / 360⌋ : ℤ) : ℚ) := by exact_mod_cast h4
    linarith

/-- A source at 100 degrees of right ascension transits in slot 3 of half an hour. -/
example : (List.range 6).map (transitHit fun i => hourAngleDeg (siderealDeg (slotJd 2459000 (1 / 48) i)) 100) = [false, false, false, true, false, false] := by decide +kernel

/-- Slots of five minutes, sidereal time 0 h: hypotheses of `lst_lost_violated`. -/
example : 15 * (2406570982441908 / 100000000000000) * ((5 : ℚ) / 1440) < siteLon - 0 := by norm_num [siteLon]

/-- Slots of half an hour, sidereal time 20 h. -/
example : siteLon ≤ 300 ∧ ((1 : ℚ) / 48 ≤ 11 / 24) ∧ (List.range 48).map (lstHit 300 fun i => siderealDeg (slotJd 2459000 (1 / 48) i)) =
    List.replicate 30 false ++ true :: List.replicate 17 false := by
  refine ⟨by norm_num [siteLon], by norm_num, by decide +kernel⟩

end Verif.Cnst
