import Verif.Astro.PropsCross

/-!
# Crossings at samples and across the north or the south: property C63
-/

namespace Verif.Astro

/-- An event on the right end of a step of the search is found before its time. -/
theorem refine_before (cross : ℚ → ℚ → Bool) (t : ℚ) (down : Nat) (prec : ℚ) (h2 : 0 < down) (lo : ℚ)
    (hc : ∀ a, lo ≤ a → a < t → cross a t = true) (fuel : Nat) :
    ∀ (starts : List ℚ) (dur dt : ℚ) (rs : List ℚ), 0 < dt → dur = down * dt → refine cross down prec fuel starts dur dt = some rs →
      ∀ s ∈ starts, lo ≤ s → ∀ k : Nat, k < down → s + ((k : ℚ) + 1) * dt = t → ∃ r ∈ rs, t - prec ≤ r ∧ r < t := by
  have hq : (1 : ℚ) ≤ down := by exact_mod_cast h2
  induction fuel with
  | zero => intro starts dur dt rs _ _ h; cases h
  | succ fuel ih =>
    intro starts dur dt rs hdt hd h s hs hlo k hk ht
    rw [refine_succ _ _ _ _ _ _ _ hdt hd] at h
    have hlo' : lo ≤ s + (k : ℚ) * dt := by
      have : 0 ≤ (k : ℚ) * dt := mul_nonneg (Nat.cast_nonneg k) hdt.le
      linarith
    have ha : s + (k : ℚ) * dt + dt = t := by rw [← ht]; ring
    have hm : s + (k : ℚ) * dt ∈ pass cross down dt starts := mem_pass.mpr ⟨s, hs, k, hk, rfl, by rw [ha]; exact hc _ hlo' (by linarith)⟩
    rw [if_neg (fun he => by rw [he] at hm; cases hm)] at h
    have h11 : 0 < dt / down := div_pos hdt (by linarith)
    have h12 : (down : ℚ) * (dt / down) = dt := mul_div_cancel₀ _ (by linarith : (down : ℚ) ≠ 0)
    by_cases hp : prec < dt / down * down
    · rw [if_pos hp] at h
      refine ih _ _ _ _ h11 h12.symm h _ hm hlo' (down - 1) (by omega) ?_
      rw [Nat.cast_sub h2, ← ha]
      push_cast
      linarith
    · rw [if_neg hp] at h
      injection h with h
      have h10 : dt / down ≤ dt := div_le_self hdt.le hq
      refine ⟨s + (k : ℚ) * dt + dt / down / 2, ?_, ?_, ?_⟩
      · rw [← h]; exact List.mem_map.mpr ⟨_, hm, rfl⟩
      · linarith
      · linarith

/-- An event on the left end of a step of the search is found after its time. -/
theorem refine_after (cross : ℚ → ℚ → Bool) (t : ℚ) (down : Nat) (prec : ℚ) (h2 : 0 < down) (hi : ℚ)
    (hc : ∀ b, t < b → b ≤ hi → cross t b = true) (fuel : Nat) :
    ∀ (starts : List ℚ) (dur dt : ℚ) (rs : List ℚ), 0 < dt → dur = down * dt → refine cross down prec fuel starts dur dt = some rs →
      ∀ s ∈ starts, s + dur ≤ hi → ∀ k : Nat, k < down → s + (k : ℚ) * dt = t → ∃ r ∈ rs, t < r ∧ r ≤ t + prec := by
  have hq : (1 : ℚ) ≤ down := by exact_mod_cast h2
  induction fuel with
  | zero => intro starts dur dt rs _ _ h; cases h
  | succ fuel ih =>
    intro starts dur dt rs hdt hd h s hs hhi k hk ht
    rw [refine_succ _ _ _ _ _ _ _ hdt hd] at h
    have hhi' : t + dt ≤ hi := by
      have : ((k : ℚ) + 1) * dt ≤ (down : ℚ) * dt := mul_le_mul_of_nonneg_right (by exact_mod_cast hk) hdt.le
      rw [hd] at hhi
      linarith
    have hm : t ∈ pass cross down dt starts := mem_pass.mpr ⟨s, hs, k, hk, ht.symm, hc _ (by linarith) hhi'⟩
    rw [if_neg (fun he => by rw [he] at hm; cases hm)] at h
    have h11 : 0 < dt / down := div_pos hdt (by linarith)
    have h12 : (down : ℚ) * (dt / down) = dt := mul_div_cancel₀ _ (by linarith : (down : ℚ) ≠ 0)
    by_cases hp : prec < dt / down * down
    · rw [if_pos hp] at h
      exact ih _ _ _ _ h11 h12.symm h _ hm hhi' 0 h2 (by push_cast; ring)
    · rw [if_neg hp] at h
      injection h with h
      have h10 : dt / down ≤ dt := div_le_self hdt.le hq
      refine ⟨t + dt / down / 2, ?_, ?_, ?_⟩
      · rw [← h]; exact List.mem_map.mpr ⟨_, hm, rfl⟩
      · linarith
      · linarith

/-- **C63**, violated: an event exactly at a coarse sample inside the span is returned twice, once before and once after its time, whatever the precision. -/
theorem crossing_twice_violated (cross : ℚ → ℚ → Bool) (tMin duration prec : ℚ) (fuel : Nat) (rs : List ℚ) (hd : 0 < duration)
    (h : findCrossings cross tMin duration prec fuel = some (.ok rs)) (k : Nat) (h0 : 0 < k) (hk : k < downFactor duration) (t : ℚ)
    (ht : t = tMin + (k : ℚ) * (duration / (downFactor duration : ℚ))) (ha : ∀ a, tMin ≤ a → a < t → cross a t = true)
    (hb : ∀ b, t < b → b ≤ tMin + duration → cross t b = true) :
    ∃ r ∈ rs, ∃ r' ∈ rs, t - prec ≤ r ∧ r < t ∧ t < r' ∧ r' ≤ t + prec := by
  have h5 := five_le_down duration
  have hq : (5 : ℚ) ≤ (downFactor duration : ℚ) := by exact_mod_cast h5
  obtain ⟨hp, hr⟩ := find_refine h
  have hdt : 0 < duration / (downFactor duration : ℚ) := div_pos hd (by linarith)
  have hdur : duration = downFactor duration * (duration / (downFactor duration : ℚ)) := by rw [mul_div_cancel₀ _ (by linarith : (downFactor duration : ℚ) ≠ 0)]
  obtain ⟨r, h1, h2, h3⟩ := refine_before cross t _ prec (by omega) tMin ha fuel _ _ _ _ hdt hdur hr tMin (List.mem_cons_self ..) le_rfl (k - 1) (by omega)
    (by rw [Nat.cast_sub h0, ht]; push_cast; ring)
  obtain ⟨r', h4, h6, h7⟩ := refine_after cross t _ prec (by omega) _ hb fuel _ _ _ _ hdt hdur hr tMin (List.mem_cons_self ..) le_rfl k hk ht.symm
  exact ⟨r, h1, r', h4, h2, h3, h6, h7⟩

/-- **C63**, violated: a source which rises only once in the span, exactly at a coarse sample, is said to rise twice. -/
theorem rise_sample_violated (el : ℚ → ℚ) (e tMin duration prec : ℚ) (fuel : Nat) (rs : List ℚ) (hd : 0 < duration)
    (hel : StrictMonoOn el (Set.Icc tMin (tMin + duration))) (h : findCrossings (risePair el e) tMin duration prec fuel = some (.ok rs)) (k : Nat) (h0 : 0 < k)
    (hk : k < downFactor duration) (t : ℚ) (ht : t = tMin + (k : ℚ) * (duration / (downFactor duration : ℚ))) (he : el t = e) :
    (∀ x, tMin ≤ x → x ≤ tMin + duration → el x = e → x = t) ∧ 2 ≤ rs.length := by
  have h5 := five_le_down duration
  have hq : (5 : ℚ) ≤ (downFactor duration : ℚ) := by exact_mod_cast h5
  have hdt : 0 < duration / (downFactor duration : ℚ) := div_pos hd (by linarith)
  have hdur : downFactor duration * (duration / (downFactor duration : ℚ)) = duration := mul_div_cancel₀ _ (by linarith : (downFactor duration : ℚ) ≠ 0)
  have hin : t ∈ Set.Icc tMin (tMin + duration) := by
    have h1 : 0 ≤ (k : ℚ) * (duration / (downFactor duration : ℚ)) := mul_nonneg (Nat.cast_nonneg k) hdt.le
    have h2 : (k : ℚ) * (duration / (downFactor duration : ℚ)) ≤ downFactor duration * (duration / (downFactor duration : ℚ)) :=
      mul_le_mul_of_nonneg_right (by exact_mod_cast hk.le) hdt.le
    constructor <;> linarith
  refine ⟨fun x h1 h2 hx => hel.injOn ⟨h1, h2⟩ hin (hx.trans he.symm), ?_⟩
  obtain ⟨r, h1, r', h2, -, h3, h4, -⟩ := crossing_twice_violated _ tMin duration prec fuel rs hd h k h0 hk t ht
    (fun a ha1 ha => by
      unfold risePair
      rw [Bool.and_eq_true, decide_eq_true_iff, decide_eq_true_iff, he]
      exact ⟨by rw [← he]; exact (hel ⟨ha1, by linarith [hin.2]⟩ hin ha).le, le_refl _⟩)
    (fun b hb hb1 => by
      unfold risePair
      rw [Bool.and_eq_true, decide_eq_true_iff, decide_eq_true_iff, he]
      exact ⟨le_refl _, by rw [← he]; exact (hel hin ⟨by linarith [hin.1], hb1⟩ hb).le⟩)
  have hne : r ≠ r' := by intro e; rw [e] at h3; linarith
  match rs, h1, h2 with
  | [x], h1, h2 => exact absurd ((List.mem_singleton.1 h1).trans (List.mem_singleton.1 h2).symm) hne
  | _ :: _ :: _, _, _ => simp

/-- **C63**, violated: nothing is found when the azimuth is below the one asked for at all the coarse samples: a source which passes it and then the north between two
samples is lost, whatever the precision. -/
theorem azimuth_lost_violated (az : ℚ → ℚ) (z tMin duration prec : ℚ) (fuel : Nat) (hd : 0 < duration) (hp : prec < duration)
    (h : ∀ k : Nat, k ≤ downFactor duration → az (tMin + (k : ℚ) * (duration / (downFactor duration : ℚ))) < z) :
    findCrossings (azPair az z) tMin duration prec (fuel + 1) = some (.ok []) := by
  have h5 := five_le_down duration
  have hq : (5 : ℚ) ≤ (downFactor duration : ℚ) := by exact_mod_cast h5
  have hdt : 0 < duration / (downFactor duration : ℚ) := div_pos hd (by linarith)
  have hdur : duration = downFactor duration * (duration / (downFactor duration : ℚ)) := by rw [mul_div_cancel₀ _ (by linarith : (downFactor duration : ℚ) ≠ 0)]
  have hnil : pass (azPair az z) (downFactor duration) (duration / (downFactor duration : ℚ)) [tMin] = [] := by
    rw [List.eq_nil_iff_forall_not_mem]
    intro a ha
    obtain ⟨s, hs, k, hk, rfl, hc⟩ := mem_pass.1 ha
    rw [List.mem_singleton.1 hs] at hc
    unfold azPair at hc
    rw [Bool.and_eq_true, decide_eq_true_iff, decide_eq_true_iff] at hc
    have := h (k + 1) (by omega)
    rw [show tMin + (((k + 1 : Nat)) : ℚ) * (duration / (downFactor duration : ℚ)) =
      tMin + (k : ℚ) * (duration / (downFactor duration : ℚ)) + duration / (downFactor duration : ℚ) by push_cast; ring] at this
    linarith [hc.2]
  rw [find_unfold _ _ _ _ _ hp, refine_succ _ _ _ _ _ _ _ hdt hdur, if_pos hnil]
  rfl

theorem wrap_low {x : ℚ} (h0 : 0 ≤ x) (h1 : x ≤ 180) : wrapDeg x = x := by
  unfold wrapDeg
  have : ⌈(x - 180) / 360⌉ = 0 := by
    rw [Int.ceil_eq_iff]
    constructor
    · push_cast; linarith
    · push_cast; linarith
  rw [this]; simp

theorem wrap_high {x : ℚ} (h0 : 180 < x) (h1 : x < 360) : wrapDeg x = x - 360 := by
  unfold wrapDeg
  have : ⌈(x - 180) / 360⌉ = 1 := by
    rw [Int.ceil_eq_iff]
    constructor
    · push_cast; linarith
    · push_cast; linarith
  rw [this]; simp

/-- **C63**, violated: when a circumpolar source passes the south between two coarse samples, a time between them is returned for every azimuth of the eastern half below that of
the first sample, although the source does not pass at it there. -/
theorem south_returned_violated (az : ℚ → ℚ) (z tMin duration prec : ℚ) (fuel : Nat) (rs : List ℚ) (hd : 0 < duration)
    (h : findCrossings (azCircPair az z) tMin duration prec fuel = some (.ok rs)) (k : Nat) (hk : k < downFactor duration) (a b : ℚ)
    (ha : a = tMin + (k : ℚ) * (duration / (downFactor duration : ℚ))) (hb : b = a + duration / (downFactor duration : ℚ)) (hm : MonotoneOn az (Set.Icc a b))
    (hz : 0 ≤ z) (hza : z < az a) (ha1 : az a ≤ 180) (hb1 : 180 < az b) (hb2 : az b < 360) :
    (∃ r ∈ rs, a ≤ r ∧ r ≤ b) ∧ ∀ x, a ≤ x → x ≤ b → z < az x ∧ az x < 360 := by
  have h5 := five_le_down duration
  have hq : (5 : ℚ) ≤ (downFactor duration : ℚ) := by exact_mod_cast h5
  have hab : a ≤ b := by rw [hb]; linarith [div_pos hd (by linarith : (0 : ℚ) < (downFactor duration : ℚ))]
  constructor
  · have hc : azCircPair az z a b = true := by
      unfold azCircPair
      rw [Bool.or_eq_true, Bool.and_eq_true, Bool.and_eq_true, decide_eq_true_iff, decide_eq_true_iff, decide_eq_true_iff, decide_eq_true_iff,
        wrap_low hz (by linarith), wrap_low (by linarith) ha1, wrap_high hb1 hb2]
      exact Or.inr ⟨hza.le, by linarith⟩
    obtain ⟨r, hr, h1, h2⟩ := crossing_kept _ (azCirc_splits az z) tMin duration prec fuel rs hd h k hk (by rw [← ha, ← hb]; exact hc)
    rw [← ha] at h1 h2
    rw [← hb] at h2
    exact ⟨r, hr, h1, h2⟩
  · intro x h1 h2
    exact ⟨lt_of_lt_of_le hza (hm ⟨le_rfl, hab⟩ ⟨h1, h2⟩ h1), lt_of_le_of_lt (hm ⟨h1, h2⟩ ⟨hab, le_rfl⟩ h2) hb2⟩

/-- The cases are met: a rise at a sample, and a source which turns slowly through the south. -/
example : ∃ rs, findCrossings (risePair (fun t => t) 24) 0 60 5 2 = some (.ok rs) ∧ StrictMonoOn (fun t : ℚ => t) (Set.Icc 0 (0 + 60)) ∧
    (24 : ℚ) = 0 + (2 : Nat) * (60 / (downFactor 60 : ℚ)) :=
  ⟨_, rise_twice_violated, fun _ _ _ _ h => h, by decide +kernel⟩

example : ∃ rs, findCrossings (azCircPair (fun t => t) 90) 150 60 5 2 = some (.ok rs) ∧ MonotoneOn (fun t : ℚ => t) (Set.Icc (174 : ℚ) 186) ∧
    (174 : ℚ) = 150 + (2 : Nat) * (60 / (downFactor 60 : ℚ)) ∧ (186 : ℚ) = 174 + 60 / (downFactor 60 : ℚ) :=
  ⟨_, azimuth_circumpolar_violated.1, fun _ _ _ _ h => h, by decide +kernel, by decide +kernel⟩

end Verif.Astro
