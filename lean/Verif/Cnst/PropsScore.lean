import Verif.Cnst.Props

/-!
# Values accepted by the constraints, and score of a booked block (properties C15 and C75)
-/

namespace Verif.Cnst

/-- Minimal elevations are accepted exactly from 0 to 90 degrees. -/
theorem elev_min_accepted (e : ℚ) : setElevMin e = if 0 ≤ e ∧ e ≤ 90 then .ok e else .error .valueError := by
  unfold setElevMin
  by_cases h : e < 0 ∨ 90 < e
  · rw [if_pos h, if_neg]
    rintro ⟨h1, h2⟩
    rcases h with h | h
    · exact absurd h (not_lt.2 h1)
    · exact absurd h (not_lt.2 h2)
  · rw [if_neg h, if_pos]
    rw [not_or, not_lt, not_lt] at h
    exact h

/-- Weights are accepted exactly if positive. -/
theorem weight_accepted (w : ℚ) : setWeight w = if 0 < w then .ok w else .error .valueError := by
  unfold setWeight
  by_cases h : w ≤ 0
  · rw [if_pos h, if_neg (not_lt.2 h)]
  · rw [if_neg h, if_pos (not_le.1 h)]

/-- **C15**: slots with a crossing have the full score, and only them. -/
theorem cross_score_one (n nslots : Nat) (hit : Nat → Bool) (i : Nat) : crossScore n nslots hit i = 1 ↔ hit i = true := by
  unfold crossScore
  by_cases h : hit i = true
  · rw [if_pos h]; simp [h]
  · rw [if_neg h]
    constructor
    · intro e
      split_ifs at e <;> norm_num at e
    · intro e; exact absurd e h

/-- The other slots from which a block would contain a crossing have half of it. -/
theorem cross_score_half (n nslots : Nat) (hit : Nat → Bool) (i : Nat) : crossScore n nslots hit i = 1 / 2 ↔
    hit i = false ∧ ∃ k < n, hit k = true ∧ ∃ d < nslots, i + nslots / 2 = k + d := by
  unfold crossScore
  by_cases h : hit i = true
  · rw [if_pos h]
    constructor
    · intro e; norm_num at e
    · rintro ⟨e, _⟩; rw [h] at e; cases e
  · rw [if_neg h]
    have hf : hit i = false := by simpa using h
    by_cases ha : ((List.range n).any fun k => hit k && (List.range nslots).any fun d => decide (i + nslots / 2 = k + d)) = true
    · rw [if_pos ha]
      refine ⟨fun _ => ⟨hf, ?_⟩, fun _ => rfl⟩
      obtain ⟨k, hk, h2⟩ := List.any_eq_true.1 ha
      rw [Bool.and_eq_true] at h2
      obtain ⟨d, hd, h4⟩ := List.any_eq_true.1 h2.2
      exact ⟨k, List.mem_range.1 hk, h2.1, d, List.mem_range.1 hd, of_decide_eq_true h4⟩
    · rw [if_neg ha]
      constructor
      · intro e; norm_num at e
      · rintro ⟨_, k, hk, h2, d, hd, h4⟩
        refine absurd (List.any_eq_true.2 ⟨k, List.mem_range.2 hk, ?_⟩) ha
        rw [Bool.and_eq_true]
        exact ⟨h2, List.any_eq_true.2 ⟨d, List.mem_range.2 hd, decide_eq_true h4⟩⟩

/-! ## Score of a booked block -/

/-- **C75**: the score is the weighted mean of those of the constraints. -/
theorem block_score_mean (l : List (ℚ × ℚ)) :
    blockScore (l.map fun p => (p.1, some (some p.2))) = .ok ((l.map fun p => p.1 * p.2).sum / (l.map fun p => p.1).sum) := by
  unfold blockScore
  rw [if_neg, if_neg, List.map_map, List.map_map]
  · rfl
  · rw [List.any_map, List.any_eq_true]
    rintro ⟨x, _, h⟩
    simp at h
  · rw [List.any_map, List.any_eq_true]
    rintro ⟨x, _, h⟩
    simp at h

/-- **C75**: it lies between the smallest and the largest of them. -/
theorem block_score_between {l : List (ℚ × ℚ)} {lo hi : ℚ} (hne : l ≠ []) (hw : ∀ p ∈ l, 0 < p.1) (hv : ∀ p ∈ l, lo ≤ p.2 ∧ p.2 ≤ hi) :
    ∃ v, blockScore (l.map fun p => (p.1, some (some p.2))) = .ok v ∧ lo ≤ v ∧ v ≤ hi := by
  refine ⟨_, block_score_mean l, ?_, ?_⟩
  · rw [le_div_iff₀ (weights_pos hw hne)]
    exact le_wsum fun p hp => ⟨hw p hp, (hv p hp).1⟩
  · rw [div_le_iff₀ (weights_pos hw hne)]
    exact wsum_le fun p hp => ⟨hw p hp, (hv p hp).2⟩

example : ∃ l : List (ℚ × ℚ), l ≠ [] ∧ (∀ p ∈ l, 0 < p.1) ∧ ∀ p ∈ l, 0 ≤ p.2 ∧ p.2 ≤ 1 :=
  ⟨[(1, 1), (2, 1 / 2)], by simp, by simp, by simp; norm_num⟩

/-- **C75**: a constraint without value (a window missed by some slot) makes it zero. -/
theorem block_score_nan {rows : List Row} (he : ∀ r ∈ rows, r.2 ≠ none) (hn : ∃ r ∈ rows, r.2 = some none) : blockScore rows = .ok 0 := by
  unfold blockScore
  rw [if_neg, if_pos]
  · obtain ⟨r, hr, h⟩ := hn
    exact List.any_eq_true.2 ⟨r, hr, by simp [h]⟩
  · rw [List.any_eq_true]
    rintro ⟨r, hr, h⟩
    rw [Option.isNone_iff_eq_none] at h
    exact he r hr h

/-- **C75**, crossings: one if some slot of the block contains a crossing, else zero. -/
theorem get_score_crossing (c : Cn) (hc : c = .transit ∨ (∃ a, c = .azimuth a) ∨ ∃ l, c = .lst l) (n nslots : Nat) (hit : Nat → Bool)
    (start len : Nat) : getScore c (fun i => some (crossScore n nslots hit i)) start len
      = some (if ∃ k < len, hit (start + k) = true then 1 else 0) := by
  have key : ((List.range len).any fun k => (some (crossScore n nslots hit (start + k))).any fun v => decide (7 / 10 < v)) = true
      ↔ ∃ k < len, hit (start + k) = true := by
    rw [List.any_eq_true]
    constructor
    · rintro ⟨k, hk, h⟩
      refine ⟨k, List.mem_range.1 hk, ?_⟩
      have h' : (7 : ℚ) / 10 < crossScore n nslots hit (start + k) := of_decide_eq_true h
      by_contra hx
      unfold crossScore at h'
      rw [if_neg hx] at h'
      split_ifs at h' <;> norm_num at h'
    · rintro ⟨k, hk, h⟩
      refine ⟨k, List.mem_range.2 hk, decide_eq_true ?_⟩
      rw [(cross_score_one n nslots hit (start + k)).2 h]
      norm_num
  have e : getScore c (fun i => some (crossScore n nslots hit i)) start len
      = some (if ((List.range len).any fun k => (some (crossScore n nslots hit (start + k))).any fun v => decide (7 / 10 < v)) = true then 1 else 0) := by
    rcases hc with rfl | ⟨a, rfl⟩ | ⟨l, rfl⟩ <;> rfl
  rw [e]
  by_cases h : ∃ k < len, hit (start + k) = true
  · rw [if_pos h, if_pos (key.2 h)]
  · rw [if_neg h, if_neg (fun h' => h (key.1 h'))]

/-- **C75**, windows of hours or times: one if all slots of the block are inside, else no value. -/
theorem get_score_window (c : Cn) (hc : (∃ a b, c = .localTime a b) ∨ (∃ a b, c = .utcHour a b) ∨ (∃ r, c = .timeRange r) ∨ ∃ a b d, c = .periodic a b d)
    (m : Nat → Bool) (start len : Nat) (hl : 0 < len) :
    getScore c (fun i => maskScore (m i)) start len = if ∀ k < len, m (start + k) = true then some 1 else none := by
  have e : getScore c (fun i => maskScore (m i)) start len
      = if ((List.range len).any fun k => (maskScore (m (start + k))).isNone) = true then none
        else some (((List.range len).map fun k => (maskScore (m (start + k))).getD 0).sum / len) := by
    rcases hc with ⟨a, b, rfl⟩ | ⟨a, b, rfl⟩ | ⟨r, rfl⟩ | ⟨a, b, d, rfl⟩ <;> rfl
  rw [e]
  by_cases h : ∀ k < len, m (start + k) = true
  · rw [if_pos h, if_neg]
    · have : (List.range len).map (fun k => (maskScore (m (start + k))).getD 0) = (List.range len).map (fun _ => (1 : ℚ)) := by
        refine List.map_congr_left fun k hk => ?_
        rw [h k (List.mem_range.1 hk)]; rfl
      have hq : (len : ℚ) ≠ 0 := by exact_mod_cast hl.ne'
      rw [this, List.map_const', List.length_range, List.sum_replicate, nsmul_eq_mul, mul_one, div_self hq]
    · rw [List.any_eq_true]
      rintro ⟨k, hk, h'⟩
      rw [h k (List.mem_range.1 hk)] at h'
      cases h'
  · rw [if_neg h, if_pos]
    push Not at h
    obtain ⟨k, hk, h'⟩ := h
    refine List.any_eq_true.2 ⟨k, List.mem_range.2 hk, ?_⟩
    have : m (start + k) = false := by simpa using h'
    rw [this]; rfl

/-- **C75**, elevations, night and distance to the Sun: the fraction of slots with a positive score, from zero to one. -/
theorem get_score_fraction (c : Cn) (hc : (∃ a b, c = .elevation a b) ∨ (∃ a b, c = .night a b) ∨ ∃ a b d e, c = .solar a b d e)
    (score : Nat → Option ℚ) (start len : Nat) (hl : 0 < len) :
    ∃ q : ℚ, getScore c score start len = some q ∧ 0 ≤ q ∧ q ≤ 1 ∧ (q = 1 ↔ ∀ k < len, ∃ v, score (start + k) = some v ∧ 0 < v) ∧
      (q = 0 ↔ ∀ k < len, ∀ v, score (start + k) = some v → v ≤ 0) := by
  have e : getScore c score start len
      = some ((((List.range len).filter fun k => (score (start + k)).any fun v => decide (0 < v)).length : ℚ) / len) := by
    rcases hc with ⟨a, b, rfl⟩ | ⟨a, b, rfl⟩ | ⟨a, b, d, e, rfl⟩ <;> rfl
  have hq : (0 : ℚ) < len := by exact_mod_cast hl
  have hle : ((List.range len).filter fun k => (score (start + k)).any fun v => decide (0 < v)).length ≤ len := by
    have := List.length_filter_le (fun k => (score (start + k)).any fun v => decide (0 < v)) (List.range len)
    rwa [List.length_range] at this
  have hiff : ∀ k, ((score (start + k)).any fun v => decide (0 < v)) = true ↔ ∃ v, score (start + k) = some v ∧ 0 < v := by
    intro k
    cases score (start + k) with
    | none => simp
    | some v => simp
  refine ⟨_, e, by positivity, ?_, ?_, ?_⟩
  · rw [div_le_one hq]; exact_mod_cast hle
  · rw [div_eq_one_iff_eq hq.ne']
    have : (((List.range len).filter fun k => (score (start + k)).any fun v => decide (0 < v)).length : ℚ) = len ↔
        ((List.range len).filter fun k => (score (start + k)).any fun v => decide (0 < v)).length = (List.range len).length := by
      rw [List.length_range]; exact Nat.cast_inj
    rw [this, List.length_filter_eq_length_iff]
    constructor
    · intro h k hk; exact (hiff k).1 (h k (List.mem_range.2 hk))
    · intro h k hk; exact (hiff k).2 (h k (List.mem_range.1 hk))
  · rw [div_eq_zero_iff, or_iff_left hq.ne', Nat.cast_eq_zero, List.length_eq_zero_iff, List.filter_eq_nil_iff]
    constructor
    · intro h k hk v hv
      have := h k (List.mem_range.2 hk)
      rw [hiff] at this
      by_contra hc
      exact this ⟨v, hv, not_le.1 hc⟩
    · intro h k hk
      rw [hiff]
      rintro ⟨v, hv, h0⟩
      exact absurd (h k (List.mem_range.1 hk) v hv) (not_le.2 h0)

end Verif.Cnst
