import Verif.Cnst.Eval

/-! Helper lemmas on constraint scores. -/

namespace Verif.Cnst

theorem nanmax_ge (f : Nat → Option ℚ) : ∀ {n i : Nat} {v : ℚ}, i < n → f i = some v →
    ∃ m, nanmax f n = some m ∧ v ≤ m
  | 0, _, _, h, _ => absurd h (by omega)
  | n + 1, i, v, h, hv => by
    rw [nanmax]
    rcases Nat.lt_succ_iff_lt_or_eq.mp h with h | rfl
    · obtain ⟨m, h1, h2⟩ := nanmax_ge f h hv
      rw [h1]
      cases hf : f n with
      | none => exact ⟨m, rfl, h2⟩
      | some b => exact ⟨max m b, rfl, le_trans h2 (le_max_left _ _)⟩
    · rw [hv]
      cases hf : nanmax f i with
      | none => exact ⟨v, rfl, le_refl _⟩
      | some b => exact ⟨max b v, rfl, le_max_right _ _⟩

theorem nanmax_mem (f : Nat → Option ℚ) : ∀ {n : Nat} {m : ℚ}, nanmax f n = some m →
    ∃ i, i < n ∧ f i = some m
  | 0, _, h => by simp [nanmax] at h
  | n + 1, m, h => by
    rw [nanmax] at h
    cases h1 : nanmax f n with
    | none => rw [h1] at h; exact ⟨n, by omega, h⟩
    | some a =>
      obtain ⟨i, hi, hf⟩ := nanmax_mem f h1
      rw [h1] at h
      cases h2 : f n with
      | none => rw [h2] at h; simp only [Option.some.injEq] at h; subst h; exact ⟨i, by omega, hf⟩
      | some b =>
        rw [h2] at h
        simp only [Option.some.injEq] at h
        rcases max_choice a b with hm | hm
        · exact ⟨i, by omega, by rw [hf, ← h, hm]⟩
        · exact ⟨n, by omega, by rw [h2, ← h, hm]⟩

theorem nanmin_le (f : Nat → Option ℚ) : ∀ {n i : Nat} {v : ℚ}, i < n → f i = some v →
    ∃ m, nanmin f n = some m ∧ m ≤ v
  | 0, _, _, h, _ => absurd h (by omega)
  | n + 1, i, v, h, hv => by
    rw [nanmin]
    rcases Nat.lt_succ_iff_lt_or_eq.mp h with h | rfl
    · obtain ⟨m, h1, h2⟩ := nanmin_le f h hv
      rw [h1]
      cases hf : f n with
      | none => exact ⟨m, rfl, h2⟩
      | some b => exact ⟨min m b, rfl, le_trans (min_le_left _ _) h2⟩
    · rw [hv]
      cases hf : nanmin f i with
      | none => exact ⟨v, rfl, le_refl _⟩
      | some b => exact ⟨min b v, rfl, min_le_right _ _⟩

theorem nanmin_mem (f : Nat → Option ℚ) : ∀ {n : Nat} {m : ℚ}, nanmin f n = some m →
    ∃ i, i < n ∧ f i = some m
  | 0, _, h => by simp [nanmin] at h
  | n + 1, m, h => by
    rw [nanmin] at h
    cases h1 : nanmin f n with
    | none => rw [h1] at h; exact ⟨n, by omega, h⟩
    | some a =>
      obtain ⟨i, hi, hf⟩ := nanmin_mem f h1
      rw [h1] at h
      cases h2 : f n with
      | none => rw [h2] at h; simp only [Option.some.injEq] at h; subst h; exact ⟨i, by omega, hf⟩
      | some b =>
        rw [h2] at h
        simp only [Option.some.injEq] at h
        rcases min_choice a b with hm | hm
        · exact ⟨i, by omega, by rw [hf, ← h, hm]⟩
        · exact ⟨n, by omega, by rw [h2, ← h, hm]⟩

/-- `0 ≤ x` with the weights positive: weighted sums. -/
theorem wsum_nonneg {l : List (ℚ × ℚ)} (h : ∀ r ∈ l, 0 < r.1 ∧ 0 ≤ r.2) : 0 ≤ (l.map fun r => r.1 * r.2).sum := by
  apply List.sum_nonneg
  intro x hx
  obtain ⟨r, hr, rfl⟩ := List.mem_map.1 hx
  have := h r hr
  exact mul_nonneg this.1.le this.2

theorem wsum_le {c : ℚ} : ∀ {l : List (ℚ × ℚ)}, (∀ r ∈ l, 0 < r.1 ∧ r.2 ≤ c) →
    (l.map fun r => r.1 * r.2).sum ≤ c * (l.map fun r => r.1).sum
  | [], _ => by simp
  | r :: l, h => by
    have h1 := wsum_le (l := l) (c := c) fun x hx => h x (List.mem_cons_of_mem _ hx)
    have h2 := h r (List.mem_cons_self)
    have h3 : r.1 * r.2 ≤ c * r.1 := by nlinarith
    simp only [List.map_cons, List.sum_cons]; linarith

theorem le_wsum {c : ℚ} : ∀ {l : List (ℚ × ℚ)}, (∀ r ∈ l, 0 < r.1 ∧ c ≤ r.2) →
    c * (l.map fun r => r.1).sum ≤ (l.map fun r => r.1 * r.2).sum
  | [], _ => by simp
  | r :: l, h => by
    have h1 := le_wsum (l := l) (c := c) fun x hx => h x (List.mem_cons_of_mem _ hx)
    have h2 := h r (List.mem_cons_self)
    have h3 : c * r.1 ≤ r.1 * r.2 := by nlinarith
    simp only [List.map_cons, List.sum_cons]; linarith

theorem weights_pos {l : List (ℚ × ℚ)} (h : ∀ r ∈ l, 0 < r.1) (hne : l ≠ []) : 0 < (l.map fun r => r.1).sum := by
  cases l with
  | nil => exact absurd rfl hne
  | cons r l =>
    have h1 := h r List.mem_cons_self
    have h2 : 0 ≤ (l.map fun r => r.1).sum := by
      apply List.sum_nonneg
      intro x hx
      obtain ⟨r', hr', rfl⟩ := List.mem_map.1 hx
      exact (h r' (List.mem_cons_of_mem _ hr')).le
    simp only [List.map_cons, List.sum_cons]; linarith

end Verif.Cnst
