import Verif.Cnst.Lemmas

/-! Helper lemmas on `combine` and the individual scores. -/

namespace Verif.Cnst

theorem combine_all_unevaluated {rows : List Row} (hne : rows ≠ []) (hw : ∀ r ∈ rows, 0 < r.1)
    (hu : ∀ r ∈ rows, r.2 = none) : combine rows = 1 := by
  unfold combine
  have h0 : (rows.all fun r => r.2.isNone) = true := by
    rw [List.all_eq_true]; intro r hr; rw [hu r hr]; rfl
  rw [if_pos h0]
  unfold average
  have hp : 0 < ((rows.map fun r => (r.1, (1 : ℚ))).map fun r => r.1).sum :=
    weights_pos (by intro r hr; obtain ⟨a, ha, rfl⟩ := List.mem_map.1 hr; exact hw a ha)
      (by simpa using hne)
  rw [if_neg (by simp), if_neg (by simp)]
  simp only [List.map_map, Function.comp_def] at hp ⊢
  simp only [Option.getD_some, mul_one]
  exact div_self hp.ne'

theorem combine_mixed {rows : List Row} {a : Row} (ha : a ∈ rows) (hau : a.2 = none)
    {b : Row} (hb : b ∈ rows) (hbe : b.2 ≠ none) : combine rows = 0 := by
  unfold combine
  have h0 : (rows.all fun r => r.2.isNone) = false := by
    rw [List.all_eq_false]
    refine ⟨b, hb, ?_⟩
    cases h : b.2 with
    | none => exact absurd h hbe
    | some _ => simp
  rw [if_neg (by simp [h0])]
  unfold average
  split
  · rfl
  · rw [if_pos]
    rw [List.map_map]
    exact List.mem_map.2 ⟨a, ha, by simp [hau, entry]⟩

/-- The value of `combine` when every constraint was evaluated. -/
theorem combine_evaluated {rows : List Row} (hne : rows ≠ []) (he : ∀ r ∈ rows, r.2 ≠ none) :
    combine rows =
      if ∃ r ∈ rows, r.2 = some none ∨ r.2 = some (some 0) then 0
      else (rows.map fun r => r.1 * (r.2.bind id).getD 0).sum / (rows.map fun r => r.1).sum := by
  unfold combine
  have h0 : (rows.all fun r => r.2.isNone) = false := by
    obtain ⟨r, hr⟩ := List.exists_mem_of_ne_nil rows hne
    rw [List.all_eq_false]
    refine ⟨r, hr, ?_⟩
    cases h : r.2 with
    | none => exact absurd h (he r hr)
    | some _ => simp
  rw [if_neg (by simp [h0])]
  have hm : (rows.map fun r => (r.1, entry r.2)) = rows.map fun r => (r.1, r.2.bind id) := by
    apply List.map_congr_left
    intro r hr
    cases h : r.2 with
    | none => exact absurd h (he r hr)
    | some v => simp [entry]
  rw [hm]
  unfold average
  by_cases hn : ∃ r ∈ rows, r.2 = some none
  · obtain ⟨r, hr, h⟩ := hn
    rw [if_pos (by rw [List.any_map, List.any_eq_true]; exact ⟨r, hr, by simp [h]⟩), if_pos ⟨r, hr, Or.inl h⟩]
  · rw [if_neg (by
      rw [List.any_map, List.any_eq_true]
      rintro ⟨r, hr, h⟩
      apply hn
      refine ⟨r, hr, ?_⟩
      cases h1 : r.2 with
      | none => exact absurd h1 (he r hr)
      | some v => cases v with
        | none => rfl
        | some x => simp [h1] at h)]
    by_cases hz : ∃ r ∈ rows, r.2 = some (some 0)
    · obtain ⟨r, hr, h⟩ := hz
      rw [if_pos, if_pos ⟨r, hr, Or.inr h⟩]
      rw [List.map_map]
      exact List.mem_map.2 ⟨r, hr, by simp [h]⟩
    · rw [if_neg, if_neg]
      · simp [List.map_map, Function.comp_def]
      · rintro ⟨r, hr, h | h⟩
        · exact hn ⟨r, hr, h⟩
        · exact hz ⟨r, hr, h⟩
      · intro hp
        rw [List.map_map, List.mem_map] at hp
        obtain ⟨r, hr, h⟩ := hp
        cases h1 : r.2 with
        | none => exact absurd h1 (he r hr)
        | some v => cases v with
          | none => exact hn ⟨r, hr, h1⟩
          | some x =>
            simp only [Function.comp, h1, Option.bind_some, id, Option.getD_some] at h
            subst h
            exact hz ⟨r, hr, h1⟩

theorem npDiv_self_unit {x v : ℚ} (h : npDiv x x = some v) : v = 1 := by
  unfold npDiv at h
  split at h
  · cases h
  · rename_i hx
    rw [div_self hx] at h
    exact (Option.some.inj h).symm

theorem npDiv_unit {x m v : ℚ} (h0 : 0 ≤ x) (h1 : x ≤ m) (h : npDiv x m = some v) : 0 ≤ v ∧ v ≤ 1 := by
  unfold npDiv at h
  split at h
  · cases h
  · rename_i hx
    have hm : 0 < m := lt_of_le_of_ne (le_trans h0 h1) (Ne.symm hx)
    obtain rfl := Option.some.inj h
    exact ⟨div_nonneg h0 hm.le, (div_le_one hm).2 h1⟩

theorem elevScore_unit {m : ℚ} {s : Bool} {n : Nat} {elev : Nat → ℚ} {i : Nat} {v : ℚ} (hm : 0 ≤ m) (hi : i < n)
    (h : elevScore m s n elev i = some v) : 0 ≤ v ∧ v ≤ 1 := by
  unfold elevScore at h
  split at h
  · cases h
  · rename_i M hM
    split at h
    · cases h
    · rename_i e he
      obtain ⟨M', h1, h2⟩ := nanmax_ge _ hi he
      rw [hM] at h1
      obtain rfl := Option.some.inj h1
      have he0 : 0 ≤ e := by
        unfold elevMean at he
        split at he
        · cases he
        · obtain rfl := Option.some.inj he
          linarith
      split at h
      · exact npDiv_unit he0 h2 h
      · rw [npDiv_self_unit h]; norm_num

theorem elevScore_pos_iff {m : ℚ} {s : Bool} {n : Nat} {elev : Nat → ℚ} {i : Nat} (hm : 0 ≤ m) (hi : i < n) :
    ((elevScore m s n elev i = none ∨ elevScore m s n elev i = some 0) ↔ ¬ m < (elev i + elev (i + 1)) / 2) := by
  unfold elevScore
  by_cases hlt : (elev (i + 1) + elev i) / 2 ≤ m
  · have he : elevMean m elev i = none := by unfold elevMean; rw [if_pos hlt]
    constructor
    · intro _; linarith
    · intro _; rw [he]; split <;> simp
  · have he : elevMean m elev i = some ((elev (i + 1) + elev i) / 2) := by unfold elevMean; rw [if_neg hlt]
    obtain ⟨M, h1, h2⟩ := nanmax_ge _ hi he
    rw [h1, he]
    push Not at hlt
    constructor
    · intro h
      exfalso
      have h3 : (elev (i + 1) + elev i) / 2 ≠ 0 := by linarith
      have h4 : M ≠ 0 := by linarith
      simp only [npDiv, if_neg h3, if_neg h4] at h
      rcases h with h | h
      · split at h <;> cases h
      · split at h
        · rw [Option.some.injEq, div_eq_zero_iff] at h
          rcases h with h | h
          · exact h3 h
          · exact h4 h
        · rw [Option.some.injEq, div_eq_zero_iff] at h
          rcases h with h | h <;> exact h3 h
    · intro h; exact absurd (by linarith) h

theorem crossScore_unit (n nslots : Nat) (hit : Nat → Bool) (i : Nat) :
    0 ≤ crossScore n nslots hit i ∧ crossScore n nslots hit i ≤ 1 := by
  unfold crossScore
  split
  · norm_num
  · split <;> norm_num

theorem maskScore_unit {b : Bool} {v : ℚ} (h : maskScore b = some v) : v = 1 := by
  unfold maskScore at h
  split at h
  · exact (Option.some.inj h).symm
  · cases h

theorem sunMask_eq {a b : Option ℚ} {sep : Nat → ℚ} {k : Nat} {x : ℚ} (h : sunMask a b sep k = some x) : x = sep k := by
  unfold sunMask at h
  split at h
  · cases h
  · exact (Option.some.inj h).symm

theorem sunMask_iff (a b : Option ℚ) (sep : Nat → ℚ) (i : Nat) :
    sunMask a b sep i = some (sep i) ↔ (∀ x, a = some x → x < sep i) ∧ (∀ y, b = some y → sep i ≤ y) := by
  unfold sunMask sunOut
  cases a <;> cases b <;> simp

theorem sunMask_none_iff (a b : Option ℚ) (sep : Nat → ℚ) (i : Nat) :
    sunMask a b sep i = none ↔ sunMask a b sep i ≠ some (sep i) := by
  unfold sunMask
  split <;> simp

theorem sunRaw_spec {cl : Bool} {mx : ℚ} {n : Nat} {m : Nat → Option ℚ} {i : Nat} {x : ℚ} (hi : i < n) (hx : m i = some x)
    (hle : x ≤ mx) (h0 : 0 ≤ x) :
    (∀ r, sunRaw cl mx n m i = some r → 0 ≤ r ∧ r ≤ 1) ∧ (0 < x → ∃ r, sunRaw cl mx n m i = some r ∧ 0 < r) := by
  unfold sunRaw
  rw [hx]
  cases cl
  · simp only [Bool.false_eq_true, if_false, Option.bind_some]
    refine ⟨fun r hr => npDiv_unit h0 hle hr, fun hp => ⟨x / mx, ?_, div_pos hp (by linarith)⟩⟩
    unfold npDiv; rw [if_neg (by linarith)]
  · simp only [if_true, Option.bind_some]
    obtain ⟨D, h3, h4⟩ := nanmax_ge (fun k => (m k).map fun y => mx + 1 / 10 - y) hi
            (v := mx + 1 / 10 - x) (by simp [hx])
    rw [h3, Option.bind_some]
    refine ⟨fun r hr => npDiv_unit (by linarith) h4 hr, fun hp => ⟨(mx + 1 / 10 - x) / D, ?_, div_pos (by linarith) (by linarith)⟩⟩
    unfold npDiv; rw [if_neg (by linarith)]

theorem sunScore_unit {cl sc : Bool} {a b : Option ℚ} {n : Nat} {sep : Nat → ℚ} {i : Nat} {v : ℚ}
    (hs : ∀ k, 0 ≤ sep k) (hi : i < n) (h : sunScore cl sc a b n sep i = some v) : 0 ≤ v ∧ v ≤ 1 := by
  unfold sunScore at h
  rw [Option.bind_eq_some_iff] at h
  obtain ⟨mx, hmx, h⟩ := h
  rw [Option.map_eq_some_iff] at h
  obtain ⟨r, hr, rfl⟩ := h
  cases hx : sunMask a b sep i with
  | none => unfold sunRaw at hr; rw [hx] at hr; split at hr <;> simp at hr
  | some x =>
    obtain ⟨M, h1, h2⟩ := nanmax_ge _ hi hx
    rw [hmx] at h1
    obtain rfl := Option.some.inj h1
    have := (sunRaw_spec (cl := cl) hi hx h2 (by rw [sunMask_eq hx]; exact hs i)).1 r hr
    split
    · exact this
    · split
      · norm_num
      · exact this

theorem sunScore_zero_iff {cl sc : Bool} {a b : Option ℚ} {n : Nat} {sep : Nat → ℚ} {i : Nat}
    (hs : ∀ k, 0 < sep k) (hi : i < n) :
    (sunScore cl sc a b n sep i = none ∨ sunScore cl sc a b n sep i = some 0) ↔
      ¬ ((∀ x, a = some x → x < sep i) ∧ (∀ y, b = some y → sep i ≤ y)) := by
  rw [← sunMask_iff]
  constructor
  · intro h hx
    obtain ⟨M, h1, h2⟩ := nanmax_ge _ hi hx
    obtain ⟨r, hr, hr0⟩ := (sunRaw_spec (cl := cl) hi hx h2 (hs i).le).2 (hs i)
    unfold sunScore at h
    rw [h1, Option.bind_some, hr] at h
    simp only [Option.map_some, reduceCtorEq, Option.some.injEq, false_or] at h
    split at h
    · linarith
    · norm_num at h
  · intro h
    left
    have hx := (sunMask_none_iff a b sep i).2 h
    unfold sunScore sunRaw
    rw [hx]
    cases nanmax (sunMask a b sep) n with
    | none => rfl
    | some m =>
      cases cl <;> simp

theorem nightMask_some {m e : ℚ} {o : Option ℚ} : nightMask m o = some e ↔ o = some e ∧ e ≤ m := by
  unfold nightMask
  rw [Option.filter_eq_some_iff]
  simp

theorem night_unit {sunMax : ℚ} {scale : Bool} {n : Nat} {sun : Nat → Option ℚ} {f : Nat → Option ℚ} {i : Nat} {v : ℚ}
    (hmx : sunMax ≤ 0) (hi : i < n) (hf : (nightEval sunMax scale n sun).2 = .ok f) (h : f i = some v) : 0 ≤ v ∧ v ≤ 1 := by
  simp only [nightEval] at hf
  split at hf
  · split at hf
    · obtain rfl := Except.ok.inj hf; cases h
    · cases hf
  · rename_i m hm
    obtain rfl := Except.ok.inj hf
    simp only [nightSlot, Option.bind_eq_some_iff] at h
    obtain ⟨e, he, h⟩ := h
    obtain ⟨m', h1, h2⟩ := nanmin_le (fun i => nightMask sunMax (sun i)) hi he
    rw [hm] at h1
    obtain rfl := Option.some.inj h1
    have he0 : e ≤ 0 := by have := (nightMask_some.1 he).2; linarith
    split at h
    · have hneg : npDiv (-e) (-m) = some v := by
        unfold npDiv at h ⊢
        simp only [neg_eq_zero, neg_div_neg_eq]
        exact h
      exact npDiv_unit (by linarith) (by linarith) hneg
    · rw [npDiv_self_unit h]; norm_num

theorem night_zero_iff {sunMax : ℚ} {scale : Bool} {n : Nat} {sun : Nat → Option ℚ} {f : Nat → Option ℚ} {i : Nat}
    (hmx : sunMax < 0) (hi : i < n) (hf : (nightEval sunMax scale n sun).2 = .ok f) :
    (f i = none ∨ f i = some 0) ↔ ¬ ∃ e, sun i = some e ∧ e ≤ sunMax := by
  simp only [nightEval] at hf
  split at hf
  · rename_i hnone
    split at hf
    · obtain rfl := Except.ok.inj hf
      simp only [true_or, true_iff]
      rintro ⟨e, he⟩
      obtain ⟨m, h1, _⟩ := nanmin_le (fun i => nightMask sunMax (sun i)) hi (v := e) (nightMask_some.2 he)
      rw [hnone] at h1; cases h1
    · cases hf
  · rename_i m hm
    obtain rfl := Except.ok.inj hf
    obtain ⟨k, _, hk⟩ := nanmin_mem _ hm
    have hm0 : m ≠ 0 := by have := (nightMask_some.1 hk).2; linarith
    constructor
    · rintro h ⟨e, he⟩
      have h1 := nightMask_some.2 he
      have he0 : e ≠ 0 := by linarith [he.2]
      simp only [nightSlot, h1, Option.bind_some, npDiv, if_neg he0, if_neg hm0] at h
      rcases h with h | h
      · split at h <;> cases h
      · split at h
        · rw [Option.some.injEq, div_eq_zero_iff] at h; tauto
        · rw [Option.some.injEq, div_eq_zero_iff] at h; tauto
    · intro h
      left
      have h1 : nightMask sunMax (sun i) = none := by
        cases hq : nightMask sunMax (sun i) with
        | none => rfl
        | some e => exact absurd ⟨e, nightMask_some.1 hq⟩ h
      simp [nightSlot, h1]

theorem crossScore_zero_iff (n nslots : Nat) (hit : Nat → Bool) (i : Nat) :
    crossScore n nslots hit i = 0 ↔
      ¬ (hit i = true ∨ ∃ k, k < n ∧ hit k = true ∧ k ≤ i + nslots / 2 ∧ i + nslots / 2 < k + nslots) := by
  have hany : ((List.range n).any fun k => hit k && (List.range nslots).any fun d => decide (i + nslots / 2 = k + d)) = true ↔
      ∃ k, k < n ∧ hit k = true ∧ k ≤ i + nslots / 2 ∧ i + nslots / 2 < k + nslots := by
    rw [List.any_eq_true]
    constructor
    · rintro ⟨k, hk, h⟩
      rw [Bool.and_eq_true, List.any_eq_true] at h
      obtain ⟨h1, d, hd, h2⟩ := h
      rw [List.mem_range] at hk hd
      have := of_decide_eq_true h2
      exact ⟨k, hk, h1, by omega, by omega⟩
    · rintro ⟨k, hk, h1, h2, h3⟩
      refine ⟨k, List.mem_range.2 hk, ?_⟩
      rw [Bool.and_eq_true, List.any_eq_true]
      exact ⟨h1, i + nslots / 2 - k, List.mem_range.2 (by omega), decide_eq_true (by omega)⟩
  unfold crossScore
  rw [← hany]
  by_cases h : hit i = true
  · simp [h]
  · rw [if_neg h]
    by_cases h2 : ((List.range n).any fun k => hit k && (List.range nslots).any fun d => decide (i + nslots / 2 = k + d)) = true
    · rw [if_pos h2]
      simp [h2]
    · rw [if_neg h2]
      simp only [true_iff]
      tauto

theorem maskScore_zero_iff (b : Bool) : (maskScore b = none ∨ maskScore b = some 0) ↔ ¬ b = true := by
  unfold maskScore
  cases b <;> simp

end Verif.Cnst
