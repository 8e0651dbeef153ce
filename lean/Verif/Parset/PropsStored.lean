import Verif.Parset.PropsUser

/-!
# What is read back from the text written for a value (property C32), and negative positions (property C31)
-/

namespace Verif.Parset

/-- **C32**: booleans are read back, whatever the key. -/
theorem stored_bool (isTime : Str → Bool) (isFloat : IsFloat) (key : Str) (b : Bool) :
    setItem isTime isFloat key ((UVal.bool b).stored ++ ['\n']) = .ok (.bool b) ∧
      (UVal.bool b).stored = (if b then "true".toList else "false".toList) := by
  cases b <;> exact ⟨rfl, rfl⟩

/-- **C32**: times are written as UTC (final Z) and read back so. -/
theorem stored_time (isTime : Str → Bool) (isFloat : IsFloat) (key isot : Str) (hk1 : hasSub "angle".toList (lower key) = false)
    (hk2 : hasSub "duration".toList (lower key) = false) (hc : ':' ∈ isot) (hq : '"' ∉ isot) (hn : '\n' ∉ isot)
    (hb : ∀ c, isot.head? = some c → isBlank c = false) (ht : isTime (isot ++ ['Z']) = true) :
    setItem isTime isFloat key ((UVal.time isot).stored) = .ok (.time (isot ++ ['Z'])) := by
  have hz : ∀ c : Char, c ≠ 'Z' → (c ∈ isot ++ ['Z'] ↔ c ∈ isot) := by
    intro c h; simp [h]
  have hcl : clean (isot ++ ['Z']) = isot ++ ['Z'] := clean_id (fun h => hn ((hz _ (by decide)).1 h)) (fun h => hq ((hz _ (by decide)).1 h))
  have hlow : ':' ∈ lower (isot ++ ['Z']) := List.mem_map.2 ⟨':', List.mem_append_left _ hc, by decide⟩
  have hstrip : strip (isot ++ ['Z']) = isot ++ ['Z'] := by
    unfold strip
    have h1 : (isot ++ ['Z']).dropWhile isBlank = isot ++ ['Z'] := by
      cases isot with
      | nil => rfl
      | cons c t => rw [List.cons_append, List.dropWhile_cons_of_neg (by rw [hb c rfl]; simp)]
    rw [h1, List.reverse_append]
    show ((('Z' :: isot.reverse).dropWhile isBlank).reverse) = _
    rw [List.dropWhile_cons_of_neg (by decide), List.reverse_cons, List.reverse_reverse]
  have hdig : isDigits (isot ++ ['Z']) = false := by
    unfold isDigits
    rw [List.all_append]
    simp
  show setItem isTime isFloat key (isot ++ ['Z']) = _
  unfold setItem
  simp only [hcl]
  have e1 : ("true".toList : Str) = ['t', 'r', 'u', 'e'] := by decide
  have e2 : ("false".toList : Str) = ['f', 'a', 'l', 's', 'e'] := by decide
  rw [if_neg (by rw [List.getLast?_concat]; rintro ⟨-, h⟩; revert h; decide), if_neg (by intro h; rw [h, e1] at hlow; revert hlow; decide),
    if_neg (by intro h; rw [h, e2] at hlow; revert hlow; decide), if_neg (by rw [hk1]; simp), if_neg (by rw [hk2]; simp),
    if_neg (by rw [hdig]; simp), if_pos (List.mem_append_left _ hc), hstrip, if_pos ht]

example : hasSub "angle".toList (lower "startTime".toList) = false ∧ hasSub "duration".toList (lower "startTime".toList) = false ∧
    ':' ∈ "2022-01-01T12:00:00".toList := by decide

/-- **C32**: durations are written in whole seconds, to the nearest one, and read back as this number of seconds. -/
theorem stored_delta (isTime : Str → Bool) (isFloat : IsFloat) (q : ℚ) (hq : 0 ≤ q) :
    ∃ n : Nat, |(n : ℚ) - q| ≤ 1 / 2 ∧ setItem isTime isFloat "duration".toList (UVal.delta q).stored = .ok (.str (UVal.delta q).stored) ∧
      getDuration (UVal.delta q).stored = .ok n := by
  have h1 := Int.floor_le q
  have h2 := Int.lt_floor_add_one q
  have h0 : 0 ≤ ⌊q⌋ := Int.floor_nonneg.2 hq
  have hr : 0 ≤ roundEven q ∧ |(roundEven q : ℚ) - q| ≤ 1 / 2 := by
    unfold roundEven
    simp only
    split_ifs with a b c
    · exact ⟨h0, abs_le.2 ⟨by linarith, by linarith⟩⟩
    · exact ⟨by omega, abs_le.2 ⟨by push_cast; linarith, by push_cast; linarith⟩⟩
    · exact ⟨h0, abs_le.2 ⟨by linarith, by linarith⟩⟩
    · exact ⟨by omega, abs_le.2 ⟨by push_cast; linarith, by push_cast; linarith⟩⟩
  obtain ⟨n, hn⟩ : ∃ n : Nat, roundEven q = n := ⟨(roundEven q).toNat, (Int.toNat_of_nonneg hr.1).symm⟩
  have hs : (UVal.delta q).stored = natStr n ++ ['s'] := by
    show intStr (roundEven q) ++ ['s'] = _
    rw [hn]; rfl
  refine ⟨n, ?_, ?_, ?_⟩
  · have := hr.2; rw [hn] at this; exact_mod_cast this
  · rw [hs]; exact duration_seconds_partial isTime isFloat n
  · rw [hs]
    unfold getDuration
    have ht : (natStr n ++ ['s']).takeWhile Char.isDigit = natStr n := by
      rw [List.takeWhile_append_of_pos (natStr_digits n)]
      simp [List.takeWhile]
    have hd : (natStr n ++ ['s']).dropWhile Char.isDigit = ['s'] := by
      rw [List.dropWhile_append_of_pos (natStr_digits n)]
      rfl
    simp only [ht, hd]
    show (if natStr n = [] then _ else Except.ok (Nat.ofDigitChars 10 (natStr n) 0 * 1)) = _
    rw [if_neg (natStr_ne n), ofDigits_natStr, Nat.mul_one]

/-- **C32**: lists of indices are read back. -/
theorem stored_list (isTime : Str → Bool) (isFloat : IsFloat) (key : Str) (l : List Nat) (hl : l ≠ []) :
    setItem isTime isFloat key ((UVal.list (l.map natStr)).stored ++ ['\n']) = .ok (.list (l.map (fun n : Nat => Item.int n))) := by
  have := list_round_trip_partial isTime isFloat key l hl
  unfold listStr at this
  rw [List.map_map] at this
  exact this

/-- **C31**: positions are those of Python: counted from the end if negative, refused outside. -/
theorem index_exact (n : Nat) (i : Int) (j : Nat) : pyIndex n i = some j ↔ j < n ∧ (i = j ∨ i = (j : Int) - n) := by
  unfold pyIndex
  split_ifs with h1 h2 h3
  · rw [Option.some.injEq]; omega
  · simp; omega
  · rw [Option.some.injEq]; omega
  · simp; omega

end Verif.Parset
