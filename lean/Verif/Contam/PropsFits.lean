import Verif.Contam.Lemmas

/-!
# C112: contamination maps can be added, drawn, written and read back
-/

namespace Verif.Contam

theorem sameAxis_len {a b : List ℚ} (hl : a.length = b.length) (h : sameAxis a b = .ok true) : a = b := by
  unfold sameAxis at h
  rw [if_pos hl] at h
  injection h with h
  exact of_decide_eq_true h

theorem sameAxis_refl (a : List ℚ) : sameAxis a a = .ok true := by
  unfold sameAxis; rw [if_pos rfl, decide_eq_true rfl]

theorem sameAxis_ne {a b : List ℚ} (hl : a.length = b.length) (h : a ≠ b) : sameAxis a b = .ok false := by
  unfold sameAxis; rw [if_pos hl, decide_eq_false h]

/-- **C112**: two maps on the same numbers of times and frequencies are added exactly when their axes are equal; the sum keeps the axes and adds the values. -/
theorem add_exact (a b : Sil) (ht : a.time.length = b.time.length) (hf : a.freq.length = b.freq.length) :
    ((∃ c, addSil a b = .ok c) ↔ a.time = b.time ∧ a.freq = b.freq) ∧
    (¬ (a.time = b.time ∧ a.freq = b.freq) → addSil a b = .error .exception) ∧
    ∀ c, addSil a b = .ok c → c.time = a.time ∧ c.freq = a.freq ∧
      ∀ f t x y, a.value f t = some x → b.value f t = some y → c.value f t = some (x + y) := by
  have hno : ¬ (a.time = b.time ∧ a.freq = b.freq) → addSil a b = .error .exception := by
    intro h
    unfold addSil
    by_cases h1 : a.freq = b.freq
    · have h2 : a.time ≠ b.time := fun e => h ⟨e, h1⟩
      rw [h1, sameAxis_refl, sameAxis_ne ht h2]
      rfl
    · rw [sameAxis_ne hf h1]
      by_cases h2 : a.time = b.time
      · rw [h2, sameAxis_refl]; rfl
      · rw [sameAxis_ne ht h2]; rfl
  have hyes : a.time = b.time ∧ a.freq = b.freq →
      addSil a b = .ok ⟨a.time, a.freq, fun f t => (a.value f t).bind fun x => (b.value f t).map fun y => x + y⟩ := by
    rintro ⟨h1, h2⟩
    unfold addSil
    rw [h1, h2, sameAxis_refl, sameAxis_refl]
    rfl
  refine ⟨⟨fun ⟨c, hc⟩ => ?_, fun h => ⟨_, hyes h⟩⟩, hno, fun c hc => ?_⟩
  · by_contra h
    rw [hno h] at hc; cases hc
  · by_cases h : a.time = b.time ∧ a.freq = b.freq
    · rw [hyes h] at hc
      injection hc with hc
      subst hc
      refine ⟨rfl, rfl, fun f t x y hx hy => ?_⟩
      show (a.value f t).bind _ = _
      rw [hx, hy]; rfl
    · rw [hno h] at hc; cases hc

example : ∃ c, addSil ⟨[1, 2], [50], fun _ t => some t⟩ ⟨[1, 2], [50], fun _ _ => some 3⟩ = .ok c ∧ c.value 0 1 = some 4 := ⟨_, rfl, by decide +kernel⟩

/-- **C112**: a map written as floats is read back as it was, and the map itself is not changed. -/
theorem floats_back (s : Sil) (hv : ∀ f t, s.value f t ≠ none) : (exportSil s false).1 = s ∧ fromFits (exportSil s false).2 = s := by
  refine ⟨rfl, ?_⟩
  show (⟨s.time, s.freq, fun f t => some ((s.value f t).getD 0)⟩ : Sil) = s
  have : (fun f t => some ((s.value f t).getD 0)) = s.value := by
    funext f t
    cases h : s.value f t with
    | none => exact absurd h (hv f t)
    | some x => rfl
  rw [this]

/-- **C112**: weights between 0 and 1 written as bytes are read back with an error of less than 1/255, never above their value; 0 and 1 are exact. -/
theorem bytes_back_partial (s : Sil) (f t : Nat) (x : ℚ) (hx : s.value f t = some x) (h0 : 0 ≤ x) (h1 : x ≤ 1) :
    (fromFits (exportSil s true).2).time = s.time ∧ (fromFits (exportSil s true).2).freq = s.freq ∧
    ∃ y, (fromFits (exportSil s true).2).value f t = some y ∧ y ≤ x ∧ x < y + 1 / 255 ∧ (x = 0 → y = 0) ∧ (x = 1 → y = 1) := by
  have hp : plainVal s.value f t = x := by unfold plainVal; rw [hx]; rfl
  refine ⟨rfl, rfl, (((⌊plainVal s.value f t * 255⌋ % 256).toNat : ℕ) : ℚ) / 255, rfl, ?_⟩
  rw [hp]
  have hfl0 : 0 ≤ ⌊x * 255⌋ := Int.floor_nonneg.2 (by linarith)
  have hfl1 : ⌊x * 255⌋ ≤ 255 := by
    have : ⌊x * 255⌋ < 256 := Int.floor_lt.2 (by push_cast; linarith)
    omega
  have hmod : ⌊x * 255⌋ % 256 = ⌊x * 255⌋ := Int.emod_eq_of_lt hfl0 (by omega)
  rw [hmod]
  have hcast : ((⌊x * 255⌋.toNat : ℕ) : ℚ) = (⌊x * 255⌋ : ℤ) := by
    have : ((⌊x * 255⌋.toNat : ℕ) : ℤ) = ⌊x * 255⌋ := Int.toNat_of_nonneg hfl0
    exact_mod_cast this
  rw [hcast]
  have hle := Int.floor_le (x * 255)
  have hlt := Int.lt_floor_add_one (x * 255)
  refine ⟨by rw [div_le_iff₀ (by norm_num)]; exact hle, ?_, ?_, ?_⟩
  · have : x < ((⌊x * 255⌋ : ℤ) + 1) / 255 := by rw [lt_div_iff₀ (by norm_num)]; exact hlt
    rw [add_div] at this; exact this
  · rintro rfl; norm_num
  · rintro rfl; norm_num

/-- **C112**, violated: a map of numbers of sources written as bytes is not read back: all numbers of two or more are read as at most one, and 256 sources as
none. -/
theorem bytes_counts_violated (s : Sil) (f t : Nat) (n : Nat) (hx : s.value f t = some (n : ℚ)) :
    ∃ y, (fromFits (exportSil s true).2).value f t = some y ∧ y ≤ 1 ∧ (2 ≤ n → y ≠ n) ∧ (n % 256 = 0 → y = 0) := by
  have hp : plainVal s.value f t = (n : ℚ) := by unfold plainVal; rw [hx]; rfl
  have hfl : ⌊(n : ℚ) * 255⌋ = ((n * 255 : ℕ) : ℤ) := by
    rw [show (n : ℚ) * 255 = ((n * 255 : ℕ) : ℚ) by push_cast; ring]; exact Int.floor_natCast _
  have hm : (⌊(n : ℚ) * 255⌋ % 256).toNat = n * 255 % 256 := by rw [hfl]; omega
  refine ⟨(((⌊plainVal s.value f t * 255⌋ % 256).toNat : ℕ) : ℚ) / 255, rfl, ?_⟩
  rw [hp, hm]
  have hle : ((n * 255 % 256 : ℕ) : ℚ) ≤ 255 := by exact_mod_cast (by omega : n * 255 % 256 ≤ 255)
  have h1 : ((n * 255 % 256 : ℕ) : ℚ) / 255 ≤ 1 := (div_le_one (by norm_num)).2 hle
  refine ⟨h1, fun h e => ?_, fun h => ?_⟩
  · rw [e] at h1
    have : n ≤ 1 := by exact_mod_cast h1
    omega
  · rw [show n * 255 % 256 = 0 by omega]; norm_num

example : ∃ y, (fromFits (exportSil ⟨[0], [50], fun _ _ => some 2⟩ true).2).value 0 0 = some y ∧ y ≠ 2 := by
  obtain ⟨y, h, -, h2, -⟩ := bytes_counts_violated ⟨[0], [50], fun _ _ => some 2⟩ 0 0 2 (by norm_num)
  exact ⟨y, h, by simpa using h2 (le_refl 2)⟩

/-- **C112**, violated: writing as bytes changes the map: every value from 1/255 on is replaced by a number of at least 1, 255 for a weight of 1. -/
theorem bytes_change_violated (s : Sil) (f t : Nat) (x : ℚ) (hx : s.value f t = some x) (h0 : 1 / 255 ≤ x) :
    ∃ y, (exportSil s true).1.value f t = some y ∧ 1 ≤ y ∧ (x = 1 → y = 255) := by
  have hp : plainVal s.value f t = x := by unfold plainVal; rw [hx]; rfl
  refine ⟨((⌊plainVal s.value f t * 255⌋ : ℤ) : ℚ), rfl, ?_, ?_⟩
  · rw [hp]
    have : (1 : ℤ) ≤ ⌊x * 255⌋ := Int.le_floor.2 (by push_cast; linarith)
    exact_mod_cast this
  · rintro rfl; rw [hp]; norm_num

/-- **C112**, violated: the second file is not the first one: a weight of 1 is written as 255, then as 1. -/
theorem bytes_twice_violated (time freq : List ℚ) (s : Sil) (hs : s = ⟨time, freq, fun _ _ => some 1⟩) :
    (fromFits (exportSil s true).2).value 0 0 = some 1 ∧ (fromFits (exportSil (exportSil s true).1 true).2).value 0 0 = some (1 / 255) := by
  subst hs
  have e1 : ⌊(1 : ℚ) * 255⌋ = 255 := by norm_num
  constructor
  · show some (((⌊(1 : ℚ) * 255⌋ % 256).toNat : ℚ) / 255) = _
    rw [e1, show ((255 : ℤ) % 256).toNat = 255 from rfl]; norm_num
  · show some (((⌊(((⌊(1 : ℚ) * 255⌋ : ℤ) : ℚ)) * 255⌋ % 256).toNat : ℚ) / 255) = _
    rw [e1]
    have : ⌊(((255 : ℤ) : ℚ)) * 255⌋ = 65025 := by norm_num
    rw [this, show ((65025 : ℤ) % 256).toNat = 1 from rfl]; norm_num

/-! ## Drawing -/

theorem falls_append : ∀ (l1 : List ℚ) (a b : ℚ) (l2 : List ℚ), falls (l1 ++ a :: b :: l2) = falls (l1 ++ [a]) ++ decide (b - a < 0) :: falls (b :: l2)
  | [], _, _, _ => rfl
  | [x], a, b, l2 => rfl
  | x :: y :: l1, a, b, l2 => by
    show decide (y - x < 0) :: falls ((y :: l1) ++ a :: b :: l2) = _
    rw [falls_append (y :: l1) a b l2]
    rfl

theorem falls_sorted : ∀ (x : List ℚ), x.Pairwise (· ≤ ·) → (falls x).any id = false
  | [], _ => rfl
  | [_], _ => rfl
  | a :: b :: l, h => by
    have h1 : a ≤ b := (List.pairwise_cons.1 h).1 b List.mem_cons_self
    have h2 := falls_sorted (b :: l) (List.pairwise_cons.1 h).2
    show (decide (b - a < 0) || (falls (b :: l)).any id) = false
    rw [h2, decide_eq_false (by linarith)]
    rfl

theorem falls_length_one : ∀ (x : List ℚ) (a : ℚ), (falls (x ++ [a])).length = x.length
  | [], _ => rfl
  | [_], _ => rfl
  | _ :: y :: l, a => by
    show (falls ((y :: l) ++ [a])).length + 1 = _
    rw [falls_length_one (y :: l) a]
    rfl

/-- **C112**: an increasing axis is drawn as it is. -/
theorem roll_none (x : List ℚ) (h : x.Pairwise (· ≤ ·)) : rollIndex x = 0 ∧ rollBack (rollIndex x) x = x := by
  have : rollIndex x = 0 := by
    unfold rollIndex; rw [falls_sorted x h]; rfl
  rw [this]
  exact ⟨rfl, List.append_nil _⟩

/-- **C112**: an axis which goes back to its beginning once, as sidereal times over midnight do, is drawn in increasing order when its second part stays before
its first one, and values follow their times. -/
theorem roll_sorted (p q : List ℚ) (hp : p.Pairwise (· ≤ ·)) (hq : q.Pairwise (· ≤ ·)) (hp0 : p ≠ []) (hq0 : q ≠ []) (hqp : ∀ a ∈ p, ∀ b ∈ q, b < a) :
    rollIndex (p ++ q) = p.length ∧ rollBack (rollIndex (p ++ q)) (p ++ q) = q ++ p ∧ (q ++ p).Pairwise (· ≤ ·) ∧
    ∀ {α : Type} (v w : List α), v.length = p.length → rollBack (rollIndex (p ++ q)) (v ++ w) = w ++ v := by
  have hidx : rollIndex (p ++ q) = p.length := by
    obtain ⟨b, q', rfl⟩ := List.exists_cons_of_ne_nil hq0
    obtain ⟨p', a, rfl⟩ : ∃ p' a, p = p' ++ [a] := ⟨p.dropLast, p.getLast hp0, (List.dropLast_append_getLast hp0).symm⟩
    have hba : b < a := hqp a (List.mem_append_right _ List.mem_cons_self) b List.mem_cons_self
    have e : falls (p' ++ [a] ++ b :: q') = falls (p' ++ [a]) ++ decide (b - a < 0) :: falls (b :: q') := by
      rw [List.append_assoc]; exact falls_append p' a b q'
    have hs := falls_sorted (p' ++ [a]) hp
    have hd : decide (b - a < 0) = true := decide_eq_true (by linarith)
    unfold rollIndex
    rw [e, hd, if_pos (by rw [List.any_append, hs]; rfl), List.findIdx_append]
    have hnot : ¬ (falls (p' ++ [a])).findIdx id < (falls (p' ++ [a])).length := by
      intro hlt
      have := List.findIdx_getElem (w := hlt)
      have hm : (falls (p' ++ [a])).any id = true := List.any_eq_true.2 ⟨_, List.getElem_mem hlt, this⟩
      rw [hs] at hm; cases hm
    rw [if_neg hnot, falls_length_one, List.length_append]
    simp [List.findIdx_cons]
  refine ⟨hidx, ?_, ?_, ?_⟩
  · rw [hidx]
    unfold rollBack
    rw [List.drop_left, List.take_left]
  · rw [List.pairwise_append]
    exact ⟨hq, hp, fun b hb a ha => le_of_lt (hqp a ha b hb)⟩
  · intro α v w hv
    rw [hidx, ← hv]
    unfold rollBack
    rw [List.drop_left, List.take_left]

example : rollBack (rollIndex [5, 6, 0, 1]) [5, 6, 0, 1] = ([0, 1, 5, 6] : List ℚ) := by decide +kernel

/-- **C112**, violated: an axis which goes back to its beginning more than once, as sidereal times of more than a day may do, is drawn out of order. -/
theorem roll_violated (p q r : List ℚ) (a b c d : ℚ) (hp : (p ++ [a]).Pairwise (· ≤ ·)) (hab : b < a) (hcd : d < c) :
    ¬ (rollBack (rollIndex (p ++ [a] ++ b :: (q ++ c :: d :: r))) (p ++ [a] ++ b :: (q ++ c :: d :: r))).Pairwise (· ≤ ·) := by
  have hidx : rollIndex (p ++ [a] ++ b :: (q ++ c :: d :: r)) = (p ++ [a]).length := by
    have e : falls (p ++ [a] ++ b :: (q ++ c :: d :: r)) = falls (p ++ [a]) ++ decide (b - a < 0) :: falls (b :: (q ++ c :: d :: r)) := by
      rw [List.append_assoc]; exact falls_append p a b _
    have hs := falls_sorted (p ++ [a]) hp
    have hd : decide (b - a < 0) = true := decide_eq_true (by linarith)
    unfold rollIndex
    rw [e, hd, if_pos (by rw [List.any_append, hs]; rfl), List.findIdx_append]
    have hnot : ¬ (falls (p ++ [a])).findIdx id < (falls (p ++ [a])).length := by
      intro hlt
      have := List.findIdx_getElem (w := hlt)
      have hm : (falls (p ++ [a])).any id = true := List.any_eq_true.2 ⟨_, List.getElem_mem hlt, this⟩
      rw [hs] at hm; cases hm
    rw [if_neg hnot, falls_length_one, List.length_append]
    simp [List.findIdx_cons]
  rw [hidx]
  unfold rollBack
  rw [List.drop_left, List.take_left]
  intro h
  have h1 := (List.pairwise_append.1 h).1
  have h2 := (List.pairwise_append.1 (List.pairwise_cons.1 h1).2).2.1
  exact absurd ((List.pairwise_cons.1 h2).1 d List.mem_cons_self) (not_le.2 hcd)

example : ¬ (rollBack (rollIndex [3, 0, 4, 1]) ([3, 0, 4, 1] : List ℚ)).Pairwise (· ≤ ·) :=
  roll_violated [] [] [] 3 0 4 1 (List.pairwise_singleton _ _) (by norm_num) (by norm_num)

end Verif.Contam
