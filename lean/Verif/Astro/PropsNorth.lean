import Verif.Astro.PropsPointing

/-!
# Long tracks of statistics files: property C64
-/

namespace Verif.Astro

theorem filter_range_le (n i : Nat) (p : Nat → Bool) (hi : i < n) (h1 : ∀ j, j ≤ i → p j = true) (h2 : ∀ j, i < j → j < n → p j = false) :
    (List.range n).filter p = List.range (i + 1) := by
  obtain ⟨d, rfl⟩ : ∃ d, n = (i + 1) + d := ⟨n - (i + 1), by omega⟩
  rw [List.range_add, List.filter_append, List.filter_eq_self.2, List.filter_eq_nil_iff.2, List.append_nil]
  · intro a ha
    obtain ⟨b, hb, rfl⟩ := List.mem_map.1 ha
    have := List.mem_range.1 hb
    rw [h2 _ (by omega) (by omega)]; simp
  · intro a ha
    exact h1 a (by have := List.mem_range.1 ha; omega)

/-- Between two samples the interpolation is the straight line through them. -/
theorem interp_line (xs ys : List ℚ) (hs : xs.Pairwise (· < ·)) (i : Nat) (hi : i + 1 < xs.length) (x : ℚ) (h1 : xs.getD i 0 ≤ x)
    (h2 : x < xs.getD (i + 1) 0) :
    interp xs ys x = ys.getD i 0 + (ys.getD (i + 1) 0 - ys.getD i 0) * (x - xs.getD i 0) / (xs.getD (i + 1) 0 - xs.getD i 0) := by
  have hle : ∀ j k, j < k → k < xs.length → xs.getD j 0 < xs.getD k 0 := by
    intro j k hjk hk
    rw [List.getD_eq_getElem _ _ (by omega), List.getD_eq_getElem _ _ hk]
    exact List.pairwise_iff_getElem.1 hs j k _ _ hjk
  have hf : ((List.range xs.length).filter fun i => decide (xs.getD i 0 ≤ x)) = List.range (i + 1) := by
    apply filter_range_le _ _ _ (by omega)
    · intro j hj
      rcases Nat.lt_or_eq_of_le hj with hj | rfl
      · exact decide_eq_true (le_trans (le_of_lt (hle j i hj (by omega))) h1)
      · exact decide_eq_true h1
    · intro j hj hjn
      refine decide_eq_false (not_le.2 ?_)
      rcases Nat.lt_or_eq_of_le (Nat.succ_le_of_lt hj) with hj | rfl
      · exact lt_trans h2 (hle _ _ hj hjn)
      · exact h2
  have hg : (List.range (i + 1)).getLastD 0 = i := by
    rw [List.range_succ]; simp
  unfold interp
  rw [hf, hg]
  dsimp only
  rw [if_pos hi]

/-- Times asked of a long track are increasing. -/
theorem linspace_sorted (a b : ℚ) (n : Nat) (h : a < b) (hn : 2 ≤ n) : (linspace a b n).Pairwise (· < ·) := by
  unfold linspace
  rw [List.pairwise_map]
  refine List.Pairwise.imp ?_ List.pairwise_lt_range
  intro i j hij
  have h1 : (0 : ℚ) < (n : ℚ) - 1 := by
    have : (2 : ℚ) ≤ n := by exact_mod_cast hn
    linarith
  have h2 : (i : ℚ) < j := by exact_mod_cast hij
  have h3 := div_lt_div_of_pos_right (mul_lt_mul_of_pos_right h2 (sub_pos.2 h)) h1
  linarith

/-- **C64**, violated: with more directions than `max_points`, whatever the track, each time a kept time falls inside a step on which the source crosses the north (azimuth from the last quadrant to the first one), the azimuth of the pointing is between the two on the side of the south: it is outside of the arc which is crossed. -/
theorem bst_north_all_violated (time az el : List ℚ) (last : ℚ) (maxPoints : Nat) (hs : time.Pairwise (· < ·)) (hm : 2 ≤ maxPoints)
    (hl : maxPoints < time.length) (i k : Nat) (hi : i + 1 < time.length) (hk : k + 1 < maxPoints)
    (hx : ∃ x, (linspace (time.headD 0) (time.getLastD 0) maxPoints)[k]? = some x ∧ time.getD i 0 < x ∧ x < time.getD (i + 1) 0)
    (ha : 270 < az.getD i 0) (hb : az.getD (i + 1) 0 < 90) :
    ∃ p x a e, (linspace (time.headD 0) (time.getLastD 0) maxPoints)[k]? = some x ∧ fromBst time az el last maxPoints = .ok p ∧
      p.at x = .ok (some (a, e)) ∧ az.getD (i + 1) 0 < a ∧ a < az.getD i 0 := by
  obtain ⟨x, hkx, h1, h2⟩ := hx
  have hab : time.headD 0 < time.getLastD 0 := by
    have hne : time ≠ [] := by rintro rfl; simp at hl
    rw [List.headD_eq_head?_getD, List.head?_eq_getElem?, List.getLastD_eq_getLast?, List.getLast?_eq_getElem?,
      List.getElem?_eq_getElem (by omega), List.getElem?_eq_getElem (by omega)]
    exact List.pairwise_iff_getElem.1 hs 0 (time.length - 1) _ _ (by omega)
  set xs := linspace (time.headD 0) (time.getLastD 0) maxPoints with hxs
  have hlen : xs.length = maxPoints := by rw [hxs]; simp [linspace]
  have hsort : xs.Pairwise (· < ·) := linspace_sorted _ _ _ hab hm
  have htr : bstTrack time az el last maxPoints = (xs, xs.map (interp time az), xs.map (interp time el)) := by
    unfold bstTrack
    rw [if_neg (by omega), if_pos hl]
  set rows := xs.zip ((xs.map (interp time az)).zip (xs.map (interp time el))) with hrows
  have hfst : rows.map Prod.fst = xs := by
    rw [hrows, List.map_fst_zip]; simp
  have hsnd : rows.map Prod.snd = (xs.map (interp time az)).zip (xs.map (interp time el)) := by
    rw [hrows, List.map_snd_zip]; simp
  obtain ⟨p, hp, hat, -⟩ := closedRows_at rows (by rw [hfst]; exact hsort) x
  have hrl : rows.length = maxPoints := by rw [← hlen, ← hfst, List.length_map]
  have hxk : xs.getD k 0 = x := by rw [List.getD_eq_getElem?_getD, hkx]; rfl
  refine ⟨p, x, interp time az x, interp time el x, hkx, ?_, ?_, ?_⟩
  · unfold fromBst
    rw [htr]
    exact hp
  · rw [hat k (by omega) (by rw [hfst, hxk]) ?_, hsnd]
    · have hz : ((xs.map (interp time az)).zip (xs.map (interp time el)))[k]? = some (interp time az x, interp time el x) :=
        List.getElem?_zip_eq_some.2 ⟨by simp [hkx], by simp [hkx]⟩
      rw [hz]
    · rw [hfst, ← hxk, List.getD_eq_getElem _ _ (by omega), List.getD_eq_getElem _ _ (by omega)]
      exact List.pairwise_iff_getElem.1 hsort k (k + 1) _ _ (by omega)
  · rw [interp_line time az hs i hi x (le_of_lt h1) h2]
    set A := az.getD i 0
    set B := az.getD (i + 1) 0
    have hd : 0 < time.getD (i + 1) 0 - time.getD i 0 := by linarith
    have hr0 : 0 < (x - time.getD i 0) / (time.getD (i + 1) 0 - time.getD i 0) := div_pos (by linarith) hd
    have hr1 : (x - time.getD i 0) / (time.getD (i + 1) 0 - time.getD i 0) < 1 := (div_lt_one hd).2 (by linarith)
    rw [mul_div_assoc]
    constructor <;> nlinarith

example : ∃ x, (linspace 0 3 3)[1]? = some x ∧ (1 : ℚ) < x ∧ x < 2 := ⟨3 / 2, by decide +kernel, by norm_num, by norm_num⟩

end Verif.Astro
