import Verif.IO.Smooth
import Verif.TF.PropsRfi

/-!
# Smoothing of a curve: property C191
-/

namespace Verif.IO.Smooth

open Verif.TF

theorem mem_windowsWith {n w i s : Nat} : s ∈ windowsWith n w i ↔ s < n - w + 1 ∧ s ≤ i ∧ i < s + w := by
  unfold windowsWith
  rw [List.mem_filter, List.mem_range, Bool.and_eq_true, decide_eq_true_iff, decide_eq_true_iff]

theorem mem_window {d : Nat → ℝ} {w s : Nat} {x : ℝ} : x ∈ windowAt d w s ↔ ∃ j, j < w ∧ d (s + j) = x := by
  unfold windowAt
  simp only [List.mem_map, List.mem_range]

theorem window_length (d : Nat → ℝ) (w s : Nat) : (windowAt d w s).length = w := by
  unfold windowAt
  rw [List.length_map, List.length_range]

theorem median_some (l : List ℝ) (h : l ≠ []) : ∃ m, medianBy midReal l = some m := by
  have hp := List.length_pos_iff.2 h
  have hg : ∀ i, i < l.length → ∃ a, (l.insertionSort (· ≤ ·))[i]? = some a := fun i hi =>
    ⟨_, List.getElem?_eq_getElem (by rw [List.length_insertionSort]; exact hi)⟩
  obtain ⟨a, ha⟩ := hg (l.length / 2) (by omega)
  obtain ⟨b, hb⟩ := hg (l.length / 2 - 1) (by omega)
  unfold medianBy
  rw [ha, hb]
  split
  · exact ⟨_, rfl⟩
  · exact ⟨_, rfl⟩

theorem high_iff {n w : Nat} {σ : ℝ} {d : Nat → ℝ} {i : Nat} :
    tooHigh n w σ d i = true ↔ ∃ s, s < n - w + 1 ∧ s ≤ i ∧ i < s + w ∧ ∃ m, windowMed d w s = some m ∧ m + σ * stdOf (windowAt d w s) ≤ d i := by
  unfold tooHigh threshold
  rw [List.any_eq_true]
  constructor
  · rintro ⟨s, hs, h⟩
    obtain ⟨h1, h2, h3⟩ := mem_windowsWith.1 hs
    refine ⟨s, h1, h2, h3, ?_⟩
    cases hm : windowMed d w s with
    | none => rw [hm] at h; cases h
    | some m =>
      rw [hm] at h
      exact ⟨m, rfl, of_decide_eq_true h⟩
  · rintro ⟨s, h1, h2, h3, m, hm, h⟩
    refine ⟨s, mem_windowsWith.2 ⟨h1, h2, h3⟩, ?_⟩
    rw [hm]
    exact decide_eq_true h

/-- Medians of the windows with a sample. -/
theorem mem_around {n w i : Nat} {d : Nat → ℝ} {x : ℝ} (h : x ∈ (windowsWith n w i).filterMap (windowMed d w)) :
    ∃ s, s < n - w + 1 ∧ s ≤ i ∧ i < s + w ∧ windowMed d w s = some x := by
  obtain ⟨s, hs, hx⟩ := List.mem_filterMap.1 h
  obtain ⟨h1, h2, h3⟩ := mem_windowsWith.1 hs
  exact ⟨s, h1, h2, h3, hx⟩

/-- A sample which is replaced takes the median of the medians of its windows. -/
theorem pass_high {n w : Nat} {σ : ℝ} {d : Nat → ℝ} {i : Nat} (h : tooHigh n w σ d i = true) :
    ∃ x, medianBy midReal ((windowsWith n w i).filterMap (windowMed d w)) = some x ∧ smoothPass n w σ d i = x := by
  obtain ⟨s, h1, h2, h3, m, hm, -⟩ := high_iff.1 h
  have hne : (windowsWith n w i).filterMap (windowMed d w) ≠ [] :=
    List.ne_nil_of_mem (List.mem_filterMap.2 ⟨s, mem_windowsWith.2 ⟨h1, h2, h3⟩, hm⟩)
  obtain ⟨x, hx⟩ := median_some _ hne
  refine ⟨x, hx, ?_⟩
  unfold smoothPass
  rw [if_pos h, hx]
  rfl

theorem pass_low {n w : Nat} {σ : ℝ} {d : Nat → ℝ} {i : Nat} (h : tooHigh n w σ d i ≠ true) : smoothPass n w σ d i = d i := by
  unfold smoothPass
  rw [if_neg h]

/-- Any property of numbers kept by the middle of two of them is kept by a pass. -/
theorem pass_keeps (P : ℝ → Prop) (hP : ∀ a b, P a → P b → P (midReal a b)) (n w : Nat) (hw : w ≤ n) (σ : ℝ) (d : Nat → ℝ) (h : ∀ i < n, P (d i)) :
    ∀ i < n, P (smoothPass n w σ d i) := by
  intro i hi
  by_cases hh : tooHigh n w σ d i = true
  · obtain ⟨x, hx, e⟩ := pass_high hh
    rw [e]
    refine medianBy_bound P midReal hP _ ?_ x hx
    intro y hy
    obtain ⟨s, h1, -, -, hm⟩ := mem_around hy
    refine medianBy_bound P midReal hP _ ?_ y hm
    intro z hz
    obtain ⟨j, hj, rfl⟩ := mem_window.1 hz
    exact h _ (by omega)
  · rw [pass_low hh]
    exact h i hi

theorem loop_keeps (P : ℝ → Prop) (hP : ∀ a b, P a → P b → P (midReal a b)) (n : Nat) (σ : ℝ) :
    ∀ (k w : Nat) (d : Nat → ℝ), w ≤ n → (∀ i < n, P (d i)) → ∀ i < n, P (smoothLoop n σ k w d i)
  | 0, _, _, _, h => h
  | k + 1, w, d, hw, h => loop_keeps P hP n σ k (w / 2) _ (by omega) (pass_keeps P hP n w hw σ d h)

/-- **C191**: a window longer than the curve is refused; all other ones are accepted. -/
theorem smooth_refused (n w : Nat) (σ : ℝ) (k : Nat) (d : Nat → ℝ) :
    (n < w → smoothData n w σ k d = .error .indexError) ∧ (w ≤ n → ∃ r, smoothData n w σ k d = .ok r) := by
  unfold smoothData
  exact ⟨fun h => if_pos h, fun h => ⟨_, if_neg (by omega)⟩⟩

/-- **C191**: no value goes out of the range of the curve, whatever the window, the clipping and the number of passes. -/
theorem smooth_bounds (n w : Nat) (σ : ℝ) (k : Nat) (d r : Nat → ℝ) (lo hi : ℝ) (h : smoothData n w σ k d = .ok r) (hd : ∀ i < n, lo ≤ d i ∧ d i ≤ hi) :
    ∀ i < n, lo ≤ r i ∧ r i ≤ hi := by
  unfold smoothData at h
  by_cases hw : n < w
  · rw [if_pos hw] at h; cases h
  · rw [if_neg hw] at h
    injection h with h
    subst h
    refine loop_keeps (fun x => lo ≤ x ∧ x ≤ hi) ?_ n σ k w d (by omega) hd
    intro a b ha hb
    unfold midReal
    constructor <;> linarith [ha.1, ha.2, hb.1, hb.2]

/-- **C191**: a flat curve stays as it is. -/
theorem smooth_flat (n w : Nat) (σ : ℝ) (k : Nat) (d r : Nat → ℝ) (c : ℝ) (h : smoothData n w σ k d = .ok r) (hd : ∀ i < n, d i = c) :
    ∀ i < n, r i = c := fun i hi => by
  obtain ⟨h1, h2⟩ := smooth_bounds n w σ k d r c c h (fun j hj => ⟨(hd j hj).ge, (hd j hj).le⟩) i hi
  exact le_antisymm h2 h1

/-- Sample `i` stands out of the `w` samples from `s` on, by the given number of deviations over their median. -/
def StandsOut (σ : ℝ) (d : Nat → ℝ) (w s i : Nat) : Prop :=
  ∃ m, medianBy midReal ((List.range w).map fun j : Nat => d (s + j)) = some m ∧ m + σ * stdOf ((List.range w).map fun j : Nat => d (s + j)) ≤ d i

/-- **C191**: in one pass, a sample which stands out of none of the windows it is in stays as it is; another one is brought between the smallest and the largest median of
these windows. -/
theorem pass_exact (n w : Nat) (σ : ℝ) (d r : Nat → ℝ) (h : smoothData n w σ 1 d = .ok r) (i : Nat) :
    ((∀ s, s + w ≤ n → s ≤ i → i < s + w → ¬StandsOut σ d w s i) → r i = d i) ∧
    ((∃ s, s + w ≤ n ∧ s ≤ i ∧ i < s + w ∧ StandsOut σ d w s i) → ∀ lo hi : ℝ,
      (∀ s, s + w ≤ n → s ≤ i → i < s + w → ∀ m, medianBy midReal ((List.range w).map fun j : Nat => d (s + j)) = some m → lo ≤ m ∧ m ≤ hi) →
      lo ≤ r i ∧ r i ≤ hi) := by
  unfold smoothData at h
  by_cases hw : n < w
  · rw [if_pos hw] at h; cases h
  rw [if_neg hw] at h
  injection h with h
  have hr : r = smoothPass n w σ d := h.symm
  subst hr
  constructor
  · intro hno
    refine pass_low fun ht => ?_
    obtain ⟨s, h1, h2, h3, m, hm, hle⟩ := high_iff.1 ht
    exact hno s (by omega) h2 h3 ⟨m, hm, hle⟩
  · rintro ⟨s, h1, h2, h3, m, hm, hle⟩ lo hi hb
    obtain ⟨x, hx, e⟩ := pass_high (high_iff (n := n).2 ⟨s, by omega, h2, h3, m, hm, hle⟩)
    rw [e]
    refine medianBy_bound (fun y => lo ≤ y ∧ y ≤ hi) midReal ?_ _ ?_ x hx
    · intro a b ha hb
      unfold midReal
      constructor <;> linarith [ha.1, ha.2, hb.1, hb.2]
    · intro y hy
      obtain ⟨s, h1, h2, h3, hm⟩ := mem_around hy
      exact hb s (by omega) h2 h3 y hm

/-! ## Scales -/

theorem mean_shift (b : ℝ) (l : List ℝ) (h : l ≠ []) : meanOf (l.map (b + ·)) = b + meanOf l := by
  have hs : ∀ l : List ℝ, (l.map (b + ·)).sum = l.length * b + l.sum := by
    intro l
    induction l with
    | nil => simp
    | cons a l ih => rw [List.map_cons, List.sum_cons, List.sum_cons, ih, List.length_cons]; push_cast; ring
  have hp : (0 : ℝ) < l.length := by exact_mod_cast List.length_pos_iff.2 h
  unfold meanOf
  rw [hs, List.length_map, add_div, mul_div_cancel_left₀ _ hp.ne']

theorem std_shift (b : ℝ) (l : List ℝ) : stdOf (l.map (b + ·)) = stdOf l := by
  by_cases h : l = []
  · rw [h]; rfl
  · unfold stdOf
    rw [mean_shift b l h, List.map_map]
    congr 2
    refine List.map_congr_left fun x _ => ?_
    show (b + x - (b + meanOf l)) ^ 2 = _
    ring

theorem window_affine (a b : ℝ) (d : Nat → ℝ) (w s : Nat) : windowAt (fun i => b + a * d i) w s = ((windowAt d w s).map (a * ·)).map (b + ·) := by
  unfold windowAt
  rw [List.map_map, List.map_map]
  rfl

theorem med_affine (a b : ℝ) (ha : 0 < a) (d : Nat → ℝ) (w s : Nat) :
    windowMed (fun i => b + a * d i) w s = (windowMed d w s).map fun x => b + a * x := by
  unfold windowMed
  rw [window_affine, List.map_map]
  refine medianBy_map _ ?_ midReal midReal ?_ _
  · intro x y hxy
    show b + a * x ≤ b + a * y
    nlinarith
  · intro x y
    unfold midReal
    show (b + a * x + (b + a * y)) / 2 = b + a * ((x + y) / 2)
    ring

theorem high_affine (a b : ℝ) (ha : 0 < a) (n w : Nat) (σ : ℝ) (d : Nat → ℝ) (i : Nat) :
    tooHigh n w σ (fun i => b + a * d i) i = tooHigh n w σ d i := by
  have hstd : ∀ s, stdOf (windowAt (fun i => b + a * d i) w s) = a * stdOf (windowAt d w s) := by
    intro s
    rw [window_affine, std_shift, std_scaled a ha]
  rw [Bool.eq_iff_iff, high_iff, high_iff]
  constructor
  · rintro ⟨s, h1, h2, h3, m, hm, h⟩
    rw [med_affine a b ha] at hm
    obtain ⟨x, hx, rfl⟩ := Option.map_eq_some_iff.1 hm
    refine ⟨s, h1, h2, h3, x, hx, ?_⟩
    rw [hstd] at h
    have : a * (x + σ * stdOf (windowAt d w s)) ≤ a * d i := by linarith
    exact le_of_mul_le_mul_left this ha
  · rintro ⟨s, h1, h2, h3, m, hm, h⟩
    refine ⟨s, h1, h2, h3, b + a * m, by rw [med_affine a b ha, hm]; rfl, ?_⟩
    rw [hstd]
    have := mul_le_mul_of_nonneg_left h ha.le
    linarith

theorem pass_affine (a b : ℝ) (ha : 0 < a) (n w : Nat) (σ : ℝ) (d : Nat → ℝ) :
    smoothPass n w σ (fun i => b + a * d i) = fun i => b + a * smoothPass n w σ d i := by
  funext i
  by_cases h : tooHigh n w σ d i = true
  · obtain ⟨x, hx, e⟩ := pass_high h
    obtain ⟨y, hy, e'⟩ := pass_high (by rw [high_affine a b ha]; exact h : tooHigh n w σ (fun i => b + a * d i) i = true)
    rw [e, e']
    have : (windowsWith n w i).filterMap (windowMed (fun i => b + a * d i) w) = ((windowsWith n w i).filterMap (windowMed d w)).map fun x => b + a * x := by
      rw [List.map_filterMap]
      exact List.filterMap_congr fun s _ => med_affine a b ha d w s
    rw [this, medianBy_map (fun x => b + a * x) (fun x y hxy => by show b + a * x ≤ b + a * y; nlinarith) midReal midReal
      (fun x y => by unfold midReal; ring), hx] at hy
    injection hy with hy
    exact hy.symm
  · rw [pass_low h, pass_low (by rw [high_affine a b ha]; exact h)]

theorem loop_affine (a b : ℝ) (ha : 0 < a) (n : Nat) (σ : ℝ) : ∀ (k w : Nat) (d : Nat → ℝ),
    smoothLoop n σ k w (fun i => b + a * d i) = fun i => b + a * smoothLoop n σ k w d i
  | 0, _, _ => rfl
  | k + 1, w, d => by
    show smoothLoop n σ k (w / 2) (smoothPass n w σ fun i => b + a * d i) = _
    rw [pass_affine a b ha, loop_affine a b ha n σ k (w / 2)]
    rfl

/-- **C191**: the gain and the offset of the receiver go through: a curve multiplied by a positive number and shifted is smoothed in the same way. -/
theorem smooth_affine (a b : ℝ) (ha : 0 < a) (n w : Nat) (σ : ℝ) (k : Nat) (d r : Nat → ℝ) (h : smoothData n w σ k d = .ok r) :
    smoothData n w σ k (fun i => b + a * d i) = .ok fun i => b + a * r i := by
  unfold smoothData at h ⊢
  by_cases hw : n < w
  · rw [if_pos hw] at h; cases h
  · rw [if_neg hw] at h ⊢
    injection h with h
    rw [loop_affine a b ha, h]

/-! ## Number of passes -/

theorem pass_small (n w : Nat) (hw : w ≤ 1) (σ : ℝ) (d : Nat → ℝ) : smoothPass n w σ d = d := by
  funext i
  by_cases h : tooHigh n w σ d i = true
  · obtain ⟨x, hx, e⟩ := pass_high h
    rw [e]
    refine medianBy_bound (fun y => y = d i) midReal ?_ _ ?_ x hx
    · rintro p q rfl rfl
      unfold midReal; ring
    · intro y hy
      obtain ⟨s, -, h2, h3, hm⟩ := mem_around hy
      refine medianBy_bound (fun y => y = d i) midReal ?_ _ ?_ y hm
      · rintro p q rfl rfl
        unfold midReal; ring
      · intro z hz
        obtain ⟨j, hj, rfl⟩ := mem_window.1 hz
        congr 1
        omega
  · exact pass_low h

theorem loop_small (n : Nat) (σ : ℝ) : ∀ (k w : Nat) (d : Nat → ℝ), w ≤ 1 → smoothLoop n σ k w d = d
  | 0, _, _, _ => rfl
  | k + 1, w, d, hw => by
    show smoothLoop n σ k (w / 2) (smoothPass n w σ d) = d
    rw [pass_small n w hw, loop_small n σ k (w / 2) d (by omega)]

theorem loop_more (n : Nat) (σ : ℝ) (m : Nat) : ∀ (k w : Nat) (d : Nat → ℝ), w < 2 ^ (k + 1) → smoothLoop n σ (k + m) w d = smoothLoop n σ k w d
  | 0, w, d, hw => by
    rw [Nat.zero_add, loop_small n σ m w d (by omega)]
    rfl
  | k + 1, w, d, hw => by
    rw [Nat.add_right_comm]
    show smoothLoop n σ (k + m) (w / 2) _ = smoothLoop n σ k (w / 2) _
    exact loop_more n σ m k (w / 2) _ (by rw [pow_succ] at hw; omega)

/-- **C191**: asking for more passes than halvings of the window changes nothing: with a window of less than `2 ^ (k + 1)` samples, `k` passes do as much
as any larger number. -/
theorem smooth_passes (n w : Nat) (σ : ℝ) (k m : Nat) (d : Nat → ℝ) (hw : w < 2 ^ (k + 1)) : smoothData n w σ (k + m) d = smoothData n w σ k d := by
  unfold smoothData
  rw [loop_more n σ m k w d hw]

/-! ## Peaks and dips -/

/-- A curve flat but for one sample. -/
def lone (c x : ℝ) (i : Nat) : Nat → ℝ := fun j => if j = i then x else c

theorem lone_window (c x : ℝ) (i w s : Nat) (h1 : s ≤ i) (h2 : i < s + w) : (windowAt (lone c x i) w s).Perm (x :: List.replicate (w - 1) c) := by
  obtain ⟨p, rfl⟩ : ∃ p, i = s + p := ⟨i - s, by omega⟩
  obtain ⟨q, rfl⟩ : ∃ q, w = p + 1 + q := ⟨w - (p + 1), by omega⟩
  have e : windowAt (lone c x (s + p)) (p + 1 + q) s = List.replicate p c ++ x :: List.replicate q c := by
    unfold windowAt
    rw [List.range_add, List.range_succ, List.map_append, List.map_append, List.append_assoc]
    congr 1
    · refine List.eq_replicate_iff.2 ⟨by simp, ?_⟩
      intro y hy
      obtain ⟨j, hj, rfl⟩ := List.mem_map.1 hy
      exact if_neg (by have := List.mem_range.1 hj; omega)
    · show lone c x (s + p) (s + p) :: _ = _
      congr 1
      · exact if_pos rfl
      · refine List.eq_replicate_iff.2 ⟨by simp, ?_⟩
        intro y hy
        obtain ⟨j, hj, rfl⟩ := List.mem_map.1 hy
        obtain ⟨t, -, rfl⟩ := List.mem_map.1 hj
        exact if_neg (by omega)
  rw [e, show p + 1 + q - 1 = p + q by omega, List.replicate_add]
  exact List.perm_middle

theorem flat_window (c x : ℝ) (i w s : Nat) (h : ¬ (s ≤ i ∧ i < s + w)) : ∀ y ∈ windowAt (lone c x i) w s, y = c := by
  intro y hy
  obtain ⟨j, hj, rfl⟩ := mem_window.1 hy
  exact if_neg (by omega)

theorem mid_self (c : ℝ) : midReal c c = c := by unfold midReal; ring

theorem median_lone (c x : ℝ) (w : Nat) (hw : 3 ≤ w) : medianBy midReal (x :: List.replicate (w - 1) c) = some c := by
  rcases le_total c x with hx | hx
  · have hp : (x :: List.replicate (w - 1) c).Perm (List.replicate (w - 1) c ++ [x]) := (List.perm_append_singleton x _).symm
    have hs : (List.replicate (w - 1) c ++ [x]).insertionSort (· ≤ ·) = List.replicate (w - 1) c ++ [x] := by
      refine List.Pairwise.insertionSort_eq ?_
      rw [List.pairwise_append]
      refine ⟨List.pairwise_replicate.2 (Or.inr le_rfl), List.pairwise_singleton _ _, ?_⟩
      intro a ha b hb
      rw [List.eq_of_mem_replicate ha, List.mem_singleton.1 hb]
      exact hx
    have hg : ∀ j, j < w - 1 → (List.replicate (w - 1) c ++ [x])[j]? = some c := by
      intro j hj
      rw [List.getElem?_append_left (by simpa using hj), List.getElem?_replicate, if_pos hj]
    have hl : (List.replicate (w - 1) c ++ [x]).length = w := by simp; omega
    rw [medianBy_perm midReal _ _ hp]
    unfold medianBy
    rw [hs, hl, hg (w / 2) (by omega), hg (w / 2 - 1) (by omega)]
    split
    · rfl
    · exact congrArg some (mid_self c)
  · have hs : (x :: List.replicate (w - 1) c).insertionSort (· ≤ ·) = x :: List.replicate (w - 1) c := by
      refine List.Pairwise.insertionSort_eq ?_
      rw [List.pairwise_cons]
      refine ⟨?_, List.pairwise_replicate.2 (Or.inr le_rfl)⟩
      intro b hb
      rw [List.eq_of_mem_replicate hb]
      exact hx
    have hl : (x :: List.replicate (w - 1) c).length = w := by simp; omega
    by_cases h3 : w = 3
    · subst h3
      unfold medianBy
      rw [hs, hl, if_pos (by decide)]
      rfl
    · have hg : ∀ j, 1 ≤ j → j < w → (x :: List.replicate (w - 1) c)[j]? = some c := by
        intro j h1 hj
        obtain ⟨t, rfl⟩ : ∃ t, j = t + 1 := ⟨j - 1, by omega⟩
        rw [List.getElem?_cons_succ, List.getElem?_replicate, if_pos (by omega)]
      unfold medianBy
      rw [hs, hl, hg (w / 2) (by omega) (by omega), hg (w / 2 - 1) (by omega) (by omega)]
      split
      · rfl
      · exact congrArg some (mid_self c)

theorem med_lone (c x : ℝ) (i w s : Nat) (hw : 3 ≤ w) : windowMed (lone c x i) w s = some c := by
  unfold windowMed
  by_cases h : s ≤ i ∧ i < s + w
  · rw [medianBy_perm midReal _ _ (lone_window c x i w s h.1 h.2), median_lone c x w hw]
  · exact medianBy_const midReal c (mid_self c) _ (List.ne_nil_of_length_pos (by rw [window_length]; omega)) (flat_window c x i w s h)

theorem std_perm {l l' : List ℝ} (h : l.Perm l') : stdOf l = stdOf l' := by
  have hm : ∀ {l l' : List ℝ}, l.Perm l' → meanOf l = meanOf l' := by
    intro l l' h
    unfold meanOf
    rw [h.sum_eq, h.length_eq]
  unfold stdOf
  rw [hm h, hm (h.map _)]

/-- A lone peak stands at least two deviations above the median. -/
theorem std_lone (c h : ℝ) (hh : 0 ≤ h) (w : Nat) (hw : 1 ≤ w) : stdOf ((c + h) :: List.replicate (w - 1) c) ≤ h / 2 := by
  have hw0 : (0 : ℝ) < w := by exact_mod_cast hw
  have hw1 : (((w - 1 : Nat)) : ℝ) = (w : ℝ) - 1 := by rw [Nat.cast_sub hw]; simp
  have hmean : meanOf ((c + h) :: List.replicate (w - 1) c) = c + h / w := by
    unfold meanOf
    rw [List.sum_cons, List.sum_replicate, List.length_cons, List.length_replicate, nsmul_eq_mul, show w - 1 + 1 = w by omega, hw1]
    field_simp
    ring
  unfold stdOf
  rw [hmean, Real.sqrt_le_iff]
  refine ⟨by linarith, ?_⟩
  have e : meanOf (((c + h) :: List.replicate (w - 1) c).map fun x => (x - (c + h / w)) ^ 2) = h ^ 2 * (w - 1) / (w : ℝ) ^ 2 := by
    unfold meanOf
    rw [List.map_cons, List.map_replicate, List.sum_cons, List.sum_replicate, List.length_cons, List.length_replicate, nsmul_eq_mul,
      show w - 1 + 1 = w by omega, hw1]
    field_simp
    ring
  rw [e, div_le_iff₀ (by positivity)]
  nlinarith [mul_nonneg (sq_nonneg h) (sq_nonneg ((w : ℝ) - 2))]

/-- **C191**: a lone peak over a flat curve is removed, whatever its height and its place, for all windows of three samples and more, all clippings up
to two deviations and all numbers of passes but zero. -/
theorem peak_removed (n w : Nat) (hw : 3 ≤ w) (hn : w ≤ n) (σ : ℝ) (hσ : σ ≤ 2) (k : Nat) (c h : ℝ) (hh : 0 ≤ h) (i : Nat) :
    ∃ r, smoothData n w σ (k + 1) (lone c (c + h) i) = .ok r ∧ ∀ j < n, r j = c := by
  refine ⟨_, if_neg (by omega), ?_⟩
  show ∀ j < n, smoothLoop n σ k (w / 2) (smoothPass n w σ (lone c (c + h) i)) j = c
  refine loop_keeps (fun y => y = c) (by rintro p q rfl rfl; exact mid_self _) n σ k (w / 2) _ (by omega) ?_
  intro j hj
  by_cases ht : tooHigh n w σ (lone c (c + h) i) j = true
  · obtain ⟨x, hx, e⟩ := pass_high ht
    rw [e]
    refine medianBy_bound (fun y => y = c) midReal (by rintro p q rfl rfl; exact mid_self _) _ ?_ x hx
    intro y hy
    obtain ⟨s, -, -, -, hm⟩ := mem_around hy
    rw [med_lone c _ i w s hw] at hm
    injection hm with hm
    exact hm.symm
  · rw [pass_low ht]
    by_cases hij : j = i
    · exfalso
      apply ht
      subst hij
      have hs : min j (n - w) ≤ j ∧ j < min j (n - w) + w := by omega
      refine high_iff.2 ⟨min j (n - w), by omega, hs.1, hs.2, c, med_lone c _ j w _ hw, ?_⟩
      rw [std_perm (lone_window c (c + h) j w _ hs.1 hs.2)]
      have h1 := std_lone c h hh w (by omega)
      have h2 := std_nonneg ((c + h) :: List.replicate (w - 1) c)
      show _ ≤ (if j = j then c + h else c)
      rw [if_pos rfl]
      nlinarith
    · exact if_neg hij

/-- **C191**, violated: the smoothing is one-sided. A lone dip, however deep, is left as it is by a pass, for all windows of three samples and more and all clippings. -/
theorem dip_kept_violated (n w : Nat) (hw : 3 ≤ w) (hn : w ≤ n) (σ : ℝ) (hσ : 0 ≤ σ) (c h : ℝ) (hh : 0 < h) (i : Nat) :
    ∃ r, smoothData n w σ 1 (lone c (c - h) i) = .ok r ∧ r i = c - h := by
  refine ⟨_, if_neg (by omega), ?_⟩
  show smoothPass n w σ (lone c (c - h) i) i = c - h
  have hi : lone c (c - h) i i = c - h := if_pos rfl
  rw [pass_low, hi]
  intro ht
  obtain ⟨s, -, -, -, m, hm, hle⟩ := high_iff.1 ht
  rw [med_lone c _ i w s hw] at hm
  injection hm with hm
  rw [hi, ← hm] at hle
  nlinarith [mul_nonneg hσ (std_nonneg (windowAt (lone c (c - h) i) w s))]

example : ∃ r, smoothData 200 150 (3 / 2) 2 (lone 1 (1 + 1000) 77) = .ok r ∧ ∀ j < 200, r j = 1 :=
  peak_removed 200 150 (by decide) (by decide) (3 / 2) (by norm_num) 1 1 1000 (by norm_num) 77

end Verif.IO.Smooth
