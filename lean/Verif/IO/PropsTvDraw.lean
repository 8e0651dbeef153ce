/-
Drawing of a near-field: places of the names, pixels and imprints.
-/
import Verif.IO.TvDraw
import Mathlib.Data.List.GetD
import Mathlib.Tactic.Linarith
import Mathlib.Tactic.Positivity
import Mathlib.Tactic.FieldSimp
import Mathlib.Tactic.Ring
import Mathlib.Tactic.NormNum
import Mathlib.Tactic.IntervalCases

namespace Verif.IO.TvDraw

/-! ## Specifications -/

/-- `k` is the first place, of `N`, where `f` is largest. -/
def FirstMax (N : Nat) (f : Nat → ℝ) (k : Nat) : Prop := k < N ∧ (∀ j < N, f j ≤ f k) ∧ ∀ j < k, f j < f k

/-- Distance of the pixel `k` from the centre, in metres. -/
noncomputable def distance (radius : ℝ) (n k : Nat) : ℝ :=
  Real.sqrt ((-radius + 2 * radius * (k % n : Nat) / (n - 1)) ^ 2 + (-radius + 2 * radius * (k / n : Nat) / (n - 1)) ^ 2)

/-- Weight of a pixel when the name of a source is moved: one for the pixels not farther than the median distance, then falling to zero in the corners. -/
noncomputable def weight (radius : ℝ) (n k : Nat) : ℝ :=
  if distance radius n k ≤ median (n * n) (distance radius n) then 1 else 1 - distance radius n k / (Real.sqrt 2 * radius)

/-- The pixel where the name of a source is written: the brightest one of its imprint, unless it is at the border; then the brightest one after weighting. -/
def Named (radius : ℝ) (n : Nat) (im : Nat → ℝ) (k : Nat) : Prop :=
  ∃ b, FirstMax (n * n) im b ∧ if atBorder n (b % n) (b / n) then FirstMax (n * n) (fun j => weight radius n j * im j) k else k = b

/-! ## Maxima -/

theorem argmaxR_lt (f : Nat → ℝ) : ∀ {n : Nat}, 0 < n → argmaxR f n < n
  | 0, h => absurd h (lt_irrefl 0)
  | 1, _ => by simp [argmaxR]
  | n + 2, _ => by
    have := argmaxR_lt f (n := n + 1) (by omega)
    rw [argmaxR]; split <;> omega

theorem argmaxR_max (f : Nat → ℝ) : ∀ {n j : Nat}, j < n → f j ≤ f (argmaxR f n)
  | 0, _, h => absurd h (by omega)
  | n + 1, j, h => by
    rw [argmaxR]
    rcases Nat.lt_succ_iff_lt_or_eq.mp h with h | rfl
    · have := argmaxR_max f h
      split
      · linarith
      · exact this
    · split
      · exact le_refl _
      · linarith

theorem argmaxR_first (f : Nat → ℝ) : ∀ {n j : Nat}, j < argmaxR f n → f j < f (argmaxR f n)
  | 0, _, h => by simp [argmaxR] at h
  | n + 1, j, h => by
    rw [argmaxR] at h ⊢
    split at h
    · rename_i hlt
      rw [if_pos hlt]
      have := argmaxR_max f h
      linarith
    · rename_i hlt
      rw [if_neg hlt]
      exact argmaxR_first f h

theorem first_argmax {N : Nat} (hN : 0 < N) (f : Nat → ℝ) : FirstMax N f (argmaxR f N) :=
  ⟨argmaxR_lt f hN, fun _ h => argmaxR_max f h, fun _ h => argmaxR_first f h⟩

/-- There is one first place only. -/
theorem first_unique {N : Nat} {f : Nat → ℝ} {a b : Nat} (ha : FirstMax N f a) (hb : FirstMax N f b) : a = b := by
  rcases lt_trichotomy a b with h | h | h
  · exact absurd (hb.2.2 a h) (not_lt.2 (ha.2.1 b hb.1))
  · exact h
  · exact absurd (ha.2.2 b h) (not_lt.2 (hb.2.1 a ha.1))

theorem first_scaled {N : Nat} {f : Nat → ℝ} {k : Nat} {c : ℝ} (hc : 0 < c) : FirstMax N (fun j => f j / c) k ↔ FirstMax N f k := by
  unfold FirstMax
  simp only [div_le_div_iff_of_pos_right hc, div_lt_div_iff_of_pos_right hc]

theorem first_congr {N : Nat} {f g : Nat → ℝ} (h : ∀ j < N, f j = g j) {k : Nat} : FirstMax N f k ↔ FirstMax N g k := by
  unfold FirstMax
  constructor
  · rintro ⟨h1, h2, h3⟩
    refine ⟨h1, fun j hj => ?_, fun j hj => ?_⟩
    · rw [← h j hj, ← h k h1]; exact h2 j hj
    · rw [← h j (by omega), ← h k h1]; exact h3 j hj
  · rintro ⟨h1, h2, h3⟩
    refine ⟨h1, fun j hj => ?_, fun j hj => ?_⟩
    · rw [h j hj, h k h1]; exact h2 j hj
    · rw [h j (by omega), h k h1]; exact h3 j hj

theorem maxR_eq {N : Nat} {f : Nat → ℝ} {m : ℝ} (h : ∀ j < N, f j ≤ m) (k : Nat) (hk : k < N) (hm : f k = m) : maxR f N = m :=
  le_antisymm (h _ (argmaxR_lt f (by omega))) (hm ▸ argmaxR_max f hk)

/-! ## Medians -/

theorem sorted_below (p : ℝ → Bool) (hp : ∀ x y, x ≤ y → p y = true → p x = true) : ∀ (s : List ℝ) (k : Nat), s.Pairwise (· ≤ ·) → (hk : k < s.length) →
    (p s[k] = true ↔ k + 1 ≤ s.countP p)
  | [], _, _, hk => absurd hk (by simp)
  | x :: s, k, hs, hk => by
    have hx := (List.pairwise_cons.1 hs).1
    by_cases h : p x = true
    · rw [List.countP_cons_of_pos h]
      cases k with
      | zero => simp [h]
      | succ k =>
        rw [List.getElem_cons_succ, sorted_below p hp s k (List.pairwise_cons.1 hs).2 (by simpa using hk)]
        omega
    · have h0 : s.countP p = 0 := List.countP_eq_zero.2 fun y hy hpy => h (hp x y (hx y hy) hpy)
      rw [List.countP_cons_of_neg h, h0]
      refine ⟨fun hpk => ?_, fun h => absurd h (by omega)⟩
      cases k with
      | zero => exact absurd hpk h
      | succ k => exact absurd (hp x _ (hx _ (List.getElem_mem _)) hpk) h

/-- The value of rank `k` once sorted. -/
theorem rank_iff (p : ℝ → Bool) (hp : ∀ x y, x ≤ y → p y = true → p x = true) (N : Nat) (d : Nat → ℝ) (k : Nat) (hk : k < N) :
    p ((((List.range N).map d).insertionSort (· ≤ ·)).getD k 0) = true ↔ k + 1 ≤ (List.range N).countP (fun j => p (d j)) := by
  have hl : (((List.range N).map d).insertionSort (· ≤ ·)).length = N := by rw [List.length_insertionSort, List.length_map, List.length_range]
  rw [List.getD_eq_getElem _ _ (by rw [hl]; exact hk), sorted_below p hp _ k (List.pairwise_insertionSort _ _), (List.perm_insertionSort _ _).countP_eq, List.countP_map]
  rfl

theorem rank_le (N : Nat) (d e : Nat → ℝ) (h : ∀ j < N, d j ≤ e j) (k : Nat) (hk : k < N) :
    (((List.range N).map d).insertionSort (· ≤ ·)).getD k 0 ≤ (((List.range N).map e).insertionSort (· ≤ ·)).getD k 0 := by
  generalize hc : (((List.range N).map e).insertionSort (· ≤ ·)).getD k 0 = c
  have hp : ∀ x y : ℝ, x ≤ y → decide (y ≤ c) = true → decide (x ≤ c) = true := fun x y hxy hy => decide_eq_true (hxy.trans (of_decide_eq_true hy))
  have h1 := (rank_iff (fun x => decide (x ≤ c)) hp N e k hk).1 (decide_eq_true (le_of_eq hc))
  refine of_decide_eq_true ((rank_iff (fun x => decide (x ≤ c)) hp N d k hk).2 (h1.trans ?_))
  exact List.countP_mono_left fun j hj hje => decide_eq_true ((h j (List.mem_range.1 hj)).trans (of_decide_eq_true hje))

theorem median_mono {N : Nat} (hN : 0 < N) {d e : Nat → ℝ} (h : ∀ j < N, d j ≤ e j) : median N d ≤ median N e := by
  have h1 := rank_le N d e h ((N - 1) / 2) (by omega)
  have h2 := rank_le N d e h (N / 2) (by omega)
  unfold median
  linarith

theorem rank_zero (N k : Nat) : (((List.range N).map fun _ => (0 : ℝ)).insertionSort (· ≤ ·)).getD k 0 = 0 := by
  by_cases hk : k < N
  · have hl : (((List.range N).map fun _ => (0 : ℝ)).insertionSort (· ≤ ·)).length = N := by rw [List.length_insertionSort, List.length_map, List.length_range]
    rw [List.getD_eq_getElem _ _ (by rw [hl]; exact hk)]
    have := List.mem_insertionSort (· ≤ ·) |>.1 (List.getElem_mem (l := ((List.range N).map fun _ => (0 : ℝ)).insertionSort (· ≤ ·)) (n := k) (by rw [hl]; exact hk))
    obtain ⟨_, _, h⟩ := List.mem_map.1 this
    exact h.symm
  · exact List.getD_eq_default _ _ (by rw [List.length_insertionSort, List.length_map, List.length_range]; omega)

theorem median_nonneg {N : Nat} (hN : 0 < N) {d : Nat → ℝ} (h : ∀ j < N, 0 ≤ d j) : 0 ≤ median N d := by
  have h1 := median_mono hN (d := fun _ => 0) h
  have h2 : median N (fun _ => (0 : ℝ)) = 0 := by
    unfold median
    rw [rank_zero, rank_zero]
    norm_num
  linarith

theorem median_congr {N : Nat} (hN : 0 < N) {d e : Nat → ℝ} (h : ∀ j < N, d j = e j) : median N d = median N e :=
  le_antisymm (median_mono hN fun j hj => (h j hj).le) (median_mono hN fun j hj => (h j hj).ge)

/-- Distances cut once are not cut further. -/
theorem cut_cut {N : Nat} (hN : 0 < N) {d : Nat → ℝ} (h : ∀ j < N, 0 ≤ d j) : cut N (cut N d) = cut N d := by
  have hle : median N (cut N d) ≤ median N d := median_mono hN fun j hj => by
    unfold cut
    split
    · exact h j hj
    · exact le_refl _
  have h0 : 0 ≤ median N (cut N d) := median_nonneg hN fun j hj => by
    unfold cut
    split
    · exact le_refl _
    · exact h j hj
  funext k
  show (if cut N d k ≤ median N (cut N d) then 0 else cut N d k) = cut N d k
  by_cases hk : d k ≤ median N d
  · have e : cut N d k = 0 := if_pos hk
    rw [e, if_pos h0]
  · have e : cut N d k = d k := if_neg hk
    rw [e, if_neg (by linarith [not_le.1 hk])]

/-! ## Distances -/

theorem ground_eq {radius : ℝ} {n : Nat} (hn : 2 ≤ n) (i : Nat) : groundAt radius n i = -radius + 2 * radius * i / (n - 1) := by
  unfold groundAt
  rw [if_neg (by omega)]
  ring

theorem dist_eq {radius : ℝ} {n : Nat} (hn : 2 ≤ n) : distAt radius n = distance radius n := by
  funext k
  unfold distAt distance
  rw [ground_eq hn, ground_eq hn]

theorem dist_nonneg (radius : ℝ) (n k : Nat) : 0 ≤ distance radius n k := Real.sqrt_nonneg _

theorem axis_bound {radius : ℝ} (hr : 0 < radius) {n : Nat} (hn : 2 ≤ n) {i : Nat} (hi : i < n) :
    (-radius + 2 * radius * i / (n - 1)) ^ 2 ≤ radius ^ 2 ∧ ((-radius + 2 * radius * i / (n - 1)) ^ 2 = radius ^ 2 → i = 0 ∨ i = n - 1) := by
  have h1 : (1 : ℝ) ≤ (n : ℝ) - 1 := by
    have : (2 : ℝ) ≤ n := by exact_mod_cast hn
    linarith
  have hi' : (i : ℝ) ≤ (n : ℝ) - 1 := by
    have : ((i + 1 : Nat) : ℝ) ≤ n := by exact_mod_cast hi
    push_cast at this
    linarith
  have h0 : (0 : ℝ) ≤ i := Nat.cast_nonneg i
  have e : (-radius + 2 * radius * i / (n - 1)) ^ 2 = radius ^ 2 - 4 * radius ^ 2 * (i * ((n : ℝ) - 1 - i)) / ((n : ℝ) - 1) ^ 2 := by
    have : (n : ℝ) - 1 ≠ 0 := by linarith
    field_simp
    ring
  have hq : 0 ≤ 4 * radius ^ 2 * (i * ((n : ℝ) - 1 - i)) / ((n : ℝ) - 1) ^ 2 := by
    have : 0 ≤ (n : ℝ) - 1 - i := by linarith
    positivity
  rw [e]
  refine ⟨by linarith, fun h => ?_⟩
  have hz : 4 * radius ^ 2 * (i * ((n : ℝ) - 1 - i)) / ((n : ℝ) - 1) ^ 2 = 0 := by linarith
  have hz2 : 4 * radius ^ 2 * (i * ((n : ℝ) - 1 - i)) = 0 := (div_eq_zero_iff.1 hz).resolve_right (by positivity)
  have hz3 := (mul_eq_zero.1 hz2).resolve_left (by positivity)
  rcases mul_eq_zero.1 hz3 with h2 | h2
  · exact Or.inl (by exact_mod_cast h2)
  · refine Or.inr ?_
    have : ((i + 1 : Nat) : ℝ) = n := by push_cast; linarith
    have := Nat.cast_injective this
    omega

theorem corner (radius : ℝ) (hr : 0 < radius) : Real.sqrt (radius ^ 2 + radius ^ 2) = Real.sqrt 2 * radius := by
  rw [show radius ^ 2 + radius ^ 2 = 2 * radius ^ 2 by ring, Real.sqrt_mul (by norm_num), Real.sqrt_sq hr.le]

theorem dist_le {radius : ℝ} (hr : 0 < radius) {n : Nat} (hn : 2 ≤ n) {k : Nat} (hk : k < n * n) : distance radius n k ≤ Real.sqrt 2 * radius := by
  rw [← corner radius hr]
  exact Real.sqrt_le_sqrt (add_le_add (axis_bound hr hn (Nat.mod_lt _ (by omega))).1 (axis_bound hr hn (Nat.div_lt_of_lt_mul hk)).1)

theorem dist_corner {radius : ℝ} (hr : 0 < radius) {n : Nat} (hn : 2 ≤ n) {k : Nat} (hk : k < n * n) (h : ¬ distance radius n k < Real.sqrt 2 * radius) :
    (k % n = 0 ∨ k % n = n - 1) ∧ (k / n = 0 ∨ k / n = n - 1) := by
  have a := axis_bound hr hn (i := k % n) (Nat.mod_lt _ (by omega))
  have b := axis_bound hr hn (i := k / n) (Nat.div_lt_of_lt_mul hk)
  have h2 : distance radius n k = Real.sqrt (radius ^ 2 + radius ^ 2) := by
    rw [corner radius hr]
    exact le_antisymm (dist_le hr hn hk) (not_lt.1 h)
  unfold distance at h2
  have h3 := (Real.sqrt_inj (by positivity) (by positivity)).1 h2
  exact ⟨a.2 (by linarith [a.1, b.1]), b.2 (by linarith [a.1, b.1])⟩

theorem dist_zero {radius : ℝ} (hr : 0 < radius) (n : Nat) : distance radius n 0 = Real.sqrt 2 * radius := by
  rw [← corner radius hr]
  unfold distance
  rw [Nat.zero_mod, Nat.zero_div]
  simp

/-- Less than half of the pixels are in the corners. -/
theorem median_lt {radius : ℝ} (hr : 0 < radius) {n : Nat} (hn : 3 ≤ n) : median (n * n) (distance radius n) < Real.sqrt 2 * radius := by
  have h9 : 9 ≤ n * n := Nat.mul_le_mul hn hn
  let p : ℝ → Bool := fun x => decide (x < Real.sqrt 2 * radius)
  have hp : ∀ x y : ℝ, x ≤ y → p y = true → p x = true := fun x y hxy hy => decide_eq_true (lt_of_le_of_lt hxy (of_decide_eq_true hy))
  have hc : (List.range (n * n)).countP (fun j => ! p (distance radius n j)) ≤ 4 := by
    rw [List.countP_eq_length_filter]
    have hsub : ((List.range (n * n)).filter fun j => ! p (distance radius n j)) ⊆ [0, n - 1, n * (n - 1), n * (n - 1) + (n - 1)] := by
      intro k hk
      obtain ⟨h1, h2⟩ := List.mem_filter.1 hk
      have h3 : ¬ distance radius n k < Real.sqrt 2 * radius := fun h => by
        have : p (distance radius n k) = true := decide_eq_true h
        rw [this] at h2
        cases h2
      have hd := Nat.div_add_mod k n
      obtain ⟨ha | ha, hb | hb⟩ := dist_corner hr (by omega) (List.mem_range.1 h1) h3 <;> rw [ha, hb] at hd <;> simp only [List.mem_cons]
      · exact Or.inl (by simpa using hd.symm)
      · exact Or.inr (Or.inr (Or.inl (by simpa using hd.symm)))
      · exact Or.inr (Or.inl (by simpa using hd.symm))
      · exact Or.inr (Or.inr (Or.inr (Or.inl hd.symm)))
    exact (List.Nodup.subperm (List.nodup_range.filter _) hsub).length_le
  have hall : (List.range (n * n)).countP (fun j => p (distance radius n j)) + (List.range (n * n)).countP (fun j => ! p (distance radius n j)) = n * n := by
    have := List.length_eq_countP_add_countP (fun j => p (distance radius n j)) (l := List.range (n * n))
    rw [List.length_range] at this
    simp only [Bool.not_eq_true, Bool.decide_eq_false] at this
    exact this.symm
  have h1 : (((List.range (n * n)).map (distance radius n)).insertionSort (· ≤ ·)).getD ((n * n - 1) / 2) 0 < Real.sqrt 2 * radius :=
    of_decide_eq_true ((rank_iff p hp (n * n) (distance radius n) _ (by omega)).2 (by omega))
  let q : ℝ → Bool := fun x => decide (x ≤ Real.sqrt 2 * radius)
  have hq : ∀ x y : ℝ, x ≤ y → q y = true → q x = true := fun x y hxy hy => decide_eq_true (hxy.trans (of_decide_eq_true hy))
  have h2 : (((List.range (n * n)).map (distance radius n)).insertionSort (· ≤ ·)).getD (n * n / 2) 0 ≤ Real.sqrt 2 * radius := by
    refine of_decide_eq_true ((rank_iff q hq (n * n) (distance radius n) _ (by omega)).2 ?_)
    have : (List.range (n * n)).countP (fun j => q (distance radius n j)) = n * n := by
      rw [List.countP_eq_length.2 fun j hj => decide_eq_true (dist_le hr (by omega) (List.mem_range.1 hj)), List.length_range]
    omega
  unfold median
  linarith

/-! ## Names -/

theorem cut_weight {radius : ℝ} (hr : 0 < radius) {n : Nat} (hn : 3 ≤ n) (k : Nat) :
    1 - cut (n * n) (distance radius n) k / maxR (cut (n * n) (distance radius n)) (n * n) = weight radius n k ∧ maxR (cut (n * n) (distance radius n)) (n * n) ≠ 0 := by
  have hpos : 0 < Real.sqrt 2 * radius := by positivity
  have hm : maxR (cut (n * n) (distance radius n)) (n * n) = Real.sqrt 2 * radius := by
    refine maxR_eq (fun j hj => ?_) 0 (by positivity) ?_
    · unfold cut
      split
      · exact hpos.le
      · exact dist_le hr (by omega) hj
    · unfold cut
      rw [dist_zero hr, if_neg (not_le.2 (median_lt hr hn))]
  rw [hm]
  refine ⟨?_, hpos.ne'⟩
  unfold cut weight
  split
  · rw [zero_div, sub_zero]
  · rfl

/-- The distances seen by a source: those of the ground, cut or not by a former source. -/
def Seen (radius : ℝ) (n : Nat) (d : Nat → ℝ) : Prop := d = distance radius n ∨ d = cut (n * n) (distance radius n)

theorem seen_cut {radius : ℝ} {n : Nat} (hn : 3 ≤ n) {d : Nat → ℝ} (h : Seen radius n d) : cut (n * n) d = cut (n * n) (distance radius n) := by
  rcases h with h | h
  · rw [h]
  · rw [h, cut_cut (by positivity) fun j _ => dist_nonneg radius n j]

theorem place_named {radius : ℝ} (hr : 0 < radius) {n : Nat} (hn : 3 ≤ n) {d : Nat → ℝ} (h : Seen radius n d) (im : Nat → ℝ) :
    Named radius n im (place n d im).1 ∧ Seen radius n (place n d im).2 := by
  have hN : 0 < n * n := by positivity
  unfold place
  by_cases hb : atBorder n (argmaxR im (n * n) % n) (argmaxR im (n * n) / n)
  · rw [if_pos hb, seen_cut hn h]
    refine ⟨⟨argmaxR im (n * n), first_argmax hN im, ?_⟩, Or.inr rfl⟩
    rw [if_pos hb]
    show FirstMax _ _ (if maxR (cut (n * n) (distance radius n)) (n * n) = 0 then 0 else _)
    rw [if_neg (cut_weight hr hn 0).2]
    have e : (fun k => (1 - cut (n * n) (distance radius n) k / maxR (cut (n * n) (distance radius n)) (n * n)) * im k) = fun j => weight radius n j * im j := by
      funext k
      rw [(cut_weight hr hn k).1]
    rw [e]
    exact first_argmax hN _
  · rw [if_neg hb]
    exact ⟨⟨argmaxR im (n * n), first_argmax hN im, by rw [if_neg hb]⟩, h⟩

theorem named_scaled {radius : ℝ} {n : Nat} {im : Nat → ℝ} {k : Nat} (hm : 0 < maxR im (n * n)) : Named radius n (normalised (n * n) im) k ↔ Named radius n im k := by
  unfold Named normalised
  have e : (fun j => weight radius n j * (im j / maxR im (n * n))) = fun j => weight radius n j * im j / maxR im (n * n) := by
    funext j
    ring
  simp only [e, first_scaled hm]

/-- There is one pixel only for a name. -/
theorem named_unique {radius : ℝ} {n : Nat} {im : Nat → ℝ} {k l : Nat} (hk : Named radius n im k) (hl : Named radius n im l) : k = l := by
  obtain ⟨a, ha, h1⟩ := hk
  obtain ⟨b, hb, h2⟩ := hl
  cases first_unique ha hb
  by_cases h : atBorder n (a % n) (a / n)
  · rw [if_pos h] at h1 h2
    exact first_unique h1 h2
  · rw [if_neg h] at h1 h2
    rw [h1, h2]

/-- Position of a pixel on the ground. -/
noncomputable def onGround (radius : ℝ) (n k : Nat) : ℝ × ℝ := (-radius + 2 * radius * (k % n : Nat) / (n - 1), -radius + 2 * radius * (k / n : Nat) / (n - 1))

/-- **C188** (names): every source gets one name, in order, written on the ground at the pixel of the specification for its own imprint: it does not depend on the other sources drawn before it,
although they share the array of distances. -/
theorem names_drawn (radius : ℝ) (hr : 0 < radius) (n : Nat) (hn : 3 ≤ n) (sources : List (String × (Nat → ℝ))) (h : ∀ s ∈ sources, 0 < maxR s.2 (n * n)) :
    List.Forall₂ (fun (s : String × (Nat → ℝ)) (l : Label) => l.name = s.1 ∧ ∃ k, Named radius n s.2 k ∧ (l.x, l.y) = onGround radius n k) sources (savePng radius n sources).1 := by
  have key : ∀ (sources : List (String × (Nat → ℝ))) (d : Nat → ℝ), (∀ s ∈ sources, 0 < maxR s.2 (n * n)) → Seen radius n d →
      List.Forall₂ (fun (s : String × (Nat → ℝ)) (l : Label) => l.name = s.1 ∧ ∃ k, Named radius n s.2 k ∧ (l.x, l.y) = onGround radius n k) sources (names radius n d sources).1 := by
    intro sources
    induction sources with
    | nil => intro d _ _; exact List.Forall₂.nil
    | cons s l ih =>
      intro d h hd
      have hp := place_named hr hn hd (normalised (n * n) s.2)
      refine List.Forall₂.cons ⟨rfl, _, (named_scaled (h s List.mem_cons_self)).1 hp.1, ?_⟩ (ih _ (fun t ht => h t (List.mem_cons_of_mem _ ht)) hp.2)
      show (groundAt radius n _, groundAt radius n _) = _
      rw [ground_eq (by omega), ground_eq (by omega)]
      rfl
  exact key sources _ h (Or.inl (dist_eq (by omega)))

/-- **C188** (imprints): the drawing divides every imprint held by the near-field by its maximum. -/
theorem imprints_after (radius : ℝ) (n : Nat) (sources : List (String × (Nat → ℝ))) :
    (savePng radius n sources).2 = sources.map fun s => (s.1, fun k => s.2 k / maxR s.2 (n * n)) := by
  have key : ∀ (sources : List (String × (Nat → ℝ))) (d : Nat → ℝ), (names radius n d sources).2 = sources.map fun s => (s.1, fun k => s.2 k / maxR s.2 (n * n)) := by
    intro sources
    induction sources with
    | nil => intro d; rfl
    | cons s l ih =>
      intro d
      show (s.1, normalised (n * n) s.2) :: (names radius n _ l).2 = _
      rw [ih]
      rfl
  exact key sources _

/-- **C188** (side effect, violated): drawing a near-field changes it: an imprint whose maximum is positive and not one is not the same afterwards, in any pixel where it is not zero; a file
saved after the picture differs from one saved before it. -/
theorem drawing_changes_violated (radius : ℝ) (n : Nat) (name : String) (im : Nat → ℝ) (hm : 0 < maxR im (n * n)) (h1 : maxR im (n * n) ≠ 1) (k : Nat) (hk : im k ≠ 0) :
    ∃ im', (savePng radius n [(name, im)]).2 = [(name, im')] ∧ im' k ≠ im k := by
  refine ⟨fun k => im k / maxR im (n * n), imprints_after radius n _, fun h => h1 ?_⟩
  have h2 : im k / maxR im (n * n) = im k := h
  rw [div_eq_iff hm.ne'] at h2
  have h3 : im k * (maxR im (n * n) - 1) = 0 := by linarith
  have := (mul_eq_zero.1 h3).resolve_left hk
  linarith

theorem max_normalised {N : Nat} {im : Nat → ℝ} (hm : 0 < maxR im N) (hN : 0 < N) : maxR (normalised N im) N = 1 :=
  maxR_eq (fun j hj => (div_le_one hm).2 (argmaxR_max im hj)) (argmaxR im N) (argmaxR_lt im hN) (div_self hm.ne')

/-- **C188** (again): a second drawing changes nothing more, and writes the same names at the same places. -/
theorem drawing_twice (radius : ℝ) (hr : 0 < radius) (n : Nat) (hn : 3 ≤ n) (sources : List (String × (Nat → ℝ))) (h : ∀ s ∈ sources, 0 < maxR s.2 (n * n)) :
    savePng radius n (savePng radius n sources).2 = savePng radius n sources := by
  have hN : 0 < n * n := by positivity
  have e2 : (savePng radius n (savePng radius n sources).2).2 = (savePng radius n sources).2 := by
    rw [imprints_after, imprints_after, List.map_map]
    refine List.map_congr_left fun s hs => ?_
    have := max_normalised (h s hs) hN
    unfold normalised at this
    show (s.1, fun k => (s.2 k / maxR s.2 (n * n)) / maxR (fun k => s.2 k / maxR s.2 (n * n)) (n * n)) = (s.1, fun k => s.2 k / maxR s.2 (n * n))
    rw [this]
    simp only [div_one]
  have e1 : (savePng radius n (savePng radius n sources).2).1 = (savePng radius n sources).1 := by
    have ha := names_drawn radius hr n hn sources h
    have hb := names_drawn radius hr n hn (savePng radius n sources).2 (fun s hs => by
      rw [imprints_after] at hs
      obtain ⟨t, ht, rfl⟩ := List.mem_map.1 hs
      exact lt_of_lt_of_eq one_pos (max_normalised (h t ht) hN).symm)
    rw [imprints_after] at hb ⊢
    rw [List.forall₂_map_left_iff] at hb
    have key : ∀ (l : List (String × (Nat → ℝ))) (a b : List Label), (∀ s ∈ l, 0 < maxR s.2 (n * n)) →
        List.Forall₂ (fun (s : String × (Nat → ℝ)) (l : Label) => l.name = s.1 ∧ ∃ k, Named radius n s.2 k ∧ (l.x, l.y) = onGround radius n k) l a →
        List.Forall₂ (fun (s : String × (Nat → ℝ)) (l : Label) => l.name = s.1 ∧ ∃ k, Named radius n (fun k => s.2 k / maxR s.2 (n * n)) k ∧ (l.x, l.y) = onGround radius n k) l b →
        b = a := by
      intro l
      induction l with
      | nil => intro a b _ ha hb; cases ha; cases hb; rfl
      | cons s l ih =>
        intro a b hm ha hb
        cases ha with
        | cons ha1 ha2 =>
          cases hb with
          | cons hb1 hb2 =>
            rename_i x xs y ys
            rw [ih _ _ (fun t ht => hm t (List.mem_cons_of_mem _ ht)) ha2 hb2]
            obtain ⟨n1, k1, hk1, p1⟩ := ha1
            obtain ⟨n2, k2, hk2, p2⟩ := hb1
            have hk3 : Named radius n s.2 k2 := (named_scaled (hm s List.mem_cons_self)).1 hk2
            cases named_unique hk1 hk3
            have p : (y.x, y.y) = (x.x, x.y) := p2.trans p1.symm
            have e : y = x := by
              cases x; cases y
              simp only [Prod.mk.injEq] at p
              obtain ⟨rfl, rfl⟩ := p
              dsimp only at n1 n2
              rw [n1, n2]
            rw [e]
    exact key sources _ _ h ha hb
  exact Prod.ext e1 e2

/-- **C188** (inside): a source whose brightest pixel is not at the border has its name there. -/
theorem name_inside (radius : ℝ) (n : Nat) (im : Nat → ℝ) (b k : Nat) (hb : FirstMax (n * n) im b) (h : ¬ atBorder n (b % n) (b / n)) (hk : Named radius n im k) : k = b := by
  obtain ⟨c, hc, h2⟩ := hk
  cases first_unique hb hc
  rwa [if_neg h] at h2

/-- **C188** (names at the border, violated): a source seen in one pixel of the border only, not in a corner, keeps its name at the border, although names are to be moved from there. -/
theorem name_border_violated (radius : ℝ) (hr : 0 < radius) (n : Nat) (b : Nat) (hb : b < n * n) (hd : distance radius n b < Real.sqrt 2 * radius) (im : Nat → ℝ)
    (h1 : 0 < im b) (h0 : ∀ j, j ≠ b → im j = 0) (k : Nat) (hk : Named radius n im k) : k = b := by
  have hf : FirstMax (n * n) im b := by
    refine ⟨hb, fun j _ => ?_, fun _ hj => by rw [h0 _ (by omega)]; exact h1⟩
    by_cases e : j = b
    · rw [e]
    · rw [h0 j e]; exact h1.le
  obtain ⟨c, hc, h2⟩ := hk
  cases first_unique hf hc
  by_cases ha : atBorder n (b % n) (b / n)
  · rw [if_pos ha] at h2
    have hpos : 0 < Real.sqrt 2 * radius := by positivity
    have hw : 0 < weight radius n b := by
      unfold weight
      split
      · exact one_pos
      · have := (div_lt_one hpos).2 hd
        linarith
    refine first_unique h2 ⟨hb, fun j _ => ?_, fun j hj => ?_⟩
    · by_cases e : j = b
      · rw [e]
      · show weight radius n j * im j ≤ _
        rw [h0 j e, mul_zero]
        positivity
    · show weight radius n j * im j < _
      rw [h0 j (by omega), mul_zero]
      positivity
  · rwa [if_neg ha] at h2

theorem median_const {N : Nat} (hN : 0 < N) (c : ℝ) : median N (fun _ => c) = c := by
  have key : ∀ k, k < N → (((List.range N).map fun _ => c).insertionSort (· ≤ ·)).getD k 0 = c := by
    intro k hk
    have hl : (((List.range N).map fun _ => c).insertionSort (· ≤ ·)).length = N := by rw [List.length_insertionSort, List.length_map, List.length_range]
    rw [List.getD_eq_getElem _ _ (by rw [hl]; exact hk)]
    have := List.mem_insertionSort (· ≤ ·) |>.1 (List.getElem_mem (l := ((List.range N).map fun _ => c).insertionSort (· ≤ ·)) (n := k) (by rw [hl]; exact hk))
    obtain ⟨_, _, h⟩ := List.mem_map.1 this
    exact h.symm
  unfold median
  rw [key _ (by omega), key _ (by omega)]
  ring

/-- **C188** (four pixels, violated): with two pixels a side all distances are the same and are cut to zero: a name to be moved is written at the first pixel, whatever the imprint. -/
theorem names_four_violated (radius : ℝ) (hr : 0 < radius) (im : Nat → ℝ) (b : Nat) (hb : FirstMax (2 * 2) im b) (h3 : b ≠ 3) : (place 2 (distance radius 2) im).1 = 0 := by
  have h4 : ∀ j < 2 * 2, distance radius 2 j = Real.sqrt 2 * radius := by
    intro j hj
    have hj4 : j < 4 := by omega
    rw [← corner radius hr]
    unfold distance
    congr 1
    interval_cases j <;> norm_num <;> ring
  have hz : ∀ j < 2 * 2, cut (2 * 2) (distance radius 2) j = 0 := by
    intro j hj
    unfold cut
    rw [if_pos]
    rw [median_congr (by norm_num) h4, median_const (by norm_num), h4 j hj]
  have hborder : atBorder 2 (b % 2) (b / 2) := by
    have := hb.1
    have hb4 : b < 4 := by omega
    interval_cases b
    · decide +kernel
    · decide +kernel
    · decide +kernel
    · exact absurd rfl h3
  have e := first_unique (first_argmax (N := 2 * 2) (by norm_num) im) hb
  unfold place
  rw [e, if_pos hborder]
  show (if maxR (cut (2 * 2) (distance radius 2)) (2 * 2) = 0 then 0 else _) = 0
  exact if_pos (hz (argmaxR (cut (2 * 2) (distance radius 2)) (2 * 2)) (argmaxR_lt _ (by norm_num)))

/-- **C188** (sides of the border, violated): the border is not the same on both sides: with a multiple of ten pixels, the column of rank `n / 10` from the left is at the border, that of the same rank
from the right is not. -/
theorem border_sides_violated (m y : Nat) (hm : 0 < m) (hy : m < y ∧ y < 9 * m) : atBorder (10 * m) m y ∧ ¬ atBorder (10 * m) (10 * m - 1 - m) y := by
  have hy1 : ((m : ℚ)) < y := by exact_mod_cast hy.1
  have hy2 : (y : ℚ) < 9 * m := by exact_mod_cast hy.2
  have hx : ((10 * m - 1 - m : Nat) : ℚ) = 9 * m - 1 := by
    rw [show 10 * m - 1 - m = 9 * m - 1 by omega, Nat.cast_sub (by omega)]
    push_cast
    ring
  have hm1 : (1 : ℚ) ≤ m := by exact_mod_cast hm
  have hm2 : ((10 * m : Nat) : ℚ) = 10 * m := by push_cast; ring
  refine ⟨Or.inl (by rw [hm2]; linarith), ?_⟩
  unfold atBorder
  rw [hx, hm2]
  rintro (h | h | h | h)
  · have : 9 * (m : ℚ) - 1 ≤ m := by linarith
    linarith
  · linarith
  · linarith
  · linarith

/-- **C188** (pixels): the cell where a pixel is drawn holds the point of the ground it was computed for, in both directions: the flip of the rows puts the south at the bottom. -/
theorem pixel_cell (radius : ℝ) (hr : 0 < radius) (n : Nat) (hn : 2 ≤ n) (i j : Nat) (hi : i < n) (hj : j < n) :
    (drawnCell radius n i j).1.1 ≤ groundAt radius n j ∧ groundAt radius n j ≤ (drawnCell radius n i j).1.2 ∧
    (drawnCell radius n i j).2.1 ≤ groundAt radius n i ∧ groundAt radius n i ≤ (drawnCell radius n i j).2.2 := by
  have key : ∀ i, i < n → (cell radius n i).1 ≤ groundAt radius n i ∧ groundAt radius n i ≤ (cell radius n i).2 := by
    intro i hi
    have h1 : (0 : ℝ) < (n : ℝ) - 1 := by
      have : (2 : ℝ) ≤ n := by exact_mod_cast hn
      linarith
    have h2 : (i : ℝ) ≤ (n : ℝ) - 1 := by
      have : ((i + 1 : Nat) : ℝ) ≤ n := by exact_mod_cast hi
      push_cast at this
      linarith
    have h0 : (0 : ℝ) ≤ i := Nat.cast_nonneg i
    have hn0 : (0 : ℝ) < n := by linarith
    rw [ground_eq hn]
    unfold cell
    dsimp only
    have e1 : -radius + 2 * radius * i / (n - 1) - (-radius + 2 * radius / n * i) = 2 * radius * i / (n * ((n : ℝ) - 1)) := by
      field_simp
      ring
    have e2 : -radius + 2 * radius / n * (i + 1) - (-radius + 2 * radius * i / (n - 1)) = 2 * radius * ((n : ℝ) - 1 - i) / (n * ((n : ℝ) - 1)) := by
      field_simp
      ring
    have p1 : 0 ≤ 2 * radius * i / (n * ((n : ℝ) - 1)) := by positivity
    have p2 : 0 ≤ 2 * radius * ((n : ℝ) - 1 - i) / (n * ((n : ℝ) - 1)) := by
      have : 0 ≤ (n : ℝ) - 1 - i := by linarith
      positivity
    constructor <;> linarith
  have e : n - 1 - flipud n i = i := by
    unfold flipud
    omega
  unfold drawnCell
  rw [e]
  exact ⟨(key j hj).1, (key j hj).2, (key i hi).1, (key i hi).2⟩

/-- **C188** (centres of pixels, violated): but it is not at the centre of the cell, except in the middle: the shift grows to half a cell at the edges. -/
theorem pixel_shift_violated (radius : ℝ) (n : Nat) (hn : 2 ≤ n) (j : Nat) :
    ((cell radius n j).1 + (cell radius n j).2) / 2 - groundAt radius n j = radius * ((n : ℝ) - 1 - 2 * j) / (n * (n - 1)) ∧
    ((cell radius n 0).1 + (cell radius n 0).2) / 2 - groundAt radius n 0 = ((cell radius n 0).2 - (cell radius n 0).1) / 2 := by
  have h1 : (n : ℝ) - 1 ≠ 0 := by
    have : (2 : ℝ) ≤ n := by exact_mod_cast hn
    intro h
    linarith
  have hn0 : (n : ℝ) ≠ 0 := by
    have : (2 : ℝ) ≤ n := by exact_mod_cast hn
    intro h
    linarith
  rw [ground_eq hn, ground_eq hn]
  unfold cell
  constructor
  · dsimp only
    field_simp
    ring
  · dsimp only
    push_cast
    field_simp
    ring

/-- The hypotheses are met: an image of ten pixels a side with one bright pixel, in the middle of the first row, which is at the border and not in a corner. -/
example : (0 < maxR (fun k : Nat => if k = 5 then (2 : ℝ) else 0) (10 * 10)) ∧ distance 1 10 5 < Real.sqrt 2 * 1 ∧ atBorder 10 (5 % 10) (5 / 10) ∧ ¬ atBorder 10 (55 % 10) (55 / 10) := by
  refine ⟨?_, ?_, by decide +kernel, by decide +kernel⟩
  · have := argmaxR_max (fun k : Nat => if k = 5 then (2 : ℝ) else 0) (n := 10 * 10) (j := 5) (by norm_num)
    exact lt_of_lt_of_le (by norm_num) this
  · unfold distance
    rw [show Real.sqrt 2 * 1 = Real.sqrt 2 from mul_one _]
    apply Real.sqrt_lt_sqrt <;> norm_num

end Verif.IO.TvDraw
