import Verif.Dyn.Clean
import Verif.TF.PropsRfi

/-!
# Removal of interferences from dynamic spectra: property C136
-/

namespace Verif.Dyn

open Verif.TF (medianBy midReal stdOf medianBy_map medianBy_const medianBy_perm medianBy_bound sort_map sort_unique std_scaled std_nonneg std_const)

/-! ## What is removed -/

/-- **Only flags**: a value which is kept is not changed; a value is removed exactly if it is over the limit. -/
theorem clean_exact (nt nf : Nat) (s : ℝ) (hs : 0 < s) (d : Nat → Nat → Option ℝ) (t f : Nat) (x : ℝ) :
    cleaned nt nf s d t f = some x ↔ d t f = some x ∧ ∀ b, background nt nf d t f = some b → x ≤ b + s * stdOf (backValues nt nf d) := by
  unfold cleaned cleanLimit
  rw [if_pos hs]
  rcases background nt nf d t f with _ | b
  · show d t f = some x ↔ _
    exact ⟨fun h => ⟨h, fun b hb => nomatch hb⟩, fun h => h.1⟩
  · show (d t f).filter _ = some x ↔ _
    rw [Option.filter_eq_some_iff]
    constructor
    · rintro ⟨h1, h2⟩
      refine ⟨h1, fun b' hb => ?_⟩
      have e : b = b' := Option.some.inj hb
      subst e
      simpa using h2
    · rintro ⟨h1, h2⟩
      exact ⟨h1, by simpa using h2 b rfl⟩

/-- Without a threshold nothing happens; negative ones are accepted and have no effect either. -/
theorem clean_off (nt nf : Nat) (s : ℝ) (hs : s ≤ 0) (d : Nat → Nat → Option ℝ) (t f : Nat) : cleaned nt nf s d t f = d t f :=
  if_neg (not_lt.2 hs)

/-- The higher the threshold, the more is kept. -/
theorem clean_monotone (nt nf : Nat) (s s' : ℝ) (hs : 0 < s) (hss : s ≤ s') (d : Nat → Nat → Option ℝ) (t f : Nat) (x : ℝ)
    (h : cleaned nt nf s d t f = some x) : cleaned nt nf s' d t f = some x := by
  rw [clean_exact nt nf s hs] at h
  rw [clean_exact nt nf s' (lt_of_lt_of_le hs hss)]
  refine ⟨h.1, fun b hb => (h.2 b hb).trans ?_⟩
  have := mul_le_mul_of_nonneg_right hss (std_nonneg (backValues nt nf d))
  linarith

/-- Polarisations do not influence each other. -/
theorem clean_polarisations (nt nf : Nat) (s : ℝ) (d d' : Nat → Nat → Nat → Option ℝ) (p : Nat) (h : ∀ t f, d t f p = d' t f p) (t f : Nat) :
    cleanAll nt nf s d t f p = cleanAll nt nf s d' t f p := by
  unfold cleanAll
  rw [show (fun t f => d t f p) = fun t f => d' t f p from funext fun t => funext fun f => h t f]

/-! ## Units -/

theorem filterMap_scaled {β : Type} (c : ℝ) (l : List β) (g : β → Option ℝ) : l.filterMap (fun x => (g x).map (c * ·)) = (l.filterMap g).map (c * ·) := by
  rw [List.map_filterMap]

theorem median_scaled (c : ℝ) (hc : 0 < c) (l : List ℝ) : medianBy midReal (l.map (c * ·)) = (medianBy midReal l).map (c * ·) :=
  medianBy_map (fun x => c * x) (fun a b h => mul_le_mul_of_nonneg_left h hc.le) midReal midReal (fun a b => by unfold midReal; ring) l

theorem pct_scaled (c : ℝ) (hc : 0 < c) (l : List ℝ) : pct90 (l.map (c * ·)) = (pct90 l).map (c * ·) := by
  unfold pct90
  rw [sort_map (fun x => c * x) (fun a b h => mul_le_mul_of_nonneg_left h hc.le), List.length_map, List.getElem?_map, List.getElem?_map]
  rcases (l.insertionSort (· ≤ ·))[9 * (l.length - 1) / 10]? with _ | a
  · rfl
  · rcases (l.insertionSort (· ≤ ·))[9 * (l.length - 1) / 10 + 1]? with _ | b
    · show some (c * a + _ / 10 * (c * a - c * a)) = some (c * (a + _ / 10 * (a - a)))
      congr 1; ring
    · show some (c * a + _ / 10 * (c * b - c * a)) = some (c * (a + _ / 10 * (b - a)))
      congr 1; ring

theorem cut_scaled (c : ℝ) (hc : 0 < c) (n : Nat) (p : Nat → Option ℝ) (i : Nat) : cutProfile n (fun i => (p i).map (c * ·)) i = (cutProfile n p i).map (c * ·) := by
  unfold cutProfile
  rw [filterMap_scaled, pct_scaled c hc]
  rcases pct90 ((List.range n).filterMap p) with _ | th
  · rfl
  · show ((p i).map (c * ·)).filter _ = ((p i).filter _).map _
    rcases p i with _ | x
    · rfl
    · show Option.filter (fun x => decide (x ≤ c * th)) (some (c * x)) = (Option.filter (fun x => decide (x ≤ th)) (some x)).map (c * ·)
      by_cases h : x ≤ th
      · have h2 : c * x ≤ c * th := mul_le_mul_of_nonneg_left h hc.le
        rw [Option.filter_some, Option.filter_some, if_pos (decide_eq_true h2), if_pos (decide_eq_true h)]
        rfl
      · have h2 : ¬ c * x ≤ c * th := fun h3 => h (le_of_mul_le_mul_left h3 hc)
        rw [Option.filter_some, Option.filter_some, if_neg (by simpa using h2), if_neg (by simpa using h)]
        rfl

theorem smooth_scaled (c : ℝ) (n : Nat) (p : Nat → Option ℝ) (i : Nat) : smoothed n (fun i => (p i).map (c * ·)) i = (smoothed n p i).map (c * ·) := by
  unfold smoothed
  by_cases h : ∀ j < kernelSize n, p (under n i j) = none
  · rw [if_pos h, if_pos (fun j hj => by show (p (under n i j)).map _ = none; rw [h j hj]; rfl)]
    rfl
  · rw [if_neg h, if_neg (fun h2 => h fun j hj => Option.map_eq_none_iff.1 (h2 j hj))]
    show some _ = some (c * _)
    congr 1
    have e1 : (∑ j ∈ Finset.range (kernelSize n), bell (kernelSize n) j * ((p (under n i j)).map (c * ·)).getD 0) =
        c * ∑ j ∈ Finset.range (kernelSize n), bell (kernelSize n) j * (p (under n i j)).getD 0 := by
      rw [Finset.mul_sum]
      refine Finset.sum_congr rfl fun j _ => ?_
      rcases p (under n i j) with _ | x
      · show _ * (0 : ℝ) = c * (_ * 0)
        ring
      · show _ * (c * x) = c * (_ * x)
        ring
    have e2 : (∑ j ∈ Finset.range (kernelSize n), ((p (under n i j)).map (c * ·)).elim 0 fun _ => bell (kernelSize n) j) =
        ∑ j ∈ Finset.range (kernelSize n), (p (under n i j)).elim 0 fun _ => bell (kernelSize n) j :=
      Finset.sum_congr rfl fun j _ => by rcases p (under n i j) with _ | x <;> rfl
    rw [e1, e2, mul_div_assoc]

theorem top_scaled (c : ℝ) (hc : 0 < c) (l : List ℝ) : nanTop (l.map (c * ·)) = (nanTop l).map (c * ·) := by
  induction l with
  | nil => rfl
  | cons x l ih =>
    show some ((nanTop (l.map (c * ·))).elim (c * x) fun y => max (c * x) y) = (some ((nanTop l).elim x fun y => max x y)).map (c * ·)
    rw [ih]
    rcases nanTop l with _ | y
    · rfl
    · show some (max (c * x) (c * y)) = some (c * max x y)
      rw [mul_max_of_nonneg _ _ hc.le]

/-- The same data in another unit. -/
def inUnit (c : ℝ) (d : Nat → Nat → Option ℝ) (t f : Nat) : Option ℝ := (d t f).map (c * ·)

theorem freq_scaled (c : ℝ) (hc : 0 < c) (nt nf : Nat) (d : Nat → Nat → Option ℝ) (f : Nat) :
    freqSmooth nt nf (inUnit c d) f = (freqSmooth nt nf d f).map (c * ·) := by
  unfold freqSmooth
  have h1 : freqMed nt (inUnit c d) = fun f => (freqMed nt d f).map (c * ·) := by
    funext f
    unfold freqMed inUnit
    rw [filterMap_scaled, median_scaled c hc]
  rw [h1, show cutProfile nf (fun f => (freqMed nt d f).map (c * ·)) = fun i => (cutProfile nf (freqMed nt d) i).map (c * ·) from
    funext fun i => cut_scaled c hc nf _ i, smooth_scaled]

theorem time_scaled (c : ℝ) (hc : 0 < c) (nt nf : Nat) (d : Nat → Nat → Option ℝ) (t : Nat) :
    timeSmooth nt nf (inUnit c d) t = (timeSmooth nt nf d t).map (c * ·) := by
  unfold timeSmooth
  have h1 : timeMed nf (inUnit c d) = fun f => (timeMed nf d f).map (c * ·) := by
    funext f
    unfold timeMed inUnit
    rw [filterMap_scaled, median_scaled c hc]
  rw [h1, show cutProfile nt (fun f => (timeMed nf d f).map (c * ·)) = fun i => (cutProfile nt (timeMed nf d) i).map (c * ·) from
    funext fun i => cut_scaled c hc nt _ i, smooth_scaled]

theorem back_scaled (c : ℝ) (hc : 0 < c) (nt nf : Nat) (d : Nat → Nat → Option ℝ) (t f : Nat) :
    background nt nf (inUnit c d) t f = (background nt nf d t f).map (c * ·) := by
  unfold background
  rw [freq_scaled c hc, time_scaled c hc, show timeSmooth nt nf (inUnit c d) = fun t => (timeSmooth nt nf d t).map (c * ·) from
    funext fun t => time_scaled c hc nt nf d t, filterMap_scaled, top_scaled c hc]
  rcases freqSmooth nt nf d f with _ | a
  · rfl
  · rcases timeSmooth nt nf d t with _ | b
    · rfl
    · rcases nanTop ((List.range nt).filterMap (timeSmooth nt nf d)) with _ | M
      · rfl
      · by_cases hM : M = 0
        · have h2 : c * M = 0 := by rw [hM, mul_zero]
          show (if c * M = 0 then none else some (c * a * (c * b / (c * M)))) = (if M = 0 then none else some (a * (b / M))).map (c * ·)
          rw [if_pos h2, if_pos hM]
          rfl
        · have h2 : ¬ c * M = 0 := mul_ne_zero hc.ne' hM
          show (if c * M = 0 then none else some (c * a * (c * b / (c * M)))) = (if M = 0 then none else some (a * (b / M))).map (c * ·)
          rw [if_neg h2, if_neg hM, mul_div_mul_left _ _ hc.ne', mul_assoc]
          rfl

theorem values_scaled (c : ℝ) (hc : 0 < c) (nt nf : Nat) (d : Nat → Nat → Option ℝ) : backValues nt nf (inUnit c d) = (backValues nt nf d).map (c * ·) := by
  unfold backValues
  rw [List.map_flatMap]
  refine List.flatMap_congr fun t _ => ?_
  rw [← filterMap_scaled]
  refine List.filterMap_congr fun f _ => ?_
  exact back_scaled c hc nt nf d t f

/-- **The unit of the data does not matter**: the same values are removed, whatever the gain. -/
theorem clean_unit (c : ℝ) (hc : 0 < c) (nt nf : Nat) (s : ℝ) (d : Nat → Nat → Option ℝ) (t f : Nat) :
    cleaned nt nf s (inUnit c d) t f = (cleaned nt nf s d t f).map (c * ·) := by
  by_cases hs : 0 < s
  · unfold cleaned cleanLimit
    rw [if_pos hs, if_pos hs, back_scaled c hc, values_scaled c hc, std_scaled c hc]
    rcases background nt nf d t f with _ | b
    · rfl
    · show ((d t f).map (c * ·)).filter (fun x => !decide (c * b + s * (c * stdOf (backValues nt nf d)) < x)) =
        ((d t f).filter fun x => !decide (b + s * stdOf (backValues nt nf d) < x)).map (c * ·)
      rcases d t f with _ | x
      · rfl
      · show Option.filter _ (some (c * x)) = _
        have e : c * b + s * (c * stdOf (backValues nt nf d)) = c * (b + s * stdOf (backValues nt nf d)) := by ring
        rw [e, Option.filter_some, Option.filter_some]
        by_cases h : b + s * stdOf (backValues nt nf d) < x
        · have h2 : c * (b + s * stdOf (backValues nt nf d)) < c * x := mul_lt_mul_of_pos_left h hc
          rw [if_neg (by simpa using h2), if_neg (by simpa using h)]
          rfl
        · have h2 : ¬ c * (b + s * stdOf (backValues nt nf d)) < c * x := fun h3 => h (lt_of_mul_lt_mul_left h3 hc.le)
          rw [if_pos (by simpa using h2), if_pos (by simpa using h)]
          rfl
  · rw [clean_off nt nf s (not_lt.1 hs), clean_off nt nf s (not_lt.1 hs)]
    rfl

/-! ## Flat backgrounds -/

theorem bell_pos (k j : Nat) : 0 < bell k j := Real.exp_pos _

theorem kernel_pos (n : Nat) (hn : 0 < n) : 0 < kernelSize n := by
  unfold kernelSize
  split_ifs <;> omega

/-- The mean of equal values. -/
theorem smooth_flat (n : Nat) (p : Nat → Option ℝ) (m : ℝ) (h : ∀ i < n, p i = some m ∨ p i = none) (i : Nat) (j : Nat) (hj : j < kernelSize n)
    (hn : 0 < n) (hp : p (under n i j) = some m) : smoothed n p i = some m := by
  have hu : ∀ j, under n i j < n := fun j => by unfold under; omega
  unfold smoothed
  rw [if_neg (fun h2 => by have := h2 j hj; rw [hp] at this; exact nomatch this)]
  congr 1
  have e1 : (∑ j ∈ Finset.range (kernelSize n), bell (kernelSize n) j * (p (under n i j)).getD 0) =
      m * ∑ j ∈ Finset.range (kernelSize n), (p (under n i j)).elim 0 fun _ => bell (kernelSize n) j := by
    rw [Finset.mul_sum]
    refine Finset.sum_congr rfl fun j _ => ?_
    rcases h _ (hu j) with h2 | h2
    · rw [h2]; exact mul_comm _ _
    · rw [h2]; show _ * (0 : ℝ) = m * 0; ring
  have hpos : 0 < ∑ j ∈ Finset.range (kernelSize n), (p (under n i j)).elim 0 fun _ => bell (kernelSize n) j := by
    refine Finset.sum_pos' (fun k _ => ?_) ⟨j, Finset.mem_range.2 hj, ?_⟩
    · rcases p (under n i k) with _ | x
      · exact le_refl _
      · exact (bell_pos _ _).le
    · rw [hp]; exact bell_pos _ _
  rw [e1, mul_div_assoc, div_self hpos.ne', mul_one]

theorem top_const (m : ℝ) : ∀ (l : List ℝ), l ≠ [] → (∀ x ∈ l, x = m) → nanTop l = some m
  | [], h, _ => absurd rfl h
  | x :: l, _, h => by
    have hx := h x List.mem_cons_self
    show some ((nanTop l).elim x fun y => max x y) = some m
    by_cases hl : l = []
    · rw [hl, hx]; rfl
    · rw [top_const m l hl fun y hy => h y (List.mem_cons_of_mem _ hy), hx]
      show some (max m m) = some m
      rw [max_self]

/-- With flat profiles the background is flat. -/
theorem back_flat (nt nf : Nat) (hnt : 0 < nt) (d : Nat → Nat → Option ℝ) (a b : ℝ) (hb : b ≠ 0) (hf : ∀ f < nf, freqSmooth nt nf d f = some a)
    (ht : ∀ t < nt, timeSmooth nt nf d t = some b) : ∀ t < nt, ∀ f < nf, background nt nf d t f = some a := by
  intro t htt f hff
  have hl : (List.range nt).filterMap (timeSmooth nt nf d) = (List.range nt).map fun _ => b := by
    rw [List.filterMap_congr (g := fun _ => some b) fun t ht2 => ht t (List.mem_range.1 ht2)]
    exact List.filterMap_eq_map' (f := fun _ : Nat => b) |>.symm ▸ rfl
  unfold background
  rw [hf f hff, ht t htt, hl, top_const b _ (by simp; omega) (by simp)]
  show (if b = 0 then none else some (a * (b / b))) = some a
  rw [if_neg hb, div_self hb, mul_one]

/-- **Flat background**: its deviation is nought, so that whatever the threshold all that is over the background is removed, and nothing else. -/
theorem clean_flat (nt nf : Nat) (d : Nat → Nat → Option ℝ) (a : ℝ) (h : ∀ t < nt, ∀ f < nf, background nt nf d t f = some a) (s : ℝ) (hs : 0 < s)
    (t f : Nat) (ht : t < nt) (hf : f < nf) (x : ℝ) : cleaned nt nf s d t f = some x ↔ d t f = some x ∧ x ≤ a := by
  have h0 : stdOf (backValues nt nf d) = 0 := by
    apply std_const a
    intro y hy
    unfold backValues at hy
    obtain ⟨t', ht', hy⟩ := List.mem_flatMap.1 hy
    obtain ⟨f', hf', hy⟩ := List.mem_filterMap.1 hy
    rw [h t' (List.mem_range.1 ht') f' (List.mem_range.1 hf')] at hy
    exact (Option.some.inj hy).symm
  rw [clean_exact nt nf s hs, h0, h t ht f hf, mul_zero]
  constructor
  · rintro ⟨h1, h2⟩
    have := h2 a rfl
    rw [add_zero] at this
    exact ⟨h1, this⟩
  · rintro ⟨h1, h2⟩
    refine ⟨h1, fun b hb => ?_⟩
    rw [← Option.some.inj hb, add_zero]
    exact h2

/-! ## The profiles -/

/-- At most a tenth of a profile is taken for interferences (rounded up). -/
theorem cut_tenth (l : List ℝ) (th : ℝ) (h : pct90 l = some th) : l.countP (fun x => decide (th < x)) ≤ (l.length + 8) / 10 := by
  unfold pct90 at h
  obtain ⟨a, ha, rfl⟩ := Option.map_eq_some_iff.1 h
  have hlen : (l.insertionSort (· ≤ ·)).length = l.length := List.length_insertionSort _ _
  obtain ⟨hlt, hae⟩ := List.getElem?_eq_some_iff.1 ha
  have hsort := List.pairwise_iff_getElem.1 (List.pairwise_insertionSort (· ≤ ·) l)
  set lo := 9 * (l.length - 1) / 10 with hlo
  set th := a + ((9 * (l.length - 1) % 10 : Nat) : ℝ) / 10 * (((l.insertionSort (· ≤ ·))[lo + 1]?).getD a - a) with hth
  have hge : a ≤ th := by
    have h0 : 0 ≤ ((l.insertionSort (· ≤ ·))[lo + 1]?).getD a - a := by
      rcases hb : (l.insertionSort (· ≤ ·))[lo + 1]? with _ | b
      · show 0 ≤ a - a
        linarith
      · obtain ⟨hb1, hb2⟩ := List.getElem?_eq_some_iff.1 hb
        have := hsort lo (lo + 1) hlt hb1 (by omega)
        rw [hae, hb2] at this
        show 0 ≤ b - a
        linarith
    have : 0 ≤ ((9 * (l.length - 1) % 10 : Nat) : ℝ) / 10 * (((l.insertionSort (· ≤ ·))[lo + 1]?).getD a - a) := mul_nonneg (by positivity) h0
    linarith
  rw [← (List.perm_insertionSort (· ≤ ·) l).countP_eq, ← List.take_append_drop (lo + 1) (l.insertionSort (· ≤ ·)), List.countP_append]
  have h1 : ((l.insertionSort (· ≤ ·)).take (lo + 1)).countP (fun x => decide (th < x)) = 0 := by
    rw [List.countP_eq_zero]
    intro x hx
    obtain ⟨i, hi, rfl⟩ := List.mem_iff_getElem.1 hx
    rw [List.length_take] at hi
    rw [List.getElem_take, decide_eq_true_eq, not_lt]
    refine le_trans ?_ hge
    rw [← hae]
    rcases Nat.lt_or_ge i lo with h2 | h2
    · exact hsort i lo (by omega) hlt h2
    · have : i = lo := by omega
      subst this
      exact le_refl _
  have h2 := List.countP_le_length (p := fun x => decide (th < x)) (l := (l.insertionSort (· ≤ ·)).drop (lo + 1))
  rw [List.length_drop, hlen] at h2
  rw [h1]
  omega

/-- The smoothing of a single value is a Gaussian whose standard deviation is an eighth of the kernel, which covers a fifth of the profile. -/
theorem smooth_impulse (n i0 i : Nat) (x : ℝ) (hi0 : 0 < i0) (hi1 : i0 + 1 < n) (hin : i < n) (hk : i ≤ i0 + kernelSize n / 2) (hk2 : i0 ≤ i + kernelSize n / 2) :
    ∃ z : ℝ, 0 < z ∧ (n : ℝ) ≤ 5 * kernelSize n ∧ (5 * kernelSize n : ℝ) < n + 10 ∧
      smoothed n (fun j => some (if j = i0 then x else 0)) i = some (x * Real.exp (-((i0 : ℝ) - i) ^ 2 / (2 * ((kernelSize n : ℝ) / 8) ^ 2)) / z) := by
  have hodd : kernelSize n % 2 = 1 := by unfold kernelSize; split_ifs <;> omega
  have hb1 : n ≤ 5 * kernelSize n := by unfold kernelSize; split_ifs <;> omega
  have hb2 : 5 * kernelSize n < n + 10 := by unfold kernelSize; split_ifs <;> omega
  refine ⟨∑ j ∈ Finset.range (kernelSize n), bell (kernelSize n) j, ?_, by exact_mod_cast hb1, by exact_mod_cast hb2, ?_⟩
  · exact Finset.sum_pos (fun j _ => bell_pos _ _) ⟨0, Finset.mem_range.2 (by omega)⟩
  · unfold smoothed
    rw [if_neg (fun h => nomatch h 0 (by omega))]
    congr 1
    have hj : i0 + kernelSize n / 2 - i < kernelSize n := by omega
    have e : (∑ j ∈ Finset.range (kernelSize n), bell (kernelSize n) j * ((some (if under n i j = i0 then x else 0) : Option ℝ)).getD 0) =
        bell (kernelSize n) (i0 + kernelSize n / 2 - i) * x := by
      rw [Finset.sum_eq_single_of_mem (i0 + kernelSize n / 2 - i) (Finset.mem_range.2 hj)]
      · have : under n i (i0 + kernelSize n / 2 - i) = i0 := by unfold under; omega
        rw [if_pos this]
        rfl
      · intro j hj2 hne
        have : under n i j ≠ i0 := by unfold under; omega
        rw [if_neg this]
        exact mul_zero _
    rw [e]
    show bell _ _ * x / (∑ j ∈ Finset.range (kernelSize n), bell (kernelSize n) j) = _
    congr 1
    rw [mul_comm]
    congr 1
    unfold bell
    have : ((i0 + kernelSize n / 2 - i : Nat) : ℝ) - (kernelSize n / 2 : Nat) = (i0 : ℝ) - i := by
      rw [Nat.cast_sub (by omega), Nat.cast_add]
      ring
    rw [this]

/-! ## One contaminated channel, one burst -/

/-- A profile with one value apart. -/
def OnePeak (n i0 : Nat) (m M : ℝ) (p : Nat → Option ℝ) : Prop := p i0 = some M ∧ ∀ i < n, i ≠ i0 → p i = some m

theorem peak_perm (n i0 : Nat) (m M : ℝ) (p : Nat → Option ℝ) (hi : i0 < n) (h : OnePeak n i0 m M p) :
    ((List.range n).filterMap p).Perm (List.replicate (n - 1) m ++ [M]) := by
  have h1 : (List.range n).Perm (i0 :: (List.range n).erase i0) := List.perm_cons_erase (List.mem_range.2 hi)
  refine (h1.filterMap p).trans ?_
  rw [List.filterMap_cons_some h.1]
  have h2 : ((List.range n).erase i0).filterMap p = List.replicate (n - 1) m := by
    have h3 : ((List.range n).erase i0).length = n - 1 := by rw [List.length_erase_of_mem (List.mem_range.2 hi), List.length_range]
    rw [List.filterMap_congr (g := fun _ => some m) fun i hi2 => ?_]
    · have : (fun _ : Nat => some m) = some ∘ fun _ => m := rfl
      rw [this, List.filterMap_eq_map, List.map_const', h3]
    · have := (List.Nodup.mem_erase_iff List.nodup_range).1 hi2
      exact h.2 i (List.mem_range.1 this.2) this.1
  rw [h2]
  exact (List.perm_append_singleton _ _).symm

theorem peak_sorted (n : Nat) (m M : ℝ) (hmM : m ≤ M) : (List.replicate n m ++ [M]).insertionSort (· ≤ ·) = List.replicate n m ++ [M] := by
  refine List.Pairwise.insertionSort_eq (List.pairwise_append.2 ⟨List.pairwise_replicate.2 (Or.inr (le_refl _)), List.pairwise_singleton _ _, ?_⟩)
  intro a ha b hb
  rw [List.eq_of_mem_replicate ha, List.mem_singleton.1 hb]
  exact hmM

theorem peak_get (n i : Nat) (m M : ℝ) (hi : i < n) : (List.replicate n m ++ [M])[i]? = some m := by
  rw [List.getElem?_append_left (by rwa [List.length_replicate]), List.getElem?_replicate_of_lt hi]

theorem peak_last (n : Nat) (m M : ℝ) : (List.replicate n m ++ [M])[n]? = some M := by
  rw [List.getElem?_append_right (by rw [List.length_replicate]), List.length_replicate, Nat.sub_self]
  rfl

theorem pct_perm (l l' : List ℝ) (h : l.Perm l') : pct90 l = pct90 l' := by
  unfold pct90
  rw [sort_unique l l' h, h.length_eq]

theorem pct_peak (n : Nat) (hn : 1 ≤ n) (m M : ℝ) (hmM : m < M) : ∃ th, pct90 (List.replicate n m ++ [M]) = some th ∧ m ≤ th ∧ th < M := by
  have hl : (List.replicate n m ++ [M]).length - 1 = n := by simp
  have hlt : 9 * n / 10 < n := by omega
  have hr : 9 * n % 10 ≤ 9 := by omega
  refine ⟨m + ((9 * n % 10 : Nat) : ℝ) / 10 * (((List.replicate n m ++ [M])[9 * n / 10 + 1]?).getD m - m), ?_, ?_⟩
  · unfold pct90
    rw [peak_sorted n m M hmM.le, hl, peak_get n _ m M hlt]
    rfl
  · have hr2 : ((9 * n % 10 : Nat) : ℝ) ≤ 9 := by exact_mod_cast hr
    have hr0 : (0 : ℝ) ≤ ((9 * n % 10 : Nat) : ℝ) := Nat.cast_nonneg _
    rcases Nat.lt_or_ge (9 * n / 10 + 1) n with h | h
    · rw [peak_get n _ m M h]
      show m ≤ m + _ * (m - m) ∧ m + _ * (m - m) < M
      rw [sub_self, mul_zero, add_zero]
      exact ⟨le_refl _, hmM⟩
    · have h2 : 9 * n / 10 + 1 = n := by omega
      rw [h2, peak_last]
      show m ≤ m + _ * (M - m) ∧ m + _ * (M - m) < M
      constructor
      · have : 0 ≤ ((9 * n % 10 : Nat) : ℝ) / 10 * (M - m) := mul_nonneg (by positivity) (by linarith)
        linarith
      · have : ((9 * n % 10 : Nat) : ℝ) / 10 * (M - m) ≤ 9 / 10 * (M - m) := mul_le_mul_of_nonneg_right (by linarith) (by linarith)
        linarith

/-- The value apart is taken out of the profile, the others stay. -/
theorem cut_peak (n i0 : Nat) (m M : ℝ) (p : Nat → Option ℝ) (hn : 2 ≤ n) (hi : i0 < n) (hmM : m < M) (h : OnePeak n i0 m M p) :
    cutProfile n p i0 = none ∧ ∀ i < n, i ≠ i0 → cutProfile n p i = some m := by
  obtain ⟨th, h1, h2, h3⟩ := pct_peak (n - 1) (by omega) m M hmM
  have hp : pct90 ((List.range n).filterMap p) = some th := by rw [pct_perm _ _ (peak_perm n i0 m M p hi h), h1]
  unfold cutProfile
  rw [hp]
  constructor
  · show (p i0).filter _ = none
    rw [h.1, Option.filter_some, if_neg]
    simpa using h3
  · intro i hin hne
    show (p i).filter _ = some m
    rw [h.2 i hin hne, Option.filter_some, if_pos]
    simpa using h2

theorem cut_flat (n : Nat) (m : ℝ) (p : Nat → Option ℝ) (h : ∀ i < n, p i = some m) : ∀ i < n, cutProfile n p i = some m := by
  intro i hi
  have hl : (List.range n).filterMap p = List.replicate n m := by
    rw [List.filterMap_congr (g := fun _ => some m) fun i hi2 => h i (List.mem_range.1 hi2)]
    have : (fun _ : Nat => some m) = some ∘ fun _ => m := rfl
    rw [this, List.filterMap_eq_map, List.map_const', List.length_range]
  have hs : (List.replicate n m).insertionSort (· ≤ ·) = List.replicate n m :=
    List.Pairwise.insertionSort_eq (List.pairwise_replicate.2 (Or.inr (le_refl _)))
  have hp : pct90 ((List.range n).filterMap p) = some m := by
    rw [hl]
    unfold pct90
    rw [hs, List.length_replicate, List.getElem?_replicate_of_lt (show 9 * (n - 1) / 10 < n by omega)]
    show some (m + _ * (((List.replicate n m)[9 * (n - 1) / 10 + 1]?).getD m - m)) = some m
    have : ((List.replicate n m)[9 * (n - 1) / 10 + 1]?).getD m = m := by
      rw [List.getElem?_replicate]
      split_ifs <;> rfl
    rw [this, sub_self, mul_zero, add_zero]
  unfold cutProfile
  rw [hp]
  show (p i).filter _ = some m
  rw [h i hi, Option.filter_some, if_pos]
  simp

theorem median_peak (n i0 : Nat) (m M : ℝ) (p : Nat → Option ℝ) (hn : 3 ≤ n) (hi : i0 < n) (hmM : m ≤ M) (h : OnePeak n i0 m M p) :
    medianBy midReal ((List.range n).filterMap p) = some m := by
  rw [medianBy_perm _ _ _ (peak_perm n i0 m M p hi h)]
  have hl : (List.replicate (n - 1) m ++ [M]).length = n := by simp; omega
  unfold medianBy
  rw [peak_sorted _ m M hmM, hl, peak_get _ (n / 2) m M (by omega), peak_get _ (n / 2 - 1) m M (by omega)]
  split_ifs
  · rfl
  · show some (midReal m m) = some m
    unfold midReal
    congr 1; ring

theorem median_flat (n : Nat) (m : ℝ) (p : Nat → Option ℝ) (hn : 0 < n) (h : ∀ i < n, p i = some m) :
    medianBy midReal ((List.range n).filterMap p) = some m := by
  refine medianBy_const _ m (by unfold midReal; ring) _ ?_ ?_
  · intro h0
    have := List.filterMap_eq_nil_iff.1 h0 0 (List.mem_range.2 hn)
    rw [h 0 hn] at this
    exact nomatch this
  · intro x hx
    obtain ⟨i, hi, hx⟩ := List.mem_filterMap.1 hx
    rw [h i (List.mem_range.1 hi)] at hx
    exact (Option.some.inj hx).symm

theorem median_over (n : Nat) (m : ℝ) (M : Nat → ℝ) (p : Nat → Option ℝ) (hn : 0 < n) (hM : ∀ i < n, m < M i) (h : ∀ i < n, p i = some (M i)) :
    ∃ M', medianBy midReal ((List.range n).filterMap p) = some M' ∧ m < M' := by
  have hl : (List.range n).filterMap p = (List.range n).map M := by
    rw [List.filterMap_congr (g := some ∘ M) fun i hi2 => h i (List.mem_range.1 hi2), List.filterMap_eq_map]
  have hs : ∃ M', medianBy midReal ((List.range n).filterMap p) = some M' := by
    have hlen : (((List.range n).map M).insertionSort (· ≤ ·)).length = n := by rw [List.length_insertionSort, List.length_map, List.length_range]
    rw [hl]
    unfold medianBy
    rw [List.length_map, List.length_range, List.getElem?_eq_getElem (i := n / 2) (by omega), List.getElem?_eq_getElem (i := n / 2 - 1) (by omega)]
    split_ifs
    · exact ⟨_, rfl⟩
    · exact ⟨_, rfl⟩
  obtain ⟨M', hM'⟩ := hs
  refine ⟨M', hM', medianBy_bound (fun x => m < x) midReal ?_ _ ?_ M' hM'⟩
  · intro a b ha hb
    show m < (a + b) / 2
    linarith
  · intro x hx
    rw [hl] at hx
    obtain ⟨i, hi, rfl⟩ := List.mem_map.1 hx
    exact hM i (List.mem_range.1 hi)

/-- From six values on, the kernel is wider than the value apart: the profile is bridged. -/
theorem smooth_peak (n i0 : Nat) (m : ℝ) (p : Nat → Option ℝ) (hn : 6 ≤ n) (hi : i0 < n) (h0 : p i0 = none) (h : ∀ i < n, i ≠ i0 → p i = some m) :
    ∀ i < n, smoothed n p i = some m := by
  intro i hin
  have hk : 3 ≤ kernelSize n ∧ kernelSize n % 2 = 1 := by unfold kernelSize; split_ifs <;> omega
  have hall : ∀ i < n, p i = some m ∨ p i = none := fun i hi2 => by
    by_cases he : i = i0
    · exact Or.inr (he ▸ h0)
    · exact Or.inl (h i hi2 he)
  have hj : ∃ j < kernelSize n, under n i j ≠ i0 := by
    by_contra hcon
    push Not at hcon
    have e1 := hcon (kernelSize n / 2 - 1) (by omega)
    have e2 := hcon (kernelSize n / 2 + 1) (by omega)
    unfold under at e1 e2
    omega
  obtain ⟨j, hj, hne⟩ := hj
  exact smooth_flat n p m hall i j hj (by omega) (h _ (by unfold under; omega) hne)

theorem smooth_const (n : Nat) (m : ℝ) (p : Nat → Option ℝ) (hn : 0 < n) (h : ∀ i < n, p i = some m) : ∀ i, smoothed n p i = some m := by
  intro i
  exact smooth_flat n p m (fun i hi => Or.inl (h i hi)) i 0 (kernel_pos n hn) hn (h _ (by unfold under; omega))

/-- **A contaminated channel is removed, and nothing else**: constant signal, higher values at all times in one of at least six channels, any threshold. -/
theorem clean_channel (nt nf f0 : Nat) (m : ℝ) (M : Nat → ℝ) (hm : 0 < m) (hmM : ∀ t < nt, m < M t) (hnt : 0 < nt) (hnf : 6 ≤ nf) (hf0 : f0 < nf)
    (d : Nat → Nat → Option ℝ) (hd : ∀ t < nt, ∀ f < nf, d t f = some (if f = f0 then M t else m)) (s : ℝ) (hs : 0 < s) :
    ∀ t < nt, ∀ f < nf, cleaned nt nf s d t f = if f = f0 then none else some m := by
  have hp : ∀ t < nt, OnePeak nf f0 m (M t) (d t) := fun t ht =>
    ⟨by rw [hd t ht f0 hf0, if_pos rfl], fun f hf hne => by rw [hd t ht f hf, if_neg hne]⟩
  obtain ⟨M', hM', hlt⟩ := median_over nt m M (fun t => d t f0) hnt hmM fun t ht => by rw [hd t ht f0 hf0, if_pos rfl]
  have hq : OnePeak nf f0 m M' (freqMed nt d) := by
    refine ⟨hM', ?_⟩
    intro f hf hne
    exact median_flat nt m _ hnt fun t ht => by rw [hd t ht f hf, if_neg hne]
  obtain ⟨hc0, hc⟩ := cut_peak nf f0 m M' _ (by omega) hf0 hlt hq
  have hfs : ∀ f < nf, freqSmooth nt nf d f = some m := smooth_peak nf f0 m _ hnf hf0 hc0 hc
  have hts : ∀ t < nt, timeSmooth nt nf d t = some m := fun t _ =>
    smooth_const nt m _ hnt (cut_flat nt m _ fun t ht => median_peak nf f0 m (M t) (d t) (by omega) hf0 (hmM t ht).le (hp t ht)) t
  have hb := back_flat nt nf hnt d m m hm.ne' hfs hts
  intro t ht f hf
  by_cases he : f = f0
  · rw [if_pos he]
    rcases hx : cleaned nt nf s d t f with _ | x
    · rfl
    · have := (clean_flat nt nf d m hb s hs t f ht hf x).1 hx
      rw [hd t ht f hf, if_pos he] at this
      have e := Option.some.inj this.1
      linarith [this.2, hmM t ht]
  · rw [if_neg he]
    refine (clean_flat nt nf d m hb s hs t f ht hf m).2 ⟨?_, le_refl _⟩
    rw [hd t ht f hf, if_neg he]

/-- **A burst over all channels is removed, and nothing else**, when there are at least six times. -/
theorem clean_burst (nt nf t0 : Nat) (m : ℝ) (M : Nat → ℝ) (hm : 0 < m) (hmM : ∀ f < nf, m < M f) (hnf : 0 < nf) (hnt : 6 ≤ nt) (ht0 : t0 < nt)
    (d : Nat → Nat → Option ℝ) (hd : ∀ t < nt, ∀ f < nf, d t f = some (if t = t0 then M f else m)) (s : ℝ) (hs : 0 < s) :
    ∀ t < nt, ∀ f < nf, cleaned nt nf s d t f = if t = t0 then none else some m := by
  have hp : ∀ f < nf, OnePeak nt t0 m (M f) (fun t => d t f) := fun f hf =>
    ⟨by show d t0 f = _; rw [hd t0 ht0 f hf, if_pos rfl], fun t ht hne => by show d t f = _; rw [hd t ht f hf, if_neg hne]⟩
  obtain ⟨M', hM', hlt⟩ := median_over nf m M (d t0) hnf hmM fun f hf => by rw [hd t0 ht0 f hf, if_pos rfl]
  have hq : OnePeak nt t0 m M' (timeMed nf d) := by
    refine ⟨hM', ?_⟩
    intro t ht hne
    exact median_flat nf m _ hnf fun f hf => by rw [hd t ht f hf, if_neg hne]
  obtain ⟨hc0, hc⟩ := cut_peak nt t0 m M' _ (by omega) ht0 hlt hq
  have hts : ∀ t < nt, timeSmooth nt nf d t = some m := smooth_peak nt t0 m _ hnt ht0 hc0 hc
  have hfs : ∀ f < nf, freqSmooth nt nf d f = some m := fun f _ =>
    smooth_const nf m _ hnf (cut_flat nf m _ fun f hf => median_peak nt t0 m (M f) (fun t => d t f) (by omega) ht0 (hmM f hf).le (hp f hf)) f
  have hb := back_flat nt nf (by omega) d m m hm.ne' hfs hts
  intro t ht f hf
  by_cases he : t = t0
  · rw [if_pos he]
    rcases hx : cleaned nt nf s d t f with _ | x
    · rfl
    · have := (clean_flat nt nf d m hb s hs t f ht hf x).1 hx
      rw [hd t ht f hf, if_pos he] at this
      have e := Option.some.inj this.1
      linarith [this.2, hmM f hf]
  · rw [if_neg he]
    refine (clean_flat nt nf d m hb s hs t f ht hf m).2 ⟨?_, le_refl _⟩
    rw [hd t ht f hf, if_neg he]

/-- With two to five channels the kernel has a single point: the background is unknown in the contaminated channel, which is never removed, however strong it is.
The English claim is that values over the background are removed. -/
theorem clean_few_violated (nt nf f0 : Nat) (m M : ℝ) (hmM : m < M) (hnt : 0 < nt) (h2 : 2 ≤ nf) (h5 : nf ≤ 5) (hf0 : f0 < nf)
    (d : Nat → Nat → Option ℝ) (hd : ∀ t < nt, ∀ f < nf, d t f = some (if f = f0 then M else m)) (s : ℝ) :
    ∀ t < nt, cleaned nt nf s d t f0 = some M := by
  intro t ht
  have hq : OnePeak nf f0 m M (freqMed nt d) := by
    constructor
    · exact median_flat nt M _ hnt fun t ht => by rw [hd t ht f0 hf0, if_pos rfl]
    · intro f hf hne
      exact median_flat nt m _ hnt fun t ht => by rw [hd t ht f hf, if_neg hne]
  have hc0 := (cut_peak nf f0 m M _ h2 hf0 hmM hq).1
  have hk : kernelSize nf = 1 := by unfold kernelSize; split_ifs <;> omega
  have hfs : freqSmooth nt nf d f0 = none := by
    unfold freqSmooth smoothed
    rw [if_pos]
    intro j hj
    have e : under nf f0 j = f0 := by unfold under; omega
    rw [e, hc0]
  have hb : background nt nf d t f0 = none := by
    unfold background
    rw [hfs]
    rfl
  unfold cleaned cleanLimit
  rw [hb]
  have hx : d t f0 = some M := by rw [hd t ht f0 hf0, if_pos rfl]
  split_ifs
  · exact hx
  · exact hx

/-- The deviation is that of the background, not that of the data: on a flat background noise has no right to any margin, and what is over the median goes whatever
the threshold. Here values 1, 2, 3 in a Latin square: all the 3 are removed with a threshold of a thousand. -/
theorem clean_margin_violated (s : ℝ) (hs : 0 < s) : ∀ t < 3, ∀ f < 3, ∀ x : ℝ,
    cleaned 3 3 s (fun t f => some (((t + f) % 3 : Nat) + 1 : ℝ)) t f = some x ↔ ((t + f) % 3 : Nat) + 1 = x ∧ x ≤ 2 := by
  have hl : ∀ c : ℕ, medianBy midReal ((List.range 3).filterMap fun f => some (((c + f) % 3 : Nat) + 1 : ℝ)) = some 2 := by
    intro c
    have h123 : medianBy midReal [(1 : ℝ), 2, 3] = some 2 := by
      unfold medianBy
      rw [List.Pairwise.insertionSort_eq (by norm_num)]
      rfl
    have hr : (List.range 3).filterMap (fun f => some (((c + f) % 3 : Nat) + 1 : ℝ)) =
        [(((c + 0) % 3 : Nat) : ℝ) + 1, (((c + 1) % 3 : Nat) : ℝ) + 1, (((c + 2) % 3 : Nat) : ℝ) + 1] := rfl
    rw [hr, ← h123]
    have h3 : c % 3 = 0 ∨ c % 3 = 1 ∨ c % 3 = 2 := by omega
    rcases h3 with h | h | h
    · rw [show (c + 0) % 3 = 0 by omega, show (c + 1) % 3 = 1 by omega, show (c + 2) % 3 = 2 by omega]
      norm_num
    · rw [show (c + 0) % 3 = 1 by omega, show (c + 1) % 3 = 2 by omega, show (c + 2) % 3 = 0 by omega]
      refine medianBy_perm _ _ _ ?_
      norm_num
      exact (List.perm_append_comm (l₁ := [(2 : ℝ), 3]) (l₂ := [1]))
    · rw [show (c + 0) % 3 = 2 by omega, show (c + 1) % 3 = 0 by omega, show (c + 2) % 3 = 1 by omega]
      refine medianBy_perm _ _ _ ?_
      norm_num
      exact (List.perm_append_comm (l₁ := [(3 : ℝ)]) (l₂ := [1, 2]))
  have hb := back_flat 3 3 (by omega) (fun t f => some (((t + f) % 3 : Nat) + 1 : ℝ)) 2 2 (by norm_num)
    (fun f _ => smooth_const 3 2 _ (by omega) (cut_flat 3 2 _ fun f _ => by
      unfold freqMed
      rw [← hl f]
      congr 1
      refine List.filterMap_congr fun t _ => ?_
      rw [Nat.add_comm]) f)
    (fun t _ => smooth_const 3 2 _ (by omega) (cut_flat 3 2 _ fun t _ => hl t) t)
  intro t ht f hf x
  rw [clean_flat 3 3 _ 2 hb s hs t f ht hf x]
  constructor
  · rintro ⟨h1, h2⟩; exact ⟨Option.some.inj h1, h2⟩
  · rintro ⟨h1, h2⟩; exact ⟨congrArg some h1, h2⟩

/-- Hypotheses of `clean_channel` and `clean_few_violated`. -/
example : ∃ d : Nat → Nat → Option ℝ, ∀ t < 10, ∀ f < 8, d t f = some (if f = 3 then 40 else 2) := ⟨fun _ f => some (if f = 3 then 40 else 2), fun _ _ _ _ => rfl⟩

end Verif.Dyn
