import Verif.Instru.Area
import Verif.Instru.AreaCount
import Mathlib.Analysis.Real.Pi.Bounds

/-!
# Effective area (C119)
-/

namespace Verif.Instru

/-! ## Lemmas -/

open Classical in
theorem covered_le (pos : List (ℝ × ℝ)) (R r : ℝ) : covered500 pos R r ≤ 500 * 500 := by
  unfold covered500
  refine (Finset.card_filter_le _ _).trans ?_
  rw [Finset.card_product, Finset.card_range]

open Classical in
theorem covered_mono (pos : List (ℝ × ℝ)) (R r s : ℝ) (h : r ≤ s) : covered500 pos R r ≤ covered500 pos R s := by
  unfold covered500
  refine Finset.card_le_card (Finset.monotone_filter_right _ ?_)
  rintro k _ ⟨p, hp, hd⟩
  exact ⟨p, hp, le_trans hd h⟩

open Classical in
theorem covered_pos (pos : List (ℝ × ℝ)) (R r : ℝ) (i j : Nat) (hi : i < 500) (hj : j < 500) (p : ℝ × ℝ) (hp : p ∈ pos)
    (h : inDisc p r (gridAt (pos.map (·.1)) R i) (gridAt (pos.map (·.2)) R j)) : 0 < covered500 pos R r := by
  unfold covered500
  rw [Finset.card_pos]
  refine ⟨(i, j), ?_⟩
  rw [Finset.mem_filter, Finset.mem_product, Finset.mem_range, Finset.mem_range]
  exact ⟨⟨hi, hj⟩, p, hp, h⟩

open Classical in
theorem covered_congr (pos pos' : List (ℝ × ℝ)) (R r : ℝ)
    (h : ∀ i j, (∃ p ∈ pos, inDisc p r (gridAt (pos.map (·.1)) R i) (gridAt (pos.map (·.2)) R j)) ↔
      ∃ p ∈ pos', inDisc p r (gridAt (pos'.map (·.1)) R i) (gridAt (pos'.map (·.2)) R j)) :
    covered500 pos R r = covered500 pos' R r := by
  unfold covered500
  rw [Finset.filter_congr fun k _ => h k.1 k.2]

open Classical in
theorem covered_count (pos : List (ℝ × ℝ)) (R r : ℝ) (num den : Nat)
    (h : ∀ i j, (∃ p ∈ pos, inDisc p r (gridAt (pos.map (·.1)) R i) (gridAt (pos.map (·.2)) R j)) ↔
      den * (midSq i + midSq j) ≤ num) : covered500 pos R r = countIn num den := by
  rw [← countIn_card]
  unfold covered500
  rw [Finset.filter_congr fun k _ => h k.1 k.2]

attribute [local irreducible] covered500

theorem disc_pos (f : ℝ) (h : 0 < f) : 0 < discRadius f := by
  have := wave_pos' f h
  have := Real.pi_pos
  unfold discRadius
  positivity
where
  wave_pos' (f : ℝ) (h : 0 < f) : 0 < waveOf f := by unfold waveOf; positivity

theorem disc_eq (f : ℝ) (h : 0 < f) : discRadius f = waveOf f / √(3 * Real.pi) := by
  have hpi := Real.pi_pos
  have hw : 0 ≤ waveOf f := by unfold waveOf; positivity
  unfold discRadius
  rw [div_div, Real.sqrt_div (by positivity), Real.sqrt_sq hw]

theorem disc_scale (f g : ℝ) (hf : 0 < f) (hg : 0 < g) : discRadius f * f = discRadius g * g := by
  rw [disc_eq f hf, disc_eq g hg]
  unfold waveOf
  field_simp

theorem disc_mono (f g : ℝ) (hf : 0 < f) (h : f ≤ g) : discRadius g ≤ discRadius f := by
  have := disc_scale f g hf (lt_of_lt_of_le hf h)
  have p := disc_pos g (lt_of_lt_of_le hf h)
  by_contra hc
  push Not at hc
  have p' := disc_pos f hf
  nlinarith

theorem top_spec (l : List ℝ) (h : l ≠ []) : topOf l ∈ l ∧ ∀ x ∈ l, x ≤ topOf l := by
  have key : ∀ (a : ℝ) (l : List ℝ), l.foldr max a ∈ a :: l ∧ ∀ x ∈ a :: l, x ≤ l.foldr max a := by
    intro a l
    induction l with
    | nil => simp
    | cons b l ih =>
      simp only [List.foldr_cons]
      refine ⟨?_, ?_⟩
      · rcases max_choice b (l.foldr max a) with e | e
        · rw [e]; simp
        · rw [e]
          rcases List.mem_cons.1 ih.1 with h | h
          · rw [h]; simp
          · exact List.mem_cons_of_mem _ (List.mem_cons_of_mem _ h)
      · intro x hx
        simp only [List.mem_cons] at hx
        rcases hx with rfl | rfl | hx
        · exact (ih.2 _ (by simp)).trans (le_max_right _ _)
        · exact le_max_left _ _
        · exact (ih.2 x (by simp [hx])).trans (le_max_right _ _)
  cases l with
  | nil => exact absurd rfl h
  | cons a l => exact key a l

theorem low_spec (l : List ℝ) (h : l ≠ []) : lowOf l ∈ l ∧ ∀ x ∈ l, lowOf l ≤ x := by
  have key : ∀ (a : ℝ) (l : List ℝ), l.foldr min a ∈ a :: l ∧ ∀ x ∈ a :: l, l.foldr min a ≤ x := by
    intro a l
    induction l with
    | nil => simp
    | cons b l ih =>
      simp only [List.foldr_cons]
      refine ⟨?_, ?_⟩
      · rcases min_choice b (l.foldr min a) with e | e
        · rw [e]; simp
        · rw [e]
          rcases List.mem_cons.1 ih.1 with h | h
          · rw [h]; simp
          · exact List.mem_cons_of_mem _ (List.mem_cons_of_mem _ h)
      · intro x hx
        simp only [List.mem_cons] at hx
        rcases hx with rfl | rfl | hx
        · exact (min_le_right _ _).trans (ih.2 _ (by simp))
        · exact min_le_left _ _
        · exact (min_le_right _ _).trans (ih.2 x (by simp [hx]))
  cases l with
  | nil => exact absurd rfl h
  | cons a l => exact key a l

theorem low_top (l : List ℝ) (h : l ≠ []) : lowOf l ≤ topOf l := (low_spec l h).2 _ (top_spec l h).1

theorem step_pos (xs : List ℝ) (R : ℝ) (h : xs ≠ []) (hR : 0 < R) : 0 < gridStep xs R := by
  have := low_top xs h
  unfold gridStep
  have : 0 < topOf xs + R - (lowOf xs - R) := by linarith
  positivity

theorem area_ok (pos : List (ℝ × ℝ)) (fs : List ℝ) (e : ℝ) (hp : pos ≠ []) (hf : fs ≠ []) :
    effectiveArea pos fs e = .ok (fs.map fun f => areaWith pos (topOf (fs.map discRadius)) f e) := by
  unfold effectiveArea
  rw [if_neg (by simp [hp, hf])]

theorem radius_top (fs : List ℝ) (hf : ∀ f ∈ fs, 0 < f) (f : ℝ) (h : f ∈ fs) :
    0 < topOf (fs.map discRadius) ∧ discRadius f ≤ topOf (fs.map discRadius) := by
  have hne : fs.map discRadius ≠ [] := by
    intro h0
    rw [List.map_eq_nil_iff] at h0
    subst h0
    simp at h
  have h1 := (top_spec _ hne).2 _ (List.mem_map.2 ⟨f, h, rfl⟩)
  exact ⟨lt_of_lt_of_le (disc_pos f (hf f h)) h1, h1⟩

/-! ## Properties -/

/-- **C119.** Seen from an elevation, the area is the one seen from the zenith times the sine of the elevation. -/
theorem area_elevation (pos : List (ℝ × ℝ)) (fs : List ℝ) (e : ℝ) (hp : pos ≠ []) (hf : fs ≠ []) :
    ∃ l, effectiveArea pos fs (Real.pi / 2) = .ok l ∧ effectiveArea pos fs e = .ok (l.map fun x => x * Real.sin e) := by
  refine ⟨_, area_ok pos fs _ hp hf, ?_⟩
  rw [area_ok pos fs e hp hf, List.map_map]
  congr 1
  apply List.map_congr_left
  intro f _
  simp only [Function.comp_apply, areaWith, Real.sin_pi_div_two]
  ring

/-- **C119.** No antenna or no frequency is refused. -/
theorem area_refused (pos : List (ℝ × ℝ)) (fs : List ℝ) (e : ℝ) (h : pos = [] ∨ fs = []) :
    effectiveArea pos fs e = .error .valueError := by
  unfold effectiveArea
  rw [if_pos h.symm]

/-- **C119.** The area is never above 1.005 times that of the rectangle around the discs of the antennas. -/
theorem area_range (pos : List (ℝ × ℝ)) (fs : List ℝ) (hp : pos ≠ []) (hf : ∀ f ∈ fs, 0 < f) (f : ℝ) (h : f ∈ fs) :
    ∃ R, (∃ g ∈ fs, R = discRadius g) ∧ (∀ g ∈ fs, discRadius g ≤ R) ∧
      0 ≤ areaWith pos (topOf (fs.map discRadius)) f (Real.pi / 2) ∧
      areaWith pos (topOf (fs.map discRadius)) f (Real.pi / 2) ≤
        (500 / 499) ^ 2 * ((topOf (pos.map (·.1)) - lowOf (pos.map (·.1)) + 2 * R) *
          (topOf (pos.map (·.2)) - lowOf (pos.map (·.2)) + 2 * R)) := by
  have hne : fs.map discRadius ≠ [] := by
    intro h0
    rw [List.map_eq_nil_iff] at h0
    subst h0
    simp at h
  obtain ⟨hm, hge⟩ := top_spec _ hne
  obtain ⟨g, hg, hgR⟩ := List.mem_map.1 hm
  obtain ⟨R0, -⟩ := radius_top fs hf f h
  generalize topOf (fs.map discRadius) = R at *
  have p1 := step_pos (pos.map (·.1)) R (by simpa using hp) R0
  have p2 := step_pos (pos.map (·.2)) R (by simpa using hp) R0
  have hc : (covered500 pos R (discRadius f) : ℝ) ≤ 500 * 500 := by
    have := covered_le pos R (discRadius f)
    exact_mod_cast this
  refine ⟨R, ⟨g, hg, hgR.symm⟩, fun g hg => hge _ (List.mem_map.2 ⟨g, hg, rfl⟩), ?_, ?_⟩
  · unfold areaWith
    rw [Real.sin_pi_div_two]
    positivity
  · unfold areaWith
    rw [Real.sin_pi_div_two, mul_one, mul_assoc]
    calc (covered500 pos R (discRadius f) : ℝ) * (gridStep (pos.map (·.1)) R * gridStep (pos.map (·.2)) R)
        ≤ (500 * 500) * (gridStep (pos.map (·.1)) R * gridStep (pos.map (·.2)) R) :=
          mul_le_mul_of_nonneg_right hc (by positivity)
      _ = _ := by unfold gridStep; ring

/-- **C119.** Within one call, the area does not grow with frequency. -/
theorem area_frequency (pos : List (ℝ × ℝ)) (fs : List ℝ) (hp : pos ≠ []) (hf : ∀ f ∈ fs, 0 < f) (f g : ℝ) (h : f ∈ fs)
    (_hg : g ∈ fs) (hfg : f ≤ g) :
    areaWith pos (topOf (fs.map discRadius)) g (Real.pi / 2) ≤ areaWith pos (topOf (fs.map discRadius)) f (Real.pi / 2) := by
  obtain ⟨R0, -⟩ := radius_top fs hf f h
  generalize topOf (fs.map discRadius) = R at *
  have p1 := step_pos (pos.map (·.1)) R (by simpa using hp) R0
  have p2 := step_pos (pos.map (·.2)) R (by simpa using hp) R0
  have hc := covered_mono pos R _ _ (disc_mono f g (hf f h) hfg)
  have hc' : (covered500 pos R (discRadius g) : ℝ) ≤ covered500 pos R (discRadius f) := by exact_mod_cast hc
  unfold areaWith
  rw [Real.sin_pi_div_two, mul_one, mul_one, mul_assoc, mul_assoc]
  exact mul_le_mul_of_nonneg_right hc' (by positivity)

/-- A point of the grid within half a step of an antenna. -/
theorem grid_near (xs : List ℝ) (R x : ℝ) (hx : x ∈ xs) (hR : 0 < R) :
    ∃ k, k < 500 ∧ |x - gridAt xs R k| ≤ gridStep xs R / 2 := by
  have hne : xs ≠ [] := List.ne_nil_of_mem hx
  have d := step_pos xs R hne hR
  have l1 := (low_spec xs hne).2 x hx
  have l2 := (top_spec xs hne).2 x hx
  have t0 : 0 ≤ (x - gridStart xs R) / gridStep xs R := div_nonneg (by unfold gridStart; linarith) d.le
  have t1 : (x - gridStart xs R) / gridStep xs R ≤ 499 := by
    rw [div_le_iff₀ d]
    unfold gridStart gridStep
    linarith
  have ht : x = gridStart xs R + (x - gridStart xs R) / gridStep xs R * gridStep xs R := by
    field_simp
    ring
  generalize (x - gridStart xs R) / gridStep xs R = t at *
  refine ⟨⌊t + 1 / 2⌋₊, ?_, ?_⟩
  · have : ⌊t + 1 / 2⌋₊ ≤ 499 := by
      have h1 : ⌊t + 1 / 2⌋₊ < 500 := by
        rw [Nat.floor_lt (by linarith)]
        norm_num
        linarith
      omega
    omega
  · have f1 := Nat.floor_le (show 0 ≤ t + 1 / 2 by linarith)
    have f2 := Nat.lt_floor_add_one (t + 1 / 2)
    unfold gridAt
    rw [ht]
    have e : gridStart xs R + t * gridStep xs R - (gridStart xs R + ⌊t + 1 / 2⌋₊ * gridStep xs R) =
        (t - ⌊t + 1 / 2⌋₊) * gridStep xs R := by ring
    rw [e, abs_mul, abs_of_pos d]
    have : |t - ⌊t + 1 / 2⌋₊| ≤ 1 / 2 := by
      rw [abs_le]
      constructor <;> linarith
    nlinarith

/-- **C119.** One frequency always has a positive area, for antennas spread over at most 500 times the radius of their disc. -/
theorem area_positive (pos : List (ℝ × ℝ)) (f : ℝ) (hp : pos ≠ []) (hf : 0 < f)
    (h1 : topOf (pos.map (·.1)) - lowOf (pos.map (·.1)) ≤ 500 * discRadius f)
    (h2 : topOf (pos.map (·.2)) - lowOf (pos.map (·.2)) ≤ 500 * discRadius f) :
    ∃ x, effectiveArea pos [f] (Real.pi / 2) = .ok [x] ∧ 0 < x := by
  refine ⟨_, area_ok pos [f] _ hp (by simp), ?_⟩
  have R0 := disc_pos f hf
  have e : topOf ([f].map discRadius) = discRadius f := by simp [topOf]
  unfold areaWith
  rw [e, Real.sin_pi_div_two]
  dsimp only
  generalize discRadius f = R at *
  have p1 := step_pos (pos.map (·.1)) R (by simpa using hp) R0
  have p2 := step_pos (pos.map (·.2)) R (by simpa using hp) R0
  obtain ⟨p, hpm⟩ := List.exists_mem_of_ne_nil pos hp
  obtain ⟨i, hi, di⟩ := grid_near (pos.map (·.1)) R p.1 (List.mem_map.2 ⟨p, hpm, rfl⟩) R0
  obtain ⟨j, hj, dj⟩ := grid_near (pos.map (·.2)) R p.2 (List.mem_map.2 ⟨p, hpm, rfl⟩) R0
  have b1 : gridStep (pos.map (·.1)) R ≤ 502 / 499 * R := by unfold gridStep; linarith
  have b2 : gridStep (pos.map (·.2)) R ≤ 502 / 499 * R := by unfold gridStep; linarith
  have hin : inDisc p R (gridAt (pos.map (·.1)) R i) (gridAt (pos.map (·.2)) R j) := by
    unfold inDisc
    rw [Real.sqrt_le_left R0.le]
    have s1 := sq_le_sq' (neg_le_of_abs_le di) (le_of_abs_le di)
    have s2 := sq_le_sq' (neg_le_of_abs_le dj) (le_of_abs_le dj)
    nlinarith
  have hc := covered_pos pos R R i j hi hj p hpm hin
  have hc' : (0 : ℝ) < covered500 pos R R := by exact_mod_cast hc
  rw [mul_one]
  exact mul_pos (mul_pos hc' p1) p2

theorem foldr_shift (op : ℝ → ℝ → ℝ) (c : ℝ) (h : ∀ x y, op (x + c) (y + c) = op x y + c) (a : ℝ) (l : List ℝ) :
    (l.map (· + c)).foldr op (a + c) = l.foldr op a + c := by
  induction l with
  | nil => rfl
  | cons b l ih => rw [List.map_cons, List.foldr_cons, ih, h, List.foldr_cons]

theorem top_shift (l : List ℝ) (hl : l ≠ []) (c : ℝ) : topOf (l.map (· + c)) = topOf l + c := by
  cases l with
  | nil => exact absurd rfl hl
  | cons a l => exact foldr_shift max c (fun x y => max_add_add_right x y c) a l

theorem low_shift (l : List ℝ) (hl : l ≠ []) (c : ℝ) : lowOf (l.map (· + c)) = lowOf l + c := by
  cases l with
  | nil => exact absurd rfl hl
  | cons a l => exact foldr_shift min c (fun x y => min_add_add_right x y c) a l

/-- **C119.** The area does not depend on where the antennas are, only on their offsets. -/
theorem area_shift (pos : List (ℝ × ℝ)) (fs : List ℝ) (e a b : ℝ) :
    effectiveArea (pos.map fun p => (p.1 + a, p.2 + b)) fs e = effectiveArea pos fs e := by
  by_cases hp : pos = []
  · rw [area_refused _ _ _ (Or.inl hp), area_refused _ _ _ (Or.inl (by rw [hp]; rfl))]
  by_cases hf : fs = []
  · rw [area_refused _ _ _ (Or.inr hf), area_refused _ _ _ (Or.inr hf)]
  rw [area_ok _ fs e (by simpa using hp) hf, area_ok pos fs e hp hf]
  congr 1
  apply List.map_congr_left
  intro f _
  have e1 : (pos.map fun p => (p.1 + a, p.2 + b)).map (·.1) = (pos.map (·.1)).map (· + a) := by
    simp [List.map_map, Function.comp_def]
  have e2 : (pos.map fun p => (p.1 + a, p.2 + b)).map (·.2) = (pos.map (·.2)).map (· + b) := by
    simp [List.map_map, Function.comp_def]
  have s1 : ∀ R, gridStep ((pos.map (·.1)).map (· + a)) R = gridStep (pos.map (·.1)) R := by
    intro R
    unfold gridStep
    rw [top_shift _ (by simpa using hp), low_shift _ (by simpa using hp)]
    ring
  have s2 : ∀ R, gridStep ((pos.map (·.2)).map (· + b)) R = gridStep (pos.map (·.2)) R := by
    intro R
    unfold gridStep
    rw [top_shift _ (by simpa using hp), low_shift _ (by simpa using hp)]
    ring
  have g1 : ∀ R k, gridAt ((pos.map (·.1)).map (· + a)) R k = gridAt (pos.map (·.1)) R k + a := by
    intro R k
    unfold gridAt
    rw [s1]
    unfold gridStart
    rw [low_shift _ (by simpa using hp)]
    ring
  have g2 : ∀ R k, gridAt ((pos.map (·.2)).map (· + b)) R k = gridAt (pos.map (·.2)) R k + b := by
    intro R k
    unfold gridAt
    rw [s2]
    unfold gridStart
    rw [low_shift _ (by simpa using hp)]
    ring
  unfold areaWith
  have hcc : ∀ R r, covered500 (pos.map fun p => (p.1 + a, p.2 + b)) R r = covered500 pos R r := by
    intro R r
    apply covered_congr
    intro i j
    rw [e1, e2]
    rw [g1, g2]
    exact shifted pos R r i j a b
  rw [hcc, e1, e2, s1, s2]
where
  shifted (pos : List (ℝ × ℝ)) (R r : ℝ) (i j : Nat) (a b : ℝ) :
      (∃ p ∈ pos.map fun p => (p.1 + a, p.2 + b), inDisc p r (gridAt (pos.map (·.1)) R i + a) (gridAt (pos.map (·.2)) R j + b)) ↔
        ∃ p ∈ pos, inDisc p r (gridAt (pos.map (·.1)) R i) (gridAt (pos.map (·.2)) R j) := by
    constructor
    · rintro ⟨p, hp, h⟩
      obtain ⟨q, hq, rfl⟩ := List.mem_map.1 hp
      refine ⟨q, hq, ?_⟩
      unfold inDisc at h ⊢
      dsimp only at h
      rwa [add_sub_add_right_eq_sub, add_sub_add_right_eq_sub] at h
    · rintro ⟨q, hq, h⟩
      refine ⟨_, List.mem_map.2 ⟨q, hq, rfl⟩, ?_⟩
      unfold inDisc at h ⊢
      dsimp only
      rwa [add_sub_add_right_eq_sub, add_sub_add_right_eq_sub]

/-- **C119.** The array has the area of one mini-array times the number of mini-arrays. -/
theorem area_array (n m : Nat) (pos : List (ℝ × ℝ)) (fs : List ℝ) (e : ℝ) (hp : pos ≠ []) (hf : fs ≠ []) :
    ∃ l l', arrayArea n pos fs e = .ok l ∧ arrayArea m pos fs e = .ok l' ∧ l.length = fs.length ∧
      l.map (fun x : ℝ => x * m) = l'.map fun x : ℝ => x * n := by
  unfold arrayArea
  rw [area_ok pos fs e hp hf]
  refine ⟨_, _, rfl, rfl, by simp, ?_⟩
  simp only [List.map_map]
  apply List.map_congr_left
  intro f _
  simp only [Function.comp_apply]
  ring

/-! ### One antenna -/

theorem mid_cast (k : Nat) : ((midSq k : ℕ) : ℝ) = (499 - 2 * (k : ℝ)) ^ 2 := by
  unfold midSq
  rcases le_total (2 * k) 499 with h | h
  · rw [Nat.sub_eq_zero_of_le h, add_zero]
    push_cast [Nat.cast_sub h]
    ring
  · rw [Nat.sub_eq_zero_of_le h, zero_add]
    push_cast [Nat.cast_sub h]
    ring

theorem one_step (x R : ℝ) : gridStep [x] R = 2 * R / 499 := by
  simp only [gridStep, topOf, lowOf, List.tail_cons, List.foldr_nil, List.headD_cons]
  ring

theorem one_at (x R : ℝ) (k : Nat) : x - gridAt [x] R k = R * (499 - 2 * k) / 499 := by
  unfold gridAt
  rw [one_step]
  simp only [gridStart, lowOf, List.tail_cons, List.foldr_nil, List.headD_cons]
  ring

/-- Points within the disc of one antenna: a count of integers. -/
theorem one_covered (p : ℝ × ℝ) (R r : ℝ) (hR : 0 < R) (hr : 0 < r) (num den : Nat)
    (h : ((den : ℕ) : ℝ) * (r * 499) ^ 2 = num * R ^ 2) (hd : 0 < den) : covered500 [p] R r = countIn num den := by
  apply covered_count
  intro i j
  generalize hk : (i, j) = k
  obtain rfl : i = k.1 := by rw [← hk]
  obtain rfl : j = k.2 := by rw [← hk]
  simp only [List.mem_singleton, exists_eq_left, List.map_cons, List.map_nil]
  unfold inDisc
  rw [one_at, one_at, Real.sqrt_le_left hr.le]
  have hd' : (0 : ℝ) < den := by exact_mod_cast hd
  have e : (R * (499 - 2 * (k.1 : ℝ)) / 499) ^ 2 + (R * (499 - 2 * (k.2 : ℝ)) / 499) ^ 2 =
      R ^ 2 * ((midSq k.1 + midSq k.2 : ℕ) : ℝ) / 499 ^ 2 := by
    push_cast
    rw [mid_cast, mid_cast]
    ring
  rw [e, div_le_iff₀ (by norm_num)]
  have R2 : 0 < R ^ 2 := by positivity
  constructor
  · intro hle
    have : ((den * (midSq k.1 + midSq k.2) : ℕ) : ℝ) * R ^ 2 ≤ num * R ^ 2 := by
      rw [← h]
      push_cast at hle ⊢
      nlinarith
    exact_mod_cast le_of_mul_le_mul_right this R2
  · intro hle
    have hle' : ((den * (midSq k.1 + midSq k.2) : ℕ) : ℝ) ≤ num := by exact_mod_cast hle
    push_cast at hle' ⊢
    have : ((den : ℝ) * (midSq k.1 + midSq k.2)) * R ^ 2 ≤ den * (r * 499) ^ 2 := by
      rw [h]
      exact mul_le_mul_of_nonneg_right hle' R2.le
    have : den * (R ^ 2 * (midSq k.1 + midSq k.2 : ℝ)) ≤ den * (r ^ 2 * 499 ^ 2) := by linarith
    exact le_of_mul_le_mul_left this hd'

theorem one_area (p : ℝ × ℝ) (f : ℝ) (hf : 0 < f) :
    areaWith [p] (discRadius f) f (Real.pi / 2) = 195496 * (2 * discRadius f / 499) ^ 2 := by
  have R0 := disc_pos f hf
  unfold areaWith
  rw [one_covered p _ _ R0 R0 249001 1 (by norm_num; ring) one_pos, count_one]
  simp only [List.map_cons, List.map_nil, one_step, Real.sin_pi_div_two]
  push_cast
  ring

theorem disc_sq (f : ℝ) (_hf : 0 < f) : discRadius f ^ 2 = waveOf f ^ 2 / 3 / Real.pi := by
  have := Real.pi_pos
  unfold discRadius
  rw [Real.sq_sqrt (by positivity)]

/-- **C119.** Alone, at one frequency, an antenna has the area of a dipole (the third of the square of the wavelength) to less
than one part in two thousand, wherever it is and for every frequency. -/
theorem area_single (p : ℝ × ℝ) (f : ℝ) (hf : 0 < f) :
    ∃ x, effectiveArea [p] [f] (Real.pi / 2) = .ok [x] ∧ |x - waveOf f ^ 2 / 3| ≤ waveOf f ^ 2 / 3 / 2000 := by
  refine ⟨_, area_ok [p] [f] _ (by simp) (by simp), ?_⟩
  have e : topOf ([f].map discRadius) = discRadius f := by simp [topOf]
  dsimp only
  rw [e, one_area p f hf]
  have hpi := Real.pi_pos
  have w : 0 < waveOf f ^ 2 / 3 := by
    have : 0 < waveOf f := by unfold waveOf; positivity
    positivity
  have e2 : (195496 : ℝ) * (2 * discRadius f / 499) ^ 2 = 781984 / 249001 / Real.pi * (waveOf f ^ 2 / 3) := by
    rw [div_pow, mul_pow, disc_sq f hf]
    field_simp
    ring
  rw [e2]
  generalize waveOf f ^ 2 / 3 = A at *
  have b1 := Real.pi_gt_d4
  have b2 := Real.pi_lt_d4
  have c1 : 781984 / 249001 / Real.pi ≤ 1 := by
    rw [div_le_one hpi]
    linarith
  have c2 : 1 - 1 / 2000 ≤ 781984 / 249001 / Real.pi := by
    rw [le_div_iff₀ hpi]
    linarith
  rw [abs_le]
  constructor <;> nlinarith

/-- **C119.** The area at one frequency depends on the other frequencies of the call: asked with 10 MHz, one antenna has at
85 MHz an area of more than a third of the square of the wavelength; asked alone, of less. -/
theorem area_others_violated (p : ℝ × ℝ) :
    ∃ x y z, effectiveArea [p] [85] (Real.pi / 2) = .ok [x] ∧ effectiveArea [p] [10, 85] (Real.pi / 2) = .ok [z, y] ∧
      x < waveOf 85 ^ 2 / 3 ∧ waveOf 85 ^ 2 / 3 < y := by
  have s := disc_scale 10 85 (by norm_num) (by norm_num)
  have r0 := disc_pos 85 (by norm_num)
  have R0 := disc_pos 10 (by norm_num)
  have eR : discRadius 10 = 85 / 10 * discRadius 85 := by linarith
  have e1 : topOf ([(85 : ℝ)].map discRadius) = discRadius 85 := by simp [topOf]
  have e2 : topOf ([(10 : ℝ), 85].map discRadius) = discRadius 10 := by
    simp only [topOf, List.map_cons, List.map_nil, List.tail_cons, List.foldr_cons, List.foldr_nil, List.headD_cons]
    rw [max_eq_right]
    rw [eR]
    nlinarith
  have hpi := Real.pi_pos
  have w : 0 < waveOf 85 ^ 2 / 3 := by
    have : 0 < waveOf 85 := by unfold waveOf; positivity
    positivity
  have b1 := Real.pi_gt_d6
  have b2 := Real.pi_lt_d6
  refine ⟨_, _, _, area_ok [p] [85] _ (by simp) (by simp), area_ok [p] [10, 85] _ (by simp) (by simp), ?_, ?_⟩
  · dsimp only
    rw [e1, one_area p 85 (by norm_num)]
    have e3 : (195496 : ℝ) * (2 * discRadius 85 / 499) ^ 2 = 781984 / 249001 / Real.pi * (waveOf 85 ^ 2 / 3) := by
      rw [div_pow, mul_pow, disc_sq 85 (by norm_num)]
      field_simp
      ring
    rw [e3]
    have c1 : 781984 / 249001 / Real.pi < 1 := by
      rw [div_lt_one hpi]
      linarith
    nlinarith
  · dsimp only
    rw [e2]
    unfold areaWith
    rw [one_covered p _ _ R0 r0 996004 289 (by rw [eR]; norm_num; ring) (by norm_num), count_other]
    simp only [List.map_cons, List.map_nil, one_step, Real.sin_pi_div_two]
    have e3 : ((2708 : ℕ) : ℝ) * (2 * discRadius 10 / 499) * (2 * discRadius 10 / 499) * 1 =
        2708 * 289 / 249001 / Real.pi * (waveOf 85 ^ 2 / 3) := by
      have : ((2708 : ℕ) : ℝ) * (2 * discRadius 10 / 499) * (2 * discRadius 10 / 499) * 1 =
          2708 * 289 / 249001 * discRadius 85 ^ 2 := by
        rw [eR]
        push_cast
        ring
      rw [this, disc_sq 85 (by norm_num)]
      field_simp
    rw [e3]
    have c1 : 1 < 2708 * 289 / 249001 / Real.pi := by
      rw [lt_div_iff₀ hpi]
      linarith
    nlinarith

/-! ### Neighbouring mini-arrays -/

/-- A corner of the hexagon turned by `φ`. -/
noncomputable def corner (φ : ℝ) (k : Nat) : ℝ × ℝ := (11 * Real.cos (φ + k * (Real.pi / 3)), 11 * Real.sin (φ + k * (Real.pi / 3)))

theorem corner_towards (u v : ℝ) : ∃ s t : ℝ, ((s = 1 ∨ s = -1) ∧ t = 0 ∨ (s = 1 / 2 ∨ s = -(1 / 2)) ∧ (t = √3 / 2 ∨ t = -(√3 / 2))) ∧
    √3 / 2 * √(u ^ 2 + v ^ 2) ≤ s * u + t * v := by
  have e3 : √3 * √3 = 3 := Real.mul_self_sqrt (by norm_num)
  have p3 : (0 : ℝ) < √3 := by positivity
  have key : ∀ a b : ℝ, 0 ≤ a → 0 ≤ b → (√3 / 2 * √(a ^ 2 + b ^ 2) ≤ a ∨ √3 / 2 * √(a ^ 2 + b ^ 2) ≤ 1 / 2 * a + √3 / 2 * b) := by
    intro a b ha hb
    have hs : √(a ^ 2 + b ^ 2) ^ 2 = a ^ 2 + b ^ 2 := Real.sq_sqrt (by positivity)
    have h0 : 0 ≤ √(a ^ 2 + b ^ 2) := Real.sqrt_nonneg _
    by_cases h : √3 * b ≤ a
    · left
      apply le_of_sq_le_sq _ ha
      have hq : (√3 * b) * (√3 * b) ≤ a * a := mul_self_le_mul_self (by positivity) h
      have e4 : (√3 / 2) ^ 2 = 3 / 4 := by rw [div_pow, Real.sq_sqrt (by norm_num)]; norm_num
      rw [mul_pow, hs, e4]
      nlinarith
    · right
      push Not at h
      apply le_of_sq_le_sq _ (by positivity)
      have hq : a * a ≤ (√3 * b) * a := mul_le_mul_of_nonneg_right h.le ha
      have e4 : (√3 / 2) ^ 2 = 3 / 4 := by rw [div_pow, Real.sq_sqrt (by norm_num)]; norm_num
      rw [mul_pow, hs, e4]
      nlinarith
  have habs : √(|u| ^ 2 + |v| ^ 2) = √(u ^ 2 + v ^ 2) := by rw [sq_abs, sq_abs]
  rcases key |u| |v| (abs_nonneg u) (abs_nonneg v) with h | h
  · rw [habs] at h
    rcases abs_cases u with ⟨e, -⟩ | ⟨e, -⟩
    · exact ⟨1, 0, Or.inl ⟨Or.inl rfl, rfl⟩, by rw [e] at h; linarith⟩
    · exact ⟨-1, 0, Or.inl ⟨Or.inr rfl, rfl⟩, by rw [e] at h; linarith⟩
  · rw [habs] at h
    rcases abs_cases u with ⟨e, -⟩ | ⟨e, -⟩ <;> rcases abs_cases v with ⟨e', -⟩ | ⟨e', -⟩ <;> rw [e, e'] at h
    · exact ⟨1 / 2, √3 / 2, Or.inr ⟨Or.inl rfl, Or.inl rfl⟩, by linarith⟩
    · exact ⟨1 / 2, -(√3 / 2), Or.inr ⟨Or.inl rfl, Or.inr rfl⟩, by linarith⟩
    · exact ⟨-(1 / 2), √3 / 2, Or.inr ⟨Or.inr rfl, Or.inl rfl⟩, by linarith⟩
    · exact ⟨-(1 / 2), -(√3 / 2), Or.inr ⟨Or.inr rfl, Or.inr rfl⟩, by linarith⟩
where
  le_of_sq_le_sq {a b : ℝ} (h : a ^ 2 ≤ b ^ 2) (hb : 0 ≤ b) : a ≤ b := by
    by_contra hc
    push Not at hc
    nlinarith

theorem corner_cases (s t : ℝ) (h : (s = 1 ∨ s = -1) ∧ t = 0 ∨ (s = 1 / 2 ∨ s = -(1 / 2)) ∧ (t = √3 / 2 ∨ t = -(√3 / 2)))
    (φ : ℝ) : ∃ k : Nat, k < 6 ∧ corner φ k = (11 * (s * Real.cos φ - t * Real.sin φ), 11 * (s * Real.sin φ + t * Real.cos φ)) := by
  have c3 := Real.cos_pi_div_three
  have s3 := Real.sin_pi_div_three
  have k0 : corner φ 0 = (11 * Real.cos φ, 11 * Real.sin φ) := by simp [corner]
  have k1 : corner φ 1 = (11 * (1 / 2 * Real.cos φ - √3 / 2 * Real.sin φ), 11 * (1 / 2 * Real.sin φ + √3 / 2 * Real.cos φ)) := by
    unfold corner
    rw [Nat.cast_one, one_mul, Real.cos_add, Real.sin_add, c3, s3]
    congr 1 <;> ring
  have k3 : ∀ k, corner φ (k + 3) = (-(corner φ k).1, -(corner φ k).2) := by
    intro k
    unfold corner
    have e : φ + ((k + 3 : ℕ) : ℝ) * (Real.pi / 3) = φ + k * (Real.pi / 3) + Real.pi := by push_cast; ring
    rw [e, Real.cos_add_pi, Real.sin_add_pi]
    congr 1 <;> ring
  have k2 : corner φ 2 = (11 * (-(1 / 2) * Real.cos φ - √3 / 2 * Real.sin φ), 11 * (-(1 / 2) * Real.sin φ + √3 / 2 * Real.cos φ)) := by
    unfold corner
    have e : φ + ((2 : ℕ) : ℝ) * (Real.pi / 3) = φ + Real.pi - Real.pi / 3 := by push_cast; ring
    rw [e, Real.cos_sub, Real.sin_sub, Real.cos_add_pi, Real.sin_add_pi, c3, s3]
    congr 1 <;> ring
  rcases h with ⟨rfl | rfl, rfl⟩ | ⟨rfl | rfl, rfl | rfl⟩
  · exact ⟨0, by norm_num, by rw [k0]; congr 1 <;> ring⟩
  · exact ⟨3, by norm_num, by rw [k3 0, k0]; congr 1 <;> ring⟩
  · exact ⟨1, by norm_num, by rw [k1]⟩
  · exact ⟨5, by norm_num, by rw [k3 2, k2]; congr 1 <;> ring⟩
  · exact ⟨2, by norm_num, by rw [k2]⟩
  · exact ⟨4, by norm_num, by rw [k3 1, k1]; congr 1 <;> ring⟩

/-- **C119.** The area of the array counts some of the ground twice: at 10 MHz, for two mini-arrays at most 27 m apart,
whatever the rotation `φ` of the first one, the disc of one of its corners (11 m from its centre) overlaps that of the central
antenna of the second one. -/
theorem area_overlap_violated (c d : ℝ × ℝ) (φ : ℝ) (h : √((d.1 - c.1) ^ 2 + (d.2 - c.2) ^ 2) ≤ 27)
    (h0 : 11 ≤ √((d.1 - c.1) ^ 2 + (d.2 - c.2) ^ 2)) :
    ∃ k, k < 6 ∧ √((c.1 + (corner φ k).1 - d.1) ^ 2 + (c.2 + (corner φ k).2 - d.2) ^ 2) < 2 * discRadius 10 := by
  have hpi := Real.pi_pos
  have e3 : √3 * √3 = 3 := Real.mul_self_sqrt (by norm_num)
  have p3 : (0 : ℝ) < √3 := by positivity
  have g3 : (1.73 : ℝ) ≤ √3 := Real.le_sqrt_of_sq_le (by norm_num)
  -- the offset in the frame of the first mini-array
  obtain ⟨s, t, hst, hle⟩ := corner_towards ((d.1 - c.1) * Real.cos φ + (d.2 - c.2) * Real.sin φ)
    (-(d.1 - c.1) * Real.sin φ + (d.2 - c.2) * Real.cos φ)
  obtain ⟨k, hk, hck⟩ := corner_cases s t hst φ
  refine ⟨k, hk, ?_⟩
  have cs := Real.sin_sq_add_cos_sq φ
  have en : ((d.1 - c.1) * Real.cos φ + (d.2 - c.2) * Real.sin φ) ^ 2 +
      (-(d.1 - c.1) * Real.sin φ + (d.2 - c.2) * Real.cos φ) ^ 2 = (d.1 - c.1) ^ 2 + (d.2 - c.2) ^ 2 := by
    linear_combination ((d.1 - c.1) ^ 2 + (d.2 - c.2) ^ 2) * cs
  rw [en] at hle
  have st : s ^ 2 + t ^ 2 = 1 := by
    rcases hst with ⟨rfl | rfl, rfl⟩ | ⟨rfl | rfl, rfl | rfl⟩ <;> nlinarith
  have hD : √((d.1 - c.1) ^ 2 + (d.2 - c.2) ^ 2) ^ 2 = (d.1 - c.1) ^ 2 + (d.2 - c.2) ^ 2 := Real.sq_sqrt (by positivity)
  generalize √((d.1 - c.1) ^ 2 + (d.2 - c.2) ^ 2) = D at *
  have R : (19.5 : ℝ) < 2 * discRadius 10 := by
    have : (9.75 : ℝ) < discRadius 10 := by
      unfold discRadius waveOf
      apply Real.lt_sqrt_of_sq_lt
      rw [lt_div_iff₀ hpi]
      have := Real.pi_lt_d4
      norm_num
      linarith
    linarith
  refine lt_of_le_of_lt ?_ R
  rw [Real.sqrt_le_left (by norm_num)]
  rw [hck]
  have ex : (c.1 + 11 * (s * Real.cos φ - t * Real.sin φ) - d.1) ^ 2 + (c.2 + 11 * (s * Real.sin φ + t * Real.cos φ) - d.2) ^ 2 =
      D ^ 2 - 22 * (s * ((d.1 - c.1) * Real.cos φ + (d.2 - c.2) * Real.sin φ) +
        t * (-(d.1 - c.1) * Real.sin φ + (d.2 - c.2) * Real.cos φ)) + 121 := by
    rw [hD]
    linear_combination (121 * (s ^ 2 + t ^ 2)) * cs + 121 * st
  rw [ex]
  have h3 : √3 / 2 * D ≥ 0.865 * D := mul_le_mul_of_nonneg_right (by linarith) (by linarith)
  have hq : (D - 27) * (D - 11) ≤ 0 := mul_nonpos_of_nonpos_of_nonneg (by linarith) (by linarith)
  clear ex hst en st hD e3 cs hck hpi p3 g3 R
  nlinarith [hle, h3, hq]

/-! ## The hypotheses can be met -/

example : ∃ pos : List (ℝ × ℝ), pos ≠ [] ∧ topOf (pos.map (·.1)) - lowOf (pos.map (·.1)) ≤ 500 * discRadius 50 ∧
    topOf (pos.map (·.2)) - lowOf (pos.map (·.2)) ≤ 500 * discRadius 50 := by
  refine ⟨[(0, 0), (5, 0)], by simp, ?_, ?_⟩
  · have h : (1 : ℝ) < discRadius 50 := by
      unfold discRadius waveOf
      apply Real.lt_sqrt_of_sq_lt
      rw [lt_div_iff₀ Real.pi_pos]
      have := Real.pi_lt_d4
      norm_num
      linarith
    simp [topOf, lowOf]
    linarith
  · have h := disc_pos 50 (by norm_num)
    simp [topOf, lowOf]
    linarith

/-- Mini-arrays 44 and 51 are 25.5 m apart. -/
example : (11 : ℝ) ≤ √((25.5 - 0) ^ 2 + (0 - 0) ^ 2) ∧ √((25.5 - 0 : ℝ) ^ 2 + (0 - 0) ^ 2) ≤ 27 := by
  have e : √((25.5 - 0 : ℝ) ^ 2 + (0 - 0) ^ 2) = 25.5 := by
    rw [show (25.5 - 0 : ℝ) ^ 2 + (0 - 0) ^ 2 = 25.5 ^ 2 by norm_num, Real.sqrt_sq (by norm_num)]
  rw [e]
  norm_num

end Verif.Instru
