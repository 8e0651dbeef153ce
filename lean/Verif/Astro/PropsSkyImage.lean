import Verif.Astro.SkyImage
import Verif.Astro.PropsSky
import Mathlib.Analysis.Real.Pi.Bounds
import Mathlib.Tactic.Linarith
import Mathlib.Tactic.Positivity
import Mathlib.Tactic.FieldSimp

/-!
# Images of skies show the values of the directions (property C172)
-/

namespace Verif.Astro

/-! ## Specification -/

/-- Mean of values, none of which may be missing. -/
def meanOf (l : List (Option ℚ)) : Option ℚ := (l.mapM id).map fun v : List ℚ => v.sum / v.length

/-- The pixel whose centre is the nearest to a position: whole numbers are centres. -/
def Nearest (z : ℚ) (i : Int) : Prop := (i : ℚ) - 1 / 2 ≤ z ∧ z < (i : ℚ) + 1 / 2

/-! ## Helpers -/

theorem clear_at (l : List Spot) (d : Canvas) (p : Int × Int) : clear l d p = if p ∈ l.map Spot.pixel then some 0 else d p := by
  unfold clear
  induction l generalizing d with
  | nil => simp
  | cons s l ih =>
    rw [List.foldl_cons, ih, List.map_cons]
    by_cases h : p ∈ l.map Spot.pixel
    · rw [if_pos h, if_pos (List.mem_cons_of_mem _ h)]
    · rw [if_neg h]
      by_cases e : p = s.pixel
      · rw [e, Function.update_self, if_pos List.mem_cons_self]
      · rw [Function.update_of_ne e, if_neg (by rw [List.mem_cons]; exact fun g => g.elim e h)]

theorem count_at (l : List Spot) (w : Int × Int → Nat) (p : Int × Int) :
    l.foldl (fun w s => Function.update w s.pixel (w s.pixel + 1)) w p = w p + (l.filter fun s => decide (s.pixel = p)).length := by
  induction l generalizing w with
  | nil => simp
  | cons s l ih =>
    rw [List.foldl_cons, ih]
    by_cases e : s.pixel = p
    · rw [List.filter_cons_of_pos (by rw [decide_eq_true_iff]; exact e), ← e, Function.update_self, List.length_cons]
      omega
    · rw [List.filter_cons_of_neg (by rw [decide_eq_true_iff]; exact e), Function.update_of_ne (fun h => e h.symm)]

theorem add_at (only : Bool) (l : List Spot) (d : Canvas) (p : Int × Int) :
    addAll only l d p = ((l.filter fun s => decide (s.pixel = p)).map (Spot.shown only)).foldl plusNan (d p) := by
  unfold addAll
  induction l generalizing d with
  | nil => simp
  | cons s l ih =>
    rw [List.foldl_cons, ih]
    by_cases e : s.pixel = p
    · rw [List.filter_cons_of_pos (by rw [decide_eq_true_iff]; exact e), List.map_cons, List.foldl_cons, ← e, Function.update_self]
    · rw [List.filter_cons_of_neg (by rw [decide_eq_true_iff]; exact e), Function.update_of_ne (fun h => e h.symm)]

theorem divide_at (l : List Spot) (w : Int × Int → Nat) (d : Canvas) (p : Int × Int) :
    divideAll l w d p = if p ∈ l.map Spot.pixel then (d p).map (fun v : ℚ => v / (w p : ℚ)) else d p := by
  have h : ∀ (l : List Spot) (e : Canvas), l.foldl (fun (e : Canvas) (s : Spot) => Function.update e s.pixel ((d s.pixel).map fun v : ℚ => v / (w s.pixel : ℚ))) e p
      = if p ∈ l.map Spot.pixel then (d p).map (fun v : ℚ => v / (w p : ℚ)) else e p := by
    intro l
    induction l with
    | nil => intro e; simp
    | cons s l ih =>
      intro e
      rw [List.foldl_cons, ih, List.map_cons]
      by_cases h : p ∈ l.map Spot.pixel
      · rw [if_pos h, if_pos (List.mem_cons_of_mem _ h)]
      · rw [if_neg h]
        by_cases e : p = s.pixel
        · rw [e, Function.update_self, if_pos List.mem_cons_self]
        · rw [Function.update_of_ne e, if_neg (by rw [List.mem_cons]; exact fun g => g.elim e h)]
  exact h l d

theorem plus_none (l : List (Option ℚ)) : l.foldl plusNan none = none := by
  induction l with
  | nil => rfl
  | cons a l ih => rw [List.foldl_cons]; exact ih

theorem plus_sum (l : List (Option ℚ)) (a : ℚ) : l.foldl plusNan (some a) = (l.mapM id).map fun v : List ℚ => a + v.sum := by
  induction l generalizing a with
  | nil => simp
  | cons b l ih =>
    rw [List.foldl_cons, List.mapM_cons]
    cases b with
    | none => exact plus_none l
    | some b =>
      show l.foldl plusNan (some (a + b)) = _
      rw [ih]
      cases h : l.mapM id with
      | none => rfl
      | some v =>
        show some (a + b + v.sum) = some (a + (b :: v).sum)
        rw [List.sum_cons, add_assoc]

theorem mapM_length {l : List (Option ℚ)} {v : List ℚ} (h : l.mapM id = some v) : v.length = l.length := by
  induction l generalizing v with
  | nil => cases h; rfl
  | cons b l ih =>
    rw [List.mapM_cons] at h
    cases b with
    | none => cases h
    | some b =>
      cases hv : l.mapM id with
      | none => rw [hv] at h; cases h
      | some u =>
        rw [hv] at h
        cases h
        rw [List.length_cons, List.length_cons, ih hv]

/-! ## Properties -/

/-- **C172** Each pixel of the image holds the mean of the values of the directions which fall into it, and nothing when there is none. -/
theorem image_exact (nx ny : Nat) (only : Bool) (spots : List Spot) (row col : Nat) (hr : row < ny) (hc : col < nx) :
    skyImage nx ny only spots row col = if ∃ s ∈ spots, s.pixel = ((col : Int), (row : Int))
      then meanOf ((spots.filter fun s => decide (s.pixel = ((col : Int), (row : Int)))).map (Spot.shown only)) else none := by
  have hf : (spots.filter (inside nx ny)).filter (fun s => decide (s.pixel = ((col : Int), (row : Int))))
      = spots.filter fun s => decide (s.pixel = ((col : Int), (row : Int))) := by
    rw [List.filter_filter]
    apply List.filter_congr
    intro s _
    by_cases e : s.pixel = ((col : Int), (row : Int))
    · have : inside nx ny s = true := by
        unfold inside
        rw [decide_eq_true_iff, e]
        dsimp only
        omega
      rw [this, Bool.and_true]
    · rw [decide_eq_false e, Bool.false_and]
  have hm : ((col : Int), (row : Int)) ∈ (spots.filter (inside nx ny)).map Spot.pixel ↔ ∃ s ∈ spots, s.pixel = ((col : Int), (row : Int)) := by
    rw [List.mem_map]
    constructor
    · rintro ⟨s, hs, e⟩
      exact ⟨s, (List.mem_filter.1 hs).1, e⟩
    · rintro ⟨s, hs, e⟩
      refine ⟨s, List.mem_filter.2 ⟨hs, ?_⟩, e⟩
      unfold inside
      rw [decide_eq_true_iff, e]
      dsimp only
      omega
  unfold skyImage
  rw [divide_at, add_at, clear_at, hf]
  by_cases h : ∃ s ∈ spots, s.pixel = ((col : Int), (row : Int))
  · rw [if_pos (hm.2 h), if_pos h, if_pos (hm.2 h), plus_sum]
    unfold meanOf weightsOf
    rw [count_at, hf]
    cases hv : ((spots.filter fun s => decide (s.pixel = ((col : Int), (row : Int)))).map (Spot.shown only)).mapM id with
    | none => rfl
    | some v =>
      have hl := mapM_length hv
      rw [List.length_map] at hl
      have hpos : 0 < (spots.filter fun s => decide (s.pixel = ((col : Int), (row : Int)))).length := by
        obtain ⟨s, hs, e⟩ := h
        exact List.length_pos_of_mem (List.mem_filter.2 ⟨hs, by rw [decide_eq_true_iff]; exact e⟩)
      show some ((0 + v.sum) / ((max 1 (0 + _) : Nat) : ℚ)) = some (v.sum / (v.length : ℚ))
      rw [zero_add, Nat.zero_add, max_eq_right (by omega), hl]
  · rw [if_neg (fun g => h (hm.1 g)), if_neg h, if_neg (fun g => h (hm.1 g))]
    have : (spots.filter fun s => decide (s.pixel = ((col : Int), (row : Int)))) = [] := by
      rw [List.filter_eq_nil_iff]
      intro s hs e
      exact h ⟨s, hs, of_decide_eq_true e⟩
    rw [this]
    rfl

/-- **C172** Drawing the whole sky ignores which directions are visible; drawing the visible sky, visible directions keep their values
and hidden ones have none. -/
theorem shown_values (s : Spot) : s.shown false = s.value ∧ (s.visible = true → s.shown true = s.value) ∧
    (s.visible = false → s.shown true = none) := by
  unfold Spot.shown
  refine ⟨by simp, fun h => by simp [h], fun h => by simp [h]⟩

/-- **C172** A sky of one value is drawn with this value wherever there is a direction. -/
theorem image_constant (nx ny : Nat) (only : Bool) (spots : List Spot) (row col : Nat) (hr : row < ny) (hc : col < nx) (v : ℚ)
    (hv : ∀ s ∈ spots, s.shown only = some v) (h : ∃ s ∈ spots, s.pixel = ((col : Int), (row : Int))) :
    skyImage nx ny only spots row col = some v := by
  rw [image_exact nx ny only spots row col hr hc, if_pos h]
  have key : ∀ l : List Spot, (∀ s ∈ l, s.shown only = some v) → (l.map (Spot.shown only)).mapM id = some (List.replicate l.length v) := by
    intro l
    induction l with
    | nil => intro _; rfl
    | cons s l ih =>
      intro hl
      rw [List.map_cons, List.mapM_cons, hl s List.mem_cons_self, ih fun x hx => hl x (List.mem_cons_of_mem _ hx)]
      rfl
  obtain ⟨s, hs, e⟩ := h
  have hm : s ∈ spots.filter fun s => decide (s.pixel = ((col : Int), (row : Int))) := List.mem_filter.2 ⟨hs, by rw [decide_eq_true_iff]; exact e⟩
  have hp := List.length_pos_of_mem hm
  unfold meanOf
  rw [key _ fun x hx => hv x (List.mem_filter.1 hx).1]
  rw [Option.map_some, List.sum_replicate, List.length_replicate, nsmul_eq_mul, mul_div_assoc, mul_comm, div_mul_cancel₀]
  have : ((spots.filter fun s => decide (s.pixel = ((col : Int), (row : Int)))).length : ℚ) ≠ 0 := by positivity
  exact this

/-- **C172** (violated) When only the visible sky is drawn, a pixel on the horizon is left blank although there are visible directions in it. -/
theorem horizon_pixel_violated (nx ny : Nat) (spots : List Spot) (row col : Nat) (hr : row < ny) (hc : col < nx) (a b : Spot) (ha : a ∈ spots)
    (hb : b ∈ spots) (hap : a.pixel = ((col : Int), (row : Int))) (hbp : b.pixel = ((col : Int), (row : Int))) (_hav : a.visible = true)
    (hbv : b.visible = false) : skyImage nx ny true spots row col = none := by
  rw [image_exact nx ny true spots row col hr hc, if_pos ⟨a, ha, hap⟩]
  have key : ∀ l : List (Option ℚ), none ∈ l → l.mapM id = none := by
    intro l
    induction l with
    | nil => intro h; cases h
    | cons x l ih =>
      intro h
      rw [List.mapM_cons]
      cases x with
      | none => rfl
      | some x =>
        have : none ∈ l := by
          rcases List.mem_cons.1 h with e | e
          · cases e
          · exact e
        show (some x >>= fun a => l.mapM id >>= _) = none
        rw [ih this]
        rfl
  unfold meanOf
  rw [key]
  · rfl
  · refine List.mem_map.2 ⟨b, List.mem_filter.2 ⟨hb, by rw [decide_eq_true_iff]; exact hbp⟩, ?_⟩
    unfold Spot.shown
    rw [hbv]
    rfl

/-- **C172** (violated) Directions past the middle of a pixel, in the second half of the way to the next centre, are drawn one pixel too low:
a direction alone in the image is not in the pixel whose centre is the nearest. -/
theorem half_pixel_violated (nx ny : Nat) (only : Bool) (s : Spot) (col row : Nat) (hx : Nearest s.x col) (hy : Nearest s.y row)
    (hhalf : s.x < col ∨ s.y < row) (hr : row < ny) (hc : col < nx) : skyImage nx ny only [s] row col = none := by
  rw [image_exact nx ny only [s] row col hr hc, if_neg]
  rintro ⟨t, ht, e⟩
  rw [List.mem_singleton] at ht
  subst ht
  unfold Spot.pixel at e
  simp only [Prod.mk.injEq] at e
  have e1 := (Int.floor_eq_iff.1 e.1).1
  have e2 := (Int.floor_eq_iff.1 e.2).1
  push_cast at e1 e2
  rcases hhalf with h | h <;> linarith

/-- **C172** (violated) Directions within the first half pixel of the image are not drawn at all. -/
theorem first_half_violated (nx ny : Nat) (only : Bool) (spots : List Spot) (s : Spot) (h : s.x < 0 ∨ s.y < 0) (row col : Nat) (hr : row < ny)
    (hc : col < nx) : skyImage nx ny only (s :: spots) row col = skyImage nx ny only spots row col := by
  have hne : s.pixel ≠ ((col : Int), (row : Int)) := by
    intro e
    unfold Spot.pixel at e
    simp only [Prod.mk.injEq] at e
    rcases h with h | h
    · have : ⌊s.x⌋ < 0 := Int.floor_lt.2 (by exact_mod_cast h)
      omega
    · have : ⌊s.y⌋ < 0 := Int.floor_lt.2 (by exact_mod_cast h)
      omega
  rw [image_exact nx ny only _ row col hr hc, image_exact nx ny only _ row col hr hc, List.filter_cons_of_neg (by rw [decide_eq_true_iff]; exact hne)]
  have : (∃ t ∈ s :: spots, t.pixel = ((col : Int), (row : Int))) ↔ ∃ t ∈ spots, t.pixel = ((col : Int), (row : Int)) := by
    constructor
    · rintro ⟨t, ht, e⟩
      rcases List.mem_cons.1 ht with g | g
      · rw [g] at e; exact absurd e hne
      · exact ⟨t, g, e⟩
    · rintro ⟨t, ht, e⟩
      exact ⟨t, List.mem_cons_of_mem _ ht, e⟩
  by_cases g : ∃ t ∈ spots, t.pixel = ((col : Int), (row : Int))
  · rw [if_pos (this.2 g), if_pos g]
  · rw [if_neg (fun q => g (this.1 q)), if_neg g]

/-- **C172** In the part of the pixels where the nearest centre is the one below, directions are drawn where they are. -/
theorem nearest_partial (s : Spot) (i j : Int) (hx : Nearest s.x i) (hy : Nearest s.y j) (h1 : (i : ℚ) ≤ s.x) (h2 : (j : ℚ) ≤ s.y) :
    s.pixel = (i, j) := by
  unfold Spot.pixel
  rw [Int.floor_eq_iff.2 ⟨h1, by linarith [hx.2]⟩, Int.floor_eq_iff.2 ⟨h2, by linarith [hy.2]⟩]

/-! ## Size of the image -/

/-- **C172** The pixels are not smaller than the resolution asked for, nor twice as large, down from 0.675 degrees; above they stay at 0.675. -/
theorem pixel_size (res : ℚ) (h : 0 < res) :
    (res ≤ 27 / 40 → res ≤ pixelSize res ∧ pixelSize res < 2 * res) ∧ (27 / 40 < res → pixelSize res = 27 / 40) := by
  constructor
  · intro hr
    have h1 : (1 : ℚ) ≤ 27 / 40 / res := by rw [le_div_iff₀ h]; linarith
    have hf : 1 ≤ ⌊27 / 40 / res⌋ := Int.le_floor.2 (by exact_mod_cast h1)
    have hn : imageScale res = ⌊27 / 40 / res⌋.toNat := by unfold imageScale; omega
    have hq : ((imageScale res : Nat) : ℚ) = ((⌊27 / 40 / res⌋ : Int) : ℚ) := by
      rw [hn]
      have : ((⌊27 / 40 / res⌋.toNat : Nat) : Int) = ⌊27 / 40 / res⌋ := Int.toNat_of_nonneg (by omega)
      exact_mod_cast congrArg (fun z : Int => (z : ℚ)) this
    have hfl := Int.floor_le (27 / 40 / res)
    have hlt := Int.lt_floor_add_one (27 / 40 / res)
    rw [← hq] at hfl hlt
    have hs1 : (1 : ℚ) ≤ imageScale res := by rw [hq]; exact_mod_cast hf
    have hs : (0 : ℚ) < imageScale res := by linarith
    rw [le_div_iff₀ h] at hfl
    rw [div_lt_iff₀ h] at hlt
    unfold pixelSize
    refine ⟨?_, ?_⟩
    · rw [le_div_iff₀ hs]; linarith
    · rw [div_lt_iff₀ hs]; nlinarith
  · intro hr
    have h1 : 27 / 40 / res < 1 := by rw [div_lt_one h]; exact hr
    have hf : ⌊27 / 40 / res⌋ < 1 := Int.floor_lt.2 (by exact_mod_cast h1)
    have hn : imageScale res = 1 := by unfold imageScale; omega
    unfold pixelSize
    rw [hn]
    norm_num

/-- **C172** The whole image is 324 by 162 degrees at any resolution; with a radius it is a square, less than one pixel smaller than
asked for. -/
theorem image_size (res : ℚ) : ((imageDims res none).1 : ℚ) * pixelSize res = 324 ∧ ((imageDims res none).2 : ℚ) * pixelSize res = 162
    ∧ ∀ r : ℚ, 0 ≤ r → (imageDims res (some r)).1 = (imageDims res (some r)).2 ∧ ((imageDims res (some r)).1 : ℚ) * pixelSize res ≤ 2 * r
      ∧ 2 * r < (((imageDims res (some r)).1 : ℚ) + 1) * pixelSize res := by
  have hs : 0 < imageScale res := by unfold imageScale; omega
  have hsq : (0 : ℚ) < imageScale res := by exact_mod_cast hs
  have hp : 0 < pixelSize res := by unfold pixelSize; positivity
  refine ⟨?_, ?_, ?_⟩
  · show ((480 * imageScale res : Nat) : ℚ) * (27 / 40 / imageScale res) = _
    push_cast
    field_simp
    norm_num
  · show ((240 * imageScale res : Nat) : ℚ) * (27 / 40 / imageScale res) = _
    push_cast
    field_simp
    norm_num
  · intro r hr
    have h0 : 0 ≤ 2 * r / pixelSize res := by positivity
    have hq : ((imageDims res (some r)).1 : ℚ) = ((⌊2 * r / pixelSize res⌋ : Int) : ℚ) := by
      show ((⌊2 * r / pixelSize res⌋.toNat : Nat) : ℚ) = _
      have : ((⌊2 * r / pixelSize res⌋.toNat : Nat) : Int) = ⌊2 * r / pixelSize res⌋ := Int.toNat_of_nonneg (Int.floor_nonneg.2 h0)
      exact_mod_cast congrArg (fun z : Int => (z : ℚ)) this
    refine ⟨rfl, ?_, ?_⟩
    · rw [hq, ← le_div_iff₀ hp]
      exact Int.floor_le _
    · rw [hq, ← div_lt_iff₀ hp]
      exact Int.lt_floor_add_one _

/-- **C172** (violated) The whole sky does not fit: at any resolution the direction opposite to the centre is left of the first pixel. -/
theorem opposite_violated (scale : Nat) (hs : 0 < scale) : (aitoffPixel scale Real.pi 0).1 < -(1 / 2) := by
  have hpi := Real.pi_lt_d4
  have hpos := Real.pi_pos
  have h2 : (1.4142 : ℝ) ≤ √2 := by
    rw [show (1.4142 : ℝ) = √(1.4142 ^ 2) by rw [Real.sqrt_sq (by norm_num)]]
    exact Real.sqrt_le_sqrt (by norm_num)
  have hx : (aitoff Real.pi 0).1 = 180 / Real.pi * (2 * √2) := by
    show 180 / Real.pi * (2 * √(2 / (1 + Real.cos 0 * Real.cos (Real.pi / 2))) * Real.cos 0 * Real.sin (Real.pi / 2)) = _
    rw [Real.cos_pi_div_two, Real.sin_pi_div_two, Real.cos_zero]
    norm_num
  have hbig : 162 < (aitoff Real.pi 0).1 := by
    rw [hx, div_mul_eq_mul_div, lt_div_iff₀ hpos]
    nlinarith
  have hsr : (0 : ℝ) < scale := by exact_mod_cast hs
  show 480 * (scale : ℝ) / 2 + 1 / 2 - 1 - (aitoff Real.pi 0).1 / (27 / 40 / scale) < _
  have : 240 * (scale : ℝ) < (aitoff Real.pi 0).1 / (27 / 40 / scale) := by
    rw [lt_div_iff₀ (by positivity)]
    have : 240 * (scale : ℝ) * (27 / 40 / scale) = 162 := by field_simp; norm_num
    linarith
  linarith

/-- **C172** The centre is in the middle of the image. -/
theorem centre_pixel (scale : Nat) : aitoffPixel scale 0 0 = (480 * (scale : ℝ) / 2 - 1 / 2, 240 * (scale : ℝ) / 2 - 1 / 2) := by
  unfold aitoffPixel aitoff
  simp only [Real.sin_zero, zero_div, mul_zero, add_zero, sub_zero]
  rw [Prod.mk.injEq]
  constructor <;> ring

/-! ## Differences and skies of the same shape -/

/-- **C172** The difference of two parts of skies is made only when they are on the same directions, time, frequency and polarisation, and
is then the difference in each direction. -/
theorem part_difference (a b : SkyPart) (hne : a.coords ≠ []) :
    (a.coords = b.coords ∧ a.time = b.time ∧ a.freq = b.freq ∧ a.pol = b.pol → a.sub b = .ok ⟨a.coords, a.time, a.freq, a.pol, List.zipWith (· - ·) a.value b.value⟩)
    ∧ (¬ (a.coords = b.coords ∧ a.time = b.time ∧ a.freq = b.freq ∧ a.pol = b.pol) → a.sub b = .error .valueError) := by
  have key : ∀ (l m : List (ℚ × ℚ)), l.length = m.length → ((List.zipWith (fun p q => decide (p = q) && decide (a.time = b.time) && decide (a.freq = b.freq)
      && decide (a.pol = b.pol)) l m).all id = true ↔ l = m ∧ (l = [] ∨ (a.time = b.time ∧ a.freq = b.freq ∧ a.pol = b.pol))) := by
    intro l
    induction l with
    | nil =>
      intro m hm
      cases m with
      | nil => simp
      | cons x m => cases hm
    | cons x l ih =>
      intro m hm
      cases m with
      | nil => cases hm
      | cons y m =>
        rw [List.zipWith_cons_cons, List.all_cons, Bool.and_eq_true, ih m (by simpa using hm)]
        simp only [id, Bool.and_eq_true, decide_eq_true_iff, List.cons.injEq, reduceCtorEq, false_or]
        constructor
        · rintro ⟨⟨⟨⟨h1, h2⟩, h3⟩, h4⟩, h5, _⟩
          exact ⟨⟨h1, h5⟩, h2, h3, h4⟩
        · rintro ⟨⟨h1, h5⟩, h2, h3, h4⟩
          exact ⟨⟨⟨⟨h1, h2⟩, h3⟩, h4⟩, h5, Or.inr ⟨h2, h3, h4⟩⟩
  constructor
  · rintro ⟨h1, h2, h3, h4⟩
    unfold SkyPart.sub
    rw [if_neg (by rw [h1]; simp), if_pos ((key _ _ (by rw [h1])).2 ⟨h1, Or.inr ⟨h2, h3, h4⟩⟩)]
  · intro h
    unfold SkyPart.sub
    by_cases hl : a.coords.length ≠ b.coords.length
    · rw [if_pos hl]
    · rw [if_neg hl, if_neg]
      intro hk
      obtain ⟨g1, g2⟩ := (key _ _ (not_not.1 hl)).1 hk
      exact h ⟨g1, g2.resolve_left hne⟩

/-- **C172** A sky shaped like another one has the same resolution, thus the same directions. -/
theorem shaped_same (c : ℚ) (hc : 0 < c) (n : Nat) (hn : 0 < n) (wanted : ℚ) :
    shapedIndex (fun k => c / 2 ^ k) n wanted = resolIndex (fun k => c / 2 ^ k) n wanted := by
  obtain ⟨h1, _, _⟩ := resolution_nearest (fun k => c / 2 ^ k) n wanted hn
  obtain ⟨g1, g2, _⟩ := resolution_nearest (fun k => c / 2 ^ k) n ((fun k => c / 2 ^ k) (resolIndex (fun k => c / 2 ^ k) n wanted)) hn
  have h0 := g2 _ h1
  rw [sub_self, abs_zero] at h0
  have h3 := sub_eq_zero.1 (abs_eq_zero.1 (le_antisymm h0 (abs_nonneg _)))
  unfold shapedIndex
  generalize resolIndex (fun k => c / 2 ^ k) n ((fun k => c / 2 ^ k) (resolIndex (fun k => c / 2 ^ k) n wanted)) = i at h3 ⊢
  generalize resolIndex (fun k => c / 2 ^ k) n wanted = j at h3 ⊢
  dsimp only at h3
  have h4 : (2 : ℚ) ^ j = 2 ^ i := by
    have := hc.ne'
    field_simp at h3
    exact h3
  have h5 : (2 : Nat) ^ j = 2 ^ i := by exact_mod_cast h4
  exact (Nat.pow_right_injective (le_refl 2) h5).symm

/-! ## Non-vacuity -/

/-- Four directions on an image of three by two pixels: two in one pixel, one on the horizon, one at the left of the image. -/
def fourSpots : List Spot := [⟨1 / 4, 1, some 3, true⟩, ⟨3 / 4, 5 / 4, some 5, true⟩, ⟨2, 0, some 7, false⟩, ⟨-1 / 4, 0, some 9, true⟩]

example : skyImage 3 2 true fourSpots 1 0 = some 4 ∧ skyImage 3 2 true fourSpots 0 2 = none ∧ skyImage 3 2 false fourSpots 0 2 = some 7
    ∧ skyImage 3 2 false fourSpots 0 0 = none := by
  have f1 : ⌊(1 : ℚ) / 4⌋ = 0 := by norm_num [Int.floor_eq_iff]
  have f2 : ⌊(3 : ℚ) / 4⌋ = 0 := by norm_num [Int.floor_eq_iff]
  have f3 : ⌊(5 : ℚ) / 4⌋ = 1 := by norm_num [Int.floor_eq_iff]
  have f4 : ⌊(-1 : ℚ) / 4⌋ = -1 := by norm_num [Int.floor_eq_iff]
  have f5 : ⌊(2 : ℚ)⌋ = 2 := by norm_num [Int.floor_eq_iff]
  refine ⟨?_, ?_, ?_, ?_⟩ <;>
    (rw [image_exact _ _ _ _ _ _ (by norm_num) (by norm_num)]
     norm_num [fourSpots, Spot.pixel, f1, f2, f3, f4, f5, meanOf, Spot.shown])

example : Nearest (3 / 4 : ℚ) 1 ∧ (3 / 4 : ℚ) < (1 : Nat) := by unfold Nearest; norm_num

end Verif.Astro
