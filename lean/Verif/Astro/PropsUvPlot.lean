import Verif.Astro.UvPlot
import Mathlib.Algebra.Order.Field.Rat
import Mathlib.Tactic.Linarith
import Mathlib.Tactic.FieldSimp

/-!
# Limits of the figure of a UV coverage (property C199)
-/

namespace Verif.Astro

/-! ## Specification -/

/-- A coordinate of a baseline. -/
def IsCoord (l : List (ℚ × ℚ)) (x : ℚ) : Prop := ∃ p ∈ l, x = p.1 ∨ x = p.2

/-- The least and the greatest of the coordinates. -/
def Bounds (l : List (ℚ × ℚ)) (lo hi : ℚ) : Prop :=
  IsCoord l lo ∧ IsCoord l hi ∧ ∀ x, IsCoord l x → lo ≤ x ∧ x ≤ hi

theorem foldl_min_spec (l : List ℚ) (x : ℚ) : l.foldl min x ∈ x :: l ∧ ∀ y ∈ x :: l, l.foldl min x ≤ y := by
  induction l generalizing x with
  | nil => exact ⟨List.mem_singleton.2 rfl, fun y hy => by rw [List.mem_singleton.1 hy]; exact le_refl _⟩
  | cons z l ih =>
    obtain ⟨h1, h2⟩ := ih (min x z)
    rw [List.foldl_cons]
    constructor
    · rcases List.mem_cons.1 h1 with h | h
      · rw [h]
        rcases min_choice x z with k | k <;> rw [k] <;> simp
      · exact List.mem_cons_of_mem _ (List.mem_cons_of_mem _ h)
    · intro y hy
      have h0 := h2 (min x z) (List.mem_cons_self ..)
      rcases List.mem_cons.1 hy with h | h
      · rw [h]; exact h0.trans (min_le_left _ _)
      · rcases List.mem_cons.1 h with k | k
        · rw [k]; exact h0.trans (min_le_right _ _)
        · exact h2 y (List.mem_cons_of_mem _ k)

theorem foldl_max_spec (l : List ℚ) (x : ℚ) : l.foldl max x ∈ x :: l ∧ ∀ y ∈ x :: l, y ≤ l.foldl max x := by
  induction l generalizing x with
  | nil => exact ⟨List.mem_singleton.2 rfl, fun y hy => by rw [List.mem_singleton.1 hy]; exact le_refl _⟩
  | cons z l ih =>
    obtain ⟨h1, h2⟩ := ih (max x z)
    rw [List.foldl_cons]
    constructor
    · rcases List.mem_cons.1 h1 with h | h
      · rw [h]
        rcases max_choice x z with k | k <;> rw [k] <;> simp
      · exact List.mem_cons_of_mem _ (List.mem_cons_of_mem _ h)
    · intro y hy
      have h0 := h2 (max x z) (List.mem_cons_self ..)
      rcases List.mem_cons.1 hy with h | h
      · rw [h]; exact (le_max_left _ _).trans h0
      · rcases List.mem_cons.1 h with k | k
        · rw [k]; exact (le_max_right _ _).trans h0
        · exact h2 y (List.mem_cons_of_mem _ k)

theorem extent_bounds (l : List (ℚ × ℚ)) (hl : l ≠ []) :
    ∃ lo hi : ℚ, Bounds l lo hi ∧ uvExtent l = .ok (withMargin lo hi) := by
  cases l with
  | nil => exact absurd rfl hl
  | cons p l =>
    have e : uvExtent (p :: l) = .ok (withMargin (min ((l.map Prod.fst).foldl min p.1) ((l.map Prod.snd).foldl min p.2))
        (max ((l.map Prod.fst).foldl max p.1) ((l.map Prod.snd).foldl max p.2))) := rfl
    obtain ⟨a1, a2⟩ := foldl_min_spec (l.map Prod.fst) p.1
    obtain ⟨b1, b2⟩ := foldl_min_spec (l.map Prod.snd) p.2
    obtain ⟨c1, c2⟩ := foldl_max_spec (l.map Prod.fst) p.1
    obtain ⟨d1, d2⟩ := foldl_max_spec (l.map Prod.snd) p.2
    have f1 : ∀ x, x ∈ p.1 :: l.map Prod.fst → IsCoord (p :: l) x := by
      intro x hx
      rw [← List.map_cons (f := Prod.fst)] at hx
      obtain ⟨q, hq, rfl⟩ := List.mem_map.1 hx
      exact ⟨q, hq, Or.inl rfl⟩
    have f2 : ∀ x, x ∈ p.2 :: l.map Prod.snd → IsCoord (p :: l) x := by
      intro x hx
      rw [← List.map_cons (f := Prod.snd)] at hx
      obtain ⟨q, hq, rfl⟩ := List.mem_map.1 hx
      exact ⟨q, hq, Or.inr rfl⟩
    refine ⟨_, _, ⟨?_, ?_, ?_⟩, e⟩
    · rcases min_choice ((l.map Prod.fst).foldl min p.1) ((l.map Prod.snd).foldl min p.2) with k | k <;> rw [k]
      · exact f1 _ a1
      · exact f2 _ b1
    · rcases max_choice ((l.map Prod.fst).foldl max p.1) ((l.map Prod.snd).foldl max p.2) with k | k <;> rw [k]
      · exact f1 _ c1
      · exact f2 _ d1
    · rintro x ⟨q, hq, rfl | rfl⟩
      · have m : q.1 ∈ p.1 :: l.map Prod.fst := by rw [← List.map_cons (f := Prod.fst)]; exact List.mem_map_of_mem hq
        exact ⟨(min_le_left _ _).trans (a2 _ m), (c2 _ m).trans (le_max_left _ _)⟩
      · have m : q.2 ∈ p.2 :: l.map Prod.snd := by rw [← List.map_cons (f := Prod.snd)]; exact List.mem_map_of_mem hq
        exact ⟨(min_le_right _ _).trans (b2 _ m), (d2 _ m).trans (le_max_right _ _)⟩

/-! ## Properties -/

/-- C199: the figure is a square which goes from the least to the greatest of all coordinates, with 1% of this width added on each side. -/
theorem uv_figure_exact (l : List (ℚ × ℚ)) (hl : l ≠ []) :
    ∃ lo hi : ℚ, Bounds l lo hi ∧ uvExtent l = .ok (lo - (hi - lo) / 100, hi + (hi - lo) / 100) := by
  obtain ⟨lo, hi, hb, he⟩ := extent_bounds l hl
  refine ⟨lo, hi, hb, he.trans ?_⟩
  have h : lo ≤ hi := (hb.2.2 lo hb.1).2
  unfold withMargin
  rw [abs_of_nonpos (by linarith)]
  congr 2 <;> ring

/-- C199: all baselines are in the figure; none is on its sides if two coordinates differ. -/
theorem uv_figure_contains (l : List (ℚ × ℚ)) (hl : l ≠ []) :
    ∃ a b : ℚ, uvExtent l = .ok (a, b) ∧ (∀ p ∈ l, (a ≤ p.1 ∧ p.1 ≤ b) ∧ a ≤ p.2 ∧ p.2 ≤ b)
      ∧ ((∃ x y, IsCoord l x ∧ IsCoord l y ∧ x ≠ y) → ∀ p ∈ l, (a < p.1 ∧ p.1 < b) ∧ a < p.2 ∧ p.2 < b) := by
  obtain ⟨lo, hi, hb, he⟩ := uv_figure_exact l hl
  have h : lo ≤ hi := (hb.2.2 lo hb.1).2
  refine ⟨_, _, he, ?_, ?_⟩
  · intro p hp
    have h1 := hb.2.2 p.1 ⟨p, hp, Or.inl rfl⟩
    have h2 := hb.2.2 p.2 ⟨p, hp, Or.inr rfl⟩
    refine ⟨⟨?_, ?_⟩, ?_, ?_⟩ <;> linarith [h1.1, h1.2, h2.1, h2.2]
  · rintro ⟨x, y, hx, hy, hxy⟩ p hp
    have h1 := hb.2.2 p.1 ⟨p, hp, Or.inl rfl⟩
    have h2 := hb.2.2 p.2 ⟨p, hp, Or.inr rfl⟩
    have k : lo < hi := by
      rcases lt_or_gt_of_ne hxy with q | q
      · linarith [(hb.2.2 x hx).1, (hb.2.2 y hy).2]
      · linarith [(hb.2.2 y hy).1, (hb.2.2 x hx).2]
    refine ⟨⟨?_, ?_⟩, ?_, ?_⟩ <;> linarith [h1.1, h1.2, h2.1, h2.2]

/-- C199: a coverage which has each baseline in both directions is drawn in a square centred on zero. -/
theorem uv_figure_centred (l : List (ℚ × ℚ)) (hl : l ≠ []) (hs : ∀ p ∈ l, (-p.1, -p.2) ∈ l) : ∃ a : ℚ, uvExtent l = .ok (-a, a) := by
  obtain ⟨lo, hi, hb, he⟩ := uv_figure_exact l hl
  have neg : ∀ x, IsCoord l x → IsCoord l (-x) := by
    rintro x ⟨p, hp, rfl | rfl⟩
    · exact ⟨_, hs p hp, Or.inl rfl⟩
    · exact ⟨_, hs p hp, Or.inr rfl⟩
  have e : lo = -hi := le_antisymm (hb.2.2 _ (neg _ hb.2.1)).1 (by linarith [(hb.2.2 _ (neg _ hb.1)).2])
  refine ⟨hi + (hi - lo) / 100, he.trans ?_⟩
  rw [e]
  congr 2
  ring

/-- C199: no baseline at all is refused. -/
theorem uv_figure_empty : uvExtent [] = .error .valueError := rfl

theorem bounds_unique (l : List (ℚ × ℚ)) (a b c d : ℚ) (h : Bounds l a b) (k : Bounds l c d) : a = c ∧ b = d :=
  ⟨le_antisymm (h.2.2 _ k.1).1 (k.2.2 _ h.1).1, le_antisymm (k.2.2 _ h.2.1).2 (h.2.2 _ k.2.1).2⟩

/-- C199: at one wavelength, the figure in wavelengths is the figure in metres, each limit divided by the wavelength. -/
theorem uv_figure_waves (l : List (ℚ × ℚ)) (hl : l ≠ []) (w : ℚ) (hw : 0 < w) :
    ∃ a b : ℚ, uvExtent l = .ok (a, b) ∧ uvExtent (inWaves [w] l) = .ok (a / w, b / w) := by
  obtain ⟨lo, hi, hb, he⟩ := uv_figure_exact l hl
  have e : inWaves [w] l = l.map fun x : ℚ × ℚ => (x.1 / w, x.2 / w) := by
    unfold inWaves
    rw [List.flatMap_cons, List.flatMap_nil, List.append_nil]
  have hl' : inWaves [w] l ≠ [] := by
    rw [e]
    simpa using hl
  obtain ⟨lo', hi', hb', he'⟩ := uv_figure_exact _ hl'
  have up : ∀ x, IsCoord l x → IsCoord (inWaves [w] l) (x / w) := by
    rw [e]
    rintro x ⟨p, hp, rfl | rfl⟩
    · exact ⟨_, List.mem_map_of_mem hp, Or.inl rfl⟩
    · exact ⟨_, List.mem_map_of_mem hp, Or.inr rfl⟩
  have down : ∀ y, IsCoord (inWaves [w] l) y → ∃ x, IsCoord l x ∧ y = x / w := by
    rw [e]
    rintro y ⟨q, hq, hy⟩
    obtain ⟨p, hp, rfl⟩ := List.mem_map.1 hq
    rcases hy with rfl | rfl
    · exact ⟨p.1, ⟨p, hp, Or.inl rfl⟩, rfl⟩
    · exact ⟨p.2, ⟨p, hp, Or.inr rfl⟩, rfl⟩
  have hb2 : Bounds (inWaves [w] l) (lo / w) (hi / w) := by
    refine ⟨up _ hb.1, up _ hb.2.1, ?_⟩
    intro y hy
    obtain ⟨x, hx, rfl⟩ := down y hy
    exact ⟨div_le_div_of_nonneg_right (hb.2.2 x hx).1 hw.le, div_le_div_of_nonneg_right (hb.2.2 x hx).2 hw.le⟩
  obtain ⟨e1, e2⟩ := bounds_unique _ _ _ _ _ hb' hb2
  refine ⟨_, _, he, he'.trans ?_⟩
  rw [e1, e2]
  congr 2 <;> ring

/-- C199, violated: with autocorrelations only, whatever their number, the figure has no width. -/
theorem uv_figure_flat_violated (l : List (ℚ × ℚ)) (hl : l ≠ []) (h : ∀ p ∈ l, p = (0, 0)) : uvExtent l = .ok (0, 0) := by
  obtain ⟨lo, hi, hb, he⟩ := uv_figure_exact l hl
  have z : ∀ x, IsCoord l x → x = 0 := by
    rintro x ⟨p, hp, rfl | rfl⟩ <;> rw [h p hp]
  rw [he, z _ hb.1, z _ hb.2.1]
  congr 2 <;> norm_num

/-- Two antennas. -/
example : (uvExtent [(0, 0), (30, 40), (-30, -40)]).toOption = some (-204 / 5, 204 / 5) := by decide +kernel

end Verif.Astro
