import Verif.Astro.SkyPlot

/-!
# Drawing of a sky: properties (C181)
-/

namespace Verif.Astro

open Verif.IO (drawnAs inDb)
open Verif.Instru (FigEnd figEnd)

/-! ## Axes -/

/-- **C181.** The new axes take the place of those given and all others stay where they are. -/
theorem axes_replaced (fresh : Nat) (slots : List Nat) (start : Nat) (h : start < slots.length) :
    ∃ l, placed fresh (.within slots start) = .ok l ∧ l.length = slots.length ∧ l[start]? = some fresh ∧ ∀ i, i ≠ start → l[i]? = slots[i]? := by
  refine ⟨slots.set start fresh, if_pos h, by simp, by simp [h], ?_⟩
  intro i hi
  rw [List.getElem?_set_ne (Ne.symm hi)]

/-- **C181.** Axes given without those of the whole figure are refused. -/
theorem axes_alone (fresh : Nat) : placed fresh .alone = .error .valueError := rfl

example : placed 9 (.within [1, 2, 3] 1) = .ok [1, 9, 3] := rfl

/-! ## Opacity -/

private theorem greatest_ge (l : List ℝ) (x : ℝ) (h : x ∈ l) : x ≤ greatest l := by
  unfold greatest
  cases e : l.max? with
  | none => rw [List.max?_eq_none_iff.1 e] at h; cases h
  | some m => exact (List.max?_eq_some_iff.1 e).2 x h

private theorem greatest_mem (l : List ℝ) (h : l ≠ []) : greatest l ∈ l := by
  unfold greatest
  cases e : l.max? with
  | none => exact absurd (List.max?_eq_none_iff.1 e) h
  | some m => exact (List.max?_eq_some_iff.1 e).1

private theorem greatest_zero (l : List ℝ) (h : ∀ x ∈ l, x = 0) : greatest l = 0 := by
  by_cases e : l = []
  · subst e; rfl
  · exact h _ (greatest_mem l e)

/-- **C181.** With opacities which are not negative, one of them positive: all pixels have an opacity from 0 to 1, in the proportion of what is given
(missing ones are transparent), and some pixel is opaque. -/
theorem opacity_partial (l : List (Option ℝ)) (h0 : ∀ v, some v ∈ l → 0 ≤ v) (v : ℝ) (hv : some v ∈ l) (hp : 0 < v) :
    ∃ m : ℝ, v ≤ m ∧ some m ∈ l ∧ alphaOf l = l.map (fun x => some (x.getD 0 / m)) ∧ (∀ o ∈ alphaOf l, ∃ a : ℝ, o = some a ∧ 0 ≤ a ∧ a ≤ 1) ∧ some 1 ∈ alphaOf l := by
  set w := l.map (fun y : Option ℝ => y.getD 0) with hw
  have hvm : v ≤ greatest w := greatest_ge w v (List.mem_map.2 ⟨some v, hv, rfl⟩)
  have hm : 0 < greatest w := lt_of_lt_of_le hp hvm
  have hmem : some (greatest w) ∈ l := by
    obtain ⟨x, hx, e⟩ := List.mem_map.1 (greatest_mem w (by rw [hw]; intro e; rw [List.map_eq_nil_iff.1 e] at hv; cases hv))
    cases x with
    | none => exact absurd (show (0 : ℝ) = greatest w from e) (ne_of_lt hm)
    | some y => exact (show y = greatest w from e) ▸ hx
  have ea : alphaOf l = l.map (fun x => some (x.getD 0 / greatest w)) := by
    unfold alphaOf
    refine List.map_congr_left fun x _ => ?_
    exact if_neg (ne_of_gt hm)
  refine ⟨greatest w, hvm, hmem, ea, ?_, ?_⟩
  · intro o ho
    rw [ea] at ho
    obtain ⟨x, hx, rfl⟩ := List.mem_map.1 ho
    have hxw : x.getD 0 ≤ greatest w := greatest_ge w _ (List.mem_map.2 ⟨x, hx, rfl⟩)
    have hx0 : 0 ≤ x.getD 0 := by
      cases x with
      | none => exact le_refl _
      | some y => exact h0 y hx
    exact ⟨_, rfl, div_nonneg hx0 (le_of_lt hm), (div_le_one hm).2 hxw⟩
  · rw [ea]
    exact List.mem_map.2 ⟨some (greatest w), hmem, by show some (greatest w / greatest w) = some 1; rw [div_self (ne_of_gt hm)]⟩

/-- **C181, violated.** If all opacities are zero or missing, no pixel has an opacity at all: instead of a transparent image. -/
theorem opacity_zero_violated (l : List (Option ℝ)) (h : ∀ x ∈ l, x.getD 0 = 0) : alphaOf l = l.map fun _ => none := by
  unfold alphaOf
  refine List.map_congr_left fun x _ => if_pos (greatest_zero _ ?_)
  intro y hy
  obtain ⟨z, hz, rfl⟩ := List.mem_map.1 hy
  exact h z hz

example : alphaOf [some 2, none, some 4] = [some (2 / 4), some (0 / 4), some (4 / 4)] := by
  have hg : greatest ([some (2 : ℝ), none, some 4].map fun y => y.getD 0) = 4 := by
    unfold greatest
    have : (([some (2 : ℝ), none, some 4].map fun y => y.getD 0)).max? = some 4 := by
      rw [List.max?_eq_some_iff]
      constructor
      · simp
      · intro b hb
        simp at hb
        rcases hb with rfl | rfl | rfl <;> norm_num
    rw [this]; rfl
  unfold alphaOf
  rw [hg]
  simp

/-! ## Colour scale -/

/-- **C181.** Limits which are given are used; the default ones are values of the image, with all others in between (those which are missing aside). -/
theorem limits_exact (image : List (Option EReal)) (vmin vmax : Option EReal) (h : image ≠ []) :
    ∃ lo hi, limitsOf image vmin vmax = .ok (lo, hi)
      ∧ (∀ a, vmin = some a → lo = some a) ∧ (∀ a, vmax = some a → hi = some a)
      ∧ (vmin = none → (∀ v, some v ∈ image → ∃ a, lo = some a ∧ a ≤ v) ∧ ∀ a, lo = some a → some a ∈ image)
      ∧ (vmax = none → (∀ v, some v ∈ image → ∃ a, hi = some a ∧ v ≤ a) ∧ ∀ a, hi = some a → some a ∈ image) := by
  refine ⟨_, _, if_neg h, ?_, ?_, ?_, ?_⟩
  · rintro a rfl; rfl
  · rintro a rfl; rfl
  · rintro rfl
    show (∀ v, some v ∈ image → ∃ a, (image.filterMap id).min? = some a ∧ a ≤ v) ∧ ∀ a, (image.filterMap id).min? = some a → some a ∈ image
    constructor
    · intro v hv
      have hm : v ∈ image.filterMap id := List.mem_filterMap.2 ⟨some v, hv, rfl⟩
      cases e : (image.filterMap id).min? with
      | none => rw [List.min?_eq_none_iff.1 e] at hm; cases hm
      | some a => exact ⟨a, rfl, (List.min?_eq_some_iff.1 e).2 v hm⟩
    · intro a e
      obtain ⟨x, hx, hxa⟩ := List.mem_filterMap.1 (List.min?_eq_some_iff.1 e).1
      exact (show x = some a from hxa) ▸ hx
  · rintro rfl
    show (∀ v, some v ∈ image → ∃ a, (image.filterMap id).max? = some a ∧ v ≤ a) ∧ ∀ a, (image.filterMap id).max? = some a → some a ∈ image
    constructor
    · intro v hv
      have hm : v ∈ image.filterMap id := List.mem_filterMap.2 ⟨some v, hv, rfl⟩
      cases e : (image.filterMap id).max? with
      | none => rw [List.max?_eq_none_iff.1 e] at hm; cases hm
      | some a => exact ⟨a, rfl, (List.max?_eq_some_iff.1 e).2 v hm⟩
    · intro a e
      obtain ⟨x, hx, hxa⟩ := List.mem_filterMap.1 (List.max?_eq_some_iff.1 e).1
      exact (show x = some a from hxa) ▸ hx

/-- **C181, violated.** In decibels, any pixel with the value zero takes the lower limit of the colours to minus infinity, whatever the others are. -/
theorem limits_zero_violated (image : List (Option ℝ)) (vmax : Option EReal) (h : some 0 ∈ image) :
    ∃ hi, limitsOf (scaled true image) none vmax = .ok (some ⊥, hi) := by
  have hb : (some ⊥ : Option EReal) ∈ scaled true image := List.mem_map.2 ⟨some 0, h, by simp [drawnAs, inDb]⟩
  obtain ⟨lo, hi, e, -, -, hl, -⟩ := limits_exact (scaled true image) none vmax (List.ne_nil_of_mem hb)
  obtain ⟨a, rfl, ha⟩ := (hl rfl).1 ⊥ hb
  exact ⟨hi, by rw [e, le_bot_iff.1 ha]⟩

/-- **C181.** An image without pixel is refused, even with both limits given. -/
theorem limits_empty (vmin vmax : Option EReal) : limitsOf [] vmin vmax = .error .valueError := if_pos rfl

/-! ## What is drawn over the image -/

/-- **C181.** The labels of the horizon are north, east, south and west, at their azimuth from north through east. -/
theorem cardinals_exact : cardinals = [("N", 0), ("E", 90), ("S", 180), ("W", 270)] := rfl

/-- **C181, partial.** One or two coverages are all drawn, in their order and with different colours. Missing: more than two. -/
theorem coverages_partial {M : Type} (mocs : List M) (h : mocs.length ≤ 2) :
    (mocsDrawn mocs).map Prod.fst = mocs ∧ ((mocsDrawn mocs).map Prod.snd).Nodup := by
  match mocs, h with
  | [], _ => exact ⟨rfl, List.nodup_nil⟩
  | [a], _ => exact ⟨rfl, List.nodup_singleton _⟩
  | [a, b], _ => exact ⟨rfl, show ["tab:red", "tab:green"].Nodup by decide⟩
  | _ :: _ :: _ :: _, h => simp at h

/-- **C181, violated.** Only the first two coverages of any list are drawn, the others silently left out. -/
theorem coverages_violated {M : Type} (a b : M) (l : List M) : (mocsDrawn (a :: b :: l)).map Prod.fst = [a, b] := by
  simp [mocsDrawn]

/-- **C181.** With at least as many texts as directions, each direction gets its own text and no other is written; with less, the drawing is refused. -/
theorem texts_exact {C : Type} (coords : List C) (l : List String) :
    (coords.length ≤ l.length → ∃ w, textsOf (.right (coords, .list l)) = .ok w ∧ w.length = coords.length
      ∧ ∀ (i : Nat) (c : C) (s : String), coords[i]? = some c → l[i]? = some s → w[i]? = some (c, s))
    ∧ (l.length < coords.length → textsOf (.right (coords, .list l)) = .error .indexError) := by
  constructor
  · intro h
    refine ⟨coords.zip l, if_pos h, by rw [List.length_zip]; omega, ?_⟩
    intro i c s hc hs
    exact List.getElem?_zip_eq_some.2 ⟨hc, hs⟩
  · intro h
    exact if_neg (by show ¬ coords.length ≤ l.length; omega)

/-- **C181, violated.** A text given as such for one direction, not in a list, is accepted but only its first letter is written; the empty one is
refused. -/
theorem text_letter_violated {C : Type} (c : C) (x : Char) (s : List Char) :
    textsOf (.right ([c], .one (String.ofList (x :: s)))) = .ok [(c, String.ofList [x])] ∧ textsOf (.right ([c], .one "")) = .error .indexError := by
  constructor
  · show (if 1 ≤ (Texts.one (String.ofList (x :: s))).items.length then Except.ok ([c].zip (Texts.one (String.ofList (x :: s))).items) else Except.error Err.indexError) = _
    have e : (Texts.one (String.ofList (x :: s))).items = String.ofList [x] :: s.map fun c => String.ofList [c] := by
      show ((String.ofList (x :: s)).toList.map fun c => String.ofList [c]) = _
      rw [String.toList_ofList]; rfl
    rw [e, if_pos (by simp)]
    rfl
  · show (if 1 ≤ (Texts.one "").items.length then Except.ok ([c].zip (Texts.one "").items) else Except.error Err.indexError) = _
    rw [if_neg (show ¬ 1 ≤ (Texts.one "").items.length by decide)]

example : textsOf (.right ([3, 4], .list ["Cas A", "Cyg A", "Vir A"])) = .ok [(3, "Cas A"), (4, "Cyg A")] := rfl

/-! ## Contours -/

/-- The contours cover a pixel at column `x` and row `y`. -/
def Covered (hpx : Bool) (dims : Nat × Nat) (x y : Nat) : Prop := y < (contourGrid hpx dims).1 ∧ x < (contourGrid hpx dims).2

/-- The image has a pixel at column `x` and row `y`. -/
def InImage (hpx : Bool) (dims : Nat × Nat) (x y : Nat) : Prop := y < (imageGrid hpx dims).1 ∧ x < (imageGrid hpx dims).2

/-- **C181.** The image has the rows of declinations and the columns of right ascensions, for all skies. -/
theorem image_grid (hpx : Bool) (dims : Nat × Nat) (x y : Nat) : InImage hpx dims x y ↔ x < dims.1 ∧ y < dims.2 := by
  cases hpx <;> exact And.comm

/-- **C181, partial.** For skies of HEALPix cells, and all others within a radius, contours cover exactly the image. Missing: whole skies of other
directions. -/
theorem contours_partial (hpx : Bool) (resolution : ℚ) (radius : Option ℚ) (h : hpx = true ∨ radius.isSome) (x y : Nat) :
    Covered hpx (imageDims resolution radius) x y ↔ InImage hpx (imageDims resolution radius) x y := by
  cases hpx with
  | true => exact Iff.rfl
  | false =>
    cases radius with
    | none => simp at h
    | some r => exact Iff.rfl

/-- **C181, violated.** On a whole sky of other directions, contours only cover the left half of the image, at all resolutions. -/
theorem contours_half_violated (resolution : ℚ) (x y : Nat) (h : InImage false (imageDims resolution none) x y) :
    Covered false (imageDims resolution none) x y ↔ 2 * x < (imageDims resolution none).1 := by
  obtain ⟨hx, hy⟩ := (image_grid false _ x y).1 h
  have e : (imageDims resolution none) = (480 * imageScale resolution, 240 * imageScale resolution) := rfl
  rw [e] at hx hy ⊢
  show (y < 480 * imageScale resolution ∧ x < 240 * imageScale resolution) ↔ 2 * x < 480 * imageScale resolution
  have hy' : y < 240 * imageScale resolution := hy
  constructor
  · intro k; omega
  · intro k; exact ⟨by omega, by omega⟩

example : InImage false (imageDims 1 none) 479 239 ∧ ¬ Covered false (imageDims 1 none) 479 239 := by
  have hs : imageScale 1 = 1 := by
    unfold imageScale
    have : ⌊(27 : ℚ) / 40 / 1⌋ = 0 := by rw [Int.floor_eq_iff]; norm_num
    rw [this]; rfl
  have e : imageDims 1 none = (480, 240) := by show (480 * imageScale 1, 240 * imageScale 1) = _; rw [hs]
  rw [e]
  exact ⟨⟨by decide, by decide⟩, fun h => absurd h.2 (by decide)⟩

/-! ## The whole drawing -/

/-- What a keyword needs to be right. -/
def Triple.Good {A : Type} (t : Triple A) (p : A → Prop) : Prop := ∀ (n : Nat), t ≠ .wrong n ∧ ∀ a, t = .right a → p a

private theorem marks_ok {C : Type} (t : Triple (List C)) : (∃ l, marksOf t = .ok l) ↔ t.Good fun _ => True := by
  cases t with
  | none => exact ⟨fun _ n => ⟨nofun, fun _ _ => trivial⟩, fun _ => ⟨[], rfl⟩⟩
  | wrong n => exact ⟨fun ⟨_, h⟩ => (nomatch h), fun h => absurd rfl (h n).1⟩
  | right a => exact ⟨fun _ n => ⟨nofun, fun _ _ => trivial⟩, fun _ => ⟨a, rfl⟩⟩

private theorem contour_ok {V : Type} (t : Triple V) : (∃ l, contourOf t = .ok l) ↔ t.Good fun _ => True := by
  cases t with
  | none => exact ⟨fun _ n => ⟨nofun, fun _ _ => trivial⟩, fun _ => ⟨none, rfl⟩⟩
  | wrong n =>
    refine ⟨fun ⟨l, h⟩ => ?_, fun h => absurd rfl (h n).1⟩
    change (if n = 0 then Except.error Err.indexError else Except.error Err.valueError) = _ at h
    split_ifs at h
  | right a => exact ⟨fun _ n => ⟨nofun, fun _ _ => trivial⟩, fun _ => ⟨some a, rfl⟩⟩

private theorem text_ok {C : Type} (t : Triple (List C × Texts)) : (∃ l, textsOf t = .ok l) ↔ t.Good fun p => p.1.length ≤ p.2.items.length := by
  cases t with
  | none => exact ⟨fun _ n => ⟨nofun, fun _ h => (nomatch h)⟩, fun _ => ⟨[], rfl⟩⟩
  | wrong n => exact ⟨fun ⟨_, h⟩ => (nomatch h), fun h => absurd rfl (h n).1⟩
  | right a =>
    constructor
    · rintro ⟨l, h⟩ n
      refine ⟨nofun, fun b e => ?_⟩
      injection e with e
      subst e
      change (if a.1.length ≤ a.2.items.length then Except.ok (a.1.zip a.2.items) else Except.error Err.indexError) = _ at h
      by_contra hc
      rw [if_neg hc] at h
      cases h
    · intro h
      exact ⟨_, if_pos ((h 0).2 a rfl)⟩

private theorem bind_ex {A B : Type} (x : Except Err A) (f : A → Except Err B) (b : B) (h : x.bind f = .ok b) : ∃ a, x = .ok a ∧ f a = .ok b := by
  cases x with
  | error e => cases h
  | ok a => exact ⟨a, rfl, h⟩

private theorem map_ex {A B : Type} (x : Except Err A) (f : A → B) (b : B) (h : x.map f = .ok b) : ∃ a, x = .ok a ∧ f a = b := by
  cases x with
  | error e => cases h
  | ok a => exact ⟨a, rfl, Except.ok.inj h⟩

/-- **C181.** A sky is drawn exactly if the axes have their place, the image has a pixel, the tuples have three items, and there is a text for each
direction to be named. -/
theorem sky_accepted {C M V : Type} (fresh : Nat) (image : List (Option ℝ)) (k : PlotArgs C M V) :
    (∃ d, skyPlot fresh image k = .ok d) ↔ (∃ l, placed fresh k.ax = .ok l) ∧ image ≠ [] ∧ (k.scatter.Good fun _ => True)
      ∧ (k.text.Good fun p => p.1.length ≤ p.2.items.length) ∧ k.contour.Good fun _ => True := by
  constructor
  · rintro ⟨d, h⟩
    obtain ⟨ax, h1, h⟩ := bind_ex _ _ _ h
    obtain ⟨lim, h2, h⟩ := bind_ex _ _ _ h
    obtain ⟨m, h3, h⟩ := bind_ex _ _ _ h
    obtain ⟨t, h4, h⟩ := bind_ex _ _ _ h
    obtain ⟨c, h5, h⟩ := map_ex _ _ _ h
    refine ⟨⟨ax, h1⟩, ?_, (marks_ok _).1 ⟨m, h3⟩, (text_ok _).1 ⟨t, h4⟩, (contour_ok _).1 ⟨c, h5⟩⟩
    rintro rfl
    rw [show scaled k.db [] = [] from rfl, limits_empty] at h2
    cases h2
  · rintro ⟨⟨ax, h1⟩, h2, h3, h4, h5⟩
    obtain ⟨m, h3⟩ := (marks_ok _).2 h3
    obtain ⟨t, h4⟩ := (text_ok _).2 h4
    obtain ⟨c, h5⟩ := (contour_ok _).2 h5
    obtain ⟨lo, hi, hl, -⟩ := limits_exact (scaled k.db image) k.vmin k.vmax (by unfold scaled; simpa using h2)
    exact ⟨⟨ax, scaled k.db image, k.alpha.map alphaOf, (lo, hi), if k.overlay then cardinals else [], mocsDrawn k.mocs, m, t, c, figEnd k.figname⟩,
      by simp only [skyPlot, h1, hl, h3, h4, h5, Except.bind, Except.map]⟩

/-- **C181.** What a drawing contains. -/
theorem sky_content {C M V : Type} (fresh : Nat) (image : List (Option ℝ)) (k : PlotArgs C M V) (d : SkyDrawn C M V) (h : skyPlot fresh image k = .ok d) :
    d.values = image.map (drawnAs k.db) ∧ d.opacity = k.alpha.map alphaOf ∧ d.mocs = mocsDrawn k.mocs
      ∧ (k.overlay = true → d.labels = cardinals) ∧ (k.overlay = false → d.labels = [])
      ∧ (∀ l, k.scatter = .right l → d.marks = l) ∧ (k.scatter = .none → d.marks = [])
      ∧ (∀ l t, k.text = .right (l, t) → d.texts = l.zip t.items) ∧ (k.text = .none → d.texts = [])
      ∧ (∀ v, k.contour = .right v → d.contour = some v) ∧ (k.contour = .none → d.contour = none)
      ∧ d.done = figEnd k.figname ∧ .ok d.axes = placed fresh k.ax ∧ limitsOf d.values k.vmin k.vmax = .ok d.limits := by
  obtain ⟨ax, h1, h⟩ := bind_ex _ _ _ h
  obtain ⟨lim, h2, h⟩ := bind_ex _ _ _ h
  obtain ⟨m, h3, h⟩ := bind_ex _ _ _ h
  obtain ⟨t, h4, h⟩ := bind_ex _ _ _ h
  obtain ⟨c, h5, rfl⟩ := map_ex _ _ _ h
  refine ⟨rfl, rfl, rfl, fun e => if_pos e, fun e => if_neg (by rw [e]; decide), ?_, ?_, ?_, ?_, ?_, ?_, rfl, h1.symm, h2⟩
  · intro l e; rw [e] at h3; exact (Except.ok.inj h3).symm
  · intro e; rw [e] at h3; exact (Except.ok.inj h3).symm
  · intro l s e
    rw [e] at h4
    change (if l.length ≤ s.items.length then Except.ok (l.zip s.items) else Except.error Err.indexError) = _ at h4
    by_cases hc : l.length ≤ s.items.length
    · rw [if_pos hc] at h4; exact (Except.ok.inj h4).symm
    · rw [if_neg hc] at h4; cases h4
  · intro e; rw [e] at h4; exact (Except.ok.inj h4).symm
  · intro v e; rw [e] at h5; exact (Except.ok.inj h5).symm
  · intro e; rw [e] at h5; exact (Except.ok.inj h5).symm

/-- **C181.** With all else right, an empty tuple for the contours is an index out of range, and any other of a wrong length a wrong value, as it is for marks and texts. -/
theorem sky_tuples {C V : Type} (n : Nat) :
    contourOf (.wrong n : Triple V) = .error (if n = 0 then .indexError else .valueError)
      ∧ marksOf (.wrong n : Triple (List C)) = .error .valueError ∧ textsOf (.wrong n : Triple (List C × Texts)) = .error .valueError := by
  refine ⟨?_, rfl, rfl⟩
  show (if n = 0 then Except.error Err.indexError else Except.error Err.valueError) = _
  split_ifs <;> rfl

/-- **C181, violated.** Drawings which are shown or saved close all figures, those of the caller too; those which are refused or returned leave one more
open, even if a figure was given. -/
theorem figures_violated {C M V : Type} (before : Nat) (fresh : Nat) (image : List (Option ℝ)) (k : PlotArgs C M V) :
    (∀ d, skyPlot fresh image k = .ok d → figuresAfter before (skyPlot fresh image k) = if (∃ n, k.figname = some n ∧ n ≠ "" ∧ n.toLower = "return") then before + 1 else 0)
      ∧ ∀ e, skyPlot fresh image k = .error e → figuresAfter before (skyPlot fresh image k) = before + 1 := by
  constructor
  · intro d h
    have hd := (sky_content fresh image k d h).2.2.2.2.2.2.2.2.2.2.2.1
    rw [h]
    show (if d.done = .returned then before + 1 else 0) = _
    have : d.done = .returned ↔ ∃ n, k.figname = some n ∧ n ≠ "" ∧ n.toLower = "return" := by
      rw [hd]
      cases k.figname with
      | none => exact ⟨nofun, fun ⟨_, h, _⟩ => nomatch h⟩
      | some n =>
        show (if n = "" then FigEnd.shown else if n.toLower = "return" then FigEnd.returned else FigEnd.saved n) = .returned ↔ _
        by_cases h1 : n = ""
        · rw [if_pos h1]
          refine ⟨nofun, ?_⟩
          rintro ⟨m, e, h2, -⟩
          exact absurd ((Option.some.inj e) ▸ h1) h2
        · rw [if_neg h1]
          by_cases h2 : n.toLower = "return"
          · rw [if_pos h2]; exact ⟨fun _ => ⟨n, rfl, h1, h2⟩, fun _ => rfl⟩
          · rw [if_neg h2]
            refine ⟨nofun, ?_⟩
            rintro ⟨m, e, -, h3⟩
            exact absurd ((Option.some.inj e) ▸ h3) h2
    by_cases hc : d.done = .returned
    · rw [if_pos hc, if_pos (this.1 hc)]
    · rw [if_neg hc, if_neg (fun x => hc (this.2 x))]
  · intro e h
    rw [h]; rfl

example : ∃ d : SkyDrawn Nat Nat Nat, skyPlot 9 [some 1, none] ⟨true, .within [1, 2] 0, none, false, none, none, true, [5, 6, 7], .right [3], .right ([3], .list ["x"]), .none, some "a.png"⟩ = .ok d :=
  (sky_accepted _ _ _).2 ⟨⟨_, rfl⟩, by simp, fun _ => ⟨nofun, fun _ _ => trivial⟩, fun _ => ⟨nofun, fun a e => by injection e with e; subst e; decide⟩, fun _ => ⟨nofun, nofun⟩⟩

end Verif.Astro
