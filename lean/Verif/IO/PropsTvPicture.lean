/-
Picture of a NenuFAR-TV image: sources which are named, and keywords of the user.
-/
import Verif.IO.TvPicture

namespace Verif.IO.TvPicture

/-- **C189** (names, exactly): with names asked for, a source is named exactly when it is listed and within eight tenths of the field of view, if there is any; fixed sources come first, in the
order of the file. -/
theorem picture_names (fov : ℚ) (beamContours : Bool) (beam stokes : String) (l : Listed) (kw : Keywords) (p : Plot) (h : savePng true beamContours fov beam stokes l kw = .ok p)
    (hn : ∃ s ∈ l.fixed ++ l.solar, s.sep ≤ 8 / 10 * fov) : p.text = some ((l.fixed ++ l.solar).filter fun s => decide (s.sep ≤ 8 / 10 * fov)) ∧
    ∃ t, p.text = some t ∧ ∀ s, s ∈ t ↔ s ∈ l.fixed ++ l.solar ∧ s.sep ≤ 8 / 10 * fov := by
  have hp : p.text = textOf true fov l kw := by
    unfold savePng at h
    split at h
    · cases h
    · cases h; rfl
  have hk : kept fov l = (l.fixed ++ l.solar).filter fun s => decide (s.sep ≤ 8 / 10 * fov) := (List.filter_append _ _).symm
  have hne : (kept fov l).length ≠ 0 := by
    obtain ⟨s, hs, h1⟩ := hn
    rw [hk]
    exact fun h0 => List.not_mem_nil (List.length_eq_zero_iff.1 h0 ▸ List.mem_filter.2 ⟨hs, decide_eq_true h1⟩)
  have ht : p.text = some (kept fov l) := by
    rw [hp]
    unfold textOf
    rw [if_pos ⟨rfl, hne⟩]
  refine ⟨hk ▸ ht, _, ht, fun s => ?_⟩
  rw [hk, List.mem_filter, decide_eq_true_iff]

/-- **C189** (names left out, violated): in any field of view wider than 12.5 degrees, as the one by default, a listed source can be inside the radius drawn and have no name: all those farther than
eight tenths of the field of view. -/
theorem unnamed_violated (fov : ℚ) (hf : 25 / 2 < fov) : (∃ sep : ℚ, 8 / 10 * fov < sep ∧ sep ≤ fov - 5 / 2) ∧
    ∀ (beamContours : Bool) (beam stokes : String) (l : Listed) (p : Plot) (s : Source), savePng true beamContours fov beam stokes l ⟨none, none, []⟩ = .ok p →
      8 / 10 * fov < s.sep → s.sep ≤ fov - 5 / 2 → s.sep ≤ p.radius ∧ ∀ t, p.text = some t → s ∉ t := by
  refine ⟨⟨fov - 5 / 2, by linarith, le_refl _⟩, fun bc beam stokes l p s h h1 h2 => ?_⟩
  have e : p = ⟨textOf true fov l ⟨none, none, []⟩, contourOf bc beam ⟨none, none, []⟩, fov - 5 / 2, "Stokes " ++ stokes⟩ := by
    unfold savePng at h
    rw [if_neg (by simp)] at h
    cases h
    rfl
  subst e
  refine ⟨h2, fun t ht hs => ?_⟩
  have ht' : textOf true fov l ⟨none, none, []⟩ = some t := ht
  unfold textOf at ht'
  split at ht'
  · cases ht'
    rcases List.mem_append.1 hs with h3 | h3 <;>
    · have := of_decide_eq_true (List.mem_filter.1 h3).2
      linarith
  · cases ht'

/-- **C189** (names outside, violated): in a field of view narrower than 12.5 degrees, listed sources outside the radius drawn are named: all those up to eight tenths of the field of view. -/
theorem outside_violated (fov : ℚ) (h0 : 0 < fov) (hf : fov < 25 / 2) : (∃ sep : ℚ, 0 < sep ∧ fov - 5 / 2 < sep ∧ sep ≤ 8 / 10 * fov) ∧
    ∀ (beamContours : Bool) (beam stokes : String) (l : Listed) (p : Plot) (s : Source), savePng true beamContours fov beam stokes l ⟨none, none, []⟩ = .ok p →
      s ∈ l.fixed ++ l.solar → fov - 5 / 2 < s.sep → s.sep ≤ 8 / 10 * fov → p.radius < s.sep ∧ ∃ t, p.text = some t ∧ s ∈ t := by
  refine ⟨⟨8 / 10 * fov, by linarith, by linarith, le_refl _⟩, fun bc beam stokes l p s h hs h1 h2 => ?_⟩
  obtain ⟨_, t, ht, hm⟩ := picture_names fov bc beam stokes l _ p h ⟨s, hs, h2⟩
  refine ⟨?_, t, ht, (hm s).2 ⟨hs, h2⟩⟩
  unfold savePng at h
  rw [if_neg (by simp)] at h
  cases h
  exact h1

/-- **C189** (partial): in a field of view of 12.5 degrees, names and radius agree: a listed source is named exactly when it is within the radius drawn. -/
theorem picture_names_partial (beamContours : Bool) (beam stokes : String) (l : Listed) (kw : Keywords) (p : Plot) (h : savePng true beamContours (25 / 2) beam stokes l kw = .ok p)
    (hn : ∃ s ∈ l.fixed ++ l.solar, s.sep ≤ p.radius) : ∃ t, p.text = some t ∧ ∀ s ∈ l.fixed ++ l.solar, (s ∈ t ↔ s.sep ≤ p.radius) := by
  have hr : p.radius = 10 := by
    unfold savePng at h
    split at h
    · cases h
    · cases h
      show (25 / 2 : ℚ) - 5 / 2 = 10
      norm_num
  rw [hr] at hn ⊢
  have e : (8 / 10 * (25 / 2) : ℚ) = 10 := by norm_num
  obtain ⟨_, t, ht, hm⟩ := picture_names (25 / 2) beamContours beam stokes l kw p h (by rw [e]; exact hn)
  rw [e] at hm
  exact ⟨t, ht, fun s hs => (hm s).trans (and_iff_right hs)⟩

/-- **C189** (keywords, violated): the text of the user is drawn or dropped depending on the sky: it is dropped exactly when names are asked for and a listed source is in the field. -/
theorem user_text_violated (showSources beamContours : Bool) (fov : ℚ) (beam stokes : String) (l : Listed) (mine : List Source) (contour : Option String) :
    ∃ p, savePng showSources beamContours fov beam stokes l ⟨some mine, contour, []⟩ = .ok p ∧
      ((showSources = false ∨ ∀ s ∈ l.fixed ++ l.solar, 8 / 10 * fov < s.sep) → p.text = some mine) ∧
      ((showSources = true ∧ ∃ s ∈ l.fixed ++ l.solar, s.sep ≤ 8 / 10 * fov) → p.text = some (kept fov l)) ∧
      (beamContours = true → p.contour = some beam) ∧ (beamContours = false → p.contour = contour) := by
  refine ⟨_, if_neg (by simp), ?_, ?_, fun h => if_pos h, fun h => if_neg (by rw [h]; exact Bool.false_ne_true)⟩
  · intro h
    refine if_neg ?_
    rintro ⟨h1, h2⟩
    rcases h with h | h
    · rw [h] at h1; cases h1
    · obtain ⟨s, hs⟩ := List.exists_mem_of_ne_nil _ (fun h0 => h2 (by rw [h0]; rfl) : kept fov l ≠ [])
      have hs' : s ∈ (l.fixed ++ l.solar).filter fun s => decide (s.sep ≤ 8 / 10 * fov) := by
        rw [List.filter_append]; exact hs
      have h3 := h s (List.mem_filter.1 hs').1
      have h4 := of_decide_eq_true (List.mem_filter.1 hs').2
      linarith
  · rintro ⟨h1, s, hs, h2⟩
    refine if_pos ⟨h1, fun h0 => ?_⟩
    have : s ∈ kept fov l := by
      show s ∈ List.filter _ _ ++ List.filter _ _
      rw [← List.filter_append]
      exact List.mem_filter.2 ⟨hs, decide_eq_true h2⟩
    rw [List.length_eq_zero_iff.1 h0] at this
    cases this

/-- **C189** (keywords refused, violated): the centre, the radius and the label of the bar cannot be chosen although the other arguments of `plot` can: they always raise. -/
theorem keyword_twice_violated (showSources beamContours : Bool) (fov : ℚ) (beam stokes : String) (l : Listed) (kw : Keywords) :
    (savePng showSources beamContours fov beam stokes l kw = .error .typeError ↔ "center" ∈ kw.others ∨ "radius" ∈ kw.others ∨ "colorbar_label" ∈ kw.others) ∧
    ((∃ p, savePng showSources beamContours fov beam stokes l kw = .ok p ∧ p.radius = fov - 5 / 2 ∧ p.label = "Stokes " ++ stokes) ↔
      ¬ ("center" ∈ kw.others ∨ "radius" ∈ kw.others ∨ "colorbar_label" ∈ kw.others)) := by
  have e : (kw.others.any fun k => decide (k ∈ ["center", "radius", "colorbar_label"])) = true ↔ "center" ∈ kw.others ∨ "radius" ∈ kw.others ∨ "colorbar_label" ∈ kw.others := by
    rw [List.any_eq_true]
    constructor
    · rintro ⟨k, hk, h⟩
      have := of_decide_eq_true h
      simp only [List.mem_cons, List.not_mem_nil, or_false] at this
      rcases this with rfl | rfl | rfl
      · exact Or.inl hk
      · exact Or.inr (Or.inl hk)
      · exact Or.inr (Or.inr hk)
    · rintro (h | h | h)
      · exact ⟨_, h, by decide +kernel⟩
      · exact ⟨_, h, by decide +kernel⟩
      · exact ⟨_, h, by decide +kernel⟩
  unfold savePng
  by_cases h : (kw.others.any fun k => decide (k ∈ ["center", "radius", "colorbar_label"])) = true
  · rw [if_pos h]
    exact ⟨iff_of_true rfl (e.1 h), iff_of_false (by rintro ⟨p, hp, _⟩; cases hp) (fun hn => hn (e.1 h))⟩
  · rw [if_neg h]
    exact ⟨iff_of_false (by intro hp; cases hp) (fun hn => h (e.2 hn)), iff_of_true ⟨_, rfl, rfl, rfl⟩ (fun hn => h (e.2 hn))⟩

/-- The hypotheses are met with the field of view by default: one source named, one drawn without a name. -/
example : (savePng true true 27 "beam" "I" ⟨[⟨"Cas A", 10⟩, ⟨"Cyg A", 23⟩], [⟨"Sun", 20⟩]⟩ ⟨none, none, []⟩).toOption.map (fun p => (p.text, p.contour, p.radius, p.label)) =
    some (some [⟨"Cas A", 10⟩, ⟨"Sun", 20⟩], some "beam", 49 / 2, "Stokes I") := by decide +kernel

example : (savePng true false 5 "beam" "I" ⟨[⟨"Cas A", 3⟩], []⟩ ⟨none, none, []⟩).toOption.map (fun p => (p.text, p.contour, p.radius)) = some (some [⟨"Cas A", 3⟩], none, 5 / 2) := by
  decide +kernel

end Verif.IO.TvPicture
