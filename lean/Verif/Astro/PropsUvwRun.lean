import Verif.Astro.UvwRun
import Verif.Astro.PropsUv
import Verif.Geom.Props

/-!
# UVW coordinates of an interferometer (property C160)
-/

namespace Verif.Astro

open Verif.IO
open Verif.Geom (V3)
open Real

/-! ## Specification -/

/-- Angle, in radians, from the meridian of Greenwich to the right ascension `ra`, eastwards. -/
noncomputable def eastOf (jd ra : ℝ) : ℝ := inRad (ra - Geom.fastLst jd 0)

/-- Coordinates of the vector `b`, given in the frame fixed to the Earth, along the axes of a direction: `u` eastwards, `v` northwards and `w` towards the direction. -/
noncomputable def alongAxes (jd ra dec : ℝ) (b : V3) : V3 :=
  ⟨Geom.dot b ⟨-sin (eastOf jd ra), cos (eastOf jd ra), 0⟩,
   Geom.dot b ⟨-sin (inRad dec) * cos (eastOf jd ra), -sin (inRad dec) * sin (eastOf jd ra), cos (inRad dec)⟩,
   Geom.dot b ⟨cos (inRad dec) * cos (eastOf jd ra), cos (inRad dec) * sin (eastOf jd ra), sin (inRad dec)⟩⟩

/-- From the antenna `j` to the antenna `i`. -/
noncomputable def fromTo (pos : List V3) (p : Nat × Nat) : V3 := Geom.sub (pos.getD p.1 ⟨0, 0, 0⟩) (pos.getD p.2 ⟨0, 0, 0⟩)

/-- Position of the phase centre at the `k`-th time. -/
def centreAt (zen : ℝ → ℝ × ℝ) (c : UvwCentre) (k : Nat) (jd : ℝ) : ℝ × ℝ :=
  match c with
  | .zenith => zen jd
  | .one ra dec => (ra, dec)
  | .many l => l.getD k (0, 0)

/-- Positions which can be used with `n` times. -/
def UvwCentre.Fits (c : UvwCentre) (n : Nat) : Prop := ∀ l, c = .many l → l.length = n

/-! ## Angles -/

theorem whole_turns (x : ℝ) : ∃ k : ℤ, Geom.wrap360 x = x - 360 * k := ⟨⌊x / 360⌋, rfl⟩

theorem inRad_turns (x : ℝ) (k : ℤ) : inRad (x - 360 * k) = inRad x - k * (2 * π) := by unfold inRad; ring

theorem lst_turns (jd lon : ℝ) : ∃ k : ℤ, Geom.fastLst jd lon = Geom.fastLst jd 0 + lon - 360 * k := by
  unfold Geom.fastLst
  rw [add_zero]
  obtain ⟨a, ha⟩ := whole_turns (Geom.wrap360 (15 * (18697374558 / 1000000000 + 2406570982441908 / 100000000000000 * (jd - 2451545))) + lon)
  obtain ⟨b, hb⟩ := whole_turns (Geom.wrap360 (15 * (18697374558 / 1000000000 + 2406570982441908 / 100000000000000 * (jd - 2451545))))
  refine ⟨a - b, ?_⟩
  rw [ha, hb]
  push_cast
  ring

theorem hour_turns (jd lon ra : ℝ) : ∃ k : ℤ, inRad (Geom.fastHourAngle (Geom.fastLst jd lon) ra) = -eastOf jd (ra - lon) - k * (2 * π) := by
  obtain ⟨a, ha⟩ := lst_turns jd lon
  obtain ⟨b, hb⟩ := whole_turns (Geom.fastLst jd lon - ra)
  refine ⟨a + b, ?_⟩
  unfold Geom.fastHourAngle
  rw [hb, ha]
  unfold eastOf inRad
  push_cast
  ring

theorem sub_neg' (a b : V3) : Geom.neg (Geom.sub a b) = Geom.sub b a := by
  ext <;> simp [Geom.neg, Geom.sub]

/-- One baseline: the axes are those of a right ascension less by the longitude. -/
theorem uvw_axes (jd lon ra dec : ℝ) (a b : V3) :
    Geom.uvw (inRad (Geom.fastHourAngle (Geom.fastLst jd lon) ra)) (inRad dec) (Geom.sub a b) = alongAxes jd (ra - lon) dec (Geom.sub b a) := by
  obtain ⟨k, hk⟩ := hour_turns jd lon ra
  have hs : sin (inRad (Geom.fastHourAngle (Geom.fastLst jd lon) ra)) = -sin (eastOf jd (ra - lon)) := by
    rw [hk, sin_sub_int_mul_two_pi, sin_neg]
  have hc : cos (inRad (Geom.fastHourAngle (Geom.fastLst jd lon) ra)) = cos (eastOf jd (ra - lon)) := by
    rw [hk, cos_sub_int_mul_two_pi, cos_neg]
  unfold Geom.uvw alongAxes
  ext <;> simp only [Geom.neg, Geom.mulVec, Geom.uvwMatrix, Geom.dot, Geom.sub] <;> rw [hs, hc] <;> ring

theorem baselines_fromTo (pos : List V3) (jd lon ra dec : ℝ) :
    (itrfBaselines pos).map (Geom.uvw (inRad (Geom.fastHourAngle (Geom.fastLst jd lon) ra)) (inRad dec))
      = (tril pos.length).map fun p => alongAxes jd (ra - lon) dec (fromTo pos p) := by
  unfold itrfBaselines
  rw [List.map_map]
  exact List.map_congr_left fun p _ => uvw_axes jd lon ra dec _ _

/-! ## Shapes -/

theorem spread_same {α β γ : Type} (f : α → β → γ) (a : List α) (b : List β) (h : a.length = b.length) : spread f a b = .ok (List.zipWith f a b) := by
  unfold spread; rw [if_pos h]

theorem spread_single {α β γ : Type} (f : α → β → γ) (a : List α) (y : β) : spread f a [y] = .ok (a.map fun x => f x y) := by
  unfold spread
  by_cases h : a.length = ([y] : List β).length
  · rw [if_pos h]
    obtain ⟨x, rfl⟩ := List.length_eq_one_iff.1 (show a.length = 1 from h)
    rfl
  · rw [if_neg h, if_neg (show ¬ a.length = 1 from h), if_pos (show ([y] : List β).length = 1 from rfl)]
    simp

theorem spread_len {α β γ : Type} (f : α → β → γ) (a : List α) (b : List β) {l : List γ} (h : spread f a b = .ok l) :
    a.length = b.length ∧ l.length = a.length ∨ a.length = 1 ∧ l.length = b.length ∨ b.length = 1 ∧ l.length = a.length := by
  unfold spread at h
  by_cases h1 : a.length = b.length
  · rw [if_pos h1] at h; cases h
    exact .inl ⟨h1, by simp [h1]⟩
  rw [if_neg h1] at h
  by_cases h2 : a.length = 1
  · rw [if_pos h2] at h; cases h
    obtain ⟨x, rfl⟩ := List.length_eq_one_iff.1 h2
    exact .inr (.inl ⟨h2, by simp⟩)
  rw [if_neg h2] at h
  by_cases h3 : b.length = 1
  · rw [if_pos h3] at h; cases h
    obtain ⟨x, rfl⟩ := List.length_eq_one_iff.1 h3
    exact .inr (.inr ⟨h3, by simp⟩)
  · rw [if_neg h3] at h
    exact nomatch h

/-- The rows of a computation which succeeds. -/
noncomputable def uvwRows (lon : ℝ) (zen : ℝ → ℝ × ℝ) (pos : List V3) (c : UvwCentre) (jds : List ℝ) : List (Nat × Nat → V3) :=
  jds.mapIdx fun k t => fun p => alongAxes t ((centreAt zen c k t).1 - lon) (centreAt zen c k t).2 (fromTo pos p)

theorem uvw_ok (lon : ℝ) (zen : ℝ → ℝ × ℝ) (pos : List V3) (c : UvwCentre) (jds : List ℝ) (h : c.Fits jds.length) :
    computeUvw lon zen pos c jds = .ok ((uvwRows lon zen pos c jds).map fun f => (tril pos.length).map f) := by
  unfold computeUvw
  obtain ⟨lha, hl, h1, h2⟩ : ∃ lha, spread Geom.fastHourAngle (jds.map fun t => Geom.fastLst t lon) (centreRa zen c jds) = .ok lha
      ∧ lha.length = jds.length
      ∧ ∀ (k : Nat) (hk : k < jds.length), lha[k]? = some (Geom.fastHourAngle (Geom.fastLst jds[k] lon) (centreAt zen c k jds[k]).1) := by
    cases c with
    | zenith =>
      refine ⟨_, spread_same _ _ _ (by simp [centreRa]), by simp [centreRa], fun k hk => ?_⟩
      simp [centreRa, centreAt, hk]
    | one ra dec =>
      refine ⟨_, spread_single _ _ _, by simp, fun k hk => ?_⟩
      simp [centreAt, hk]
    | many l =>
      have e := h l rfl
      refine ⟨_, spread_same _ _ _ (by simp [centreRa, e]), by simp [centreRa, e], fun k hk => ?_⟩
      simp [centreRa, centreAt, hk, e]
  have h3 : (centreDec zen c jds).length = jds.length := by
    cases c with
    | zenith => simp [centreDec]
    | one ra dec => simp [centreDec]
    | many l => simp [centreDec, h l rfl]
  have h4 : ∀ (k : Nat) (hk : k < jds.length), (centreDec zen c jds)[k]? = some (centreAt zen c k jds[k]).2 := by
    intro k hk
    cases c with
    | zenith => simp [centreDec, centreAt, hk]
    | one ra dec => simp [centreDec, centreAt, hk]
    | many l => simp [centreDec, centreAt, hk, h l rfl]
  rw [hl]
  show projected pos lha (centreDec zen c jds) jds.length = _
  unfold projected
  rw [if_pos ⟨h1, h3⟩]
  congr 1
  apply List.ext_getElem?
  intro k
  by_cases hk : k < jds.length
  · rw [List.getElem?_zipWith, h2 k hk, h4 k hk]
    show some _ = _
    rw [baselines_fromTo]
    simp [uvwRows, hk]
  · rw [List.getElem?_eq_none (by simp [h1, h3]; omega), List.getElem?_eq_none (by simp [uvwRows]; omega)]

/-- **C160**: coordinates are refused exactly if the phase centre is a list of another length than the times, a list of one position included. -/
theorem uvw_refused (lon : ℝ) (zen : ℝ → ℝ × ℝ) (pos : List V3) (c : UvwCentre) (jds : List ℝ) :
    computeUvw lon zen pos c jds = .error .valueError ↔ ∃ l, c = .many l ∧ l.length ≠ jds.length := by
  constructor
  · intro h
    by_contra hn
    rw [uvw_ok lon zen pos c jds fun l hl => by_contra fun he => hn ⟨l, hl, he⟩] at h
    exact nomatch h
  · rintro ⟨l, rfl, hl⟩
    unfold computeUvw
    cases hs : spread Geom.fastHourAngle (jds.map fun t => Geom.fastLst t lon) (centreRa zen (.many l) jds) with
    | error e =>
      unfold spread at hs
      split_ifs at hs
      cases hs
      rfl
    | ok lha =>
      show projected pos lha _ _ = _
      unfold projected
      rw [if_neg]
      rintro ⟨_, h2⟩
      exact hl (by simpa [centreDec] using h2)

/-- **C160**: one row for each time, and in it one item for each pair of antennas `i ≥ j`: the vector from `j` to `i`, along the axes of a
direction which is the phase centre turned westwards by the longitude of the observer. -/
theorem uvw_rows (lon : ℝ) (zen : ℝ → ℝ × ℝ) (pos : List V3) (c : UvwCentre) (jds : List ℝ) (h : c.Fits jds.length) :
    ∃ out, computeUvw lon zen pos c jds = .ok out ∧ out.length = jds.length
      ∧ ∀ (k : Nat) (hk : k < jds.length), out[k]? = some ((tril pos.length).map fun p =>
          alongAxes jds[k] ((centreAt zen c k jds[k]).1 - lon) (centreAt zen c k jds[k]).2 (fromTo pos p)) := by
  refine ⟨_, uvw_ok lon zen pos c jds h, by simp [uvwRows], fun k hk => ?_⟩
  simp [uvwRows, hk]

/-- **C160** (in part): seen from the meridian of Greenwich, they are along the axes of the phase centre. -/
theorem uvw_greenwich_partial (zen : ℝ → ℝ × ℝ) (pos : List V3) (c : UvwCentre) (jds : List ℝ) (h : c.Fits jds.length) :
    ∃ out, computeUvw 0 zen pos c jds = .ok out ∧ out.length = jds.length
      ∧ ∀ (k : Nat) (hk : k < jds.length), out[k]? = some ((tril pos.length).map fun p =>
          alongAxes jds[k] (centreAt zen c k jds[k]).1 (centreAt zen c k jds[k]).2 (fromTo pos p)) := by
  obtain ⟨out, h1, h2, h3⟩ := uvw_rows 0 zen pos c jds h
  refine ⟨out, h1, h2, fun k hk => ?_⟩
  rw [h3 k hk, sub_zero]

theorem eastOf_sub (jd ra lon : ℝ) : eastOf jd (ra - lon) = eastOf jd ra - inRad lon := by
  unfold eastOf inRad; ring

/-- **C160** (violated): anywhere else, for every phase centre but the poles and at every time, there are two antennas whose third coordinate is not
the one towards the phase centre. -/
theorem uvw_longitude_violated (lon : ℝ) (hlon : cos (inRad lon) ≠ 1) (zen : ℝ → ℝ × ℝ) (jd ra dec : ℝ) (hd : cos (inRad dec) ≠ 0) :
    ∃ pos : List V3, pos.length = 2 ∧ ∃ row, computeUvw lon zen pos (.one ra dec) [jd] = .ok [row]
      ∧ ∃ r, row[1]? = some r ∧ r.z ≠ (alongAxes jd ra dec (fromTo pos (1, 0))).z := by
  refine ⟨[⟨0, 0, 0⟩, ⟨cos (inRad dec) * cos (eastOf jd ra), cos (inRad dec) * sin (eastOf jd ra), sin (inRad dec)⟩], rfl, ?_⟩
  refine ⟨_, uvw_ok lon zen _ (.one ra dec) [jd] (fun l h => nomatch h), _, rfl, ?_⟩
  have e : (fromTo [⟨0, 0, 0⟩, ⟨cos (inRad dec) * cos (eastOf jd ra), cos (inRad dec) * sin (eastOf jd ra), sin (inRad dec)⟩] (1, 0))
      = ⟨cos (inRad dec) * cos (eastOf jd ra), cos (inRad dec) * sin (eastOf jd ra), sin (inRad dec)⟩ := by
    ext <;> simp [fromTo, Geom.sub]
  show (alongAxes jd (ra - lon) dec (fromTo _ (1, 0))).z ≠ _
  rw [e]
  simp only [alongAxes, Geom.dot]
  rw [eastOf_sub, cos_sub, sin_sub]
  intro h
  apply hlon
  have h1 := sin_sq_add_cos_sq (eastOf jd ra)
  have h2 : cos (inRad dec) ^ 2 * (cos (inRad lon) - 1) = 0 := by
    linear_combination h + (cos (inRad dec) ^ 2 - cos (inRad dec) ^ 2 * cos (inRad lon)) * h1
  rcases mul_eq_zero.1 h2 with h3 | h3
  · exact absurd (pow_eq_zero_iff (two_ne_zero) |>.1 h3) hd
  · linarith

theorem axes_length (jd ra dec : ℝ) (b : V3) : Geom.dot (alongAxes jd ra dec b) (alongAxes jd ra dec b) = Geom.dot b b := by
  unfold alongAxes
  generalize eastOf jd ra = A
  generalize inRad dec = D
  have s1 := sin_sq_add_cos_sq A
  have s2 := sin_sq_add_cos_sq D
  simp only [Geom.dot]
  linear_combination (b.x ^ 2 + b.y ^ 2) * s1 + ((b.x * cos A + b.y * sin A) ^ 2 + b.z ^ 2) * s2

/-- **C160**: the lengths of the baselines are kept. -/
theorem uvw_distances (lon : ℝ) (zen : ℝ → ℝ × ℝ) (pos : List V3) (c : UvwCentre) (jds : List ℝ) {out : List (List V3)}
    (h : computeUvw lon zen pos c jds = .ok out) (k : Nat) (hk : k < out.length) (m : Nat) (hm : m < (tril pos.length).length) :
    ∃ r, (out[k])[m]? = some r ∧ Geom.dot r r = Geom.dot (fromTo pos (tril pos.length)[m]) (fromTo pos (tril pos.length)[m]) := by
  have hf : c.Fits jds.length := by
    intro l hl
    by_contra hn
    rw [(uvw_refused lon zen pos c jds).2 ⟨l, hl, hn⟩] at h
    exact nomatch h
  obtain ⟨o, h1, h2, h3⟩ := uvw_rows lon zen pos c jds hf
  rw [h1] at h
  cases h
  have h4 := h3 k (h2 ▸ hk)
  rw [List.getElem?_eq_getElem hk] at h4
  rw [Option.some.inj h4]
  refine ⟨_, by rw [List.getElem?_map, List.getElem?_eq_getElem hm]; rfl, ?_⟩
  exact axes_length _ _ _ _

/-! ## Coverage -/

/-- **C160**: the coverage of `n` antennas has `n²` points for each time. -/
theorem coverage_of_count (lon : ℝ) (zen : ℝ → ℝ × ℝ) (pos : List V3) (c : UvwCentre) (jds : List ℝ) (h : c.Fits jds.length) :
    ∃ out, coverageOf lon zen pos c jds = .ok out ∧ out.length = jds.length ∧ ∀ row ∈ out, row.length = pos.length * pos.length := by
  have e : coverageOf lon zen pos c jds
      = uvCoverage (tril pos.length).length (((uvwRows lon zen pos c jds).map fun f => fun p => asUvw (f p)).map fun f => (tril pos.length).map f) := by
    unfold coverageOf
    rw [uvw_ok lon zen pos c jds h]
    show uvCoverage _ _ = _
    rw [List.map_map, List.map_map]
    congr 1
    refine List.map_congr_left fun f _ => ?_
    show ((tril pos.length).map f).map asUvw = _
    rw [List.map_map]
    rfl
  rw [e, coverage_exact]
  refine ⟨_, rfl, by simp [uvwRows], ?_⟩
  exact coverage_count _ _ (coverage_exact _ _)

theorem axes_opposite (jd ra dec : ℝ) (pos : List V3) (i j : Nat) :
    (alongAxes jd ra dec (fromTo pos (i, j))).x = -(alongAxes jd ra dec (fromTo pos (j, i))).x
      ∧ (alongAxes jd ra dec (fromTo pos (i, j))).y = -(alongAxes jd ra dec (fromTo pos (j, i))).y := by
  simp only [alongAxes, fromTo, Geom.sub, Geom.dot]
  constructor <;> ring

/-- **C160**: every ordered pair of different antennas has its two first coordinates, as `u` and `v`, in the coverage. -/
theorem coverage_of_pairs (lon : ℝ) (zen : ℝ → ℝ × ℝ) (pos : List V3) (c : UvwCentre) (jds : List ℝ) (h : c.Fits jds.length) :
    ∃ out, coverageOf lon zen pos c jds = .ok out ∧ ∀ (k : Nat) (hk : k < jds.length), ∃ row, out[k]? = some row ∧
      ∀ i j : Nat, i < pos.length → j < pos.length → i ≠ j → ∃ x ∈ row,
        x.u = (alongAxes jds[k] ((centreAt zen c k jds[k]).1 - lon) (centreAt zen c k jds[k]).2 (fromTo pos (i, j))).x
        ∧ x.v = (alongAxes jds[k] ((centreAt zen c k jds[k]).1 - lon) (centreAt zen c k jds[k]).2 (fromTo pos (i, j))).y := by
  have e : coverageOf lon zen pos c jds
      = uvCoverage (tril pos.length).length (((uvwRows lon zen pos c jds).map fun f => fun p => asUvw (f p)).map fun f => (tril pos.length).map f) := by
    unfold coverageOf
    rw [uvw_ok lon zen pos c jds h]
    show uvCoverage _ _ = _
    rw [List.map_map, List.map_map]
    congr 1
    refine List.map_congr_left fun f _ => ?_
    show ((tril pos.length).map f).map asUvw = _
    rw [List.map_map]
    rfl
  rw [e, coverage_exact]
  refine ⟨_, rfl, fun k hk => ⟨_, by simp [uvwRows, hk]; rfl, fun i j hi hj hij => ?_⟩⟩
  rcases Nat.lt_or_gt_of_ne hij with hlt | hlt
  · obtain ⟨h1, h2⟩ := axes_opposite jds[k] ((centreAt zen c k jds[k]).1 - lon) (centreAt zen c k jds[k]).2 pos i j
    rw [h1, h2]
    exact ⟨flipped (asUvw (alongAxes jds[k] ((centreAt zen c k jds[k]).1 - lon) (centreAt zen c k jds[k]).2 (fromTo pos (j, i)))),
      List.mem_append_right _ (List.mem_map.2 ⟨(j, i), List.mem_filter.2 ⟨mem_tril.2 ⟨hlt.le, hj⟩, by simp; omega⟩, rfl⟩), rfl, rfl⟩
  · exact ⟨asUvw (alongAxes jds[k] ((centreAt zen c k jds[k]).1 - lon) (centreAt zen c k jds[k]).2 (fromTo pos (i, j))),
      List.mem_append_left _ (List.mem_map.2 ⟨(i, j), mem_tril.2 ⟨hlt.le, hi⟩, rfl⟩), rfl, rfl⟩

/-- **C160**: the coverage of cross-correlations is the one of the time halfway between their first and last ones. -/
theorem coverage_xst (lon : ℝ) (zen : ℝ → ℝ × ℝ) (pos : List V3) (c : UvwCentre) (a b : ℝ) (mid : List ℝ) :
    coverageXst lon zen pos c (a :: (mid ++ [b])) = coverageOf lon zen pos c [(a + b) / 2]
    ∧ coverageXst lon zen pos c [a] = coverageOf lon zen pos c [a]
    ∧ coverageXst lon zen pos c [] = .error .indexError := by
  refine ⟨?_, ?_, rfl⟩
  · show coverageOf lon zen pos c [a + ((a :: (mid ++ [b])).getLastD a - a) / 2] = _
    have : (a :: (mid ++ [b])).getLastD a = b := by
      rw [show a :: (mid ++ [b]) = (a :: mid) ++ [b] from rfl, List.getLastD_concat]
    rw [this]
    congr 2
    ring
  · show coverageOf lon zen pos c [a + (a - a) / 2] = _
    rw [sub_self, zero_div, add_zero]

/-! ## Mini-arrays -/

/-- **C160** (violated): a flat mini-array looking at the zenith of a place of latitude `lat`. All its antennas are at the same distance of a source there, so that the third
coordinates should be zero. They are `cos lat` times the distance along the first axis. -/
theorem mini_uvw_violated (lat lon jd : ℝ) (zen : ℝ → ℝ × ℝ) (plane : List V3) (hz : ∀ p ∈ plane, p.z = 0) :
    ∃ row, computeUvw lon zen (miniItrf plane) (.one (Geom.fastLst jd lon) lat) [jd] = .ok [row]
      ∧ ∀ m (hm : m < (tril plane.length).length), ∃ r, row[m]? = some r
        ∧ r.z = cos (inRad lat) * (fromTo plane (tril plane.length)[m]).x := by
  refine ⟨_, uvw_ok lon zen _ (.one (Geom.fastLst jd lon) lat) [jd] (fun l h => nomatch h), fun m hm => ?_⟩
  refine ⟨_, by
    show ((tril plane.length).map _)[m]? = _
    rw [List.getElem?_map, List.getElem?_eq_getElem hm]; rfl, ?_⟩
  obtain ⟨k, hk⟩ := lst_turns jd lon
  have he : eastOf jd (Geom.fastLst jd lon - lon) = 0 - k * (2 * π) := by
    unfold eastOf
    rw [hk]
    unfold inRad
    ring
  have h0 : ∀ i, (plane.getD i ⟨0, 0, 0⟩).z = 0 := by
    intro i
    by_cases hi : i < plane.length
    · rw [List.getD_eq_getElem?_getD, List.getElem?_eq_getElem hi]
      exact hz _ (List.getElem_mem hi)
    · rw [List.getD_eq_getElem?_getD, List.getElem?_eq_none (by omega)]
      rfl
  have hf : ∀ p, (fromTo plane p).z = 0 := fun p => by
    show (plane.getD p.1 ⟨0, 0, 0⟩).z - (plane.getD p.2 ⟨0, 0, 0⟩).z = 0
    rw [h0, h0, sub_zero]
  show Geom.dot (fromTo plane _) ⟨cos (inRad lat) * cos (eastOf jd (Geom.fastLst jd lon - lon)), cos (inRad lat) * sin (eastOf jd (Geom.fastLst jd lon - lon)), sin (inRad lat)⟩ = _
  rw [he, cos_sub_int_mul_two_pi, sin_sub_int_mul_two_pi, cos_zero, sin_zero]
  unfold Geom.dot
  rw [hf]
  ring

/-! ## Cases -/

example : (UvwCentre.one 10 20).Fits 7 := fun l h => nomatch h
example : ∃ l, UvwCentre.many [(1, 2)] = .many l ∧ l.length ≠ [(0 : ℝ), 1].length := ⟨_, rfl, by simp⟩
example : cos (inRad 60) ≠ 1 := by
  have : inRad 60 = π / 3 := by unfold inRad; ring
  rw [this, cos_pi_div_three]; norm_num
example : cos (inRad 0) ≠ 0 := by simp [inRad]
example (lon : ℝ) (zen : ℝ → ℝ × ℝ) (pos : List V3) : ∃ out, computeUvw lon zen pos .zenith [0, 1] = .ok out ∧ out.length = 2 := by
  obtain ⟨out, h, h2, _⟩ := uvw_rows lon zen pos .zenith [0, 1] (fun l h => nomatch h)
  exact ⟨out, h, h2⟩

end Verif.Astro
