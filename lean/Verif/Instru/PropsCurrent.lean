import Verif.Instru.Current
import Verif.Astro.PropsPointing
import Mathlib.Analysis.Complex.ExponentialBounds

/-!
# C179: the drawing of a pointing on the sky
-/

namespace Verif.Instru

open Verif.Astro

/-! ## Beams -/

theorem six_table : (arrays.all fun a => decide (((rotatedMas.filter fun m => decide ((rotation m).map (· % 60) = some (a.2 % 60))).length = 1))) = true := by decide +kernel

/-- **Each rotation once**: for each mini-array of the array, exactly one of the six which are added is turned in the same way, modulo 60 degrees. -/
theorem six_rotations (a : ℤ × ℤ) (ha : a ∈ arrays) : ∃ m ∈ rotatedMas, ((rotation m).map (· % 60) = some (a.2 % 60)) ∧ ∀ m' ∈ rotatedMas, (rotation m').map (· % 60) = some (a.2 % 60) → m' = m := by
  have h := of_decide_eq_true (List.all_eq_true.1 six_table a ha)
  obtain ⟨m, hm⟩ := List.length_eq_one_iff.1 h
  have h1 : m ∈ rotatedMas.filter fun m => decide ((rotation m).map (· % 60) = some (a.2 % 60)) := by rw [hm]; exact List.mem_singleton_self m
  obtain ⟨h2, h3⟩ := List.mem_filter.1 h1
  refine ⟨m, h2, of_decide_eq_true h3, fun m' hm' he => ?_⟩
  have h4 : m' ∈ rotatedMas.filter fun m => decide ((rotation m).map (· % 60) = some (a.2 % 60)) := List.mem_filter.2 ⟨hm', decide_eq_true he⟩
  rw [hm] at h4
  exact List.mem_singleton.1 h4

/-- The sum is that of the beams of the six rotations, when a beam depends on the rotation modulo 60 degrees only. -/
theorem sum_six (g : ℤ → Nat → ℝ) (beam : ℤ → Nat → ℝ) (h : ∀ m r, rotation m = some r → beam m = g (r % 60)) (k : Nat) :
    analogSum beam k = g 0 k + g 10 k + g 20 k + g 30 k + g 40 k + g 50 k := by
  have h0 : rotation 0 = some 0 := by decide +kernel
  have h1 : rotation 11 = some 310 := by decide +kernel
  have h2 : rotation 3 = some 200 := by decide +kernel
  have h3 : rotation 1 = some 30 := by decide +kernel
  have h4 : rotation 13 = some 40 := by decide +kernel
  have h5 : rotation 7 = some 230 := by decide +kernel
  show beam 0 k + (beam 11 k + (beam 3 k + (beam 1 k + (beam 13 k + (beam 7 k + 0))))) = _
  rw [h 0 _ h0, h 11 _ h1, h 3 _ h2, h 1 _ h3, h 13 _ h4, h 7 _ h5]
  norm_num
  ring

/-- **Normalised**: the greatest value of the beam which is drawn is one. -/
theorem shown_max (beam : ℤ → Nat → ℝ) (n : Nat) (k0 : Nat) (h0 : k0 < n) (hpos : 0 < analogSum beam k0) :
    (∀ k : Nat, k < n → analogShown beam n k ≤ 1) ∧ ∃ k : Nat, k < n ∧ analogShown beam n k = 1 := by
  have hmem : ∀ k : Nat, k < n → analogSum beam k ∈ (List.range n).map (analogSum beam) := fun k hk => List.mem_map.2 ⟨k, List.mem_range.2 hk, rfl⟩
  cases hm : ((List.range n).map (analogSum beam)).max? with
  | none =>
    rw [List.max?_eq_none_iff] at hm
    exact absurd (hm ▸ hmem k0 h0) List.not_mem_nil
  | some b =>
    obtain ⟨h1, h2⟩ := List.max?_eq_some_iff.1 hm
    have hb : 0 < b := lt_of_lt_of_le hpos (h2 _ (hmem k0 h0))
    have e : ∀ k : Nat, analogShown beam n k = analogSum beam k / b := by
      intro k
      unfold analogShown
      rw [hm]
      rfl
    obtain ⟨k, hk, hkb⟩ := List.mem_map.1 h1
    refine ⟨fun k hk => ?_, k, List.mem_range.1 hk, ?_⟩
    · rw [e, div_le_one hb]
      exact h2 _ (hmem k hk)
    · rw [e, hkb, div_self hb.ne']

/-! ## Contours -/

theorem level_get (p : ℝ) (i : Nat) (hi : i < 7) : (contourLevels p)[i]? = some ((10 : ℝ) ^ (Real.log p * (1 - (i : ℝ) / 6))) := by
  unfold contourLevels
  rw [List.getElem?_map, List.getElem?_range hi]
  show some ((10 : ℝ) ^ (Real.log p + (i : ℝ) * (0 - Real.log p) / 6)) = _
  congr 2
  ring

/-- **Levels**: for a percentile between 0 and 1 there are seven, they increase and end with the maximum: the contours are drawn. -/
theorem levels_accepted (p : ℝ) (h0 : 0 < p) (h1 : p < 1) : contoured (contourLevels p) = .ok (contourLevels p) ∧ (contourLevels p).length = 7 ∧ (contourLevels p)[6]? = some 1 ∧
    ∀ i a b, (contourLevels p)[i]? = some a → (contourLevels p)[i + 1]? = some b → 0 < a ∧ a < b := by
  have hinc : ∀ i a b, (contourLevels p)[i]? = some a → (contourLevels p)[i + 1]? = some b → 0 < a ∧ a < b := by
    intro i a b ha hb
    have hi : i + 1 < 7 := by
      have := (List.getElem?_eq_some_iff.1 hb).1
      unfold contourLevels at this
      rwa [List.length_map, List.length_range] at this
    rw [level_get p i (by omega)] at ha
    rw [level_get p (i + 1) hi] at hb
    rw [← Option.some.inj ha, ← Option.some.inj hb]
    refine ⟨Real.rpow_pos_of_pos (by norm_num) _, Real.rpow_lt_rpow_of_exponent_lt (by norm_num) ?_⟩
    have := Real.log_neg h0 h1
    rw [Nat.cast_add, Nat.cast_one]
    nlinarith
  refine ⟨?_, by unfold contourLevels; rw [List.length_map, List.length_range], ?_, hinc⟩
  · unfold contoured
    rw [if_neg]
    rintro ⟨i, a, b, ha, hb, hle⟩
    exact absurd (hinc i a b ha hb).2 (not_lt.2 hle)
  · rw [level_get p 6 (by norm_num)]
    norm_num

/-- **Violated: the lowest contour is not at the percentile**: natural logarithms are used as if they were decimal, and it is at the power `ln 10` of it, which is below, for all percentiles. -/
theorem levels_first_violated (p : ℝ) (h0 : 0 < p) (h1 : p < 1) : ∃ a, (contourLevels p)[0]? = some a ∧ a = p ^ Real.log 10 ∧ a < p := by
  refine ⟨_, level_get p 0 (by norm_num), ?_, ?_⟩
  · rw [Nat.cast_zero, zero_div, sub_zero, mul_one, Real.rpow_def_of_pos (by norm_num), Real.rpow_def_of_pos h0, mul_comm]
  · rw [Nat.cast_zero, zero_div, sub_zero, mul_one, Real.rpow_def_of_pos (by norm_num)]
    have hl := Real.log_neg h0 h1
    have h10 : 1 < Real.log 10 := by
      rw [Real.lt_log_iff_exp_lt (by norm_num)]
      linarith [Real.exp_one_lt_three]
    calc Real.exp (Real.log 10 * Real.log p) < Real.exp (Real.log p) := Real.exp_lt_exp.2 (by nlinarith)
      _ = p := Real.exp_log h0

/-- A percentile of one (a beam which is the same in all directions of a large part of the map) is refused. -/
theorem levels_flat : contoured (contourLevels 1) = .error .valueError := by
  unfold contoured
  rw [if_pos]
  refine ⟨0, _, _, level_get 1 0 (by norm_num), level_get 1 1 (by norm_num), ?_⟩
  rw [Real.log_one, zero_mul, zero_mul]

/-! ## Sources, direction, figure -/

/-- **Sources**: those of the list which are over the horizon, in its order. -/
theorem sources_exact (alt : String → ℝ) : (∀ s, s ∈ sourcesShown true alt ↔ s ∈ sourceNames ∧ 0 < alt s) ∧ (sourcesShown true alt).Sublist sourceNames ∧ sourcesShown false alt = [] := by
  refine ⟨fun s => ?_, List.filter_sublist, rfl⟩
  show s ∈ sourceNames.filter (fun s => !decide (alt s ≤ 0)) ↔ _
  rw [List.mem_filter]
  simp

/-- **Direction**: without a file, the zenith; with a file of several rows of the first beam, the row which holds at this time, and the zenith before the first and from the last row on. -/
theorem direction_exact {D : Type} (zenith : D) (rows : List (ℚ × Nat × D)) (t : ℚ) (h2 : 2 ≤ (beamRows rows 0).length) (hs : ((beamRows rows 0).map Prod.fst).Pairwise (· < ·)) :
    directionOf zenith (none : Option (List (ℚ × Nat × D))) t = .ok none ∧
    (∀ i, i + 1 < (beamRows rows 0).length → ((beamRows rows 0).map Prod.fst).getD i 0 ≤ t → t < ((beamRows rows 0).map Prod.fst).getD (i + 1) 0 →
      directionOf zenith (some rows) t = .ok ((beamRows rows 0).map Prod.snd)[i]?) ∧
    ((t < ((beamRows rows 0).map Prod.fst).getD 0 0 ∨ ((beamRows rows 0).map Prod.fst).getD ((beamRows rows 0).length - 1) 0 ≤ t) → directionOf zenith (some rows) t = .ok none) := by
  obtain ⟨p, hp, h3, h4⟩ := file_analog zenith rows 0 h2 hs t
  have e : directionOf zenith (some rows) t = p.at t := by
    show (fromAltazA zenith rows 0).bind _ = _
    rw [hp]
    rfl
  exact ⟨rfl, fun i hi h5 h6 => e.trans (h3 i hi h5 h6), fun h => e.trans (h4 h)⟩

/-- **Frequency**: a number is in MHz; other units and several frequencies are refused. -/
theorem frequency_checked (v : ℚ) : freqOf (.plain true v) = .ok v ∧ freqOf (.freq true v) = .ok v ∧ freqOf (.plain false v) = .error .valueError ∧ freqOf (.freq false v) = .error .valueError ∧
    freqOf .otherUnit = .error .valueError := ⟨rfl, rfl, rfl, rfl, rfl⟩

/-- **Figure**: shown without a name, returned for the name `return` in any case, saved otherwise. -/
theorem figure_end (n : String) : figEnd none = .shown ∧ figEnd (some "") = .shown ∧ (n ≠ "" → n.toLower = "return" → figEnd (some n) = .returned) ∧
    (n ≠ "" → n.toLower ≠ "return" → figEnd (some n) = .saved n) := by
  have e : figEnd (some n) = if n = "" then .shown else if n.toLower = "return" then .returned else .saved n := rfl
  refine ⟨rfl, rfl, fun h h' => by rw [e, if_neg h, if_pos h'], fun h h' => by rw [e, if_neg h, if_neg h']⟩

/-- **The whole drawing**: for one time and one frequency it is made, with the direction, beam, levels and sources above. -/
theorem current_exact {D : Type} (zenith : D) (t : ℚ) (file : Option (List (ℚ × Nat × D))) (fr : MapFreq) (beam : Option D → ℚ → ℤ → Nat → ℝ) (n : Nat) (p : (Nat → ℝ) → ℝ) (wanted : Bool)
    (alt : String → ℝ) (name : Option String) (d : Option D) (hd : directionOf zenith file t = .ok d) (f : ℚ) (hf : freqOf fr = .ok f) (h0 : 0 < p (analogShown (beam d f) n))
    (h1 : p (analogShown (beam d f) n) < 1) : currentPlot zenith true t file fr beam n p wanted alt name =
      .ok ⟨d, f, analogShown (beam d f) n, contourLevels (p (analogShown (beam d f) n)), sourcesShown wanted alt, figEnd name⟩ := by
  unfold currentPlot
  rw [if_neg (by decide), hd]
  show (freqOf fr).bind _ = _
  rw [hf]
  show (contoured (contourLevels (p (analogShown (beam d f) n)))).map _ = _
  rw [(levels_accepted _ h0 h1).1]
  rfl

/-- Several times are refused. -/
theorem current_times {D : Type} (zenith : D) (t : ℚ) (file : Option (List (ℚ × Nat × D))) (fr : MapFreq) (beam : Option D → ℚ → ℤ → Nat → ℝ) (n : Nat) (p : (Nat → ℝ) → ℝ) (wanted : Bool)
    (alt : String → ℝ) (name : Option String) : currentPlot zenith false t file fr beam n p wanted alt name = .error .valueError := rfl

/-- Frequencies which are refused, and beams with a percentile of one, are refused by the drawing. -/
theorem current_refused {D : Type} (zenith : D) (t : ℚ) (file : Option (List (ℚ × Nat × D))) (fr : MapFreq) (beam : Option D → ℚ → ℤ → Nat → ℝ) (n : Nat) (p : (Nat → ℝ) → ℝ) (wanted : Bool)
    (alt : String → ℝ) (name : Option String) (d : Option D) (hd : directionOf zenith file t = .ok d) :
    (∀ e, freqOf fr = .error e → currentPlot zenith true t file fr beam n p wanted alt name = .error e) ∧
    (∀ f, freqOf fr = .ok f → p (analogShown (beam d f) n) = 1 → currentPlot zenith true t file fr beam n p wanted alt name = .error .valueError) := by
  constructor
  · intro e he
    unfold currentPlot
    rw [if_neg (by decide), hd]
    show (freqOf fr).bind _ = _
    rw [he]
    rfl
  · intro f hf h1
    unfold currentPlot
    rw [if_neg (by decide), hd]
    show (freqOf fr).bind _ = _
    rw [hf]
    show (contoured (contourLevels (p (analogShown (beam d f) n)))).map _ = _
    rw [h1, levels_flat]
    rfl

/-! ## Skies of the model -/

/-- **One time**: each value is that of its frequency and direction. -/
theorem to_sky_one {V : Type} (nf nc : Nat) (value : Nat → Nat → V) : ∃ s, toSky 1 nf nc value = .ok s ∧ ∀ t f q c : Nat, s t f q c = value f c := by
  refine ⟨fun _ f _ c => value f c, ?_, fun t f q c => rfl⟩
  unfold toSky
  rw [if_pos (by ring)]

/-- **Violated: several times**: always refused, for any frequencies and directions. -/
theorem to_sky_violated {V : Type} (nt nf nc : Nat) (ht : 2 ≤ nt) (hf : 1 ≤ nf) (hc : 1 ≤ nc) (value : Nat → Nat → V) : toSky nt nf nc value = .error .valueError := by
  unfold toSky
  rw [if_neg]
  intro h
  have h1 : 0 < nf * nc := Nat.mul_pos hf hc
  have h2 : nt * nf * 1 * nc = nt * (nf * nc) := by ring
  rw [h2] at h
  nlinarith

/-! ## Examples -/

example : ∃ m ∈ rotatedMas, (rotation m).map (· % 60) = some 20 := by
  obtain ⟨m, hm, he, -⟩ := six_rotations (3, 200) (by decide +kernel)
  exact ⟨m, hm, he⟩

example : ∃ a, (contourLevels (1 / 10))[0]? = some a ∧ a < 1 / 10 := by
  obtain ⟨a, ha, -, hlt⟩ := levels_first_violated (1 / 10) (by norm_num) (by norm_num)
  exact ⟨a, ha, hlt⟩

example : directionOf (7 : ℚ) (some [(0, 0, 1), (10, 0, 2), (20, 0, 3)]) 12 = .ok (some 2) :=
  (direction_exact (7 : ℚ) [(0, 0, 1), (10, 0, 2), (20, 0, 3)] 12 (by decide) (by norm_num [beamRows])).2.1 1 (by decide) (by norm_num [beamRows]) (by norm_num [beamRows])

example : figEnd (some "sky.png") = .saved "sky.png" := (figure_end "sky.png").2.2.2 (by decide) (by decide +kernel)

example : toSky 3 1 5 (fun _ c => c) = (.error .valueError : Except Err (Nat → Nat → Nat → Nat → Nat)) := to_sky_violated 3 1 5 (by norm_num) (by norm_num) (by norm_num) _

example : (∀ k : Nat, k < 4 → analogShown (fun _ k => (k : ℝ)) 4 k ≤ 1) := by
  refine (shown_max (fun _ k => (k : ℝ)) 4 3 (by norm_num) ?_).1
  unfold analogSum rotatedMas
  norm_num

end Verif.Instru
