import Verif.Instru.CommonBeam
import Verif.Instru.PropsRadio

/-!
# Sources in the same analog beam; temperature of LOFAR
-/

namespace Verif.Instru

/-! ## Sources in the same analog beam -/

theorem band_mono (i j : Nat) (h : i < j) : bandFreq i < bandFreq j := by
  unfold bandFreq
  have : (i : ℝ) < j := by exact_mod_cast h
  linarith

theorem band_pos (k : Nat) : 0 < bandFreq k := by
  unfold bandFreq
  positivity

theorem half_anti (d f g : ℝ) (hd : 0 < d) (hf : 0 < f) (h : f ≤ g) : halfWidth d g ≤ halfWidth d f := by
  unfold halfWidth waveOf
  have hpi := Real.pi_pos
  have hg : 0 < g := hf.trans_le h
  gcongr

/-- The half width is half of the resolution of the array. -/
theorem half_resolution (a : Dish) (f : ℝ) (h1 : a.size ≠ 1) (h2 : 0 < a.longest) : ∃ θ, resolution a f = .ok (some θ) ∧ halfWidth a.longest f = θ / 2 := by
  refine ⟨waveOf f / a.longest * (180 / Real.pi), ?_, rfl⟩
  unfold resolution over
  rw [if_neg h1, if_neg h2.ne']
  rfl

/-- The greatest frequency of a list of frequencies in the beam. -/
theorem common_spec (d s : ℝ) (hd : 0 < d) : (halfWidth d 15 < s ∧ commonFreq d s = 0) ∨
    ∃ k < 200, commonFreq d s = bandFreq k ∧ s ≤ halfWidth d (bandFreq k) ∧ ∀ m < 200, k < m → halfWidth d (bandFreq m) < s := by
  have h15 : bandFreq 0 = 15 := by unfold bandFreq; norm_num
  have hmem : ∀ f, f ∈ beamFreqs d s ↔ ∃ k < 200, bandFreq k = f ∧ s ≤ halfWidth d f := by
    intro f
    unfold beamFreqs
    rw [List.mem_filter, List.mem_map]
    constructor
    · rintro ⟨⟨k, h1, h2⟩, h3⟩
      exact ⟨k, List.mem_range.1 h1, h2, of_decide_eq_true h3⟩
    · rintro ⟨k, h1, h2, h3⟩
      exact ⟨⟨k, List.mem_range.2 h1, h2⟩, decide_eq_true h3⟩
  unfold commonFreq
  cases hm : (beamFreqs d s).max? with
  | none =>
    left
    refine ⟨?_, rfl⟩
    by_contra hc
    have h0 : bandFreq 0 ∈ beamFreqs d s := (hmem _).2 ⟨0, by norm_num, rfl, by rw [h15]; exact not_lt.1 hc⟩
    rw [List.max?_eq_none_iff.1 hm] at h0
    exact nomatch h0
  | some f =>
    right
    obtain ⟨h1, h2⟩ := List.max?_eq_some_iff.1 hm
    obtain ⟨k, hk, h3, h4⟩ := (hmem f).1 h1
    refine ⟨k, hk, h3.symm, by rw [h3]; exact h4, fun m hm2 hkm => ?_⟩
    by_contra hc
    have h5 := h2 _ ((hmem _).2 ⟨m, hm2, rfl, not_lt.1 hc⟩)
    have := band_mono k m hkm
    rw [h3] at this
    linarith

/-- **At the frequency given both sources are in the beam, and so they are at any lower frequency**; without such frequency in the band the result is 0, and the sources are then
too far apart at 15 MHz. -/
theorem common_inside (d s : ℝ) (hd : 0 < d) : (commonFreq d s = 0 ↔ halfWidth d 15 < s) ∧ ∀ f, 0 < f → f ≤ commonFreq d s → s ≤ halfWidth d f := by
  have h15 : bandFreq 0 = 15 := by unfold bandFreq; norm_num
  rcases common_spec d s hd with ⟨h1, h2⟩ | ⟨k, hk, h2, h3, -⟩
  · exact ⟨⟨fun _ => h1, fun _ => h2⟩, fun f hf hfc => by rw [h2] at hfc; linarith⟩
  · constructor
    · rw [h2]
      constructor
      · intro h
        exact absurd h (band_pos k).ne'
      · intro h
        have : 15 ≤ bandFreq k := by rw [← h15]; rcases Nat.eq_zero_or_pos k with rfl | hp; exact le_rfl; exact (band_mono 0 k hp).le
        have := half_anti d 15 (bandFreq k) hd (by norm_num) this
        linarith
    · intro f hf hfc
      rw [h2] at hfc
      exact h3.trans (half_anti d f (bandFreq k) hd hf hfc)

/-- **The frequency given is the highest one of the band**, to less than a step of 70/199 MHz: at any frequency of the band higher by a step, the sources are not in the beam together. -/
theorem common_highest (d s f : ℝ) (hd : 0 < d) (hf : f ≤ 85) (h : commonFreq d s + 70 / 199 ≤ f) (h15 : 15 ≤ f) : halfWidth d f < s := by
  rcases common_spec d s hd with ⟨h1, h2⟩ | ⟨k, hk, h2, h3, h4⟩
  · exact (half_anti d 15 f hd (by norm_num) h15).trans_lt h1
  · rw [h2] at h
    have e : bandFreq (k + 1) = bandFreq k + 70 / 199 := by unfold bandFreq; push_cast; ring
    have hk2 : k + 1 < 200 := by
      by_contra hc
      have : k = 199 := by omega
      subst this
      have : bandFreq 199 = 85 := by unfold bandFreq; norm_num
      rw [this] at h
      linarith
    exact (half_anti d (bandFreq (k + 1)) f hd (band_pos _) (by rw [e]; exact h)).trans_lt (h4 (k + 1) hk2 (by omega))

/-- **Closer sources** can be observed together at higher frequencies; smaller arrays too. -/
theorem common_monotone (d e s t : ℝ) (hd : 0 < d) (hde : d ≤ e) (hst : s ≤ t) (hs : 0 ≤ t) : commonFreq e t ≤ commonFreq d s := by
  have hw : ∀ f, 0 < f → halfWidth e f ≤ halfWidth d f := by
    intro f hf
    unfold halfWidth waveOf
    have hpi := Real.pi_pos
    gcongr
  have he : 0 < e := hd.trans_le hde
  rcases common_spec e t he with ⟨h1, h2⟩ | ⟨k, hk, h2, h3, -⟩
  · rw [h2]
    rcases common_spec d s hd with ⟨-, h4⟩ | ⟨m, -, h4, -⟩
    · rw [h4]
    · rw [h4]; exact (band_pos m).le
  · have h5 : s ≤ halfWidth d (bandFreq k) := hst.trans (h3.trans (hw _ (band_pos k)))
    rw [h2]
    rcases common_spec d s hd with ⟨h6, -⟩ | ⟨m, -, h4, -, h6⟩
    · have h15 : bandFreq 0 = 15 := by unfold bandFreq; norm_num
      have : 15 ≤ bandFreq k := by rw [← h15]; rcases Nat.eq_zero_or_pos k with rfl | hp; exact le_rfl; exact (band_mono 0 k hp).le
      have := half_anti d 15 (bandFreq k) hd (by norm_num) this
      linarith
    · rw [h4]
      by_contra hc
      have hmk : m < k := by
        by_contra hc2
        rcases Nat.eq_or_lt_of_le (not_lt.1 hc2) with rfl | h7
        · exact hc le_rfl
        · exact hc (band_mono k m h7).le
      have := h6 k hk hmk
      linarith

theorem common_runs (d : ℝ) (seps : List ℝ) (n : Nat) (h : n ≤ seps.length) : commonFreqs d seps n = .ok ((seps.take n).map (commonFreq d)) := by
  induction n with
  | zero => rfl
  | succ n ih =>
    have h1 : seps[n]? = some seps[n] := List.getElem?_eq_getElem (by omega)
    unfold commonFreqs
    rw [ih (by omega), h1]
    show Except.ok _ = _
    rw [List.take_add_one, h1, List.map_append]
    rfl

/-- **One value at each time**, if a source moves. -/
theorem common_times {P : Type} (dist : P → P → ℝ) (d : ℝ) (nt : Nat) (p q : Nat → P) (c : P) :
    sameBeam dist d nt (.moving p) (.moving q) = .ok ((List.range nt).map fun i => commonFreq d (dist (p i) (q i))) ∧
    sameBeam dist d nt (.moving p) (.fixed c) = .ok ((List.range nt).map fun i => commonFreq d (dist (p i) c)) ∧
    sameBeam dist d nt (.fixed c) (.moving q) = .ok ((List.range nt).map fun i => commonFreq d (dist c (q i))) := by
  have key : ∀ g : Nat → ℝ, commonFreqs d ((List.range nt).map g) nt = .ok ((List.range nt).map fun i => commonFreq d (g i)) := by
    intro g
    rw [common_runs d _ nt (by simp), List.take_of_length_le (by simp), List.map_map]
    rfl
  exact ⟨key _, key _, key _⟩

/-- The order of the sources does not matter. -/
theorem common_symmetric {P : Type} (dist : P → P → ℝ) (hs : ∀ p q, dist p q = dist q p) (d : ℝ) (nt : Nat) (a b : SkySource P) : sameBeam dist d nt a b = sameBeam dist d nt b a := by
  have : sepList dist nt a b = sepList dist nt b a := by
    cases a <;> cases b <;> simp only [sepList, hs]
  unfold sameBeam
  rw [this]

/-- Two fixed sources: the value at a single time, but an error for two times or more. -/
theorem common_fixed_violated {P : Type} (dist : P → P → ℝ) (d : ℝ) (p q : P) : sameBeam dist d 1 (.fixed p) (.fixed q) = .ok [commonFreq d (dist p q)] ∧
    ∀ nt, sameBeam dist d (nt + 2) (.fixed p) (.fixed q) = .error .indexError := by
  refine ⟨rfl, fun nt => ?_⟩
  unfold sameBeam
  show commonFreqs d [dist p q] (nt + 2) = _
  induction nt with
  | zero => rfl
  | succ n ih =>
    show (commonFreqs d [dist p q] (n + 2)).bind _ = _
    rw [ih]
    rfl

/-- Mini-arrays of 25 m: the beam has a half width of more than 20 degrees at 15 MHz, so that sources at 1 degree are in it. -/
example : commonFreq 25 1 ≠ 0 := by
  intro h
  have h1 := (common_inside 25 1 (by norm_num)).1.1 h
  have hpi := Real.pi_le_four
  have h0 := Real.pi_pos
  unfold halfWidth waveOf at h1
  rw [div_lt_iff₀ (by norm_num), ← lt_div_iff₀ (by positivity)] at h1
  rw [div_div_eq_mul_div] at h1
  norm_num at h1
  linarith

/-! ## LOFAR temperature -/

theorem lbaPoly_pos0 (f : ℝ) (h1 : (0) ≤ f) (h2 : f ≤ (45)) : 0 < lbaPoly f := by
  have e : lbaPoly f = (29746051927 / 207594140625000) * (f - (0)) ^ 0 * ((45) - f) ^ 6 + (55348203463 / 553584375000000) * (f - (0)) ^ 1 * ((45) - f) ^ 5 + (42672819811 / 1383960937500000) * (f - (0)) ^ 2 * ((45) - f) ^ 4 + (62530023977 / 3321506250000000) * (f - (0)) ^ 3 * ((45) - f) ^ 3 + (3979241828321 / 442867500000000000) * (f - (0)) ^ 4 * ((45) - f) ^ 2 + (1520415550807 / 885735000000000000) * (f - (0)) ^ 5 * ((45) - f) ^ 1 + (61273912332853 / 531441000000000000000) * (f - (0)) ^ 6 * ((45) - f) ^ 0 := by unfold lbaPoly; ring
  rw [e]
  have a : 0 ≤ f - (0) := by linarith
  have b : 0 ≤ (45) - f := by linarith
  rcases lt_or_ge f (45) with h | h
  · have b' : 0 < (45) - f := by linarith
    positivity
  · have a' : 0 < f - (0) := by linarith
    positivity

theorem lbaPoly_pos1 (f : ℝ) (h1 : (45) ≤ f) (h2 : f ≤ (225 / 4)) : 0 < lbaPoly f := by
  have e : lbaPoly f = (61273912332853 / 129746337890625000) * (f - (45)) ^ 0 * ((225 / 4) - f) ^ 6 + (30865601316713 / 17299511718750000) * (f - (45)) ^ 1 * ((225 / 4) - f) ^ 5 + (65954320756001 / 27679218750000000) * (f - (45)) ^ 2 * ((225 / 4) - f) ^ 4 + (21238896508933 / 16607531250000000) * (f - (45)) ^ 3 * ((225 / 4) - f) ^ 3 + (44557598335069 / 88573500000000000) * (f - (45)) ^ 4 * ((225 / 4) - f) ^ 2 + (12272229465661 / 35429400000000000) * (f - (45)) ^ 5 * ((225 / 4) - f) ^ 1 + (96950721015637 / 850305600000000000) * (f - (45)) ^ 6 * ((225 / 4) - f) ^ 0 := by unfold lbaPoly; ring
  rw [e]
  have a : 0 ≤ f - (45) := by linarith
  have b : 0 ≤ (225 / 4) - f := by linarith
  rcases lt_or_ge f (225 / 4) with h | h
  · have b' : 0 < (225 / 4) - f := by linarith
    positivity
  · have a' : 0 < f - (45) := by linarith
    positivity

theorem lbaPoly_pos2 (f : ℝ) (h1 : (225 / 4) ≤ f) (h2 : f ≤ (135 / 2)) : 0 < lbaPoly f := by
  have e : lbaPoly f = (96950721015637 / 850305600000000000) * (f - (225 / 4)) ^ 0 * ((135 / 2) - f) ^ 6 + (14481252416863 / 14171760000000000) * (f - (225 / 4)) ^ 1 * ((135 / 2) - f) ^ 5 + (1374775472165101 / 354294000000000000) * (f - (225 / 4)) ^ 2 * ((135 / 2) - f) ^ 4 + (947713613491139 / 132860250000000000) * (f - (225 / 4)) ^ 3 * ((135 / 2) - f) ^ 3 + (2850568152168641 / 442867500000000000) * (f - (225 / 4)) ^ 4 * ((135 / 2) - f) ^ 2 + (1483160776664239 / 553584375000000000) * (f - (225 / 4)) ^ 5 * ((135 / 2) - f) ^ 1 + (3869029141646437 / 8303765625000000000) * (f - (225 / 4)) ^ 6 * ((135 / 2) - f) ^ 0 := by unfold lbaPoly; ring
  rw [e]
  have a : 0 ≤ f - (225 / 4) := by linarith
  have b : 0 ≤ (135 / 2) - f := by linarith
  rcases lt_or_ge f (135 / 2) with h | h
  · have b' : 0 < (135 / 2) - f := by linarith
    positivity
  · have a' : 0 < f - (225 / 4) := by linarith
    positivity

theorem lbaPoly_pos3 (f : ℝ) (h1 : (135 / 2) ≤ f) (h2 : f ≤ (90)) : 0 < lbaPoly f := by
  have e : lbaPoly f = (3869029141646437 / 531441000000000000000) * (f - (135 / 2)) ^ 0 * ((90) - f) ^ 6 + (1047820885404529 / 22143375000000000000) * (f - (135 / 2)) ^ 1 * ((90) - f) ^ 5 + (286204983483373 / 2214337500000000000) * (f - (135 / 2)) ^ 2 * ((90) - f) ^ 4 + (137809507579561 / 415188281250000000) * (f - (135 / 2)) ^ 3 * ((90) - f) ^ 3 + (125754862956997 / 138396093750000000) * (f - (135 / 2)) ^ 4 * ((90) - f) ^ 2 + (120089621100409 / 86497558593750000) * (f - (135 / 2)) ^ 5 * ((90) - f) ^ 1 + (101864964701053 / 129746337890625000) * (f - (135 / 2)) ^ 6 * ((90) - f) ^ 0 := by unfold lbaPoly; ring
  rw [e]
  have a : 0 ≤ f - (135 / 2) := by linarith
  have b : 0 ≤ (90) - f := by linarith
  rcases lt_or_ge f (90) with h | h
  · have b' : 0 < (90) - f := by linarith
    positivity
  · have a' : 0 < f - (135 / 2) := by linarith
    positivity

theorem hbaPoly_pos0 (f : ℝ) (h1 : (110) ≤ f) (h2 : f ≤ (145)) : 0 < hbaPoly f := by
  have e : hbaPoly f = (3218511895333787 / 9191328125000000000000) * (f - (110)) ^ 0 * ((145) - f) ^ 6 + (4509438025216077 / 4595664062500000000000) * (f - (110)) ^ 1 * ((145) - f) ^ 5 + (17277276173191931 / 7353062500000000000000) * (f - (110)) ^ 2 * ((145) - f) ^ 4 + (814398147820633 / 229783203125000000000) * (f - (110)) ^ 3 * ((145) - f) ^ 3 + (85173692789816901 / 29412250000000000000000) * (f - (110)) ^ 4 * ((145) - f) ^ 2 + (89047673372915107 / 73530625000000000000000) * (f - (110)) ^ 5 * ((145) - f) ^ 1 + (121869315546494757 / 588245000000000000000000) * (f - (110)) ^ 6 * ((145) - f) ^ 0 := by unfold hbaPoly; ring
  rw [e]
  have a : 0 ≤ f - (110) := by linarith
  have b : 0 ≤ (145) - f := by linarith
  rcases lt_or_ge f (145) with h | h
  · have b' : 0 < (145) - f := by linarith
    positivity
  · have a' : 0 < f - (110) := by linarith
    positivity

theorem hbaPoly_pos1 (f : ℝ) (h1 : (145) ≤ f) (h2 : f ≤ (180)) : 0 < hbaPoly f := by
  have e : hbaPoly f = (121869315546494757 / 588245000000000000000000) * (f - (145)) ^ 0 * ((180) - f) ^ 6 + (187512599893654057 / 147061250000000000000000) * (f - (145)) ^ 1 * ((180) - f) ^ 5 + (11823868242205093 / 3676531250000000000000) * (f - (145)) ^ 2 * ((180) - f) ^ 4 + (3979322806337829 / 919132812500000000000) * (f - (145)) ^ 3 * ((180) - f) ^ 3 + (1573846761668451 / 459566406250000000000) * (f - (145)) ^ 4 * ((180) - f) ^ 2 + (832783416882867 / 574458007812500000000) * (f - (145)) ^ 5 * ((180) - f) ^ 1 + (4896131565909 / 17951812744140625000) * (f - (145)) ^ 6 * ((180) - f) ^ 0 := by unfold hbaPoly; ring
  rw [e]
  have a : 0 ≤ f - (145) := by linarith
  have b : 0 ≤ (180) - f := by linarith
  rcases lt_or_ge f (180) with h | h
  · have b' : 0 < (180) - f := by linarith
    positivity
  · have a' : 0 < f - (145) := by linarith
    positivity

theorem hbaPoly_pos2 (f : ℝ) (h1 : (180) ≤ f) (h2 : f ≤ (250)) : 0 < hbaPoly f := by
  have e : hbaPoly f = (4896131565909 / 1148916015625000000000) * (f - (180)) ^ 0 * ((250) - f) ^ 6 + (23092098963957 / 735306250000000000000) * (f - (180)) ^ 1 * ((250) - f) ^ 5 + (6459231466533 / 58824500000000000000) * (f - (180)) ^ 2 * ((250) - f) ^ 4 + (2956265628291 / 11764900000000000000) * (f - (180)) ^ 3 * ((250) - f) ^ 3 + (2059176977483 / 4705960000000000000) * (f - (180)) ^ 4 * ((250) - f) ^ 2 + (2095817498179 / 3764768000000000000) * (f - (180)) ^ 5 * ((250) - f) ^ 1 + (2666540829843 / 7529536000000000000) * (f - (180)) ^ 6 * ((250) - f) ^ 0 := by unfold hbaPoly; ring
  rw [e]
  have a : 0 ≤ f - (180) := by linarith
  have b : 0 ≤ (250) - f := by linarith
  rcases lt_or_ge f (250) with h | h
  · have b' : 0 < (250) - f := by linarith
    positivity
  · have a' : 0 < f - (180) := by linarith
    positivity

theorem hbaPoly_far (f : ℝ) (h1 : 250 ≤ f) : 0 < hbaPoly f := by
  have e : hbaPoly f = (2666540829843 / 64000000) * (f - 250) ^ 0 + (16868014261 / 6400000) * (f - 250) ^ 1 + (2279042921411 / 32000000000) * (f - 250) ^ 2 + (103412852073 / 100000000000) * (f - 250) ^ 3 + (676833251213 / 80000000000000) * (f - 250) ^ 4 + (184115659067 / 5000000000000000) * (f - 250) ^ 5 + (332015689617 / 5000000000000000000) * (f - 250) ^ 6 := by unfold hbaPoly; ring
  rw [e]
  have a : 0 ≤ f - 250 := by linarith
  positivity


/-- **The temperature is positive** up to 90 MHz and from 110 MHz, and undefined between. -/
theorem lofar_positive (f : ℝ) (hf : 0 ≤ f) : (f ≤ 90 ∨ 110 ≤ f → ∃ t, lofarTemp f = some t ∧ 0 < t) ∧ (90 < f → f < 110 → lofarTemp f = none) := by
  unfold lofarTemp
  constructor
  · rintro (h | h)
    · have h2 : ¬ (110 : ℝ) ≤ f := by linarith
      refine ⟨lbaPoly f, by rw [if_neg h2, if_pos h], ?_⟩
      rcases le_total f 45 with h3 | h3
      · exact lbaPoly_pos0 f hf h3
      rcases le_total f (225 / 4) with h4 | h4
      · exact lbaPoly_pos1 f h3 h4
      rcases le_total f (135 / 2) with h5 | h5
      · exact lbaPoly_pos2 f h4 h5
      · exact lbaPoly_pos3 f h5 h
    · refine ⟨hbaPoly f, by rw [if_pos h], ?_⟩
      rcases le_total f 145 with h3 | h3
      · exact hbaPoly_pos0 f h h3
      rcases le_total f 180 with h4 | h4
      · exact hbaPoly_pos1 f h3 h4
      rcases le_total f 250 with h5 | h5
      · exact hbaPoly_pos2 f h4 h5
      · exact hbaPoly_far f h5
  · intro h1 h2
    rw [if_neg (by linarith), if_neg (by linarith)]

/-- At the upper end of the low band the fit gives over a hundred thousand kelvins, a hundred times the value at 65 MHz, without warning; it is 140 K at 54 MHz. -/
theorem lofar_edge_violated : ∃ a b c, lofarTemp 90 = some a ∧ lofarTemp 65 = some b ∧ lofarTemp 54 = some c ∧ 100000 < a ∧ 100 * b < a ∧ 139 < c ∧ c < 141 := by
  refine ⟨lbaPoly 90, lbaPoly 65, lbaPoly 54, ?_, ?_, ?_, ?_, ?_, ?_, ?_⟩
  · unfold lofarTemp; rw [if_neg (by norm_num), if_pos (by norm_num)]
  · unfold lofarTemp; rw [if_neg (by norm_num), if_pos (by norm_num)]
  · unfold lofarTemp; rw [if_neg (by norm_num), if_pos (by norm_num)]
  all_goals (unfold lbaPoly; norm_num)

/-- In the high band the fit is of 350 to 390 K at 120 and 150 MHz, but of over 20000 K at 240 MHz, the upper end of the band of LOFAR. -/
theorem lofar_high_violated : ∃ a b c, lofarTemp 120 = some a ∧ lofarTemp 150 = some b ∧ lofarTemp 240 = some c ∧ 349 < a ∧ a < 350 ∧ 387 < b ∧ b < 388 ∧ 21477 < c ∧ c < 21478 := by
  refine ⟨hbaPoly 120, hbaPoly 150, hbaPoly 240, ?_, ?_, ?_, ?_, ?_, ?_, ?_, ?_, ?_⟩
  · unfold lofarTemp; rw [if_pos (by norm_num)]
  · unfold lofarTemp; rw [if_pos (by norm_num)]
  · unfold lofarTemp; rw [if_pos (by norm_num)]
  all_goals (unfold hbaPoly; norm_num)

end Verif.Instru
