import Mathlib.Tactic.Linarith
import Mathlib.Tactic.Ring
import Mathlib.Tactic.NormNum
import Mathlib.Data.List.GetD
import Mathlib.Tactic.Set
import Mathlib.Tactic.LinearCombination
import Mathlib.Data.List.Flatten
import Verif.Astro.Gsm

/-!
# C192: the global sky model at the frequencies asked for
-/

namespace Verif.Astro

/-- The map wanted at a number of MHz: generated, put at the resolution of the sky, turned to equatorial coordinates. -/
noncomputable def rightMap (L : GsmLib) (nside : Nat) (mhz : ℚ) : HpxMap := L.rot nside (regrade L nside (L.gen mhz))

/-- Numbers of MHz for which there is a model. -/
def InRange (x : ℚ) : Prop := 10 ≤ x ∧ x ≤ 94000

theorem generate_ok {L : GsmLib} {fs : List ℚ} (h0 : fs ≠ []) (h : ∀ x ∈ fs, InRange x) : generate L fs = .ok (fs.map L.gen) := by
  unfold generate
  rw [if_neg (by simpa using h0), if_neg]
  intro hc
  obtain ⟨x, hx, hb⟩ := List.any_eq_true.1 hc
  rw [Bool.or_eq_true, decide_eq_true_iff, decide_eq_true_iff] at hb
  obtain ⟨h1, h2⟩ := h x hx
  rcases hb with hb | hb <;> linarith

theorem generate_inv {L : GsmLib} {fs : List ℚ} {l : List HpxMap} (h : generate L fs = .ok l) :
    fs ≠ [] ∧ (∀ x ∈ fs, InRange x) ∧ l = fs.map L.gen := by
  unfold generate at h
  by_cases h0 : fs.isEmpty = true
  · rw [if_pos h0] at h; cases h
  rw [if_neg h0] at h
  by_cases h1 : fs.any (fun f => decide (f < 10) || decide (94000 < f)) = true
  · rw [if_pos h1] at h; cases h
  rw [if_neg h1] at h
  cases h
  refine ⟨by simpa using h0, fun x hx => ?_, rfl⟩
  by_contra hc
  refine h1 (List.any_eq_true.2 ⟨x, hx, ?_⟩)
  rw [Bool.or_eq_true, decide_eq_true_iff, decide_eq_true_iff]
  by_contra hd
  push Not at hd
  exact hc hd

theorem rotate_one (L : GsmLib) (nside : Nat) (m : HpxMap) : rotateMaps L nside [m] = [L.rot nside m] := rfl

theorem rows_eq (L : GsmLib) (nside : Nat) (fs : List ℚ) :
    (((fs.map L.gen).map (regrade L nside)).flatMap fun m => rotateMaps L nside [m]) = fs.map (rightMap L nside) := by
  induction fs with
  | nil => rfl
  | cons a t ih =>
    rw [List.map_cons, List.map_cons, List.flatMap_cons, ih]
    rfl

/-- **C192**: the value of the sky is, at every time and for every frequency whose number is in the range, the map at this number, each frequency
on its own; the sky has the times, frequencies and pixels asked for. -/
theorem gsm_exact (L : GsmLib) (nside npix nt : Nat) (f : Freqs) (h0 : f.vals ≠ []) (h : ∀ x ∈ f.vals, InRange x) :
    ∃ s a, hpxGsm L nside npix nt f = .ok (s, a) ∧ a.dims = ⟨nt, f.vals.length, 1, npix⟩ ∧ s.dims = a.dims ∧
      ∀ t i c, ∀ hi : i < f.vals.length, a.val t i 0 c = rightMap L nside f.vals[i] c := by
  have h1 : gsmMap L nside npix nt f = .ok (moveAxis (tiled nt npix (f.vals.map (rightMap L nside)))) := by
    unfold gsmMap
    rw [generate_ok h0 h, ← rows_eq]
    rfl
  have hd : (moveAxis (tiled nt npix (f.vals.map (rightMap L nside)))).dims = ⟨nt, f.vals.length, 1, npix⟩ := by
    show (⟨nt, (f.vals.map (rightMap L nside)).length, 1, npix⟩ : Dims) = _
    rw [List.length_map]
  refine ⟨⟨nside, npix, nt, 1, f⟩, moveAxis (tiled nt npix (f.vals.map (rightMap L nside))), ?_, hd, hd.symm, fun t i c hi => ?_⟩
  · unfold hpxGsm
    rw [h1]
    exact if_pos hd
  · show (f.vals.map (rightMap L nside)).getD i 0 c = _
    rw [List.getD_eq_getElem _ _ (by simpa using hi), List.getElem_map]

/-- **C192**: with frequencies given in MHz, the maps are those of the frequencies asked for. -/
theorem gsm_mhz (L : GsmLib) (nside npix nt : Nat) (f : Freqs) (hu : f.unit = 1) (h0 : f.mhz ≠ []) (h : ∀ x ∈ f.mhz, InRange x) :
    ∃ s a, hpxGsm L nside npix nt f = .ok (s, a) ∧ ∀ t i c, ∀ hi : i < f.mhz.length, a.val t i 0 c = rightMap L nside f.mhz[i] c := by
  have he : f.mhz = f.vals := by
    unfold Freqs.mhz
    rw [hu]
    simp
  simp only [he] at h0 h ⊢
  obtain ⟨s, a, h1, -, -, h4⟩ := gsm_exact L nside npix nt f h0 h
  exact ⟨s, a, h1, h4⟩

/-- **C192**: a sky is refused exactly when there is no frequency or one number, whatever its unit, is outside of the range of the model. -/
theorem gsm_refused (L : GsmLib) (nside npix nt : Nat) (f : Freqs) :
    (∃ e, hpxGsm L nside npix nt f = .error e) ↔ f.vals = [] ∨ ∃ x ∈ f.vals, ¬ InRange x := by
  constructor
  · rintro ⟨e, he⟩
    by_contra hc
    push Not at hc
    obtain ⟨s, a, h1, -⟩ := gsm_exact L nside npix nt f hc.1 hc.2
    rw [h1] at he
    cases he
  · intro hc
    cases hg : generate L f.vals with
    | ok l =>
      obtain ⟨h1, h2, -⟩ := generate_inv hg
      rcases hc with hc | ⟨x, hx, hn⟩
      · exact absurd hc h1
      · exact absurd (h2 x hx) hn
    | error e =>
      refine ⟨e, ?_⟩
      unfold hpxGsm gsmMap
      rw [hg]
      rfl

/-- **C192**, violated: the unit of the frequencies is not looked at. The same numbers in any other unit give the same values, so a frequency
of 50000 kHz is shown with the map at 50000 MHz. -/
theorem gsm_unit_violated (L : GsmLib) (nside npix nt : Nat) (f : Freqs) (unit : ℚ) (s : HpxShape) (a : Arr4)
    (h : hpxGsm L nside npix nt f = .ok (s, a)) :
    hpxGsm L nside npix nt ⟨unit, f.vals⟩ = .ok (⟨nside, npix, nt, 1, ⟨unit, f.vals⟩⟩, a) ∧
      ∀ t i c, ∀ hi : i < f.vals.length, a.val t i 0 c = rightMap L nside f.vals[i] c := by
  have hr : f.vals ≠ [] ∧ ∀ x ∈ f.vals, InRange x := by
    have := (gsm_refused L nside npix nt f).not.1 (by rintro ⟨e, he⟩; rw [h] at he; cases he)
    push Not at this
    exact this
  obtain ⟨s', a', h1, h2, -, h4⟩ := gsm_exact L nside npix nt f hr.1 hr.2
  rw [h] at h1
  cases h1
  refine ⟨?_, h4⟩
  have hm : gsmMap L nside npix nt ⟨unit, f.vals⟩ = gsmMap L nside npix nt f := rfl
  unfold hpxGsm at h ⊢
  rw [hm]
  cases hg : gsmMap L nside npix nt f with
  | error e => rw [hg] at h; cases h
  | ok b =>
    rw [hg] at h
    simp only [Except.bind] at h ⊢
    by_cases hb : b.dims = (⟨nside, npix, nt, 1, f⟩ : HpxShape).dims
    · rw [if_pos hb] at h
      cases h
      exact if_pos hb
    · rw [if_neg hb] at h; cases h

/-- **C192**, violated: a frequency of at least 10 MHz is refused when it is given in Hz, and one of less than 10 GHz when it is given in GHz. -/
theorem gsm_hertz_violated (L : GsmLib) (nside npix nt : Nat) (f : Freqs) (x : ℚ) (hx : x ∈ f.vals)
    (h : f.unit = 1 / 1000000 ∧ 10 ≤ x * f.unit ∨ f.unit = 1000 ∧ x * f.unit < 10000) :
    ∃ e, hpxGsm L nside npix nt f = .error e := by
  refine (gsm_refused L nside npix nt f).2 (Or.inr ⟨x, hx, fun ⟨h1, h2⟩ => ?_⟩)
  rcases h with ⟨hu, h⟩ | ⟨hu, h⟩ <;> rw [hu] at h <;> linarith

/-- **C192**: a sky shaped like another one has its times, frequencies and pixels, and always one polarisation. -/
theorem gsm_shaped (L : GsmLib) (o : HpxShape) (s : HpxShape) (a : Arr4) (h : gsmShapedLike L (some o) = .ok (s, a)) :
    s = { o with pols := 1 } ∧ a.dims = s.dims := by
  have h' : hpxGsm L o.nside o.npix o.times o.freqs = .ok (s, a) := h
  unfold hpxGsm at h'
  cases hg : gsmMap L o.nside o.npix o.times o.freqs with
  | error e => rw [hg] at h'; cases h'
  | ok b =>
    rw [hg] at h'
    simp only [Except.bind] at h'
    split_ifs at h' with hb
    cases h'
    exact ⟨rfl, hb⟩

/-- What is not a sky on pixels is refused. -/
theorem gsm_shaped_none (L : GsmLib) : gsmShapedLike L none = .error .typeError := rfl

/-- **C192**, violated: it does not have the shape of the other one as soon as this has not exactly one polarisation. -/
theorem gsm_shaped_violated (L : GsmLib) (o : HpxShape) (s : HpxShape) (a : Arr4) (h : gsmShapedLike L (some o) = .ok (s, a)) (hp : o.pols ≠ 1) :
    a.dims ≠ o.dims := by
  obtain ⟨h1, h2⟩ := gsm_shaped L o s a h
  intro hc
  rw [h2, h1] at hc
  exact hp (congrArg Dims.p hc).symm

/-- **C192**: the model read for directions of the sky takes frequencies with their unit: only their values in MHz matter. -/
theorem skymodel_units (L : GsmLib) (f g : Freqs) (h : f.mhz = g.mhz) : skymodelData L f = skymodelData L g := by
  unfold skymodelData
  rw [h]

theorem skymodel_ok {L : GsmLib} {f : Freqs} {l : List HpxMap} (h : skymodelData L f = .ok l) :
    l = rotateMaps L L.native (f.mhz.map L.gen) := by
  unfold skymodelData at h
  cases hg : generate L f.mhz with
  | error e => rw [hg] at h; cases h
  | ok m =>
    rw [hg] at h
    cases h
    rw [(generate_inv hg).2.2]

/-- **C192**: with a single frequency, the map is the one at this frequency. -/
theorem skymodel_single (L : GsmLib) (f : Freqs) (x : ℚ) (hf : f.mhz = [x]) (hx : InRange x) :
    skymodelData L f = .ok [rightMap L L.native x] := by
  unfold skymodelData
  rw [hf, generate_ok (by simp) (by simpa using hx)]
  show Except.ok [L.rot L.native (L.gen x)] = _
  unfold rightMap regrade
  rw [if_neg (by simp)]

/-- **C192**: with several frequencies, there is one map for each; all but the last two are those at their frequencies. -/
theorem skymodel_first (L : GsmLib) (f : Freqs) (l : List HpxMap) (h : skymodelData L f = .ok l) :
    l.length = f.mhz.length ∧ ∀ i, ∀ hi : i < f.mhz.length, i + 2 < f.mhz.length → l[i]? = some (rightMap L L.native f.mhz[i]) := by
  have hl := skymodel_ok h
  unfold rotateMaps at hl
  rw [List.length_map] at hl
  by_cases h1 : 1 < f.mhz.length
  · rw [if_pos h1] at hl
    subst hl
    refine ⟨by simp; omega, fun i hi h2 => ?_⟩
    rw [List.getElem?_append_left (by simp; omega)]
    unfold rightMap regrade
    simp [show i < f.mhz.length - 2 by omega]
  · rw [if_neg h1] at hl
    subst hl
    exact ⟨by simp, fun i _ h2 => by omega⟩

/-- **C192**, violated: with several frequencies, the maps at the last two are mixed as if they were the parameters Q and U of one polarisation. In a
pixel where they are not both zero, both are right only if the angle of the turn is a multiple of 180 degrees. -/
theorem skymodel_mixed_violated (L : GsmLib) (f : Freqs) (l : List HpxMap) (h : skymodelData L f = .ok l) (h2 : 2 ≤ f.mhz.length) :
    ∃ q u q' u' : HpxMap, q = rightMap L L.native (f.mhz[f.mhz.length - 2]'(by omega)) ∧ u = rightMap L L.native (f.mhz[f.mhz.length - 1]'(by omega)) ∧
      l[f.mhz.length - 2]? = some q' ∧ l[f.mhz.length - 1]? = some u' ∧
      ∀ c, (q' c = q c ∧ u' c = u c) ↔ (q c = 0 ∧ u c = 0) ∨ Real.cos (2 * L.psi L.native c) = 1 := by
  have hl := skymodel_ok h
  unfold rotateMaps at hl
  rw [List.length_map, if_pos (by omega)] at hl
  have hq : L.rot L.native ((f.mhz.map L.gen).getD (f.mhz.length - 2) 0) = rightMap L L.native (f.mhz[f.mhz.length - 2]'(by omega)) := by
    rw [List.getD_eq_getElem _ _ (by simp; omega), List.getElem_map]
    unfold rightMap regrade
    rw [if_neg (by simp)]
  have hu : L.rot L.native ((f.mhz.map L.gen).getD (f.mhz.length - 1) 0) = rightMap L L.native (f.mhz[f.mhz.length - 1]'(by omega)) := by
    rw [List.getD_eq_getElem _ _ (by simp; omega), List.getElem_map]
    unfold rightMap regrade
    rw [if_neg (by simp)]
  rw [hq, hu] at hl
  have hlen : (((f.mhz.map L.gen).take (f.mhz.length - 2)).map (L.rot L.native)).length = f.mhz.length - 2 := by simp
  set Q := rightMap L L.native (f.mhz[f.mhz.length - 2]'(by omega)) with hQ
  set U := rightMap L L.native (f.mhz[f.mhz.length - 1]'(by omega)) with hU
  refine ⟨Q, U, fun c => Q c * Real.cos (2 * L.psi L.native c) - U c * Real.sin (2 * L.psi L.native c),
    fun c => Q c * Real.sin (2 * L.psi L.native c) + U c * Real.cos (2 * L.psi L.native c), rfl, rfl, ?_, ?_, fun c => ?_⟩
  · rw [hl, List.getElem?_append_right (by rw [hlen]), hlen, Nat.sub_self]
    rfl
  · rw [hl, List.getElem?_append_right (by rw [hlen]; omega), hlen, show f.mhz.length - 1 - (f.mhz.length - 2) = 1 by omega]
    rfl
  · show (Q c * Real.cos (2 * L.psi L.native c) - U c * Real.sin (2 * L.psi L.native c) = Q c ∧
      Q c * Real.sin (2 * L.psi L.native c) + U c * Real.cos (2 * L.psi L.native c) = U c) ↔ _
    generalize Q c = q
    generalize U c = u
    have hs := Real.sin_sq_add_cos_sq (2 * L.psi L.native c)
    generalize Real.cos (2 * L.psi L.native c) = co at hs ⊢
    generalize Real.sin (2 * L.psi L.native c) = si at hs ⊢
    constructor
    · rintro ⟨e1, e2⟩
      by_cases hz : co = 1
      · exact Or.inr hz
      · left
        have hk : (q ^ 2 + u ^ 2) * (1 - co) = 0 := by linear_combination (-q) * e1 - u * e2
        have hn : q ^ 2 + u ^ 2 = 0 := (mul_eq_zero.1 hk).resolve_right (fun hc => hz (by linarith))
        constructor <;> nlinarith [sq_nonneg q, sq_nonneg u]
    · rintro (⟨h1, h2⟩ | h1)
      · rw [h1, h2]; simp
      · have h0 : si = 0 := by
          rw [h1] at hs
          have : si ^ 2 = 0 := by linarith
          exact pow_eq_zero_iff (by norm_num) |>.1 this
        rw [h1, h0]
        constructor <;> ring

/-- A library for the examples: maps proportional to the frequency, a turn by a quarter in each pixel. -/
noncomputable def exLib : GsmLib := ⟨fun x c => (x : ℝ) * (c + 1), 512, fun _ m => m, fun _ m => m, fun _ _ => Real.pi / 4⟩

example : InRange 50 ∧ InRange 60 := by unfold InRange; norm_num

example : ∃ s a, hpxGsm exLib 64 49152 2 ⟨1 / 1000, [50000]⟩ = .ok (s, a) ∧ s.freqs.mhz = [50] ∧ a.val 0 0 0 3 = rightMap exLib 64 50000 3 := by
  obtain ⟨s, a, h1, -, -, h4⟩ := gsm_exact exLib 64 49152 2 ⟨1 / 1000, [50000]⟩ (by simp) (by intro x hx; simp at hx; subst hx; unfold InRange; norm_num)
  refine ⟨_, a, (gsm_unit_violated _ _ _ _ _ (1 / 1000) s a h1).1, ?_, h4 0 0 3 (by simp)⟩
  simp [Freqs.mhz]
  norm_num

example : ∃ s a, gsmShapedLike exLib (some ⟨64, 49152, 3, 2, ⟨1, [50, 60]⟩⟩) = .ok (s, a) := by
  obtain ⟨s, a, h1, -⟩ := gsm_exact exLib 64 49152 3 ⟨1, [50, 60]⟩ (by simp)
    (by intro x hx; simp at hx; rcases hx with rfl | rfl <;> (unfold InRange; norm_num))
  exact ⟨s, a, h1⟩

example : ∃ l, skymodelData exLib ⟨1, [50, 60]⟩ = .ok l ∧ Real.cos (2 * exLib.psi exLib.native 0) ≠ 1 ∧ rightMap exLib exLib.native 50 0 ≠ 0 := by
  refine ⟨rotateMaps exLib exLib.native ((⟨1, [50, 60]⟩ : Freqs).mhz.map exLib.gen), ?_, ?_, ?_⟩
  · unfold skymodelData
    rw [generate_ok (by simp [Freqs.mhz]) (by intro x hx; simp [Freqs.mhz] at hx; rcases hx with rfl | rfl <;> (unfold InRange; norm_num))]
    rfl
  · show Real.cos (2 * (Real.pi / 4)) ≠ 1
    rw [show 2 * (Real.pi / 4) = Real.pi / 2 by ring, Real.cos_pi_div_two]
    norm_num
  · unfold rightMap regrade exLib
    norm_num

end Verif.Astro
