import Verif.TF.PolAngle
import Verif.TF.PropsStokes

/-!
# Property C173: the angle of linear polarisation is that of the field

A field at position angle `ψ` on the sky is unchanged by half a turn of `ψ`; a field at `ψ + π/2` is perpendicular to it.
-/

namespace Verif.TF

open Complex

/-- The coherency data of a wave whose field oscillates with amplitude `e` along the direction at angle `psi` from the first axis. -/
noncomputable def linearWave (e : ℂ) (psi : ℝ) : M2 :=
  let x := e * Real.cos psi
  let y := e * Real.sin psi
  ⟨x * star x, x * star y, y * star x, y * star y⟩

/-- Two position angles are the same direction: they differ by a whole number of half turns. -/
def SameLine (a b : ℝ) : Prop := ∃ k : ℤ, a = b + k * Real.pi

/-- Two position angles are perpendicular directions. -/
def Across (a b : ℝ) : Prop := ∃ k : ℤ, a = b + Real.pi / 2 + k * Real.pi

/-- The data have linearly polarised intensity `l` at position angle `psi`, whatever their total intensity and their circular part. -/
def Polarised (d : M2) (l psi : ℝ) : Prop :=
  0 < l ∧ readQ d = l * Real.cos (2 * psi) ∧ readU d = l * Real.sin (2 * psi)

/-- Directions are never both the same and perpendicular. -/
theorem across_not_same {a b : ℝ} (h : Across a b) : ¬ SameLine a b := by
  obtain ⟨k, hk⟩ := h
  rintro ⟨m, hm⟩
  have e : ((m - k : ℤ) : ℝ) * Real.pi = 1 / 2 * Real.pi := by push_cast; linarith
  have e2 := mul_right_cancel₀ Real.pi_ne_zero e
  have e3 : ((2 * (m - k) : ℤ) : ℝ) = ((1 : ℤ) : ℝ) := by push_cast at e2 ⊢; linarith
  have e4 : 2 * (m - k) = 1 := by exact_mod_cast e3
  omega

/-- **C173**: a wave is polarised along its field, with its whole intensity. -/
theorem wave_polarised (e : ℂ) (he : e ≠ 0) (psi : ℝ) :
    Polarised (linearWave e psi) (Complex.normSq e) psi ∧ readI (linearWave e psi) = Complex.normSq e ∧
    readV (linearWave e psi) = 0 ∧ Hermitian (linearWave e psi) := by
  have h1 := Real.cos_sq_add_sin_sq psi
  unfold Polarised
  rw [Real.cos_two_mul', Real.sin_two_mul]
  unfold readI readV readQ readU Hermitian linearWave
  generalize Real.cos psi = c at h1 ⊢
  generalize Real.sin psi = s at h1 ⊢
  refine ⟨⟨Complex.normSq_pos.2 he, ?_, ?_⟩, ?_, ?_, ?_, ?_, ?_⟩
  · simp [Complex.normSq_apply, Complex.mul_re, Complex.mul_im]
    ring
  · simp [Complex.normSq_apply, Complex.mul_re, Complex.mul_im]
    ring
  · simp [Complex.normSq_apply, Complex.mul_re, Complex.mul_im]
    linear_combination (e.re * e.re + e.im * e.im) * h1
  · simp [Complex.mul_re, Complex.mul_im]
    ring
  · simp [Complex.mul_re, Complex.mul_im]
    ring
  · simp [Complex.mul_re, Complex.mul_im]
    ring
  · simp
    ring

/-- **C173**: all data have a position angle, except those whose `Q` and `U` are both zero. -/
theorem polarised_exists (d : M2) (h : ¬ (readQ d = 0 ∧ readU d = 0)) : ∃ l psi, Polarised d l psi := by
  have hz : (⟨readQ d, readU d⟩ : ℂ) ≠ 0 := by
    intro e
    rw [Complex.ext_iff] at e
    exact h e
  refine ⟨‖(⟨readQ d, readU d⟩ : ℂ)‖, Complex.arg ⟨readQ d, readU d⟩ / 2, norm_pos_iff.2 hz, ?_, ?_⟩
  · rw [mul_div_cancel₀ _ two_ne_zero, Complex.norm_mul_cos_arg]
  · rw [mul_div_cancel₀ _ two_ne_zero, Complex.norm_mul_sin_arg]

/-- Any angle is within a quarter of a turn of a multiple of half a turn, unless its cosine is zero. -/
theorem folded (t : ℝ) (h : Real.cos t ≠ 0) : ∃ k : ℤ, -(Real.pi / 2) < t + k * Real.pi ∧ t + k * Real.pi < Real.pi / 2 := by
  have hp := Real.pi_pos
  obtain ⟨k, hk, -⟩ := existsUnique_add_zsmul_mem_Ioc hp t (-(Real.pi / 2))
  rw [zsmul_eq_mul] at hk
  obtain ⟨h1, h2⟩ := hk
  refine ⟨k, h1, lt_of_le_of_ne (by linarith) ?_⟩
  intro e
  have hc := Real.cos_add_int_mul_pi t k
  rw [e, Real.cos_pi_div_two] at hc
  rcases Int.even_or_odd k with hk | hk
  · rw [hk.neg_one_zpow, one_mul] at hc; exact h hc.symm
  · rw [hk.neg_one_zpow] at hc; exact h (by linarith)

/-- What is returned for linearly polarised data: the position angle folded, with the number of quarter turns. -/
theorem angle_folded {d : M2} {l psi : ℝ} (h : Polarised d l psi) (hc : Real.cos (2 * psi) ≠ 0) :
    ∃ k : ℤ, angleOf d = some (psi + k * (Real.pi / 2)) ∧ 0 < (-1 : ℝ) ^ k * Real.cos (2 * psi) := by
  obtain ⟨hl, hq, hu⟩ := h
  obtain ⟨k, h1, h2⟩ := folded (2 * psi) hc
  refine ⟨k, ?_, ?_⟩
  · show polAngle (readU d) (readQ d) = _
    have hne : readQ d ≠ 0 := by rw [hq]; exact mul_ne_zero hl.ne' hc
    unfold polAngle
    rw [if_neg hne, hu, hq, mul_div_mul_left _ _ hl.ne', ← Real.tan_eq_sin_div_cos, ← Real.tan_add_int_mul_pi (2 * psi) k,
      Real.arctan_tan h1 h2]
    congr 1
    ring
  · rw [← Real.cos_add_int_mul_pi]
    exact Real.cos_pos_of_mem_Ioo ⟨h1, h2⟩

/-- **C173** (partial): data polarised within an eighth of a turn of the first axis, that is with `Q` positive, give the direction of the
field. Missing: data with `Q` negative (`angle_across_violated`). -/
theorem angle_positive_partial {d : M2} {l psi : ℝ} (h : Polarised d l psi) (hq : 0 < readQ d) :
    ∃ a, angleOf d = some a ∧ SameLine a psi := by
  have hc : 0 < Real.cos (2 * psi) := by
    rw [h.2.1] at hq
    exact (mul_pos_iff_of_pos_left h.1).1 hq
  obtain ⟨k, e, hs⟩ := angle_folded h hc.ne'
  refine ⟨_, e, ?_⟩
  rcases Int.even_or_odd' k with ⟨m, hm | hm⟩
  · exact ⟨m, by rw [hm]; push_cast; ring⟩
  · exfalso
    have ho : Odd k := ⟨m, hm⟩
    rw [ho.neg_one_zpow] at hs
    linarith

/-- **C173** violated: all data with `Q` negative, whatever their intensities, are given the direction perpendicular to the field. -/
theorem angle_across_violated {d : M2} {l psi : ℝ} (h : Polarised d l psi) (hq : readQ d < 0) :
    ∃ a, angleOf d = some a ∧ Across a psi ∧ ¬ SameLine a psi := by
  have hc : Real.cos (2 * psi) < 0 := by
    rw [h.2.1] at hq
    by_contra hn
    exact absurd hq (not_lt.2 (mul_nonneg h.1.le (not_lt.1 hn)))
  obtain ⟨k, e, hs⟩ := angle_folded h hc.ne
  refine ⟨_, e, ?_⟩
  rcases Int.even_or_odd' k with ⟨m, hm | hm⟩
  · exfalso
    have ho : Even k := ⟨m, by omega⟩
    rw [ho.neg_one_zpow] at hs
    linarith
  · have ha : Across (psi + k * (Real.pi / 2)) psi := ⟨m, by rw [hm]; push_cast; ring⟩
    exact ⟨ha, across_not_same ha⟩

/-- **C173**: data whose `Q` is zero give the direction of the field. -/
theorem angle_diagonal {d : M2} {l psi : ℝ} (h : Polarised d l psi) (hq : readQ d = 0) :
    ∃ a, angleOf d = some a ∧ SameLine a psi := by
  have hc : Real.cos (2 * psi) = 0 := by
    rcases mul_eq_zero.1 (h.2.1.symm.trans hq) with e | e
    · exact absurd e h.1.ne'
    · exact e
  obtain ⟨k, hk⟩ := Real.cos_eq_zero_iff.1 hc
  have hs : Real.sin (2 * psi) = (-1) ^ k := by
    rw [hk, show (2 * (k : ℝ) + 1) * Real.pi / 2 = Real.pi / 2 + k * Real.pi by ring, Real.sin_add_int_mul_pi, Real.sin_pi_div_two, mul_one]
  have hu := h.2.2
  rw [hs] at hu
  show ∃ a, polAngle (readU d) (readQ d) = some a ∧ _
  unfold polAngle
  rw [if_pos hq]
  unfold overZero
  rcases Int.even_or_odd' k with ⟨m, hm | hm⟩
  · have ho : Even k := ⟨m, by omega⟩
    rw [ho.neg_one_zpow, mul_one] at hu
    rw [if_pos (by rw [hu]; exact h.1)]
    refine ⟨_, rfl, -m, ?_⟩
    rw [hm] at hk
    push_cast at hk ⊢
    linarith
  · have ho : Odd k := ⟨m, hm⟩
    rw [ho.neg_one_zpow] at hu
    have hl := h.1
    rw [if_neg (by linarith), if_pos (by linarith)]
    refine ⟨_, rfl, -(m + 1), ?_⟩
    rw [hm] at hk
    push_cast at hk ⊢
    linarith

/-- **C173**: whatever the data, the angle is within an eighth of a turn of zero; there is none exactly when `Q` and `U` are both zero. -/
theorem angle_range (d : M2) :
    (∀ a, angleOf d = some a → |a| ≤ Real.pi / 4) ∧ (angleOf d = none ↔ readQ d = 0 ∧ readU d = 0) := by
  have hp := Real.pi_pos
  show (∀ a, polAngle (readU d) (readQ d) = some a → _) ∧ (polAngle (readU d) (readQ d) = none ↔ _)
  generalize readU d = u
  generalize readQ d = q
  unfold polAngle overZero
  have h1 := Real.arctan_lt_pi_div_two (u / q)
  have h2 := Real.neg_pi_div_two_lt_arctan (u / q)
  constructor
  · intro a
    split_ifs
    · rintro ⟨⟩; rw [abs_le]; constructor <;> linarith
    · rintro ⟨⟩; rw [abs_le]; constructor <;> linarith
    · exact fun e => nomatch e
    · rintro ⟨⟩; rw [abs_le]; constructor <;> linarith
  · split_ifs with h3 h4 h5
    · simp [h3, h4.ne']
    · simp [h3, h5.ne]
    · simp [h3, le_antisymm (not_lt.1 h4) (not_lt.1 h5)]
    · simp [h3]

/-- **C173** violated: two perpendicular waves, of any amplitudes, are given the same angle, unless they lie along the diagonals. -/
theorem angle_perpendicular_violated (e f : ℂ) (he : e ≠ 0) (hf : f ≠ 0) (psi : ℝ) (hc : Real.cos (2 * psi) ≠ 0) :
    angleOf (linearWave f (psi + Real.pi / 2)) = angleOf (linearWave e psi) := by
  obtain ⟨⟨hl, q1, u1⟩, -⟩ := wave_polarised e he psi
  obtain ⟨⟨hm, q2, u2⟩, -⟩ := wave_polarised f hf (psi + Real.pi / 2)
  rw [show 2 * (psi + Real.pi / 2) = 2 * psi + Real.pi by ring, Real.cos_add_pi] at q2
  rw [show 2 * (psi + Real.pi / 2) = 2 * psi + Real.pi by ring, Real.sin_add_pi] at u2
  show polAngle (readU _) (readQ _) = polAngle (readU _) (readQ _)
  unfold polAngle
  rw [q1, u1, q2, u2, if_neg (mul_ne_zero hl.ne' hc), if_neg (mul_ne_zero hm.ne' (neg_ne_zero.2 hc)),
    mul_div_mul_left _ _ hl.ne', mul_div_mul_left _ _ hm.ne', neg_div_neg_eq]

/-- Rotating hermitian data turns their position angle. -/
theorem rotate_polarised (a : ℝ) {d : M2} (hd : Hermitian d) {l psi : ℝ} (h : Polarised d l psi) : Polarised (rotate a d) l (psi + a) := by
  obtain ⟨hl, hq, hu⟩ := h
  obtain ⟨-, -, h3, h4⟩ := rotate_stokes a d hd
  refine ⟨hl, ?_, ?_⟩
  · rw [h3, hq, hu, mul_add, Real.cos_add]; ring
  · rw [h4, hq, hu, mul_add, Real.sin_add]; ring

/-- **C173** (partial): correcting the data for a rotation measure takes `RM λ²` away from the position angle, and the angle read
afterwards is the corrected one up to a whole number of quarter turns. Missing: the odd quarter turns (`angle_across_violated`). -/
theorem angle_faraday_partial (rm w : ℝ) {d : M2} (hd : Hermitian d) {l psi : ℝ} (h : Polarised d l psi) :
    Polarised (deFaraday rm w d) l (psi - rm * w ^ 2) ∧
    ∃ k : ℤ, angleOf (deFaraday rm w d) = some (psi - rm * w ^ 2 + k * (Real.pi / 2)) := by
  have hp : Polarised (deFaraday rm w d) l (psi - rm * w ^ 2) := by
    rw [deFaraday_rotate]
    exact rotate_polarised _ hd h
  refine ⟨hp, ?_⟩
  by_cases hc : Real.cos (2 * (psi - rm * w ^ 2)) = 0
  · obtain ⟨a, ha, k, hk⟩ := angle_diagonal hp (by rw [hp.2.1, hc, mul_zero])
    exact ⟨2 * k, by rw [ha, hk]; congr 1; push_cast; ring⟩
  · obtain ⟨k, hk, -⟩ := angle_folded hp hc
    exact ⟨k, hk⟩

/-- **C173**: a field rotated by `RM λ²` on its way, then corrected, is read at the angle it was emitted with, the same at all wavelengths. -/
theorem angle_emitted (rm w : ℝ) (d : M2) : angleOf (deFaraday rm w (rotate (faradayAngle rm w false) d)) = angleOf d := by
  rw [faraday_restores]

/-- **C173** (partial): without a correction, the angles read at two wavelengths differ by `RM (λ₁² - λ₂²)` up to a whole number of
quarter turns, from which a rotation measure is derived. Missing: half turns only (`angle_across_violated`). -/
theorem angle_measure_partial (rm w1 w2 : ℝ) {d : M2} (hd : Hermitian d) {l psi : ℝ} (h : Polarised d l psi) :
    ∃ (a b : ℝ) (k : ℤ), angleOf (rotate (faradayAngle rm w1 false) d) = some a ∧
      angleOf (rotate (faradayAngle rm w2 false) d) = some b ∧ a - b = rm * (w1 ^ 2 - w2 ^ 2) + k * (Real.pi / 2) := by
  have hr : ∀ w, rotate (faradayAngle rm w false) d = deFaraday (-rm) w d := by
    intro w
    rw [deFaraday_rotate]
    congr 1
    unfold faradayAngle
    simp
  obtain ⟨-, k, hk⟩ := angle_faraday_partial (-rm) w1 hd h
  obtain ⟨-, m, hm⟩ := angle_faraday_partial (-rm) w2 hd h
  rw [hr, hr]
  exact ⟨_, _, k - m, hk, hm, by push_cast; ring⟩

/-! ## The hypotheses are met -/

/-- A vertical wave: `Q` is negative and the angle is read as that of a horizontal one. -/
example : angleOf (linearWave 2 (Real.pi / 2)) = some 0 ∧ angleOf (linearWave 2 0) = some 0 := by
  have h := angle_perpendicular_violated 2 2 (by norm_num) (by norm_num) 0 (by simp)
  rw [zero_add] at h
  have h0 : angleOf (linearWave 2 0) = some 0 := by
    unfold angleOf polAngle linearWave
    simp
  exact ⟨h.trans h0, h0⟩

example : Polarised (specMatrix 3 1 1 5) (2 * Real.sqrt 2) (Real.pi / 8) ∧ 0 < readQ (specMatrix 3 1 1 5) := by
  have hs : Real.sqrt 2 * Real.sqrt 2 = 2 := Real.mul_self_sqrt (by norm_num)
  have e : 2 * (Real.pi / 8) = Real.pi / 4 := by ring
  refine ⟨⟨by positivity, ?_, ?_⟩, ?_⟩
  · rw [e, Real.cos_pi_div_four]; simp [readQ, specMatrix]; linarith
  · rw [e, Real.sin_pi_div_four]; simp [readU, specMatrix]; linarith
  · simp [readQ, specMatrix]

example : Hermitian (specMatrix 3 1 1 5) := (recorded_hermitian 3 1 1 5).1

end Verif.TF
