import Verif.Astro.PropsJones
import Mathlib.Analysis.SpecialFunctions.Trigonometric.Basic
import Mathlib.Tactic.FieldSimp

/-!
# Back from Mueller to Jones, Stokes vectors and names of the circular states (properties C65 and C74)
-/

namespace Verif.Astro

open Verif.TF Matrix

theorem rad_90 : rad 90 = Real.pi / 2 := by unfold rad; ring
theorem rad_45 : rad 45 = Real.pi / 4 := by unfold rad; ring
theorem rad_180 : rad 180 = Real.pi := by unfold rad; ring
theorem rad_0 : rad 0 = 0 := by unfold rad; ring
theorem rad_neg (x : ℝ) : rad (-x) = -rad x := by unfold rad; ring

/-- **C65** fails for retarders: both calculi delay the opposite component, as for the quarter-wave plate. -/
theorem retarder_violated : mueller (jonesRetarder 0 90) ≠ muellerRetarder 0 90 := by
  rw [retarder_opposite]
  intro h
  have := congrFun (congrFun h 2) 3
  simp [muellerRetarder, rad_neg, rad_90, rad_0] at this
  norm_num at this

/-- **C65**: retarders agree exactly for the delays whose sine is zero, or are the ones of the opposite delay. -/
theorem retarder_partial (theta delta : ℝ) (h : Real.sin (rad delta) = 0) :
    mueller (jonesRetarder theta delta) = muellerRetarder theta delta := by
  rw [retarder_opposite]
  unfold muellerRetarder
  simp only [rad_neg, Real.cos_neg, Real.sin_neg, h, neg_zero]

/-- Half-wave plates agree. -/
theorem half_wave (theta : ℝ) : mueller (jonesRetarder theta 180) = muellerRetarder theta 180 :=
  retarder_partial theta 180 (by rw [rad_180]; exact Real.sin_pi)

/-- Conversely, retarders disagree for all other delays. -/
theorem retarder_disagree (theta delta : ℝ) (h : Real.sin (rad delta) ≠ 0) :
    mueller (jonesRetarder theta delta) ≠ muellerRetarder theta delta := by
  rw [retarder_opposite]
  intro e
  have h1 := congrFun (congrFun e 1) 3
  have h2 := congrFun (congrFun e 2) 3
  simp [muellerRetarder, rad_neg] at h1 h2
  have a1 : Real.sin (2 * rad theta) * Real.sin (rad delta) = 0 := by linarith
  have a2 : Real.cos (2 * rad theta) * Real.sin (rad delta) = 0 := by linarith
  have b1 := (mul_eq_zero.1 a1).resolve_right h
  have b2 := (mul_eq_zero.1 a2).resolve_right h
  have := Real.sin_sq_add_cos_sq (2 * rad theta)
  rw [b1, b2] at this
  norm_num at this

/-! ## From Mueller back to Jones -/

theorem amp_exact (z : ℂ) : Real.sqrt (1 / 2 * (2 * Complex.normSq z)) = ‖z‖ := by
  rw [Complex.normSq_eq_norm_sq, show (1 / 2 * (2 * ‖z‖ ^ 2) : ℝ) = ‖z‖ ^ 2 by ring, Real.sqrt_sq (norm_nonneg z)]

theorem arg_exact (z : ℂ) : (‖z‖ : ℂ) * Complex.exp (Complex.I * ((Complex.arg z : ℝ) : ℂ)) = z := by
  rw [mul_comm Complex.I]
  exact Complex.norm_mul_exp_arg_mul_I z

theorem arg_conj_exact (z : ℂ) : (‖z‖ : ℂ) * Complex.exp (Complex.I * ((-Complex.arg (star z) : ℝ) : ℂ)) = z := by
  have h := congrArg (starRingEnd ℂ) (arg_exact (star z))
  rw [map_mul, ← Complex.exp_conj, map_mul, Complex.conj_I, Complex.conj_ofReal, Complex.conj_ofReal] at h
  have hs : (starRingEnd ℂ) (star z) = z := star_star z
  rw [hs, norm_star] at h
  rw [show Complex.I * ((-Complex.arg (star z) : ℝ) : ℂ) = -Complex.I * ((Complex.arg (star z) : ℝ) : ℂ) by push_cast; ring]
  exact h

theorem mueller_sums (a : M2) :
    mueller a 0 0 + mueller a 0 1 + mueller a 1 0 + mueller a 1 1 = 2 * Complex.normSq a.d00 ∧
    mueller a 0 0 - mueller a 0 1 + mueller a 1 0 - mueller a 1 1 = 2 * Complex.normSq a.d01 ∧
    mueller a 0 0 + mueller a 0 1 - mueller a 1 0 - mueller a 1 1 = 2 * Complex.normSq a.d10 ∧
    mueller a 0 0 - mueller a 0 1 - mueller a 1 0 + mueller a 1 1 = 2 * Complex.normSq a.d11 := by
  refine ⟨?_, ?_, ?_, ?_⟩ <;>
    simp [mueller, muellerC, unitary, unitaryInv, kron, Matrix.mul_apply, Fin.sum_univ_four, Complex.normSq_apply] <;> ring

theorem mueller_phases (a : M2) :
    (⟨mueller a 0 2 + mueller a 1 2, mueller a 0 3 + mueller a 1 3⟩ : ℂ) = 2 * star (a.d01 * star a.d00) ∧
    (⟨mueller a 2 0 + mueller a 2 1, mueller a 3 0 + mueller a 3 1⟩ : ℂ) = 2 * (a.d10 * star a.d00) ∧
    (⟨mueller a 2 2 + mueller a 3 3, mueller a 3 2 - mueller a 2 3⟩ : ℂ) = 2 * (a.d11 * star a.d00) := by
  refine ⟨?_, ?_, ?_⟩ <;> apply Complex.ext <;>
    simp [mueller, muellerC, unitary, unitaryInv, kron, Matrix.mul_apply, Fin.sum_univ_four] <;> ring

theorem arg_two (z : ℂ) : Complex.arg (2 * z) = Complex.arg z := by
  have := Complex.arg_real_mul z (show (0 : ℝ) < 2 by norm_num)
  simpa using this

theorem entry_scaled (z w : ℂ) (hw : w ≠ 0) (e : ℂ) (h : (‖z * star w‖ : ℂ) * e = z * star w) :
    (‖z‖ : ℂ) * e = star w / (‖w‖ : ℂ) * z := by
  have hn : (‖w‖ : ℂ) ≠ 0 := by
    rw [Ne, Complex.ofReal_eq_zero, norm_eq_zero]; exact hw
  rw [norm_mul, norm_star] at h
  push_cast at h
  field_simp
  linear_combination h

/-- **C65**: converting back gives the Jones matrix up to a global phase, if its first entry is not zero. -/
theorem to_jones_partial (a : M2) (h : a.d00 ≠ 0) :
    ∃ g : ℂ, g * star g = 1 ∧ toJones (mueller a) = ⟨g * a.d00, g * a.d01, g * a.d10, g * a.d11⟩ := by
  have hn : (‖a.d00‖ : ℂ) ≠ 0 := by
    rw [Ne, Complex.ofReal_eq_zero, norm_eq_zero]; exact h
  have hsq : a.d00 * star a.d00 = (‖a.d00‖ : ℂ) * ‖a.d00‖ := by
    have := Complex.mul_conj a.d00
    rw [Complex.normSq_eq_norm_sq] at this
    rw [show star a.d00 = (starRingEnd ℂ) a.d00 from rfl, this]
    push_cast
    ring
  refine ⟨star a.d00 / (‖a.d00‖ : ℂ), ?_, ?_⟩
  · rw [star_div₀, star_star, show star (‖a.d00‖ : ℂ) = (‖a.d00‖ : ℂ) from Complex.conj_ofReal _]
    field_simp
    rw [mul_comm, hsq, sq]
  · obtain ⟨s1, s2, s3, s4⟩ := mueller_sums a
    obtain ⟨p1, p2, p3⟩ := mueller_phases a
    unfold toJones atan2
    simp only [s1, s2, s3, s4, p1, p2, p3, amp_exact, arg_two]
    ext
    · show (‖a.d00‖ : ℂ) * Complex.exp (Complex.I * ((0 : ℝ) : ℂ)) = star a.d00 / (‖a.d00‖ : ℂ) * a.d00
      rw [Complex.ofReal_zero, mul_zero, Complex.exp_zero]
      field_simp
      rw [mul_comm (star a.d00), hsq, sq]
    · exact entry_scaled _ _ h _ (arg_conj_exact _)
    · exact entry_scaled _ _ h _ (arg_exact _)
    · exact entry_scaled _ _ h _ (arg_exact _)

example : (jonesElliptical 0 0).d00 ≠ 0 := by simp [jonesElliptical, rad_0]

theorem mueller_cross (a : M2) :
    (⟨mueller a 2 2 - mueller a 3 3, mueller a 3 2 + mueller a 2 3⟩ : ℂ) = 2 * (a.d10 * star a.d01) := by
  apply Complex.ext <;> simp [mueller, muellerC, unitary, unitaryInv, kron, Matrix.mul_apply, Fin.sum_univ_four] <;> ring

/-- Without first entry, all phases are lost. -/
theorem to_jones_zero (a : M2) (h : a.d00 = 0) : toJones (mueller a) = ⟨0, ‖a.d01‖, ‖a.d10‖, ‖a.d11‖⟩ := by
  obtain ⟨s1, s2, s3, s4⟩ := mueller_sums a
  obtain ⟨p1, p2, p3⟩ := mueller_phases a
  unfold toJones atan2
  simp only [s1, s2, s3, s4, p1, p2, p3, amp_exact, arg_two]
  simp [h]

/-- **C65** fails for other matrices: the phases of the remaining entries are lost, and the Mueller matrix changes unless the two entries
off the diagonal were in phase. -/
theorem to_jones_violated (a : M2) (h : a.d00 = 0) (hp : ∀ r : ℝ, 0 ≤ r → a.d10 * star a.d01 ≠ (r : ℂ)) :
    mueller (toJones (mueller a)) ≠ mueller a := by
  intro e
  have c1 := mueller_cross a
  have c2 := mueller_cross (toJones (mueller a))
  rw [e, c1, to_jones_zero a h] at c2
  refine hp (‖a.d10‖ * ‖a.d01‖) (by positivity) ?_
  have c3 := mul_left_cancel₀ (two_ne_zero) c2
  rw [c3, Complex.ofReal_mul]
  show (‖a.d10‖ : ℂ) * star (‖a.d01‖ : ℂ) = _
  rw [show star (‖a.d01‖ : ℂ) = (‖a.d01‖ : ℂ) from Complex.conj_ofReal _]

example : ∀ r : ℝ, 0 ≤ r → (⟨0, 1, Complex.I, 0⟩ : M2).d10 * star (⟨0, 1, Complex.I, 0⟩ : M2).d01 ≠ (r : ℂ) := by
  intro r _ h
  have := congrArg Complex.im h
  simp at this

/-- Three leading dimensions or more cannot be converted. -/
theorem mueller_dims_violated (a : M2) (extra : Nat) (h : 2 < extra) : toMueller extra a = .error .unboundLocal := by
  unfold toMueller
  rw [if_pos h]

/-! ## Stokes vectors -/

/-- **C65**: the field computed from Stokes parameters has the polarised part of them. -/
theorem stokes_to_jones (s : Fin 4 → ℝ) (h : s 1 ^ 2 + s 2 ^ 2 + s 3 ^ 2 ≠ 0) :
    ∃ e, stokesToJones s = some e ∧ stokesOf e = ![Real.sqrt (s 1 ^ 2 + s 2 ^ 2 + s 3 ^ 2), s 1, s 2, s 3] := by
  have h0 : 0 ≤ s 1 ^ 2 + s 2 ^ 2 + s 3 ^ 2 := by positivity
  have hp := Real.sq_sqrt h0
  have hp0 : 0 < Real.sqrt (s 1 ^ 2 + s 2 ^ 2 + s 3 ^ 2) := Real.sqrt_pos.2 (lt_of_le_of_ne h0 (Ne.symm h))
  unfold stokesToJones
  simp only
  rw [if_neg hp0.ne']
  refine ⟨_, rfl, ?_⟩
  generalize Real.sqrt (s 1 ^ 2 + s 2 ^ 2 + s 3 ^ 2) = p at *
  generalize s 1 = q at *
  generalize s 2 = u at *
  generalize s 3 = v at *
  have hq : -1 ≤ q / p := by
    rw [le_div_iff₀ hp0]
    nlinarith [sq_nonneg u, sq_nonneg v, sq_nonneg (p + q), sq_nonneg (p - q)]
  have ha := Real.sq_sqrt (show (0 : ℝ) ≤ (1 + q / p) / 2 by linarith)
  have hr := Real.sq_sqrt hp0.le
  generalize Real.sqrt ((1 + q / p) / 2) = a at *
  generalize Real.sqrt p = r at *
  have ha' : 2 * p * a ^ 2 = p + q := by
    rw [ha]; field_simp
  by_cases h0 : a = 0
  · rw [if_pos h0]
    subst h0
    have hq' : q = -p := by linarith [ha']
    have huv : u ^ 2 + v ^ 2 = 0 := by rw [hq'] at hp; nlinarith
    have hu : u = 0 := by nlinarith [sq_nonneg u, sq_nonneg v]
    have hv : v = 0 := by nlinarith [sq_nonneg u, sq_nonneg v]
    ext i
    fin_cases i <;> simp [stokesOf, Complex.normSq_apply, hq', hu, hv] <;> nlinarith
  · rw [if_neg h0]
    have hb : (u / p / (2 * a)) ^ 2 + (v / p / (2 * a)) ^ 2 = (p - q) / (2 * p) := by
      have hpa : p ≠ 0 := hp0.ne'
      have hx : (p - q) * (2 * p * a ^ 2) = u ^ 2 + v ^ 2 := by rw [ha']; nlinarith
      field_simp
      linear_combination -hx
    have hb' : p * ((u / p / (2 * a)) ^ 2 + (v / p / (2 * a)) ^ 2) = (p - q) / 2 := by
      rw [hb]; field_simp
    have hu : 2 * p * a * (u / p / (2 * a)) = u := by field_simp
    have hv : 2 * p * a * (v / p / (2 * a)) = v := by field_simp
    generalize u / p / (2 * a) = b at *
    generalize v / p / (2 * a) = c at *
    ext i
    fin_cases i <;> simp [stokesOf, Complex.normSq_apply]
    · linear_combination (a ^ 2 + b ^ 2 + c ^ 2) * hr + ha' / 2 + hb'
    · linear_combination (a ^ 2 - b ^ 2 - c ^ 2) * hr + ha' / 2 - hb'
    · linear_combination 2 * a * b * hr + hu
    · linear_combination 2 * a * c * hr + hv

/-- **C65**: fully polarised Stokes vectors are given back by both conversions. -/
theorem stokes_round_trip (s : Fin 4 → ℝ) (h : 0 < s 0) (hp : s 0 ^ 2 = s 1 ^ 2 + s 2 ^ 2 + s 3 ^ 2) :
    ∃ e, stokesToJones s = some e ∧ toStokes e = s := by
  have h0 : s 1 ^ 2 + s 2 ^ 2 + s 3 ^ 2 ≠ 0 := by rw [← hp]; positivity
  obtain ⟨e, h1, h2⟩ := stokes_to_jones s h0
  refine ⟨e, h1, ?_⟩
  rw [to_stokes_exact, h2, ← hp, Real.sqrt_sq h.le]
  ext i
  fin_cases i <;> rfl

example : (0 : ℝ) < (![1, 0, 0, 1] : Fin 4 → ℝ) 0 ∧ ((![1, 0, 0, 1] : Fin 4 → ℝ) 0) ^ 2
    = (![1, 0, 0, 1] : Fin 4 → ℝ) 1 ^ 2 + (![1, 0, 0, 1] : Fin 4 → ℝ) 2 ^ 2 + (![1, 0, 0, 1] : Fin 4 → ℝ) 3 ^ 2 := by
  constructor <;> simp [Matrix.cons_val]

/-- No field is given for an unpolarised Stokes vector: numpy returns NaN. -/
theorem stokes_unpolarised_violated : stokesToJones ![1, 0, 0, 0] = none := by
  unfold stokesToJones
  rw [if_pos]
  simp

/-- The Stokes parameters given by the angles of an ellipse are fully polarised. -/
theorem stokes_elliptical (psi chi : ℝ) :
    stokesElliptical psi chi 0 ^ 2 = stokesElliptical psi chi 1 ^ 2 + stokesElliptical psi chi 2 ^ 2 + stokesElliptical psi chi 3 ^ 2 := by
  have h1 := Real.sin_sq_add_cos_sq (rad (2 * psi))
  have h2 := Real.sin_sq_add_cos_sq (rad (2 * chi))
  simp only [stokesElliptical, Matrix.cons_val]
  linear_combination -Real.cos (rad (2 * chi)) ^ 2 * h1 - h2

/-- **C65**: linear polarisers let the field along their angle through unchanged and stop the one across. -/
theorem linear_polariser (theta : ℝ) :
    applyField (jonesElliptical theta 0) (fieldLinear theta) = fieldLinear theta ∧
      applyField (jonesElliptical theta 0) (fieldLinear (theta + 90)) = ⟨0, 0⟩ := by
  have h1 := Real.sin_sq_add_cos_sq (rad theta)
  have h3 : rad (theta + 90) = rad theta + Real.pi / 2 := by unfold rad; ring
  unfold applyField jonesElliptical fieldLinear
  simp only [exp_I, exp_neg_I, rad_0, Real.cos_zero, Real.sin_zero, h3, Real.cos_add_pi_div_two, Real.sin_add_pi_div_two]
  generalize Real.cos (rad theta) = c at *
  generalize Real.sin (rad theta) = s at *
  constructor
  · congr 1 <;> apply Complex.ext <;> simp
    · linear_combination c * h1
    · linear_combination s * h1
  · congr 1 <;> apply Complex.ext <;> simp <;> ring

/-! ## Names of the circular states -/

/-- The Stokes parameters of the circular states. -/
theorem circular_stokes : stokesOf (jonesCircular .left) = ![1, 0, 0, 1] ∧ stokesOf (jonesCircular .right) = ![1, 0, 0, -1] := by
  have h2 := Real.mul_self_sqrt (show (0 : ℝ) ≤ 2 by norm_num)
  have h0 : Real.sqrt 2 ≠ 0 := by positivity
  have hl : jonesCircular .left = ⟨(1 / Real.sqrt 2 : ℝ), ⟨0, 1 / Real.sqrt 2⟩⟩ := by
    unfold jonesCircular fieldCircular
    simp only [rad_0, rad_90, Real.cos_zero, Real.sin_zero, Real.cos_pi_div_two, Real.sin_pi_div_two]
    congr 1 <;> apply Complex.ext <;> simp
  have hr : jonesCircular .right = ⟨(1 / Real.sqrt 2 : ℝ), ⟨0, -(1 / Real.sqrt 2)⟩⟩ := by
    unfold jonesCircular fieldCircular
    simp only [rad_0, rad_neg, rad_90, Real.cos_neg, Real.sin_neg, Real.cos_zero, Real.sin_zero, Real.cos_pi_div_two, Real.sin_pi_div_two]
    congr 1 <;> apply Complex.ext <;> simp [neg_div]
  have hk : (1 / Real.sqrt 2) * (1 / Real.sqrt 2) = 1 / 2 := by field_simp; linarith
  rw [hl, hr]
  generalize 1 / Real.sqrt 2 = k at *
  constructor <;> ext i <;> fin_cases i <;> simp [stokesOf, Complex.normSq_apply] <;> linarith

/-- **C74** for the polarisers: both calculi give the same polariser under the same name. -/
theorem circular_polarisers_agree (h : Hand) : mueller (jonesCircularPolariser h) = muellerCircularPolariser h := by
  cases h <;> exact elliptical_agree _ _

theorem circular_mueller_right : muellerCircularPolariser .right = !![1 / 2, 0, 0, 1 / 2; 0, 0, 0, 0; 0, 0, 0, 0; 1 / 2, 0, 0, 1 / 2] := by
  have h2 : 2 * rad 45 = Real.pi / 2 := by rw [rad_45]; ring
  unfold muellerCircularPolariser muellerElliptical
  simp only [h2, rad_90, Real.cos_pi_div_two, Real.sin_pi_div_two]
  norm_num

/-- **C74** fails: the right-handed polariser stops the right-handed state entirely and lets the left-handed one through. -/
theorem circular_names_violated :
    stokesOf (applyField (jonesCircularPolariser .right) (jonesCircular .right)) = ![0, 0, 0, 0] ∧
      stokesOf (applyField (jonesCircularPolariser .right) (jonesCircular .left)) = ![1, 0, 0, 1] := by
  rw [← mueller_stokes, ← mueller_stokes, circular_polarisers_agree, circular_mueller_right, circular_stokes.1, circular_stokes.2]
  constructor <;> ext i <;> fin_cases i <;>
    simp [Matrix.mulVec, dotProduct, Fin.sum_univ_four] <;> norm_num

/-- **C74** fails for Stokes vectors: none of the circular states can be made. -/
theorem circular_stokes_violated (h : Hand) : ∀ s, stokesCircular h ≠ .ok s := by
  intro s
  cases h <;> exact fun e => by cases e

end Verif.Astro
