import Verif.Astro.Jones
import Mathlib.Analysis.SpecialFunctions.Trigonometric.Basic
import Mathlib.Tactic.FinCases
import Mathlib.Tactic.LinearCombination
import Mathlib.Tactic.Ring

/-!
# Jones and Mueller calculus (properties C65 and C74)
-/

namespace Verif.Astro

open Verif.TF Matrix

/-- Specification: the Stokes parameters of a field. -/
noncomputable def stokesOf (e : Field) : Fin 4 → ℝ :=
  ![Complex.normSq e.x + Complex.normSq e.y, Complex.normSq e.x - Complex.normSq e.y,
    2 * (e.y * star e.x).re, 2 * (e.y * star e.x).im]

/-- The four products of the components of a field. -/
noncomputable def coherency (e : Field) : Fin 4 → ℂ := ![e.x * star e.x, e.x * star e.y, e.y * star e.x, e.y * star e.y]

theorem unitary_inv : unitaryInv * unitary = 1 := by
  ext i j
  fin_cases i <;> fin_cases j <;>
    simp [unitary, unitaryInv, Matrix.mul_apply, Fin.sum_univ_four] <;>
    (apply Complex.ext <;> simp <;> norm_num)

theorem unitary_coherency (e : Field) : unitary *ᵥ coherency e = fun i => (stokesOf e i : ℂ) := by
  ext i
  fin_cases i <;>
    simp [unitary, coherency, stokesOf, Matrix.mulVec, dotProduct, Fin.sum_univ_four] <;>
    (apply Complex.ext <;> simp [Complex.normSq_apply] <;> ring)

theorem kron_mul (a b : M2) : kron (a.mul b) = kron a * kron b := by
  ext i j
  fin_cases i <;> fin_cases j <;>
    simp [kron, M2.mul, Matrix.mul_apply, Fin.sum_univ_four] <;> ring

theorem kron_coherency (a : M2) (e : Field) : kron a *ᵥ coherency e = coherency (applyField a e) := by
  ext i
  fin_cases i <;>
    simp [kron, coherency, applyField, Matrix.mulVec, dotProduct, Fin.sum_univ_four] <;> ring

/-- **C65**: the matrix computed from a Jones matrix is real. -/
theorem mueller_im (a : M2) (i j : Fin 4) : (muellerC a i j).im = 0 := by
  fin_cases i <;> fin_cases j <;>
    simp [muellerC, unitary, unitaryInv, kron, Matrix.mul_apply, Fin.sum_univ_four] <;> ring

/-- The Mueller matrix of a Jones matrix. -/
noncomputable def mueller (a : M2) : Matrix (Fin 4) (Fin 4) ℝ := fun i j => (muellerC a i j).re

/-- **C65**: the conversion always succeeds, for up to two leading dimensions. -/
theorem mueller_real (a : M2) (extra : Nat) (h : extra ≤ 2) : toMueller extra a = .ok (mueller a) := by
  unfold toMueller mkMueller
  rw [if_neg (by omega), if_pos (mueller_im a)]
  rfl

theorem mueller_ofReal (a : M2) : (mueller a).map (fun x : ℝ => (x : ℂ)) = muellerC a := by
  ext i j
  apply Complex.ext
  · rfl
  · show (0 : ℝ) = _
    rw [mueller_im]

theorem muellerC_mul (a b : M2) : muellerC (a.mul b) = muellerC a * muellerC b := by
  unfold muellerC
  rw [kron_mul]
  calc unitary * (kron a * kron b) * unitaryInv
      = unitary * kron a * 1 * kron b * unitaryInv := by simp only [Matrix.mul_assoc, Matrix.one_mul]
    _ = unitary * kron a * (unitaryInv * unitary) * kron b * unitaryInv := by rw [unitary_inv]
    _ = _ := by simp only [Matrix.mul_assoc]

/-- **C65**: the Mueller matrix of a product is the product of the Mueller matrices. -/
theorem mueller_mul (a b : M2) : mueller (a.mul b) = mueller a * mueller b := by
  ext i j
  have h : (muellerC (a.mul b) i j).re = ((muellerC a * muellerC b) i j).re := by rw [muellerC_mul]
  show (muellerC (a.mul b) i j).re = _
  rw [h, Matrix.mul_apply, Matrix.mul_apply, Complex.re_sum]
  refine Finset.sum_congr rfl fun k _ => ?_
  rw [Complex.mul_re, mueller_im, mueller_im, zero_mul, sub_zero]
  rfl

/-- **C65**: the Mueller matrix acting on the Stokes parameters of a field gives those of the field transformed by the Jones matrix. -/
theorem mueller_stokes (a : M2) (e : Field) : mueller a *ᵥ stokesOf e = stokesOf (applyField a e) := by
  have h : muellerC a *ᵥ (fun i => (stokesOf e i : ℂ)) = fun i => (stokesOf (applyField a e) i : ℂ) := by
    rw [← unitary_coherency, ← unitary_coherency, ← kron_coherency]
    unfold muellerC
    rw [Matrix.mulVec_mulVec, Matrix.mulVec_mulVec]
    congr 1
    rw [Matrix.mul_assoc, unitary_inv, Matrix.mul_one]
  ext i
  have hi := congrArg Complex.re (congrFun h i)
  rw [Complex.ofReal_re] at hi
  rw [← hi]
  unfold Matrix.mulVec dotProduct
  rw [Complex.re_sum]
  refine Finset.sum_congr rfl fun k _ => ?_
  rw [Complex.mul_re, Complex.ofReal_re, Complex.ofReal_im, mul_zero, sub_zero]
  rfl

theorem cos_arg_sub (x y : ℂ) : ‖x‖ * ‖y‖ * Real.cos (Complex.arg y - Complex.arg x) = (y * star x).re := by
  have h1 := Complex.norm_mul_cos_arg x
  have h2 := Complex.norm_mul_sin_arg x
  have h3 := Complex.norm_mul_cos_arg y
  have h4 := Complex.norm_mul_sin_arg y
  rw [Real.cos_sub]
  show _ = (y * (starRingEnd ℂ) x).re
  rw [Complex.mul_re, Complex.conj_re, Complex.conj_im, ← h1, ← h2, ← h3, ← h4]
  ring

theorem sin_arg_sub (x y : ℂ) : ‖x‖ * ‖y‖ * Real.sin (Complex.arg y - Complex.arg x) = (y * star x).im := by
  have h1 := Complex.norm_mul_cos_arg x
  have h2 := Complex.norm_mul_sin_arg x
  have h3 := Complex.norm_mul_cos_arg y
  have h4 := Complex.norm_mul_sin_arg y
  rw [Real.sin_sub]
  show _ = (y * (starRingEnd ℂ) x).im
  rw [Complex.mul_im, Complex.conj_re, Complex.conj_im, ← h1, ← h2, ← h3, ← h4]
  ring

/-- **C65**: the Stokes parameters of Jones vectors are those of the specification. -/
theorem to_stokes_exact (e : Field) : toStokes e = stokesOf e := by
  ext i
  fin_cases i
  · show ‖e.x‖ ^ 2 + ‖e.y‖ ^ 2 = _
    rw [← Complex.normSq_eq_norm_sq, ← Complex.normSq_eq_norm_sq]; rfl
  · show ‖e.x‖ ^ 2 - ‖e.y‖ ^ 2 = _
    rw [← Complex.normSq_eq_norm_sq, ← Complex.normSq_eq_norm_sq]; rfl
  · show 2 * ‖e.x‖ * ‖e.y‖ * Real.cos (Complex.arg e.y - Complex.arg e.x) = 2 * (e.y * star e.x).re
    rw [← cos_arg_sub]; ring
  · show 2 * ‖e.x‖ * ‖e.y‖ * Real.sin (Complex.arg e.y - Complex.arg e.x) = 2 * (e.y * star e.x).im
    rw [← sin_arg_sub]; ring

/-! ## Polarisers and retarders -/

theorem exp_I (d : ℝ) : Complex.exp (Complex.I * (d : ℂ)) = ⟨Real.cos d, Real.sin d⟩ := by
  rw [mul_comm, Complex.exp_mul_I]
  apply Complex.ext
  · simp [← Complex.ofReal_cos, ← Complex.ofReal_sin]
  · simp [← Complex.ofReal_cos, ← Complex.ofReal_sin]

theorem exp_neg_I (d : ℝ) : Complex.exp (-Complex.I * (d : ℂ)) = ⟨Real.cos d, -Real.sin d⟩ := by
  have := exp_I (-d)
  rw [Real.cos_neg, Real.sin_neg] at this
  rw [← this]
  congr 1
  push_cast
  ring

/-- **C65**: elliptical polarisers agree. -/
theorem elliptical_agree (theta delta : ℝ) : mueller (jonesElliptical theta delta) = muellerElliptical theta delta := by
  have hc := Real.cos_two_mul (rad theta)
  have hs := Real.sin_two_mul (rad theta)
  have h1 := Real.sin_sq_add_cos_sq (rad theta)
  have h2 := Real.sin_sq_add_cos_sq (rad delta)
  unfold jonesElliptical muellerElliptical
  simp only [exp_I, exp_neg_I]
  rw [hc, hs]
  generalize Real.cos (rad theta) = c at *
  generalize Real.sin (rad theta) = s at *
  generalize Real.cos (rad delta) = p at *
  generalize Real.sin (rad delta) = q at *
  have e1 : s ^ 2 = 1 - c ^ 2 := by linarith
  have e2 : q ^ 2 = 1 - p ^ 2 := by linarith
  ext i j
  fin_cases i <;> fin_cases j <;>
    simp [mueller, muellerC, unitary, unitaryInv, kron, Matrix.mul_apply, Fin.sum_univ_four] <;>
    ring_nf <;> (try simp only [e1, e2, show s ^ 4 = (s ^ 2) ^ 2 by ring, show s ^ 3 = s * s ^ 2 by ring]) <;> (try ring_nf)

theorem kron_scale (g : ℂ) (a : M2) (hg : g * star g = 1) : kron ⟨g * a.d00, g * a.d01, g * a.d10, g * a.d11⟩ = kron a := by
  have key : ∀ x y : ℂ, g * x * star (g * y) = x * star y := by
    intro x y
    rw [star_mul']
    linear_combination (x * star y) * hg
  unfold kron
  simp only [key]

/-- **C65**: a global phase does not change the Mueller matrix. -/
theorem mueller_phase (phi : ℝ) (a : M2) :
    mueller ⟨Complex.exp (Complex.I * phi) * a.d00, Complex.exp (Complex.I * phi) * a.d01, Complex.exp (Complex.I * phi) * a.d10,
      Complex.exp (Complex.I * phi) * a.d11⟩ = mueller a := by
  unfold mueller muellerC
  rw [kron_scale]
  rw [exp_I]
  have := Real.sin_sq_add_cos_sq phi
  apply Complex.ext
  · simp
    linarith
  · simp
    ring

/-- Retarders: the Mueller matrix is that of the opposite delay. -/
theorem retarder_opposite (theta delta : ℝ) : mueller (jonesRetarder theta delta) = muellerRetarder theta (-delta) := by
  have hc := Real.cos_two_mul (rad theta)
  have hs := Real.sin_two_mul (rad theta)
  have h1 := Real.sin_sq_add_cos_sq (rad theta)
  have h2 := Real.sin_sq_add_cos_sq (rad delta)
  have hneg : rad (-delta) = -rad delta := by unfold rad; ring
  have hg : -Complex.I * ((rad delta : ℝ) : ℂ) / 2 = Complex.I * ((-(rad delta) / 2 : ℝ) : ℂ) := by push_cast; ring
  unfold jonesRetarder muellerRetarder
  simp only [hg]
  rw [mueller_phase (-(rad delta) / 2) ⟨_, _, _, _⟩]
  simp only [exp_I, hneg, Real.cos_neg, Real.sin_neg]
  rw [hc, hs]
  generalize Real.cos (rad theta) = c at *
  generalize Real.sin (rad theta) = s at *
  generalize Real.cos (rad delta) = p at *
  generalize Real.sin (rad delta) = q at *
  have e1 : s ^ 2 = 1 - c ^ 2 := by linarith
  have e2 : q ^ 2 = 1 - p ^ 2 := by linarith
  ext i j
  fin_cases i <;> fin_cases j <;>
    simp [mueller, muellerC, unitary, unitaryInv, kron, Matrix.mul_apply, Fin.sum_univ_four] <;>
    ring_nf <;> (try simp only [e1, e2, show s ^ 4 = (s ^ 2) ^ 2 by ring, show s ^ 3 = s * s ^ 2 by ring]) <;> (try ring_nf)

end Verif.Astro
