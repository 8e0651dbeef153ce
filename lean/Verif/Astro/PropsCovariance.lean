import Verif.Astro.Covariance
import Verif.Astro.PropsJones

/-!
# Property C175: the covariance matrix tells the Jones matrices behind a Mueller matrix
-/

namespace Verif.Astro

open Verif.TF Matrix

/-- Components of a Jones matrix on the Pauli matrices: `J = c₀ σ₀ + c₁ σ₁ + c₂ σ₂ + c₃ σ₃`. -/
noncomputable def components (a : M2) : Fin 4 → ℂ :=
  ![(a.d00 + a.d11) / 2, (a.d00 - a.d11) / 2, (a.d01 + a.d10) / 2, Complex.I * (a.d01 - a.d10) / 2]

/-- **C175**: the components are those on the Pauli matrices. -/
theorem components_sum (a : M2) :
    a.d00 = ∑ k, components a k * (pauli k).d00 ∧ a.d01 = ∑ k, components a k * (pauli k).d01 ∧
    a.d10 = ∑ k, components a k * (pauli k).d10 ∧ a.d11 = ∑ k, components a k * (pauli k).d11 := by
  have hI : Complex.I * Complex.I = -1 := Complex.I_mul_I
  refine ⟨?_, ?_, ?_, ?_⟩ <;> simp [components, pauli, Fin.sum_univ_four]
  · ring
  · linear_combination (a.d01 - a.d10) / 2 * hI
  · linear_combination -(a.d01 - a.d10) / 2 * hI
  · ring

set_option maxHeartbeats 1000000 in
/-- All entries of the matrix. -/
theorem hermitian_entries (m : Matrix (Fin 4) (Fin 4) ℝ) :
    toHermitian m = fun k l => 1 / 4 * !![(m 0 0 + m 1 1 + m 2 2 + m 3 3 : ℂ), m 0 1 + m 1 0 - Complex.I * (m 2 3 - m 3 2),
        m 0 2 + m 2 0 + Complex.I * (m 1 3 - m 3 1), m 0 3 + m 3 0 - Complex.I * (m 1 2 - m 2 1);
      m 0 1 + m 1 0 + Complex.I * (m 2 3 - m 3 2), m 0 0 + m 1 1 - m 2 2 - m 3 3,
        m 1 2 + m 2 1 + Complex.I * (m 0 3 - m 3 0), m 1 3 + m 3 1 - Complex.I * (m 0 2 - m 2 0);
      m 0 2 + m 2 0 - Complex.I * (m 1 3 - m 3 1), m 1 2 + m 2 1 - Complex.I * (m 0 3 - m 3 0),
        m 0 0 - m 1 1 + m 2 2 - m 3 3, m 2 3 + m 3 2 + Complex.I * (m 0 1 - m 1 0);
      m 0 3 + m 3 0 + Complex.I * (m 1 2 - m 2 1), m 1 3 + m 3 1 + Complex.I * (m 0 2 - m 2 0),
        m 2 3 + m 3 2 - Complex.I * (m 0 1 - m 1 0), m 0 0 - m 1 1 - m 2 2 + m 3 3] k l := by
  have hI : Complex.I * Complex.I = -1 := Complex.I_mul_I
  have hI2 : Complex.I ^ 2 = -1 := Complex.I_sq
  have hI3 : Complex.I ^ 3 = -Complex.I := by rw [pow_succ, hI2]; ring
  have hI4 : Complex.I ^ 4 = 1 := Complex.I_pow_four
  funext k l
  unfold toHermitian
  congr 1
  fin_cases k <;> fin_cases l <;>
    · simp [Fin.sum_univ_four, sigmaIJ, Matrix.mul_apply, unitary, unitaryInv, kronOf, conjM, pauli]
      ring_nf
      try simp only [hI2, hI3, hI4]
      try ring

/-- **C175**: the matrix is hermitian, whatever the real matrix it comes from. -/
theorem covariance_hermitian (m : Matrix (Fin 4) (Fin 4) ℝ) (k l : Fin 4) : toHermitian m l k = star (toHermitian m k l) := by
  rw [hermitian_entries]
  fin_cases k <;> fin_cases l <;> simp <;> ring

/-- **C175**: its trace is the transmission of unpolarised light. -/
theorem covariance_trace (m : Matrix (Fin 4) (Fin 4) ℝ) : ∑ k, toHermitian m k k = m 0 0 := by
  rw [hermitian_entries]
  simp [Fin.sum_univ_four]
  ring

set_option maxHeartbeats 1000000 in
/-- **C175**: the covariance matrix of the Mueller matrix of one Jones matrix has rank one: it is made of the components of the latter. -/
theorem covariance_pure (a : M2) (k l : Fin 4) : toHermitian (mueller a) k l = components a k * star (components a l) := by
  have e : ∀ i j, ((mueller a i j : ℝ) : ℂ) = muellerC a i j := fun i j => congrFun (congrFun (mueller_ofReal a) i) j
  have hI2 : Complex.I ^ 2 = -1 := Complex.I_sq
  rw [hermitian_entries]
  simp only [e]
  fin_cases k <;> fin_cases l <;>
    · simp [components, muellerC, unitary, unitaryInv, kron, Matrix.mul_apply, Fin.sum_univ_four]
      ring_nf
      try simp only [hI2]
      try ring

/-- The matrix is linear. -/
theorem covariance_sum {n : Nat} (p : Fin n → ℝ) (m : Fin n → Matrix (Fin 4) (Fin 4) ℝ) (k l : Fin 4) :
    toHermitian (fun i j => ∑ r, p r * m r i j) k l = ∑ r, (p r : ℂ) * toHermitian (m r) k l := by
  unfold toHermitian
  have e : ∀ i j, ((∑ r, p r * m r i j : ℝ) : ℂ) * sigmaIJ i j k l = ∑ r, (p r : ℂ) * ((m r i j : ℂ) * sigmaIJ i j k l) := by
    intro i j
    push_cast
    rw [Finset.sum_mul]
    exact Finset.sum_congr rfl fun r _ => by ring
  simp only [e]
  have e2 : ∀ i, (∑ j, ∑ r, (p r : ℂ) * ((m r i j : ℂ) * sigmaIJ i j k l)) = ∑ r, (p r : ℂ) * ∑ j, (m r i j : ℂ) * sigmaIJ i j k l := by
    intro i
    rw [Finset.sum_comm]
    exact Finset.sum_congr rfl fun r _ => by rw [Finset.mul_sum]
  simp only [e2]
  rw [Finset.sum_comm, Finset.mul_sum]
  refine Finset.sum_congr rfl fun r _ => ?_
  rw [← Finset.mul_sum]
  ring

/-- **C175**: a device that acts as several Jones matrices with positive weights has a covariance matrix without negative eigenvalue. A
matrix for which the sum below is negative for some `x` is thus no mixture of Jones matrices. -/
theorem covariance_positive {n : Nat} (p : Fin n → ℝ) (hp : ∀ r, 0 ≤ p r) (a : Fin n → M2) (x : Fin 4 → ℂ) :
    ∑ k, ∑ l, star (x k) * toHermitian (fun i j => ∑ r, p r * mueller (a r) i j) k l * x l =
      ((∑ r, p r * Complex.normSq (∑ k, star (x k) * components (a r) k) : ℝ) : ℂ) ∧
    0 ≤ ∑ r, p r * Complex.normSq (∑ k, star (x k) * components (a r) k) := by
  refine ⟨?_, Finset.sum_nonneg fun r _ => mul_nonneg (hp r) (Complex.normSq_nonneg _)⟩
  simp only [covariance_sum, covariance_pure]
  push_cast
  have e : ∀ r, (Complex.normSq (∑ k, star (x k) * components (a r) k) : ℂ) =
      ∑ k, ∑ l, star (x k) * (components (a r) k * star (components (a r) l)) * x l := by
    intro r
    rw [← Complex.mul_conj, map_sum, Finset.sum_mul_sum]
    refine Finset.sum_congr rfl fun k _ => Finset.sum_congr rfl fun l _ => ?_
    rw [map_mul, Complex.star_def, Complex.conj_conj]
    ring
  simp only [e, Finset.mul_sum, Finset.sum_mul]
  rw [Finset.sum_comm (s := (Finset.univ : Finset (Fin n)))]
  refine Finset.sum_congr rfl fun k _ => ?_
  rw [Finset.sum_comm (s := (Finset.univ : Finset (Fin n)))]
  exact Finset.sum_congr rfl fun l _ => Finset.sum_congr rfl fun r _ => by ring

set_option maxHeartbeats 1000000 in
/-- **C175**: nothing is lost: each entry of the Mueller matrix is found again in the covariance matrix. -/
theorem covariance_back (m : Matrix (Fin 4) (Fin 4) ℝ) (i j : Fin 4) : ∑ k, ∑ l, toHermitian m k l * sigmaIJ i j l k = m i j := by
  have hI2 : Complex.I ^ 2 = -1 := Complex.I_sq
  have hI3 : Complex.I ^ 3 = -Complex.I := by rw [pow_succ, hI2]; ring
  have hI4 : Complex.I ^ 4 = 1 := Complex.I_pow_four
  rw [hermitian_entries]
  fin_cases i <;> fin_cases j <;>
    · simp [Fin.sum_univ_four, sigmaIJ, Matrix.mul_apply, unitary, unitaryInv, kronOf, conjM, pauli]
      ring_nf
      try simp only [hI2, hI3, hI4]
      try ring

/-- The formula of the documentation (jones_mueller.py:317-318), without the change of basis. -/
noncomputable def documentedMatrix (m : Matrix (Fin 4) (Fin 4) ℝ) : Matrix (Fin 4) (Fin 4) ℂ :=
  (1 / 4 : ℂ) • ∑ i : Fin 4, ∑ j : Fin 4, (m i j : ℂ) • kronOf (pauli i) (conjM (pauli j))

/-- **C175**: the matrix is that of the documentation in another basis. -/
theorem covariance_documented (m : Matrix (Fin 4) (Fin 4) ℝ) : toHermitian m = unitary * documentedMatrix m * unitaryInv := by
  unfold documentedMatrix
  rw [Matrix.mul_smul, Matrix.smul_mul, Matrix.mul_sum, Matrix.sum_mul]
  simp only [Matrix.mul_sum, Matrix.sum_mul, Matrix.mul_smul, Matrix.smul_mul]
  ext k l
  unfold toHermitian sigmaIJ
  simp [Matrix.sum_apply]

/-- **C175** violated: the two differ: for a device that changes nothing the documented matrix has an entry out of the first one. -/
theorem covariance_documented_violated : documentedMatrix (mueller ⟨1, 0, 0, 1⟩) ≠ toHermitian (mueller ⟨1, 0, 0, 1⟩) := by
  intro h
  have h1 := congrFun (congrFun h 0) 3
  rw [covariance_pure] at h1
  have e : ∀ i j, ((mueller ⟨1, 0, 0, 1⟩ i j : ℝ) : ℂ) = muellerC ⟨1, 0, 0, 1⟩ i j :=
    fun i j => congrFun (congrFun (mueller_ofReal ⟨1, 0, 0, 1⟩) i) j
  unfold documentedMatrix at h1
  simp only [e] at h1
  simp [Fin.sum_univ_four, kronOf, conjM, pauli, components, muellerC, unitary, unitaryInv, kron, Matrix.mul_apply] at h1
  have h2 : (2 : ℂ) = 0 := by linear_combination h1 + Complex.I_mul_I
  exact two_ne_zero h2

/-! ## The hypotheses are met -/

/-- The matrix which changes only the sign of `V` is no mixture of Jones matrices. -/
example : ¬ ∃ (n : Nat) (p : Fin n → ℝ) (a : Fin n → M2), (∀ r, 0 ≤ p r) ∧
    (fun i j => ∑ r, p r * mueller (a r) i j) = (!![1, 0, 0, 0; 0, 1, 0, 0; 0, 0, 1, 0; 0, 0, 0, -1] : Matrix (Fin 4) (Fin 4) ℝ) := by
  rintro ⟨n, p, a, hp, h⟩
  obtain ⟨h1, h2⟩ := covariance_positive p hp a ![0, 0, 0, 1]
  rw [h, hermitian_entries] at h1
  have h3 : ∑ k, ∑ l, star ((![0, 0, 0, 1] : Fin 4 → ℂ) k) * (toHermitian !![1, 0, 0, 0; 0, 1, 0, 0; 0, 0, 1, 0; 0, 0, 0, -1]) k l *
      (![0, 0, 0, 1] : Fin 4 → ℂ) l = ((-(1 / 2) : ℝ) : ℂ) := by
    rw [hermitian_entries]
    simp [Fin.sum_univ_four]
    norm_num
  rw [hermitian_entries] at h3
  have h4 := Complex.ofReal_injective (h1.symm.trans h3)
  linarith

end Verif.Astro
