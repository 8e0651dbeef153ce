import Verif.Astro.Jones

/-!
# Model of the covariance matrix of a Mueller matrix

`MuellerMatrix.to_hermitian` of `nenupy/astro/jones_mueller.py`, over the real and complex numbers, for one matrix.
-/

namespace Verif.Astro

open Verif.TF Matrix

noncomputable section

/-- `pauli_matrices` (jones_mueller.py:25-27), in the order of the Stokes parameters. -/
def pauli : Fin 4 → M2 :=
  ![⟨1, 0, 0, 1⟩, ⟨1, 0, 0, -1⟩, ⟨0, 1, 1, 0⟩, ⟨0, -Complex.I, Complex.I, 0⟩]

/-- `np.conj` of a matrix. Used for jones_mueller.py:327. -/
def conjM (a : M2) : M2 := ⟨star a.d00, star a.d01, star a.d10, star a.d11⟩

/-- `np.kron` of two matrices. Used for jones_mueller.py:327. -/
def kronOf (a b : M2) : Matrix (Fin 4) (Fin 4) ℂ :=
  !![a.d00 * b.d00, a.d00 * b.d01, a.d01 * b.d00, a.d01 * b.d01;
    a.d00 * b.d10, a.d00 * b.d11, a.d01 * b.d10, a.d01 * b.d11;
    a.d10 * b.d00, a.d10 * b.d01, a.d11 * b.d00, a.d11 * b.d01;
    a.d10 * b.d10, a.d10 * b.d11, a.d11 * b.d10, a.d11 * b.d11]

/-- `sigma_ij` (jones_mueller.py:323-330). -/
def sigmaIJ (i j : Fin 4) : Matrix (Fin 4) (Fin 4) ℂ := unitary * kronOf (pauli i) (conjM (pauli j)) * unitaryInv

/-- `MuellerMatrix.to_hermitian` (jones_mueller.py:315-334). -/
def toHermitian (m : Matrix (Fin 4) (Fin 4) ℝ) : Matrix (Fin 4) (Fin 4) ℂ :=
  fun k l => 1 / 4 * ∑ i : Fin 4, ∑ j : Fin 4, (m i j : ℂ) * sigmaIJ i j k l

end

end Verif.Astro
