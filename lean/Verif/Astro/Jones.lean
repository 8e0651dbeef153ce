import Verif.TF.Stokes
import Mathlib.Data.Matrix.Mul
import Mathlib.LinearAlgebra.Matrix.Notation
import Mathlib.Analysis.SpecialFunctions.Complex.Arg

/-!
# Jones and Mueller calculus (nenupy/astro/jones_mueller.py)

Over the real and complex numbers: rounding is left out. One matrix at a time; arrays of matrices are treated item by item by numpy.
-/

namespace Verif.Astro

open Verif.TF Matrix

noncomputable section

/-- `np.radians`. Used for jones_mueller.py:148-169. -/
def rad (d : ℝ) : ℝ := d * Real.pi / 180

/-- `np.arctan2`. Used for jones_mueller.py:336-408. -/
def atan2 (y x : ℝ) : ℝ := Complex.arg ⟨x, y⟩

/-- `unitary_matrix` (jones_mueller.py:28). -/
def unitary : Matrix (Fin 4) (Fin 4) ℂ := !![1, 0, 0, 1; 1, 0, 0, -1; 0, 1, 1, 0; 0, Complex.I, -Complex.I, 0]

/-- `unitary_matrix_inv` (jones_mueller.py:29). -/
def unitaryInv : Matrix (Fin 4) (Fin 4) ℂ :=
  !![1 / 2, 1 / 2, 0, 0; 0, 0, 1 / 2, -(Complex.I / 2); 0, 0, 1 / 2, Complex.I / 2; 1 / 2, -(1 / 2), 0, 0]

/-- `np.einsum("ij,kl->ikjl", J, conj(J)).reshape(4, 4)` (jones_mueller.py:205, 214-216). -/
def kron (a : M2) : Matrix (Fin 4) (Fin 4) ℂ :=
  !![a.d00 * star a.d00, a.d00 * star a.d01, a.d01 * star a.d00, a.d01 * star a.d01;
    a.d00 * star a.d10, a.d00 * star a.d11, a.d01 * star a.d10, a.d01 * star a.d11;
    a.d10 * star a.d00, a.d10 * star a.d01, a.d11 * star a.d00, a.d11 * star a.d01;
    a.d10 * star a.d10, a.d10 * star a.d11, a.d11 * star a.d10, a.d11 * star a.d11]

/-- The product handed over to `MuellerMatrix` (jones_mueller.py:211-219). -/
def muellerC (a : M2) : Matrix (Fin 4) (Fin 4) ℂ := unitary * kron a * unitaryInv

open Classical in
/-- `MuellerMatrix.__new__` for one matrix (jones_mueller.py:256-263). -/
def mkMueller (m : Matrix (Fin 4) (Fin 4) ℂ) : Except Err (Matrix (Fin 4) (Fin 4) ℝ) :=
  if ∀ i j, (m i j).im = 0 then .ok (fun i j => (m i j).re) else .error .valueError

/-- `JonesMatrix.to_mueller` (jones_mueller.py:201-220); `extra`: number of leading dimensions, up to two. -/
def toMueller (extra : Nat) (a : M2) : Except Err (Matrix (Fin 4) (Fin 4) ℝ) :=
  if 2 < extra then .error .unboundLocal else mkMueller (muellerC a)

/-- `JonesMatrix.elliptical` (jones_mueller.py:148-169). -/
def jonesElliptical (theta delta : ℝ) : M2 :=
  let ct : ℂ := (Real.cos (rad theta) : ℝ)
  let st : ℂ := (Real.sin (rad theta) : ℝ)
  let de : ℂ := (rad delta : ℝ)
  ⟨ct * ct, Complex.exp (-Complex.I * de) * st * ct, Complex.exp (Complex.I * de) * st * ct, st * st⟩

/-- `JonesMatrix.linear_retarder` (jones_mueller.py:172-199). -/
def jonesRetarder (theta delta : ℝ) : M2 :=
  let ct : ℂ := (Real.cos (rad theta) : ℝ)
  let st : ℂ := (Real.sin (rad theta) : ℝ)
  let de : ℂ := (rad delta : ℝ)
  let ed := Complex.exp (Complex.I * de)
  let g := Complex.exp (-Complex.I * de / 2)
  ⟨g * (ct * ct + ed * st * st), g * ((1 - ed) * ct * st), g * ((1 - ed) * ct * st), g * (st * st + ed * ct * ct)⟩

/-- `MuellerMatrix.elliptical` (jones_mueller.py:266-291). -/
def muellerElliptical (theta delta : ℝ) : Matrix (Fin 4) (Fin 4) ℝ :=
  let ct := Real.cos (2 * rad theta)
  let st := Real.sin (2 * rad theta)
  let cd := Real.cos (rad delta)
  let sd := Real.sin (rad delta)
  !![1 / 2 * 1, 1 / 2 * ct, 1 / 2 * (st * cd), 1 / 2 * (st * sd);
    1 / 2 * ct, 1 / 2 * (ct * ct), 1 / 2 * (st * ct * cd), 1 / 2 * (st * ct * sd);
    1 / 2 * (st * cd), 1 / 2 * (st * ct * cd), 1 / 2 * (st * st * cd * cd), 1 / 2 * (st * st * sd * cd);
    1 / 2 * (st * sd), 1 / 2 * (st * ct * sd), 1 / 2 * (st * st * sd * cd), 1 / 2 * (st * st * sd * sd)]

/-- `MuellerMatrix.linear_retarder` (jones_mueller.py:294-313). -/
def muellerRetarder (theta delta : ℝ) : Matrix (Fin 4) (Fin 4) ℝ :=
  let ct := Real.cos (2 * rad theta)
  let st := Real.sin (2 * rad theta)
  let cd := Real.cos (rad delta)
  let sd := Real.sin (rad delta)
  !![1, 0, 0, 0;
    0, ct * ct + st * st * cd, (1 - cd) * st * ct, -st * sd;
    0, (1 - cd) * st * ct, st * st + ct * ct * cd, ct * sd;
    0, st * sd, -ct * sd, cd]

/-- `MuellerMatrix.to_jones` (jones_mueller.py:336-408) for one matrix. -/
def toJones (m : Matrix (Fin 4) (Fin 4) ℝ) : M2 :=
  let amp (x : ℝ) : ℂ := (Real.sqrt (1 / 2 * x) : ℝ)
  let ph (x : ℝ) : ℂ := Complex.exp (Complex.I * (x : ℝ))
  ⟨amp (m 0 0 + m 0 1 + m 1 0 + m 1 1) * ph 0,
    amp (m 0 0 - m 0 1 + m 1 0 - m 1 1) * ph (-atan2 (m 0 3 + m 1 3) (m 0 2 + m 1 2)),
    amp (m 0 0 + m 0 1 - m 1 0 - m 1 1) * ph (atan2 (m 3 0 + m 3 1) (m 2 0 + m 2 1)),
    amp (m 0 0 - m 0 1 - m 1 0 + m 1 1) * ph (atan2 (m 3 2 - m 2 3) (m 2 2 + m 3 3))⟩

/-- A Jones vector. Used for jones_mueller.py:487-497. -/
structure Field where
  x : ℂ
  y : ℂ

/-- Product of a Jones matrix and a Jones vector. Used for jones_mueller.py:118-146. -/
def applyField (a : M2) (e : Field) : Field := ⟨a.d00 * e.x + a.d01 * e.y, a.d10 * e.x + a.d11 * e.y⟩

/-- `JonesVector.linear` (jones_mueller.py:487-497). -/
def fieldLinear (angle : ℝ) : Field := ⟨(Real.cos (rad angle) : ℝ), (Real.sin (rad angle) : ℝ)⟩

/-- `JonesVector.circular` (jones_mueller.py:501-506): both components have a modulus of one. -/
def fieldCircular (angle : ℝ) : Field :=
  ⟨(Real.cos (rad 0) + Complex.I * Real.sin (rad 0)) / (Real.sqrt 2 : ℝ),
    (Real.cos (rad angle) + Complex.I * Real.sin (rad angle)) / (Real.sqrt 2 : ℝ)⟩

/-- `JonesVector.to_stokes` (jones_mueller.py:508-522). -/
def toStokes (e : Field) : Fin 4 → ℝ :=
  let ex := ‖e.x‖
  let ey := ‖e.y‖
  let phi := Complex.arg e.y - Complex.arg e.x
  ![ex ^ 2 + ey ^ 2, ex ^ 2 - ey ^ 2, 2 * ex * ey * Real.cos phi, 2 * ex * ey * Real.sin phi]

/-- Circular states and polarisers: names are shared by both calculi. Used for jones_mueller.py:56-64. -/
inductive Hand
  | left
  | right
deriving DecidableEq

/-- `PolarizerMatrix.right_circular` and `left_circular` for Jones matrices (jones_mueller.py:56-64). -/
def jonesCircularPolariser : Hand → M2
  | .right => jonesElliptical 45 90
  | .left => jonesElliptical 45 (-90)

/-- `PolarizerMatrix.right_circular` and `left_circular` for Mueller matrices (jones_mueller.py:56-64). -/
def muellerCircularPolariser : Hand → Matrix (Fin 4) (Fin 4) ℝ
  | .right => muellerElliptical 45 90
  | .left => muellerElliptical 45 (-90)

/-- `JonesVector.left_circular` and `right_circular` (jones_mueller.py:459-467). -/
def jonesCircular : Hand → Field
  | .left => fieldCircular 90
  | .right => fieldCircular (-90)

/-- `StokesVector.left_circular` and `right_circular` (jones_mueller.py:425-428, 459-467, 556-558): the abstract method is called. -/
def stokesCircular : Hand → Except Err (Fin 4 → ℝ)
  | _ => .error .notImplemented

/-- `StokesVector.elliptical` (jones_mueller.py:542-554). -/
def stokesElliptical (psi chi : ℝ) : Fin 4 → ℝ :=
  ![1, Real.cos (rad (2 * psi)) * Real.cos (rad (2 * chi)), Real.sin (rad (2 * psi)) * Real.cos (rad (2 * chi)), Real.sin (rad (2 * chi))]

open Classical in
/-- `StokesVector.to_jones` (jones_mueller.py:560-573); `none`: division by zero, which numpy turns into NaN. -/
def stokesToJones (s : Fin 4 → ℝ) : Option Field :=
  let p := Real.sqrt (s 1 ^ 2 + s 2 ^ 2 + s 3 ^ 2)
  if p = 0 then none
  else
    let a := Real.sqrt ((1 + s 1 / p) / 2)
    let b : ℂ := if a = 0 then 1 else ⟨s 2 / p / (2 * a), s 3 / p / (2 * a)⟩
    some ⟨(Real.sqrt p : ℝ) * (a : ℝ), (Real.sqrt p : ℝ) * b⟩

end

end Verif.Astro
