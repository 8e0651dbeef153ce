import Verif.Geom.Model
import Mathlib.Tactic.Ring
import Mathlib.Tactic.LinearCombination
import Mathlib.Tactic.FieldSimp
import Mathlib.Tactic.Positivity
import Mathlib.Analysis.Complex.Norm

/-!
# Geometry: properties C36, C41, C55, C61, C62 and C69
-/

namespace Verif.Geom

open Real

/-! ## C41 Rotations -/

/-- The map keeps all scalar products, in both directions. -/
def Keeps (m : M3) : Prop := (∀ a b, dot (mulVec m a) (mulVec m b) = dot a b) ∧ ∀ a b, dot (vecMul a m) (vecMul b m) = dot a b

/-- Rows and columns are orthonormal. -/
def OrthoRows (m : M3) : Prop := dot m.r1 m.r1 = 1 ∧ dot m.r2 m.r2 = 1 ∧ dot m.r3 m.r3 = 1 ∧ dot m.r1 m.r2 = 0 ∧ dot m.r1 m.r3 = 0 ∧ dot m.r2 m.r3 = 0

theorem keeps_of_ortho {m : M3} (h : OrthoRows m) (h' : OrthoRows (transpose m)) : Keeps m := by
  obtain ⟨a1, a2, a3, a4, a5, a6⟩ := h
  obtain ⟨b1, b2, b3, b4, b5, b6⟩ := h'
  simp only [dot, transpose] at a1 a2 a3 a4 a5 a6 b1 b2 b3 b4 b5 b6
  constructor
  · intro a b
    simp only [dot, mulVec]
    linear_combination (a.x * b.x) * b1 + (a.y * b.y) * b2 + (a.z * b.z) * b3 + (a.x * b.y + a.y * b.x) * b4 + (a.x * b.z + a.z * b.x) * b5 + (a.y * b.z + a.z * b.y) * b6
  · intro a b
    simp only [dot, vecMul, mulVec, transpose]
    linear_combination (a.x * b.x) * a1 + (a.y * b.y) * a2 + (a.z * b.z) * a3 + (a.x * b.y + a.y * b.x) * a4 + (a.x * b.z + a.z * b.x) * a5 + (a.y * b.z + a.z * b.y) * a6

/-- The transformation of the antennas of a mini-array, whatever the angle. -/
theorem ma_rotation_keeps (a : ℝ) : Keeps (maRotation a) := by
  have h := sin_sq_add_cos_sq a
  apply keeps_of_ortho <;> simp only [OrthoRows, dot, transpose, maRotation]
  · refine ⟨?_, ?_, ?_, ?_, ?_, ?_⟩ <;> first | linear_combination h | ring1
  · refine ⟨?_, ?_, ?_, ?_, ?_, ?_⟩ <;> first | linear_combination h | ring1

/-- The change of axes of the array factor. -/
theorem rot90_keeps (a : ℝ) : Keeps (rot90 a) := by
  have h := sin_sq_add_cos_sq a
  apply keeps_of_ortho <;> simp only [OrthoRows, dot, transpose, rot90]
  · refine ⟨?_, ?_, ?_, ?_, ?_, ?_⟩ <;> first | linear_combination h | ring1
  · refine ⟨?_, ?_, ?_, ?_, ?_, ?_⟩ <;> first | linear_combination h | ring1

/-- East-north-up axes. -/
theorem enu_keeps (lat lon : ℝ) : Keeps (enuMatrix lat lon) := by
  have h := sin_sq_add_cos_sq lat
  have k := sin_sq_add_cos_sq lon
  apply keeps_of_ortho <;> simp only [OrthoRows, dot, transpose, enuMatrix]
  · refine ⟨?_, ?_, ?_, ?_, ?_, ?_⟩
    · linear_combination k
    · linear_combination (sin lat ^ 2) * k + h
    · linear_combination (cos lat ^ 2) * k + h
    · ring
    · ring
    · linear_combination (-sin lat * cos lat) * k
  · refine ⟨?_, ?_, ?_, ?_, ?_, ?_⟩
    · linear_combination (cos lon ^ 2) * h + k
    · linear_combination (sin lon ^ 2) * h + k
    · linear_combination h
    · linear_combination (cos lon * sin lon) * h
    · ring
    · ring

/-- The axes of uvw coordinates. -/
theorem uvw_keeps (ha dec : ℝ) : Keeps (uvwMatrix ha dec) := by
  have h := sin_sq_add_cos_sq dec
  have k := sin_sq_add_cos_sq ha
  apply keeps_of_ortho <;> simp only [OrthoRows, dot, transpose, uvwMatrix]
  · refine ⟨?_, ?_, ?_, ?_, ?_, ?_⟩
    · linear_combination k
    · linear_combination (sin dec ^ 2) * k + h
    · linear_combination (cos dec ^ 2) * k + h
    · ring
    · ring
    · linear_combination (-sin dec * cos dec) * k
  · refine ⟨?_, ?_, ?_, ?_, ?_, ?_⟩
    · linear_combination (cos ha ^ 2) * h + k
    · linear_combination (sin ha ^ 2) * h + k
    · linear_combination h
    · linear_combination (-cos ha * sin ha) * h
    · ring
    · ring

/-- The axes used to re-phase visibilities. -/
theorem vis_keeps (ra dec : ℝ) : Keeps (visMatrix ra dec) := by
  have h := sin_sq_add_cos_sq dec
  have k := sin_sq_add_cos_sq ra
  apply keeps_of_ortho <;> simp only [OrthoRows, dot, transpose, visMatrix]
  · refine ⟨?_, ?_, ?_, ?_, ?_, ?_⟩
    · linear_combination k
    · linear_combination (sin dec ^ 2) * k + h
    · linear_combination (cos dec ^ 2) * k + h
    · ring
    · ring
    · linear_combination (-sin dec * cos dec) * k
  · refine ⟨?_, ?_, ?_, ?_, ?_, ?_⟩
    · linear_combination (sin ra ^ 2) * h + k
    · linear_combination (cos ra ^ 2) * h + k
    · linear_combination h
    · linear_combination (cos ra * sin ra) * h
    · ring
    · ring

/-- Square of the distance of two points. -/
def dist2 (a b : V3) : ℝ := dot (sub a b) (sub a b)

theorem mulVec_sub (m : M3) (a b : V3) : sub (mulVec m a) (mulVec m b) = mulVec m (sub a b) := by
  ext <;> simp only [sub, mulVec, dot] <;> ring

/-- Distances between antennas are the same after rotating the mini-array, and after the conversion to local axes. -/
theorem distances_kept (a lat lon : ℝ) (c p q : V3) :
    dist2 (maPosition a p) (maPosition a q) = dist2 p q ∧ dist2 (etrsToEnu lat lon c p) (etrsToEnu lat lon c q) = dist2 p q := by
  constructor
  · unfold dist2 maPosition vecMul
    rw [mulVec_sub]
    exact (ma_rotation_keeps a).2 _ _
  · unfold dist2 etrsToEnu vecMul
    rw [mulVec_sub]
    have e : transpose (transpose (enuMatrix lat lon)) = enuMatrix lat lon := rfl
    rw [e, (enu_keeps lat lon).1]
    simp only [dot, sub]; ring

/-- The length of a baseline is that of its uvw coordinates, whatever the phase centre. -/
theorem uvw_length (h d : ℝ) (b : V3) : dot (uvw h d b) (uvw h d b) = dot b b := by
  rw [← (uvw_keeps h d).1 b b]
  simp only [uvw, neg, dot]; ring

/-- The transformation of a mini-array is a mirror image: done twice, it gives back the positions. Two mini-arrays of rotations `a` and `b` differ by a rotation of angle `a - b` about the vertical. -/
theorem ma_relative_rotation (a b : ℝ) (p : V3) :
    maPosition a (maPosition a p) = p ∧
    maPosition b p = ⟨cos (b - a) * (maPosition a p).x + sin (b - a) * (maPosition a p).y, - sin (b - a) * (maPosition a p).x + cos (b - a) * (maPosition a p).y, (maPosition a p).z⟩ := by
  have h := sin_sq_add_cos_sq a
  constructor
  · ext <;> simp only [maPosition, maRotation, vecMul, mulVec, transpose, dot]
    · linear_combination p.x * h
    · linear_combination p.y * h
    · ring
  · rw [cos_sub, sin_sub]
    ext <;> simp only [maPosition, maRotation, vecMul, mulVec, transpose, dot]
    · linear_combination (-(cos b) * p.x + sin b * p.y) * h
    · linear_combination (sin b * p.x + cos b * p.y) * h

/-! ## C55 Re-phasing -/

/-- Re-phasing to the same centre changes nothing. -/
theorem rephase_identity (wl ra dec : ℝ) (w : V3) :
    rephaseFactor wl (visMatrix ra dec) (visMatrix ra dec) w = 1 ∧ rephaseUvw (visMatrix ra dec) (visMatrix ra dec) w = w := by
  constructor
  · have : rephasePhase (visMatrix ra dec) (visMatrix ra dec) w = 0 := by
      simp only [rephasePhase, dot, vecMul, mulVec, transpose, sub]; ring
    unfold rephaseFactor
    rw [this]; simp
  · have h := sin_sq_add_cos_sq dec
    have k := sin_sq_add_cos_sq ra
    ext <;> simp only [rephaseUvw, vecMul, mulVec, mul, transpose, dot, visMatrix]
    · linear_combination (w.x) * k
    · linear_combination (w.y * sin dec ^ 2 - w.z * sin dec * cos dec) * k + w.y * h
    · linear_combination (w.z * cos dec ^ 2 - w.y * sin dec * cos dec) * k + w.z * h

/-- A frame of phase centre: the coordinates in it of the vector `g`. -/
noncomputable def inFrame (c : ℝ × ℝ) (g : V3) : V3 := mulVec (visMatrix c.1 c.2) g

theorem vecMul_vis (c : ℝ × ℝ) (g : V3) : vecMul (inFrame c g) (visMatrix c.1 c.2) = g := by
  have h := sin_sq_add_cos_sq c.2
  have k := sin_sq_add_cos_sq c.1
  ext <;> simp only [inFrame, vecMul, mulVec, transpose, dot, visMatrix]
  · linear_combination (sin c.1 ^ 2 * g.x + sin c.1 * cos c.1 * g.y) * h + g.x * k
  · linear_combination (sin c.1 * cos c.1 * g.x + cos c.1 ^ 2 * g.y) * h + g.y * k
  · linear_combination (- sin c.2 * cos c.2 * 0 + g.z) * h

/-- The coordinates computed for a phase centre of right ascension `ra` when the sidereal time is `lst` are those, in the frame of that centre, of a vector that does not depend on the centre. -/
theorem uvw_in_frame (lst : ℝ) (b : V3) : ∃ g : V3, ∀ ra dec, uvw (lst - ra) dec b = inFrame (ra, dec) g := by
  refine ⟨neg ⟨sin lst * b.x + cos lst * b.y, cos lst * b.x - sin lst * b.y, b.z⟩, fun ra dec => ?_⟩
  have e1 := sin_sub lst ra
  have e2 := cos_sub lst ra
  ext <;> simp only [uvw, uvwMatrix, inFrame, visMatrix, mulVec, neg, dot] <;> rw [e1, e2] <;> ring

theorem rephasePhase_eq (c n : ℝ × ℝ) (g : V3) :
    rephasePhase (visMatrix c.1 c.2) (visMatrix n.1 n.2) (inFrame c g) = (inFrame c g).z - (inFrame n g).z := by
  have hv := vecMul_vis c g
  have key : ∀ (m : M3) (v w : V3), dot (vecMul v (transpose m)) w = dot v (vecMul w m) := by
    intro m v w
    simp only [dot, vecMul, mulVec, transpose]; ring
  unfold rephasePhase
  rw [key, hv]
  simp only [inFrame, mulVec, dot, sub]; ring

theorem rephaseUvw_eq (c n : ℝ × ℝ) (g : V3) : rephaseUvw (visMatrix c.1 c.2) (visMatrix n.1 n.2) (inFrame c g) = inFrame n g := by
  have hv := vecMul_vis c g
  have key : ∀ (m k : M3) (v : V3), vecMul v (mul m (transpose k)) = mulVec k (vecMul v m) := by
    intro m k v
    ext <;> simp only [mul, dot, vecMul, mulVec, transpose] <;> ring
  unfold rephaseUvw
  rw [key, hv]; rfl

/-- The re-phasing factor from centre `a` to centre `b`, for a baseline whose uvw coordinates towards `a` are `w`. -/
noncomputable def factor (wl : ℝ) (a b : ℝ × ℝ) (w : V3) : ℂ := rephaseFactor wl (visMatrix a.1 a.2) (visMatrix b.1 b.2) w

theorem factor_eq (wl : ℝ) (a b : ℝ × ℝ) (g : V3) : factor wl a b (inFrame a g) = Complex.exp (2 * Complex.I * (π : ℂ) * (((inFrame a g).z - (inFrame b g).z : ℝ) : ℂ) / (wl : ℂ)) := by
  unfold factor rephaseFactor
  rw [rephasePhase_eq]

/-- For every baseline, sidereal time and three phase centres: the coordinates rotated from `a` to `b` are those computed for `b`, and re-phasing from `a` to `b` then from `b` to `c` is re-phasing
from `a` to `c`. -/
theorem rephase_compose (wl lst : ℝ) (bl : V3) (a b c : ℝ × ℝ) :
    rephaseUvw (visMatrix a.1 a.2) (visMatrix b.1 b.2) (uvw (lst - a.1) a.2 bl) = uvw (lst - b.1) b.2 bl
    ∧ factor wl a b (uvw (lst - a.1) a.2 bl) * factor wl b c (uvw (lst - b.1) b.2 bl) = factor wl a c (uvw (lst - a.1) a.2 bl) := by
  obtain ⟨g, hg⟩ := uvw_in_frame lst bl
  rw [hg a.1 a.2, hg b.1 b.2]
  refine ⟨rephaseUvw_eq a b g, ?_⟩
  rw [factor_eq, factor_eq wl b c, factor_eq, ← Complex.exp_add]
  congr 1
  push_cast
  ring

/-- Direction cosines relative to `c` of the direction `(ra, dec)`, third one signed. -/
noncomputable def trueLmn (c : ℝ × ℝ) (s : ℝ × ℝ) : V3 := inFrame c ⟨sin s.1 * cos s.2, cos s.1 * cos s.2, sin s.2⟩

/-- Visibility of a point source in direction `s`, phased towards `c`, at wavelength `wl`: the phase vanishes for a source in the phase centre. -/
noncomputable def pointVis (wl : ℝ) (c s : ℝ × ℝ) (w : V3) : ℂ :=
  Complex.exp (2 * Complex.I * (π : ℂ) * ((dot w (trueLmn c s) - w.z : ℝ) : ℂ) / (wl : ℂ))

/-- Multiplying the visibilities of a point source phased towards `a` by the factor gives its visibilities phased towards `b`. -/
theorem rephase_point_source (wl lst : ℝ) (bl : V3) (a b s : ℝ × ℝ) :
    pointVis wl a s (uvw (lst - a.1) a.2 bl) * factor wl a b (uvw (lst - a.1) a.2 bl) = pointVis wl b s (uvw (lst - b.1) b.2 bl) := by
  obtain ⟨g, hg⟩ := uvw_in_frame lst bl
  rw [hg a.1 a.2, hg b.1 b.2]
  rw [factor_eq]
  unfold pointVis trueLmn
  have e : ∀ c : ℝ × ℝ, dot (inFrame c g) (inFrame c ⟨sin s.1 * cos s.2, cos s.1 * cos s.2, sin s.2⟩) = dot g ⟨sin s.1 * cos s.2, cos s.1 * cos s.2, sin s.2⟩ :=
    fun c => (vis_keeps c.1 c.2).1 _ _
  rw [show inFrame (a.1, a.2) g = inFrame a g from rfl, show inFrame (b.1, b.2) g = inFrame b g from rfl, e a, e b, ← Complex.exp_add]
  congr 1
  push_cast
  ring

/-- The visibilities that `rephase_visibilities` and `XST.rephase` return are the bare factors: they have modulus one whatever was observed, so that they are not the re-phased data. -/
theorem rephase_data_violated (wl : ℝ) (a b : ℝ × ℝ) (w : V3) (data : ℂ) (hd : ‖data‖ ≠ 1) : factor wl a b w ≠ data * factor wl a b w := by
  have hn : ‖factor wl a b w‖ = 1 := by
    unfold factor rephaseFactor
    rw [show (2 * Complex.I * (π : ℂ) * (rephasePhase (visMatrix a.1 a.2) (visMatrix b.1 b.2) w : ℂ) / (wl : ℂ))
      = ((2 * π * rephasePhase (visMatrix a.1 a.2) (visMatrix b.1 b.2) w / wl : ℝ) : ℂ) * Complex.I by push_cast; ring]
    exact Complex.norm_exp_ofReal_mul_I _
  intro h
  have := congrArg norm h
  rw [norm_mul, hn, mul_one] at this
  exact hd this.symm

/-! ## C69 Direction cosines -/

theorem lmn_identity (ra dec ra0 dec0 : ℝ) :
    1 - (cos dec * sin (ra - ra0)) ^ 2 - (sin dec * cos dec0 - cos dec * sin dec0 * cos (ra - ra0)) ^ 2 = (sin dec * sin dec0 + cos dec * cos dec0 * cos (ra - ra0)) ^ 2 := by
  have h := sin_sq_add_cos_sq dec
  have k := sin_sq_add_cos_sq dec0
  have l := sin_sq_add_cos_sq (ra - ra0)
  linear_combination (-1 : ℝ) * h + (- sin dec ^ 2 - cos dec ^ 2 * cos (ra - ra0) ^ 2) * k - cos dec ^ 2 * l

/-- `l² + m² ≤ 1`, `l² + m² + n² = 1`, and `n` is the absolute value of the cosine of the separation. -/
theorem lmn_exact (ra dec ra0 dec0 : ℝ) :
    (lmn ra dec ra0 dec0).x ^ 2 + (lmn ra dec ra0 dec0).y ^ 2 ≤ 1 ∧
    (lmn ra dec ra0 dec0).x = (trueLmn (ra0, dec0) (ra, dec)).x ∧ (lmn ra dec ra0 dec0).y = (trueLmn (ra0, dec0) (ra, dec)).y ∧
    (lmn ra dec ra0 dec0).z = |sin dec * sin dec0 + cos dec * cos dec0 * cos (ra - ra0)| ∧
    (trueLmn (ra0, dec0) (ra, dec)).z = sin dec * sin dec0 + cos dec * cos dec0 * cos (ra - ra0) := by
  have h := lmn_identity ra dec ra0 dec0
  refine ⟨?_, ?_, ?_, ?_, ?_⟩
  · simp only [lmn]; nlinarith [sq_nonneg (sin dec * sin dec0 + cos dec * cos dec0 * cos (ra - ra0))]
  · simp only [lmn, trueLmn, inFrame, mulVec, visMatrix, dot]; rw [sin_sub]; ring
  · simp only [lmn, trueLmn, inFrame, mulVec, visMatrix, dot]; rw [cos_sub]; ring
  · simp only [lmn]; rw [h, sqrt_sq_eq_abs]
  · simp only [trueLmn, inFrame, mulVec, visMatrix, dot]; rw [cos_sub]; ring

/-- Within 90 degrees of the phase centre, the three cosines are exact. -/
theorem lmn_near (ra dec ra0 dec0 : ℝ) (h : 0 ≤ sin dec * sin dec0 + cos dec * cos dec0 * cos (ra - ra0)) : lmn ra dec ra0 dec0 = trueLmn (ra0, dec0) (ra, dec) := by
  obtain ⟨-, h1, h2, h3, h4⟩ := lmn_exact ra dec ra0 dec0
  ext
  · exact h1
  · exact h2
  · rw [h3, h4, abs_of_nonneg h]

/-- **C69** (violated): beyond, the third cosine always has the wrong sign. -/
theorem lmn_far_violated (ra dec ra0 dec0 : ℝ) (h : sin dec * sin dec0 + cos dec * cos dec0 * cos (ra - ra0) < 0) :
    (lmn ra dec ra0 dec0).z = -(trueLmn (ra0, dec0) (ra, dec)).z ∧ lmn ra dec ra0 dec0 ≠ trueLmn (ra0, dec0) (ra, dec) := by
  obtain ⟨-, h1, h2, h3, h4⟩ := lmn_exact ra dec ra0 dec0
  have e : (lmn ra dec ra0 dec0).z = -(trueLmn (ra0, dec0) (ra, dec)).z := by rw [h3, h4, abs_of_neg h]
  refine ⟨e, fun hc => ?_⟩
  rw [hc, h4] at e
  linarith

/-- The north and the south pole seen from a centre at the north pole have the same `(l, m, n)`. -/
example : lmn 0 (π / 2) 0 (π / 2) = lmn 0 (-(π / 2)) 0 (π / 2) := by ext <;> simp [lmn]

/-- The dirty image of a point source (xst.py:434-458), one time and frequency: at the pixel of the source, less than 90 degrees from the phase centre, each baseline contributes exactly one. -/
theorem image_focus (wl : ℝ) (c s : ℝ × ℝ) (w : V3) (h : 0 ≤ sin s.2 * sin c.2 + cos s.2 * cos c.2 * cos (s.1 - c.1)) :
    pointVis wl c s w * Complex.exp (-2 * Complex.I * (π : ℂ) * ((dot w ⟨(lmn s.1 s.2 c.1 c.2).x, (lmn s.1 s.2 c.1 c.2).y, (lmn s.1 s.2 c.1 c.2).z - 1⟩ / wl : ℝ) : ℂ)) = 1 := by
  have e := lmn_near s.1 s.2 c.1 c.2 h
  rw [e]
  unfold pointVis
  rw [← Complex.exp_add]
  have : (2 * Complex.I * (π : ℂ) * ((dot w (trueLmn c s) - w.z : ℝ) : ℂ) / (wl : ℂ)) + -2 * Complex.I * (π : ℂ) *
      ((dot w ⟨(trueLmn (c.1, c.2) (s.1, s.2)).x, (trueLmn (c.1, c.2) (s.1, s.2)).y, (trueLmn (c.1, c.2) (s.1, s.2)).z - 1⟩ / wl : ℝ) : ℂ) = 0 := by
    simp only [dot, Prod.mk.eta]
    push_cast
    ring
  rw [this, Complex.exp_zero]

/-! ## C36 Array factor -/

theorem phase_form (wl x : ℝ) : 2 * Complex.I * (π : ℂ) / (wl : ℂ) * ((x : ℝ) : ℂ) = ((2 * π / wl * x : ℝ) : ℂ) * Complex.I := by push_cast; ring

theorem arrayFactor_norm (n : Nat) (p : Nat → V3) (w d : Nat → ℝ) (wl : ℝ) (sky pt : V3) (nz : Bool) : arrayFactor n p w d wl sky pt nz = ‖complexFactor n p w d wl sky pt nz‖ ^ 2 := by
  unfold arrayFactor
  rw [← Complex.normSq_eq_norm_sq, Complex.normSq_apply]; ring

theorem factor_bound (n : Nat) (p : Nat → V3) (w d : Nat → ℝ) (wl : ℝ) (sky pt : V3) (hw : ∀ i, i < n → 0 ≤ w i) :
    ‖complexFactor n p w d wl sky pt false‖ ≤ ∑ i ∈ Finset.range n, w i := by
  unfold complexFactor
  simp only [Bool.false_eq_true, if_false]
  refine (norm_sum_le _ _).trans (Finset.sum_le_sum fun i hi => ?_)
  rw [norm_mul, phase_form, Complex.norm_exp_ofReal_mul_I, mul_one, Complex.norm_real, Real.norm_eq_abs, abs_of_nonneg (hw i (Finset.mem_range.mp hi))]

theorem factor_norm_div (n : Nat) (p : Nat → V3) (w d : Nat → ℝ) (wl : ℝ) (sky pt : V3) :
    ‖complexFactor n p w d wl sky pt true‖ = ‖complexFactor n p w d wl sky pt false‖ / n := by
  unfold complexFactor
  simp only [Bool.false_eq_true, if_false, if_true]
  rw [norm_div]; simp

/-- The array factor is between 0 and 1 for any number of antennas, positions, delays, directions and wavelengths, when weights are between 0 and 1; more precisely it is at most the square of the mean weight. -/
theorem array_factor_range (n : Nat) (hn : 0 < n) (p : Nat → V3) (w d : Nat → ℝ) (wl : ℝ) (sky pt : V3) (hw : ∀ i, i < n → 0 ≤ w i ∧ w i ≤ 1) :
    0 ≤ arrayFactor n p w d wl sky pt true ∧ arrayFactor n p w d wl sky pt true ≤ ((∑ i ∈ Finset.range n, w i) / n) ^ 2 ∧ arrayFactor n p w d wl sky pt true ≤ 1 := by
  have hq : (0 : ℝ) < n := by exact_mod_cast hn
  have hb := factor_bound n p w d wl sky pt (fun i hi => (hw i hi).1)
  have hs : ∑ i ∈ Finset.range n, w i ≤ n := by
    calc ∑ i ∈ Finset.range n, w i ≤ ∑ i ∈ Finset.range n, (1 : ℝ) := Finset.sum_le_sum fun i hi => (hw i (Finset.mem_range.mp hi)).2
      _ = n := by simp
  have h1 : ‖complexFactor n p w d wl sky pt true‖ ≤ (∑ i ∈ Finset.range n, w i) / n := by
    rw [factor_norm_div]
    exact div_le_div_of_nonneg_right hb hq.le
  have h2 : (∑ i ∈ Finset.range n, w i) / n ≤ 1 := by rw [div_le_one hq]; exact hs
  have h0 := norm_nonneg (complexFactor n p w d wl sky pt true)
  rw [arrayFactor_norm]
  refine ⟨by positivity, pow_le_pow_left₀ h0 h1 2, ?_⟩
  calc ‖complexFactor n p w d wl sky pt true‖ ^ 2 ≤ 1 ^ 2 := pow_le_pow_left₀ h0 (h1.trans h2) 2
    _ = 1 := one_pow 2

theorem geoDelay_self (p s : V3) : geoDelay p s s = 0 := by
  simp only [geoDelay, dot, sub]; ring

/-- The direction of azimuth `az`, from the North to the East, and altitude `alt`, as a unit vector to the East, the North and the zenith. -/
noncomputable def enuDir (az alt : ℝ) : V3 := ⟨cos alt * sin az, cos alt * cos az, sin alt⟩

/-- **C36**: the delay of an antenna at `p` (East, North, up) is the difference of the lengths of the projections of its position on the direction
looked at and on the direction pointed at. -/
theorem geo_delay_path (p : V3) (az alt az0 alt0 : ℝ) :
    geoDelay p (groundProj az alt) (groundProj az0 alt0) = dot p (enuDir az alt) - dot p (enuDir az0 alt0) := by
  simp only [geoDelay, dot, vecMul, mulVec, transpose, rot90, sub, groundProj, enuDir, cos_pi_div_two, sin_pi_div_two]
  ring

/-- In the pointed direction, with equal delays, it is exactly the square of the mean weight: 1 for unit weights. -/
theorem array_factor_peak (n : Nat) (p : Nat → V3) (w : Nat → ℝ) (c wl : ℝ) (pt : V3) (hw : ∀ i, i < n → 0 ≤ w i) :
    arrayFactor n p w (fun _ => c) wl pt pt true = ((∑ i ∈ Finset.range n, w i) / n) ^ 2 := by
  have hs : 0 ≤ ∑ i ∈ Finset.range n, w i := Finset.sum_nonneg fun i hi => hw i (Finset.mem_range.mp hi)
  have e : complexFactor n p w (fun _ => c) wl pt pt false = ((∑ i ∈ Finset.range n, w i : ℝ) : ℂ) * Complex.exp (((2 * π / wl * c : ℝ) : ℂ) * Complex.I) := by
    unfold complexFactor
    simp only [Bool.false_eq_true, if_false]
    push_cast
    rw [Finset.sum_mul]
    refine Finset.sum_congr rfl fun i _ => ?_
    rw [geoDelay_self]
    congr 2
    push_cast
    ring
  rw [arrayFactor_norm, factor_norm_div, e, norm_mul, Complex.norm_exp_ofReal_mul_I, mul_one, Complex.norm_real, Real.norm_eq_abs, abs_of_nonneg hs]

theorem array_factor_unit (n : Nat) (hn : 0 < n) (p : Nat → V3) (c wl : ℝ) (pt : V3) : arrayFactor n p (fun _ => 1) (fun _ => c) wl pt pt true = 1 := by
  rw [array_factor_peak n p _ c wl pt (fun _ _ => zero_le_one)]
  have : (n : ℝ) ≠ 0 := by exact_mod_cast hn.ne'
  simp [this]

/-- It does not depend on the origin of positions, nor on a delay common to all antennas. -/
theorem array_factor_translation (n : Nat) (p : Nat → V3) (w d : Nat → ℝ) (wl : ℝ) (sky pt o : V3) (c : ℝ) (nz : Bool) :
    arrayFactor n (fun i => add (p i) o) w (fun i => d i + c) wl sky pt nz = arrayFactor n p w d wl sky pt nz := by
  have e : complexFactor n (fun i => add (p i) o) w (fun i => d i + c) wl sky pt false
      = Complex.exp (((2 * π / wl * (geoDelay o sky pt + c) : ℝ) : ℂ) * Complex.I) * complexFactor n p w d wl sky pt false := by
    unfold complexFactor
    simp only [Bool.false_eq_true, if_false]
    rw [Finset.mul_sum]
    refine Finset.sum_congr rfl fun i _ => ?_
    rw [phase_form, phase_form, mul_left_comm, ← Complex.exp_add]
    congr 2
    have : geoDelay (add (p i) o) sky pt = geoDelay (p i) sky pt + geoDelay o sky pt := by
      simp only [geoDelay, dot, vecMul, mulVec, transpose, add, sub]; ring
    rw [this]
    push_cast
    ring
  have hnorm : ‖complexFactor n (fun i => add (p i) o) w (fun i => d i + c) wl sky pt false‖ = ‖complexFactor n p w d wl sky pt false‖ := by
    rw [e, norm_mul, Complex.norm_exp_ofReal_mul_I, one_mul]
  rw [arrayFactor_norm, arrayFactor_norm]
  cases nz
  · rw [hnorm]
  · rw [factor_norm_div, factor_norm_div, hnorm]

/-- Looking in the direction `a` when pointing to `b` gives the same value as looking in the direction `b` when pointing to `a`, without delays. -/
theorem array_factor_symmetric (n : Nat) (p : Nat → V3) (w : Nat → ℝ) (wl : ℝ) (a b : V3) (nz : Bool) :
    arrayFactor n p w (fun _ => 0) wl a b nz = arrayFactor n p w (fun _ => 0) wl b a nz := by
  have e : complexFactor n p w (fun _ => 0) wl a b false = (starRingEnd ℂ) (complexFactor n p w (fun _ => 0) wl b a false) := by
    unfold complexFactor
    simp only [Bool.false_eq_true, if_false]
    rw [map_sum]
    refine Finset.sum_congr rfl fun i _ => ?_
    rw [map_mul, Complex.conj_ofReal, ← Complex.exp_conj, phase_form, phase_form, map_mul, Complex.conj_ofReal, Complex.conj_I]
    congr 2
    have : geoDelay (p i) a b = - geoDelay (p i) b a := by simp only [geoDelay, dot, sub]; ring
    rw [this]
    push_cast
    ring
  have hnorm : ‖complexFactor n p w (fun _ => 0) wl a b false‖ = ‖complexFactor n p w (fun _ => 0) wl b a false‖ := by
    rw [e, Complex.norm_conj]
  rw [arrayFactor_norm, arrayFactor_norm]
  cases nz
  · rw [hnorm]
  · rw [factor_norm_div, factor_norm_div, hnorm]

example : arrayFactor 19 (fun i => ⟨i, 2 * i, 0⟩) (fun _ => 1) (fun _ => 0) 6 (groundProj 1 1) (groundProj 1 1) true = 1 := array_factor_unit 19 (by decide) _ 0 6 _

/-- Two antennas half a wavelength apart cancel in the opposite direction: the value 0 is reached. -/
example : arrayFactor 2 (fun i => ⟨i, 0, 0⟩) (fun _ => 1) (fun _ => 0) 2 ⟨0, 1, 0⟩ ⟨0, 0, 0⟩ true = 0 := by
  rw [arrayFactor_norm, factor_norm_div]
  unfold complexFactor
  simp only [Bool.false_eq_true, if_false, Finset.sum_range_succ, Finset.sum_range_zero]
  have e0 : geoDelay (⟨((0 : ℕ) : ℝ), 0, 0⟩ : V3) ⟨0, 1, 0⟩ ⟨0, 0, 0⟩ = 0 := by simp [geoDelay, dot, vecMul, mulVec, transpose, sub, rot90]
  have e1 : geoDelay (⟨((1 : ℕ) : ℝ), 0, 0⟩ : V3) ⟨0, 1, 0⟩ ⟨0, 0, 0⟩ = 1 := by simp [geoDelay, dot, vecMul, mulVec, transpose, sub, rot90]
  rw [e0, e1]
  have : Complex.exp (2 * Complex.I * (π : ℂ) / ((2 : ℝ) : ℂ) * (((1 : ℝ) + 0 : ℝ) : ℂ)) = -1 := by
    rw [show 2 * Complex.I * (π : ℂ) / ((2 : ℝ) : ℂ) * (((1 : ℝ) + 0 : ℝ) : ℂ) = (π : ℂ) * Complex.I by push_cast; ring]
    exact Complex.exp_pi_mul_I
  rw [this]
  simp

end Verif.Geom
