import Verif.Instru.Grid
import Mathlib.Analysis.SpecialFunctions.Trigonometric.Bounds
import Mathlib.Analysis.Real.Pi.Bounds
import Mathlib.Tactic.Linarith
import Mathlib.Tactic.LinearCombination

/-!
# Grid of analog directions: properties
-/

namespace Verif.Instru

/-- Unit vector of a direction given by azimuth (from the north, towards the east) and elevation: east, north, up. -/
noncomputable def unitOf (d : ℝ × ℝ) : ℝ × ℝ × ℝ :=
  (Real.cos d.2 * Real.sin d.1, Real.cos d.2 * Real.cos d.1, Real.sin d.2)

/-- Angle between two directions. -/
noncomputable def sepOf (d e : ℝ × ℝ) : ℝ :=
  Real.arccos ((unitOf d).1 * (unitOf e).1 + (unitOf d).2.1 * (unitOf e).2.1 + (unitOf d).2.2 * (unitOf e).2.2)

/-- A node of the grid which is a direction above the horizon or on it. -/
def IsReal (x y : Nat) : Prop := x < 128 ∧ y < 128 ∧ step1 x ^ 2 + step2 y ^ 2 ≤ 4444

theorem gridCos_eq (x y : Nat) : gridCos x y = 1 - 2 * (9 / 40000 * ((step1 x : ℝ) ^ 2 + (step2 y : ℝ) ^ 2)) := by
  unfold gridCos kOne kTwo
  ring

theorem gridCos_range (x y : Nat) : (gridCos x y < -1 ∨ 1 < gridCos x y) ↔ ¬step1 x ^ 2 + step2 y ^ 2 ≤ 4444 := by
  rw [gridCos_eq]
  have c : (step1 x : ℝ) ^ 2 + (step2 y : ℝ) ^ 2 = ((step1 x ^ 2 + step2 y ^ 2 : ℤ) : ℝ) := by push_cast; ring
  have p : 0 ≤ step1 x ^ 2 + step2 y ^ 2 := by positivity
  rw [c]
  generalize step1 x ^ 2 + step2 y ^ 2 = n at *
  have p' : (0 : ℝ) ≤ n := by exact_mod_cast p
  constructor
  · rintro (h | h) hc
    · have : (n : ℝ) ≤ 4444 := by exact_mod_cast hc
      linarith
    · linarith
  · intro h
    left
    have : (4445 : ℝ) ≤ n := by exact_mod_cast (show (4445 : ℤ) ≤ n by omega)
    linarith

/-- **C120.** A real node of the grid points exactly at its two steps: turned back by the rotation of the mini-array, its direction
goes 0.015 times the steps to the west and to the south, and is above the horizon. All other nodes are at the nadir. -/
theorem grid_direction (rot : ℝ) (x y : Nat) :
    (step1 x ^ 2 + step2 y ^ 2 ≤ 4444 →
      (unitOf (gridDir rot x y)).1 = -(0.015 * step1 x) * Real.cos rot - 0.015 * step2 y * Real.sin rot ∧
      (unitOf (gridDir rot x y)).2.1 = 0.015 * step1 x * Real.sin rot - 0.015 * step2 y * Real.cos rot ∧
      (unitOf (gridDir rot x y)).2.2 = √(1 - 0.015 ^ 2 * ((step1 x : ℝ) ^ 2 + (step2 y : ℝ) ^ 2)) ∧
      0 ≤ (gridDir rot x y).2 ∧ (gridDir rot x y).2 ≤ Real.pi / 2) ∧
    (¬step1 x ^ 2 + step2 y ^ 2 ≤ 4444 → unitOf (gridDir rot x y) = (0, 0, -1)) := by
  constructor
  · intro h
    have hr : ¬(gridCos x y < -1 ∨ 1 < gridCos x y) := fun hc => (gridCos_range x y).1 hc h
    have hr1 : -1 ≤ gridCos x y := not_lt.1 fun hc => hr (Or.inl hc)
    have hr2 : gridCos x y ≤ 1 := not_lt.1 fun hc => hr (Or.inr hc)
    have eg : gridDir rot x y = (Real.pi / 2 - (Complex.arg ⟨kOne x, kTwo y⟩ + Real.pi) + rot,
        Real.pi / 2 - 1 / 2 * Real.arccos (gridCos x y)) := if_neg hr
    have a0 := Real.arccos_nonneg (gridCos x y)
    have a1 := Real.arccos_le_pi (gridCos x y)
    have hpi := Real.pi_pos
    generalize hα : 1 / 2 * Real.arccos (gridCos x y) = α at *
    have α0 : 0 ≤ α := by linarith
    have α1 : α ≤ Real.pi / 2 := by linarith
    have ca : Real.cos (2 * α) = gridCos x y := by
      rw [← hα, show 2 * (1 / 2 * Real.arccos (gridCos x y)) = Real.arccos (gridCos x y) by ring, Real.cos_arccos hr1 hr2]
    have sn := Real.sin_nonneg_of_nonneg_of_le_pi α0 (by linarith)
    have cn := Real.cos_nonneg_of_neg_pi_div_two_le_of_le (show -(Real.pi / 2) ≤ α by linarith) α1
    have sc := Real.sin_sq_add_cos_sq α
    rw [Real.cos_two_mul] at ca
    have sρ : Real.sin α ^ 2 = kOne x ^ 2 + kTwo y ^ 2 := by
      unfold gridCos at ca
      linarith
    have nρ : Real.sin α = ‖(⟨kOne x, kTwo y⟩ : ℂ)‖ := by
      have : ‖(⟨kOne x, kTwo y⟩ : ℂ)‖ ^ 2 = kOne x ^ 2 + kTwo y ^ 2 := by
        rw [Complex.sq_norm, Complex.normSq_mk]
        ring
      rw [← Real.sqrt_sq sn, sρ, ← this, Real.sqrt_sq (norm_nonneg _)]
    have c1 := Complex.norm_mul_cos_arg (⟨kOne x, kTwo y⟩ : ℂ)
    have c2 := Complex.norm_mul_sin_arg (⟨kOne x, kTwo y⟩ : ℂ)
    rw [← nρ] at c1 c2
    dsimp only at c1 c2
    generalize Complex.arg ⟨kOne x, kTwo y⟩ = β at *
    have k1 : kOne x = 0.015 * step1 x := by unfold kOne; ring
    have k2 : kTwo y = 0.015 * step2 y := by unfold kTwo; ring
    have e1 : Real.sin (Real.pi / 2 - (β + Real.pi) + rot) = -(Real.cos β * Real.cos rot) - Real.sin β * Real.sin rot := by
      rw [show Real.pi / 2 - (β + Real.pi) + rot = -(Real.pi / 2 - (rot - β)) by ring, Real.sin_neg, Real.sin_pi_div_two_sub,
        Real.cos_sub]
      ring
    have e2 : Real.cos (Real.pi / 2 - (β + Real.pi) + rot) = Real.cos β * Real.sin rot - Real.sin β * Real.cos rot := by
      rw [show Real.pi / 2 - (β + Real.pi) + rot = -(Real.pi / 2 - (rot - β)) by ring, Real.cos_neg, Real.cos_pi_div_two_sub,
        Real.sin_sub]
      ring
    rw [eg]
    unfold unitOf
    dsimp only
    rw [Real.cos_pi_div_two_sub, Real.sin_pi_div_two_sub, e1, e2, ← k1, ← k2]
    refine ⟨?_, ?_, ?_, by linarith, by linarith⟩
    · rw [← c1, ← c2]
      ring
    · rw [← c1, ← c2]
      ring
    · rw [← Real.sqrt_sq cn]
      congr 1
      rw [k1, k2] at sρ
      linarith
  · intro h
    have eg : gridDir rot x y = (0, -(Real.pi / 2)) := if_pos ((gridCos_range x y).2 h)
    rw [eg]
    unfold unitOf
    simp

theorem step_range (x : Nat) (h : x < 128) : -63 ≤ step1 x ∧ step1 x ≤ 63 ∧ -63 ≤ step2 x ∧ step2 x ≤ 63 := by
  unfold step1 step2
  split_ifs <;> omega

theorem step_reach (n : ℤ) (h1 : -63 ≤ n) (h2 : n ≤ 63) : (∃ x, x < 128 ∧ step1 x = n) ∧ ∃ y, y < 128 ∧ step2 y = n := by
  rcases le_or_gt n 0 with h | h
  · refine ⟨⟨(n + 63).toNat, by omega, ?_⟩, ⟨(64 - n).toNat, by omega, ?_⟩⟩
    · unfold step1
      split_ifs <;> omega
    · unfold step2
      split_ifs <;> omega
  · refine ⟨⟨(n + 64).toNat, by omega, ?_⟩, ⟨(63 - n).toNat, by omega, ?_⟩⟩
    · unfold step1
      split_ifs <;> omega
    · unfold step2
      split_ifs <;> omega

/-- An integer towards zero of a real, within one unit. -/
theorem trunc_exists (a : ℝ) : ∃ n : ℤ, |(n : ℝ)| ≤ |a| ∧ |n - a| < 1 := by
  rcases le_or_gt 0 a with h | h
  · refine ⟨⌊a⌋, ?_, ?_⟩
    · rw [abs_of_nonneg h, abs_of_nonneg (by exact_mod_cast Int.floor_nonneg.2 h)]
      exact Int.floor_le a
    · rw [abs_lt]
      have := Int.floor_le a
      have := Int.lt_floor_add_one a
      constructor <;> linarith
  · refine ⟨⌈a⌉, ?_, ?_⟩
    · rw [abs_of_neg h, abs_of_nonpos (by exact_mod_cast Int.ceil_le.2 (by push_cast; linarith))]
      have := Int.le_ceil a
      linarith
    · rw [abs_lt]
      have := Int.le_ceil a
      have := Int.ceil_lt_add_one a
      constructor <;> linarith

/-- **C120.** Seen in the frame of the mini-array, every visible direction whose two cosines are below 0.96 has a real node of the
grid within 0.015 in each cosine. -/
theorem grid_reach (rot : ℝ) (d : ℝ × ℝ)
    (ha : |(unitOf d).2.1 * Real.sin rot - (unitOf d).1 * Real.cos rot| < 0.96)
    (hb : |(unitOf d).1 * Real.sin rot + (unitOf d).2.1 * Real.cos rot| < 0.96) :
    ∃ x y, IsReal x y ∧ |0.015 * step1 x - ((unitOf d).2.1 * Real.sin rot - (unitOf d).1 * Real.cos rot)| < 0.015 ∧
      |0.015 * step2 y + ((unitOf d).1 * Real.sin rot + (unitOf d).2.1 * Real.cos rot)| < 0.015 := by
  have one : ((unitOf d).2.1 * Real.sin rot - (unitOf d).1 * Real.cos rot) ^ 2 +
      (-((unitOf d).1 * Real.sin rot + (unitOf d).2.1 * Real.cos rot)) ^ 2 ≤ 1 := by
    have c1 := Real.sin_sq_add_cos_sq rot
    have c2 := Real.sin_sq_add_cos_sq d.1
    have c3 := Real.sin_sq_add_cos_sq d.2
    have : ((unitOf d).2.1 * Real.sin rot - (unitOf d).1 * Real.cos rot) ^ 2 +
      (-((unitOf d).1 * Real.sin rot + (unitOf d).2.1 * Real.cos rot)) ^ 2 = Real.cos d.2 ^ 2 := by
      unfold unitOf
      dsimp only
      linear_combination (Real.cos d.2 ^ 2 * (Real.sin d.1 ^ 2 + Real.cos d.1 ^ 2)) * c1 + Real.cos d.2 ^ 2 * c2
    rw [this]
    nlinarith [sq_nonneg (Real.sin d.2)]
  rw [← abs_neg] at hb
  have goal2 : ∀ y, |0.015 * (step2 y : ℝ) + ((unitOf d).1 * Real.sin rot + (unitOf d).2.1 * Real.cos rot)| =
      |0.015 * (step2 y : ℝ) - -((unitOf d).1 * Real.sin rot + (unitOf d).2.1 * Real.cos rot)| := fun y => by rw [sub_neg_eq_add]
  simp only [goal2]
  generalize (unitOf d).2.1 * Real.sin rot - (unitOf d).1 * Real.cos rot = a at *
  generalize -((unitOf d).1 * Real.sin rot + (unitOf d).2.1 * Real.cos rot) = b at *
  obtain ⟨n, n1, n2⟩ := trunc_exists (a / 0.015)
  obtain ⟨m, m1, m2⟩ := trunc_exists (b / 0.015)
  have lim : ∀ (k : ℤ) (c : ℝ), |c| < 0.96 → |(k : ℝ)| ≤ |c / 0.015| → -63 ≤ k ∧ k ≤ 63 := by
    intro k c hc hk
    rw [abs_div, abs_of_pos (show (0 : ℝ) < 0.015 by norm_num), le_div_iff₀ (by norm_num)] at hk
    have h64 : |(k : ℝ)| < 64 := by linarith
    rw [abs_lt] at h64
    have l1 : (-64 : ℤ) < k := by exact_mod_cast h64.1
    have l2 : k < 64 := by exact_mod_cast h64.2
    omega
  have near : ∀ (k : ℤ) (c : ℝ), |k - c / 0.015| < 1 → |0.015 * (k : ℝ) - c| < 0.015 := by
    intro k c hk
    have e : 0.015 * (k : ℝ) - c = 0.015 * (k - c / 0.015) := by ring
    rw [e, abs_mul, abs_of_pos (by norm_num)]
    linarith
  obtain ⟨⟨x, hx, ex⟩, -⟩ := step_reach n (lim n a ha n1).1 (lim n a ha n1).2
  obtain ⟨-, ⟨y, hy, ey⟩⟩ := step_reach m (lim m b hb m1).1 (lim m b hb m1).2
  refine ⟨x, y, ⟨hx, hy, ?_⟩, ?_, ?_⟩
  · rw [ex, ey]
    have q1 := sq_le_sq.2 n1
    have q2 := sq_le_sq.2 m1
    have : ((n ^ 2 + m ^ 2 : ℤ) : ℝ) < 4445 := by
      push_cast
      have e : (a / 0.015) ^ 2 + (b / 0.015) ^ 2 = (a ^ 2 + b ^ 2) * (40000 / 9) := by ring
      linarith
    have : n ^ 2 + m ^ 2 < 4445 := by exact_mod_cast this
    omega
  · rw [ex]
    exact near n a n2
  · rw [ey]
    exact near m b m2

/-- **C120.** For a target above the horizon, the closest node is never one of those set at the nadir. -/
theorem grid_visible (rot : ℝ) (d : ℝ × ℝ) (h0 : 0 < d.2) (h1 : d.2 ≤ Real.pi / 2) (x y : Nat) (hx : x < 128) (hy : y < 128)
    (hmin : ∀ x' y', x' < 128 → y' < 128 → sepOf d (gridDir rot x y) ≤ sepOf d (gridDir rot x' y')) : IsReal x y := by
  refine ⟨hx, hy, ?_⟩
  by_contra hc
  have hpi := Real.pi_pos
  have hs : 0 < Real.sin d.2 := Real.sin_pos_of_pos_of_lt_pi h0 (by linarith)
  have hu : (unitOf d).2.2 = Real.sin d.2 := rfl
  have s1 := Real.sin_le_one d.2
  have z : step1 63 = 0 ∧ step2 63 = 0 := by decide
  obtain ⟨z1, z2, z3, -⟩ := (grid_direction rot 63 63).1 (by rw [z.1, z.2]; norm_num)
  rw [z.1, z.2] at z1 z2 z3
  have bad := (grid_direction rot x y).2 hc
  have h := hmin 63 63 (by norm_num) (by norm_num)
  unfold sepOf at h
  rw [bad, z1, z2, z3, hu] at h
  have lt : Real.arccos (Real.sin d.2) < Real.arccos (-Real.sin d.2) := Real.arccos_lt_arccos (by linarith) (by linarith) s1
  norm_num at h
  linarith

/-- **C120.** Along the two axes of a mini-array the grid stops above the horizon: a target on the horizon there is 19 degrees or
more from every direction of the grid. -/
theorem grid_axis_far (rot : ℝ) (x y : Nat) (hx : x < 128) (_hy : y < 128) :
    19 * Real.pi / 180 ≤ sepOf (rot - Real.pi / 2, 0) (gridDir rot x y) := by
  have hpi := Real.pi_pos
  have u1 : (unitOf (rot - Real.pi / 2, 0)).1 = -Real.cos rot := by
    unfold unitOf
    dsimp only
    rw [Real.cos_zero, one_mul, Real.sin_sub_pi_div_two]
  have u2 : (unitOf (rot - Real.pi / 2, 0)).2.1 = Real.sin rot := by
    unfold unitOf
    dsimp only
    rw [Real.cos_zero, one_mul, Real.cos_sub_pi_div_two]
  have u3 : (unitOf (rot - Real.pi / 2, 0)).2.2 = 0 := by
    unfold unitOf
    dsimp only
    rw [Real.sin_zero]
  have cs := Real.sin_sq_add_cos_sq rot
  have dot : (unitOf (rot - Real.pi / 2, 0)).1 * (unitOf (gridDir rot x y)).1 +
      (unitOf (rot - Real.pi / 2, 0)).2.1 * (unitOf (gridDir rot x y)).2.1 +
      (unitOf (rot - Real.pi / 2, 0)).2.2 * (unitOf (gridDir rot x y)).2.2 ≤ 0.945 := by
    rw [u1, u2, u3]
    by_cases h : step1 x ^ 2 + step2 y ^ 2 ≤ 4444
    · obtain ⟨g1, g2, -⟩ := (grid_direction rot x y).1 h
      rw [g1, g2]
      have : (step1 x : ℝ) ≤ 63 := by exact_mod_cast (step_range x hx).2.1
      have e : -Real.cos rot * (-(0.015 * (step1 x : ℝ)) * Real.cos rot - 0.015 * (step2 y : ℝ) * Real.sin rot) +
          Real.sin rot * (0.015 * (step1 x : ℝ) * Real.sin rot - 0.015 * (step2 y : ℝ) * Real.cos rot) = 0.015 * step1 x := by
        linear_combination (0.015 * (step1 x : ℝ)) * cs
      rw [e]
      linarith
    · rw [(grid_direction rot x y).2 h]
      norm_num
  unfold sepOf
  rw [show 19 * Real.pi / 180 = Real.arccos (Real.cos (19 * Real.pi / 180)) from
    (Real.arccos_cos (by positivity) (by linarith)).symm]
  apply Real.arccos_le_arccos
  refine dot.trans ?_
  have := Real.one_sub_sq_div_two_le_cos (x := 19 * Real.pi / 180)
  have p := Real.pi_lt_d4
  nlinarith

/-! ## The hypotheses can be met -/

/-- A target 45 degrees high in the south. -/
example : |(unitOf (Real.pi, Real.pi / 4)).2.1 * Real.sin 0 - (unitOf (Real.pi, Real.pi / 4)).1 * Real.cos 0| < 0.96 ∧
    |(unitOf (Real.pi, Real.pi / 4)).1 * Real.sin 0 + (unitOf (Real.pi, Real.pi / 4)).2.1 * Real.cos 0| < 0.96 := by
  have h : √2 < 1.5 := by
    rw [Real.sqrt_lt' (by norm_num)]
    norm_num
  have h0 := Real.sqrt_nonneg 2
  unfold unitOf
  simp only [Real.sin_zero, Real.cos_zero, Real.sin_pi, Real.cos_pi, Real.cos_pi_div_four, Real.sin_pi_div_four]
  constructor
  · norm_num
  · rw [abs_lt]
    constructor <;> linarith

end Verif.Instru
