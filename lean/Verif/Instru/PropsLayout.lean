import Verif.Instru.Layout
import Verif.Instru.PropsReference
import Verif.Instru.PropsGrid
import Mathlib.Data.Nat.Digits.Lemmas
import Mathlib.NumberTheory.Real.Irrational
import Mathlib.Tactic.IntervalCases

/-!
# C159: a mini-array stands as its rotation says
-/

namespace Verif.Instru

open Geom (V3 maPosition geoDelay groundProj complexFactor arrayFactor)

/-! ## The index -/

/-- The number read back from its digits. -/
def readBack (l : List Char) : Nat := Nat.ofDigits 10 (l.reverse.map fun c => c.toNat - 48)

theorem digitChar_back : ∀ d, d < 10 → (Nat.digitChar d).toNat - 48 = d := by decide

theorem digitChar_plain : ∀ d, d < 10 → Nat.digitChar d ≠ '-' := by decide

theorem pad_back (w n : Nat) : readBack (zeroPad w n) = n := by
  unfold readBack zeroPad
  rw [List.reverse_append, List.map_append, List.reverse_replicate, List.map_replicate, ← List.map_reverse, List.reverse_reverse, List.map_map]
  have e : (Nat.digits 10 n).map ((fun c : Char => c.toNat - 48) ∘ Nat.digitChar) = Nat.digits 10 n := by
    conv_rhs => rw [← List.map_id (Nat.digits 10 n)]
    apply List.map_congr_left
    intro d hd
    exact digitChar_back d (Nat.digits_lt_base (by norm_num) hd)
  rw [e]
  show Nat.ofDigits 10 (Nat.digits 10 n ++ List.replicate _ 0) = n
  rw [Nat.ofDigits_append, Nat.ofDigits_digits, Nat.ofDigits_replicate_zero, Nat.mul_zero, Nat.add_zero]

theorem pad_plain (w n : Nat) : '-' ∉ zeroPad w n := by
  unfold zeroPad
  intro h
  rcases List.mem_append.1 h with h | h
  · have := List.eq_of_mem_replicate h
    exact absurd this (by decide)
  · obtain ⟨d, hd, e⟩ := List.mem_map.1 h
    exact digitChar_plain d (Nat.digits_lt_base (by norm_num) (List.mem_reverse.1 hd)) e

theorem key_inj (n m : ℤ) (h : maKey n = maKey m) : n = m := by
  unfold maKey at h
  injection h with _ h
  injection h with _ h
  by_cases hn : n < 0 <;> by_cases hm : m < 0
  · rw [if_pos hn, if_pos hm] at h
    injection h with _ h
    have := congrArg readBack h
    rw [pad_back, pad_back] at this
    omega
  · rw [if_pos hn, if_neg hm] at h
    exact absurd (by rw [← h]; exact List.mem_cons_self ..) (pad_plain 3 m.natAbs)
  · rw [if_neg hn, if_pos hm] at h
    exact absurd (by rw [h]; exact List.mem_cons_self ..) (pad_plain 3 n.natAbs)
  · rw [if_neg hn, if_neg hm] at h
    have := congrArg readBack h
    rw [pad_back, pad_back] at this
    omega

theorem table_lookup (n : ℤ) (l : List (ℤ × ℤ)) : (l.map fun a : ℤ × ℤ => (maKey a.1, a.2)).lookup (maKey n) = l.lookup n := by
  induction l with
  | nil => rfl
  | cons a l ih =>
    by_cases h : n = a.1
    · subst h
      show (match maKey a.1 == maKey a.1 with | true => some a.2 | false => _) = match a.1 == a.1 with | true => some a.2 | false => _
      rw [beq_self_eq_true, beq_self_eq_true]
    · have h1 : (n == a.1) = false := beq_eq_false_iff_ne.2 h
      have h2 : (maKey n == maKey a.1) = false := beq_eq_false_iff_ne.2 fun e => h (key_inj _ _ e)
      show (match maKey n == maKey a.1 with | true => some a.2 | false => _) = match n == a.1 with | true => some a.2 | false => _
      rw [h1, h2]
      exact ih

/-- **C159.** A mini-array is made exactly for the numbers of the table, with the rotation written there; other integers, negative ones included, are unknown, and what is not an
integer is of the wrong format. -/
theorem new_exact (ix : MaIndex) :
    (∀ n, ix = .int n → ∀ rot, rotation n = some rot → maNew ix = .ok (rot, layoutAt (rotRad rot))) ∧
    (∀ n, ix = .int n → n ∉ arrays.map (·.1) → maNew ix = .error .unknown) ∧
    (ix = .other → maNew ix = .error .badFormat) := by
  refine ⟨?_, ?_, ?_⟩
  · rintro n rfl rot hr
    show (maTable.lookup (maKey n)).elim _ _ = _
    unfold maTable
    rw [table_lookup, show arrays.lookup n = some rot from hr]
    rfl
  · rintro n rfl hn
    show (maTable.lookup (maKey n)).elim _ _ = _
    unfold maTable
    rw [table_lookup, List.lookup_eq_none_iff.2 fun p hp => ?_]
    · rfl
    · simp only [bne_iff_ne, ne_eq, beq_iff_eq, bne]
      have : n ≠ p.1 := fun e => hn (List.mem_map.2 ⟨p, hp, e.symm⟩)
      simpa using this
  · rintro rfl; rfl

theorem known_numbers (n : ℤ) : n ∈ arrays.map (·.1) ↔ (0 ≤ n ∧ n ≤ 95) ∨ (100 ≤ n ∧ n ≤ 105) := by
  have e : arrays.map (·.1) = (List.range 96).map (fun i : Nat => (i : ℤ)) ++ (List.range 6).map (fun i : Nat => 100 + (i : ℤ)) := by decide +kernel
  rw [e, List.mem_append, List.mem_map, List.mem_map]
  constructor
  · rintro (⟨i, hi, rfl⟩ | ⟨i, hi, rfl⟩)
    · have := List.mem_range.1 hi; omega
    · have := List.mem_range.1 hi; omega
  · rintro (h | h)
    · exact Or.inl ⟨n.toNat, List.mem_range.2 (by omega), by omega⟩
    · exact Or.inr ⟨(n - 100).toNat, List.mem_range.2 (by omega), by omega⟩

example : maNew (.int (-1)) = .error .unknown := (new_exact _).2.1 _ rfl (by decide +kernel)

example : (maKey 7, maKey (-7), maKey 1234) = ("MA007".toList, "MA-07".toList, "MA1234".toList) := by decide +kernel

/-! ## The positions -/

theorem pos_xyz (a : ℝ) (p : V3) :
    maPosition a p = ⟨Real.cos a * p.x - Real.sin a * p.y, -Real.sin a * p.x - Real.cos a * p.y, p.z⟩ := by
  ext <;> simp only [maPosition, Geom.maRotation, Geom.vecMul, Geom.mulVec, Geom.transpose, Geom.dot] <;> ring

/-- **C159.** Positions are metres to the east and to the north: a mini-array whose rotation is larger by an angle has each of its antennas at the same distance of its centre and
at the same height, in an azimuth larger by this angle. -/
theorem layout_turn (a δ ρ az : ℝ) (p : V3) (hx : (maPosition a p).x = ρ * Real.sin az) (hy : (maPosition a p).y = ρ * Real.cos az) :
    maPosition (a + δ) p = ⟨ρ * Real.sin (az + δ), ρ * Real.cos (az + δ), (maPosition a p).z⟩ := by
  rw [pos_xyz] at hx hy ⊢
  dsimp only at hx hy
  ext
  · show Real.cos (a + δ) * p.x - Real.sin (a + δ) * p.y = ρ * Real.sin (az + δ)
    rw [Real.cos_add, Real.sin_add, Real.sin_add]
    linear_combination Real.cos δ * hx + Real.sin δ * hy
  · show -Real.sin (a + δ) * p.x - Real.cos (a + δ) * p.y = ρ * Real.cos (az + δ)
    rw [Real.cos_add, Real.sin_add, Real.cos_add]
    linear_combination Real.cos δ * hy - Real.sin δ * hx
  · rw [pos_xyz]

/-- Every position is of this form. -/
theorem polar_form (p : V3) : ∃ ρ az : ℝ, 0 ≤ ρ ∧ p.x = ρ * Real.sin az ∧ p.y = ρ * Real.cos az :=
  ⟨‖(⟨p.y, p.x⟩ : ℂ)‖, Complex.arg ⟨p.y, p.x⟩, norm_nonneg _, (Complex.norm_mul_sin_arg (⟨p.y, p.x⟩ : ℂ)).symm, (Complex.norm_mul_cos_arg (⟨p.y, p.x⟩ : ℂ)).symm⟩

theorem delay_turn (a δ az alt az0 alt0 : ℝ) (p : V3) :
    geoDelay (maPosition (a + δ) p) (groundProj (az + δ) alt) (groundProj (az0 + δ) alt0) = geoDelay (maPosition a p) (groundProj az alt) (groundProj az0 alt0) := by
  rw [pos_xyz, pos_xyz]
  simp only [geoDelay, Geom.rot90, Geom.vecMul, Geom.mulVec, Geom.transpose, Geom.dot, Geom.sub, groundProj, Real.cos_pi_div_two, Real.sin_pi_div_two]
  rw [Real.cos_add, Real.sin_add, Real.cos_add, Real.sin_add, Real.cos_add, Real.sin_add]
  have e := Real.sin_sq_add_cos_sq δ
  linear_combination (((-Real.sin a * p.x - Real.cos a * p.y) * (Real.cos az * Real.cos alt - Real.cos az0 * Real.cos alt0) +
    (Real.cos a * p.x - Real.sin a * p.y) * (Real.sin az * Real.cos alt - Real.sin az0 * Real.cos alt0))) * e

/-- The position of an antenna of the mini-array. -/
theorem posAt_eq (a : ℝ) (i : Nat) (h : i < 19) : ∃ p, ∀ b, posAt (layoutAt b) i = maPosition b (latticePos p) := by
  have hl : i < antennas.length := h
  refine ⟨(antennas[i]).2, fun b => ?_⟩
  unfold posAt layoutAt
  rw [List.getD_eq_getElem?_getD, List.getElem?_map, List.getElem?_eq_getElem hl]
  rfl

/-- **C159.** The array factor of a mini-array depends on directions relative to its rotation: turned by an angle, it has for directions and pointings turned by the same angle
the same array factor, for all weights, delays, wavelengths and elevations. -/
theorem factor_turn (a δ az alt az0 alt0 wl : ℝ) (w d : Nat → ℝ) (nz : Bool) :
    arrayFactor 19 (posAt (layoutAt (a + δ))) w d wl (groundProj (az + δ) alt) (groundProj (az0 + δ) alt0) nz
      = arrayFactor 19 (posAt (layoutAt a)) w d wl (groundProj az alt) (groundProj az0 alt0) nz := by
  have e : complexFactor 19 (posAt (layoutAt (a + δ))) w d wl (groundProj (az + δ) alt) (groundProj (az0 + δ) alt0) nz
      = complexFactor 19 (posAt (layoutAt a)) w d wl (groundProj az alt) (groundProj az0 alt0) nz := by
    unfold complexFactor
    dsimp only
    rw [Finset.sum_congr rfl fun i hi => ?_]
    obtain ⟨p, hp⟩ := posAt_eq a i (Finset.mem_range.1 hi)
    rw [hp, hp, delay_turn]
  unfold arrayFactor
  rw [e]

/-! ## Sixty degrees -/

theorem turn60_pos (a : ℝ) (p : ℤ × ℤ) (hp : p ∈ pts) : maPosition (a + Real.pi / 3) (latticePos p) = maPosition a (latticePos (turn60 p)) := by
  obtain ⟨h1, h2⟩ := turn_twice p hp
  have h1' : (2 : ℝ) * (turn60 p).1 = p.1 - 3 * p.2 := by exact_mod_cast h1
  have h2' : (2 : ℝ) * (turn60 p).2 = p.1 + p.2 := by exact_mod_cast h2
  have x1 : ((turn60 p).1 : ℝ) = (p.1 - 3 * p.2) / 2 := by linarith
  have x2 : ((turn60 p).2 : ℝ) = (p.1 + p.2) / 2 := by linarith
  have e3 : √3 * √3 = 3 := Real.mul_self_sqrt (by norm_num)
  rw [pos_xyz, pos_xyz]
  unfold latticePos
  dsimp only
  rw [x1, x2, Real.cos_add, Real.sin_add, Real.cos_pi_div_three, Real.sin_pi_div_three]
  ext
  · dsimp only
    linear_combination (-(11 / 8) * Real.cos a * p.2) * e3
  · dsimp only
    linear_combination ((11 / 8) * Real.sin a * p.2) * e3
  · rfl

theorem layout_pts (a : ℝ) : (layoutAt a).map (·.2) = pts.map fun p => maPosition a (latticePos p) := by
  unfold layoutAt pts
  rw [List.map_map, List.map_map]
  rfl

/-- **C159.** Mini-arrays whose rotations differ by sixty degrees have their antennas at the same places. -/
theorem layout_sixty (a : ℝ) : ((layoutAt (a + Real.pi / 3)).map (·.2)).Perm ((layoutAt a).map (·.2)) := by
  rw [layout_pts, layout_pts]
  have h := turn_perm.map fun p => maPosition a (latticePos p)
  rw [List.map_map] at h
  refine List.Perm.trans (List.Perm.of_eq ?_) h
  apply List.map_congr_left
  intro p hp
  exact turn60_pos a p hp

theorem sum_getD {A : Type} (g : A → ℂ) (d : A) (l : List A) : ∑ i ∈ Finset.range l.length, g (l.getD i d) = (l.map g).sum := by
  induction l with
  | nil => rfl
  | cons x l ih =>
    rw [List.length_cons, Finset.sum_range_succ', List.map_cons, List.sum_cons, ← ih, add_comm]
    rfl

theorem factor_sum (a wl c κ : ℝ) (sky pt : V3) (nz : Bool) :
    complexFactor 19 (posAt (layoutAt a)) (fun _ => κ) (fun _ => c) wl sky pt nz
      = (fun s : ℂ => if nz then s / (19 : ℂ) else s) (((layoutAt a).map (·.2)).map fun p =>
        (κ : ℂ) * Complex.exp (2 * Complex.I * (Real.pi : ℂ) / (wl : ℂ) * ((geoDelay p sky pt + c : ℝ) : ℂ))).sum := by
  rw [List.map_map, ← sum_getD _ ("", ⟨0, 0, 0⟩)]
  have e : (layoutAt a).length = 19 := by unfold layoutAt; rw [List.length_map]; rfl
  rw [e]
  unfold complexFactor
  dsimp only
  simp only [Nat.cast_ofNat]
  rfl

/-- **C159.** So they have the same array factor when all their antennas are used alike: this is what the grouping of rotations modulo sixty degrees needs. -/
theorem factor_sixty (a wl c κ : ℝ) (sky pt : V3) (nz : Bool) :
    arrayFactor 19 (posAt (layoutAt (a + Real.pi / 3))) (fun _ => κ) (fun _ => c) wl sky pt nz
      = arrayFactor 19 (posAt (layoutAt a)) (fun _ => κ) (fun _ => c) wl sky pt nz := by
  unfold arrayFactor
  rw [factor_sum, factor_sum, ((layout_sixty a).map _).sum_eq]

/-- **C159** fails for the analog directions: of the directions to which a mini-array can be pointed, only the zenith is also one of a mini-array whose rotation is larger by sixty degrees.
The grouping modulo sixty degrees points all but the first mini-array of a group elsewhere. -/
theorem group_grid_violated (rot : ℝ) (x y x' y' : Nat) (h : step1 x ^ 2 + step2 y ^ 2 ≤ 4444) (h' : step1 x' ^ 2 + step2 y' ^ 2 ≤ 4444)
    (hz : ¬(step1 x = 0 ∧ step2 y = 0)) : unitOf (gridDir (rot + Real.pi / 3) x y) ≠ unitOf (gridDir rot x' y') := by
  intro hu
  obtain ⟨a1, a2, -, -, -⟩ := (grid_direction (rot + Real.pi / 3) x y).1 h
  obtain ⟨b1, b2, -, -, -⟩ := (grid_direction rot x' y').1 h'
  have u1 := congrArg (fun t => t.1) hu
  have u2 := congrArg (fun t => t.2.1) hu
  rw [a1, b1, Real.cos_add, Real.sin_add, Real.cos_pi_div_three, Real.sin_pi_div_three] at u1
  rw [a2, b2, Real.cos_add, Real.sin_add, Real.cos_pi_div_three, Real.sin_pi_div_three] at u2
  have e := Real.sin_sq_add_cos_sq rot
  have k1 : (step1 x : ℝ) / 2 + √3 / 2 * step2 y = step1 x' := by
    linear_combination (-(1 / 0.015) * Real.cos rot) * u1 + (1 / 0.015 * Real.sin rot) * u2 + ((step1 x' : ℝ) - (step1 x : ℝ) / 2 - √3 / 2 * step2 y) * e
  have k2 : (step2 y : ℝ) / 2 - √3 / 2 * step1 x = step2 y' := by
    linear_combination (-(1 / 0.015) * Real.sin rot) * u1 - (1 / 0.015 * Real.cos rot) * u2 + ((step2 y' : ℝ) - (step2 y : ℝ) / 2 + √3 / 2 * step1 x) * e
  have irr : Irrational √3 := Nat.Prime.irrational_sqrt Nat.prime_three
  have z : ∀ m k : ℤ, √3 * (m : ℝ) = k → m = 0 := by
    intro m k hm
    by_contra h0
    have h0' : (m : ℝ) ≠ 0 := by exact_mod_cast h0
    apply irr
    refine ⟨(k : ℚ) / m, ?_⟩
    push_cast
    rw [← hm]
    field_simp
  apply hz
  constructor
  · exact z _ (step2 y - 2 * step2 y') (by push_cast; linarith)
  · exact z _ (2 * step1 x' - step1 x) (by push_cast; linarith)

/-! ## The measured antennas

`ant_pol_to_ref` (antenna.py:337-353) turns the antennas by `360 - rotation` degrees, `MiniArray` by `rotation` degrees. -/

theorem turned_opposite (rot : ℤ) (p : ℤ × ℤ) :
    turned (-rot) p = ((maPosition (rotRad rot) (latticePos p)).x, (maPosition (rotRad rot) (latticePos p)).y) := by
  have e : turnAngle (-rot) = rotRad rot + 2 * Real.pi := by unfold turnAngle rotRad; push_cast; ring
  rw [pos_xyz]
  unfold turned latticePos
  rw [e, Real.cos_add_two_pi, Real.sin_add_two_pi]
  ext <;> dsimp only <;> ring

theorem layout_sixties (a : ℝ) (k : ℤ) : ((layoutAt (a + k * (Real.pi / 3))).map (·.2)).Perm ((layoutAt a).map (·.2)) := by
  induction k using Int.induction_on with
  | zero => rw [Int.cast_zero, zero_mul, add_zero]
  | succ k ih =>
    have e : a + ((k : ℤ) + 1 : ℤ) * (Real.pi / 3) = (a + ((k : ℤ) : ℝ) * (Real.pi / 3)) + Real.pi / 3 := by push_cast; ring
    rw [e]
    exact (layout_sixty _).trans ih
  | pred k ih =>
    have e : a + ((-(k : ℤ) : ℤ) : ℝ) * (Real.pi / 3) = (a + ((-(k : ℤ) - 1 : ℤ) : ℝ) * (Real.pi / 3)) + Real.pi / 3 := by push_cast; ring
    rw [e] at ih
    exact (layout_sixty _).symm.trans ih

theorem corner_numbers : ∀ p ∈ pts, p.1 ^ 2 + 3 * p.2 ^ 2 = 16 → p.1 = 4 ∨ p.1 = -4 ∨ p.1 = 2 ∨ p.1 = -2 := by decide +kernel

theorem degrees_of_cos (rot j : ℤ) (h : Real.cos (2 * rotRad rot) = Real.cos (j * (Real.pi / 3))) : rot % 30 = 0 := by
  obtain ⟨k, hk⟩ := Real.cos_eq_cos_iff.1 h
  have hpi := Real.pi_ne_zero
  unfold rotRad at hk
  rcases hk with hk | hk
  · have : (30 * j : ℝ) = 180 * k + rot := by
      field_simp at hk
      linarith
    have : 30 * j = 180 * k + rot := by exact_mod_cast this
    omega
  · have : (30 * j : ℝ) = 180 * k - rot := by
      field_simp at hk
      linarith
    have : 30 * j = 180 * k - rot := by exact_mod_cast this
    omega

/-- **C159** fails: the antennas are where `ant_pol_to_ref` expects them only when the rotation is a multiple of thirty degrees. -/
theorem reference_layout_violated (rot : ℤ) :
    (∀ P ∈ (layoutAt (rotRad rot)).map (·.2), ∃ p ∈ pts, turned rot p = (P.x, P.y)) ↔ rot % 30 = 0 := by
  constructor
  · intro h
    obtain ⟨p, hp, e⟩ := h (maPosition (rotRad rot) (latticePos (4, 0))) (by rw [layout_pts]; exact List.mem_map.2 ⟨_, by decide +kernel, rfl⟩)
    have et := turned_opposite (-rot) p
    rw [neg_neg, e] at et
    have er : rotRad (-rot) = -rotRad rot := by unfold rotRad; push_cast; ring
    rw [er, pos_xyz, pos_xyz, Real.cos_neg, Real.sin_neg] at et
    unfold latticePos at et
    injection et with e1 e2
    push_cast at e1 e2
    have sc := Real.sin_sq_add_cos_sq (rotRad rot)
    have e3 : √3 ^ 2 = 3 := Real.sq_sqrt (by norm_num)
    have ha : 4 * Real.cos (2 * rotRad rot) = p.1 := by
      rw [Real.cos_two_mul]
      generalize Real.cos (rotRad rot) = c at *
      generalize Real.sin (rotRad rot) = s at *
      linear_combination (4 / 11 * c) * e1 + (4 / 11 * s) * e2 + ((p.1 : ℝ) + 4) * sc
    have hb : (p.1 : ℝ) ^ 2 + 3 * (p.2 : ℝ) ^ 2 = 16 := by
      generalize Real.cos (rotRad rot) = c at *
      generalize Real.sin (rotRad rot) = s at *
      have q1 : 4 * c = p.1 * c + √3 * p.2 * s := by linarith
      have q2 : -(4 * s) = p.1 * s - √3 * p.2 * c := by linarith
      have : (4 * c) ^ 2 + (-(4 * s)) ^ 2 = (p.1 * c + √3 * p.2 * s) ^ 2 + (p.1 * s - √3 * p.2 * c) ^ 2 := by rw [← q1, ← q2]
      linear_combination -this + (16 - (p.1 : ℝ) ^ 2 - √3 ^ 2 * (p.2 : ℝ) ^ 2) * sc - (p.2 : ℝ) ^ 2 * e3
    have hb' : p.1 ^ 2 + 3 * p.2 ^ 2 = 16 := by exact_mod_cast hb
    rcases corner_numbers p hp hb' with h | h | h | h <;> rw [h] at ha <;> push_cast at ha
    · exact degrees_of_cos rot 0 (by rw [Int.cast_zero, zero_mul, Real.cos_zero]; linarith)
    · exact degrees_of_cos rot 3 (by rw [show ((3 : ℤ) : ℝ) * (Real.pi / 3) = Real.pi by push_cast; ring, Real.cos_pi]; linarith)
    · exact degrees_of_cos rot 1 (by rw [show ((1 : ℤ) : ℝ) * (Real.pi / 3) = Real.pi / 3 by push_cast; ring, Real.cos_pi_div_three]; linarith)
    · exact degrees_of_cos rot 2 (by
        rw [show ((2 : ℤ) : ℝ) * (Real.pi / 3) = Real.pi - Real.pi / 3 by push_cast; ring, Real.cos_pi_sub, Real.cos_pi_div_three]; linarith)
  · intro h P hP
    have e : rotRad rot = -rotRad rot + ((rot / 30 : ℤ) : ℝ) * (Real.pi / 3) := by
      have : (rot : ℝ) = 30 * ((rot / 30 : ℤ) : ℝ) := by exact_mod_cast (by omega : rot = 30 * (rot / 30))
      unfold rotRad
      rw [this]
      push_cast
      rw [show (30 * ((rot / 30 : ℤ) : ℝ)) = rot from this.symm]
      linear_combination (Real.pi / 90) * this
    rw [e] at hP
    have hP' := (layout_sixties _ _).mem_iff.1 hP
    rw [layout_pts] at hP'
    obtain ⟨p, hp, rfl⟩ := List.mem_map.1 hP'
    refine ⟨p, hp, ?_⟩
    have et := turned_opposite (-rot) p
    have er : rotRad (-rot) = -rotRad rot := by unfold rotRad; push_cast; ring
    rwa [neg_neg, er] at et

/-- Projections seen by a dipole where `MiniArray` puts the antennas. -/
noncomputable def seenLaid (d : Dipole) : Option (List ℝ) :=
  (rotation d.ma).bind fun rot => (polVectors.lookup d.polar).bind fun v => ((layoutAt (rotRad rot)).lookup d.antenna).map fun P =>
    (layoutAt (rotRad rot)).map fun q => v.1 * (q.2.x - P.x) + v.2 * (q.2.y - P.y)

/-- Two dipoles see the antennas around them alike (as in `Alike`), where `MiniArray` puts them. -/
def AlikeLaid (c d : Dipole) : Prop := ∃ x y, seenLaid c = some x ∧ seenLaid d = some y ∧ (x.Perm y ∨ x.Perm (y.map fun t => -t))

theorem lookup_map {A B : Type} (f : A → B) (k : String) (l : List (String × A)) : (l.map fun q => (q.1, f q.2)).lookup k = (l.lookup k).map f := by
  induction l with
  | nil => rfl
  | cons q l ih =>
    show (match k == q.1 with | true => some (f q.2) | false => _) = Option.map f (match k == q.1 with | true => some q.2 | false => _)
    cases k == q.1 with
    | true => rfl
    | false => exact ih

theorem seen_laid (d : Dipole) (rot : ℤ) (v p : ℤ × ℤ) (hr : rotation d.ma = some rot) (hv : polVectors.lookup d.polar = some v) (hp : antennaAt d.antenna = some p) :
    seenLaid d = some (scalars (-rot) v p) := by
  unfold seenLaid
  rw [hr, hv]
  show ((layoutAt (rotRad rot)).lookup d.antenna).map _ = _
  have hl : (layoutAt (rotRad rot)).lookup d.antenna = some (maPosition (rotRad rot) (latticePos p)) := by
    have h := lookup_map (fun q => maPosition (rotRad rot) (latticePos q)) d.antenna antennas
    rw [show antennas.lookup d.antenna = some p from hp] at h
    exact h
  rw [hl]
  show some _ = some _
  unfold scalars layoutAt
  dsimp only
  rw [List.map_map]
  congr 1
  apply List.map_congr_left
  intro q _
  rw [turned_opposite, turned_opposite]
  rfl

theorem scalars_sum (rot : ℤ) (v p : ℤ × ℤ) : (scalars rot v p).sum = -19 * (v.1 * (turned rot p).1 + v.2 * (turned rot p).2) := by
  have e : scalars rot v p = pts.map fun q => v.1 * ((turned rot q).1 - (turned rot p).1) + v.2 * ((turned rot q).2 - (turned rot p).2) := by
    unfold scalars pts
    rw [List.map_map]
    rfl
  have e' : pts = [(-2, -2), (0, -2), (2, -2), (-3, -1), (-1, -1), (1, -1), (3, -1), (-4, 0), (-2, 0), (0, 0), (2, 0), (4, 0),
      (-3, 1), (-1, 1), (1, 1), (3, 1), (-2, 2), (0, 2), (2, 2)] := by decide +kernel
  rw [e, e']
  simp only [List.map_cons, List.map_nil, List.sum_cons, List.sum_nil, turned]
  push_cast
  ring

/-- How far, in metres, an antenna is from the centre of its mini-array along the direction of a dipole. -/
noncomputable def along (rot : ℤ) (v p : ℤ × ℤ) : ℝ :=
  (v.1 * (maPosition (rotRad rot) (latticePos p)).x + v.2 * (maPosition (rotRad rot) (latticePos p)).y) / √2

theorem alike_along (c d : Dipole) (rc rd : ℤ) (vc vd pc pd : ℤ × ℤ) (h : AlikeLaid c d)
    (c1 : rotation c.ma = some rc) (c2 : polVectors.lookup c.polar = some vc) (c3 : antennaAt c.antenna = some pc)
    (d1 : rotation d.ma = some rd) (d2 : polVectors.lookup d.polar = some vd) (d3 : antennaAt d.antenna = some pd) : |along rc vc pc| = |along rd vd pd| := by
  obtain ⟨x, y, hx, hy, h⟩ := h
  rw [seen_laid c rc vc pc c1 c2 c3] at hx
  rw [seen_laid d rd vd pd d1 d2 d3] at hy
  obtain rfl := Option.some.inj hx
  obtain rfl := Option.some.inj hy
  have e : ∀ (r : ℤ) (v p : ℤ × ℤ), (scalars (-r) v p).sum = -19 * √2 * along r v p := by
    intro r v p
    rw [scalars_sum, turned_opposite]
    unfold along
    have : √2 ≠ 0 := by positivity
    field_simp
  have p2 : (0 : ℝ) < √2 := by positivity
  have k : (-19 * √2 : ℝ) ≠ 0 := by linarith
  rcases h with h | h
  · have := h.sum_eq
    rw [e, e] at this
    rw [mul_left_cancel₀ k this]
  · have := h.sum_eq
    rw [sum_neg, e, e] at this
    have : (-19 * √2) * along rc vc pc = (-19 * √2) * (-along rd vd pd) := by linarith
    rw [mul_left_cancel₀ k this, abs_neg]

/-- The direction of a dipole, in units of five degrees. -/
theorem along_onto (k : ℤ) (v p : ℤ × ℤ) (hv : v = (-1, 1) ∨ v = (1, 1)) : along (10 * k) v p = 11 / 4 * onto (heading (-k) v) p := by
  have h := congrArg List.sum (scalars_onto (-k) v p hv)
  rw [show 10 * -k = -(10 * k) by ring, scalars_sum, turned_opposite] at h
  have hs : ∀ (κ : ℝ) (l : List ℝ), (l.map fun x => κ * x).sum = κ * l.sum := fun κ l => by rw [List.sum_map_mul_left]; simp
  rw [hs, sum_onto] at h
  unfold along
  have p2 : (0 : ℝ) < √2 := by positivity
  rw [div_eq_iff p2.ne']
  dsimp only at h
  linarith

theorem cos_double (j : ℤ) : Real.cos (j * (Real.pi / 36)) ^ 2 = 1 / 2 + Real.cos (((j % 36 : ℤ) : ℝ) * (Real.pi / 18)) / 2 := by
  have e : (j : ℝ) = 36 * ((j / 36 : ℤ) : ℝ) + ((j % 36 : ℤ) : ℝ) := by exact_mod_cast (Int.mul_ediv_add_emod j 36).symm
  rw [Real.cos_sq]
  have e' : 2 * ((j : ℝ) * (Real.pi / 36)) = ((j % 36 : ℤ) : ℝ) * (Real.pi / 18) + ((j / 36 : ℤ) : ℝ) * (2 * Real.pi) := by rw [e]; ring
  rw [e', Real.cos_add_int_mul_two_pi]

theorem cos_far (j : ℤ) (h1 : 5 ≤ j % 36) (h2 : j % 36 ≤ 31) : Real.cos (j * (Real.pi / 36)) ^ 2 ≤ (2 + √2) / 4 := by
  rw [cos_double]
  generalize j % 36 = r at *
  have h1' : (5 : ℝ) ≤ r := by exact_mod_cast h1
  have h2' : (r : ℝ) ≤ 31 := by exact_mod_cast h2
  have hpi := Real.pi_pos
  suffices h : Real.cos (r * (Real.pi / 18)) ≤ √2 / 2 by linarith
  rw [← Real.cos_pi_div_four]
  by_cases hr : r ≤ 18
  · have hr' : (r : ℝ) ≤ 18 := by exact_mod_cast hr
    exact Real.cos_le_cos_of_nonneg_of_le_pi (by positivity) (by nlinarith) (by nlinarith)
  · have hr' : (18 : ℝ) ≤ r := by exact_mod_cast (by omega : (18 : ℤ) ≤ r)
    rw [← Real.cos_two_pi_sub]
    exact Real.cos_le_cos_of_nonneg_of_le_pi (by positivity) (by nlinarith) (by nlinarith)

theorem cos_near (j : ℤ) (h : j % 36 ≤ 3 ∨ 33 ≤ j % 36) : (2 + √3) / 4 ≤ Real.cos (j * (Real.pi / 36)) ^ 2 := by
  have b1 := Int.emod_nonneg j (by norm_num : (36 : ℤ) ≠ 0)
  have b2 := Int.emod_lt_of_pos j (by norm_num : (0 : ℤ) < 36)
  rw [cos_double]
  generalize j % 36 = r at *
  have b1' : (0 : ℝ) ≤ r := by exact_mod_cast b1
  have b2' : (r : ℝ) ≤ 36 := by exact_mod_cast b2.le
  have hpi := Real.pi_pos
  suffices h : √3 / 2 ≤ Real.cos (r * (Real.pi / 18)) by linarith
  rw [← Real.cos_pi_div_six]
  rcases h with h | h
  · have h' : (r : ℝ) ≤ 3 := by exact_mod_cast h
    exact Real.cos_le_cos_of_nonneg_of_le_pi (by positivity) (by linarith) (by nlinarith)
  · have h' : (33 : ℝ) ≤ r := by exact_mod_cast h
    rw [← Real.cos_two_pi_sub (r * (Real.pi / 18))]
    exact Real.cos_le_cos_of_nonneg_of_le_pi (by nlinarith) (by linarith) (by nlinarith)

theorem corner_onto (m : ℤ) :
    onto m (-2, -2) = -4 * Real.cos ((m - 12 : ℤ) * (Real.pi / 36)) ∧ onto m (2, -2) = 4 * Real.cos ((m + 12 : ℤ) * (Real.pi / 36)) ∧
    onto m (-4, 0) = -4 * Real.cos (m * (Real.pi / 36)) := by
  have e1 : ((m - 12 : ℤ) : ℝ) * (Real.pi / 36) = m * (Real.pi / 36) - Real.pi / 3 := by push_cast; ring
  have e2 : ((m + 12 : ℤ) : ℝ) * (Real.pi / 36) = m * (Real.pi / 36) + Real.pi / 3 := by push_cast; ring
  rw [e1, e2, Real.cos_sub, Real.cos_add, Real.cos_pi_div_three, Real.sin_pi_div_three]
  unfold onto
  refine ⟨?_, ?_, ?_⟩ <;> push_cast <;> ring

theorem onto_within (m : ℤ) (p : ℤ × ℤ) : onto m p ^ 2 ≤ (p.1 : ℝ) ^ 2 + 3 * (p.2 : ℝ) ^ 2 := by
  unfold onto
  have e := Real.sin_sq_add_cos_sq (m * (Real.pi / 36))
  have e3 : √3 ^ 2 = 3 := Real.sq_sqrt (by norm_num)
  generalize Real.cos (m * (Real.pi / 36)) = c at *
  generalize Real.sin (m * (Real.pi / 36)) = s at *
  have k : (p.1 : ℝ) ^ 2 + 3 * (p.2 : ℝ) ^ 2 - (c * p.1 + √3 * s * p.2) ^ 2 = (s * p.1 - √3 * c * p.2) ^ 2 := by
    linear_combination ((-(p.1 : ℝ) ^ 2 - (p.2 : ℝ) ^ 2 * √3 ^ 2)) * e - (p.2 : ℝ) ^ 2 * e3
  nlinarith [sq_nonneg (s * p.1 - √3 * c * p.2)]

/-- Directions and points of the measured dipoles. -/
def laidMarks : List (ℤ × (ℤ × ℤ)) :=
  candidates.filterMap fun c => (rotation c.ma).bind fun rot => (polVectors.lookup c.polar).bind fun v => (antennaAt c.antenna).map fun p => (heading (-(rot / 10)) v, p)

theorem laid_marks : ∀ x ∈ laidMarks, x.2.1 ^ 2 + 3 * x.2.2 ^ 2 ≤ 12 ∨ (x.2 = (-2, -2) ∧ 5 ≤ (x.1 - 12) % 36 ∧ (x.1 - 12) % 36 ≤ 31) ∨
    (x.2 = (2, -2) ∧ 5 ≤ (x.1 + 12) % 36 ∧ (x.1 + 12) % 36 ≤ 31) ∨ (x.2 = (-4, 0) ∧ 5 ≤ x.1 % 36 ∧ x.1 % 36 ≤ 31) := by decide +kernel

theorem pol_vectors (s : String) (v : ℤ × ℤ) (h : polVectors.lookup s = some v) : v = (-1, 1) ∨ v = (1, 1) := by
  have : polVectors.lookup s = if s = "NW" then some (-1, 1) else if s = "NE" then some (1, 1) else none := by
    unfold polVectors
    simp only [List.lookup]
    by_cases h1 : s = "NW"
    · subst h1; rfl
    · rw [beq_eq_false_iff_ne.2 h1, if_neg h1]
      by_cases h2 : s = "NE"
      · subst h2; rfl
      · rw [beq_eq_false_iff_ne.2 h2, if_neg h2]
  rw [this] at h
  split_ifs at h
  · exact Or.inl (Option.some.inj h).symm
  · exact Or.inr (Option.some.inj h).symm

/-- All the antennas which were measured are less than 10.4 m from the centre of their mini-array, along the dipoles. -/
theorem measured_along (c : Dipole) (hc : IsMeasured c) (rc : ℤ) (vc pc : ℤ × ℤ) (c1 : rotation c.ma = some rc) (c2 : polVectors.lookup c.polar = some vc)
    (c3 : antennaAt c.antenna = some pc) : |along rc vc pc| ≤ 10.4 := by
  have hm := (mem_candidates c).2 hc
  have hd := measured_dipole c hm
  obtain ⟨r', p', h1, ht, -⟩ := dipole_code c hd
  have er : r' = rc := by rw [c1] at h1; exact (Option.some.inj h1).symm
  subst er
  have e10 : r' = 10 * (r' / 10) := by omega
  have hmem : (heading (-(r' / 10)) vc, pc) ∈ laidMarks := by
    refine List.mem_filterMap.2 ⟨c, hm, ?_⟩
    rw [c1, c2, c3]
    rfl
  have hcase := laid_marks _ hmem
  dsimp only at hcase
  rw [e10, along_onto _ _ _ (pol_vectors _ _ c2)]
  have s2 : √2 ≤ 1.4143 := by rw [Real.sqrt_le_left (by norm_num)]; norm_num
  suffices h : onto (heading (-(r' / 10)) vc) pc ^ 2 ≤ 13.7 by
    have h' : (11 / 4 * onto (heading (-(r' / 10)) vc) pc) ^ 2 ≤ 10.4 ^ 2 := by nlinarith
    exact abs_le_of_sq_le_sq h' (by norm_num)
  generalize heading (-(r' / 10)) vc = m at *
  obtain ⟨k1, k2, k3⟩ := corner_onto m
  rcases hcase with h | ⟨rfl, h, h'⟩ | ⟨rfl, h, h'⟩ | ⟨rfl, h, h'⟩
  · have := onto_within m pc
    have h' : (pc.1 : ℝ) ^ 2 + 3 * (pc.2 : ℝ) ^ 2 ≤ 12 := by exact_mod_cast h
    linarith
  · have := cos_far _ h h'
    rw [k1]
    nlinarith
  · have := cos_far _ h h'
    rw [k2]
    nlinarith
  · have := cos_far _ h h'
    rw [k3]
    nlinarith

/-- An antenna more than 10.5 m from the centre of its mini-array along a dipole, where `MiniArray` puts it, is like none of the measured ones. -/
theorem laid_unlike (d : Dipole) (rd : ℤ) (vd pd : ℤ × ℤ) (d1 : rotation d.ma = some rd) (d2 : polVectors.lookup d.polar = some vd)
    (d3 : antennaAt d.antenna = some pd) (hfar : 10.5 < |along rd vd pd|) (c : Dipole) (hc : IsMeasured c) : ¬AlikeLaid d c := by
  intro h
  have hcd := measured_dipole c ((mem_candidates c).2 hc)
  obtain ⟨rc, pc, c1, -, c3, -⟩ := dipole_code c hcd
  obtain ⟨vc, c2⟩ : ∃ v, polVectors.lookup c.polar = some v := by
    rcases hcd.2.2 with h | h
    · exact ⟨(-1, 1), by rw [h]; decide +kernel⟩
    · exact ⟨(1, 1), by rw [h]; decide +kernel⟩
  have e := alike_along d c rd rc vd vc pd pc h d1 d2 d3 c1 c2 c3
  have := measured_along c hc rc vc pc c1 c2 c3
  rw [e] at hfar
  linarith

/-- **C159** fails: the response of such an antenna is read in the file of a measured antenna which does not see the antennas around it like it. -/
theorem response_turned_violated (d : Dipole) (hd : IsDipole d) (rd : ℤ) (vd pd : ℤ × ℤ) (d1 : rotation d.ma = some rd) (d2 : polVectors.lookup d.polar = some vd)
    (d3 : antennaAt d.antenna = some pd) (hfar : 10.5 < |along rd vd pd|) :
    ∃ c, IsMeasured c ∧ response d.polar (some d.antenna) (some d.ma) = .ok (.file c.ma c.antenna d.polar) ∧ ¬AlikeLaid d c := by
  obtain ⟨⟨c, h1, -, h2⟩, -⟩ := response_partial d.ma d.antenna d.polar hd
  exact ⟨c, h1, h2, laid_unlike d rd vd pd d1 d2 d3 hfar c h1⟩

theorem lookup_some_mem (l : List (ℤ × ℤ)) (k v : ℤ) (h : l.lookup k = some v) : (k, v) ∈ l := by
  induction l with
  | nil => cases h
  | cons a l ih =>
    change (match k == a.1 with | true => some a.2 | false => l.lookup k) = some v at h
    by_cases e : k = a.1
    · subst e
      rw [beq_self_eq_true] at h
      injection h with h
      subst h
      exact List.mem_cons_self ..
    · rw [beq_eq_false_iff_ne.2 e] at h
      exact List.mem_cons_of_mem _ (ih h)

/-- So it is for the first antenna and north-west dipoles of all the mini-arrays turned by 0, 150, 160 or 170 degrees, modulo 180. -/
theorem first_turned_violated (ma rot : ℤ) (hr : rotation ma = some rot) (h : rot % 180 ∈ [0, 150, 160, 170]) :
    ∃ c, IsMeasured c ∧ response "NW" (some "Ant01") (some ma) = .ok (.file c.ma c.antenna "NW") ∧ ¬AlikeLaid ⟨ma, "NW", "Ant01"⟩ c := by
  have hmem : (ma, rot) ∈ arrays := by
    exact lookup_some_mem arrays ma rot hr
  have ht := arrays_ten _ hmem
  dsimp only at ht
  refine response_turned_violated ⟨ma, "NW", "Ant01"⟩ ⟨List.mem_map.2 ⟨_, hmem, rfl⟩, show "Ant01" ∈ _ by decide +kernel, Or.inl rfl⟩ rot (-1, 1) (-2, -2) hr
    (show polVectors.lookup "NW" = _ by decide +kernel) (show antennaAt "Ant01" = _ by decide +kernel) ?_
  have e10 : rot = 10 * (rot / 10) := by omega
  rw [e10, along_onto _ _ _ (Or.inl rfl), (corner_onto _).1]
  have hh : heading (-(rot / 10)) (-1, 1) = 2 * -(rot / 10) - 27 := by simp [heading]
  rw [hh]
  have hn : (2 * -(rot / 10) - 27 - 12) % 36 ≤ 3 ∨ 33 ≤ (2 * -(rot / 10) - 27 - 12) % 36 := by
    simp only [List.mem_cons, List.not_mem_nil, or_false] at h
    omega
  have hc := cos_near _ hn
  have s3 : (1.732 : ℝ) ≤ √3 := by rw [Real.le_sqrt' (by norm_num)]; norm_num
  generalize Real.cos ((2 * -(rot / 10) - 27 - 12 : ℤ) * (Real.pi / 36)) = x at *
  have : (10.5 : ℝ) ^ 2 < (11 / 4 * (-4 * x)) ^ 2 := by nlinarith
  have h2 := (sq_lt_sq.1 this)
  rwa [abs_of_pos (by norm_num : (0 : ℝ) < 10.5)] at h2

example : ∃ c, IsMeasured c ∧ response "NW" (some "Ant01") (some 0) = .ok (.file c.ma c.antenna "NW") ∧ ¬AlikeLaid ⟨0, "NW", "Ant01"⟩ c :=
  first_turned_violated 0 0 (by decide +kernel) (by decide)

end Verif.Instru
