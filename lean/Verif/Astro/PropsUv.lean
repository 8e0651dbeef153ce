import Verif.Astro.Uv
import Verif.IO.PropsXst

/-!
# UV coverage (property C66)
-/

namespace Verif.Astro

open Verif.IO

theorem tril_len (n : Nat) : 2 * (tril n).length = n * (n + 1) := by
  induction n with
  | zero => rfl
  | succ n ih =>
    rw [tril_succ, List.length_append, List.length_map, List.length_range, Nat.mul_add, ih]
    ring

theorem cross_len (n : Nat) : ((tril n).filter fun p => decide (p.1 ≠ p.2)).length + n = (tril n).length := by
  induction n with
  | zero => rfl
  | succ n ih =>
    rw [tril_succ, List.filter_append, List.length_append, List.length_append, ← ih, List.length_map, List.length_range]
    have h : (((List.range (n + 1)).map fun j => (n, j)).filter fun p => decide (p.1 ≠ p.2)).length = n := by
      rw [List.range_succ, List.map_append, List.filter_append, List.length_append]
      have h1 : (((List.range n).map fun j => (n, j)).filter fun p => decide (p.1 ≠ p.2)) = (List.range n).map fun j => (n, j) := by
        rw [List.filter_eq_self]
        intro p hp
        obtain ⟨j, hj, rfl⟩ := List.mem_map.mp hp
        rw [List.mem_range] at hj
        exact decide_eq_true (by dsimp only; omega)
      rw [h1]
      simp
    omega

/-- **C66**: the number of antennas is recovered from the number of baselines. -/
theorem antennas_exact (n : Nat) : nAntennas ((tril n).length) = n := by
  have h := tril_len n
  have h' : 2 * ((tril n).length : ℝ) = n * (n + 1) := by exact_mod_cast h
  unfold nAntennas
  have e : (1 + 8 * ((tril n).length : ℝ)) = (2 * n + 1) ^ 2 := by linear_combination 4 * h'
  rw [e, Real.sqrt_sq (by positivity)]
  rw [show (-1 + (2 * (n : ℝ) + 1)) / 2 = n by ring]
  exact Nat.floor_natCast n

/-- **C66**: with the `n(n+1)/2` baselines of `n` antennas, the coverage has these baselines followed by the ones between different
antennas, with `u` and `v` of the opposite sign. -/
theorem coverage_exact (n : Nat) (rows : List (Nat × Nat → Uvw)) :
    uvCoverage (tril n).length (rows.map fun f => (tril n).map f)
      = .ok (rows.map fun f => (tril n).map f ++ ((tril n).filter fun p => decide (p.1 ≠ p.2)).map fun p => flipped (f p)) := by
  unfold uvCoverage
  rw [antennas_exact, if_neg (by simp [crossMask]), List.map_map]
  congr 1
  refine List.map_congr_left fun f _ => ?_
  show (tril n).map f ++ (pickMask (crossMask n) ((tril n).map f)).map flipped = _
  unfold crossMask
  rw [pickMask_map, List.map_map]
  rfl

/-- **C66**: `n²` points for each time: all baselines, and the mirrors of those between different antennas. -/
theorem coverage_count (n : Nat) (rows : List (Nat × Nat → Uvw)) {out : List (List Uvw)}
    (h : uvCoverage (tril n).length (rows.map fun f => (tril n).map f) = .ok out) : ∀ row ∈ out, row.length = n * n := by
  rw [coverage_exact] at h
  cases h
  intro row hrow
  obtain ⟨f, _, rfl⟩ := List.mem_map.1 hrow
  rw [List.length_append, List.length_map, List.length_map]
  have h1 := tril_len n
  have h2 := cross_len n
  have h3 : n * (n + 1) = n * n + n := by ring
  omega

/-- **C66**: the `u`, `v` of every ordered pair of different antennas are there, with the sign given by the order. -/
theorem coverage_pairs (n : Nat) (f : Nat × Nat → Uvw) {out : List Uvw} (h : uvCoverage (tril n).length [(tril n).map f] = .ok [out])
    (i j : Nat) (hi : i < n) (hj : j < i) :
    (∃ x ∈ out, x.u = (f (i, j)).u ∧ x.v = (f (i, j)).v) ∧ (∃ x ∈ out, x.u = -(f (i, j)).u ∧ x.v = -(f (i, j)).v) := by
  have h' := coverage_exact n [f]
  simp only [List.map_cons, List.map_nil] at h'
  rw [h'] at h
  cases h
  refine ⟨⟨f (i, j), ?_, rfl, rfl⟩, ⟨flipped (f (i, j)), ?_, rfl, rfl⟩⟩
  · exact List.mem_append_left _ (List.mem_map.2 ⟨(i, j), mem_tril.2 ⟨hj.le, hi⟩, rfl⟩)
  · refine List.mem_append_right _ (List.mem_map.2 ⟨(i, j), List.mem_filter.2 ⟨mem_tril.2 ⟨hj.le, hi⟩, ?_⟩, rfl⟩)
    exact decide_eq_true (by dsimp only; omega)

/-- The distance is the length of the baseline, with its three components. -/
theorem distance_length (x : Uvw) : 0 ≤ uvDistance x ∧ uvDistance x ^ 2 = x.u ^ 2 + x.v ^ 2 + x.w ^ 2 := by
  unfold uvDistance
  exact ⟨Real.sqrt_nonneg _, Real.sq_sqrt (by positivity)⟩

/-- The lengths of the baselines are kept. -/
theorem coverage_distance (x : Uvw) : uvDistance (flipped x) = uvDistance x := by
  unfold uvDistance flipped
  congr 1
  ring

/-- Any number of baselines which is not that of a number of antennas is refused. -/
theorem coverage_refused (b : Nat) (uvw : List (List Uvw)) (h : ∀ n, 2 * b ≠ n * (n + 1)) : uvCoverage b uvw = .error .indexError := by
  unfold uvCoverage
  rw [if_pos]
  intro e
  have := tril_len (nAntennas b)
  unfold crossMask at e
  rw [List.length_map] at e
  rw [e] at this
  exact h _ this

example : ∀ n, 2 * 2 ≠ n * (n + 1) := by
  intro n
  rcases Nat.lt_or_ge n 2 with h | h
  · interval_cases n <;> decide
  · have : 2 * 3 ≤ n * (n + 1) := Nat.mul_le_mul h (by omega)
    omega

/-- **C66** fails for `w`: the mirror of a baseline out of the plane is not among the points, since `w` keeps its sign. -/
theorem coverage_w_violated (n : Nat) (f : Nat × Nat → Uvw) (p : Nat × Nat) (hw : (f p).w ≠ 0) (hu : (f p).u ≠ 0)
    (hone : ∀ q ∈ tril n, q ≠ p → |(f q).u| ≠ |(f p).u|) : ∃ out, uvCoverage (tril n).length [(tril n).map f] = .ok [out] ∧
    ∀ x ∈ out, ¬ (x.u = -(f p).u ∧ x.v = -(f p).v ∧ x.w = -(f p).w) := by
  refine ⟨_, coverage_exact n [f], ?_⟩
  rintro x hx ⟨h1, _, h3⟩
  rcases List.mem_append.1 hx with hx | hx
  · obtain ⟨q, hq, rfl⟩ := List.mem_map.1 hx
    by_cases e : q = p
    · subst e; exact hu (by linarith)
    · exact hone q hq e (by rw [h1, abs_neg])
  · obtain ⟨q, hq, rfl⟩ := List.mem_map.1 hx
    have hq := (List.mem_filter.1 hq).1
    by_cases e : q = p
    · subst e
      have : (f q).w = -(f q).w := h3
      exact hw (by linarith)
    · have : -(f q).u = -(f p).u := h1
      exact hone q hq e (by rw [neg_inj.1 this])

example : ∃ f : Nat × Nat → Uvw, (f (1, 0)).w ≠ 0 ∧ (f (1, 0)).u ≠ 0 ∧ ∀ q ∈ tril 2, q ≠ (1, 0) → |(f q).u| ≠ |(f (1, 0)).u| := by
  refine ⟨fun p => ⟨(p.1 : ℝ) - p.2, 0, (p.1 : ℝ) - p.2⟩, by norm_num, by norm_num, ?_⟩
  intro q hq hne
  simp [tril, List.range_succ] at hq
  rcases hq with rfl | rfl | rfl
  · norm_num
  · exact absurd rfl hne
  · norm_num

end Verif.Astro
