import Verif.Instru.Squint
import Verif.Instru.PropsRadio
import Mathlib.Algebra.Order.Floor.Semiring

/-!
# Pointing of mini-arrays: properties
-/

namespace Verif.Instru

/-! ## Interpolation in tables with plateaux -/

theorem takeWhile_head {α : Type} (p : α → Bool) (a : α) (l : List α) (h : p a = true) : 0 < ((a :: l).takeWhile p).length := by
  rw [List.takeWhile_cons, if_pos h]
  simp

theorem takeWhile_stop {α : Type} (p : α → Bool) (l : List α) (h : (l.takeWhile p).length < l.length) :
    p l[(l.takeWhile p).length] = false := by
  induction l with
  | nil => simp at h
  | cons a l ih =>
    by_cases ha : p a = true
    · have e : (a :: l).takeWhile p = a :: l.takeWhile p := by rw [List.takeWhile_cons, if_pos ha]
      have hl : (l.takeWhile p).length < l.length := by
        rw [e] at h
        simpa using h
      have := ih hl
      simp only [e, List.length_cons, List.getElem_cons_succ]
      exact this
    · have e : (a :: l).takeWhile p = [] := by rw [List.takeWhile_cons, if_neg ha]
      simp only [e, List.length_nil, List.getElem_cons_zero]
      simpa using ha

theorem takeWhile_before {α : Type} (p : α → Bool) (l : List α) (i : Nat) (h : i < (l.takeWhile p).length) (hl : i < l.length) :
    p l[i] = true := by
  have e : l[i] = (l.takeWhile p)[i] := ((List.takeWhile_prefix p).getElem h).symm
  rw [e]
  exact List.all_eq_true.1 List.all_takeWhile _ (List.getElem_mem _)

/-- The segment found within the table holds the abscissa, whatever the table. -/
theorem step_between (xs : List ℝ) (x : ℝ) (h1 : ¬x ≤ xs.headD 0) (h2 : ¬xs.getLastD 0 ≤ x) :
    ∃ h : stepBelow xs x + 1 < xs.length, xs[stepBelow xs x] ≤ x ∧ x < xs[stepBelow xs x + 1] := by
  cases xs with
  | nil => simp at h1 h2; linarith
  | cons a l =>
    simp only [List.headD_cons] at h1
    have k0 := takeWhile_head (fun t => decide (t ≤ x)) a l (decide_eq_true (not_le.1 h1).le)
    have k1 : ((a :: l).takeWhile fun t => decide (t ≤ x)).length < (a :: l).length := by
      by_contra hc
      have e := (List.takeWhile_prefix (l := a :: l) (fun t => decide (t ≤ x))).eq_of_length_le (not_lt.1 hc)
      have hm : (a :: l).getLastD 0 ∈ (a :: l) := by
        rw [List.getLastD_eq_getLast?, List.getLast?_eq_getLast_of_ne_nil (by simp)]
        exact List.getLast_mem _
      have hm' : (a :: l).getLastD 0 ∈ (a :: l).takeWhile fun t => decide (t ≤ x) := by
        rw [e]
        exact hm
      have := List.all_eq_true.1 List.all_takeWhile _ hm'
      exact h2 (of_decide_eq_true this)
    have s := takeWhile_stop _ _ k1
    have b := takeWhile_before (fun t => decide (t ≤ x)) (a :: l) (stepBelow (a :: l) x) (by unfold stepBelow; omega)
      (by unfold stepBelow; omega)
    have e : stepBelow (a :: l) x + 1 = ((a :: l).takeWhile fun t => decide (t ≤ x)).length := by unfold stepBelow; omega
    refine ⟨by omega, of_decide_eq_true b, ?_⟩
    simp only [e]
    exact not_le.1 (of_decide_eq_false s)

/-- Within the table, the value is a mean of two neighbours. -/
theorem interp_mean (xs ys : List ℝ) (hl : xs.length = ys.length) (x : ℝ) (h1 : ¬x ≤ xs.headD 0) (h2 : ¬xs.getLastD 0 ≤ x) :
    ∃ (i : Nat) (h : i + 1 < xs.length) (t : ℝ), i = stepBelow xs x ∧ 0 ≤ t ∧ t < 1 ∧ xs[i] < xs[i + 1] ∧
      x = (1 - t) * xs[i] + t * xs[i + 1] ∧ npInterp xs ys x = (1 - t) * (ys[i]'(by omega)) + t * (ys[i + 1]'(by omega)) := by
  obtain ⟨h, a, b⟩ := step_between xs x h1 h2
  have d : 0 < xs[stepBelow xs x + 1] - xs[stepBelow xs x] := by linarith
  refine ⟨_, h, (x - xs[stepBelow xs x]) / (xs[stepBelow xs x + 1] - xs[stepBelow xs x]), rfl, div_nonneg (by linarith) d.le, ?_,
    by linarith, ?_, ?_⟩
  · rw [div_lt_one d]
    linarith
  · field_simp
    ring
  · unfold npInterp onSegment
    rw [if_neg h1, if_neg h2, List.getD_eq_getElem _ _ (by omega), List.getD_eq_getElem _ _ (by omega),
      List.getD_eq_getElem _ _ (by omega), List.getD_eq_getElem _ _ (by omega)]
    field_simp
    ring

/-! ## Beam squint -/

theorem rows_checked : squintRows.length = 8 ∧ ∀ r ∈ squintRows, r.length = 91 ∧ r.headD 1 = 0 ∧ r.getLastD 0 = 90 * 524288 ∧
    (∀ i < 91, i * 524288 ≤ r.getD i 0) ∧ (∀ i < 90, r.getD i 0 ≤ r.getD (i + 1) 0) := by decide +kernel

theorem least_spec (l : List ℝ) (h : l ≠ []) : ∃ hk : firstLeast l < l.length, (∀ y ∈ l, l[firstLeast l] ≤ y) ∧
    ∀ j (hj : j < firstLeast l), l[firstLeast l] < l[j]'(by omega) := by
  have ex : ∃ x ∈ l, ∀ y ∈ l, x ≤ y := by
    induction l with
    | nil => exact absurd rfl h
    | cons a l ih =>
      by_cases hl : l = []
      · subst hl
        exact ⟨a, by simp, by simp⟩
      · obtain ⟨x, hx, hm⟩ := ih hl
        rcases le_total a x with h1 | h1
        · refine ⟨a, by simp, fun y hy => ?_⟩
          rcases List.mem_cons.1 hy with rfl | hy
          · exact le_rfl
          · exact h1.trans (hm y hy)
        · refine ⟨x, List.mem_cons_of_mem _ hx, fun y hy => ?_⟩
          rcases List.mem_cons.1 hy with rfl | hy
          · exact h1
          · exact hm y hy
  obtain ⟨x, hx, hm⟩ := ex
  have hk : firstLeast l < l.length := List.findIdx_lt_length_of_exists ⟨x, hx, by simpa using hm⟩
  have hp := List.findIdx_getElem (p := fun x => decide (∀ y ∈ l, x ≤ y)) (xs := l) (w := hk)
  refine ⟨hk, of_decide_eq_true hp, fun j hj => ?_⟩
  have := List.not_of_lt_findIdx (p := fun x => decide (∀ y ∈ l, x ≤ y)) (xs := l) hj
  have := of_decide_eq_false this
  by_contra hc
  exact this fun y hy => (not_lt.1 hc).trans (of_decide_eq_true hp y hy)

/-- **C120.** The row used is that of the closest frequency of the table, and of the lowest of two. -/
theorem squint_closest (f : ℝ) : ∃ h : squintIndex f < squintFreqs.length,
    (∀ g ∈ squintFreqs, |squintFreqs[squintIndex f] - f| ≤ |g - f|) ∧
    ∀ j (hj : j < squintIndex f), |squintFreqs[squintIndex f] - f| < |squintFreqs[j]'(by omega) - f| := by
  obtain ⟨hk, h1, h2⟩ := least_spec (squintFreqs.map fun g => |g - f|) (by simp [squintFreqs])
  have hk' : squintIndex f < squintFreqs.length := by
    unfold squintIndex
    simpa using hk
  refine ⟨hk', fun g hg => ?_, fun j hj => ?_⟩
  · have := h1 _ (List.mem_map.2 ⟨g, hg, rfl⟩)
    rw [List.getElem_map] at this
    exact this
  · have := h2 j hj
    rw [List.getElem_map, List.getElem_map] at this
    exact this

theorem row_mem (f : ℝ) : squintRows.getD (squintIndex f) [] ∈ squintRows := by
  obtain ⟨h, -, -⟩ := squint_closest f
  have h8 : squintIndex f < squintRows.length := by
    rw [rows_checked.1]
    simpa [squintFreqs] using h
  rw [List.getD_eq_getElem _ _ h8]
  exact List.getElem_mem _

theorem row_general (r : List Nat) (h1 : r.length = 91) (h2 : r.headD 1 = 0) (h3 : r.getLastD 0 = 90 * 524288)
    (h4 : ∀ i < 91, i * 524288 ≤ r.getD i 0) (h5 : ∀ i < 90, r.getD i 0 ≤ r.getD (i + 1) 0) (xs : List ℝ)
    (hxs : xs = r.map fun n : Nat => (n : ℝ) / 524288) :
    xs.length = 91 ∧ xs.headD 0 = 0 ∧ xs.getLastD 0 = 90 ∧ (∀ i (h : i < xs.length), (i : ℝ) ≤ xs[i]) ∧
    ∀ i j (h : j < xs.length) (hij : i ≤ j), xs[i]'(by omega) ≤ xs[j] := by
  subst hxs
  have up : ∀ i (h : i < (r.map fun n : Nat => (n : ℝ) / 524288).length), (r.map fun n : Nat => (n : ℝ) / 524288)[i] = (r.getD i 0 : ℝ) / 524288 := by
    intro i h
    rw [List.getElem_map, List.getD_eq_getElem]
  refine ⟨by simpa using h1, ?_, ?_, ?_, ?_⟩
  · cases r with
    | nil => rfl
    | cons a r =>
      have : a = 0 := h2
      simp [this]
  · rw [List.getLastD_eq_getLast?, List.getLast?_map]
    rw [List.getLastD_eq_getLast?] at h3
    cases hg : r.getLast? with
    | none =>
      rw [hg] at h3
      simp at h3
    | some b =>
      rw [hg] at h3
      simp only [Option.getD_some] at h3
      rw [Option.map_some, Option.getD_some, h3]
      norm_num
  · intro i h
    rw [up i h, le_div_iff₀ (by norm_num)]
    have := h4 i (by simp at h; omega)
    exact_mod_cast this
  · intro i j h hij
    have mono : ∀ k, i + k < 91 → r.getD i 0 ≤ r.getD (i + k) 0 := by
      intro k
      induction k with
      | zero => intro _; exact le_rfl
      | succ k ih =>
        intro hk
        exact (ih (by omega)).trans (h5 (i + k) (by omega))
    have hj : j < 91 := by simp at h; omega
    have := mono (j - i) (by omega)
    rw [show i + (j - i) = j by omega] at this
    rw [up, up]
    apply div_le_div_of_nonneg_right _ (by norm_num)
    exact_mod_cast this

/-- What is needed of a row: as many elements as elevations, from 0 to 90, never below the elevation pointed at, in order. -/
theorem row_spec (f : ℝ) : (squintRow (squintIndex f)).length = 91 ∧ (squintRow (squintIndex f)).headD 0 = 0 ∧
    (squintRow (squintIndex f)).getLastD 0 = 90 ∧ (∀ i (h : i < (squintRow (squintIndex f)).length), (i : ℝ) ≤ (squintRow (squintIndex f))[i]) ∧
    ∀ i j (h : j < (squintRow (squintIndex f)).length) (hij : i ≤ j), (squintRow (squintIndex f))[i]'(by omega) ≤ (squintRow (squintIndex f))[j] := by
  obtain ⟨h1, h2, h3, h4, h5⟩ := rows_checked.2 _ (row_mem f)
  exact row_general _ h1 h2 h3 h4 h5 _ rfl

theorem pointed_get (i : Nat) (h : i < squintPointed.length) : squintPointed[i] = i := by
  have e : squintPointed = (List.range 91).map fun n : Nat => (n : ℝ) := rfl
  simp only [e, List.getElem_map, List.getElem_range]

theorem pointed_length : squintPointed.length = 91 := by simp [squintPointed]

theorem pointed_head : squintPointed.headD 0 = 0 := by
  unfold squintPointed
  rw [show List.range 91 = 0 :: (List.range 90).map Nat.succ from List.range_succ_eq_map]
  simp

theorem pointed_last : squintPointed.getLastD 0 = 90 := by
  unfold squintPointed
  rw [List.getLastD_eq_getLast?, List.getLast?_map, show List.range 91 = List.range 90 ++ [90] from List.range_succ,
    List.getLast?_append]
  simp

/-- **C120.** For every frequency and every elevation above the horizon, the mini-array is pointed at or below the elevation
desired, between the horizon and the zenith; the horizon and the zenith are kept. -/
theorem squint_lower (f e : ℝ) (h0 : 0 ≤ e) (_h1 : e ≤ 90) :
    0 ≤ squint f e ∧ squint f e ≤ e ∧ squint f 0 = 0 ∧ squint f 90 = 90 := by
  obtain ⟨rl, rh, re, rb, -⟩ := row_spec f
  have z : squint f 0 = 0 := by
    unfold squint npInterp
    rw [if_pos (by rw [rh]), pointed_head]
  have n : squint f 90 = 90 := by
    unfold squint npInterp
    rw [if_neg (by rw [rh]; norm_num), if_pos (by rw [re]), pointed_last]
  refine ⟨?_, ?_, z, n⟩ <;> by_cases a : e ≤ (squintRow (squintIndex f)).headD 0
  · rw [show squint f e = squintPointed.headD 0 by unfold squint npInterp; rw [if_pos a], pointed_head]
  · by_cases b : (squintRow (squintIndex f)).getLastD 0 ≤ e
    · rw [show squint f e = squintPointed.getLastD 0 by unfold squint npInterp; rw [if_neg a, if_pos b], pointed_last]
      norm_num
    · obtain ⟨i, hi, t, -, t0, t1, -, hx, hv⟩ := interp_mean _ squintPointed (by rw [rl, pointed_length]) e a b
      unfold squint
      rw [hv, pointed_get, pointed_get]
      have : (0 : ℝ) ≤ i := Nat.cast_nonneg i
      push_cast
      nlinarith
  · rw [show squint f e = squintPointed.headD 0 by unfold squint npInterp; rw [if_pos a], pointed_head]
    exact h0
  · by_cases b : (squintRow (squintIndex f)).getLastD 0 ≤ e
    · rw [show squint f e = squintPointed.getLastD 0 by unfold squint npInterp; rw [if_neg a, if_pos b], pointed_last]
      rw [re] at b
      exact b
    · obtain ⟨i, hi, t, -, t0, t1, -, hx, hv⟩ := interp_mean _ squintPointed (by rw [rl, pointed_length]) e a b
      unfold squint
      rw [hv, pointed_get, pointed_get]
      have b1 := rb i (by omega)
      have b2 := rb (i + 1) hi
      have m1 := mul_le_mul_of_nonneg_left b1 (show 0 ≤ 1 - t by linarith)
      have m2 := mul_le_mul_of_nonneg_left b2 t0
      linarith

/-- **C120.** At one frequency, a higher elevation is never pointed lower. -/
theorem squint_mono (f e e' : ℝ) (h : e ≤ e') : squint f e ≤ squint f e' := by
  obtain ⟨rl, rh, re, rb, rs⟩ := row_spec f
  have low : ∀ x, 0 ≤ squint f x ∧ squint f x ≤ 90 := by
    intro x
    by_cases h0 : x ≤ 0
    · rw [show squint f x = squintPointed.headD 0 by unfold squint npInterp; rw [if_pos (by rw [rh]; exact h0)], pointed_head]
      norm_num
    by_cases h1 : 90 ≤ x
    · rw [show squint f x = squintPointed.getLastD 0 by
        unfold squint npInterp; rw [if_neg (by rw [rh]; exact h0), if_pos (by rw [re]; exact h1)], pointed_last]
      norm_num
    have := squint_lower f x (by linarith) (by linarith)
    exact ⟨this.1, by linarith [this.2.1]⟩
  by_cases a : e ≤ (squintRow (squintIndex f)).headD 0
  · rw [show squint f e = squintPointed.headD 0 by unfold squint npInterp; rw [if_pos a], pointed_head]
    exact (low e').1
  by_cases b' : (squintRow (squintIndex f)).getLastD 0 ≤ e'
  · have a' : ¬e' ≤ (squintRow (squintIndex f)).headD 0 := by
      rw [re] at b'
      rw [rh]
      linarith
    rw [show squint f e' = squintPointed.getLastD 0 by unfold squint npInterp; rw [if_neg a', if_pos b'], pointed_last]
    exact (low e).2
  have b : ¬(squintRow (squintIndex f)).getLastD 0 ≤ e := fun hc => b' (hc.trans h)
  have a' : ¬e' ≤ (squintRow (squintIndex f)).headD 0 := fun hc => a (h.trans hc)
  obtain ⟨i, hi, t, -, t0, t1, d, hx, hv⟩ := interp_mean _ squintPointed (by rw [rl, pointed_length]) e a b
  obtain ⟨j, hj, s, -, s0, s1, d', hx', hv'⟩ := interp_mean _ squintPointed (by rw [rl, pointed_length]) e' a' b'
  unfold squint
  rw [hv, hv', pointed_get, pointed_get, pointed_get, pointed_get]
  push_cast
  rcases lt_trichotomy i j with hij | rfl | hij
  · have : (i : ℝ) + 1 ≤ j := by exact_mod_cast hij
    nlinarith
  · have ts : t ≤ s := by
      by_contra hc
      have := mul_pos (sub_pos.2 (not_le.1 hc)) (sub_pos.2 d)
      nlinarith
    nlinarith
  · exfalso
    have := rs (j + 1) i (by omega) (by omega)
    nlinarith

/-- **C120.** Below the horizon, where a lower elevation should be pointed at, the horizon is. -/
theorem squint_below_violated (f e : ℝ) (h : e < 0) : e < squint f e := by
  obtain ⟨rl, rh, re, rb, rs⟩ := row_spec f
  rw [show squint f e = squintPointed.headD 0 by unfold squint npInterp; rw [if_pos (by rw [rh]; exact h.le)], pointed_head]
  exact h

/-! ## Empirical correction -/

theorem cell_spec (n : Nat) (hn : 0 < n) (x : ℝ) (h0 : 0 ≤ x) (h1 : x ≤ n) :
    cellOf n x < n ∧ (cellOf n x : ℝ) ≤ x ∧ x ≤ cellOf n x + 1 := by
  unfold cellOf
  have f1 := Nat.floor_le h0
  have f2 := Nat.lt_floor_add_one x
  refine ⟨by omega, ?_, ?_⟩
  · refine le_trans ?_ f1
    exact_mod_cast min_le_left _ _
  · rcases le_total ⌊x⌋₊ (n - 1) with h | h
    · rw [min_eq_left h]
      exact f2.le
    · rw [min_eq_right h]
      have : ((n - 1 : ℕ) : ℝ) + 1 = n := by
        rw [Nat.cast_sub (by omega)]
        push_cast
        ring
      rw [this]
      exact h1

/-- A corrected value is a mean of four neighbouring values of the table, and the position is the same mean of their positions. -/
theorem grid_mean (v : Nat → Nat → ℝ) (alt az : ℝ) (h15 : 15 ≤ alt) (h90 : alt ≤ 90) (h0 : 0 ≤ az) (h360 : az ≤ 360) :
    ∃ (i j : Nat) (s t : ℝ), 15 ≤ i ∧ i < 90 ∧ j < 360 ∧ 0 ≤ s ∧ s ≤ 1 ∧ 0 ≤ t ∧ t ≤ 1 ∧ alt = i + s ∧ az = j + t ∧
      gridValue v alt az = bilinear v i j s t := by
  obtain ⟨a1, a2, a3⟩ := cell_spec 75 (by norm_num) (alt - 15) (by linarith) (by push_cast; linarith)
  obtain ⟨b1, b2, b3⟩ := cell_spec 360 (by norm_num) az h0 (by push_cast; linarith)
  refine ⟨15 + cellOf 75 (alt - 15), cellOf 360 az, _, _, by omega, by omega, b1, ?_, ?_, ?_, ?_, ?_, ?_, rfl⟩
  · linarith
  · linarith
  · linarith
  · linarith
  · push_cast
    ring
  · ring

theorem bilinear_range (v : Nat → Nat → ℝ) (i j : Nat) (s t lo hi : ℝ) (s0 : 0 ≤ s) (s1 : s ≤ 1) (t0 : 0 ≤ t) (t1 : t ≤ 1)
    (h : ∀ a b, (a = i ∨ a = i + 1) → (b = j ∨ b = j + 1) → lo ≤ v a b ∧ v a b ≤ hi) :
    lo ≤ bilinear v i j s t ∧ bilinear v i j s t ≤ hi := by
  have mean : ∀ x y r : ℝ, 0 ≤ r → r ≤ 1 → lo ≤ x ∧ x ≤ hi → lo ≤ y ∧ y ≤ hi →
      lo ≤ (1 - r) * x + r * y ∧ (1 - r) * x + r * y ≤ hi := by
    intro x y r r0 r1 hx hy
    constructor <;> nlinarith
  unfold bilinear
  exact mean _ _ s s0 s1 (mean _ _ t t0 t1 (h _ _ (Or.inl rfl) (Or.inl rfl)) (h _ _ (Or.inl rfl) (Or.inr rfl)))
    (mean _ _ t t0 t1 (h _ _ (Or.inr rfl) (Or.inl rfl)) (h _ _ (Or.inr rfl) (Or.inr rfl)))

/-- **C120.** Corrections are exactly those of the table at whole degrees, and never out of the range of its values elsewhere. -/
theorem correction_table (v : Nat → Nat → ℝ) :
    (∀ i j : Nat, 15 ≤ i → i ≤ 90 → j ≤ 360 → gridValue v i j = v i j) ∧
    ∀ lo hi, (∀ i j : Nat, 15 ≤ i → i ≤ 90 → j ≤ 360 → lo ≤ v i j ∧ v i j ≤ hi) →
      ∀ alt az : ℝ, 15 ≤ alt → alt ≤ 90 → 0 ≤ az → az ≤ 360 → lo ≤ gridValue v alt az ∧ gridValue v alt az ≤ hi := by
  constructor
  · intro i j hi hi' hj
    obtain ⟨a, b, s, t, ha, ha', hb, s0, s1, t0, t1, e1, e2, hv⟩ := grid_mean v i j (by exact_mod_cast hi) (by exact_mod_cast hi')
      (Nat.cast_nonneg j) (by exact_mod_cast hj)
    rw [hv]
    have cases : ∀ (n m : Nat) (r : ℝ), 0 ≤ r → r ≤ 1 → (n : ℝ) = m + r → (m = n ∧ r = 0) ∨ (m + 1 = n ∧ r = 1) := by
      intro n m r r0 r1 e
      have h1 : (m : ℝ) ≤ n := by linarith
      have h2 : (n : ℝ) ≤ m + 1 := by linarith
      have h1' : m ≤ n := by exact_mod_cast h1
      have h2' : n ≤ m + 1 := by exact_mod_cast h2
      rcases Nat.lt_or_ge m n with h | h
      · right
        have : m + 1 = n := by omega
        refine ⟨this, ?_⟩
        have : ((m + 1 : ℕ) : ℝ) = n := by rw [this]
        push_cast at this
        linarith
      · left
        have : m = n := by omega
        exact ⟨this, by rw [this] at e; linarith⟩
    rcases cases i a s s0 s1 e1 with ⟨rfl, rfl⟩ | ⟨rfl, rfl⟩ <;> rcases cases j b t t0 t1 e2 with ⟨rfl, rfl⟩ | ⟨rfl, rfl⟩ <;>
      · unfold bilinear
        ring
  · intro lo hi h alt az h15 h90 h0 h360
    obtain ⟨i, j, s, t, hi15, hi90, hj, s0, s1, t0, t1, -, -, hv⟩ := grid_mean v alt az h15 h90 h0 h360
    rw [hv]
    refine bilinear_range v i j s t lo hi s0 s1 t0 t1 fun a b ha hb => h a b ?_ ?_ ?_
    · omega
    · omega
    · omega

theorem mapM_checked (c : CorTable) (ps : List (ℝ × ℝ)) (h : ∀ p ∈ ps, |(corrected c p).2| ≤ 90) :
    (ps.mapM fun p => checkAlt (corrected c p)) = .ok (ps.map (corrected c)) := by
  induction ps with
  | nil => rfl
  | cons p ps ih =>
    rw [List.mapM_cons, ih fun q hq => h q (List.mem_cons_of_mem _ hq)]
    unfold checkAlt
    rw [if_pos (h p (by simp))]
    rfl

/-- **C120.** With a table whose corrections at whole degrees stay within the sky, every visible position is corrected: those up
to 15 degrees are kept, the others get the correction of the table in minutes of arc. -/
theorem correction_exact (t2022 t2019 : CorTable) (year : String) (c : CorTable) (ps : List (ℝ × ℝ))
    (hy : (year = "2022" ∧ c = t2022) ∨ (year = "2019" ∧ c = t2019))
    (hp : ∀ p ∈ ps, 0 ≤ p.1 ∧ p.1 < 360 ∧ -90 ≤ p.2 ∧ p.2 ≤ 90)
    (hc : ∀ i j : Nat, 15 ≤ i → i ≤ 90 → j ≤ 360 → -90 ≤ i + c.dalt i j / 60 ∧ i + c.dalt i j / 60 ≤ 90) :
    ∃ l, correction t2022 t2019 true year ps = .ok l ∧ l.length = ps.length ∧
      ∀ i (h : i < ps.length) (h' : i < l.length),
        (ps[i].2 ≤ 15 → l[i] = ps[i]) ∧
        (15 < ps[i].2 → l[i] = (ps[i].1 + gridValue c.daz ps[i].2 ps[i].1 / 60, ps[i].2 + gridValue c.dalt ps[i].2 ps[i].1 / 60)) := by
  have ok : ∀ p ∈ ps, |(corrected c p).2| ≤ 90 := by
    intro p hpm
    obtain ⟨p0, p360, pl, ph⟩ := hp p hpm
    unfold corrected
    by_cases h15 : 15 < p.2
    · rw [if_pos h15]
      dsimp only
      obtain ⟨i, j, s, t, hi15, hi90, hj, s0, s1, t0, t1, e1, -, hv⟩ := grid_mean c.dalt p.2 p.1 h15.le ph p0 p360.le
      have key := bilinear_range (fun a b => (a : ℝ) + c.dalt a b / 60) i j s t (-90) 90 s0 s1 t0 t1
        (fun a b ha hb => hc a b (by omega) (by omega) (by omega))
      have e : bilinear (fun a b => (a : ℝ) + c.dalt a b / 60) i j s t = i + s + bilinear c.dalt i j s t / 60 := by
        unfold bilinear
        push_cast
        ring
      rw [e, ← e1, ← hv] at key
      exact abs_le.2 key
    · rw [if_neg h15]
      exact abs_le.2 ⟨pl, ph⟩
  have et : yearTable t2022 t2019 year = some c := by
    unfold yearTable
    rcases hy with ⟨rfl, rfl⟩ | ⟨rfl, rfl⟩
    · rw [if_pos rfl]
    · rw [if_neg (by decide), if_pos rfl]
  refine ⟨ps.map (corrected c), ?_, by simp, fun i h h' => ?_⟩
  · unfold correction
    rw [if_neg (by decide), et]
    exact mapM_checked c ps ok
  · rw [List.getElem_map]
    unfold corrected
    constructor
    · intro hl
      rw [if_neg (not_lt.2 hl)]
    · intro hl
      rw [if_pos hl]

/-- **C120.** Coordinates out of a horizontal frame are refused; with any other year nothing is changed. -/
theorem correction_none (t2022 t2019 : CorTable) (year : String) (ps : List (ℝ × ℝ)) :
    correction t2022 t2019 false year ps = .error .valueError ∧
    (year ≠ "2022" → year ≠ "2019" → correction t2022 t2019 true year ps = .ok ps) := by
  constructor
  · unfold correction
    rw [if_pos rfl]
  · intro h1 h2
    unfold correction yearTable
    rw [if_neg (by decide), if_neg h1, if_neg h2]
    rfl

/-- **C120.** The correction changes the order of the elevations: if it is negative at 15 degrees (it is, by 101 minutes of arc in
the file of 2022 and by 42 in that of 2019), a position above 15 degrees is sent below one at 15 degrees of the same azimuth. -/
theorem correction_order_violated (c : CorTable) (j : Nat) (hj : j < 360) (hneg : c.dalt 15 j < 0) :
    ∃ alt, 15 < alt ∧ alt < 16 ∧ (corrected c (j, alt)).2 < (corrected c (j, 15)).2 := by
  generalize ha : c.dalt 15 j = a at hneg
  generalize hb : c.dalt 16 j = b
  have d : (0 : ℝ) < 1 + |b - a| / 60 := by positivity
  have p : 0 < -a / (120 * (1 + |b - a| / 60)) := div_pos (by linarith) (by positivity)
  obtain ⟨t, t0, th, tp⟩ : ∃ t : ℝ, 0 < t ∧ t ≤ 1 / 2 ∧ t ≤ -a / (120 * (1 + |b - a| / 60)) :=
    ⟨min (1 / 2) (-a / (120 * (1 + |b - a| / 60))), lt_min (by norm_num) p, min_le_left _ _, min_le_right _ _⟩
  refine ⟨15 + t, by linarith, by linarith, ?_⟩
  have e : gridValue c.dalt (15 + t) j = (1 - t) * a + t * b := by
    unfold gridValue
    have c1 : cellOf 75 (15 + t - 15) = 0 := by
      unfold cellOf
      have : ⌊15 + t - 15⌋₊ = 0 := Nat.floor_eq_zero.2 (by linarith)
      omega
    have c2 : cellOf 360 (j : ℝ) = j := by
      unfold cellOf
      rw [Nat.floor_natCast]
      omega
    rw [c1, c2]
    unfold bilinear
    simp only [Nat.add_zero, sub_self, zero_mul, add_zero, sub_zero, one_mul, ha, hb, Nat.cast_zero]
    ring
  unfold corrected
  rw [if_pos (show (15 : ℝ) < ((j : ℝ), 15 + t).2 by dsimp only; linarith), if_neg (show ¬(15 : ℝ) < ((j : ℝ), (15 : ℝ)).2 by dsimp only; linarith)]
  dsimp only
  rw [e]
  rw [le_div_iff₀ (by positivity)] at tp
  have : t * (b - a) ≤ t * |b - a| := mul_le_mul_of_nonneg_left (le_abs_self _) t0.le
  nlinarith

/-! ## Attenuation -/

/-- **C120.** For positions never used before, or used at the same time, the attenuation is the gain relative to that of the
zenith, missing for positions at or below the horizon; it is 1 at the zenith. -/
theorem attenuation_exact_partial {D T : Type} (alt beam : D → T → ℝ) (zenith : T → D) (c : SkyObj D T) (t : T)
    (hc : c.obstime = none ∨ c.obstime = some t) (hz : beam (zenith t) t ≠ 0) :
    ∃ l, (attenuation alt beam zenith c t).2 = .ok l ∧ l.length = c.dirs.length ∧
      ∀ i (h : i < c.dirs.length) (h' : i < l.length),
        (alt c.dirs[i] t ≤ 0 → l[i] = none) ∧
        (0 < alt c.dirs[i] t → l[i] = some (beam c.dirs[i] t / beam (zenith t) t)) ∧
        (0 < alt c.dirs[i] t → c.dirs[i] = zenith t → l[i] = some 1) := by
  have hs : (c.stamp t).obstime = some t := by
    unfold SkyObj.stamp
    rcases hc with h | h <;> rw [h] <;> rfl
  refine ⟨_, if_neg (not_not.2 hs), by simp, fun i h h' => ?_⟩
  rw [List.getElem_map]
  refine ⟨fun ha => if_pos ha, fun ha => ?_, fun ha hd => ?_⟩
  · rw [if_neg (not_le.2 ha)]
    unfold over
    rw [if_neg hz]
  · rw [if_neg (not_le.2 ha)]
    unfold over
    rw [if_neg hz, hd, div_self hz]

/-- **C120.** The call changes the object of the caller: used again at another time, it is refused. -/
theorem attenuation_twice_violated {D T : Type} (alt beam : D → T → ℝ) (zenith : T → D) (dirs : List D) (t t' : T) (h : t ≠ t') :
    (attenuation alt beam zenith (attenuation alt beam zenith ⟨dirs, none⟩ t).1 t').2 = .error .valueError := by
  exact if_pos fun e => h (Option.some.inj e)

/-! ## The hypotheses can be met -/

/-- A table with a correction of two minutes of arc downwards everywhere. -/
def downTable : CorTable := ⟨fun _ _ => 30, fun _ _ => -2⟩

example : (∀ i j : Nat, 15 ≤ i → i ≤ 90 → j ≤ 360 → -90 ≤ (i : ℝ) + downTable.dalt i j / 60 ∧ (i : ℝ) + downTable.dalt i j / 60 ≤ 90) ∧
    downTable.dalt 15 0 < 0 := by
  constructor
  · intro i j h1 h2 _
    have a : (15 : ℝ) ≤ i := by exact_mod_cast h1
    have b : (i : ℝ) ≤ 90 := by exact_mod_cast h2
    unfold downTable
    constructor <;> norm_num <;> linarith
  · unfold downTable
    norm_num

end Verif.Instru
