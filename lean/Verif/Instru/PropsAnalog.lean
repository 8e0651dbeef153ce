import Verif.Instru.Analog
import Verif.Instru.Props
import Verif.Instru.PropsGrid
import Verif.Instru.PropsSquint

/-!
# Analog pointing of mini-arrays and building of the array: property C137
-/

namespace Verif.Instru

/-! ## Nodes -/

theorem angle_sep (d e : ℝ × ℝ) : angleOf d e = sepOf d e := rfl

theorem first_range (N : Nat) (hN : 0 < N) (g : Nat → ℝ) : firstLeast ((List.range N).map g) < N ∧
    (∀ j < N, g (firstLeast ((List.range N).map g)) ≤ g j) ∧ ∀ j < firstLeast ((List.range N).map g), g (firstLeast ((List.range N).map g)) < g j := by
  have hne : (List.range N).map g ≠ [] := by
    intro h0
    have := congrArg List.length h0
    rw [List.length_map, List.length_range] at this
    exact absurd this hN.ne'
  obtain ⟨hk, h1, h2⟩ := least_spec ((List.range N).map g) hne
  rw [List.getElem_map, List.getElem_range] at h1
  have hk' : firstLeast ((List.range N).map g) < N := by rw [List.length_map, List.length_range] at hk; exact hk
  refine ⟨hk', fun j hj => h1 _ (List.mem_map.2 ⟨j, List.mem_range.2 hj, rfl⟩), fun j hj => ?_⟩
  have := h2 j hj
  rw [List.getElem_map, List.getElem_map, List.getElem_range, List.getElem_range] at this
  exact this

theorem node_rank (rot : ℝ) (d : ℝ × ℝ) : ∃ k, node rot d = (k / 128, k % 128) ∧ k < 16384 ∧
    (∀ j < 16384, sepOf d (gridDir rot (k / 128) (k % 128)) ≤ sepOf d (gridDir rot (j / 128) (j % 128))) ∧
    ∀ j < k, sepOf d (gridDir rot (k / 128) (k % 128)) < sepOf d (gridDir rot (j / 128) (j % 128)) :=
  have h := first_range 16384 (by omega) fun k => angleOf d (gridDir rot (k / 128) (k % 128))
  ⟨_, rfl, h.1, h.2.1, h.2.2⟩

/-- The node chosen is a closest one, in the grid, and the first of those. -/
theorem node_spec (rot : ℝ) (d : ℝ × ℝ) : (node rot d).1 < 128 ∧ (node rot d).2 < 128 ∧
    (∀ x y, x < 128 → y < 128 → sepOf d (gridDir rot (node rot d).1 (node rot d).2) ≤ sepOf d (gridDir rot x y)) ∧
    ∀ x y, x < 128 → y < 128 → 128 * x + y < 128 * (node rot d).1 + (node rot d).2 →
      sepOf d (gridDir rot (node rot d).1 (node rot d).2) < sepOf d (gridDir rot x y) := by
  obtain ⟨k, hk, hlt, h1, h2⟩ := node_rank rot d
  rw [hk]
  refine ⟨by dsimp only; omega, by dsimp only; omega, ?_, ?_⟩
  · intro x y hx hy
    have := h1 (128 * x + y) (by omega)
    rw [show (128 * x + y) / 128 = x by omega, show (128 * x + y) % 128 = y by omega] at this
    exact this
  · intro x y hx hy hlt
    dsimp only at hlt
    have := h2 (128 * x + y) (by omega)
    rw [show (128 * x + y) / 128 = x by omega, show (128 * x + y) % 128 = y by omega] at this
    exact this

theorem unit_norm (d : ℝ × ℝ) : (unitOf d).1 ^ 2 + (unitOf d).2.1 ^ 2 + (unitOf d).2.2 ^ 2 = 1 := by
  unfold unitOf
  dsimp only
  have h1 := Real.sin_sq_add_cos_sq d.1
  have h2 := Real.sin_sq_add_cos_sq d.2
  linear_combination h2 + Real.cos d.2 ^ 2 * h1

theorem sep_self (d : ℝ × ℝ) : sepOf d d = 0 := by
  unfold sepOf
  rw [Real.arccos_eq_zero]
  have := unit_norm d
  nlinarith

theorem sep_zero (d e : ℝ × ℝ) (h : sepOf d e ≤ 0) : unitOf d = unitOf e := by
  have h0 : sepOf d e = 0 := le_antisymm h (Real.arccos_nonneg _)
  unfold sepOf at h0
  rw [Real.arccos_eq_zero] at h0
  have n1 := unit_norm d
  have n2 := unit_norm e
  have e1 : ((unitOf d).1 - (unitOf e).1) ^ 2 + ((unitOf d).2.1 - (unitOf e).2.1) ^ 2 + ((unitOf d).2.2 - (unitOf e).2.2) ^ 2 ≤ 0 := by nlinarith
  have q1 : (unitOf d).1 - (unitOf e).1 = 0 := by
    have : ((unitOf d).1 - (unitOf e).1) ^ 2 = 0 := by
      nlinarith [sq_nonneg ((unitOf d).1 - (unitOf e).1), sq_nonneg ((unitOf d).2.1 - (unitOf e).2.1), sq_nonneg ((unitOf d).2.2 - (unitOf e).2.2)]
    exact pow_eq_zero_iff (two_ne_zero) |>.1 this
  have q2 : (unitOf d).2.1 - (unitOf e).2.1 = 0 := by
    have : ((unitOf d).2.1 - (unitOf e).2.1) ^ 2 = 0 := by
      nlinarith [sq_nonneg ((unitOf d).1 - (unitOf e).1), sq_nonneg ((unitOf d).2.1 - (unitOf e).2.1), sq_nonneg ((unitOf d).2.2 - (unitOf e).2.2)]
    exact pow_eq_zero_iff (two_ne_zero) |>.1 this
  have q3 : (unitOf d).2.2 - (unitOf e).2.2 = 0 := by
    have : ((unitOf d).2.2 - (unitOf e).2.2) ^ 2 = 0 := by
      nlinarith [sq_nonneg ((unitOf d).1 - (unitOf e).1), sq_nonneg ((unitOf d).2.1 - (unitOf e).2.1), sq_nonneg ((unitOf d).2.2 - (unitOf e).2.2)]
    exact pow_eq_zero_iff (two_ne_zero) |>.1 this
  exact Prod.ext (sub_eq_zero.1 q1) (Prod.ext (sub_eq_zero.1 q2) (sub_eq_zero.1 q3))

/-- Two nodes in the same direction have the same steps, when one of them is above the horizon. -/
theorem grid_inj (rot : ℝ) (x y x' y' : Nat) (h : step1 x ^ 2 + step2 y ^ 2 ≤ 4444) (he : unitOf (gridDir rot x y) = unitOf (gridDir rot x' y')) :
    step1 x = step1 x' ∧ step2 y = step2 y' := by
  obtain ⟨a1, a2, a3, -⟩ := (grid_direction rot x y).1 h
  have cs := Real.sin_sq_add_cos_sq rot
  by_cases h' : step1 x' ^ 2 + step2 y' ^ 2 ≤ 4444
  · obtain ⟨b1, b2, -⟩ := (grid_direction rot x' y').1 h'
    rw [he] at a1 a2
    rw [a1] at b1
    rw [a2] at b2
    have e1 : (step1 x : ℝ) = step1 x' := by
      have : 0.015 * ((step1 x : ℝ) - step1 x') * (Real.sin rot ^ 2 + Real.cos rot ^ 2) = 0 := by
        linear_combination (-Real.cos rot) * b1 + Real.sin rot * b2
      rw [cs] at this
      linarith
    have e2 : (step2 y : ℝ) = step2 y' := by
      have : 0.015 * ((step2 y : ℝ) - step2 y') * (Real.sin rot ^ 2 + Real.cos rot ^ 2) = 0 := by
        linear_combination (-Real.sin rot) * b1 - Real.cos rot * b2
      rw [cs] at this
      linarith
    exact ⟨by exact_mod_cast e1, by exact_mod_cast e2⟩
  · rw [he, (grid_direction rot x' y').2 h'] at a3
    have := Real.sqrt_nonneg (1 - 0.015 ^ 2 * ((step1 x : ℝ) ^ 2 + (step2 y : ℝ) ^ 2))
    rw [← a3] at this
    norm_num at this

theorem grid_steps (rot : ℝ) (x y x' y' : Nat) (h1 : step1 x = step1 x') (h2 : step2 y = step2 y') : gridDir rot x y = gridDir rot x' y' := by
  unfold gridDir gridCos kOne kTwo
  rw [h1, h2]

/-- Lowest number with the same step. -/
def canon (x : Nat) : Nat := if x = 64 then 63 else x

theorem canon_step1 (x : Nat) : step1 (canon x) = step1 x := by unfold canon step1; split_ifs <;> omega
theorem canon_step2 (x : Nat) : step2 (canon x) = step2 x := by unfold canon step2; split_ifs <;> omega

/-- **The order of a node is found again from its direction**, for all nodes above the horizon. -/
theorem node_self (rot : ℝ) (x y : Nat) (hr : IsReal x y) : node rot (gridDir rot x y) = (canon x, canon y) := by
  obtain ⟨hx, hy, h⟩ := hr
  obtain ⟨n1, n2, n3, n4⟩ := node_spec rot (gridDir rot x y)
  have hz := n3 x y hx hy
  rw [sep_self] at hz
  obtain ⟨e1, e2⟩ := grid_inj rot x y _ _ h (sep_zero _ _ hz)
  have hc : ¬ 128 * canon x + canon y < 128 * (node rot (gridDir rot x y)).1 + (node rot (gridDir rot x y)).2 := by
    intro hlt
    have := n4 (canon x) (canon y) (by unfold canon; split_ifs <;> omega) (by unfold canon; split_ifs <;> omega) hlt
    rw [grid_steps rot (canon x) (canon y) x y (canon_step1 x) (canon_step2 y), sep_self] at this
    have h0 : 0 ≤ sepOf (gridDir rot x y) (gridDir rot (node rot (gridDir rot x y)).1 (node rot (gridDir rot x y)).2) := Real.arccos_nonneg _
    linarith
  generalize node rot (gridDir rot x y) = o at *
  obtain ⟨o1, o2⟩ := o
  dsimp only at *
  unfold step1 at e1
  unfold step2 at e2
  unfold canon at *
  ext
  · dsimp only
    split_ifs at * <;> omega
  · dsimp only
    split_ifs at * <;> omega

/-! ## One step off at each call -/

/-- A call without squint correction moves the pointing by one step, in the second half of each axis. -/
theorem snap_self (rot : ℝ) (x y : Nat) (hr : IsReal x y) : snap rot (gridDir rot x y) = gridDir rot (fixWrong x) (fixWrong y) := by
  unfold snap
  rw [node_self rot x y hr]
  refine grid_steps rot _ _ _ _ ?_ ?_
  · unfold step1 fixWrong canon; dsimp only; split_ifs <;> omega
  · unfold step2 fixWrong canon; dsimp only; split_ifs <;> omega

theorem fix_steps (x : Nat) : (step1 (fixWrong x) = if 0 < step1 x then step1 x - 1 else step1 x) ∧
    step2 (fixWrong x) = if step2 x < 0 then step2 x + 1 else step2 x := by
  unfold step1 step2 fixWrong
  constructor <;> split_ifs <;> omega

theorem real_fix (x y : Nat) (hr : IsReal x y) : IsReal (fixWrong x) (fixWrong y) := by
  obtain ⟨hx, hy, h⟩ := hr
  have s1 : step1 (fixWrong x) ^ 2 ≤ step1 x ^ 2 := by
    rw [(fix_steps x).1]
    split_ifs with h0
    · nlinarith
    · exact le_refl _
  have s2 : step2 (fixWrong y) ^ 2 ≤ step2 y ^ 2 := by
    rw [(fix_steps y).2]
    split_ifs with h0
    · nlinarith
    · exact le_refl _
  refine ⟨?_, ?_, by linarith⟩
  · unfold fixWrong; split_ifs <;> omega
  · unfold fixWrong; split_ifs <;> omega

/-! ## Calls with the same pointing -/

theorem point_custom (c : BeamConf) (rot : ℝ) (p : Track) : (analogPoint c rot p).horizontal = p.horizontal.map (analogDir c rot) ∧ (analogPoint c rot p).sky = p.sky :=
  ⟨rfl, rfl⟩

/-- **First call**: each direction is corrected for the squint and set to the grid of the mini-array. -/
theorem point_fresh {V : Type} (value : ℝ → List (ℝ × ℝ) → V) (c : BeamConf) (rot : ℝ) (dirs : List (ℝ × ℝ)) :
    (maBeam value c rot ⟨dirs, none⟩).1 = value rot (dirs.map (analogDir c rot)) := rfl

/-- **Calls after each other** with the same pointing object start from what the previous one left. -/
theorem point_repeat (c : BeamConf) (rot : ℝ) (dirs : List (ℝ × ℝ)) (n : Nat) :
    ((analogPoint c rot)^[n] ⟨dirs, none⟩).horizontal = dirs.map (analogDir c rot)^[n] := by
  induction n with
  | zero => exact (List.map_id _).symm
  | succ n ih =>
    rw [Function.iterate_succ_apply', (point_custom _ _ _).1, ih, List.map_map, ← Function.iterate_succ']

theorem iterate_nodes (rot f : ℝ) (n : Nat) (x y : Nat) (hr : IsReal x y) :
    ∃ x' y', IsReal x' y' ∧ (analogDir ⟨false, f⟩ rot)^[n] (gridDir rot x y) = gridDir rot x' y' ∧
      step1 x' = (if 0 < step1 x then max 0 (step1 x - n) else step1 x) ∧ step2 y' = if step2 y < 0 then min 0 (step2 y + n) else step2 y := by
  induction n with
  | zero =>
    refine ⟨x, y, hr, rfl, ?_, ?_⟩
    · split_ifs <;> simp <;> omega
    · split_ifs <;> simp <;> omega
  | succ n ih =>
    obtain ⟨x', y', h1, h2, h3, h4⟩ := ih
    refine ⟨fixWrong x', fixWrong y', real_fix _ _ h1, ?_, ?_, ?_⟩
    · rw [Function.iterate_succ_apply', h2]
      exact snap_self rot x' y' h1
    · rw [(fix_steps x').1, h3]
      push_cast
      split_ifs <;> omega
    · rw [(fix_steps y').2, h4]
      push_cast
      split_ifs <;> omega

/-- **The pointing moves by one step at each call** towards the zenith, along the axes where it is in the second half of the grid: the direction of the beam after
`n` calls, without squint correction, for every mini-array and every direction of its grid. The English claim is that a beam computed again is the same. -/
theorem beam_drift_violated (rot f : ℝ) (n : Nat) (x y : Nat) (hr : IsReal x y) :
    ∃ x' y', ((analogPoint ⟨false, f⟩ rot)^[n] ⟨[gridDir rot x y], none⟩).horizontal = [gridDir rot x' y'] ∧ IsReal x' y' ∧
      step1 x' = (if 0 < step1 x then max 0 (step1 x - n) else step1 x) ∧ step2 y' = if step2 y < 0 then min 0 (step2 y + n) else step2 y := by
  obtain ⟨x', y', h1, h2, h3, h4⟩ := iterate_nodes rot f n x y hr
  refine ⟨x', y', ?_, h1, h3, h4⟩
  rw [point_repeat, List.map_singleton, h2]

/-- In the first half of both axes the calls agree. -/
theorem beam_again_partial (rot f : ℝ) (n : Nat) (x y : Nat) (hr : IsReal x y) (hx : x ≤ 64) (hy : y ≤ 64) :
    ((analogPoint ⟨false, f⟩ rot)^[n] ⟨[gridDir rot x y], none⟩).horizontal = [gridDir rot x y] := by
  obtain ⟨x', y', h1, -, h3, h4⟩ := beam_drift_violated rot f n x y hr
  rw [h1]
  have e1 : ¬ 0 < step1 x := by unfold step1; split_ifs <;> omega
  have e2 : ¬ step2 y < 0 := by unfold step2; split_ifs <;> omega
  rw [if_neg e1] at h3
  rw [if_neg e2] at h4
  rw [grid_steps rot x' y' x y h3 h4]

/-- In the second half of both axes, 63 calls lead to the zenith, whatever the direction asked. -/
theorem beam_zenith_violated (rot f : ℝ) (x y : Nat) (hr : IsReal x y) (hx : 64 ≤ x) (hy : 64 ≤ y) :
    ∃ d, ((analogPoint ⟨false, f⟩ rot)^[63] ⟨[gridDir rot x y], none⟩).horizontal = [d] ∧ unitOf d = (0, 0, 1) := by
  obtain ⟨x', y', h1, h2, h3, h4⟩ := beam_drift_violated rot f 63 x y hr
  have hx2 := hr.1
  have hy2 := hr.2.1
  have e1 : step1 x' = 0 := by
    rw [h3]
    unfold step1
    split_ifs <;> omega
  have e2 : step2 y' = 0 := by
    rw [h4]
    unfold step2
    split_ifs <;> omega
  refine ⟨_, h1, ?_⟩
  obtain ⟨u1, u2, u3, -⟩ := (grid_direction rot x' y').1 h2.2.2
  rw [e1, e2] at u1 u2 u3
  refine Prod.ext ?_ (Prod.ext ?_ ?_)
  · rw [u1]; norm_num
  · rw [u2]; norm_num
  · rw [u3]; norm_num

/-- A node of the second half of both axes which is above the horizon. -/
example : IsReal 100 90 ∧ 64 ≤ 100 ∧ 64 ≤ 90 := by
  refine ⟨⟨by omega, by omega, ?_⟩, by omega, by omega⟩
  decide

/-- The zenith is kept by all mini-arrays and configurations: pointings at the zenith, such as the default one, may be shared. -/
theorem zenith_kept (c : BeamConf) (rot : ℝ) (d : ℝ × ℝ) (hd : d.2 = Real.pi / 2) : (analogDir c rot d).2 = Real.pi / 2 := by
  have hpi := Real.pi_pos
  have hsq : (if c.squintOn then squintDir c.freq d else d).2 = Real.pi / 2 := by
    split_ifs
    · show squint c.freq (d.2 * 180 / Real.pi) * Real.pi / 180 = Real.pi / 2
      rw [hd, show Real.pi / 2 * 180 / Real.pi = 90 by field_simp; norm_num, (squint_lower c.freq 90 (by norm_num) (by norm_num)).2.2.2]
      ring
    · exact hd
  unfold analogDir
  generalize (if c.squintOn then squintDir c.freq d else d) = e at *
  have hz : step1 63 = 0 ∧ step2 63 = 0 := by decide
  have hu : unitOf e = unitOf (gridDir rot 63 63) := by
    obtain ⟨u1, u2, u3, -⟩ := (grid_direction rot 63 63).1 (by rw [hz.1, hz.2]; norm_num)
    rw [hz.1, hz.2] at u1 u2 u3
    refine Prod.ext ?_ (Prod.ext ?_ ?_)
    · rw [u1]; unfold unitOf; dsimp only; rw [hsq, Real.cos_pi_div_two]; norm_num
    · rw [u2]; unfold unitOf; dsimp only; rw [hsq, Real.cos_pi_div_two]; norm_num
    · rw [u3]; unfold unitOf; dsimp only; rw [hsq, Real.sin_pi_div_two]; norm_num
  have hs : ∀ g, sepOf e g = sepOf (gridDir rot 63 63) g := fun g => by unfold sepOf; rw [hu]
  have hn : node rot e = node rot (gridDir rot 63 63) := by
    unfold node
    simp only [angle_sep, hs]
  unfold snap
  rw [hn, node_self rot 63 63 ⟨by omega, by omega, by decide⟩]
  have h6 : fixWrong (canon 63) = 63 := by decide
  rw [h6]
  have hg : gridCos 63 63 = 1 := by
    rw [gridCos_eq, hz.1, hz.2]
    norm_num
  unfold gridDir
  rw [if_neg (by rw [hg]; norm_num), hg, Real.arccos_one]
  dsimp only
  ring

/-! ## Squint -/

theorem squint_under (f e : ℝ) (i : Nat) (hi : i < (squintRow (squintIndex f)).length) (he : e < (squintRow (squintIndex f))[i]) : squint f e ≤ i := by
  obtain ⟨rl, rh, re, rb, rs⟩ := row_spec f
  by_cases a : e ≤ (squintRow (squintIndex f)).headD 0
  · rw [show squint f e = squintPointed.headD 0 by unfold squint npInterp; rw [if_pos a], pointed_head]
    exact Nat.cast_nonneg i
  by_cases b : (squintRow (squintIndex f)).getLastD 0 ≤ e
  · exfalso
    have h1 := rs i 90 (by omega) (by omega)
    have h2 : (squintRow (squintIndex f))[90]'(by omega) = 90 := by
      have h3 : (squintRow (squintIndex f))[(squintRow (squintIndex f)).length - 1]? = (squintRow (squintIndex f))[90]? := by rw [rl]
      rw [← re, List.getLastD_eq_getLast?, List.getLast?_eq_getElem?, h3, List.getElem?_eq_getElem (by omega)]
      rfl
    rw [re] at b
    linarith
  obtain ⟨j, hj, t, -, t0, t1, d, hx, hv⟩ := interp_mean _ squintPointed (by rw [rl, pointed_length]) e a b
  unfold squint
  rw [hv, pointed_get, pointed_get]
  push_cast
  rcases Nat.lt_or_ge j i with h | h
  · have : (j : ℝ) + 1 ≤ i := by exact_mod_cast h
    nlinarith
  · exfalso
    have := rs i j (by omega) h
    nlinarith

theorem squint_over (f e : ℝ) (i : Nat) (hi : i < (squintRow (squintIndex f)).length) (he : (squintRow (squintIndex f))[i] < e) : (i : ℝ) ≤ squint f e := by
  obtain ⟨rl, rh, re, rb, rs⟩ := row_spec f
  by_cases a : e ≤ (squintRow (squintIndex f)).headD 0
  · exfalso
    have := rb i hi
    rw [rh] at a
    have h0 : (0 : ℝ) ≤ i := Nat.cast_nonneg i
    linarith
  by_cases b : (squintRow (squintIndex f)).getLastD 0 ≤ e
  · rw [show squint f e = squintPointed.getLastD 0 by unfold squint npInterp; rw [if_neg a, if_pos b], pointed_last]
    have : i ≤ 90 := by omega
    exact_mod_cast this
  obtain ⟨j, hj, t, -, t0, t1, d, hx, hv⟩ := interp_mean _ squintPointed (by rw [rl, pointed_length]) e a b
  unfold squint
  rw [hv, pointed_get, pointed_get]
  push_cast
  rcases Nat.lt_or_ge j i with h | h
  · exfalso
    have := rs (j + 1) i hi (by omega)
    nlinarith
  · have : (i : ℝ) ≤ j := by exact_mod_cast h
    nlinarith

theorem squint_low (f : ℝ) (hf : f ≤ 15) : squintIndex f = 0 := by
  obtain ⟨h, -, h2⟩ := squint_closest f
  by_contra h0
  have h3 := h2 0 (by omega)
  have hl : squintFreqs.length = 8 := rfl
  have hk : 20 ≤ squintFreqs[squintIndex f] := by
    have hall : ∀ k (hk : k < squintFreqs.length), k ≠ 0 → 20 ≤ squintFreqs[k] := by
      intro k hk h0
      rw [hl] at hk
      interval_cases k
      · exact absurd rfl h0
      all_goals (show (20 : ℝ) ≤ _; simp only [squintFreqs, List.getElem_cons_succ, List.getElem_cons_zero]; norm_num)
    exact hall _ h h0
  have h10 : squintFreqs[0]'(by omega) = 10 := rfl
  rw [h10, abs_of_nonneg (by linarith)] at h3
  have : |10 - f| ≤ squintFreqs[squintIndex f] - f := abs_le.2 ⟨by linarith, by linarith⟩
  linarith

theorem row_zero (f : ℝ) (hf : f ≤ 15) (i : Nat) (hi : i < (squintRow (squintIndex f)).length) :
    (squintRow (squintIndex f))[i] = (((squintRows.getD 0 []).getD i 0 : Nat) : ℝ) / 524288 := by
  have h0 := squint_low f hf
  have e : ∀ k (hk : i < (squintRow k).length), (squintRow k)[i] = (((squintRows.getD k []).getD i 0 : Nat) : ℝ) / 524288 := by
    intro k hk
    unfold squintRow at *
    rw [List.getElem_map]
    rw [List.length_map] at hk
    rw [List.getD_eq_getElem _ _ hk]
  rw [e _ hi, h0]

/-- **The squint correction is made again at each call**: below 15 MHz the correction for 60 degrees points between 35 and 40 degrees, but the second call with the
same pointing is corrected as if 35 to 40 degrees were asked, and points below 5 degrees. -/
theorem squint_again_violated (f : ℝ) (hf : f ≤ 15) : 35 ≤ squint f 60 ∧ squint f 60 ≤ 40 ∧ squint f (squint f 60) ≤ 5 := by
  have rl := (row_spec f).1
  have v : (squintRows.getD 0 []).getD 35 0 < 60 * 524288 ∧ 60 * 524288 < (squintRows.getD 0 []).getD 40 0 ∧ 41 * 524288 < (squintRows.getD 0 []).getD 5 0 := by
    decide +kernel
  obtain ⟨v1, v2, v3⟩ := v
  have h1 : (35 : ℝ) ≤ squint f 60 := by
    have := squint_over f 60 35 (by omega) (by
      rw [row_zero f hf, div_lt_iff₀ (by norm_num)]
      exact_mod_cast v1)
    exact_mod_cast this
  have h2 : squint f 60 ≤ 40 := by
    have := squint_under f 60 40 (by omega) (by
      rw [row_zero f hf, lt_div_iff₀ (by norm_num)]
      exact_mod_cast v2)
    exact_mod_cast this
  refine ⟨h1, h2, ?_⟩
  have := squint_under f (squint f 60) 5 (by omega) (by
    refine lt_of_le_of_lt (h2.trans (by norm_num : (40 : ℝ) ≤ 41)) ?_
    rw [row_zero f hf, lt_div_iff₀ (by norm_num)]
    exact_mod_cast v3)
  exact_mod_cast this

/-- Frequencies which are accepted for the correction. -/
theorem squint_frequency_checked (a : FreqArg) (x : ℝ) : setFreq a = .ok x ↔ a = .scalar x := by
  constructor
  · intro h
    cases a with
    | plain y => exact nomatch h
    | array l => exact nomatch h
    | scalar y => exact congrArg _ (Except.ok.inj h)
  · rintro rfl; rfl

/-! ## The groups of the whole array -/

/-- **Each group starts from the direction of the previous one**: the directions of the `k`-th beam are those asked, corrected and rounded by all the groups before. -/
theorem groups_chain {V : Type} (value : ℝ → List (ℝ × ℝ) → V) (c : BeamConf) (rots : List ℝ) (p : Track) (k : Nat) (hk : k < rots.length) :
    (groupBeams value c rots p).1[k]? = some (value rots[k] (p.horizontal.map fun d => (rots.take (k + 1)).foldl (fun d r => analogDir c r d) d)) := by
  induction rots generalizing p k with
  | nil => exact absurd hk (by simp)
  | cons r l ih =>
    cases k with
    | zero =>
      show some (value r (analogPoint c r p).horizontal) = _
      rw [(point_custom c r p).1]
      rfl
    | succ k =>
      have hk' : k < l.length := by simpa using hk
      have := ih (maBeam value c r p).2 k hk'
      show (groupBeams value c l (maBeam value c r p).2).1[k]? = _
      rw [this]
      show some (value l[k] ((analogPoint c r p).horizontal.map _)) = _
      rw [(point_custom c r p).1, List.map_map]
      rfl

/-- The first group is pointed as asked. -/
theorem groups_first_partial {V : Type} (value : ℝ → List (ℝ × ℝ) → V) (c : BeamConf) (r : ℝ) (rots : List ℝ) (dirs : List (ℝ × ℝ)) :
    (groupBeams value c (r :: rots) ⟨dirs, none⟩).1[0]? = some (value r (dirs.map (analogDir c r))) := rfl

theorem groups_left {V : Type} (value : ℝ → List (ℝ × ℝ) → V) (c : BeamConf) (rots : List ℝ) (p : Track) :
    (groupBeams value c rots p).2.horizontal = p.horizontal.map fun d => rots.foldl (fun d r => analogDir c r d) d := by
  induction rots generalizing p with
  | nil => exact (List.map_id _).symm
  | cons r l ih =>
    show (groupBeams value c l (maBeam value c r p).2).2.horizontal = _
    rw [ih]
    show (analogPoint c r p).horizontal.map _ = _
    rw [(point_custom c r p).1, List.map_map]
    rfl

/-- With an analog pointing of its own, the numerical pointing is as given and stays so. -/
theorem numerical_kept_partial {V : Type} (value : ℝ → List (ℝ × ℝ) → V) (c : BeamConf) (rots : List ℝ) (num a : Track) :
    (arrayRun value c rots num (some a)).1 = num.horizontal ∧ (arrayRun value c rots num (some a)).2.2.1 = num := ⟨rfl, rfl⟩

/-- Without it, the array factor of the next call is computed for the analog direction of the last group: here an array of one group, pointed at a node of the grid,
where the second call is one step off. -/
theorem numerical_moved_violated {V : Type} (value : ℝ → List (ℝ × ℝ) → V) (rot f : ℝ) (x y : Nat) (hr : IsReal x y) (hx : 65 ≤ x) :
    (arrayRun value ⟨false, f⟩ [rot] ⟨[gridDir rot x y], none⟩ none).1 = [gridDir rot x y] ∧
    (arrayRun value ⟨false, f⟩ [rot] (arrayRun value ⟨false, f⟩ [rot] ⟨[gridDir rot x y], none⟩ none).2.2.1 none).1 = [gridDir rot (x - 1) (fixWrong y)] ∧
    gridDir rot (x - 1) (fixWrong y) ≠ gridDir rot x y := by
  refine ⟨rfl, ?_, ?_⟩
  · show (groupBeams value ⟨false, f⟩ [rot] ⟨[gridDir rot x y], none⟩).2.horizontal = _
    rw [groups_left]
    show [snap rot (gridDir rot x y)] = _
    rw [snap_self rot x y hr]
    have : fixWrong x = x - 1 := if_pos (by omega)
    rw [this]
  · intro h
    have := (grid_inj rot x y (x - 1) (fixWrong y) hr.2.2 (congrArg unitOf h).symm).1
    unfold step1 at this
    split_ifs at this <;> omega

/-! ## Building the array -/

/-- **The whole array**: name, position and gain of each position are those of one entry of the table, in order; the distant mini-arrays are there only if asked for. -/
theorem array_rows {P Gn : Type} (table : List (MaEntry P)) (gain : Nat → Gn) (inc : Bool) :
    ∃ s, nenufarNew table gain (some inc) = .ok s ∧
      ∃ es : List (MaEntry P), es = table.filter (fun e => inc || !(e.name.startsWith "MA1")) ∧ s.names = es.map MaEntry.name ∧ s.pos = es.map MaEntry.pos ∧
        s.gains = (es.map fun e => gain e.id) ∧ s.weights = List.replicate es.length 1 ∧ s.delays = List.replicate es.length 0 := by
  have key : ∀ {α : Type} (g : MaEntry P → α), pick (fun i => inc || !((table.map MaEntry.name)[i]?.any fun s => s.startsWith "MA1")) (table.map g) =
      (table.filter (fun e => inc || !(e.name.startsWith "MA1"))).map g := by
    intro α g
    have h1 : ∀ (l : List (MaEntry P)) (m : Nat → Bool) (k : Nat), pickFrom m k (l.map g) = (pickFrom m k l).map g := by
      intro l m
      induction l with
      | nil => intro k; rfl
      | cons e l ih =>
        intro k
        show (if m k then g e :: pickFrom m (k + 1) (l.map g) else pickFrom m (k + 1) (l.map g)) =
          (if m k then e :: pickFrom m (k + 1) l else pickFrom m (k + 1) l).map g
        split_ifs
        · rw [ih, List.map_cons]
        · exact ih _
    unfold pick
    rw [h1]
    congr 1
    refine pickFrom_filter _ _ table 0 fun i e he => ?_
    rw [Nat.zero_add, List.getElem?_map, he]
    rfl
  refine ⟨_, rfl, _, rfl, key _, key _, key _, ?_, ?_⟩
  · show List.replicate (pick _ (table.map MaEntry.pos)).length 1 = _
    rw [key, List.length_map]
  · show List.replicate (pick _ (table.map MaEntry.pos)).length 0 = _
    rw [key, List.length_map]

/-- Only booleans are accepted. -/
theorem array_remote_checked {P Gn : Type} (table : List (MaEntry P)) (gain : Nat → Gn) : nenufarNew table gain none = .error .typeError := rfl

/-- Rotations follow the names, for all sub-arrays. -/
theorem rotations_follow {P Gn : Type} (table : List (MaEntry P)) (hn : (table.map MaEntry.name).Nodup) (s : Interf P Gn) (i : Nat) (e : MaEntry P) (he : e ∈ table)
    (hi : s.names[i]? = some e.name) : (rotationsOf table s)[i]? = some (some e.rot) := by
  unfold rotationsOf
  rw [List.getElem?_map, hi]
  show some ((table.find? fun e' => decide (e'.name = e.name)).map MaEntry.rot) = _
  have : table.find? (fun e' => decide (e'.name = e.name)) = some e := by
    induction table with
    | nil => exact absurd he (by simp)
    | cons a l ih =>
      rw [List.map_cons, List.nodup_cons] at hn
      by_cases ha : a.name = e.name
      · rcases List.mem_cons.1 he with rfl | h2
        · rw [List.find?_cons_of_pos (by simp)]
        · exact absurd (List.mem_map.2 ⟨e, h2, rfl⟩) (ha ▸ hn.1)
      · rw [List.find?_cons_of_neg (by simpa using ha)]
        rcases List.mem_cons.1 he with rfl | h2
        · exact absurd rfl ha
        · exact ih hn.2 h2
  rw [this]
  rfl

example : ∃ s, nenufarNew [(⟨"MA000", 0, 5, 0⟩ : MaEntry Nat), ⟨"MA100", 100, 6, 10⟩] (fun n => n + 1) (some false) = .ok s ∧ s.names = ["MA000"] ∧ s.gains = [1] :=
  ⟨_, rfl, by decide +kernel, by decide +kernel⟩

end Verif.Instru
