import Verif.Instru.Radio
import Mathlib.Data.List.GetD
import Mathlib.Analysis.SpecialFunctions.Trigonometric.Basic

/-!
# Noise of an array, resolution and confusion (C118)
-/

namespace Verif.Instru

/-! ## Specification -/

/-- An array whose effective area is seen in projection from lower elevations. -/
def IsDish (a : Dish) : Prop := ∃ top : ℝ → ℝ, (∀ f, 0 < f → 0 < top f) ∧ ∀ f e, a.area f e = top f * Real.sin e

/-- A usable table: frequencies which increase, as many gains, none negative. -/
def IsTable (t : List ℝ × List ℝ) : Prop :=
  t.1 ≠ [] ∧ t.1.length = t.2.length ∧ t.1.Pairwise (· < ·) ∧ ∀ g ∈ t.2, 0 ≤ g

def IsLna (l : Lna) : Prop := IsTable l.noFilter ∧ IsTable l.filter25

/-- The documented flux density: `ξ 2k T / (η A(ν, θ))`, where the temperature `T` is that of the sky, of the instrument and of
the sources through the same area `η A(ν, θ)`. -/
noncomputable def documentedSefd (a : Dish) (inst : ℝ) (sources : List (ℝ → ℝ)) (η ξ elev f : ℝ) : ℝ :=
  ξ * 2 * (skyTemp f + inst + (sources.map fun s => s f * (η * a.area f elev) / 2).sum) / (η * a.area f elev)

/-! ## Interpolation -/

theorem takeWhile_count {α : Type} (p : α → Bool) (l : List α) (i : Nat) (h : i < l.length)
    (h1 : ∀ j (hj : j < l.length), j ≤ i → p l[j] = true) (h2 : ∀ hj : i + 1 < l.length, p l[i + 1] = false) :
    (l.takeWhile p).length = i + 1 := by
  induction l generalizing i with
  | nil => simp at h
  | cons a l ih =>
    have ha : p a = true := h1 0 (by simp) (by omega)
    rw [List.takeWhile_cons_of_pos ha, List.length_cons]
    cases i with
    | zero =>
      cases l with
      | nil => simp
      | cons b l =>
        have : p b = false := h2 (by simp)
        rw [List.takeWhile_cons_of_neg (by simp [this])]
        simp
    | succ i =>
      rw [ih i (by simpa using h)]
      · intro j hj hji
        exact h1 (j + 1) (by simpa using hj) (by omega)
      · intro hj
        exact h2 (by simpa using hj)

theorem step_at (xs : List ℝ) (hs : xs.Pairwise (· < ·)) (x : ℝ) (i : Nat) (h : i + 1 < xs.length)
    (h1 : xs[i] ≤ x) (h2 : x < xs[i + 1]) : stepBelow xs x = i := by
  unfold stepBelow
  rw [takeWhile_count _ xs i (by omega)]
  · omega
  · intro j hj hji
    rw [decide_eq_true_iff]
    rcases Nat.lt_or_eq_of_le hji with hlt | rfl
    · exact ((List.pairwise_iff_getElem.1 hs j i hj (by omega) hlt).le).trans h1
    · exact h1
  · intro _
    rw [decide_eq_false_iff_not, not_le]
    exact h2

/-- **C118.** Between two neighbouring abscissas the interpolation follows the segment between their values. -/
theorem interp_segment (xs ys : List ℝ) (hs : xs.Pairwise (· < ·)) (hl : xs.length = ys.length) (i : Nat)
    (h : i + 1 < xs.length) (t : ℝ) (h0 : 0 ≤ t) (h1 : t ≤ 1) :
    npInterp xs ys ((1 - t) * xs[i] + t * xs[i + 1]) = (1 - t) * (ys[i]'(by omega)) + t * (ys[i + 1]'(by omega)) := by
  have lt : xs[i] < xs[i + 1] := List.pairwise_iff_getElem.1 hs i (i + 1) (by omega) h (by omega)
  generalize hx : (1 - t) * xs[i] + t * xs[i + 1] = x
  have b1 : xs[i] ≤ x := by nlinarith
  have b2 : x ≤ xs[i + 1] := by nlinarith
  have hd : xs.headD 0 = xs[0] := by
    cases xs with
    | nil => simp at h
    | cons a l => rfl
  have hdy : ys.headD 0 = ys[0]'(by omega) := by
    cases ys with
    | nil => simp at hl; subst hl; simp at h
    | cons a l => rfl
  have hla : xs.getLastD 0 = xs[xs.length - 1] := by
    have : xs ≠ [] := by rintro rfl; simp at h
    rw [List.getLastD_eq_getLast?, List.getLast?_eq_some_getLast this, Option.getD_some, List.getLast_eq_getElem]
  have hlay : ys.getLastD 0 = ys[ys.length - 1]'(by omega) := by
    have : ys ≠ [] := by rintro rfl; simp at hl; subst hl; simp at h
    rw [List.getLastD_eq_getLast?, List.getLast?_eq_some_getLast this, Option.getD_some, List.getLast_eq_getElem]
  have mono : ∀ j k (hj : j < xs.length) (hk : k < xs.length), j < k → xs[j] < xs[k] :=
    fun j k hj hk hjk => List.pairwise_iff_getElem.1 hs j k hj hk hjk
  unfold npInterp
  rw [hd, hdy, hla, hlay]
  by_cases c1 : x ≤ xs[0]
  · rw [if_pos c1]
    have i0 : i = 0 := by
      by_contra hi
      have := mono 0 i (by omega) (by omega) (by omega)
      linarith
    subst i0
    have : t * (xs[0 + 1] - xs[0]) = 0 := by nlinarith
    have : t = 0 := by
      rcases mul_eq_zero.1 this with h | h
      · exact h
      · linarith
    subst this
    simp
  rw [if_neg c1]
  by_cases c2 : xs[xs.length - 1] ≤ x
  · rw [if_pos c2]
    have i0 : i + 1 = xs.length - 1 := by
      by_contra hi
      have := mono (i + 1) (xs.length - 1) (by omega) (by omega) (by omega)
      linarith
    have e1 : xs[xs.length - 1] = xs[i + 1] := by congr 1; omega
    have e2 : ys[ys.length - 1]'(by omega) = ys[i + 1]'(by omega) := by congr 1; omega
    rw [e1] at c2
    rw [e2]
    have : (1 - t) * (xs[i + 1] - xs[i]) = 0 := by nlinarith
    have : 1 - t = 0 := by
      rcases mul_eq_zero.1 this with h | h
      · exact h
      · linarith
    have ht : t = 1 := by linarith
    subst ht
    simp
  rw [if_neg c2]
  rcases lt_or_eq_of_le b2 with b2 | b2
  · rw [step_at xs hs x i h b1 b2]
    unfold onSegment
    rw [List.getD_eq_getElem _ _ (by omega), List.getD_eq_getElem _ _ (by omega), List.getD_eq_getElem _ _ (by omega),
      List.getD_eq_getElem _ _ (by omega)]
    have hne : xs[i + 1] - xs[i] ≠ 0 := by linarith
    rw [← hx]
    field_simp
    ring
  · have hi : i + 1 ≠ xs.length - 1 := by
      intro hi
      apply c2
      have e1 : xs[xs.length - 1] = xs[i + 1] := by congr 1; omega
      rw [e1, b2]
    have hlt2 : x < xs[i + 2]'(by omega) := by
      rw [b2]
      exact mono (i + 1) (i + 2) (by omega) (by omega) (by omega)
    rw [step_at xs hs x (i + 1) (by omega) b2.ge hlt2]
    unfold onSegment
    rw [List.getD_eq_getElem _ _ (by omega), List.getD_eq_getElem _ _ (by omega), List.getD_eq_getElem _ _ (by omega),
      List.getD_eq_getElem _ _ (by omega)]
    have : (1 - t) * (xs[i + 1] - xs[i]) = 0 := by nlinarith
    have : 1 - t = 0 := by
      rcases mul_eq_zero.1 this with h | h
      · exact h
      · linarith
    have ht : t = 1 := by linarith
    subst ht
    rw [b2]
    simp

/-- Every point within the abscissas is on a segment. -/
theorem between_exists (xs : List ℝ) (hs : xs.Pairwise (· < ·)) (x : ℝ) (hne : xs ≠ []) (h1 : xs.headD 0 < x)
    (h2 : x < xs.getLastD 0) : ∃ (i : Nat) (_ : i + 1 < xs.length), xs[i] ≤ x ∧ x ≤ xs[i + 1] := by
  induction xs with
  | nil => exact absurd rfl hne
  | cons a l ih =>
    cases l with
    | nil => simp at h1 h2; linarith
    | cons b l =>
      simp only [List.headD_cons] at h1
      by_cases hb : x ≤ b
      · exact ⟨0, by simp, h1.le, hb⟩
      · push Not at hb
        obtain ⟨i, hi, h3, h4⟩ := ih (List.pairwise_cons.1 hs).2 (by simp) (by simpa using hb) (by simpa using h2)
        exact ⟨i + 1, by simpa using hi, h3, h4⟩

/-- **C118.** The interpolation stays between the values of the table, and is constant out of it. -/
theorem interp_range (xs ys : List ℝ) (hs : xs.Pairwise (· < ·)) (hl : xs.length = ys.length) (hne : xs ≠ []) (x lo hi : ℝ)
    (hy : ∀ y ∈ ys, lo ≤ y ∧ y ≤ hi) :
    (lo ≤ npInterp xs ys x ∧ npInterp xs ys x ≤ hi) ∧ (x ≤ xs.headD 0 → npInterp xs ys x = ys.headD 0) ∧
    (xs.getLastD 0 ≤ x → npInterp xs ys x = ys.getLastD 0) := by
  have yne : ys ≠ [] := by
    rintro rfl
    simp at hl
    exact hne hl
  have hh : ys.headD 0 ∈ ys := by
    cases ys with
    | nil => exact absurd rfl yne
    | cons a l => simp
  have hlast : ys.getLastD 0 ∈ ys := by
    rw [List.getLastD_eq_getLast?, List.getLast?_eq_some_getLast yne, Option.getD_some]
    exact List.getLast_mem yne
  refine ⟨?_, fun h => by unfold npInterp; rw [if_pos h], ?_⟩
  · by_cases c1 : x ≤ xs.headD 0
    · have : npInterp xs ys x = ys.headD 0 := by unfold npInterp; rw [if_pos c1]
      rw [this]; exact hy _ hh
    by_cases c2 : xs.getLastD 0 ≤ x
    · have : npInterp xs ys x = ys.getLastD 0 := by unfold npInterp; rw [if_neg c1, if_pos c2]
      rw [this]; exact hy _ hlast
    push Not at c1 c2
    obtain ⟨i, hi', h3, h4⟩ := between_exists xs hs x hne c1 c2
    have lt : xs[i] < xs[i + 1] := List.pairwise_iff_getElem.1 hs i (i + 1) (by omega) hi' (by omega)
    have d : 0 < xs[i + 1] - xs[i] := by linarith
    have t0 : 0 ≤ (x - xs[i]) / (xs[i + 1] - xs[i]) := div_nonneg (by linarith) d.le
    have t1 : (x - xs[i]) / (xs[i + 1] - xs[i]) ≤ 1 := by rw [div_le_one d]; linarith
    have hseg := interp_segment xs ys hs hl i hi' _ t0 t1
    have ex : (1 - (x - xs[i]) / (xs[i + 1] - xs[i])) * xs[i] + (x - xs[i]) / (xs[i + 1] - xs[i]) * xs[i + 1] = x := by
      field_simp
      ring
    rw [ex] at hseg
    rw [hseg]
    have y1 := hy _ (List.getElem_mem (show i < ys.length by omega))
    have y2 := hy _ (List.getElem_mem (show i + 1 < ys.length by omega))
    generalize (x - xs[i]) / (xs[i + 1] - xs[i]) = t at t0 t1
    constructor <;> nlinarith
  · intro h
    by_cases c1 : x ≤ xs.headD 0
    · -- one abscissa only
      have : npInterp xs ys x = ys.headD 0 := by unfold npInterp; rw [if_pos c1]
      rw [this]
      have one : xs.length = 1 := by
        by_contra hlen
        have h0 : 0 < xs.length := List.length_pos_iff.2 hne
        have lt : xs[0] < xs[xs.length - 1] := List.pairwise_iff_getElem.1 hs 0 _ h0 (by omega) (by omega)
        have e0 : xs.headD 0 = xs[0] := by
          cases xs with
          | nil => exact absurd rfl hne
          | cons a l => rfl
        have el : xs.getLastD 0 = xs[xs.length - 1] := by
          rw [List.getLastD_eq_getLast?, List.getLast?_eq_some_getLast hne, Option.getD_some, List.getLast_eq_getElem]
        rw [e0] at c1
        rw [el] at h
        linarith
      rw [hl] at one
      obtain ⟨y, rfl⟩ := List.length_eq_one_iff.1 one
      rfl
    · unfold npInterp
      rw [if_neg c1, if_pos h]

/-! ## Temperatures -/

theorem wave_pos (f : ℝ) (h : 0 < f) : 0 < waveOf f := by unfold waveOf; positivity

theorem sky_pos (f : ℝ) (h : 0 < f) : 0 < skyTemp f := by
  unfold skyTemp
  have := Real.rpow_pos_of_pos (wave_pos f h) (255 / 100)
  positivity

/-- **C118.** The sky gets colder with frequency, by a factor given by the ratio of frequencies alone. -/
theorem sky_scaling (f r : ℝ) (hf : 0 < f) (hr : 0 < r) :
    skyTemp (r * f) = skyTemp f / r ^ (255 / 100 : ℝ) ∧ (1 < r → skyTemp (r * f) < skyTemp f) := by
  have e : skyTemp (r * f) = skyTemp f / r ^ (255 / 100 : ℝ) := by
    unfold skyTemp
    have : waveOf (r * f) = waveOf f / r := by unfold waveOf; field_simp
    rw [this, Real.div_rpow (wave_pos f hf).le hr.le]
    ring
  refine ⟨e, fun h1 => ?_⟩
  rw [e]
  exact div_lt_self (sky_pos f hf) (Real.one_lt_rpow h1 (by norm_num))

/-- **C118.** The temperature of the instrument is between those given by the smallest and the largest gain of the table of the
filter; filters other than 0 and 3 are refused. -/
theorem inst_range (l : Lna) (hl : IsLna l) (f lo hi : ℝ) (hf : 0 < f) :
    (∀ k t, (k = 0 ∧ t = l.noFilter) ∨ (k = 3 ∧ t = l.filter25) → (∀ y ∈ t.2, lo ≤ y ∧ y ≤ hi) →
      ∃ T, instTemp l k f = .ok T ∧ 0 ≤ T ∧ lo * skyTemp f ≤ T ∧ T ≤ hi * skyTemp f) ∧
    ∀ k, k ≠ 0 → k ≠ 3 → instTemp l k f = .error .keyError := by
  have hs := sky_pos f hf
  constructor
  · intro k t hk hy
    have ht : l.table k = .ok t ∧ IsTable t := by
      rcases hk with ⟨rfl, rfl⟩ | ⟨rfl, rfl⟩
      · exact ⟨rfl, hl.1⟩
      · exact ⟨rfl, hl.2⟩
    obtain ⟨h1, h2, h3, h4, h5⟩ := ht
    refine ⟨skyTemp f * npInterp t.1 t.2 f, ?_, ?_, ?_⟩
    · unfold instTemp
      rw [h1]
      rfl
    · by_cases hb : ∃ b, ∀ y ∈ t.2, 0 ≤ y ∧ y ≤ b
      · obtain ⟨b, hb⟩ := hb
        exact mul_nonneg hs.le (interp_range t.1 t.2 h4 h3 h2 f 0 b hb).1.1
      · exact absurd ⟨hi, fun y hy' => ⟨h5 y hy', (hy y hy').2⟩⟩ hb
    · have := (interp_range t.1 t.2 h4 h3 h2 f lo hi hy).1
      constructor <;> nlinarith
  · intro k h0 h3
    unfold instTemp Lna.table
    rw [if_neg h0, if_neg h3]
    rfl

/-! ## Flux density -/

theorem inst_ok (l : Lna) (hl : IsLna l) (k : ℤ) (hk : k = 0 ∨ k = 3) (f : ℝ) (hf : 0 < f) :
    ∃ T, instTemp l k f = .ok T ∧ 0 ≤ T := by
  have top : ∀ ys : List ℝ, ∃ hi, ∀ y ∈ ys, y ≤ hi := by
    intro ys
    induction ys with
    | nil => exact ⟨0, by simp⟩
    | cons a l ih =>
      obtain ⟨b, hb⟩ := ih
      refine ⟨max a b, ?_⟩
      intro y hy
      rcases List.mem_cons.1 hy with rfl | hy
      · exact le_max_left _ _
      · exact (hb y hy).trans (le_max_right _ _)
  rcases hk with rfl | rfl
  · obtain ⟨hi, hhi⟩ := top l.noFilter.2
    obtain ⟨T, h1, h2, -⟩ := (inst_range l hl f 0 hi hf).1 0 l.noFilter (Or.inl ⟨rfl, rfl⟩)
      fun y hy => ⟨hl.1.2.2.2 y hy, hhi y hy⟩
    exact ⟨T, h1, h2⟩
  · obtain ⟨hi, hhi⟩ := top l.filter25.2
    obtain ⟨T, h1, h2, -⟩ := (inst_range l hl f 0 hi hf).1 3 l.filter25 (Or.inr ⟨rfl, rfl⟩)
      fun y hy => ⟨hl.2.2.2.2 y hy, hhi y hy⟩
    exact ⟨T, h1, h2⟩

/-- **C118.** The system temperature is the sum of those of the sky, of the instrument, and of each source through the
effective area reduced by the efficiency at the elevation. -/
theorem sys_exact (a : Dish) (l : Lna) (k : ℤ) (sources : List (ℝ → ℝ)) (η elev f inst : ℝ)
    (hi : instTemp l k f = .ok inst) :
    sysTemp a l k sources η elev f =
      .ok (skyTemp f + inst + (sources.map fun s => s f * (η * a.area f elev) / 2).sum) := by
  unfold sysTemp
  rw [hi]
  have e : srcTemp a sources η elev f = (sources.map fun s => s f * (η * a.area f elev) / 2).sum := by
    unfold srcTemp
    congr 1
    apply List.map_congr_left
    intro s _
    ring
  rw [← e]
  rfl

theorem sefd_eq (a : Dish) (l : Lna) (k : ℤ) (sources : List (ℝ → ℝ)) (η ξ elev f inst : ℝ)
    (hi : instTemp l k f = .ok inst) (ha : η * a.area f elev ≠ 0) :
    sefd a l k sources η ξ elev f = .ok (some (ξ * 2 * (skyTemp f + inst +
      (sources.map fun s => s f * (1 * a.area f (Real.pi / 2)) / 2).sum) / (η * a.area f elev))) := by
  unfold sefd
  rw [sys_exact a l k sources 1 _ f inst hi]
  show Except.ok (over _ _) = _
  unfold over
  rw [if_neg ha]

/-- **C118.** The flux density is the documented one without any source, or at the zenith with full efficiency. -/
theorem sefd_partial (a : Dish) (l : Lna) (k : ℤ) (sources : List (ℝ → ℝ)) (η ξ elev f inst : ℝ)
    (hi : instTemp l k f = .ok inst) (ha : η * a.area f elev ≠ 0) (h : sources = [] ∨ (η = 1 ∧ elev = Real.pi / 2)) :
    sefd a l k sources η ξ elev f = .ok (some (documentedSefd a inst sources η ξ elev f)) := by
  rw [sefd_eq a l k sources η ξ elev f inst hi ha]
  unfold documentedSefd
  rcases h with rfl | ⟨rfl, rfl⟩
  · simp
  · rfl

/-- **C118.** With a source, an efficiency below 1 or an elevation under the zenith, the flux density is always above the
documented one. -/
theorem sefd_source_violated (a : Dish) (ha : IsDish a) (l : Lna) (k : ℤ) (s : ℝ → ℝ) (η ξ elev f inst : ℝ)
    (hi : instTemp l k f = .ok inst) (hf : 0 < f) (hs : 0 < s f) (hη : 0 < η) (hη1 : η ≤ 1) (hξ : 0 < ξ) (he : 0 < elev)
    (he1 : elev ≤ Real.pi / 2) (h : η < 1 ∨ elev < Real.pi / 2) :
    ∃ x, sefd a l k [s] η ξ elev f = .ok (some x) ∧ documentedSefd a inst [s] η ξ elev f < x := by
  obtain ⟨top, h1, h2⟩ := ha
  have hpi := Real.pi_pos
  have t := h1 f hf
  have s0 : 0 < Real.sin elev := Real.sin_pos_of_pos_of_lt_pi he (by linarith)
  have s1 : Real.sin elev ≤ 1 := Real.sin_le_one elev
  have ap : 0 < a.area f elev := by rw [h2]; positivity
  have az : a.area f (Real.pi / 2) = top f := by rw [h2, Real.sin_pi_div_two, mul_one]
  have ne : η * a.area f elev ≠ 0 := by positivity
  refine ⟨_, sefd_eq a l k [s] η ξ elev f inst hi ne, ?_⟩
  unfold documentedSefd
  apply div_lt_div_of_pos_right _ (by positivity)
  apply mul_lt_mul_of_pos_left _ (by positivity)
  simp only [List.map_cons, List.map_nil, List.sum_cons, List.sum_nil]
  have key : η * a.area f elev < 1 * a.area f (Real.pi / 2) := by
    rw [az, h2, one_mul]
    rcases h with h | h
    · nlinarith [mul_pos t s0]
    · have : Real.sin elev < 1 := by
        rw [← Real.sin_pi_div_two]
        exact Real.sin_lt_sin_of_lt_of_le_pi_div_two (by linarith) le_rfl h
      have : top f * Real.sin elev < top f := by nlinarith
      nlinarith [mul_pos t s0]
  nlinarith

/-- **C118.** Without source, the flux density grows when the elevation goes down from the zenith to the horizon. -/
theorem sefd_elevation (a : Dish) (ha : IsDish a) (l : Lna) (hl : IsLna l) (k : ℤ) (hk : k = 0 ∨ k = 3) (η ξ e e' f : ℝ)
    (hf : 0 < f) (hη : 0 < η) (hξ : 0 < ξ) (he : 0 < e) (hee : e < e') (he1 : e' ≤ Real.pi / 2) :
    ∃ x y, sefd a l k [] η ξ e f = .ok (some x) ∧ sefd a l k [] η ξ e' f = .ok (some y) ∧ 0 < y ∧ y < x ∧
      x * Real.sin e = y * Real.sin e' := by
  obtain ⟨top, h1, h2⟩ := ha
  have hpi := Real.pi_pos
  have t := h1 f hf
  obtain ⟨T, hT, hT0⟩ := inst_ok l hl k hk f hf
  have s0 : 0 < Real.sin e := Real.sin_pos_of_pos_of_lt_pi he (by linarith)
  have s1 : Real.sin e < Real.sin e' := Real.sin_lt_sin_of_lt_of_le_pi_div_two (by linarith) he1 hee
  have s2 : 0 < Real.sin e' := s0.trans s1
  have hsky := sky_pos f hf
  have n1 : η * a.area f e ≠ 0 := by rw [h2]; positivity
  have n2 : η * a.area f e' ≠ 0 := by rw [h2]; positivity
  refine ⟨_, _, sefd_eq a l k [] η ξ e f T hT n1, sefd_eq a l k [] η ξ e' f T hT n2, ?_, ?_, ?_⟩
  · simp only [h2, List.map_nil, List.sum_nil, add_zero]
    positivity
  · simp only [h2, List.map_nil, List.sum_nil, add_zero]
    apply div_lt_div_of_pos_left
    · positivity
    · positivity
    · apply mul_lt_mul_of_pos_left _ hη
      exact mul_lt_mul_of_pos_left s1 t
  · simp only [h2, List.map_nil, List.sum_nil, add_zero]
    have m0 := t.ne'
    have m1 := s0.ne'
    have m2 := s2.ne'
    generalize Real.sin e = p at *
    generalize Real.sin e' = q at *
    field_simp

/-- **C118.** Below the horizon the flux density is negative, and nothing is refused. -/
theorem below_horizon_violated (a : Dish) (ha : IsDish a) (l : Lna) (hl : IsLna l) (k : ℤ) (hk : k = 0 ∨ k = 3)
    (η ξ e f : ℝ) (hf : 0 < f) (hη : 0 < η) (hξ : 0 < ξ) (he : e < 0) (he1 : -(Real.pi / 2) ≤ e) :
    ∃ x, sefd a l k [] η ξ e f = .ok (some x) ∧ x < 0 := by
  obtain ⟨top, h1, h2⟩ := ha
  have hpi := Real.pi_pos
  have t := h1 f hf
  obtain ⟨T, hT, hT0⟩ := inst_ok l hl k hk f hf
  have s0 : Real.sin e < 0 := Real.sin_neg_of_neg_of_neg_pi_lt he (by linarith)
  have hsky := sky_pos f hf
  have ng : η * a.area f e < 0 := by
    rw [h2]
    exact mul_neg_of_pos_of_neg hη (mul_neg_of_pos_of_neg t s0)
  refine ⟨_, sefd_eq a l k [] η ξ e f T hT ng.ne, ?_⟩
  simp only [List.map_nil, List.sum_nil, add_zero]
  exact div_neg_of_pos_of_neg (by positivity) ng

/-! ## Sensitivity -/

/-- **C118.** The noise of a beam is the flux density over the square root of twice the product of duration and bandwidth: it
is halved by an integration four times longer, or a bandwidth four times larger, and proportional to the decoherence. -/
theorem beam_noise (a : Dish) (l : Lna) (k : ℤ) (sources : List (ℝ → ℝ)) (dt df η ξ e f x : ℝ) (ht : 0 < dt) (hd : 0 < df)
    (hx : sefd a l k sources η ξ e f = .ok (some x)) :
    sensitivity a l k sources .beamforming dt df η ξ e f = .ok (some (x / √(2 * dt * df))) ∧
    sensitivity a l k sources .beamforming (4 * dt) df η ξ e f = .ok (some (x / √(2 * dt * df) / 2)) ∧
    sensitivity a l k sources .beamforming dt (4 * df) η ξ e f = .ok (some (x / √(2 * dt * df) / 2)) := by
  have pos : √(2 * dt * df) ≠ 0 := by positivity
  have four : √(4 * (2 * dt * df)) = 2 * √(2 * dt * df) := by
    rw [Real.sqrt_mul (by norm_num), show (4 : ℝ) = 2 ^ 2 by norm_num, Real.sqrt_sq (by norm_num)]
  have e1 : 2 * (4 * dt) * df = 4 * (2 * dt * df) := by ring
  have e2 : 2 * dt * (4 * df) = 4 * (2 * dt * df) := by ring
  refine ⟨?_, ?_, ?_⟩
  · unfold sensitivity
    rw [hx]
    simp [Except.bind, over, pos]
  · unfold sensitivity
    rw [hx, e1, four]
    simp only [Except.bind, over, reduceCtorEq, if_false, if_true, Option.bind_some]
    rw [if_neg (by positivity)]
    congr 2
    field_simp
  · unfold sensitivity
    rw [hx, e2, four]
    simp only [Except.bind, over, reduceCtorEq, if_false, if_true, Option.bind_some]
    rw [if_neg (by positivity)]
    congr 2
    field_simp

/-- **C118.** In images the noise is that of the beam over the square root of the number of ordered pairs of antennas; one
antenna has no finite noise, and an unknown mode is refused. -/
theorem image_noise (a : Dish) (l : Lna) (k : ℤ) (sources : List (ℝ → ℝ)) (dt df η ξ e f x : ℝ) (ht : 0 < dt) (hd : 0 < df)
    (hx : sefd a l k sources η ξ e f = .ok (some x)) :
    (2 ≤ a.size → ∃ b, sensitivity a l k sources .beamforming dt df η ξ e f = .ok (some b) ∧
      sensitivity a l k sources .imaging dt df η ξ e f = .ok (some (b / √((a.size : ℝ) * (a.size - 1))))) ∧
    (a.size = 1 → sensitivity a l k sources .imaging dt df η ξ e f = .ok none) ∧
    sensitivity a l k sources .other dt df η ξ e f = .error .valueError := by
  refine ⟨fun h2 => ⟨_, (beam_noise a l k sources dt df η ξ e f x ht hd hx).1, ?_⟩, fun h1 => ?_, ?_⟩
  · unfold sensitivity
    rw [hx]
    have hn : (2 : ℝ) ≤ a.size := by exact_mod_cast h2
    have hp : 0 < (a.size : ℝ) * (a.size - 1) := by nlinarith
    have e1 : (a.size : ℝ) * (a.size - 1) * 2 * dt * df = (a.size : ℝ) * (a.size - 1) * (2 * dt * df) := by ring
    rw [e1, Real.sqrt_mul hp.le]
    simp only [Except.bind, over, if_true, Option.bind_some]
    rw [if_neg (by positivity)]
    congr 2
    have p1 : √((a.size : ℝ) * (a.size - 1)) ≠ 0 := by positivity
    have p2 : √(2 * dt * df) ≠ 0 := by positivity
    field_simp
  · unfold sensitivity
    rw [hx, h1]
    simp [Except.bind, over]
  · unfold sensitivity
    rw [hx]
    rfl

/-- **C118.** For arrays of `n` antennas of the same area, whose area is the sum, the noise of a beam is `n` times below that
of one antenna, but the noise of an image is below that of the coherent beam of the same antennas, by a factor which grows as
their number: the formula holds with the flux density of one antenna, and the one used is that of the whole array. -/
theorem image_below_beam_violated (a one : Dish) (l : Lna) (k : ℤ) (dt df η ξ e f x : ℝ) (ht : 0 < dt)
    (hd : 0 < df) (h2 : 2 ≤ a.size) (ha : a.area f e = a.size * one.area f e) (hx0 : 0 < x)
    (hx : sefd one l k [] η ξ e f = .ok (some x)) :
    ∃ b i o, sensitivity a l k [] .beamforming dt df η ξ e f = .ok (some b) ∧
      sensitivity a l k [] .imaging dt df η ξ e f = .ok (some i) ∧
      sensitivity one l k [] .beamforming dt df η ξ e f = .ok (some o) ∧ o = a.size * b ∧
      0 < i ∧ i * (a.size - 1) < b := by
  have hn : (2 : ℝ) ≤ a.size := by exact_mod_cast h2
  have hp : 0 < (a.size : ℝ) * (a.size - 1) := by nlinarith
  have hn0 : (a.size : ℝ) ≠ 0 := by linarith
  cases hT : instTemp l k f with
  | error err =>
    unfold sefd sysTemp at hx
    rw [hT] at hx
    cases hx
  | ok T =>
    have n1 : η * one.area f e ≠ 0 := by
      intro h0
      unfold sefd sysTemp at hx
      rw [hT] at hx
      simp only [Except.map, over, h0, if_true] at hx
      cases hx
    have n2 : η * a.area f e ≠ 0 := by
      rw [ha]
      intro h0
      apply n1
      have : (a.size : ℝ) * (η * one.area f e) = 0 := by linarith
      rcases mul_eq_zero.1 this with h | h
      · exact absurd h hn0
      · exact h
    have s1 := sefd_eq one l k [] η ξ e f T hT n1
    have s2 := sefd_eq a l k [] η ξ e f T hT n2
    rw [s1] at hx
    simp only [List.map_nil, List.sum_nil, add_zero, Except.ok.injEq, Option.some.injEq] at hx s1 s2
    have ea : ξ * 2 * (skyTemp f + T) / (η * a.area f e) = x / a.size := by
      rw [ha, ← hx]
      field_simp
    rw [ea] at s2
    rw [hx] at s1
    have b2 := (beam_noise a l k [] dt df η ξ e f _ ht hd s2).1
    have b1 := (beam_noise one l k [] dt df η ξ e f _ ht hd s1).1
    obtain ⟨b, hb, hi⟩ := (image_noise a l k [] dt df η ξ e f _ ht hd s2).1 h2
    rw [b2] at hb
    simp only [Except.ok.injEq, Option.some.injEq] at hb
    have q : 0 < √(2 * dt * df) := by positivity
    have bp : 0 < b := by rw [← hb]; positivity
    have sq : (a.size : ℝ) - 1 < √((a.size : ℝ) * (a.size - 1)) := by
      apply Real.lt_sqrt_of_sq_lt
      nlinarith
    have sp : 0 < √((a.size : ℝ) * (a.size - 1)) := by positivity
    refine ⟨_, _, _, b2, hi, b1, ?_, by positivity, ?_⟩
    · field_simp
    · rw [hb, div_mul_eq_mul_div, div_lt_iff₀ sp]
      exact mul_lt_mul_of_pos_left sq bp

/-! ## Resolution and confusion -/

theorem foldr_max (l : List ℝ) : 0 ≤ l.foldr max 0 ∧ (∀ x ∈ l, x ≤ l.foldr max 0) ∧
    (l.foldr max 0 = 0 ∨ l.foldr max 0 ∈ l) := by
  induction l with
  | nil => simp
  | cons a l ih =>
    simp only [List.foldr_cons]
    refine ⟨le_max_of_le_right ih.1, ?_, ?_⟩
    · intro x hx
      rcases List.mem_cons.1 hx with rfl | hx
      · exact le_max_left _ _
      · exact (ih.2.1 x hx).trans (le_max_right _ _)
    · rcases max_choice a (l.foldr max 0) with h | h
      · rw [h]; simp
      · rw [h]
        rcases ih.2.2 with h' | h'
        · exact Or.inl h'
        · exact Or.inr (List.mem_cons_of_mem _ h')

/-- **C118.** The longest baseline is the largest distance between two antennas. -/
theorem longest_exact (pos : List (ℝ × ℝ × ℝ)) (hne : pos ≠ []) :
    (∀ p ∈ pos, ∀ q ∈ pos, apart p q ≤ longestOf pos) ∧ ∃ p ∈ pos, ∃ q ∈ pos, longestOf pos = apart p q := by
  obtain ⟨h0, h1, h2⟩ := foldr_max (pos.flatMap fun p => pos.map fun q => apart p q)
  constructor
  · intro p hp q hq
    exact h1 _ (List.mem_flatMap.2 ⟨p, hp, List.mem_map.2 ⟨q, hq, rfl⟩⟩)
  · rcases h2 with h2 | h2
    · obtain ⟨p, hp⟩ := List.exists_mem_of_ne_nil pos hne
      refine ⟨p, hp, p, hp, ?_⟩
      unfold longestOf
      rw [h2]
      simp [apart]
    · obtain ⟨p, hp, h⟩ := List.mem_flatMap.1 h2
      obtain ⟨q, hq, h⟩ := List.mem_map.1 h
      exact ⟨p, hp, q, hq, h.symm⟩

theorem longest_mono (p q : List (ℝ × ℝ × ℝ)) (h : ∀ x ∈ p, x ∈ q) : longestOf p ≤ longestOf q := by
  obtain ⟨h0, h1, h2⟩ := foldr_max (p.flatMap fun a => p.map fun b => apart a b)
  obtain ⟨g0, g1, -⟩ := foldr_max (q.flatMap fun a => q.map fun b => apart a b)
  unfold longestOf
  rcases h2 with h2 | h2
  · rw [h2]; exact g0
  · apply g1
    obtain ⟨a, ha, h2⟩ := List.mem_flatMap.1 h2
    obtain ⟨b, hb, h2⟩ := List.mem_map.1 h2
    exact List.mem_flatMap.2 ⟨a, h a ha, List.mem_map.2 ⟨b, h b hb, h2⟩⟩

/-- **C118.** The resolution is the wavelength over the longest baseline, in degrees: it never gets worse when antennas are
added, and is inversely proportional to the frequency. One antenna is refused. -/
theorem resolution_exact (p q : List (ℝ × ℝ × ℝ)) (area : ℝ → ℝ → ℝ) (f r : ℝ) (hf : 0 < f) (hr : 0 < r)
    (h : ∀ x ∈ p, x ∈ q) (h0 : 0 < longestOf p) :
    ∃ x y, resolution ⟨p.length, area, longestOf p⟩ f = .ok (some x) ∧
      resolution ⟨q.length, area, longestOf q⟩ f = .ok (some y) ∧ 0 < y ∧ y ≤ x ∧
      x * Real.pi / 180 * longestOf p = waveOf f ∧
      resolution ⟨p.length, area, longestOf p⟩ (r * f) = .ok (some (x / r)) := by
  have hpi := Real.pi_pos
  have q0 := lt_of_lt_of_le h0 (longest_mono p q h)
  have one : ∀ l : List (ℝ × ℝ × ℝ), 0 < longestOf l → l.length ≠ 1 := by
    intro l hl h1
    obtain ⟨a, rfl⟩ := List.length_eq_one_iff.1 h1
    simp [longestOf, apart] at hl
  have n1 := one p h0
  have n2 := one q q0
  have w := wave_pos f hf
  have e : ∀ (l : List (ℝ × ℝ × ℝ)) (g : ℝ), 0 < longestOf l → l.length ≠ 1 →
      resolution ⟨l.length, area, longestOf l⟩ g = .ok (some (waveOf g / longestOf l * (180 / Real.pi))) := by
    intro l g hl hn
    unfold resolution over
    rw [if_neg hn, if_neg (show (Dish.mk l.length area (longestOf l)).longest ≠ 0 from hl.ne')]
    rfl
  refine ⟨_, _, e p f h0 n1, e q f q0 n2, by positivity, ?_, ?_, ?_⟩
  · apply mul_le_mul_of_nonneg_right _ (by positivity)
    exact div_le_div_of_nonneg_left w.le h0 (longest_mono p q h)
  · field_simp
  · rw [e p (r * f) h0 n1]
    congr 2
    unfold waveOf
    field_simp

/-- **C118.** One antenna has no resolution, hence no confusion noise. -/
theorem resolution_one (area : ℝ → ℝ → ℝ) (d f : ℝ) (b : Bool) :
    resolution ⟨1, area, d⟩ f = .error .exception ∧ confusion ⟨1, area, d⟩ f b = .error .exception := ⟨rfl, rfl⟩

/-- **C118.** Both confusion noises go down with frequency, as the power -2.24 (or -2.7) of it. -/
theorem confusion_scaling (a : Dish) (f r : ℝ) (hf : 0 < f) (hr : 0 < r) (ha : 0 < a.longest) (hs : a.size ≠ 1) :
    (∃ x, confusion a f true = .ok (some x) ∧ 0 < x ∧ confusion a (r * f) true = .ok (some (x / r ^ (224 / 100 : ℝ)))) ∧
    ∃ x, confusion a f false = .ok (some x) ∧ 0 < x ∧ confusion a (r * f) false = .ok (some (x / r ^ (27 / 10 : ℝ))) := by
  have hpi := Real.pi_pos
  have w := wave_pos f hf
  have e : ∀ g, resolution a g = .ok (some (waveOf g / a.longest * (180 / Real.pi))) := by
    intro g
    unfold resolution over
    rw [if_neg hs, if_neg ha.ne']
    rfl
  have ww : waveOf (r * f) = waveOf f / r := by unfold waveOf; field_simp
  have θp : 0 < waveOf f / a.longest * (180 / Real.pi) := by positivity
  have ec : ∀ g b, confusion a g b = .ok (some (if b then
      30 * (waveOf g / a.longest * (180 / Real.pi) * 3600) ^ (154 / 100 : ℝ) * (g / 74) ^ (-(7 / 10) : ℝ) * (1 / 1000000)
      else 2 / 10 * (g / 1000) ^ (-(7 / 10) : ℝ) * (waveOf g / a.longest * (180 / Real.pi) * 60) ^ (2 : ℝ) * (1 / 1000))) := by
    intro g b
    unfold confusion
    rw [e g]
    rfl
  have ee : waveOf (r * f) / a.longest * (180 / Real.pi) = waveOf f / a.longest * (180 / Real.pi) / r := by
    rw [ww]; field_simp
  generalize hθ : waveOf f / a.longest * (180 / Real.pi) = θ at *
  constructor
  · refine ⟨_, ec f true, ?_, ?_⟩
    · simp only [if_true]
      rw [hθ]
      positivity
    · rw [ec, if_pos rfl, if_pos rfl, ee, hθ]
      congr 2
      rw [show θ / r * 3600 = θ * 3600 / r by ring, Real.div_rpow (by positivity) hr.le,
        show r * f / 74 = r * (f / 74) by ring, Real.mul_rpow hr.le (by positivity),
        show (224 / 100 : ℝ) = 154 / 100 + 7 / 10 by norm_num, Real.rpow_add hr, Real.rpow_neg hr.le]
      field_simp
  · refine ⟨_, ec f false, ?_, ?_⟩
    · simp only [Bool.false_eq_true, if_false]
      rw [hθ]
      positivity
    · rw [ec, if_neg (by decide), if_neg (by decide), ee, hθ]
      congr 2
      rw [show θ / r * 60 = θ * 60 / r by ring, Real.div_rpow (by positivity) hr.le,
        show r * f / 1000 = r * (f / 1000) by ring, Real.mul_rpow hr.le (by positivity),
        show (27 / 10 : ℝ) = 2 + 7 / 10 by norm_num, Real.rpow_add hr, Real.rpow_neg hr.le]
      field_simp

/-! ## The hypotheses can be met -/

noncomputable def someLna : Lna := ⟨([15, 16, 17], [1, 1 / 2, 1 / 4]), ([15, 16], [5, 2])⟩

example : IsLna someLna := by
  refine ⟨⟨by simp [someLna], by simp [someLna], ?_, ?_⟩, ⟨by simp [someLna], by simp [someLna], ?_, ?_⟩⟩
  · simp only [someLna, List.pairwise_cons, List.mem_cons, List.not_mem_nil, or_false]
    norm_num
  · simp only [someLna, List.mem_cons, List.not_mem_nil, or_false]
    rintro g (rfl | rfl | rfl) <;> norm_num
  · simp only [someLna, List.pairwise_cons, List.mem_cons, List.not_mem_nil, or_false]
    norm_num
  · simp only [someLna, List.mem_cons, List.not_mem_nil, or_false]
    rintro g (rfl | rfl) <;> norm_num

example : IsDish ⟨96, fun f e => waveOf f ^ 2 * Real.sin e, 400⟩ :=
  ⟨fun f => waveOf f ^ 2, fun f hf => by have := wave_pos f hf; positivity, fun _ _ => rfl⟩

example : 0 < longestOf [(0, 0, 0), (3, 4, 0)] := by
  have h := (longest_exact [(0, 0, 0), (3, 4, 0)] (by simp)).1 (0, 0, 0) (by simp) (3, 4, 0) (by simp)
  refine lt_of_lt_of_le ?_ h
  unfold apart
  norm_num

end Verif.Instru
