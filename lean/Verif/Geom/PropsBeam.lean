import Verif.Geom.Beam
import Verif.Geom.Props
import Mathlib.LinearAlgebra.Lagrange
import Mathlib.Analysis.Polynomial.Basic
import Mathlib.Tactic.Linarith

/-!
# Beams of arrays and gain of an antenna: property C135
-/

namespace Verif.Geom

open Real

/-! ## Gain of an antenna -/

theorem foldr_max_ge (a : ℝ) : ∀ (l : List ℝ), a ≤ l.foldr max a ∧ ∀ x ∈ l, x ≤ l.foldr max a
  | [] => ⟨le_refl a, fun x hx => by simp at hx⟩
  | y :: l => by
    obtain ⟨h1, h2⟩ := foldr_max_ge a l
    refine ⟨h1.trans (le_max_right _ _), fun x hx => ?_⟩
    rcases List.mem_cons.1 hx with rfl | hx
    · exact le_max_left _ _
    · exact (h2 x hx).trans (le_max_right _ _)

theorem foldr_max_mem (a : ℝ) : ∀ (l : List ℝ), l.foldr max a = a ∨ l.foldr max a ∈ l
  | [] => Or.inl rfl
  | y :: l => by
    show max y (l.foldr max a) = a ∨ max y (l.foldr max a) ∈ y :: l
    rcases le_total y (l.foldr max a) with h | h
    · rw [max_eq_right h]
      rcases foldr_max_mem a l with h2 | h2
      · exact Or.inl h2
      · exact Or.inr (List.mem_cons_of_mem _ h2)
    · rw [max_eq_left h]
      exact Or.inr List.mem_cons_self

/-- The peak is the highest of all the values of the fields. -/
theorem peak_spec (F : GainFile) (l : List Nat) (h : gainValues F l ≠ []) : gainPeak F l ∈ gainValues F l ∧ ∀ x ∈ gainValues F l, x ≤ gainPeak F l := by
  unfold gainPeak
  generalize gainValues F l = v at h
  obtain ⟨a, t, rfl⟩ := List.exists_cons_of_ne_nil h
  refine ⟨?_, ?_⟩
  · rcases foldr_max_mem a t with h2 | h2
    · show List.foldr max a t ∈ a :: t
      rw [h2]
      exact List.mem_cons_self
    · exact List.mem_cons_of_mem _ h2
  · intro x hx
    obtain ⟨h1, h2⟩ := foldr_max_ge a t
    rcases List.mem_cons.1 hx with rfl | hx
    · exact h1
    · exact h2 x hx

theorem mem_gainValues (F : GainFile) (l : List Nat) (x : ℝ) : x ∈ gainValues F l ↔ ∃ i ∈ l, ∃ q, q < F.npix ∧ F.map i q = x := by
  unfold gainValues
  simp only [List.mem_flatMap, List.mem_map, List.mem_range]

/-- The `k`-th field of a polarisation. -/
def IsField (F : GainFile) (pol : String) (i : Nat) (f : ℝ) : Prop := ∃ h : i < F.fields.length, F.fields[i] = (pol, f)

theorem mem_gainFields (F : GainFile) (pol : String) (i : Nat) : i ∈ gainFields F pol ↔ ∃ f, IsField F pol i f := by
  unfold gainFields IsField
  rw [List.mem_filter, List.mem_range]
  constructor
  · rintro ⟨h, h2⟩
    have h3 := of_decide_eq_true h2
    rw [List.getD_eq_getElem _ _ h] at h3
    exact ⟨F.fields[i].2, h, Prod.ext h3 rfl⟩
  · rintro ⟨f, h, h2⟩
    refine ⟨h, decide_eq_true ?_⟩
    rw [List.getD_eq_getElem _ _ h, h2]

/-- A polarisation which is in no field is refused, and only such a one. -/
theorem gain_refused (F : GainFile) (pol : String) : loadGain F pol = .error .exception ↔ ∀ i f, ¬ IsField F pol i f := by
  unfold loadGain
  by_cases h : gainFields F pol = []
  · rw [if_pos h]
    refine ⟨fun _ i f hi => ?_, fun _ => rfl⟩
    have := (mem_gainFields F pol i).2 ⟨f, hi⟩
    rw [h] at this
    simp at this
  · rw [if_neg h]
    constructor
    · intro h2; exact absurd h2 (by simp)
    · intro h2
      obtain ⟨i, hi⟩ := List.exists_mem_of_ne_nil _ h
      obtain ⟨f, hf⟩ := (mem_gainFields F pol i).1 hi
      exact absurd hf (h2 i f)

/-- Interpolation at a node. -/
theorem bary_node (n : Nat) (x y : Nat → ℝ) (hx : ∀ i j, i < n → j < n → x i = x j → i = j) (j : Nat) (hj : j < n) : bary n x y (x j) = y j := by
  classical
  unfold bary
  have hs : ((List.range n).find? fun k => decide (x j = x k)) = some j := by
    rcases hfind : (List.range n).find? (fun k => decide (x j = x k)) with _ | k
    · have := List.find?_eq_none.1 hfind j (List.mem_range.2 hj)
      simp at this
    · have h1 : x j = x k := by simpa using List.find?_some (p := fun k => decide (x j = x k)) hfind
      have h2 := List.mem_range.1 (List.mem_of_find?_eq_some hfind)
      rw [hx j k hj h2 h1]
  have : ((List.range n).find? fun k => @decide (x j = x k) (Classical.propDecidable _)) = some j := by
    rw [← hs]
  rw [this]
  rfl

/-- It is the polynomial of degree less than the number of nodes which goes through them. -/
theorem bary_lagrange (n : Nat) (hn : 0 < n) (x y : Nat → ℝ) (hx : ∀ i j, i < n → j < n → x i = x j → i = j) (f : ℝ) :
    bary n x y f = Polynomial.eval f (Lagrange.interpolate (Finset.range n) x y) := by
  classical
  have hinj : Set.InjOn x (Finset.range n : Finset Nat) := fun i hi j hj h =>
    hx i j (Finset.mem_range.1 (Finset.mem_coe.1 hi)) (Finset.mem_range.1 (Finset.mem_coe.1 hj)) h
  by_cases h : ∃ j, j < n ∧ f = x j
  · obtain ⟨j, hj, rfl⟩ := h
    rw [bary_node n x y hx j hj, Lagrange.eval_interpolate_at_node _ hinj (Finset.mem_range.2 hj)]
  · push Not at h
    rw [Lagrange.eval_interpolate_not_at_node' _ hinj ⟨0, Finset.mem_range.2 hn⟩ (fun i hi => h i (Finset.mem_range.1 hi))]
    unfold bary
    have : ((List.range n).find? fun k => @decide (f = x k) (Classical.propDecidable _)) = none := by
      rw [List.find?_eq_none]
      intro k hk
      simp only [decide_eq_true_eq]
      exact h k (List.mem_range.1 hk)
    rw [this]
    rfl

/-- **Interpolation of gains**: whatever follows a polynomial of degree less than the number of frequencies of the file is exact at all frequencies. -/
theorem bary_polynomial (n : Nat) (hn : 0 < n) (x : Nat → ℝ) (hx : ∀ i j, i < n → j < n → x i = x j → i = j) (P : Polynomial ℝ) (hP : P.degree < n) (f : ℝ) :
    bary n x (fun k => P.eval (x k)) f = P.eval f := by
  have hinj : Set.InjOn x (Finset.range n : Finset Nat) := fun i hi j hj h =>
    hx i j (Finset.mem_range.1 (Finset.mem_coe.1 hi)) (Finset.mem_range.1 (Finset.mem_coe.1 hj)) h
  rw [bary_lagrange n hn x _ hx, ← Lagrange.eq_interpolate hinj (by rw [Finset.card_range]; exact hP)]

/-- **At a frequency of the file the gain is the recorded one**, over the highest value of all the frequencies of this polarisation: it is at most one, and
reaches one. -/
theorem gain_tabulated (F : GainFile) (pol : String) (i : Nat) (f : ℝ) (hi : IsField F pol i f)
    (hd : ∀ a b fa, IsField F pol a fa → IsField F pol b fa → a = b) (q0 : Nat) (hq0 : q0 < F.npix) :
    ∃ peak, antGain F pol (fun m => m q0) f = .ok (F.map i q0 / peak) ∧ (∀ a fa q, IsField F pol a fa → q < F.npix → F.map a q ≤ peak) ∧
      ∃ a fa q, IsField F pol a fa ∧ q < F.npix ∧ F.map a q = peak := by
  have hmem : i ∈ gainFields F pol := (mem_gainFields F pol i).2 ⟨f, hi⟩
  have hne : gainFields F pol ≠ [] := List.ne_nil_of_mem hmem
  have hv : gainValues F (gainFields F pol) ≠ [] := List.ne_nil_of_mem ((mem_gainValues F _ _).2 ⟨i, hmem, q0, hq0, rfl⟩)
  obtain ⟨hp1, hp2⟩ := peak_spec F _ hv
  have hnd : (gainFields F pol).Nodup := List.nodup_range.filter _
  refine ⟨gainPeak F (gainFields F pol), ?_, ?_, ?_⟩
  · obtain ⟨k, hk, hki⟩ := List.mem_iff_getElem.1 hmem
    have hget : (gainFields F pol).getD k 0 = i := by rw [List.getD_eq_getElem _ _ hk, hki]
    have hfreq : ∀ a fa, IsField F pol a fa → (F.fields.getD a ("", 0)).2 = fa := by
      rintro a fa ⟨h, h2⟩
      rw [List.getD_eq_getElem _ _ h, h2]
    unfold antGain loadGain
    rw [if_neg hne]
    show Except.ok (bary _ _ _ f) = _
    congr 1
    have hx : ∀ a b, a < (gainFields F pol).length → b < (gainFields F pol).length →
        (F.fields.getD ((gainFields F pol).getD a 0) ("", 0)).2 = (F.fields.getD ((gainFields F pol).getD b 0) ("", 0)).2 → a = b := by
      intro a b ha hb hab
      rw [List.getD_eq_getElem _ _ ha, List.getD_eq_getElem _ _ hb] at hab
      obtain ⟨fa, hfa⟩ := (mem_gainFields F pol _).1 (List.getElem_mem ha)
      obtain ⟨fb, hfb⟩ := (mem_gainFields F pol _).1 (List.getElem_mem hb)
      rw [hfreq _ _ hfa, hfreq _ _ hfb] at hab
      subst hab
      exact (List.Nodup.getElem_inj_iff hnd).1 (hd _ _ _ hfa hfb)
    have := bary_node (gainFields F pol).length (fun k => (F.fields.getD ((gainFields F pol).getD k 0) ("", 0)).2)
      (fun k => F.map ((gainFields F pol).getD k 0) q0 / gainPeak F (gainFields F pol)) hx k hk
    simp only [hget, hfreq i f hi] at this
    exact this
  · intro a fa q ha hqn
    exact hp2 _ ((mem_gainValues F _ _).2 ⟨a, (mem_gainFields F pol a).2 ⟨fa, ha⟩, q, hqn, rfl⟩)
  · obtain ⟨a, ha, q, hqn, he⟩ := (mem_gainValues F _ _).1 hp1
    obtain ⟨fa, hfa⟩ := (mem_gainFields F pol a).1 ha
    exact ⟨a, fa, q, hfa, hqn, he⟩

/-- **Violated**: the interpolated gain of a pixel which is not the same at all the frequencies of the file leaves the range from 0 to 1, as far as one wants. -/
theorem gain_outside_violated (n : Nat) (x y : Nat → ℝ) (hx : ∀ i j, i < n → j < n → x i = x j → i = j) (i j : Nat) (hi : i < n) (hj : j < n)
    (hy : y i ≠ y j) (B : ℝ) : ∃ f, B < |bary n x y f| := by
  have hn : 0 < n := by omega
  have hinj : Set.InjOn x (Finset.range n : Finset Nat) := fun i hi j hj h =>
    hx i j (Finset.mem_range.1 (Finset.mem_coe.1 hi)) (Finset.mem_range.1 (Finset.mem_coe.1 hj)) h
  by_contra hno
  push Not at hno
  have hb : Filter.IsBoundedUnder (· ≤ ·) Filter.atTop fun f => |Polynomial.eval f (Lagrange.interpolate (Finset.range n) x y)| :=
    ⟨B, Filter.eventually_map.2 (Filter.Eventually.of_forall fun f => by rw [← bary_lagrange n hn x y hx]; exact hno f)⟩
  have hd := (Polynomial.isBoundedUnder_abs_atTop_iff _).1 hb
  have hc := Polynomial.eq_C_of_degree_le_zero hd
  have e1 := Lagrange.eval_interpolate_at_node y hinj (Finset.mem_coe.2 (Finset.mem_range.2 hi))
  have e2 := Lagrange.eval_interpolate_at_node y hinj (Finset.mem_coe.2 (Finset.mem_range.2 hj))
  rw [hc, Polynomial.eval_C] at e1 e2
  exact hy (e1.symm.trans e2)

/-- **Violated**: also between the frequencies of the file: three equally spaced ones, where the gain is full at the first two and nought at the third. -/
theorem gain_inside_violated (f0 s : ℝ) (hs : 0 < s) :
    bary 3 (fun k => f0 + k * s) (fun k => if k = 2 then 0 else 1) (f0 + s / 2) = 9 / 8 := by
  have hx : ∀ i j : Nat, i < 3 → j < 3 → f0 + (i : ℝ) * s = f0 + (j : ℝ) * s → i = j := by
    intro i j _ _ h
    have : (i : ℝ) * s = (j : ℝ) * s := by linarith
    exact_mod_cast mul_right_cancel₀ hs.ne' this
  set P : Polynomial ℝ := Polynomial.C 1 - Polynomial.C (1 / (2 * s ^ 2)) * ((Polynomial.X - Polynomial.C f0) * (Polynomial.X - Polynomial.C (f0 + s))) with hPdef
  have hdeg : P.degree < 3 := by
    have h1 : ((Polynomial.X - Polynomial.C f0) * (Polynomial.X - Polynomial.C (f0 + s))).degree ≤ 2 := by
      rw [Polynomial.degree_mul, Polynomial.degree_X_sub_C, Polynomial.degree_X_sub_C]
      norm_num
    have h2 : (Polynomial.C (1 / (2 * s ^ 2)) * ((Polynomial.X - Polynomial.C f0) * (Polynomial.X - Polynomial.C (f0 + s)))).degree ≤ 2 :=
      by
      rw [Polynomial.degree_mul]
      calc _ ≤ 0 + (2 : WithBot ℕ) := add_le_add Polynomial.degree_C_le h1
        _ = 2 := zero_add _
    have h3 : (Polynomial.C (1 : ℝ)).degree ≤ 2 := Polynomial.degree_C_le.trans (by norm_num)
    exact lt_of_le_of_lt ((Polynomial.degree_sub_le _ _).trans (max_le h3 h2)) (by norm_num)
  have hval : ∀ f, P.eval f = 1 - 1 / (2 * s ^ 2) * ((f - f0) * (f - (f0 + s))) := by
    intro f
    rw [hPdef]
    simp only [Polynomial.eval_sub, Polynomial.eval_mul, Polynomial.eval_C, Polynomial.eval_X]
  have hyv : ∀ k : Nat, k < 3 → (if k = 2 then (0 : ℝ) else 1) = P.eval (f0 + (k : ℝ) * s) := by
    intro k hk
    rw [hval]
    rcases (by omega : k = 0 ∨ k = 1 ∨ k = 2) with rfl | rfl | rfl
    · simp
    · simp
    · rw [if_pos rfl]; push_cast; field_simp; ring
  rw [bary_lagrange 3 (by norm_num) _ _ hx, Lagrange.interpolate_eq_of_values_eq_on _ (fun k : Nat => P.eval (f0 + (k : ℝ) * s))
    (fun k hk => hyv k (Finset.mem_range.1 hk)), ← bary_lagrange 3 (by norm_num) _ _ hx, bary_polynomial 3 (by norm_num) _ hx P hdeg, hval]
  field_simp
  ring

/-- A file with two polarisations. -/
example : ∃ F : GainFile, IsField F "NW" 1 40 ∧ 0 < F.npix ∧ ∀ a b fa, IsField F "NW" a fa → IsField F "NW" b fa → a = b := by
  refine ⟨⟨[("NE", 30), ("NW", 40)], 1, fun _ _ => 1⟩, ⟨by decide, rfl⟩, by decide, ?_⟩
  rintro a b fa ⟨ha, ea⟩ ⟨hb, eb⟩
  have h1 : a < 2 := ha
  have h2 : b < 2 := hb
  rcases (by omega : a = 0 ∨ a = 1) with rfl | rfl
  · exact absurd (congrArg Prod.fst ea) (by show ("NE" : String) ≠ "NW"; decide)
  · rcases (by omega : b = 0 ∨ b = 1) with rfl | rfl
    · exact absurd (congrArg Prod.fst eb) (by show ("NE" : String) ≠ "NW"; decide)
    · rfl

/-- Polarisations of a sky which are not those of the antennas are silently taken as NW. -/
theorem polarisation_used (pol : String) : (pol = "NE" → polUsed pol = "NE") ∧ (pol ≠ "NE" → polUsed pol = "NW") := by
  unfold polUsed
  constructor
  · rintro rfl; rfl
  · intro h
    by_cases h2 : pol = "NW"
    · rw [h2]; rfl
    · rw [if_neg (not_or.2 ⟨h2, h⟩)]

/-! ## Beams -/

theorem meanAnt_range (n : Nat) (hn : 0 < n) (g : Nat → ℝ) (hg : ∀ i, i < n → 0 ≤ g i ∧ g i ≤ 1) : 0 ≤ meanAnt n g ∧ meanAnt n g ≤ 1 := by
  have hq : (0 : ℝ) < n := by exact_mod_cast hn
  unfold meanAnt
  refine ⟨div_nonneg (Finset.sum_nonneg fun i hi => (hg i (Finset.mem_range.1 hi)).1) hq.le, ?_⟩
  rw [div_le_one hq]
  calc ∑ i ∈ Finset.range n, g i ≤ ∑ i ∈ Finset.range n, (1 : ℝ) := Finset.sum_le_sum fun i hi => (hg i (Finset.mem_range.1 hi)).2
    _ = n := by simp

/-- **Range of beams**: from 0 to 1 for weights and gains from 0 to 1; in the pointed direction, with full weights, the mean gain of the antennas. -/
theorem beam_range (n : Nat) (hn : 0 < n) (p : Nat → V3) (w d g : Nat → ℝ) (wl : ℝ) (sky pt : V3) (hw : ∀ i, i < n → 0 ≤ w i ∧ w i ≤ 1)
    (hg : ∀ i, i < n → 0 ≤ g i ∧ g i ≤ 1) :
    0 ≤ beamPower n p w d g wl sky pt true ∧ beamPower n p w d g wl sky pt true ≤ meanAnt n g ∧ beamPower n p w d g wl sky pt true ≤ 1 := by
  obtain ⟨h1, -, h3⟩ := array_factor_range n hn p w d wl sky pt hw
  obtain ⟨g1, g2⟩ := meanAnt_range n hn g hg
  unfold beamPower
  refine ⟨mul_nonneg h1 g1, ?_, ?_⟩
  · calc _ ≤ 1 * meanAnt n g := mul_le_mul_of_nonneg_right h3 g1
      _ = _ := one_mul _
  · calc _ ≤ 1 * meanAnt n g := mul_le_mul_of_nonneg_right h3 g1
      _ = meanAnt n g := one_mul _
      _ ≤ 1 := g2

theorem beam_pointed (n : Nat) (hn : 0 < n) (p : Nat → V3) (c : ℝ) (g : Nat → ℝ) (wl : ℝ) (pt : V3) :
    beamPower n p (fun _ => 1) (fun _ => c) g wl pt pt true = meanAnt n g := by
  unfold beamPower
  rw [array_factor_unit n hn, one_mul]

/-- Without normalisation the beam of a mini-array is the number of antennas squared times the normalised one. -/
theorem beam_normalised (n : Nat) (hn : 0 < n) (p : Nat → V3) (w d g : Nat → ℝ) (wl : ℝ) (sky pt : V3) :
    beamPower n p w d g wl sky pt false = (n : ℝ) ^ 2 * beamPower n p w d g wl sky pt true := by
  unfold beamPower
  rw [arrayFactor_norm, arrayFactor_norm, factor_norm_div]
  have : (n : ℝ) ≠ 0 := by exact_mod_cast hn.ne'
  field_simp

/-- What an array of antennas receives from a direction: the sum of what each of them receives, with the square root of its gain in power. -/
noncomputable def received (n : Nat) (p : Nat → V3) (w d g : Nat → ℝ) (wl : ℝ) (sky pt : V3) : ℂ :=
  (∑ i ∈ Finset.range n, (√(g i) : ℂ) * ((w i : ℂ) * Complex.exp (2 * Complex.I * (π : ℂ) / (wl : ℂ) * ((geoDelay (p i) sky pt + d i : ℝ) : ℂ)))) / (n : ℂ)

/-- With the same gain for all antennas, the beam is the received power. -/
theorem beam_alike_partial (n : Nat) (hn : 0 < n) (p : Nat → V3) (w d : Nat → ℝ) (g : ℝ) (hg : 0 ≤ g) (wl : ℝ) (sky pt : V3) :
    beamPower n p w d (fun _ => g) wl sky pt true = ‖received n p w d (fun _ => g) wl sky pt‖ ^ 2 := by
  have h0 : (n : ℝ) ≠ 0 := by exact_mod_cast hn.ne'
  have hm : meanAnt n (fun _ => g) = g := by
    unfold meanAnt
    rw [Finset.sum_const, Finset.card_range, nsmul_eq_mul]
    field_simp
  have hr : received n p w d (fun _ => g) wl sky pt = (√g : ℂ) * complexFactor n p w d wl sky pt true := by
    unfold received complexFactor
    simp only [if_true]
    rw [← Finset.mul_sum, mul_div_assoc]
  unfold beamPower
  rw [hm, arrayFactor_norm, hr, norm_mul, Complex.norm_real, Real.norm_eq_abs, abs_of_nonneg (Real.sqrt_nonneg g), mul_pow, Real.sq_sqrt hg, mul_comm]

/-- **Violated** when antennas have different gains: the mean of the gains is used in place of the gain of each. Two antennas half a wavelength apart, one of
which receives nothing from the direction: the other one alone gives a quarter, the beam is nought. -/
theorem beam_gains_violated (wl : ℝ) (hwl : 0 < wl) :
    ∃ (p : Nat → V3) (sky pt : V3), beamPower 2 p (fun _ => 1) (fun _ => 0) (fun i => if i = 0 then 1 else 0) wl sky pt true = 0 ∧
      ‖received 2 p (fun _ => 1) (fun _ => 0) (fun i => if i = 0 then 1 else 0) wl sky pt‖ ^ 2 = 1 / 4 := by
  have h0 : geoDelay ⟨0, 0, 0⟩ (groundProj 0 0) (groundProj 0 (π / 2)) = 0 := by
    simp only [geoDelay, dot, vecMul, mulVec, transpose, rot90, sub, groundProj]
    ring
  have h1 : geoDelay ⟨0, wl / 2, 0⟩ (groundProj 0 0) (groundProj 0 (π / 2)) = wl / 2 := by
    simp only [geoDelay, dot, vecMul, mulVec, transpose, rot90, sub, groundProj, cos_pi_div_two, sin_pi_div_two, cos_zero, sin_zero]
    ring
  refine ⟨fun i => if i = 0 then ⟨0, 0, 0⟩ else ⟨0, wl / 2, 0⟩, groundProj 0 0, groundProj 0 (π / 2), ?_, ?_⟩
  · have hc : complexFactor 2 (fun i => if i = 0 then ⟨0, 0, 0⟩ else ⟨0, wl / 2, 0⟩) (fun _ => 1) (fun _ => 0) wl (groundProj 0 0) (groundProj 0 (π / 2)) true = 0 := by
      unfold complexFactor
      simp only [if_true, Finset.sum_range_succ, Finset.sum_range_zero, zero_add, one_ne_zero, if_false]
      rw [h0, h1]
      have e : 2 * Complex.I * (π : ℂ) / (wl : ℂ) * ((wl / 2 + 0 : ℝ) : ℂ) = (π : ℂ) * Complex.I := by
        have : (wl : ℂ) ≠ 0 := by exact_mod_cast hwl.ne'
        push_cast
        field_simp
        ring
      rw [e, Complex.exp_pi_mul_I]
      simp
    unfold beamPower
    rw [arrayFactor_norm, hc]
    simp
  · unfold received
    simp only [Finset.sum_range_succ, Finset.sum_range_zero, zero_add, one_ne_zero, if_false, if_true, Real.sqrt_zero, Real.sqrt_one]
    rw [h0]
    norm_num

/-- **Violated**: the complex beam is not the amplitude of the beam: the square of its modulus has the gain of the antennas once too many. -/
theorem beam_complex_violated (n : Nat) (p : Nat → V3) (w d g : Nat → ℝ) (wl : ℝ) (sky pt : V3) (nz : Bool) :
    ‖beamComplex n p w d g wl sky pt nz‖ ^ 2 = beamPower n p w d g wl sky pt nz * meanAnt n g ∧
    (0 < meanAnt n g → meanAnt n g < 1 → arrayFactor n p w d wl sky pt nz ≠ 0 → ‖beamComplex n p w d g wl sky pt nz‖ ^ 2 < beamPower n p w d g wl sky pt nz) := by
  have h1 : ‖beamComplex n p w d g wl sky pt nz‖ ^ 2 = beamPower n p w d g wl sky pt nz * meanAnt n g := by
    unfold beamComplex beamPower
    rw [norm_mul, Complex.norm_real, mul_pow, Real.norm_eq_abs, sq_abs, arrayFactor_norm]
    ring
  refine ⟨h1, fun ha hb hc => ?_⟩
  rw [h1]
  have hpos : 0 < beamPower n p w d g wl sky pt nz := by
    unfold beamPower
    refine mul_pos (lt_of_le_of_ne ?_ (Ne.symm hc)) ha
    rw [arrayFactor_norm]
    positivity
  calc _ < beamPower n p w d g wl sky pt nz * 1 := mul_lt_mul_of_pos_left hb hpos
    _ = _ := mul_one _

theorem groupMean_scale (l : List (Nat × ℝ)) (k : ℝ) : groupMean (l.map fun q => (q.1, k * q.2)) = k * groupMean l := by
  unfold groupMean
  rw [List.map_map, List.map_map]
  have e1 : (l.map ((fun q : Nat × ℝ => q.2 * (q.1 : ℝ)) ∘ fun q => (q.1, k * q.2))).sum = k * (l.map fun q => q.2 * (q.1 : ℝ)).sum := by
    induction l with
    | nil => simp
    | cons a l ih =>
      simp only [List.map_cons, List.sum_cons, Function.comp_apply] at ih ⊢
      rw [ih]; ring
  rw [e1, mul_div_assoc]
  rfl

theorem groupMean_range (l : List (Nat × ℝ)) (h : ∀ q ∈ l, 0 ≤ q.2 ∧ q.2 ≤ 1) : 0 ≤ groupMean l ∧ groupMean l ≤ 1 := by
  have hb : 0 ≤ (l.map fun q => q.2 * (q.1 : ℝ)).sum ∧ (l.map fun q => q.2 * (q.1 : ℝ)).sum ≤ (l.map fun q : Nat × ℝ => (q.1 : ℝ)).sum := by
    induction l with
    | nil => simp
    | cons a l ih =>
      obtain ⟨i1, i2⟩ := ih fun q hq => h q (List.mem_cons_of_mem _ hq)
      obtain ⟨a1, a2⟩ := h a List.mem_cons_self
      have hc : (0 : ℝ) ≤ a.1 := Nat.cast_nonneg _
      simp only [List.map_cons, List.sum_cons]
      refine ⟨add_nonneg (mul_nonneg a1 hc) i1, add_le_add ?_ i2⟩
      calc a.2 * (a.1 : ℝ) ≤ 1 * (a.1 : ℝ) := mul_le_mul_of_nonneg_right a2 hc
        _ = _ := one_mul _
  unfold groupMean
  rcases (hb.1.trans hb.2).eq_or_lt with h0 | h0
  · rw [← h0, div_zero]
    exact ⟨le_refl _, zero_le_one⟩
  · exact ⟨div_nonneg hb.1 h0.le, (div_le_one h0).2 hb.2⟩

/-- The beam of the whole array is from 0 to 1 too. -/
theorem array_beam_range (n : Nat) (hn : 0 < n) (p : Nat → V3) (w d : Nat → ℝ) (mas : Bool → List (Nat × ℝ)) (wl : ℝ) (sky pt : V3)
    (hw : ∀ i, i < n → 0 ≤ w i ∧ w i ≤ 1) (hm : ∀ q ∈ mas true, 0 ≤ q.2 ∧ q.2 ≤ 1) :
    0 ≤ arrayBeam n p w d mas wl sky pt true ∧ arrayBeam n p w d mas wl sky pt true ≤ 1 := by
  obtain ⟨h1, -, h3⟩ := array_factor_range n hn p w d wl sky pt hw
  obtain ⟨g1, g2⟩ := groupMean_range _ hm
  unfold arrayBeam
  exact ⟨mul_nonneg h1 g1, (mul_le_mul h3 g2 g1 zero_le_one).trans (le_of_eq (one_mul 1))⟩

/-- The array factor which the whole array should have without normalisation. -/
noncomputable def arrayBeamRaw (n : Nat) (p : Nat → V3) (w d : Nat → ℝ) (mas : Bool → List (Nat × ℝ)) (wl : ℝ) (sky pt : V3) : ℝ :=
  arrayFactor n p w d wl sky pt false * groupMean (mas false)

/-- **Violated**: without normalisation the beam of the whole array is still normalised by the number of mini-arrays: only the beams of mini-arrays, of `m`
antennas each, are not. -/
theorem array_normalise_violated (n m : Nat) (hn : 0 < n) (p : Nat → V3) (w d : Nat → ℝ) (l : List (Nat × ℝ)) (mas : Bool → List (Nat × ℝ)) (wl : ℝ) (sky pt : V3)
    (h1 : mas true = l) (h2 : mas false = l.map fun q => (q.1, (m : ℝ) ^ 2 * q.2)) :
    arrayBeam n p w d mas wl sky pt false = (m : ℝ) ^ 2 * arrayBeam n p w d mas wl sky pt true ∧
    arrayBeamRaw n p w d mas wl sky pt = (n : ℝ) ^ 2 * arrayBeam n p w d mas wl sky pt false := by
  have h0 : (n : ℝ) ≠ 0 := by exact_mod_cast hn.ne'
  unfold arrayBeam arrayBeamRaw
  rw [h2, h1, groupMean_scale]
  refine ⟨by ring, ?_⟩
  rw [arrayFactor_norm, arrayFactor_norm, factor_norm_div]
  field_simp

/-- The beams of mini-arrays of `m` antennas are such. -/
example (m : Nat) (hm : 0 < m) (p : Nat → V3) (w d g : Nat → ℝ) (wl : ℝ) (sky pt : V3) :
    [(3, beamPower m p w d g wl sky pt false)] = [(3, beamPower m p w d g wl sky pt true)].map fun q : Nat × ℝ => (q.1, (m : ℝ) ^ 2 * q.2) := by
  rw [beam_normalised m hm]
  rfl

/-- **Attenuation**: one at zenith, nothing for directions which are not over the horizon, and the same with or without normalisation. -/
theorem attenuation_exact {C : Type} (beam alt : C → ℝ) (z c : C) :
    (alt c ≤ 0 → attenuation beam alt z c = none) ∧ (0 < alt c → attenuation beam alt z c = some (beam c / beam z)) ∧
    (0 < alt z → beam z ≠ 0 → attenuation beam alt z z = some 1) ∧ ∀ k : ℝ, k ≠ 0 → attenuation (fun x => k * beam x) alt z c = attenuation beam alt z c := by
  unfold attenuation
  refine ⟨fun h => if_pos h, fun h => if_neg (not_le.2 h), fun h hb => (if_neg (not_le.2 h)).trans (by rw [div_self hb]), fun k hk => ?_⟩
  by_cases h : alt c ≤ 0
  · exact (if_pos h).trans (if_pos h).symm
  · refine (if_neg h).trans ?_
    rw [mul_div_mul_left _ _ hk]
    exact (if_neg h).symm

end Verif.Geom
