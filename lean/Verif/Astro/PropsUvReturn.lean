import Verif.Astro.UvReturn
import Verif.Astro.PropsUvProfile

/-!
# Deviations returned with the profiles of a UV coverage (C126)
-/

namespace Verif.Astro

/-- The standard deviation of two numbers is half their difference. -/
theorem stdTwo_half (a b : ℝ) : stdTwo a b = |a - b| / 2 := by
  unfold stdTwo
  rw [show ((a - (a + b) / 2) ^ 2 + (b - (a + b) / 2) ^ 2) / 2 = (|a - b| / 2) ^ 2 by rw [div_pow, sq_abs]; ring]
  exact Real.sqrt_sq (by positivity)

/-- C126 (violated, current numpy). The azimuthal profile is never returned: with a numpy which refuses arrays of unequal lengths, the call raises for
every coverage and every step, after all has been computed. -/
theorem azimuthal_refused_violated (l : List (ℝ × ℝ)) (step : ℝ) : azimuthalReturn false l step = .error .valueError := by
  unfold azimuthalReturn
  cases e : azimuthalDensity (azimuthalProfile l step).2 with
  | ok d => rfl
  | error x =>
    unfold azimuthalDensity at e
    split_ifs at e
    exact e ▸ rfl

theorem highest_ge (l : List ℝ) (x : ℝ) (h : x ∈ l) : x ≤ highestOf l := by
  unfold highestOf
  generalize l.headD 0 = z
  induction l with
  | nil => cases h
  | cons y t ih =>
    rcases List.mem_cons.1 h with rfl | h
    · exact le_max_left _ _
    · exact (ih h).trans (le_max_right _ _)

theorem highest_mem_of (l : List ℝ) (h : l ≠ []) : highestOf l ∈ l := by
  have key : ∀ (t : List ℝ) (z : ℝ), t.foldr max z = z ∨ t.foldr max z ∈ t := by
    intro t z
    induction t with
    | nil => exact Or.inl rfl
    | cons y t ih =>
      rw [List.foldr_cons]
      rcases max_choice y (t.foldr max z) with e | e <;> rw [e]
      · exact Or.inr List.mem_cons_self
      · exact ih.imp id (List.mem_cons_of_mem _)
  rcases key l (l.headD 0) with e | e
  · unfold highestOf; rw [e]
    cases l with
    | nil => exact absurd rfl h
    | cons y t => exact List.mem_cons_self
  · exact e

open Classical in
/-- C126 (partial, numpy before 1.24). For every array with a baseline out of the line `v = 0`, the profile is returned: the densities are the numbers
of baselines of the bins over the largest one, between 0 and 1, and the deviation of each is half its distance to their mean. -/
theorem azimuthal_return_partial (autos : Nat) (c : List (ℝ × ℝ)) (step : ℝ) (hs : 0 < step) (hc : ∃ x ∈ c, x.2 ≠ 0) :
    ∃ (mids dens devs : List ℝ) (counts : List Nat) (k : Nat), azimuthalReturn true (coverage autos c) step = .ok (mids, dens, devs) ∧
      0 < k ∧ k ∈ counts ∧ (∀ n ∈ counts, n ≤ k) ∧ mids.length = counts.length ∧ dens.length = counts.length ∧ devs.length = counts.length ∧
      (∀ i < counts.length, mids.getD i 0 = (i + 1 / 2) * step ∧ dens.getD i 0 = (counts.getD i 0 : ℝ) / k ∧
        devs.getD i 0 = |dens.getD i 0 - dens.sum / dens.length| / 2 ∧
        counts.getD i 0 = c.countP fun x => decide (x.2 ≠ 0) &&
          decide (i * step ≤ uvAngle (upper x) ∧ uvAngle (upper x) ≤ (i + 1) * step)) := by
  obtain ⟨mids, counts, h, hl, -, -, hm, hk, hsum⟩ := azimuthal_partial autos c step hs
  obtain ⟨x, hx, hv⟩ := hc
  have pos : 0 < c.countP fun x => decide (x.2 ≠ 0) := List.countP_pos_iff.2 ⟨x, hx, decide_eq_true hv⟩
  have spos : 0 < counts.sum := by rw [hsum]; omega
  have hne : counts ≠ [] := by rintro rfl; exact absurd spos (by simp)
  have hne' : (counts.map fun n : Nat => (n : ℝ)) ≠ [] := fun e => hne (List.map_eq_nil_iff.1 e)
  obtain ⟨k, hkc, ek⟩ := List.mem_map.1 (highest_mem_of _ hne')
  have kmax : ∀ n ∈ counts, n ≤ k := fun n hn => by
    have := highest_ge (counts.map fun n : Nat => (n : ℝ)) n (List.mem_map.2 ⟨n, hn, rfl⟩)
    rw [← ek] at this
    exact_mod_cast this
  have kpos : 0 < k := by
    rcases Nat.eq_zero_or_pos k with e | e
    · exact absurd spos (by
        rw [List.sum_eq_zero fun n hn => Nat.le_zero.1 (e ▸ kmax n hn)]; exact lt_irrefl 0)
    · exact e
  have ed : azimuthalDensity counts = .ok (counts.map fun n : Nat => (n : ℝ) / k) := by
    unfold azimuthalDensity
    rw [if_neg hne, ← ek]
  refine ⟨mids, counts.map fun n : Nat => (n : ℝ) / k,
    (counts.map fun n : Nat => (n : ℝ) / k).map fun y => stdTwo y ((counts.map fun n : Nat => (n : ℝ) / k).sum / (counts.map fun n : Nat => (n : ℝ) / k).length),
    counts, k, ?_, kpos, hkc, kmax, hl, List.length_map .., by simp, fun i hi => ⟨hm i (hl ▸ hi), ?_, ?_, hk i hi⟩⟩
  · unfold azimuthalReturn
    rw [h]
    show (azimuthalDensity counts).bind _ = _
    rw [ed]
    rfl
  · simp [List.getD_eq_getElem?_getD, List.getElem?_eq_getElem hi]
  · simp only [List.getD_eq_getElem?_getD, List.getElem?_map, List.getElem?_eq_getElem hi, Option.map_some, Option.getD_some]
    exact stdTwo_half _ _

theorem peak_first (l : List ℝ) (h : l ≠ []) : ∃ p : Nat, peakRank l = p ∧ p < l.length ∧ (∀ x ∈ l, x ≤ l.getD p 0) ∧
    ∀ j < p, l.getD j 0 < l.getD p 0 := by
  have lt : peakRank l < l.length := List.findIdx_lt_length_of_exists ⟨_, highest_mem_of l h, decide_eq_true rfl⟩
  have e : l.getD (peakRank l) 0 = highestOf l := by
    rw [List.getD_eq_getElem?_getD, List.getElem?_eq_getElem lt]
    exact of_decide_eq_true (List.findIdx_getElem (w := lt))
  refine ⟨_, rfl, lt, fun x hx => e ▸ highest_ge l x hx, fun j hj => ?_⟩
  rw [e, List.getD_eq_getElem?_getD, List.getElem?_eq_getElem (hj.trans lt)]
  have := List.not_of_lt_findIdx hj
  exact lt_of_le_of_ne (highest_ge l _ (List.getElem_mem _)) (of_decide_eq_false this)

/-- C126. The deviations of the radial profile: for all arrays and steps, and whatever curve is fitted to the points from the first of the highest
densities on, each is half the distance of the density to the curve. The distances and densities are those of the profile. -/
theorem radial_deviation (fit : List ℝ → List ℝ → ℝ → ℝ) (l : List (ℝ × ℝ)) (step : ℝ) (mids dens devs : List ℝ)
    (h : radialReturn fit l step = .ok (mids, dens, devs)) :
    radialProfile l step = .ok (mids, dens) ∧ devs.length = dens.length ∧ mids.length = dens.length ∧
      ∃ p < dens.length, (∀ x ∈ dens, x ≤ dens.getD p 0) ∧ (∀ j < p, dens.getD j 0 < dens.getD p 0) ∧
        ∀ i < dens.length, devs.getD i 0 = |dens.getD i 0 - fit (mids.drop p) (dens.drop p) (mids.getD i 0)| / 2 := by
  unfold radialReturn at h
  cases e : radialProfile l step with
  | error x => rw [e] at h; cases h
  | ok r =>
    rw [e] at h
    obtain ⟨m, d⟩ := r
    obtain ⟨rfl, rfl, rfl⟩ : m = mids ∧ d = dens ∧ List.zipWith (fun a b => stdTwo b (fit (m.drop (peakRank d)) (d.drop (peakRank d)) a)) m d = devs := by
      have := Except.ok.inj h
      exact ⟨congrArg Prod.fst this, congrArg (fun t : List ℝ × List ℝ × List ℝ => t.2.1) this, congrArg (fun t : List ℝ × List ℝ × List ℝ => t.2.2) this⟩
    have shape : m.length = d.length ∧ d ≠ [] := by
      unfold radialProfile at e
      by_cases c1 : keptHalf l = []
      · rw [if_pos c1] at e; cases e
      · rw [if_neg c1] at e
        by_cases c2 : radialRaw ((keptHalf l).map uvLength) step = []
        · rw [if_pos c2] at e; cases e
        · rw [if_neg c2] at e
          have := Except.ok.inj e
          have e1 := congrArg Prod.fst this
          have e2 := congrArg Prod.snd this
          dsimp only at e1 e2
          subst e1 e2
          refine ⟨?_, fun q => c2 (List.map_eq_nil_iff.1 q)⟩
          rw [List.length_map, List.length_map]
          unfold radialRaw
          rw [List.length_map]
    obtain ⟨p, hp, lt, a, b⟩ := peak_first d shape.2
    refine ⟨rfl, by rw [List.length_zipWith, shape.1, min_self], shape.1, p, lt, a, b, fun i hi => ?_⟩
    rw [hp]
    simp only [List.getD_eq_getElem?_getD, List.getElem?_zipWith, List.getElem?_eq_getElem hi, List.getElem?_eq_getElem (shape.1 ▸ hi : i < m.length),
      Option.getD_some]
    exact stdTwo_half _ _

/-! ## Concrete arrays -/

example : ∃ x ∈ [((3 : ℝ), (4 : ℝ)), (1, 0)], x.2 ≠ 0 := ⟨(3, 4), List.mem_cons_self, by norm_num⟩

example : ∃ (mids dens devs : List ℝ), radialReturn (fun _ _ _ => 0) (coverage 0 [((0 : ℝ), (1 : ℝ)), (0, 2), (0, 3)]) 1 = .ok (mids, dens, devs) := by
  obtain ⟨m, d, k, h, -⟩ := radial_limit_violated
  exact ⟨m, d, _, by unfold radialReturn; rw [h]; rfl⟩

end Verif.Astro
