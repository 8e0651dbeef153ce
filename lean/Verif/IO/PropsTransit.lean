import Verif.IO.Transit
import Verif.IO.PropsTreat
import Verif.IO.PropsSst
import Verif.Instru.PropsSquint

/-!
# Fit of a transit
-/

namespace Verif.IO

open Verif.TF (nanmedian)
open Verif.Instru (npInterp interp_mean)

variable {filt : List ℚ → List ℚ} {solve : List (ℝ × ℝ) → Except Err Fit} {thr : Option ℚ} {v : List (Option ℚ)} {jd : List ℝ} {d : List (ℚ × Nat)}

/-! ## Samples kept -/

theorem kept_mem (x : Option ℚ) (k : Nat) : (x, k) ∈ keptSamples thr v ↔ 1 ≤ k ∧ v[k - 1]? = some x ∧ ∀ t, thr = some t → ∃ y, x = some y ∧ y < t := by
  unfold keptSamples
  rw [List.mem_filter]
  have h1 : (x, k) ∈ v.zipIdx 1 ↔ 1 ≤ k ∧ v[k - 1]? = some x := by
    rw [List.mem_zipIdx_iff_le_and_getElem?_sub]
  rw [h1, and_assoc]
  refine and_congr_right fun _ => and_congr_right fun _ => ?_
  cases thr with
  | none => exact ⟨(fun _ t h => nomatch h), fun _ => rfl⟩
  | some t =>
    cases x with
    | none => exact ⟨(fun h => nomatch h), fun h => (by obtain ⟨y, h1, -⟩ := h t rfl; exact nomatch h1)⟩
    | some y =>
      constructor
      · intro h s hs
        cases hs
        exact ⟨y, rfl, of_decide_eq_true h⟩
      · intro h
        obtain ⟨z, h1, h2⟩ := h t rfl
        cases h1
        exact decide_eq_true h2

theorem prepared_ok (h : prepared thr v = .ok d) : ∃ m, nanmedian ((keptSamples thr v).map Prod.fst) = some m ∧ d = (keptSamples thr v).map fun p => (p.1.getD m, p.2) := by
  unfold prepared fillNan at h
  cases hm : nanmedian ((keptSamples thr v).map Prod.fst) with
  | none => rw [hm] at h; exact nomatch h
  | some m => rw [hm] at h; exact ⟨m, rfl, (Except.ok.inj h).symm⟩

theorem prepared_pos (h : prepared thr v = .ok d) : d ≠ [] ∧ ∀ p ∈ d, 1 ≤ p.2 ∧ p.2 ≤ v.length := by
  obtain ⟨m, h1, rfl⟩ := prepared_ok h
  constructor
  · intro he
    have : keptSamples thr v = [] := List.map_eq_nil_iff.1 he
    rw [this] at h1
    exact nomatch h1
  · intro p hp
    obtain ⟨⟨x, k⟩, h2, rfl⟩ := List.mem_map.1 hp
    obtain ⟨h3, h4, -⟩ := (kept_mem x k).1 h2
    have := (List.getElem?_eq_some_iff.1 h4).1
    exact ⟨h3, by show k ≤ v.length; omega⟩

/-- **The samples adjusted are those below the threshold**, with their positions; each is the value of the slice, or the median for NaN. -/
theorem transit_samples (h : prepared thr v = .ok d) : ∃ m, nanmedian ((keptSamples thr v).map Prod.fst) = some m ∧
    ∀ y k, (y, k) ∈ d ↔ 1 ≤ k ∧ ∃ x, v[k - 1]? = some x ∧ (∀ t, thr = some t → ∃ z, x = some z ∧ z < t) ∧ y = x.getD m := by
  obtain ⟨m, h1, rfl⟩ := prepared_ok h
  refine ⟨m, h1, fun y k => ?_⟩
  rw [List.mem_map]
  constructor
  · rintro ⟨⟨x, k'⟩, h2, h3⟩
    obtain ⟨rfl, rfl⟩ := Prod.mk.inj h3
    obtain ⟨h4, h5, h6⟩ := (kept_mem x k').1 h2
    exact ⟨h4, x, h5, h6, rfl⟩
  · rintro ⟨h4, x, h5, h6, rfl⟩
    exact ⟨(x, k), (kept_mem x k).2 ⟨h4, h5, h6⟩, rfl⟩

theorem kept_all (v : List (Option ℚ)) : keptSamples none v = v.zipIdx 1 := List.filter_eq_self.2 fun _ _ => rfl

/-! ## Time of transit -/

theorem interp_within (xs ys : List ℝ) (hl : xs.length = ys.length) (hne : ys ≠ []) (x lo hi : ℝ) (h : ∀ y ∈ ys, lo ≤ y ∧ y ≤ hi) : lo ≤ npInterp xs ys x ∧ npInterp xs ys x ≤ hi := by
  by_cases h1 : x ≤ xs.headD 0
  · have : npInterp xs ys x = ys.headD 0 := by unfold npInterp; rw [if_pos h1]
    rw [this]
    cases ys with
    | nil => exact absurd rfl hne
    | cons a l => exact h a List.mem_cons_self
  by_cases h2 : xs.getLastD 0 ≤ x
  · have : npInterp xs ys x = ys.getLastD 0 := by unfold npInterp; rw [if_neg h1, if_pos h2]
    rw [this, List.getLastD_eq_getLast?, List.getLast?_eq_getLast_of_ne_nil hne]
    exact h _ (List.getLast_mem hne)
  · obtain ⟨i, hi', t, -, ht0, ht1, -, -, he⟩ := interp_mean xs ys hl x h1 h2
    rw [he]
    have a := h (ys[i]'(by omega)) (List.getElem_mem _)
    have b := h (ys[i + 1]'(by omega)) (List.getElem_mem _)
    constructor <;> nlinarith [a.1, a.2, b.1, b.2]

theorem steps_length (n : Nat) : (stepsOf n).length = n := by simp [stepsOf]

/-- **The time of transit is within the times of the slice**, whatever the method and the fit. -/
theorem transit_time_within (method : String) {r : Fitted} (h : fitTransit filt solve method thr v jd = .ok r) (hl : jd.length = v.length) (lo hi : ℝ) (hj : ∀ t ∈ jd, lo ≤ t ∧ t ≤ hi) :
    lo ≤ r.time ∧ r.time ≤ hi := by
  have other : ∀ b, otherFit b solve thr v jd = .ok r → lo ≤ r.time ∧ r.time ≤ hi := by
    intro b h
    unfold otherFit at h
    obtain ⟨d, hd, h⟩ := bindOk h
    obtain ⟨-, -, h⟩ := bindOk h
    obtain ⟨p, -, h⟩ := bindOk h
    obtain ⟨ys, -, rfl⟩ := mapOk h
    obtain ⟨h1, h2⟩ := prepared_pos hd
    refine interp_within _ _ (by simp) (by simpa using h1) _ lo hi fun y hy => ?_
    obtain ⟨q, hq, rfl⟩ := List.mem_map.1 hy
    have h3 := h2 q hq
    have h4 : q.2 - 1 < jd.length := by omega
    rw [List.getD_eq_getElem _ _ h4]
    exact hj _ (List.getElem_mem _)
  unfold fitTransit at h
  split_ifs at h with h1 h2
  · unfold gaussFit at h
    obtain ⟨d, hd, h⟩ := bindOk h
    obtain ⟨pts, -, h⟩ := bindOk h
    obtain ⟨p, -, rfl⟩ := mapOk h
    have hne : v.length ≠ 0 := by
      obtain ⟨h3, h4⟩ := prepared_pos hd
      obtain ⟨q, hq⟩ := List.exists_mem_of_ne_nil _ h3
      have := h4 q hq
      omega
    exact interp_within _ _ (by rw [steps_length, hl]) (fun e => hne (by rw [← hl, e]; rfl)) _ lo hi hj
  · exact other _ h
  · exact other _ h

/-- **One fitted value for each time** of the slice. -/
theorem transit_values (method : String) {r : Fitted} (h : fitTransit filt solve method thr v jd = .ok r) : r.value.length = v.length := by
  have other : ∀ b, otherFit b solve thr v jd = .ok r → r.value.length = v.length := by
    intro b h
    unfold otherFit at h
    obtain ⟨d, hd, h⟩ := bindOk h
    obtain ⟨-, -, h⟩ := bindOk h
    obtain ⟨p, -, h⟩ := bindOk h
    obtain ⟨ys, -, rfl⟩ := mapOk h
    show ((stepsOf v.length).map _).length = _
    rw [List.length_map, steps_length]
  unfold fitTransit at h
  split_ifs at h with h1 h2
  · unfold gaussFit at h
    obtain ⟨d, hd, h⟩ := bindOk h
    obtain ⟨pts, -, h⟩ := bindOk h
    obtain ⟨p, -, rfl⟩ := mapOk h
    show ((stepsOf v.length).map _).length = _
    rw [List.length_map, steps_length]
  · exact other _ h
  · exact other _ h

/-- The curve adjusted is a bell: highest at `mu`, the same on both sides, decreasing away from it, and down by the square root of e at `sig`. -/
theorem transit_curve (p : Fit) (hs : p.sig ≠ 0) : gaussOf p p.mu = p.amp ∧ (∀ x, gaussOf p (p.mu - x) = gaussOf p (p.mu + x)) ∧
    gaussOf p (p.mu + p.sig) = p.amp * Real.exp (-1 / 2) ∧ (0 < p.amp → ∀ x y, |x| < |y| → gaussOf p (p.mu + y) < gaussOf p (p.mu + x)) := by
  unfold gaussOf
  refine ⟨by simp, fun x => by congr 3; ring, ?_, fun ha x y hxy => ?_⟩
  · congr 2
    have : p.mu + p.sig - p.mu = p.sig := by ring
    rw [this, div_eq_div_iff (by positivity) (by norm_num)]; ring
  · refine mul_lt_mul_of_pos_left (Real.exp_lt_exp.2 ?_) ha
    rw [add_sub_cancel_left, add_sub_cancel_left]
    have h1 := sq_lt_sq.2 hxy
    have h2 : 0 < 2 * p.sig ^ 2 := by positivity
    rw [div_lt_div_iff_of_pos_right h2]; linarith

example : (⟨1, 3, 2, 0, 0, 0, 0⟩ : Fit).sig ≠ 0 := by norm_num

/-! ## First method -/

theorem top_mem {l : List ℚ} (h : l ≠ []) : topOf l ∈ l ∧ ∀ x ∈ l, x ≤ topOf l := by
  unfold topOf
  cases hm : l.max? with
  | none => exact absurd (List.max?_eq_none_iff.1 hm) h
  | some m => exact List.max?_eq_some_iff.1 hm

theorem peak_spec {l : List ℚ} (h : l ≠ []) : peakOf l < l.length ∧ l.getD (peakOf l) 0 = topOf l := by
  have hl : 0 < l.length := List.length_pos_iff.2 h
  have h1 : peakOf l < l.length := argmax_lt _ hl
  refine ⟨h1, ?_⟩
  obtain ⟨h2, h3⟩ := top_mem h
  refine le_antisymm ?_ ?_
  · rw [List.getD_eq_getElem _ _ h1]
    exact h3 _ (List.getElem_mem _)
  · obtain ⟨i, hi, he⟩ := List.getElem_of_mem h2
    have := argmax_max (fun i => l.getD i 0) (n := l.length) (j := i) hi
    rw [← he]
    rw [List.getD_eq_getElem _ _ hi] at this
    exact this

theorem group_mem (l : List ℚ) (i : Nat) : i ∈ peakGroup l ↔ i < l.length ∧ ∀ j, min i (peakOf l) ≤ j → j ≤ max i (peakOf l) → highMask l j = highMask l (peakOf l) := by
  unfold peakGroup sameRun
  rw [List.mem_filter, List.mem_range, List.all_eq_true]
  refine and_congr_right fun _ => ⟨fun h j h1 h2 => ?_, fun h j hj => ?_⟩
  · exact beq_iff_eq.1 (h j (List.mem_range'_1.2 ⟨h1, by omega⟩))
  · obtain ⟨h1, h2⟩ := List.mem_range'_1.1 hj
    exact beq_iff_eq.2 (h j h1 (by omega))

theorem group_length (l : List ℚ) : (peakGroup l).length ≤ l.length := by
  have := List.length_filter_le (sameRun (highMask l) (peakOf l)) (List.range l.length)
  rw [List.length_range] at this
  exact this

/-- The first method fails as soon as a transit is seen: if the filtered values are over half of the maximum at two neighbouring samples, one of which is the peak, and below it anywhere. -/
theorem transit_gaussian_violated (hd : prepared thr v = .ok d) (hf : ∀ l, (filt l).length = l.length) (i j : Nat) (hi : i < d.length) (hj : j < d.length)
    (hlow : (filt (d.map Prod.fst)).getD i 0 < topOf (filt (d.map Prod.fst)) / 2) (hp : 0 ≤ topOf (filt (d.map Prod.fst)))
    (hnext : j = peakOf (filt (d.map Prod.fst)) + 1 ∨ j + 1 = peakOf (filt (d.map Prod.fst))) (hhigh : topOf (filt (d.map Prod.fst)) / 2 ≤ (filt (d.map Prod.fst)).getD j 0) :
    fitTransit filt solve "gaussian" thr v jd = .error .valueError := by
  have hlen : (filt (d.map Prod.fst)).length = d.length := by rw [hf, List.length_map]
  generalize hF : filt (d.map Prod.fst) = F at *
  have hne : F ≠ [] := by rintro rfl; rw [← hlen] at hi; exact absurd hi (Nat.not_lt_zero _)
  obtain ⟨hk, hkt⟩ := peak_spec hne
  have mk : highMask F (peakOf F) = true := decide_eq_true (by rw [hkt]; linarith)
  have mi : highMask F i = false := decide_eq_false (not_le.2 hlow)
  have mj : highMask F j = true := decide_eq_true hhigh
  have gi : i ∉ peakGroup F := by
    rw [group_mem]
    rintro ⟨-, h⟩
    have := h i (min_le_left _ _) (le_max_left _ _)
    rw [mi, mk] at this
    exact nomatch this
  have gk : peakOf F ∈ peakGroup F := (group_mem F _).2 ⟨hk, fun m h1 h2 => by
    rw [min_self] at h1
    rw [max_self] at h2
    rw [le_antisymm h2 h1]⟩
  have gj : j ∈ peakGroup F := (group_mem F _).2 ⟨by omega, fun m h1 h2 => by
    have : m = j ∨ m = peakOf F := by rcases hnext with h | h <;> omega
    rcases this with rfl | rfl
    · rw [mj, mk]
    · rfl⟩
  have hnd : (peakGroup F).Nodup := List.Nodup.filter _ List.nodup_range
  have n1 : (peakGroup F).length ≠ d.length := by
    intro h
    have hsub : (peakGroup F).Sublist (List.range F.length) := List.filter_sublist
    have := hsub.eq_of_length (by rw [List.length_range, h, hlen])
    rw [this, List.mem_range] at gi
    exact gi (by omega)
  have n2 : (peakGroup F).length ≠ 1 := by
    intro h
    obtain ⟨a, ha⟩ := List.length_eq_one_iff.1 h
    rw [ha, List.mem_singleton] at gk gj
    omega
  unfold fitTransit gaussFit
  rw [if_pos rfl, hd]
  show (gaussPoints d (peakGroup (filt (d.map Prod.fst)))).bind _ = _
  have hg : gaussPoints d (peakGroup (filt (d.map Prod.fst))) = .error .valueError := by
    rw [hF]
    unfold gaussPoints
    rw [if_neg n1, if_neg n2]
    split_ifs <;> rfl
  rw [hg]
  rfl

/-- The first method also fails when there are less than 10 samples, since the first guess of the width is 10. -/
theorem transit_short_violated (hv : v.length < 10) : ∃ e, fitTransit filt solve "gaussian" thr v jd = .error e := by
  unfold fitTransit gaussFit
  rw [if_pos rfl]
  cases hd : prepared thr v with
  | error e => exact ⟨e, rfl⟩
  | ok d =>
    refine ⟨.valueError, ?_⟩
    show (gaussPoints d (peakGroup (filt (d.map Prod.fst)))).bind _ = _
    obtain ⟨h1, h2⟩ := prepared_pos hd
    have h3 : topOf (d.map fun p => (p.2 : ℚ)) < 10 := by
      have h4 := (top_mem (l := d.map fun p => (p.2 : ℚ)) (by simpa using h1)).1
      obtain ⟨q, hq, he⟩ := List.mem_map.1 h4
      rw [← he]
      have := (h2 q hq).2
      have : q.2 < 10 := by omega
      exact_mod_cast this
    have hg : gaussPoints d (peakGroup (filt (d.map Prod.fst))) = .error .valueError := by
      unfold gaussPoints
      rw [if_pos h3]
      split_ifs <;> rfl
    rw [hg]
    rfl

/-- The first method on **values that stay over half of their maximum**: the points are the values divided by their maximum; the fitted values are those of the gaussian, times the
maximum of the filtered values, and the time of transit that of its centre. -/
theorem transit_gaussian_partial (hd : prepared thr v = .ok d) (hf : ∀ l, (filt l).length = l.length) (h10 : ∃ q ∈ d, 10 ≤ q.2) (h0 : topOf (d.map Prod.fst) ≠ 0)
    (hhigh : ∀ i < d.length, topOf (filt (d.map Prod.fst)) / 2 ≤ (filt (d.map Prod.fst)).getD i 0) {p : Fit}
    (hs : solve (d.map fun q => ((q.2 : ℝ), ((q.1 / topOf (d.map Prod.fst) : ℚ) : ℝ))) = .ok p) :
    ∃ r, fitTransit filt solve "gaussian" thr v jd = .ok r ∧ r.popt = p ∧ r.value = (stepsOf v.length).map (fun t => (topOf (filt (d.map Prod.fst)) : ℝ) * gaussOf p t) ∧
      r.time = npInterp (stepsOf v.length) jd p.mu ∧
      r.chi = some (d.map fun q => (((q.1 / topOf (d.map Prod.fst) : ℚ) : ℝ) - gaussOf p q.2) ^ 2 / gaussOf p q.2).sum := by
  have hlen : (filt (d.map Prod.fst)).length = d.length := by rw [hf, List.length_map]
  obtain ⟨hne, -⟩ := prepared_pos hd
  have hdl : 0 < d.length := List.length_pos_iff.2 hne
  have hG : peakGroup (filt (d.map Prod.fst)) = List.range d.length := by
    unfold peakGroup
    rw [hlen]
    refine List.filter_eq_self.2 fun i hi => ?_
    have hFne : filt (d.map Prod.fst) ≠ [] := by rw [← List.length_pos_iff, hlen]; exact hdl
    have hi' := List.mem_range.1 hi
    have hk := (peak_spec hFne).1
    have hm := ((group_mem (filt (d.map Prod.fst)) i).2 ⟨by omega, fun j _ h2 => ?_⟩)
    · exact (List.mem_filter.1 hm).2
    · have hjl : j < d.length := lt_of_le_of_lt h2 (max_lt hi' (by omega))
      exact (decide_eq_true (hhigh j hjl)).trans (decide_eq_true (hhigh _ (by omega))).symm
  have hmap : ((List.range d.length).map fun i => (d.map Prod.fst).getD i 0) = d.map Prod.fst := by
    apply List.ext_getElem
    · simp
    · intro i h1 h2
      simp only [List.getElem_map, List.getElem_range]
      rw [List.getD_eq_getElem _ _ h2, List.getElem_map]
  have h3 : ¬ topOf (d.map fun p => (p.2 : ℚ)) < 10 := by
    obtain ⟨q, hq, h⟩ := h10
    have := (top_mem (l := d.map fun p => (p.2 : ℚ)) (by simpa using hne)).2 _ (List.mem_map.2 ⟨q, hq, rfl⟩)
    have h' : (10 : ℚ) ≤ q.2 := by exact_mod_cast h
    linarith
  have hg : gaussPoints d (List.range d.length) = .ok (d.map fun q => ((q.2 : ℝ), ((q.1 / topOf (d.map Prod.fst) : ℚ) : ℝ))) := by
    unfold gaussPoints
    rw [hmap, if_neg h0, if_neg h3, if_pos List.length_range]
    congr 1
    have : ((List.range d.length).map fun i => (((d.map Prod.fst).getD i 0 / topOf (d.map Prod.fst) : ℚ) : ℝ)) = d.map fun q => ((q.1 / topOf (d.map Prod.fst) : ℚ) : ℝ) := by
      have e := congrArg (List.map fun x : ℚ => ((x / topOf (d.map Prod.fst) : ℚ) : ℝ)) hmap
      rw [List.map_map, List.map_map] at e
      exact e
    rw [this, List.zip_map']
  have hh : ((List.range d.length).headD 0 : Nat) = 0 := by
    cases hl : d.length with
    | zero => rfl
    | succ n => rw [List.range_succ_eq_map]; rfl
  refine ⟨⟨(stepsOf v.length).map fun t => (topOf (filt (d.map Prod.fst)) : ℝ) * gaussOf p t, npInterp (stepsOf v.length) jd p.mu,
    some (chiOf p (d.map fun q => ((q.2 : ℝ), ((q.1 / topOf (d.map Prod.fst) : ℚ) : ℝ)))), p⟩, ?_, rfl, rfl, rfl, ?_⟩
  · unfold fitTransit gaussFit
    rw [if_pos rfl, hd]
    show (gaussPoints d (peakGroup (filt (d.map Prod.fst)))).bind _ = _
    rw [hG, hg]
    show (solve _).map _ = _
    rw [hs]
    show Except.ok _ = _
    congr 1
    simp only [hh, Nat.cast_zero, sub_zero, add_zero]
  · show some (chiOf _ _) = _
    unfold chiOf
    rw [List.map_map]
    rfl

/-! ## Other methods -/

theorem normed_length (d : List (ℚ × Nat)) : (normed d).length = d.length := by simp [normed]

/-- With a threshold that drops a sample, the two other methods always fail: values are compared with fits of another size. -/
theorem transit_threshold_violated (method : String) (hm : method ≠ "gaussian") (hd : prepared thr v = .ok d) (h1 : d.length ≠ 1) (h2 : d.length ≠ v.length) :
    ∃ e, fitTransit filt solve method thr v jd = .error e := by
  have other : ∀ b, ∃ e, otherFit b solve thr v jd = .error e := by
    intro b
    unfold otherFit
    rw [hd]
    show ∃ e, (boundsOk b d jd).bind _ = _
    cases boundsOk b d jd with
    | error e => exact ⟨e, rfl⟩
    | ok u =>
      show ∃ e, (solve _).bind _ = _
      cases solve ((d.map fun p => (p.2 : ℝ)).zip ((normed d).map fun y : ℚ => (y : ℝ))) with
      | error e => exact ⟨e, rfl⟩
      | ok p =>
        refine ⟨.valueError, ?_⟩
        show (spread _ _).map _ = _
        have : spread ((normed d).map fun y : ℚ => (y : ℝ)) v.length = .error .valueError := by
          unfold spread
          rw [if_neg (by rw [List.length_map, normed_length]; exact h2), if_neg (by rw [List.length_map, normed_length]; exact h1)]
        rw [this]
        rfl
  unfold fitTransit
  rw [if_neg hm]
  split_ifs
  · exact other _
  · exact other _

/-- Any other name of method is taken as the fit of the loads, without a message. -/
theorem transit_method_violated (method : String) (h1 : method ≠ "gaussian") (h2 : method ≠ "gaussian_bkg") :
    fitTransit filt solve method thr v jd = fitTransit filt solve "loads" thr v jd := by
  unfold fitTransit
  rw [if_neg h1, if_neg h2, if_neg (by decide +kernel), if_neg (by decide +kernel)]

/-- Constant values cannot be adjusted with a background: the bounds of its level are the same. -/
theorem transit_constant_violated (hd : prepared thr v = .ok d) (c : ℚ) (hc : ∀ q ∈ d, q.1 = c) : fitTransit filt solve "gaussian_bkg" thr v jd = .error .valueError := by
  obtain ⟨hne, -⟩ := prepared_pos hd
  have hn : normed d ≠ [] := by simpa [normed] using hne
  have hall : ∀ y ∈ normed d, y = c / topOf (d.map Prod.fst) := by
    intro y hy
    obtain ⟨q, hq, rfl⟩ := List.mem_map.1 hy
    rw [hc q hq]
  have h1 := hall _ (top_mem hn).1
  have h2 : bottomOf (normed d) = c / topOf (d.map Prod.fst) := by
    unfold bottomOf
    cases hm : (normed d).min? with
    | none => exact absurd (List.min?_eq_none_iff.1 hm) hn
    | some m => exact hall m (List.min?_eq_some_iff.1 hm).1
  unfold fitTransit
  rw [if_neg (by decide +kernel), if_pos rfl]
  unfold otherFit
  rw [hd]
  show (boundsOk true d jd).bind _ = _
  have : boundsOk true d jd = .error .valueError := by
    unfold boundsOk
    rw [h1, h2]
    by_cases a : topOf (d.map Prod.fst) = 0
    · rw [if_pos a]
    rw [if_neg a]
    by_cases b : jd.getLastD 0 ≤ jd.headD 0
    · rw [if_pos b]
    rw [if_neg b, if_pos rfl, if_neg (lt_irrefl _)]
  rw [this]
  rfl

theorem prepared_length (hd : prepared none v = .ok d) : d.length = v.length := by
  obtain ⟨m, -, rfl⟩ := prepared_ok hd
  rw [List.length_map, kept_all, List.length_zipIdx]

theorem prepared_snd (hd : prepared none v = .ok d) : d.map Prod.snd = (List.range v.length).map (· + 1) := by
  obtain ⟨m, -, rfl⟩ := prepared_ok hd
  rw [List.map_map, kept_all]
  have : (Prod.snd ∘ fun p : Option ℚ × Nat => (p.1.getD m, p.2)) = Prod.snd := rfl
  rw [this]
  have h := List.zipIdx_map_snd 1 v
  rw [h, List.range'_eq_map_range]
  exact List.map_congr_left fun i _ => Nat.add_comm 1 i

/-- Without threshold, the fit with a background works on values that are not constant, over some time. -/
theorem transit_background_partial (hd : prepared none v = .ok d) (h0 : topOf (d.map Prod.fst) ≠ 0) (hj : jd.headD 0 < jd.getLastD 0) (hc : bottomOf (normed d) < topOf (normed d)) {p : Fit}
    (hs : solve (d.map fun q => ((q.2 : ℝ), ((q.1 / topOf (d.map Prod.fst) : ℚ) : ℝ))) = .ok p) :
    ∃ r, fitTransit filt solve "gaussian_bkg" none v jd = .ok r ∧ r.popt = p ∧ r.value = (stepsOf v.length).map (fun t => (topOf (d.map Prod.fst) : ℝ) * backOf p t) ∧
      r.chi = logChi (d.map fun q => ((q.1 / topOf (d.map Prod.fst) : ℚ) : ℝ)) r.value := by
  have hb : boundsOk true d jd = .ok () := by
    unfold boundsOk
    rw [if_neg h0, if_neg (not_le.2 hj), if_pos rfl, if_pos hc]
  have hnm : (normed d).map (fun y : ℚ => (y : ℝ)) = d.map fun q => ((q.1 / topOf (d.map Prod.fst) : ℚ) : ℝ) := by
    unfold normed
    rw [List.map_map]
    rfl
  have hsp : spread (d.map fun q => ((q.1 / topOf (d.map Prod.fst) : ℚ) : ℝ)) v.length = .ok (d.map fun q => ((q.1 / topOf (d.map Prod.fst) : ℚ) : ℝ)) := by
    unfold spread
    rw [if_pos (by rw [List.length_map, prepared_length hd])]
  refine ⟨⟨modelled backOf d v.length p, npInterp (d.map fun p => (p.2 : ℝ)) (d.map fun p => jd.getD (p.2 - 1) 0) p.mu,
     logChi (d.map fun q => ((q.1 / topOf (d.map Prod.fst) : ℚ) : ℝ)) (modelled backOf d v.length p), p⟩, ?_, rfl, rfl, rfl⟩
  unfold fitTransit
  rw [if_neg (by decide +kernel), if_pos rfl]
  unfold otherFit
  rw [hd]
  show (boundsOk true d jd).bind _ = _
  rw [hb]
  show (solve _).bind _ = _
  rw [hnm, List.zip_map', hs]
  show (spread _ _).map _ = _
  rw [hsp]
  rfl

/-! ## Quality of the fit -/

theorem gauss_pos (p : Fit) (h : 0 < p.amp) (t : ℝ) : 0 < gaussOf p t := mul_pos h (Real.exp_pos _)

/-- **The quality of the first method** is never negative, and is 0 exactly when the fit goes through all points. -/
theorem transit_chi (p : Fit) (hp : 0 < p.amp) (l : List (ℝ × ℝ)) : 0 ≤ chiOf p l ∧ (chiOf p l = 0 ↔ ∀ q ∈ l, q.2 = gaussOf p q.1) := by
  unfold chiOf
  induction l with
  | nil => exact ⟨le_rfl, (fun _ q h => nomatch h), fun _ => rfl⟩
  | cons q r ih =>
    have hg := gauss_pos p hp q.1
    have h1 : 0 ≤ (q.2 - gaussOf p q.1) ^ 2 / gaussOf p q.1 := div_nonneg (sq_nonneg _) hg.le
    rw [List.map_cons, List.sum_cons, List.forall_mem_cons, ← ih.2]
    refine ⟨add_nonneg h1 ih.1, fun h => ?_, fun h => ?_⟩
    · have h2 : (q.2 - gaussOf p q.1) ^ 2 / gaussOf p q.1 = 0 := by linarith [ih.1]
      have h3 : (q.2 - gaussOf p q.1) ^ 2 = 0 := by
        rcases div_eq_zero_iff.1 h2 with h | h
        · exact h
        · exact absurd h hg.ne'
      exact ⟨by linarith [pow_eq_zero_iff (two_ne_zero) |>.1 h3], by linarith⟩
    · rw [h.1, h.2]
      simp

/-- The quality of the other methods compares values divided by their maximum with fitted values which are not: a fit through all the values gives the sum of
`log(max)² / log(value)`, which is positive for values above 1, and not 0. -/
theorem transit_chi_violated (ys : List ℝ) (M : ℝ) (hM : 0 < M) (hy : ∀ y ∈ ys, 0 < y) (h1 : ∀ y ∈ ys, M * y ≠ 1) :
    logChi ys (ys.map fun y => M * y) = some (ys.map fun y => Real.logb 10 M ^ 2 / Real.logb 10 (M * y)).sum ∧
    (M ≠ 1 → ys ≠ [] → (∀ y ∈ ys, 1 < M * y) → 0 < (ys.map fun y => Real.logb 10 M ^ 2 / Real.logb 10 (M * y)).sum) := by
  constructor
  · unfold logChi
    have hfs : ∀ f ∈ ys.map fun y => M * y, 0 < f ∧ f ≠ 1 := by
      intro f hf
      obtain ⟨y, h2, rfl⟩ := List.mem_map.1 hf
      exact ⟨mul_pos hM (hy y h2), h1 y h2⟩
    refine (if_pos ⟨hy, hfs⟩).trans ?_
    · have hz : ys.zip (ys.map fun y => M * y) = ys.map fun y => (y, M * y) := by
        have := List.zip_map' (f := fun y : ℝ => y) (g := fun y : ℝ => M * y) (l := ys)
        rw [List.map_id'] at this
        exact this
      rw [hz, List.map_map]
      congr 2
      refine List.map_congr_left fun y h2 => ?_
      show (Real.logb 10 y - Real.logb 10 (M * y)) ^ 2 / Real.logb 10 (M * y) = _
      rw [Real.logb_mul hM.ne' (hy y h2).ne']
      congr 1
      ring
  · intro hM1 hne hall
    have hlog : Real.logb 10 M ≠ 0 := by
      rw [Ne, Real.logb_eq_zero]
      push Not
      refine ⟨by norm_num, by norm_num, by norm_num, hM.ne', hM1, by linarith⟩
    refine List.sum_pos _ (fun x hx => ?_) (by simpa using hne)
    obtain ⟨y, h2, rfl⟩ := List.mem_map.1 hx
    exact div_pos (by positivity) (Real.logb_pos (by norm_num) (hall y h2))

/-- With fitted values below 1, the quality of the other methods is at most 0, and lower for worse fits. -/
theorem transit_chi_sign_violated (ys fs : List ℝ) (hy : ∀ y ∈ ys, 0 < y) (hf : ∀ f ∈ fs, 0 < f ∧ f < 1) : ∃ c, logChi ys fs = some c ∧ c ≤ 0 := by
  refine ⟨_, if_pos ⟨hy, fun f h => ⟨(hf f h).1, (hf f h).2.ne⟩⟩, ?_⟩
  have : ∀ l : List (ℝ × ℝ), (∀ q ∈ l, 0 < q.2 ∧ q.2 < 1) → (l.map fun q => (Real.logb 10 q.1 - Real.logb 10 q.2) ^ 2 / Real.logb 10 q.2).sum ≤ 0 := by
    intro l
    induction l with
    | nil => intro _; exact le_rfl
    | cons q r ih =>
      intro h
      obtain ⟨h1, h2⟩ := List.forall_mem_cons.1 h
      rw [List.map_cons, List.sum_cons]
      have : (Real.logb 10 q.1 - Real.logb 10 q.2) ^ 2 / Real.logb 10 q.2 ≤ 0 := div_nonpos_of_nonneg_of_nonpos (sq_nonneg _) (Real.logb_neg (by norm_num) h1.1 h1.2).le
      linarith [ih h2]
  exact this _ fun q hq => hf _ (List.of_mem_zip hq).2

/-! ## Cases -/

/-- A small transit over a level of one. -/
def smallTransit : List ℚ := [1, 1, 1, 1, 4, 8, 8, 4, 1, 1, 1, 1]

example : fitTransit id solve "gaussian" none (smallTransit.map some) jd = .error .valueError := by
  have hd : prepared none (smallTransit.map some) = .ok (smallTransit.zipIdx 1) := by decide +kernel
  exact transit_gaussian_violated hd (fun _ => rfl) 0 6 (by decide +kernel) (by decide +kernel) (by decide +kernel) (by decide +kernel) (by decide +kernel) (by decide +kernel)

example : ∃ d : List (ℚ × Nat), prepared (some 2) [some 1, none, some 3, some 1] = .ok d ∧ d = [(1, 1), (1, 4)] ∧ d.length ≠ 4 := ⟨_, by decide +kernel, rfl, by decide +kernel⟩

end Verif.IO
