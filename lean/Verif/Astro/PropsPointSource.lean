import Verif.Astro.PointSource
import Mathlib.Tactic.Ring
import Mathlib.Tactic.Linarith
import Mathlib.Tactic.NormNum

/-!
# C147: point sources added to a model of the sky
-/

namespace Verif.Astro

/-! ## Helpers -/

theorem added_inv (S : GsmSky) (v : Added) (w : Nat → Nat → Nat → ℝ) (h : addedOf S v = .ok w) :
    (∀ x : ℝ, v = .num x → w = fun _ _ _ => x) ∧ ∀ (t f p : Nat) (x : Nat → Nat → Nat → ℝ), v = .arr t f p x → w = x ∧ t = S.times.length ∧ f = S.nf ∧ p = S.np := by
  cases v with
  | num x =>
    have h : (fun _ _ _ => x) = w := by injection h
    subst h
    exact ⟨fun y hy => by cases hy; rfl, fun t f p x hx => by cases hx⟩
  | arr t f p x =>
    refine ⟨fun y hy => (by cases hy), fun t' f' p' x' hx => ?_⟩
    cases hx
    have h : (if t = S.times.length ∧ f = S.nf ∧ p = S.np then Except.ok x else Except.error Err.assertion) = .ok w := h
    by_cases hc : t = S.times.length ∧ f = S.nf ∧ p = S.np
    · rw [if_pos hc] at h; injection h with h; exact ⟨h.symm, hc⟩
    · rw [if_neg hc] at h; cases h

theorem add_inv (smooth : Option ((Nat → ℝ) → Nat → ℝ)) (S S' : GsmSky) (s s' : Src) (v : Added) (h : addPoint smooth S s v = .ok (S', s')) :
    ∃ w : Nat → Nat → Nat → ℝ, addedOf S v = .ok w ∧ atTimes s S.times = .ok s' ∧ (∀ t < S.times.length, ∃ k : Nat, s'.pix.pixAt t = some k) ∧
      S' = { S with value := fun t f p x => S.value t f p x + shapeOf smooth ((s'.pix.pixAt t).getD 0) (w t f p) x } := by
  unfold addPoint at h
  cases hw : addedOf S v with
  | error e => rw [hw] at h; cases h
  | ok w =>
    cases ha : atTimes s S.times with
    | error e => rw [hw, ha] at h; cases h
    | ok a =>
      rw [hw, ha] at h
      have h : (if (List.range S.times.length).all fun t => (a.pix.pixAt t).isSome then
        Except.ok (({ S with value := fun t f p x => S.value t f p x + shapeOf smooth ((a.pix.pixAt t).getD 0) (w t f p) x } : GsmSky), a)
        else Except.error Err.indexError) = .ok (S', s') := h
      by_cases hc : ((List.range S.times.length).all fun t => (a.pix.pixAt t).isSome) = true
      · rw [if_pos hc] at h
        injection h with h
        injection h with h1 h2
        subst h2
        refine ⟨w, rfl, rfl, fun t ht => ?_, h1.symm⟩
        rw [List.all_eq_true] at hc
        exact Option.isSome_iff_exists.1 (hc t (List.mem_range.2 ht))
      · rw [if_neg hc] at h; cases h

theorem add_ok (smooth : Option ((Nat → ℝ) → Nat → ℝ)) (S : GsmSky) (s s' : Src) (v : Added) (w : Nat → Nat → Nat → ℝ) (hw : addedOf S v = .ok w)
    (ha : atTimes s S.times = .ok s') (hp : ∀ t < S.times.length, ∃ k : Nat, s'.pix.pixAt t = some k) :
    addPoint smooth S s v = .ok ({ S with value := fun t f p x => S.value t f p x + shapeOf smooth ((s'.pix.pixAt t).getD 0) (w t f p) x }, s') := by
  unfold addPoint
  rw [hw]
  show (atTimes s S.times).bind _ = _
  rw [ha]
  refine if_pos ?_
  rw [List.all_eq_true]
  intro t ht
  exact Option.isSome_iff_exists.2 (hp t (List.mem_range.1 ht))

theorem times_self (times : List ℚ) : allClose times times = .ok true := by
  unfold allClose
  rw [if_pos rfl]
  congr 1
  rw [List.all_eq_true]
  intro p hp
  have he : p.1 = p.2 := by
    obtain ⟨i, hi, rfl⟩ := List.getElem_of_mem hp
    rw [List.getElem_zip]
  unfold isClose
  rw [he, sub_self, abs_zero]
  refine decide_eq_true ?_
  have := abs_nonneg p.2
  positivity

/-! ## What is added -/

/-- What the user asks to add: a number stands for all times, frequencies and polarisations. -/
def asked : Added → Nat → Nat → Nat → ℝ
  | .num y, _, _, _ => y
  | .arr _ _ _ y, t, f, p => y t f p

/-- Without angular size, exactly the value is added at the pixel of the source, for each time, frequency and polarisation, and nothing elsewhere. -/
theorem point_adds (S S' : GsmSky) (s s' : Src) (v : Added) (h : addPoint none S s v = .ok (S', s')) :
    S'.times = S.times ∧ S'.nf = S.nf ∧ S'.np = S.np ∧ S'.npix = S.npix ∧
      ∀ t < S.times.length, ∃ k : Nat, s'.pix.pixAt t = some k ∧ ∀ f p x : Nat,
        S'.value t f p x = if x = k then S.value t f p x + asked v t f p else S.value t f p x := by
  obtain ⟨w, hw, ha, hp, rfl⟩ := add_inv none S S' s s' v h
  refine ⟨rfl, rfl, rfl, rfl, fun t ht => ?_⟩
  obtain ⟨k, hk⟩ := hp t ht
  refine ⟨k, hk, fun f p x => ?_⟩
  have hwv : w t f p = asked v t f p := by
    cases v with
    | num y => rw [(added_inv S _ w hw).1 y rfl]; rfl
    | arr a b c y => rw [((added_inv S _ w hw).2 a b c y rfl).1]; rfl
  rw [← hwv]
  show S.value t f p x + (if x = (s'.pix.pixAt t).getD 0 then w t f p else 0) = _
  rw [hk]
  show S.value t f p x + (if x = k then w t f p else 0) = _
  by_cases hx : x = k
  · rw [if_pos hx, if_pos hx]
  · rw [if_neg hx, if_neg hx, add_zero]

/-- An array is accepted only with the shape (times, frequencies, polarisations) of the sky. -/
theorem point_shape (smooth : Option ((Nat → ℝ) → Nat → ℝ)) (S : GsmSky) (s : Src) (t f p : Nat) (x : Nat → Nat → Nat → ℝ) (h : ¬(t = S.times.length ∧ f = S.nf ∧ p = S.np)) :
    addPoint smooth S s (.arr t f p x) = .error .assertion := by
  have : addedOf S (.arr t f p x) = .error .assertion := if_neg h
  unfold addPoint; rw [this]; rfl

/-- The number `y` is the array whose elements are all `y`. -/
theorem point_scalar (smooth : Option ((Nat → ℝ) → Nat → ℝ)) (S : GsmSky) (s : Src) (y : ℝ) :
    addPoint smooth S s (.num y) = addPoint smooth S s (.arr S.times.length S.nf S.np fun _ _ _ => y) := by
  have : addedOf S (.arr S.times.length S.nf S.np fun _ _ _ => y) = addedOf S (.num y) := if_pos ⟨rfl, rfl, rfl⟩
  unfold addPoint; rw [this]

/-- Two sources may be added in any order. -/
theorem point_order (S S1 S2 S3 S4 : GsmSky) (a b a1 a2 b1 b2 : Src) (y z : ℝ) (h1 : addPoint none S a (.num y) = .ok (S1, a1)) (h2 : addPoint none S1 b (.num z) = .ok (S2, b1))
    (h3 : addPoint none S b (.num z) = .ok (S3, b2)) (h4 : addPoint none S3 a (.num y) = .ok (S4, a2)) : S2 = S4 := by
  obtain ⟨w1, hw1, ha1, -, rfl⟩ := add_inv none S S1 a a1 _ h1
  obtain ⟨w2, hw2, ha2, -, rfl⟩ := add_inv none _ S2 b b1 _ h2
  obtain ⟨w3, hw3, ha3, -, rfl⟩ := add_inv none S S3 b b2 _ h3
  obtain ⟨w4, hw4, ha4, -, rfl⟩ := add_inv none _ S4 a a2 _ h4
  have e1 := (added_inv _ _ w1 hw1).1 y rfl
  have e2 := (added_inv _ _ w2 hw2).1 z rfl
  have e3 := (added_inv _ _ w3 hw3).1 z rfl
  have e4 := (added_inv _ _ w4 hw4).1 y rfl
  subst e1; subst e2; subst e3; subst e4
  have q1 : b1 = b2 := by
    have ha2 : atTimes b S.times = .ok b1 := ha2
    rw [ha3] at ha2; injection ha2 with ha2; exact ha2.symm
  have q2 : a1 = a2 := by
    have ha4 : atTimes a S.times = .ok a2 := ha4
    rw [ha1] at ha4; injection ha4
  subst q1; subst q2
  show ({ S with value := _ } : GsmSky) = { S with value := _ }
  congr 1
  funext t f p x
  ring

/-! ## Where it is added -/

/-- A body whose positions are those at the times of the sky is added at its position of each time. -/
theorem point_moves (smooth : Option ((Nat → ℝ) → Nat → ℝ)) (S : GsmSky) (e : ℚ → Nat) (y : ℝ) :
    ∃ S' : GsmSky, addPoint smooth S ⟨S.times, .many (S.times.map e), some e⟩ (.num y) = .ok (S', ⟨S.times, .many (S.times.map e), some e⟩) ∧
      ∀ t < S.times.length, ∀ f p x : Nat, S'.value t f p x = S.value t f p x + shapeOf smooth (e (S.times.getD t 0)) y x := by
  have ha : atTimes ⟨S.times, .many (S.times.map e), some e⟩ S.times = .ok ⟨S.times, .many (S.times.map e), some e⟩ := by
    unfold atTimes
    show (allClose S.times S.times).map _ = _
    rw [times_self]; rfl
  have hp : ∀ t < S.times.length, (SrcPix.many (S.times.map e)).pixAt t = some (e (S.times.getD t 0)) := by
    intro t ht
    show (S.times.map e)[t]? = _
    rw [List.getElem?_map, List.getElem?_eq_getElem ht, List.getD_eq_getElem?_getD, List.getElem?_eq_getElem ht]; rfl
  refine ⟨_, add_ok smooth S _ _ (.num y) (fun _ _ _ => y) rfl ha (fun t ht => ⟨_, hp t ht⟩), fun t ht f p x => ?_⟩
  show S.value t f p x + shapeOf smooth (((SrcPix.many (S.times.map e)).pixAt t).getD 0) y x = _
  rw [hp t ht]; rfl

/-- A fixed source is added at its position at all times, whatever its own times, when their numbers can be compared. -/
theorem point_fixed_partial (smooth : Option ((Nat → ℝ) → Nat → ℝ)) (S : GsmSky) (times : List ℚ) (k : Nat) (y : ℝ)
    (hl : times.length = S.times.length ∨ times.length = 1 ∨ S.times.length = 1) :
    ∃ (S' : GsmSky) (s' : Src), addPoint smooth S ⟨times, .one k, none⟩ (.num y) = .ok (S', s') ∧
      ∀ t f p x : Nat, S'.value t f p x = S.value t f p x + shapeOf smooth k y x := by
  obtain ⟨b, hb⟩ : ∃ b : Bool, allClose times S.times = .ok b := by
    unfold allClose
    by_cases h1 : times.length = S.times.length
    · rw [if_pos h1]; exact ⟨_, rfl⟩
    · rw [if_neg h1]
      by_cases h2 : times.length = 1
      · rw [if_pos h2]; exact ⟨_, rfl⟩
      · rw [if_neg h2, if_pos (by tauto)]; exact ⟨_, rfl⟩
  obtain ⟨s', hs, hpix⟩ : ∃ s' : Src, atTimes ⟨times, .one k, none⟩ S.times = .ok s' ∧ s'.pix = .one k := by
    unfold atTimes
    cases b with
    | true => exact ⟨⟨times, .one k, none⟩, (by show (allClose times S.times).map _ = _; rw [hb]; rfl), rfl⟩
    | false => exact ⟨⟨S.times, .one k, none⟩, (by show (allClose times S.times).map _ = _; rw [hb]; rfl), rfl⟩
  refine ⟨_, s', add_ok smooth S _ s' (.num y) (fun _ _ _ => y) rfl hs (fun t _ => ⟨k, by rw [hpix]; rfl⟩), fun t f p x => ?_⟩
  show S.value t f p x + shapeOf smooth ((s'.pix.pixAt t).getD 0) y x = _
  rw [hpix]; rfl

/-- Times which differ by less than 24 days are taken as equal. -/
theorem near_days (a b : ℚ) (hb : 2400000 ≤ b) (h : |a - b| ≤ 24) : isClose a b = true := by
  refine decide_eq_true ?_
  rw [abs_of_nonneg (by linarith : (0 : ℚ) ≤ b)]
  have : (24 : ℚ) ≤ b / 10 ^ 5 := by
    rw [le_div_iff₀ (by norm_num)]; linarith
  have : (0 : ℚ) ≤ 1 / 10 ^ 8 := by norm_num
  linarith

/-- A body positioned at a date is added to the skies of other dates, up to 24 days away, at its position of the former date. -/
theorem point_stale_violated (smooth : Option ((Nat → ℝ) → Nat → ℝ)) (S : GsmSky) (e : ℚ → Nat) (t0 : ℚ) (y : ℝ) (hj : ∀ t ∈ S.times, 2400000 ≤ t)
    (hn : ∀ t ∈ S.times, |t0 - t| ≤ 24) :
    ∃ S' : GsmSky, addPoint smooth S ⟨[t0], .one (e t0), some e⟩ (.num y) = .ok (S', ⟨[t0], .one (e t0), some e⟩) ∧
      ∀ t f p x : Nat, S'.value t f p x = S.value t f p x + shapeOf smooth (e t0) y x := by
  have hc : allClose [t0] S.times = .ok true := by
    unfold allClose
    by_cases h1 : [t0].length = S.times.length
    · rw [if_pos h1]
      congr 1
      rw [List.all_eq_true]
      intro p hp
      have h2 := List.of_mem_zip hp
      have h3 : p.1 = t0 := List.mem_singleton.1 h2.1
      rw [h3]
      exact near_days t0 p.2 (hj _ h2.2) (hn _ h2.2)
    · rw [if_neg h1, if_pos (show [t0].length = 1 from rfl)]
      congr 1
      rw [List.all_eq_true]
      exact fun t ht => near_days t0 t (hj t ht) (hn t ht)
  have ha : atTimes ⟨[t0], .one (e t0), some e⟩ S.times = .ok ⟨[t0], .one (e t0), some e⟩ := by
    unfold atTimes
    show (allClose [t0] S.times).map _ = _
    rw [hc]; rfl
  exact ⟨_, add_ok smooth S _ _ (.num y) (fun _ _ _ => y) rfl ha (fun t _ => ⟨e t0, rfl⟩), fun t f p x => rfl⟩

/-- A body positioned at an array of one time cannot be added to a sky of two times or more within 24 days. -/
theorem point_single_violated (smooth : Option ((Nat → ℝ) → Nat → ℝ)) (S : GsmSky) (e : ℚ → Nat) (t0 : ℚ) (y : ℝ) (hj : ∀ t ∈ S.times, 2400000 ≤ t)
    (hn : ∀ t ∈ S.times, |t0 - t| ≤ 24) (hl : 2 ≤ S.times.length) : addPoint smooth S ⟨[t0], .many [e t0], some e⟩ (.num y) = .error .indexError := by
  have hc : allClose [t0] S.times = .ok true := by
    unfold allClose
    rw [if_neg (by show ¬(1 = S.times.length); omega), if_pos (show [t0].length = 1 from rfl)]
    congr 1
    rw [List.all_eq_true]
    exact fun t ht => near_days t0 t (hj t ht) (hn t ht)
  have ha : atTimes ⟨[t0], .many [e t0], some e⟩ S.times = .ok ⟨[t0], .many [e t0], some e⟩ := by
    unfold atTimes
    show (allClose [t0] S.times).map _ = _
    rw [hc]; rfl
  unfold addPoint
  show (atTimes ⟨[t0], .many [e t0], some e⟩ S.times).bind _ = _
  rw [ha]
  refine if_neg ?_
  intro h
  rw [List.all_eq_true] at h
  have := h 1 (List.mem_range.2 (by omega))
  exact absurd this (by show ¬(([e t0])[1]?).isSome = true; simp)

/-- Any source with another number of times than the sky, neither being one, is refused instead of being computed at the times of the sky. -/
theorem point_sizes_violated (smooth : Option ((Nat → ℝ) → Nat → ℝ)) (S : GsmSky) (s : Src) (y : ℝ) (h : s.times.length ≠ S.times.length) (h1 : s.times.length ≠ 1)
    (h2 : S.times.length ≠ 1) : addPoint smooth S s (.num y) = .error .valueError := by
  have hc : allClose s.times S.times = .error .valueError := by
    unfold allClose; rw [if_neg h, if_neg h1, if_neg h2]
  unfold addPoint
  show (atTimes s S.times).bind _ = _
  unfold atTimes
  rw [hc]; rfl

/-- A body positioned more than 30 days away from one of the times of the sky is computed again for all of them (until the year 3500). -/
theorem point_far (smooth : Option ((Nat → ℝ) → Nat → ℝ)) (S : GsmSky) (s : Src) (e : ℚ → Nat) (y : ℝ) (he : s.ephem = some e) (hl : s.times.length = 1)
    (hj : ∀ t ∈ S.times, 0 ≤ t ∧ t ≤ 2999999) (hfar : ∃ t ∈ S.times, 30 < |s.times.getD 0 0 - t|) :
    ∃ S' : GsmSky, addPoint smooth S s (.num y) = .ok (S', ⟨S.times, .many (S.times.map e), some e⟩) ∧
      ∀ t < S.times.length, ∀ f p x : Nat, S'.value t f p x = S.value t f p x + shapeOf smooth (e (S.times.getD t 0)) y x := by
  have hno : ∀ a b : ℚ, 0 ≤ b → b ≤ 2999999 → 30 < |a - b| → isClose a b = false := by
    intro a b h0 h1 h2
    refine decide_eq_false ?_
    rw [not_le, abs_of_nonneg h0]
    refine lt_of_le_of_lt ?_ h2
    have : b / 10 ^ 5 ≤ 2999999 / 10 ^ 5 := by
      rw [div_le_div_iff_of_pos_right (by norm_num)]; exact h1
    have h3 : (1 : ℚ) / 10 ^ 8 + 2999999 / 10 ^ 5 ≤ 30 := by norm_num
    linarith
  obtain ⟨t, ht, hf⟩ := hfar
  obtain ⟨t0, hs⟩ := List.length_eq_one_iff.1 hl
  have hf' : 30 < |t0 - t| := by rw [hs] at hf; exact hf
  have hc : allClose s.times S.times = .ok false := by
    unfold allClose
    by_cases h1 : s.times.length = S.times.length
    · rw [if_pos h1]
      congr 1
      rw [List.all_eq_false]
      rw [hl] at h1
      obtain ⟨u, hu⟩ := List.length_eq_one_iff.1 h1.symm
      rw [hu, List.mem_singleton] at ht
      subst ht
      rw [hs, hu]
      exact ⟨(t0, t), List.mem_cons_self, by rw [hno t0 t (hj t (by rw [hu]; exact List.mem_cons_self)).1 (hj t (by rw [hu]; exact List.mem_cons_self)).2 hf']; decide⟩
    · rw [if_neg h1, if_pos hl]
      congr 1
      rw [List.all_eq_false]
      refine ⟨t, ht, ?_⟩
      rw [hs]
      show ¬isClose t0 t = true
      rw [hno t0 t (hj t ht).1 (hj t ht).2 hf']; decide
  have ha : atTimes s S.times = .ok ⟨S.times, .many (S.times.map e), some e⟩ := by
    unfold atTimes
    rw [hc]
    show Except.ok (s.update S.times) = _
    unfold Src.update
    rw [he]; rfl
  have hp : ∀ t < S.times.length, (SrcPix.many (S.times.map e)).pixAt t = some (e (S.times.getD t 0)) := by
    intro t ht
    show (S.times.map e)[t]? = _
    rw [List.getElem?_map, List.getElem?_eq_getElem ht, List.getD_eq_getElem?_getD, List.getElem?_eq_getElem ht]; rfl
  refine ⟨_, add_ok smooth S _ _ (.num y) (fun _ _ _ => y) rfl ha (fun t ht => ⟨_, hp t ht⟩), fun t ht f p x => ?_⟩
  show S.value t f p x + shapeOf smooth (((SrcPix.many (S.times.map e)).pixAt t).getD 0) y x = _
  rw [hp t ht]; rfl

/-! ## Extended sources and signal to noise ratios -/

/-- With an angular size, the sky never decreases, even for negative values. -/
theorem point_negative_violated (g : (Nat → ℝ) → Nat → ℝ) (S S' : GsmSky) (s s' : Src) (v : Added) (h : addPoint (some g) S s v = .ok (S', s')) (t f p x : Nat) :
    S.value t f p x ≤ S'.value t f p x := by
  obtain ⟨w, -, -, -, rfl⟩ := add_inv (some g) S S' s s' v h
  show S.value t f p x ≤ S.value t f p x + |g (onePixel ((s'.pix.pixAt t).getD 0) (w t f p)) x|
  have := abs_nonneg (g (onePixel ((s'.pix.pixAt t).getD 0) (w t f p)) x)
  linarith

/-- With an angular size for which nothing is smoothed, a value and its opposite do the same. -/
theorem point_sign_violated (S S1 S2 : GsmSky) (s s1 s2 : Src) (y : ℝ) (h1 : addPoint (some id) S s (.num y) = .ok (S1, s1))
    (h2 : addPoint (some id) S s (.num (-y)) = .ok (S2, s2)) : S1 = S2 := by
  obtain ⟨w1, hw1, ha1, -, rfl⟩ := add_inv (some id) S S1 s s1 _ h1
  obtain ⟨w2, hw2, ha2, -, rfl⟩ := add_inv (some id) S S2 s s2 _ h2
  have e1 := (added_inv _ _ w1 hw1).1 y rfl
  have e2 := (added_inv _ _ w2 hw2).1 (-y) rfl
  subst e1; subst e2
  have q : s1 = s2 := by rw [ha1] at ha2; injection ha2
  subst q
  congr 1
  funext t f p x
  congr 1
  show |onePixel _ y x| = |onePixel _ (-y) x|
  unfold onePixel
  by_cases hx : x = (s1.pix.pixAt t).getD 0
  · rw [if_pos hx, if_pos hx, abs_neg]
  · rw [if_neg hx, if_neg hx]

/-- With a ratio, the pixel of the source gains the mean of the map and `snr` times its deviation. -/
theorem snr_exact (S S' : GsmSky) (s s' : Src) (snr : ℝ) (h : addSnr none S s snr = .ok (S', s')) :
    ∀ t < S.times.length, ∃ k : Nat, s'.pix.pixAt t = some k ∧ ∀ f p x : Nat, S'.value t f p x =
      if x = k then S.value t f p x + (skyMean S.npix (S.value t f p) + snr * skyStd S.npix (S.value t f p)) else S.value t f p x :=
  (point_adds S S' s s' _ h).2.2.2.2

/-- The excess of the pixel over the mean of the map, in deviations of this map, is the ratio asked for plus what the pixel had: it is the ratio only where the map is 0. -/
theorem snr_level_violated (S S' : GsmSky) (s s' : Src) (snr : ℝ) (h : addSnr none S s snr = .ok (S', s')) (t f p : Nat) (ht : t < S.times.length)
    (hd : 0 < skyStd S.npix (S.value t f p)) :
    ∃ k : Nat, s'.pix.pixAt t = some k ∧ ((S'.value t f p k - skyMean S.npix (S.value t f p)) / skyStd S.npix (S.value t f p) = snr ↔ S.value t f p k = 0) := by
  obtain ⟨k, hk, hv⟩ := snr_exact S S' s s' snr h t ht
  refine ⟨k, hk, ?_⟩
  rw [hv f p k, if_pos rfl, div_eq_iff hd.ne']
  constructor <;> intro h <;> linarith

/-- On a flat sky all ratios give the same result: twice the sky. -/
theorem snr_flat_violated (S S' : GsmSky) (s s' : Src) (snr c : ℝ) (hn : 0 < S.npix) (hc : ∀ t f p x : Nat, S.value t f p x = c) (h : addSnr none S s snr = .ok (S', s')) (t f p : Nat)
    (ht : t < S.times.length) : ∃ k : Nat, s'.pix.pixAt t = some k ∧ S'.value t f p k = 2 * c := by
  obtain ⟨k, hk, hv⟩ := snr_exact S S' s s' snr h t ht
  have hn' : (S.npix : ℝ) ≠ 0 := by exact_mod_cast hn.ne'
  have hm : skyMean S.npix (S.value t f p) = c := by
    unfold skyMean
    rw [show S.value t f p = fun _ => c from funext (hc t f p), List.map_const', List.length_range, List.sum_replicate, nsmul_eq_mul]
    field_simp
  have hsd : skyStd S.npix (S.value t f p) = 0 := by
    unfold skyStd
    rw [hm]
    have : (fun i => (S.value t f p i - c) ^ 2) = fun _ => (0 : ℝ) := by
      funext i; rw [hc]; ring
    rw [this, List.map_const', List.sum_replicate, smul_zero, zero_div, Real.sqrt_zero]
  refine ⟨k, hk, ?_⟩
  rw [hv f p k, if_pos rfl, hm, hsd, hc]; ring

/-- The mean, not the median announced: on a map of zeros (the median of three pixels or more) with one other pixel `q` of value `m`, the source of ratio zero, wherever it is, gets `m / npix`. -/
theorem snr_median_violated (S S' : GsmSky) (s s' : Src) (h : addSnr none S s 0 = .ok (S', s')) (t f p q : Nat) (m : ℝ) (ht : t < S.times.length) (hq : q < S.npix)
    (hv : ∀ x : Nat, S.value t f p x = if x = q then m else 0) :
    ∃ k : Nat, s'.pix.pixAt t = some k ∧ S'.value t f p k = S.value t f p k + m / S.npix := by
  obtain ⟨k, hk, hw⟩ := snr_exact S S' s s' 0 h t ht
  refine ⟨k, hk, ?_⟩
  rw [hw f p k, if_pos rfl, zero_mul, add_zero]
  congr 1
  unfold skyMean
  congr 1
  have e : S.value t f p = fun x => if x = q then m else 0 := funext hv
  rw [e]
  have : ∀ n : Nat, ((List.range n).map fun x => if x = q then m else 0).sum = if q < n then m else 0 := by
    intro n
    induction n with
    | zero => simp
    | succ n ih =>
      rw [List.range_succ, List.map_append, List.sum_append, ih]
      rcases lt_trichotomy q n with h1 | rfl | h1
      · rw [if_pos h1, if_pos (by omega)]; simp; omega
      · rw [if_neg (by omega), if_pos (by omega)]; simp
      · rw [if_neg (by omega), if_neg (by omega)]; simp; omega
  rw [this, if_pos hq]

/-! ## Examples -/

/-- A sky of two times, one frequency, 12 pixels. -/
noncomputable def smallSky : GsmSky := ⟨[2460000, 2460001], 1, 1, 12, fun _ _ _ x => x⟩

example : (∀ t ∈ smallSky.times, 2400000 ≤ t) ∧ (∀ t ∈ smallSky.times, |(2460020 : ℚ) - t| ≤ 24) ∧ 2 ≤ smallSky.times.length := by
  refine ⟨?_, ?_, by decide⟩ <;> simp [smallSky] <;> norm_num

example : ∃ (S' : GsmSky) (s' : Src), addPoint none smallSky ⟨[2460000, 2460001], .many [3, 4], some fun t => if t = 2460000 then 3 else 4⟩ (.num 5) = .ok (S', s') ∧
    S'.value 1 0 0 4 = 9 ∧ S'.value 1 0 0 3 = 3 := by
  obtain ⟨S', h1, h2⟩ := point_moves none smallSky (fun t => if t = 2460000 then 3 else 4) 5
  have e : smallSky.times.map (fun t : ℚ => if t = 2460000 then 3 else 4) = [3, 4] := by
    show [(if (2460000 : ℚ) = 2460000 then 3 else 4), (if (2460001 : ℚ) = 2460000 then 3 else 4)] = [3, 4]
    norm_num
  rw [e] at h1
  refine ⟨S', _, h1, ?_, ?_⟩
  · rw [h2 1 (by decide) 0 0 4]
    show ((4 : Nat) : ℝ) + (if (4 : Nat) = (if (2460001 : ℚ) = 2460000 then 3 else 4) then 5 else 0) = 9
    norm_num
  · rw [h2 1 (by decide) 0 0 3]
    show ((3 : Nat) : ℝ) + (if (3 : Nat) = (if (2460001 : ℚ) = 2460000 then 3 else 4) then 5 else 0) = 3
    norm_num

example : ∃ t ∈ smallSky.times, 30 < |([2459900] : List ℚ).getD 0 0 - t| := ⟨2460000, by simp [smallSky], by norm_num⟩

end Verif.Astro
