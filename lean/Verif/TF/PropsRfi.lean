import Verif.TF.LemmasRfi
import Mathlib.Analysis.InnerProductSpace.PiL2
import Mathlib.Analysis.InnerProductSpace.Projection.Minimal
import Mathlib.RingTheory.Polynomial.Basic

/-!
# Properties of the clipping of interferences (claim C125)
-/

namespace Verif.TF

/-! ## Specification -/

/-- `fit` is what `np.polyfit` does at the degree `deg`, whenever there are more points than the degree. -/
def FitsDegree (fit : List (ℝ × ℝ) → Polynomial ℝ) (deg : Nat) : Prop :=
  ∀ pts : List (ℝ × ℝ), (pts.map Prod.fst).Nodup → deg < pts.length → IsLeastSquares deg pts (fit pts)

/-- All values multiplied by `c`. -/
def scaled (c : ℝ) (d : Nat → Nat → Nat → Option ℝ) : Nat → Nat → Nat → Option ℝ := fun t f p => (d t f p).map (c * ·)

/-- The median of the absolute values is `m` at each time (over frequencies) and at each frequency (over times), for each polarisation. -/
def FlatData (nt nf np : Nat) (d : Nat → Nat → Nat → Option ℝ) (m : ℝ) : Prop :=
  (∀ t < nt, ∀ p < np, medianBy midReal ((List.range nf).filterMap fun f => (d t f p).map fun x => |x|) = some m) ∧
  ∀ f < nf, ∀ p < np, medianBy midReal ((List.range nt).filterMap fun t => (d t f p).map fun x => |x|) = some m

/-! ## Multiplied data -/

theorem level_scaled (c : ℝ) (hc : 0 < c) (nm : Nat) (d : Nat → Nat → Nat → Option ℝ) (o p : Nat) :
    levelAt nm (scaled c d) o p = (levelAt nm d o p).map (c * ·) := by
  unfold levelAt
  rw [← medianBy_map (c * ·) (fun a b h => mul_le_mul_of_nonneg_left h hc.le) midReal midReal (fun a b => by unfold midReal; ring)]
  congr 1
  rw [List.map_filterMap]
  refine List.filterMap_congr fun k _ => ?_
  unfold scaled
  cases d o k p with
  | none => rfl
  | some x => exact congrArg some (by show |c * x| = c * |x|; rw [abs_mul, abs_of_pos hc])

theorem foldMax_map (c : ℝ) (hc : 0 < c) (l : List ℝ) :
    (l.map (c * ·)).foldr (fun x acc => some (acc.elim x fun y => max x y)) (none : Option ℝ) =
      (l.foldr (fun x acc => some (acc.elim x fun y => max x y)) (none : Option ℝ)).map (c * ·) := by
  induction l with
  | nil => rfl
  | cons a l ih =>
    rw [List.map_cons, List.foldr_cons, List.foldr_cons, ih]
    cases l.foldr (fun x acc => some (acc.elim x fun y => max x y)) (none : Option ℝ) with
    | none => rfl
    | some y => exact congrArg some (by show max (c * a) (c * y) = c * max a y; rw [mul_max_of_nonneg _ _ hc.le])

theorem top_scaled (c : ℝ) (hc : 0 < c) (no nm np : Nat) (d : Nat → Nat → Nat → Option ℝ) :
    topLevel no nm np (scaled c d) = (topLevel no nm np d).map (c * ·) := by
  unfold topLevel
  rw [← foldMax_map c hc]
  congr 1
  rw [List.map_flatMap]
  congr 1
  funext o
  rw [List.map_filterMap]
  exact List.filterMap_congr fun p _ => level_scaled c hc nm d o p

/-- Multiplication of values which may be infinite. -/
noncomputable def mulTop (c : ℝ) (x : WithTop ℝ) : WithTop ℝ := x.map (c * ·)

theorem mulTop_mono (c : ℝ) (hc : 0 < c) : Monotone (mulTop c) := by
  intro a b h
  unfold mulTop
  exact WithTop.monotone_map_iff.2 (fun x y h => mul_le_mul_of_nonneg_left h hc.le) h

theorem mulTop_lt (c : ℝ) (hc : 0 < c) (a : ℝ) (b : WithTop ℝ) : ((c * a : ℝ) : WithTop ℝ) < mulTop c b ↔ (a : WithTop ℝ) < b := by
  cases b with
  | top => exact ⟨fun _ => WithTop.coe_lt_top a, fun _ => WithTop.coe_lt_top (c * a)⟩
  | coe b =>
    show ((c * a : ℝ) : WithTop ℝ) < ((c * b : ℝ) : WithTop ℝ) ↔ _
    rw [WithTop.coe_lt_coe, WithTop.coe_lt_coe]
    exact mul_lt_mul_iff_right₀ hc

theorem midTop_mul (c : ℝ) (a b : WithTop ℝ) : midTop (mulTop c a) (mulTop c b) = mulTop c (midTop a b) := by
  cases a with
  | top => rfl
  | coe a =>
    cases b with
    | top => rfl
    | coe b =>
      show (((c * a + c * b) / 2 : ℝ) : WithTop ℝ) = ((c * ((a + b) / 2) : ℝ) : WithTop ℝ)
      congr 1
      ring

theorem quotTop_scaled (c x r : ℝ) (hc : 0 < c) : quotTop (c * x) r = (quotTop x r).map (mulTop c) := by
  unfold quotTop
  by_cases hr : r = 0
  · rw [if_pos hr, if_pos hr]
    by_cases hx : x = 0
    · rw [if_pos (by rw [hx, mul_zero]), if_pos hx]; rfl
    · rw [if_neg (mul_ne_zero hc.ne' hx), if_neg hx]; rfl
  · rw [if_neg hr, if_neg hr]
    show some (((c * x / r : ℝ)) : WithTop ℝ) = some ((c * (x / r) : ℝ) : WithTop ℝ)
    rw [mul_div_assoc]

theorem flat_scaled (c : ℝ) (hc : 0 < c) (no nm np : Nat) (d : Nat → Nat → Nat → Option ℝ) (o k p : Nat) :
    flatAt no nm np (scaled c d) o k p = (flatAt no nm np d o k p).map (mulTop c) := by
  unfold flatAt
  rw [level_scaled c hc, top_scaled c hc]
  show ((d o k p).map (c * ·)).bind _ = _
  cases d o k p with
  | none => rfl
  | some x =>
    cases levelAt nm d o p with
    | none => rfl
    | some m =>
      cases topLevel no nm np d with
      | none => rfl
      | some M =>
        show (if c * M = 0 then none else quotTop |c * x| (c * m / (c * M))) = Option.map (mulTop c) (if M = 0 then none else quotTop |x| (m / M))
        by_cases hM : M = 0
        · rw [if_pos hM, if_pos (by rw [hM, mul_zero])]; rfl
        · rw [if_neg hM, if_neg (mul_ne_zero hc.ne' hM), mul_div_mul_left _ _ hc.ne', abs_mul, abs_of_pos hc, quotTop_scaled c _ _ hc]

theorem finiteLog_scaled (c : ℝ) (hc : 0 < c) (x : WithTop ℝ) : finiteLog (mulTop c x) = (finiteLog x).map (· + Real.logb 10 c) := by
  cases x with
  | top =>
    have h : finiteLog (⊤ : WithTop ℝ) = none := if_neg (by simp)
    show finiteLog (⊤ : WithTop ℝ) = _
    rw [h]
    rfl
  | coe y =>
    unfold finiteLog
    show (if 0 < c * y then some (Real.logb 10 (c * y)) else none) = Option.map _ (if 0 < y then some (Real.logb 10 y) else none)
    by_cases hy : 0 < y
    · rw [if_pos hy, if_pos (mul_pos hc hy), Real.logb_mul hc.ne' hy.ne', add_comm]
      rfl
    · rw [if_neg hy, if_neg (fun h => hy ((mul_pos_iff_of_pos_left hc).1 h))]
      rfl

theorem profile_scaled (c : ℝ) (hc : 0 < c) (no nm np : Nat) (d : Nat → Nat → Nat → Option ℝ) (k p : Nat) :
    profileAt no nm np (scaled c d) k p = (profileAt no nm np d k p).map (· + Real.logb 10 c) := by
  unfold profileAt
  have e : ((List.range no).filterMap fun o => flatAt no nm np (scaled c d) o k p) =
      ((List.range no).filterMap fun o => flatAt no nm np d o k p).map (mulTop c) := by
    rw [List.map_filterMap]
    exact List.filterMap_congr fun o _ => flat_scaled c hc no nm np d o k p
  rw [e, medianBy_map (mulTop c) (mulTop_mono c hc) midTop midTop (midTop_mul c)]
  cases medianBy midTop ((List.range no).filterMap fun o => flatAt no nm np d o k p) with
  | none => rfl
  | some x => exact finiteLog_scaled c hc x

theorem good_scaled (c : ℝ) (hc : 0 < c) (no nm np : Nat) (d : Nat → Nat → Nat → Option ℝ) :
    goodRanks no nm np (scaled c d) = goodRanks no nm np d := by
  unfold goodRanks
  congr 1
  funext k
  congr 1
  funext p
  rw [profile_scaled c hc, Option.isSome_map]

theorem good_some (no nm np : Nat) (d : Nat → Nat → Nat → Option ℝ) (k p : Nat) (hk : k ∈ goodRanks no nm np d) (hp : p < np) :
    ∃ y, profileAt no nm np d k p = some y := by
  have := (List.mem_filter.1 hk).2
  exact Option.isSome_iff_exists.1 (List.all_eq_true.1 this p (List.mem_range.2 hp))

theorem points_scaled (c : ℝ) (hc : 0 < c) (no nm np : Nat) (d : Nat → Nat → Nat → Option ℝ) (p : Nat) (hp : p < np) :
    fitPoints no nm np (scaled c d) p = (fitPoints no nm np d p).map fun q => (q.1, q.2 + Real.logb 10 c) := by
  unfold fitPoints
  rw [good_scaled c hc, List.map_map]
  refine List.map_congr_left fun k hk => ?_
  obtain ⟨y, hy⟩ := good_some no nm np d k p hk hp
  rw [profile_scaled c hc, hy]
  show _ = ((k : ℝ), (profileAt no nm np d k p).getD 0 + Real.logb 10 c)
  rw [hy]
  rfl

theorem points_nodup (no nm np : Nat) (d : Nat → Nat → Nat → Option ℝ) (p : Nat) : ((fitPoints no nm np d p).map Prod.fst).Nodup := by
  unfold fitPoints
  rw [List.map_map]
  exact List.Nodup.map_on (fun a _ b _ h => Nat.cast_injective (R := ℝ) h) ((List.nodup_range).filter _)

theorem points_length (no nm np : Nat) (d : Nat → Nat → Nat → Option ℝ) (p : Nat) :
    (fitPoints no nm np d p).length = (goodRanks no nm np d).length := by
  unfold fitPoints
  rw [List.length_map]

theorem smooth_scaled (fit : List (ℝ × ℝ) → Polynomial ℝ) (deg : Nat) (hfit : FitsDegree fit deg) (c : ℝ) (hc : 0 < c) (no nm np : Nat)
    (d : Nat → Nat → Nat → Option ℝ) (hg : deg < (goodRanks no nm np d).length) (k p : Nat) (hp : p < np) :
    smoothAt fit no nm np (scaled c d) k p = c * smoothAt fit no nm np d k p := by
  have h1 := hfit _ (points_nodup no nm np d p) (by rw [points_length]; exact hg)
  have h2 := hfit _ (points_nodup no nm np (scaled c d) p) (by rw [points_length, good_scaled c hc]; exact hg)
  have h3 := least_shift deg _ (Real.logb 10 c) _ h1
  rw [← points_scaled c hc no nm np d p hp] at h3
  have e := least_unique deg _ (points_nodup no nm np (scaled c d) p) (by rw [points_length, good_scaled c hc]; exact hg) _ _ h2 h3
  unfold smoothAt
  rw [e, Polynomial.eval_add, Polynomial.eval_C, Real.rpow_add (by norm_num), Real.rpow_logb (by norm_num) (by norm_num) hc, mul_comm]

theorem sum_scaled (c : ℝ) (l : List ℝ) : (l.map (c * ·)).sum = c * l.sum := by
  induction l with
  | nil => simp
  | cons a l ih => rw [List.map_cons, List.sum_cons, List.sum_cons, ih, mul_add]

theorem mean_scaled (c : ℝ) (l : List ℝ) : meanOf (l.map (c * ·)) = c * meanOf l := by
  unfold meanOf
  rw [sum_scaled, List.length_map, mul_div_assoc]

theorem std_scaled (c : ℝ) (hc : 0 < c) (l : List ℝ) : stdOf (l.map (c * ·)) = c * stdOf l := by
  unfold stdOf
  rw [mean_scaled, List.map_map]
  rw [show (l.map ((fun x => (x - c * meanOf l) ^ 2) ∘ fun x => c * x)) = (l.map fun x => (x - meanOf l) ^ 2).map ((c ^ 2) * ·) by
    rw [List.map_map]
    exact List.map_congr_left fun x _ => by show (c * x - c * meanOf l) ^ 2 = c ^ 2 * (x - meanOf l) ^ 2; ring]
  rw [mean_scaled, Real.sqrt_mul (by positivity), Real.sqrt_sq hc.le]

theorem all_scaled (fit : List (ℝ × ℝ) → Polynomial ℝ) (deg : Nat) (hfit : FitsDegree fit deg) (c : ℝ) (hc : 0 < c) (no nm np : Nat)
    (d : Nat → Nat → Nat → Option ℝ) (hg : deg < (goodRanks no nm np d).length) :
    smoothAll fit no nm np (scaled c d) = (smoothAll fit no nm np d).map (c * ·) := by
  unfold smoothAll
  rw [List.map_flatMap]
  congr 1
  funext k
  rw [List.map_map]
  exact List.map_congr_left fun p hp => smooth_scaled fit deg hfit c hc no nm np d hg k p (List.mem_range.1 hp)

theorem clipped_scaled (fit : List (ℝ × ℝ) → Polynomial ℝ) (deg : Nat) (hfit : FitsDegree fit deg) (c : ℝ) (hc : 0 < c) (no nm np : Nat)
    (d : Nat → Nat → Nat → Option ℝ) (hg : deg < (goodRanks no nm np d).length) (σ : ℝ) (o k p : Nat) (hp : p < np) :
    clipped fit no nm np (scaled c d) σ o k p = clipped fit no nm np d σ o k p := by
  unfold clipped
  rw [flat_scaled c hc]
  have hl : clipLimit fit no nm np (scaled c d) σ k p = c * clipLimit fit no nm np d σ k p := by
    unfold clipLimit
    rw [smooth_scaled fit deg hfit c hc no nm np d hg k p hp, all_scaled fit deg hfit c hc no nm np d hg, std_scaled c hc]
    ring
  rw [hl]
  cases flatAt no nm np d o k p with
  | none => rfl
  | some x => exact decide_eq_decide.2 (mulTop_lt c hc _ x)

theorem along_ok (fit : List (ℝ × ℝ) → Polynomial ℝ) (no nm np : Nat) (d : Nat → Nat → Nat → Option ℝ) (σ : ℝ) (h : goodRanks no nm np d ≠ []) :
    clipAlong fit no nm np d σ = .ok fun o k p => if clipped fit no nm np d σ o k p then none else d o k p := if_neg h

/-- The same data seen from the other axis. -/
def turned (d : Nat → Nat → Nat → Option ℝ) : Nat → Nat → Nat → Option ℝ := fun f t p => d t f p

theorem mitigate_zero (fit : List (ℝ × ℝ) → Polynomial ℝ) (ndim nt nf np : Nat) (h : 2 ≤ ndim) (d : Nat → Nat → Nat → Option ℝ) (σ : ℝ) :
    mitigate fit ndim nt nf np d 0 σ = clipAlong fit nt nf np d σ := by
  unfold mitigate
  rw [if_neg (by omega), if_pos rfl]

theorem mitigate_one (fit : List (ℝ × ℝ) → Polynomial ℝ) (ndim nt nf np : Nat) (h : 2 ≤ ndim) (d : Nat → Nat → Nat → Option ℝ) (σ : ℝ) :
    mitigate fit ndim nt nf np d 1 σ = (clipAlong fit nf nt np (turned d) σ).map fun r t f p => r f t p := by
  unfold mitigate
  rw [if_neg (by omega), if_neg (by decide), if_pos rfl]
  rfl

/-! ## Properties -/

/-- C125. Bad dimensions and bad axes are refused. -/
theorem rfi_refused (fit : List (ℝ × ℝ) → Polynomial ℝ) (ndim nt nf np : Nat) (d : Nat → Nat → Nat → Option ℝ) (axis : Int) (σ : ℝ) :
    (ndim < 2 → mitigate fit ndim nt nf np d axis σ = .error .exception) ∧
    (2 ≤ ndim → axis ≠ 0 → axis ≠ 1 → mitigate fit ndim nt nf np d axis σ = .error .indexError) := by
  refine ⟨fun h => if_pos h, fun h h0 h1 => ?_⟩
  unfold mitigate
  rw [if_neg (by omega), if_neg h0, if_neg h1]

/-- C125. Values are kept as they are or set to NaN, and nothing else. -/
theorem rfi_keeps (fit : List (ℝ × ℝ) → Polynomial ℝ) (ndim nt nf np : Nat) (d r : Nat → Nat → Nat → Option ℝ) (axis : Int) (σ : ℝ)
    (h : mitigate fit ndim nt nf np d axis σ = .ok r) (t f p : Nat) : r t f p = d t f p ∨ r t f p = none := by
  have core : ∀ no nm (e r : Nat → Nat → Nat → Option ℝ), clipAlong fit no nm np e σ = .ok r → ∀ o k p, r o k p = e o k p ∨ r o k p = none := by
    intro no nm e r h o k p
    by_cases hg : goodRanks no nm np e = []
    · unfold clipAlong at h
      rw [if_pos hg] at h
      cases h
    · rw [along_ok fit no nm np e σ hg] at h
      rw [← Except.ok.inj h]
      dsimp only
      cases clipped fit no nm np e σ o k p with
      | true => exact Or.inr rfl
      | false => exact Or.inl rfl
  rcases Nat.lt_or_ge ndim 2 with hn | hn
  · rw [(rfi_refused fit ndim nt nf np d axis σ).1 hn] at h; cases h
  by_cases h0 : axis = 0
  · subst h0
    rw [mitigate_zero fit ndim nt nf np hn] at h
    exact core nt nf d r h t f p
  by_cases h1 : axis = 1
  · subst h1
    rw [mitigate_one fit ndim nt nf np hn] at h
    cases hc : clipAlong fit nf nt np (turned d) σ with
    | error e => rw [hc] at h; cases h
    | ok s =>
      rw [hc] at h
      rw [← Except.ok.inj h]
      exact core nf nt (turned d) s hc f t p
  · rw [(rfi_refused fit ndim nt nf np d axis σ).2 hn h0 h1] at h; cases h

theorem std_nonneg (l : List ℝ) : 0 ≤ stdOf l := Real.sqrt_nonneg _

/-- C125. A larger factor clips fewer values. -/
theorem rfi_factor (fit : List (ℝ × ℝ) → Polynomial ℝ) (ndim nt nf np : Nat) (d r s : Nat → Nat → Nat → Option ℝ) (axis : Int) (σ τ : ℝ)
    (hστ : σ ≤ τ) (hr : mitigate fit ndim nt nf np d axis σ = .ok r) (hs : mitigate fit ndim nt nf np d axis τ = .ok s) (t f p : Nat)
    (h : s t f p = none) : r t f p = none := by
  have core : ∀ no nm (e r s : Nat → Nat → Nat → Option ℝ), clipAlong fit no nm np e σ = .ok r → clipAlong fit no nm np e τ = .ok s →
      ∀ o k p, s o k p = none → r o k p = none := by
    intro no nm e r s hr hs o k p h
    by_cases hg : goodRanks no nm np e = []
    · unfold clipAlong at hr
      rw [if_pos hg] at hr
      cases hr
    · rw [along_ok fit no nm np e _ hg] at hr hs
      rw [← Except.ok.inj hr]
      rw [← Except.ok.inj hs] at h
      dsimp only at h ⊢
      cases hc : clipped fit no nm np e σ o k p with
      | true => rfl
      | false =>
        have hc2 : clipped fit no nm np e τ o k p = false := by
          unfold clipped at hc ⊢
          cases hf : flatAt no nm np e o k p with
          | none => rfl
          | some x =>
            rw [hf] at hc
            have h1 : ¬ ((clipLimit fit no nm np e σ k p : ℝ) : WithTop ℝ) < x := of_decide_eq_false hc
            refine decide_eq_false fun h2 => h1 (lt_of_le_of_lt ?_ h2)
            rw [WithTop.coe_le_coe]
            unfold clipLimit
            have := mul_le_mul_of_nonneg_right hστ (std_nonneg (smoothAll fit no nm np e))
            linarith
        rw [hc2] at h
        exact h
  rcases Nat.lt_or_ge ndim 2 with hn | hn
  · rw [(rfi_refused fit ndim nt nf np d axis σ).1 hn] at hr; cases hr
  by_cases h0 : axis = 0
  · subst h0
    rw [mitigate_zero fit ndim nt nf np hn] at hr hs
    exact core nt nf d r s hr hs t f p h
  by_cases h1 : axis = 1
  · subst h1
    rw [mitigate_one fit ndim nt nf np hn] at hr hs
    cases hc : clipAlong fit nf nt np (turned d) σ with
    | error e => rw [hc] at hr; cases hr
    | ok r' =>
      cases hc' : clipAlong fit nf nt np (turned d) τ with
      | error e => rw [hc'] at hs; cases hs
      | ok s' =>
        rw [hc] at hr
        rw [hc'] at hs
        rw [← Except.ok.inj hr]
        rw [← Except.ok.inj hs] at h
        exact core nf nt (turned d) r' s' hc hc' f t p h
  · rw [(rfi_refused fit ndim nt nf np d axis σ).2 hn h0 h1] at hr; cases hr

/-- C125. The unit of the data does not matter: data multiplied by a positive number are clipped at the same places. -/
theorem rfi_units (fit : List (ℝ × ℝ) → Polynomial ℝ) (deg : Nat) (hfit : FitsDegree fit deg) (c : ℝ) (hc : 0 < c) (ndim nt nf np : Nat)
    (hn : 2 ≤ ndim) (d : Nat → Nat → Nat → Option ℝ) (σ : ℝ) :
    (deg < (goodRanks nt nf np d).length → ∃ r s, mitigate fit ndim nt nf np d 0 σ = .ok r ∧ mitigate fit ndim nt nf np (scaled c d) 0 σ = .ok s ∧
      ∀ t f p, p < np → s t f p = (r t f p).map (c * ·)) ∧
    (deg < (goodRanks nf nt np (turned d)).length → ∃ r s, mitigate fit ndim nt nf np d 1 σ = .ok r ∧
      mitigate fit ndim nt nf np (scaled c d) 1 σ = .ok s ∧ ∀ t f p, p < np → s t f p = (r t f p).map (c * ·)) := by
  have core : ∀ no nm (e : Nat → Nat → Nat → Option ℝ), deg < (goodRanks no nm np e).length → ∃ r s, clipAlong fit no nm np e σ = .ok r ∧
      clipAlong fit no nm np (scaled c e) σ = .ok s ∧ ∀ o k p, p < np → s o k p = (r o k p).map (c * ·) := by
    intro no nm e hg
    have h0 : goodRanks no nm np e ≠ [] := by intro h; rw [h] at hg; simp at hg
    refine ⟨_, _, along_ok fit no nm np e σ h0, along_ok fit no nm np (scaled c e) σ (by rw [good_scaled c hc]; exact h0), fun o k p hp => ?_⟩
    rw [clipped_scaled fit deg hfit c hc no nm np e hg σ o k p hp]
    cases clipped fit no nm np e σ o k p with
    | true => rfl
    | false => rfl
  refine ⟨fun hg => ?_, fun hg => ?_⟩
  · obtain ⟨r, s, h1, h2, h3⟩ := core nt nf d hg
    exact ⟨r, s, (mitigate_zero fit ndim nt nf np hn d σ).trans h1, (mitigate_zero fit ndim nt nf np hn _ σ).trans h2, h3⟩
  · obtain ⟨r, s, h1, h2, h3⟩ := core nf nt (turned d) hg
    refine ⟨fun t f p => r f t p, fun t f p => s f t p, ?_, ?_, fun t f p hp => h3 f t p hp⟩
    · rw [mitigate_one fit ndim nt nf np hn, h1]; rfl
    · rw [mitigate_one fit ndim nt nf np hn, show turned (scaled c d) = scaled c (turned d) from rfl, h2]; rfl

/-! ## Flat data -/

theorem foldMax_const (m : ℝ) (l : List ℝ) (h0 : l ≠ []) (h : ∀ x ∈ l, x = m) :
    l.foldr (fun x acc => some (acc.elim x fun y => max x y)) (none : Option ℝ) = some m := by
  induction l with
  | nil => exact absurd rfl h0
  | cons a l ih =>
    rw [List.foldr_cons, h a List.mem_cons_self]
    by_cases hl : l = []
    · rw [hl]; rfl
    · rw [ih hl fun x hx => h x (List.mem_cons_of_mem _ hx)]
      exact congrArg some (max_self m)

theorem top_flat (no nm np : Nat) (ho : 0 < no) (hp : 0 < np) (d : Nat → Nat → Nat → Option ℝ) (m : ℝ)
    (hd : ∀ o < no, ∀ p < np, levelAt nm d o p = some m) : topLevel no nm np d = some m := by
  refine foldMax_const m _ ?_ fun x hx => ?_
  · intro h
    rw [List.flatMap_eq_nil_iff] at h
    have h1 := h 0 (List.mem_range.2 ho)
    rw [List.filterMap_eq_nil_iff] at h1
    have h2 := h1 0 (List.mem_range.2 hp)
    rw [hd 0 ho 0 hp] at h2
    cases h2
  · obtain ⟨o, ho', hx⟩ := List.mem_flatMap.1 hx
    obtain ⟨p, hp', hx⟩ := List.mem_filterMap.1 hx
    rw [hd o (List.mem_range.1 ho') p (List.mem_range.1 hp')] at hx
    exact (Option.some.inj hx).symm

/-- With the same level everywhere, nothing is changed by the division. -/
theorem flat_of_level (no nm np : Nat) (ho : 0 < no) (hnp : 0 < np) (d : Nat → Nat → Nat → Option ℝ) (m : ℝ) (hm : 0 < m)
    (hd : ∀ o < no, ∀ p < np, levelAt nm d o p = some m) (o k p : Nat) (h : o < no) (hp : p < np) :
    flatAt no nm np d o k p = (d o k p).map fun x => ((|x| : ℝ) : WithTop ℝ) := by
  unfold flatAt
  rw [hd o h p hp, top_flat no nm np ho hnp d m hd]
  cases d o k p with
  | none => rfl
  | some x =>
    show (if m = 0 then none else quotTop |x| (m / m)) = some ((|x| : ℝ) : WithTop ℝ)
    rw [if_neg hm.ne', div_self hm.ne']
    unfold quotTop
    rw [if_neg one_ne_zero, div_one]

theorem midTop_coe (a b : ℝ) : midTop (a : WithTop ℝ) (b : WithTop ℝ) = ((midReal a b : ℝ) : WithTop ℝ) := rfl

/-- The profile is then the logarithm of the medians. -/
theorem profile_of_level (no nm np : Nat) (ho : 0 < no) (hnp : 0 < np) (d : Nat → Nat → Nat → Option ℝ) (m : ℝ) (hm : 0 < m)
    (hd : ∀ o < no, ∀ p < np, levelAt nm d o p = some m) (k p : Nat) (hp : p < np) (y : ℝ) (hy : 0 < y)
    (h : medianBy midReal ((List.range no).filterMap fun o => (d o k p).map fun x => |x|) = some y) :
    profileAt no nm np d k p = some (Real.logb 10 y) := by
  unfold profileAt
  have e : ((List.range no).filterMap fun o => flatAt no nm np d o k p) =
      ((List.range no).filterMap fun o => (d o k p).map fun x => |x|).map fun x : ℝ => (x : WithTop ℝ) := by
    rw [List.map_filterMap]
    refine List.filterMap_congr fun o hoo => ?_
    rw [flat_of_level no nm np ho hnp d m hm hd o k p (List.mem_range.1 hoo) hp]
    cases d o k p <;> rfl
  rw [e, medianBy_map (fun x : ℝ => (x : WithTop ℝ)) (fun a b h => WithTop.coe_le_coe.2 h) midReal midTop midTop_coe, h]
  exact if_pos hy

theorem std_const (m : ℝ) (l : List ℝ) (h : ∀ x ∈ l, x = m) : stdOf l = 0 := by
  have hm : ∀ (l : List ℝ) (m : ℝ), l ≠ [] → (∀ x ∈ l, x = m) → meanOf l = m := by
    intro l m h0 h
    have : l = List.replicate l.length m := List.eq_replicate_iff.2 ⟨rfl, h⟩
    unfold meanOf
    rw [this, List.sum_replicate, List.length_replicate, nsmul_eq_mul, mul_comm]
    exact mul_div_cancel_right₀ m (by exact_mod_cast (List.length_pos_iff.2 h0).ne')
  unfold stdOf
  by_cases h0 : l = []
  · rw [h0]; simp [meanOf]
  · rw [hm (l.map _) 0 (by simpa using h0), Real.sqrt_zero]
    intro x hx
    obtain ⟨y, hy, rfl⟩ := List.mem_map.1 hx
    rw [h y hy, hm l m h0 h]
    ring

theorem good_all (no nm np : Nat) (d : Nat → Nat → Nat → Option ℝ) (h : ∀ k < nm, ∀ p < np, (profileAt no nm np d k p).isSome) :
    goodRanks no nm np d = List.range nm := by
  unfold goodRanks
  rw [List.filter_eq_self]
  intro k hk
  exact List.all_eq_true.2 fun p hp => h k (List.mem_range.1 hk) p (List.mem_range.1 hp)

/-- The clipping of flat data. -/
theorem along_flat (fit : List (ℝ × ℝ) → Polynomial ℝ) (deg : Nat) (hfit : FitsDegree fit deg) (no nm np : Nat) (ho : 0 < no) (hnp : 0 < np)
    (hdeg : deg < nm) (d : Nat → Nat → Nat → Option ℝ) (m : ℝ) (hm : 0 < m) (hd : FlatData no nm np d m) (σ : ℝ) :
    ∃ r, clipAlong fit no nm np d σ = .ok r ∧ ∀ o < no, ∀ k < nm, ∀ p < np, ∀ x, d o k p = some x → (r o k p = none ↔ m < |x|) := by
  have hlev : ∀ o < no, ∀ p < np, levelAt nm d o p = some m := hd.1
  have hprof : ∀ k < nm, ∀ p < np, profileAt no nm np d k p = some (Real.logb 10 m) := fun k hk p hp =>
    profile_of_level no nm np ho hnp d m hm hlev k p hp m hm (hd.2 k hk p hp)
  have hgood : goodRanks no nm np d = List.range nm := good_all no nm np d fun k hk p hp => by rw [hprof k hk p hp]; rfl
  have hsm : ∀ k p, p < np → smoothAt fit no nm np d k p = m := by
    intro k p hp
    have h1 := hfit _ (points_nodup no nm np d p) (by rw [points_length, hgood, List.length_range]; exact hdeg)
    have h2 := least_exact deg _ (points_nodup no nm np d p) (by rw [points_length, hgood, List.length_range]; exact hdeg) _
      (Polynomial.C (Real.logb 10 m)) h1 (by simp) (by
        intro q hq
        unfold fitPoints at hq
        obtain ⟨j, hj, rfl⟩ := List.mem_map.1 hq
        rw [hgood] at hj
        rw [Polynomial.eval_C, hprof j (List.mem_range.1 hj) p hp]
        rfl)
    unfold smoothAt
    rw [h2, Polynomial.eval_C, Real.rpow_logb (by norm_num) (by norm_num) hm]
  have hstd : stdOf (smoothAll fit no nm np d) = 0 := by
    refine std_const m _ fun x hx => ?_
    unfold smoothAll at hx
    obtain ⟨k, -, hx⟩ := List.mem_flatMap.1 hx
    obtain ⟨p, hp, rfl⟩ := List.mem_map.1 hx
    exact hsm k p (List.mem_range.1 hp)
  refine ⟨_, along_ok fit no nm np d σ (by rw [hgood]; intro h; rw [List.range_eq_nil] at h; omega), fun o hoo k hk p hp x hx => ?_⟩
  have hcl : clipped fit no nm np d σ o k p = decide (m < |x|) := by
    unfold clipped
    rw [flat_of_level no nm np ho hnp d m hm hlev o k p hoo hp, hx]
    refine decide_eq_decide.2 ?_
    unfold clipLimit
    rw [hsm k p hp, hstd, mul_zero, add_zero]
    exact WithTop.coe_lt_coe
  rw [hcl, hx]
  by_cases h : m < |x|
  · rw [decide_eq_true h]; exact ⟨fun _ => h, fun _ => rfl⟩
  · rw [decide_eq_false h]
    exact ⟨(fun e => nomatch (show some x = none from e)), fun h' => absurd h' h⟩

/-- C125 (violated). In flat data (same median at all times and at all frequencies), whatever the factor, every value above the median is
clipped: the factor multiplies the deviation of the fitted background, not the one of the data. -/
theorem rfi_flat_violated (fit : List (ℝ × ℝ) → Polynomial ℝ) (deg : Nat) (hfit : FitsDegree fit deg) (ndim nt nf np : Nat) (hn : 2 ≤ ndim)
    (ht : deg < nt) (hf : deg < nf) (hp : 0 < np) (d : Nat → Nat → Nat → Option ℝ) (m : ℝ) (hm : 0 < m) (hd : FlatData nt nf np d m) (axis : Int)
    (hax : axis = 0 ∨ axis = 1) (σ : ℝ) :
    ∃ r, mitigate fit ndim nt nf np d axis σ = .ok r ∧
      ∀ t < nt, ∀ f < nf, ∀ p < np, ∀ x, d t f p = some x → (r t f p = none ↔ m < |x|) := by
  rcases hax with rfl | rfl
  · rw [mitigate_zero fit ndim nt nf np hn]
    exact along_flat fit deg hfit nt nf np (by omega) hp hf d m hm hd σ
  · rw [mitigate_one fit ndim nt nf np hn]
    obtain ⟨r, h1, h2⟩ := along_flat fit deg hfit nf nt np (by omega) hp ht (turned d) m hm ⟨hd.2, hd.1⟩ σ
    rw [h1]
    exact ⟨_, rfl, fun t ht f hf p hp x hx => h2 f hf t ht p hp x hx⟩

/-! ## Polarisations -/

theorem level_zero (nm : Nat) (d : Nat → Nat → Nat → Option ℝ) (o p : Nat) (h : ∀ k, d o k p = some 0 ∨ d o k p = none) :
    levelAt nm d o p = some 0 ∨ levelAt nm d o p = none := by
  cases hl : levelAt nm d o p with
  | none => exact Or.inr rfl
  | some m =>
    refine Or.inl (congrArg some ?_)
    refine medianBy_bound (fun x => x = 0) midReal (fun a b ha hb => by unfold midReal; rw [ha, hb]; norm_num) _ (fun x hx => ?_) m hl
    obtain ⟨k, -, hk⟩ := List.mem_filterMap.1 hx
    rcases h k with h | h
    · rw [h] at hk; have := Option.some.inj hk; rw [← this]; exact abs_zero
    · rw [h] at hk; cases hk

theorem flat_dead (no nm np : Nat) (d : Nat → Nat → Nat → Option ℝ) (o k p : Nat) (h : ∀ k, d o k p = some 0 ∨ d o k p = none) :
    flatAt no nm np d o k p = none := by
  unfold flatAt
  rcases h k with hk | hk
  · rw [hk]
    rcases level_zero nm d o p h with hl | hl
    · rw [hl]
      cases topLevel no nm np d with
      | none => rfl
      | some M =>
        show (if M = 0 then none else quotTop |0| (0 / M)) = none
        unfold quotTop
        rw [zero_div, abs_zero, if_pos rfl, if_pos rfl]
        split <;> rfl
    · rw [hl]; rfl
  · rw [hk]; rfl

/-- C125 (violated). One polarisation of zeros or of NaN (a dead one, a Stokes parameter which is zero) stops the clipping of all. -/
theorem rfi_dead_violated (fit : List (ℝ × ℝ) → Polynomial ℝ) (ndim nt nf np : Nat) (hn : 2 ≤ ndim) (d : Nat → Nat → Nat → Option ℝ) (axis : Int)
    (hax : axis = 0 ∨ axis = 1) (σ : ℝ) (q : Nat) (hq : q < np) (hd : ∀ t f, d t f q = some 0 ∨ d t f q = none) :
    mitigate fit ndim nt nf np d axis σ = .error .typeError := by
  have core : ∀ no nm (e : Nat → Nat → Nat → Option ℝ), (∀ o k, e o k q = some 0 ∨ e o k q = none) →
      clipAlong fit no nm np e σ = .error .typeError := by
    intro no nm e he
    refine if_pos ?_
    unfold goodRanks
    rw [List.filter_eq_nil_iff]
    intro k _ hk
    have h1 := List.all_eq_true.1 hk q (List.mem_range.2 hq)
    have h2 : profileAt no nm np e k q = none := by
      unfold profileAt
      rw [show ((List.range no).filterMap fun o => flatAt no nm np e o k q) = [] by
        rw [List.filterMap_eq_nil_iff]
        exact fun o _ => flat_dead no nm np e o k q fun k => he o k]
      rfl
    rw [h2] at h1
    cases h1
  rcases hax with rfl | rfl
  · rw [mitigate_zero fit ndim nt nf np hn, core nt nf d hd]
  · rw [mitigate_one fit ndim nt nf np hn, core nf nt (turned d) fun f t => hd t f]
    rfl

/-! A dataset of 3 times and 3 frequencies. The first polarisation takes the values 1, 2 and 3 once in each row and column; the second one
takes the same values at all times. -/

/-- The data of the witness. -/
noncomputable def twoPols (t f p : Nat) : Option ℝ := some (if p = 0 then (((t + f) % 3 + 1 : Nat) : ℝ) else ((f + 1 : Nat) : ℝ))

theorem median123 (l : List ℝ) (h : l.Perm [1, 2, 3]) : medianBy midReal l = some 2 := by
  rw [medianBy_perm midReal l _ h]
  unfold medianBy
  rw [List.Pairwise.insertionSort_eq (by simp; norm_num)]
  rfl

theorem three_values (g : Nat → Option ℝ) (a b c : ℝ) (h0 : g 0 = some a) (h1 : g 1 = some b) (h2 : g 2 = some c) (ha : 0 ≤ a) (hb : 0 ≤ b)
    (hc : 0 ≤ c) : ((List.range 3).filterMap fun k => (g k).map fun x => |x|) = [a, b, c] := by
  show (([0, 1, 2] : List Nat).filterMap fun k => (g k).map fun x => |x|) = _
  simp [h0, h1, h2, abs_of_nonneg ha, abs_of_nonneg hb, abs_of_nonneg hc]

theorem perm231 : [(2 : ℝ), 3, 1].Perm [1, 2, 3] := (List.perm_append_comm : ([2, 3] ++ [1] : List ℝ).Perm ([1] ++ [2, 3]))
theorem perm312 : [(3 : ℝ), 1, 2].Perm [1, 2, 3] := (List.perm_append_comm : ([3] ++ [1, 2] : List ℝ).Perm ([1, 2] ++ [3]))

theorem latin_rows (t : Nat) (ht : t < 3) : medianBy midReal ((List.range 3).filterMap fun f => (twoPols t f 0).map fun x => |x|) = some 2 := by
  have h3 : t = 0 ∨ t = 1 ∨ t = 2 := by omega
  rcases h3 with rfl | rfl | rfl
  · rw [three_values (fun f => twoPols 0 f 0) 1 2 3 (by norm_num [twoPols]) (by norm_num [twoPols]) (by norm_num [twoPols]) (by norm_num)
      (by norm_num) (by norm_num)]
    exact median123 _ (List.Perm.refl _)
  · rw [three_values (fun f => twoPols 1 f 0) 2 3 1 (by norm_num [twoPols]) (by norm_num [twoPols]) (by norm_num [twoPols]) (by norm_num)
      (by norm_num) (by norm_num)]
    exact median123 _ perm231
  · rw [three_values (fun f => twoPols 2 f 0) 3 1 2 (by norm_num [twoPols]) (by norm_num [twoPols]) (by norm_num [twoPols]) (by norm_num)
      (by norm_num) (by norm_num)]
    exact median123 _ perm312

theorem latin_cols (f : Nat) (hf : f < 3) : medianBy midReal ((List.range 3).filterMap fun t => (twoPols t f 0).map fun x => |x|) = some 2 := by
  rw [← latin_rows f hf]
  congr 2
  funext t
  unfold twoPols
  rw [Nat.add_comm t f]
  rfl

theorem second_rows (t : Nat) : medianBy midReal ((List.range 3).filterMap fun f => (twoPols t f 1).map fun x => |x|) = some 2 := by
  rw [three_values (fun f => twoPols t f 1) 1 2 3 (by norm_num [twoPols]) (by norm_num [twoPols]) (by norm_num [twoPols]) (by norm_num)
      (by norm_num) (by norm_num)]
  exact median123 _ (List.Perm.refl _)

theorem second_cols (f : Nat) : medianBy midReal ((List.range 3).filterMap fun t => (twoPols t f 1).map fun x => |x|) = some ((f + 1 : Nat) : ℝ) := by
  refine medianBy_const midReal _ (by unfold midReal; ring) _ ?_ fun x hx => ?_
  · rw [three_values (fun t => twoPols t f 1) (f + 1 : Nat) (f + 1 : Nat) (f + 1 : Nat) (by simp [twoPols]) (by simp [twoPols]) (by simp [twoPols])
      (by positivity) (by positivity) (by positivity)]
    simp
  · obtain ⟨t, -, ht⟩ := List.mem_filterMap.1 hx
    have h2 : twoPols t f 1 = some ((f + 1 : Nat) : ℝ) := if_neg (by decide) |> congrArg some
    rw [h2] at ht
    rw [← Option.some.inj ht]
    exact abs_of_nonneg (by positivity)

theorem two_levels (t : Nat) (ht : t < 3) (p : Nat) (hp : p < 2) : levelAt 3 twoPols t p = some 2 := by
  have h2 : p = 0 ∨ p = 1 := by omega
  rcases h2 with rfl | rfl
  · exact latin_rows t ht
  · exact second_rows t

theorem two_profile (k : Nat) (hk : k < 3) (p : Nat) (hp : p < 2) :
    profileAt 3 3 2 twoPols k p = some (Real.logb 10 (if p = 0 then 2 else ((k + 1 : Nat) : ℝ))) := by
  have h2 : p = 0 ∨ p = 1 := by omega
  rcases h2 with rfl | rfl
  · exact profile_of_level 3 3 2 (by decide) (by decide) twoPols 2 (by norm_num) two_levels k 0 (by decide) 2 (by norm_num) (latin_cols k hk)
  · exact profile_of_level 3 3 2 (by decide) (by decide) twoPols 2 (by norm_num) two_levels k 1 (by decide) _ (by positivity) (second_cols k)

theorem two_good : goodRanks 3 3 2 twoPols = List.range 3 := good_all 3 3 2 twoPols fun k hk p hp => by rw [two_profile k hk p hp]; rfl

theorem two_smooth (fit : List (ℝ × ℝ) → Polynomial ℝ) (hfit : FitsDegree fit 2) (k : Nat) (hk : k < 3) (p : Nat) (hp : p < 2) :
    smoothAt fit 3 3 2 twoPols k p = if p = 0 then 2 else ((k + 1 : Nat) : ℝ) := by
  have hlen : (fitPoints 3 3 2 twoPols p).length = 2 + 1 := by rw [points_length, two_good]; rfl
  have h1 := hfit _ (points_nodup 3 3 2 twoPols p) (by omega)
  have h2 := least_through _ 2 (points_nodup 3 3 2 twoPols p) hlen _ h1 ((k : ℝ), (profileAt 3 3 2 twoPols k p).getD 0) (by
    unfold fitPoints
    rw [two_good]
    exact List.mem_map.2 ⟨k, List.mem_range.2 hk, rfl⟩)
  unfold smoothAt
  have hpos : (0 : ℝ) < if p = 0 then 2 else ((k + 1 : Nat) : ℝ) := by
    split
    · norm_num
    · positivity
  rw [h2, two_profile k hk p hp, Option.getD_some, Real.rpow_logb (by norm_num) (by norm_num) hpos]

theorem two_std (fit : List (ℝ × ℝ) → Polynomial ℝ) (hfit : FitsDegree fit 2) : stdOf (smoothAll fit 3 3 2 twoPols) = Real.sqrt (1 / 3) := by
  have e : smoothAll fit 3 3 2 twoPols = [2, 1, 2, 2, 2, 3] := by
    show (([0, 1, 2] : List Nat).flatMap fun k => ([0, 1] : List Nat).map fun p => smoothAt fit 3 3 2 twoPols k p) = _
    simp only [List.flatMap_cons, List.flatMap_nil, List.map_cons, List.map_nil]
    rw [two_smooth fit hfit 0 (by decide) 0 (by decide), two_smooth fit hfit 0 (by decide) 1 (by decide),
      two_smooth fit hfit 1 (by decide) 0 (by decide), two_smooth fit hfit 1 (by decide) 1 (by decide),
      two_smooth fit hfit 2 (by decide) 0 (by decide), two_smooth fit hfit 2 (by decide) 1 (by decide)]
    norm_num
  have hm : meanOf [(2 : ℝ), 1, 2, 2, 2, 3] = 2 := by unfold meanOf; norm_num
  unfold stdOf
  rw [e, hm]
  unfold meanOf
  norm_num

/-- C125 (violated). What is clipped in a polarisation depends on the other ones: the same values, with the same parameters, are clipped when the
polarisation is alone and kept when another one goes with it. -/
theorem rfi_polarisations_violated : ∃ (d : Nat → Nat → Nat → Option ℝ), ∀ fit : List (ℝ × ℝ) → Polynomial ℝ, FitsDegree fit 2 →
    ∃ r s, mitigate fit 3 3 3 1 d 0 2 = .ok r ∧ mitigate fit 3 3 3 2 d 0 2 = .ok s ∧ r 2 0 0 = none ∧ s 2 0 0 = some 3 := by
  refine ⟨twoPols, fun fit hfit => ?_⟩
  have hv : twoPols 2 0 0 = some 3 := by norm_num [twoPols]
  obtain ⟨r, hr, hr'⟩ := rfi_flat_violated fit 2 hfit 3 3 3 1 (by decide) (by decide) (by decide) (by decide) twoPols 2 (by norm_num)
    ⟨fun t ht p hp => by rw [show p = 0 by omega]; exact latin_rows t ht, fun f hf p hp => by rw [show p = 0 by omega]; exact latin_cols f hf⟩
    0 (Or.inl rfl) 2
  have hg : goodRanks 3 3 2 twoPols ≠ [] := by rw [two_good]; decide
  refine ⟨r, _, hr, (mitigate_zero fit 3 3 3 2 (by decide) twoPols 2).trans (along_ok fit 3 3 2 twoPols 2 hg), ?_, ?_⟩
  · exact (hr' 2 (by decide) 0 (by decide) 0 (by decide) 3 hv).2 (by norm_num)
  · have hc : clipped fit 3 3 2 twoPols 2 2 0 0 = false := by
      unfold clipped
      rw [flat_of_level 3 3 2 (by decide) (by decide) twoPols 2 (by norm_num) two_levels 2 0 0 (by decide) (by decide), hv]
      refine decide_eq_false ?_
      unfold clipLimit
      rw [two_smooth fit hfit 0 (by decide) 0 (by decide), two_std fit hfit, if_pos rfl, WithTop.coe_lt_coe, abs_of_pos (by norm_num)]
      have h3 : (1 / 2 : ℝ) ≤ Real.sqrt (1 / 3) := Real.le_sqrt_of_sq_le (by norm_num)
      linarith
    rw [hc]
    exact hv

/-! ## The hypotheses can be met -/

/-- Values of a polynomial at the points. -/
noncomputable def valuesAt (pts : List (ℝ × ℝ)) : Polynomial ℝ →ₗ[ℝ] EuclideanSpace ℝ (Fin pts.length) where
  toFun P := WithLp.toLp 2 fun i => P.eval (pts.get i).1
  map_add' P Q := by ext i; simp
  map_smul' c P := by ext i; simp

/-- There are least squares for all points. -/
theorem least_exists (deg : Nat) (pts : List (ℝ × ℝ)) : ∃ P, IsLeastSquares deg pts P := by
  let u : EuclideanSpace ℝ (Fin pts.length) := WithLp.toLp 2 fun i => (pts.get i).2
  let K : Submodule ℝ (EuclideanSpace ℝ (Fin pts.length)) := (Polynomial.degreeLT ℝ (deg + 1)).map (valuesAt pts)
  have e : ∀ P, sqErr pts P = ‖u - valuesAt pts P‖ ^ 2 := by
    intro P
    rw [EuclideanSpace.norm_sq_eq]
    unfold sqErr
    rw [← Fin.sum_univ_fun_getElem]
    refine Finset.sum_congr rfl fun i _ => ?_
    rw [Real.norm_eq_abs, sq_abs]
    show (P.eval (pts.get i).1 - (pts.get i).2) ^ 2 = ((pts.get i).2 - P.eval (pts.get i).1) ^ 2
    ring
  obtain ⟨v, hv, hmin⟩ := K.exists_norm_eq_iInf_of_complete_subspace (Submodule.complete_of_finiteDimensional K) u
  obtain ⟨P, hP, rfl⟩ := Submodule.mem_map.1 hv
  have hdeg : ∀ Q : Polynomial ℝ, Q ∈ Polynomial.degreeLT ℝ (deg + 1) ↔ Q.natDegree ≤ deg := by
    intro Q
    rw [Polynomial.mem_degreeLT, ← Nat.lt_succ_iff]
    rcases eq_or_ne Q 0 with rfl | h0
    · simp
    · rw [Polynomial.degree_eq_natDegree h0]; exact_mod_cast Iff.rfl
  refine ⟨P, (hdeg P).1 hP, fun Q hQ => ?_⟩
  rw [e, e]
  refine pow_le_pow_left₀ (norm_nonneg _) ?_ 2
  rw [hmin]
  have hb : BddBelow (Set.range fun w : (K : Set (EuclideanSpace ℝ (Fin pts.length))) => ‖u - w‖) := ⟨0, by
    rintro x ⟨w, rfl⟩
    exact norm_nonneg (u - w)⟩
  exact ciInf_le hb ⟨valuesAt pts Q, Submodule.mem_map.2 ⟨Q, (hdeg Q).2 hQ, rfl⟩⟩

open Classical in
/-- `np.polyfit` exists for all degrees. -/
theorem fit_exists (deg : Nat) : ∃ fit, FitsDegree fit deg :=
  ⟨fun pts => (least_exists deg pts).choose, fun pts _ _ => (least_exists deg pts).choose_spec⟩

example : ∃ fit, FitsDegree fit 2 ∧ FlatData 3 3 1 twoPols 2 ∧ (2 : Nat) < (goodRanks 3 3 2 twoPols).length := by
  obtain ⟨fit, h⟩ := fit_exists 2
  refine ⟨fit, h, ⟨fun t ht p hp => by rw [show p = 0 by omega]; exact latin_rows t ht, fun f hf p hp => by
    rw [show p = 0 by omega]; exact latin_cols f hf⟩, ?_⟩
  rw [two_good]
  decide

end Verif.TF
