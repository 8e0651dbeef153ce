import Verif.IO.Imaging
import Verif.IO.PropsXst
import Mathlib.Tactic.Linarith
import Mathlib.Topology.Algebra.Order.Field
import Mathlib.Tactic.Positivity
import Mathlib.Tactic.FieldSimp

/-!
# Properties of images and near-field images (claim C127)
-/

namespace Verif.IO

/-! ## Specification -/

/-- Pairs of two different mini-arrays among `n`. -/
def pairsOf (n : Nat) : List (Nat × Nat) := (List.range n).flatMap fun k => (List.range k).map fun l => (k, l)

/-- The data of an observation: `V t f k l` is the correlation of the mini-arrays `k` and `l`, or NaN. -/
def cubeOf (nt nf n : Nat) (V : Nat → Nat → Nat → Nat → Option ℂ) : List (List (List (Option ℂ))) :=
  (List.range nt).map fun t => (List.range nf).map fun f => (tril n).map fun p => V t f p.1 p.2

/-- No value of a baseline is missing. -/
def Whole (nt nf : Nat) (V : Nat → Nat → Nat → Nat → Option ℂ) (p : Nat × Nat) : Prop := ∀ t < nt, ∀ f < nf, (V t f p.1 p.2).isSome

/-- Mean in time of the correlations of a baseline. -/
noncomputable def averaged (nt : Nat) (V : Nat → Nat → Nat → Nat → Option ℂ) (f : Nat) (p : Nat × Nat) : ℂ :=
  ((List.range nt).map fun t => (V t f p.1 p.2).getD 0).sum / nt

/-- Mean over the elements of a list. -/
noncomputable def meanOver {α : Type} (l : List α) (v : α → ℝ) : Option ℝ := if l = [] then none else some ((l.map v).sum / l.length)

/-- Difference of the distances of two mini-arrays to a point of the ground. -/
noncomputable def pathDiff (pos : Nat → ℝ × ℝ × ℝ) (g : ℝ × ℝ × ℝ) (p : Nat × Nat) : ℝ := distTo (pos p.1) g - distTo (pos p.2) g

/-! ## Lemmas -/

theorem filter_zipIdx {α : Type} (q : α → Bool) (l : List α) (k : Nat) :
    ((l.zipIdx k).filter fun p => q p.1).map Prod.fst = l.filter q := by
  induction l generalizing k with
  | nil => rfl
  | cons a l ih =>
    rw [List.zipIdx_cons, List.filter_cons, List.filter_cons]
    by_cases h : q a = true
    · rw [if_pos h, if_pos h, List.map_cons, ih]
    · rw [if_neg h, if_neg h, ih]

theorem pairs_succ (n : Nat) : pairsOf (n + 1) = pairsOf n ++ (List.range n).map fun l => (n, l) := by
  unfold pairsOf
  rw [List.range_succ, List.flatMap_append, List.flatMap_cons, List.flatMap_nil, List.append_nil]

theorem cross_fst (n : Nat) : (crossPairs n).map Prod.fst = pairsOf n := by
  unfold crossPairs
  rw [filter_zipIdx (fun p : Nat × Nat => decide (p.1 ≠ p.2))]
  induction n with
  | zero => rfl
  | succ n ih =>
    rw [tril_succ, List.filter_append, ih, pairs_succ, List.range_succ, List.map_append, List.filter_append]
    congr 1
    have h1 : ((List.range n).map fun j => (n, j)).filter (fun p : Nat × Nat => decide (p.1 ≠ p.2)) = (List.range n).map fun j => (n, j) := by
      rw [List.filter_eq_self]
      intro p hp
      obtain ⟨j, hj, rfl⟩ := List.mem_map.1 hp
      have := List.mem_range.1 hj
      exact decide_eq_true (by dsimp only; omega)
    rw [h1]
    simp

theorem cross_mem (n : Nat) {p : (Nat × Nat) × Nat} (h : p ∈ crossPairs n) : (tril n)[p.2]? = some p.1 := by
  have := (List.mem_filter.1 h).1
  exact List.mem_zipIdx_iff_getElem?.1 this

theorem mem_pairs {n : Nat} {p : Nat × Nat} : p ∈ pairsOf n ↔ p.2 < p.1 ∧ p.1 < n := by
  unfold pairsOf
  rw [List.mem_flatMap]
  constructor
  · rintro ⟨k, hk, h⟩
    obtain ⟨l, hl, rfl⟩ := List.mem_map.1 h
    exact ⟨List.mem_range.1 hl, List.mem_range.1 hk⟩
  · intro h
    exact ⟨p.1, List.mem_range.2 h.2, List.mem_map.2 ⟨p.2, List.mem_range.2 h.1, rfl⟩⟩

theorem meanC_map {α : Type} (l : List α) (g : α → Option ℂ) (hl : l ≠ []) (h : ∀ x ∈ l, (g x).isSome) :
    meanC (l.map g) = some ((l.map fun x => (g x).getD 0).sum / l.length) := by
  unfold meanC
  have hno : ¬ (l.map g = [] ∨ none ∈ l.map g) := by
    rintro (h0 | h0)
    · exact hl (List.map_eq_nil_iff.1 h0)
    · obtain ⟨x, hx, e⟩ := List.mem_map.1 h0
      have := h x hx
      rw [e] at this
      exact nomatch (show false = true from this)
  rw [if_neg hno, List.map_map, List.length_map]
  rfl

theorem meanC_none {α : Type} (l : List α) (g : α → Option ℂ) (h : ∃ x ∈ l, g x = none) : meanC (l.map g) = none := by
  obtain ⟨x, hx, e⟩ := h
  exact if_pos (Or.inr (List.mem_map.2 ⟨x, hx, e⟩))

theorem cube_at (nt nf n : Nat) (V : Nat → Nat → Nat → Nat → Option ℂ) (f : Nat) (hf : f < nf) {p : (Nat × Nat) × Nat} (hp : p ∈ crossPairs n) :
    timeMean (cubeOf nt nf n V) f p.2 = meanC ((List.range nt).map fun t => V t f p.1.1 p.1.2) := by
  unfold timeMean cubeOf
  rw [List.map_map]
  congr 1
  refine List.map_congr_left fun t _ => ?_
  rw [Function.comp_apply]
  have h1 : ((List.range nf).map fun f => (tril n).map fun p => V t f p.1 p.2).getD f [] = (tril n).map fun p => V t f p.1 p.2 := by
    rw [List.getD_eq_getElem?_getD, List.getElem?_map, List.getElem?_range hf]
    rfl
  rw [h1, List.getD_eq_getElem?_getD, List.getElem?_map, cross_mem n hp]
  rfl

theorem time_whole (nt nf n : Nat) (hnt : 0 < nt) (V : Nat → Nat → Nat → Nat → Option ℂ) {f : Nat} (hf : f < nf) {p : (Nat × Nat) × Nat}
    (hp : p ∈ crossPairs n) (hw : Whole nt nf V p.1) : timeMean (cubeOf nt nf n V) f p.2 = some (averaged nt V f p.1) := by
  rw [cube_at nt nf n V f hf hp, meanC_map]
  · unfold averaged
    rw [List.length_range]
  · intro h
    rw [List.range_eq_nil] at h
    omega
  · intro t ht
    exact hw t (List.mem_range.1 ht) f hf

/-- Mean over frequencies of the phased visibilities of a baseline; missing as soon as one value is. -/
theorem phased (nt nf n : Nat) (hnt : 0 < nt) (hnf : 0 < nf) (V : Nat → Nat → Nat → Nat → Option ℂ) (e : Nat → ℂ) {p : (Nat × Nat) × Nat}
    (hp : p ∈ crossPairs n) :
    (Whole nt nf V p.1 → meanC ((List.range nf).map fun f => (timeMean (cubeOf nt nf n V) f p.2).map (· * e f)) =
      some (((List.range nf).map fun f => averaged nt V f p.1 * e f).sum / nf)) ∧
    (¬ Whole nt nf V p.1 → meanC ((List.range nf).map fun f => (timeMean (cubeOf nt nf n V) f p.2).map (· * e f)) = none) := by
  constructor
  · intro hw
    rw [meanC_map]
    · rw [List.length_range]
      congr 3
      refine List.map_congr_left fun f hf => ?_
      rw [time_whole nt nf n hnt V (List.mem_range.1 hf) hp hw]
      rfl
    · intro h
      rw [List.range_eq_nil] at h
      omega
    · intro f hf
      rw [time_whole nt nf n hnt V (List.mem_range.1 hf) hp hw]
      rfl
  · intro hw
    unfold Whole at hw
    push Not at hw
    obtain ⟨t, ht, f, hf, h⟩ := hw
    refine meanC_none _ _ ⟨f, List.mem_range.2 hf, ?_⟩
    have hnone : V t f p.1.1 p.1.2 = none := by
      cases hv : V t f p.1.1 p.1.2 with
      | none => rfl
      | some v => rw [hv] at h; simp at h
    rw [cube_at nt nf n V f hf hp, meanC_none _ _ ⟨t, List.mem_range.2 ht, hnone⟩]
    rfl

open Classical in
/-- The mean over baselines leaves out those with a missing value. -/
theorem over_pairs (n : Nat) (P : Nat × Nat → Prop) (v : Nat × Nat → ℝ) (h : (Nat × Nat) × Nat → Option ℝ)
    (hs : ∀ p ∈ crossPairs n, P p.1 → h p = some (v p.1)) (hn : ∀ p ∈ crossPairs n, ¬ P p.1 → h p = none) :
    nanmeanR ((crossPairs n).map h) = meanOver ((pairsOf n).filter fun p => decide (P p)) v := by
  have key : ((crossPairs n).map h).filterMap id = ((pairsOf n).filter fun p => decide (P p)).map v := by
    rw [← cross_fst n]
    generalize crossPairs n = l at hs hn
    induction l with
    | nil => rfl
    | cons a l ih =>
      have ih' := ih (fun p hp => hs p (List.mem_cons_of_mem _ hp)) fun p hp => hn p (List.mem_cons_of_mem _ hp)
      rw [List.map_cons, List.map_cons, List.filter_cons]
      by_cases hP : P a.1
      · rw [hs a List.mem_cons_self hP, if_pos (decide_eq_true hP), List.filterMap_cons_some (f := id) (b := v a.1) rfl, ih', List.map_cons]
      · rw [hn a List.mem_cons_self hP, if_neg (by simpa using hP), List.filterMap_cons_none (f := id) rfl, ih']
  unfold nanmeanR meanOver
  rw [key]
  simp only [List.map_eq_nil_iff, List.length_map]

theorem meanOver_le {α : Type} (l : List α) (v : α → ℝ) (c : ℝ) (hv : ∀ x ∈ l, v x ≤ c) : ∀ r, meanOver l v = some r → r ≤ c := by
  intro r hr
  unfold meanOver at hr
  by_cases h : l = []
  · rw [if_pos h] at hr
    exact nomatch hr
  · rw [if_neg h] at hr
    obtain rfl := Option.some.inj hr
    have hpos : (0 : ℝ) < l.length := by exact_mod_cast List.length_pos_iff.2 h
    rw [div_le_iff₀ hpos]
    clear hr h hpos
    induction l with
    | nil => simp
    | cons a l ih =>
      rw [List.map_cons, List.sum_cons, List.length_cons]
      have h1 := hv a List.mem_cons_self
      have h2 := ih fun x hx => hv x (List.mem_cons_of_mem _ hx)
      push_cast
      linarith

theorem meanOver_const {α : Type} (l : List α) (v : α → ℝ) (c : ℝ) (hl : l ≠ []) (hv : ∀ x ∈ l, v x = c) : meanOver l v = some c := by
  unfold meanOver
  rw [if_neg hl]
  have hpos : (0 : ℝ) < l.length := by exact_mod_cast List.length_pos_iff.2 hl
  congr 1
  rw [div_eq_iff hpos.ne', List.map_congr_left hv, List.map_const', List.sum_replicate, nsmul_eq_mul, mul_comm]

theorem meanOver_congr {α : Type} (l : List α) (v w : α → ℝ) (h : ∀ x ∈ l, v x = w x) : meanOver l v = meanOver l w := by
  unfold meanOver
  rw [List.map_congr_left h]

/-! ## Near-field -/

/-- Term of the documented near-field: sum over frequencies of the phased correlations. -/
noncomputable def nearTerm (nt : Nat) (pos : Nat → ℝ × ℝ × ℝ) (wvls : List ℝ) (V : Nat → Nat → Nat → Nat → Option ℂ) (g : ℝ × ℝ × ℝ) (p : Nat × Nat) : ℝ :=
  ‖((List.range wvls.length).map fun f => averaged nt V f p *
    Complex.exp (2 * Complex.I * Real.pi * ((pathDiff pos g p : ℝ) / (wvls.getD f 0 : ℝ)))).sum / wvls.length‖

open Classical in
/-- C127. The near-field is the documented sum, as a mean, over the pairs of two mini-arrays without missing value; NaN if there is none. -/
theorem nearfield_exact (nt n : Nat) (hnt : 0 < nt) (pos : Nat → ℝ × ℝ × ℝ) (wvls : List ℝ) (hw : wvls ≠ []) (V : Nat → Nat → Nat → Nat → Option ℂ)
    (radius : ℝ) (npix i j : Nat) :
    nearfield n pos wvls (cubeOf nt wvls.length n V) radius npix i j =
      meanOver ((pairsOf n).filter fun p => decide (Whole nt wvls.length V p)) (nearTerm nt pos wvls V (groundPoint n pos radius npix i j)) := by
  unfold nearfield imprint
  have hnf : 0 < wvls.length := List.length_pos_iff.2 hw
  refine over_pairs n _ _ _ (fun p hp hP => ?_) fun p hp hP => ?_
  · rw [(phased nt wvls.length n hnt hnf V (fun f => nearPhase pos (groundPoint n pos radius npix i j) (wvls.getD f 0) p.1.1 p.1.2) hp).1 hP]
    show some _ = some _
    congr 1
    unfold nearTerm nearPhase pathDiff
    push_cast
    rfl
  · rw [(phased nt wvls.length n hnt hnf V (fun f => nearPhase pos (groundPoint n pos radius npix i j) (wvls.getD f 0) p.1.1 p.1.2) hp).2 hP]
    rfl

/-- C127. Pixels of the near-field: columns go to the east and rows to the north, from one end to the other; one metre above the mean height. -/
theorem ground_exact (n : Nat) (hn : 0 < n) (pos : Nat → ℝ × ℝ × ℝ) (radius : ℝ) (npix : Nat) (h2 : 2 ≤ npix) (i j : Nat) :
    (groundPoint n pos radius npix i j).1 = radius * (2 * j / (npix - 1) - 1) ∧
    (groundPoint n pos radius npix i j).2.1 = radius * (2 * i / (npix - 1) - 1) ∧
    ((groundPoint n pos radius npix i j).2.2 - 1) * n = ((List.range n).map fun k => (pos k).2.2).sum := by
  have h1 : npix ≠ 1 := by omega
  have hp : (npix : ℝ) - 1 ≠ 0 := by
    have : (2 : ℝ) ≤ npix := by exact_mod_cast h2
    linarith
  have hnr : (n : ℝ) ≠ 0 := by exact_mod_cast hn.ne'
  unfold groundPoint groundAt
  simp only [if_neg h1]
  refine ⟨?_, ?_, ?_⟩
  · field_simp
    ring
  · field_simp
    ring
  · field_simp
    ring

theorem exp_norm (x : ℝ) : ‖Complex.exp (2 * Complex.I * Real.pi * (x : ℝ))‖ = 1 := by
  rw [show 2 * Complex.I * (Real.pi : ℂ) * (x : ℝ) = ((2 * Real.pi * x : ℝ) : ℂ) * Complex.I by push_cast; ring]
  exact Complex.norm_exp_ofReal_mul_I _

theorem norm_sum_map {α : Type} (l : List α) (g : α → ℂ) (b : α → ℝ) (h : ∀ x ∈ l, ‖g x‖ ≤ b x) : ‖(l.map g).sum‖ ≤ (l.map b).sum := by
  induction l with
  | nil => simp
  | cons a l ih =>
    rw [List.map_cons, List.sum_cons, List.map_cons, List.sum_cons]
    exact (norm_add_le _ _).trans (add_le_add (h a List.mem_cons_self) (ih fun x hx => h x (List.mem_cons_of_mem _ hx)))

/-- Correlations of a transmitter at the point `g` of the ground, of power `a f`: the signal is late by the distance. -/
noncomputable def transmitter (pos : Nat → ℝ × ℝ × ℝ) (wvls : List ℝ) (g : ℝ × ℝ × ℝ) (a : Nat → ℝ) : Nat → Nat → Nat → Nat → Option ℂ :=
  fun _ f k l => some (a f * Complex.exp (-(2 * Complex.I * Real.pi * ((pathDiff pos g (k, l) : ℝ) / (wvls.getD f 0 : ℝ)))))

theorem averaged_const (nt : Nat) (hnt : 0 < nt) (V : Nat → Nat → Nat → Nat → Option ℂ) (f : Nat) (p : Nat × Nat) (c : ℂ)
    (h : ∀ t, V t f p.1 p.2 = some c) : averaged nt V f p = c := by
  unfold averaged
  have hn : (nt : ℂ) ≠ 0 := by exact_mod_cast hnt.ne'
  rw [div_eq_iff hn]
  have : ((List.range nt).map fun t => (V t f p.1 p.2).getD 0) = (List.range nt).map fun _ => c :=
    List.map_congr_left fun t _ => by rw [h t]; rfl
  rw [this, List.map_const', List.sum_replicate, List.length_range, nsmul_eq_mul, mul_comm]

/-- C127. A transmitter on the ground, at a pixel, is seen there: the near-field is its mean power at this pixel, and at most this anywhere. -/
theorem nearfield_transmitter (nt n : Nat) (hnt : 0 < nt) (hn : 2 ≤ n) (pos : Nat → ℝ × ℝ × ℝ) (wvls : List ℝ) (hw : wvls ≠ []) (radius : ℝ)
    (npix i₀ j₀ : Nat) (a : Nat → ℝ) (ha : ∀ f, 0 ≤ a f) :
    nearfield n pos wvls (cubeOf nt wvls.length n (transmitter pos wvls (groundPoint n pos radius npix i₀ j₀) a)) radius npix i₀ j₀ =
      some (((List.range wvls.length).map a).sum / wvls.length) ∧
    ∀ i j, ∃ v, nearfield n pos wvls (cubeOf nt wvls.length n (transmitter pos wvls (groundPoint n pos radius npix i₀ j₀) a)) radius npix i j = some v ∧
      v ≤ ((List.range wvls.length).map a).sum / wvls.length := by
  classical
  have hav : ∀ f p, averaged nt (transmitter pos wvls (groundPoint n pos radius npix i₀ j₀) a) f p =
      a f * Complex.exp (-(2 * Complex.I * Real.pi * ((pathDiff pos (groundPoint n pos radius npix i₀ j₀) p : ℝ) / (wvls.getD f 0 : ℝ)))) :=
    fun f p => averaged_const nt hnt _ f p _ fun t => rfl
  have hfil : ((pairsOf n).filter fun p => decide (Whole nt wvls.length (transmitter pos wvls (groundPoint n pos radius npix i₀ j₀) a) p)) = pairsOf n := by
    rw [List.filter_eq_self]
    exact fun p _ => decide_eq_true fun t _ f _ => rfl
  have hne : pairsOf n ≠ [] := List.ne_nil_of_mem (mem_pairs.2 (show ((1, 0) : Nat × Nat).2 < ((1, 0) : Nat × Nat).1 ∧ ((1, 0) : Nat × Nat).1 < n from ⟨by norm_num, by dsimp only; omega⟩))
  have hnf : (0 : ℝ) < wvls.length := by exact_mod_cast List.length_pos_iff.2 hw
  have hsum : 0 ≤ ((List.range wvls.length).map a).sum := List.sum_nonneg (by
    intro x hx
    obtain ⟨f, -, rfl⟩ := List.mem_map.1 hx
    exact ha f)
  constructor
  · rw [nearfield_exact nt n hnt pos wvls hw, hfil]
    refine meanOver_const _ _ _ hne fun p _ => ?_
    unfold nearTerm
    have : ((List.range wvls.length).map fun f => averaged nt (transmitter pos wvls (groundPoint n pos radius npix i₀ j₀) a) f p *
        Complex.exp (2 * Complex.I * Real.pi * ((pathDiff pos (groundPoint n pos radius npix i₀ j₀) p : ℝ) / (wvls.getD f 0 : ℝ)))) =
        ((List.range wvls.length).map a).map (fun x : ℝ => (x : ℂ)) := by
      rw [List.map_map]
      refine List.map_congr_left fun f _ => ?_
      rw [hav, mul_assoc, ← Complex.exp_add, neg_add_cancel, Complex.exp_zero, mul_one]
      rfl
    have hre : ∀ l : List ℝ, (l.map fun x : ℝ => (x : ℂ)).sum = ((l.sum : ℝ) : ℂ) := fun l => (map_list_sum Complex.ofRealHom l).symm
    rw [this, hre]
    rw [show (((((List.range wvls.length).map a).sum : ℝ) : ℂ) / (wvls.length : ℂ)) = (((((List.range wvls.length).map a).sum / wvls.length : ℝ)) : ℂ) by push_cast; rfl,
      Complex.norm_real, Real.norm_of_nonneg (by positivity)]
  · intro i j
    rw [nearfield_exact nt n hnt pos wvls hw, hfil]
    refine ⟨_, if_neg hne, ?_⟩
    refine meanOver_le (pairsOf n) _ _ (fun p _ => ?_) _ (if_neg hne)
    unfold nearTerm
    rw [norm_div, Complex.norm_natCast]
    refine div_le_div_of_nonneg_right ?_ hnf.le
    refine norm_sum_map _ _ _ fun f _ => ?_
    rw [hav, norm_mul, norm_mul, ← Complex.ofReal_div, ← Complex.ofReal_div, exp_norm, ← mul_neg, ← Complex.ofReal_neg, exp_norm, Complex.norm_real, Real.norm_of_nonneg (ha f)]
    linarith

/-- C127 (violated). With one frequency the near-field is the same at all pixels, whatever the data: transmitters are not located. -/
theorem nearfield_flat_violated (nt n : Nat) (hnt : 0 < nt) (pos : Nat → ℝ × ℝ × ℝ) (wvl : ℝ) (V : Nat → Nat → Nat → Nat → Option ℂ) (radius : ℝ)
    (npix i j i' j' : Nat) :
    nearfield n pos [wvl] (cubeOf nt 1 n V) radius npix i j = nearfield n pos [wvl] (cubeOf nt 1 n V) radius npix i' j' := by
  classical
  have h1 := nearfield_exact nt n hnt pos [wvl] (by simp) V radius npix
  rw [show [wvl].length = 1 from rfl] at h1
  rw [h1, h1]
  refine meanOver_congr _ _ _ fun p _ => ?_
  unfold nearTerm
  have : ∀ g, ‖((List.range [wvl].length).map fun f => averaged nt V f p *
      Complex.exp (2 * Complex.I * Real.pi * ((pathDiff pos g p : ℝ) / ([wvl].getD f 0 : ℝ)))).sum / ([wvl].length : ℂ)‖ = ‖averaged nt V 0 p‖ := by
    intro g
    show ‖([averaged nt V 0 p * Complex.exp (2 * Complex.I * Real.pi * ((pathDiff pos g p : ℝ) / (wvl : ℝ)))].sum) / ((1 : Nat) : ℂ)‖ = _
    rw [List.sum_singleton, Nat.cast_one, div_one, norm_mul, ← Complex.ofReal_div, exp_norm, mul_one]
  rw [this, this]

/-! ## Sources -/

/-- The place at the distance `D` in the direction `s`. -/
def faraway (s : ℝ × ℝ × ℝ) (D : ℝ) : ℝ × ℝ × ℝ := (D * s.1, D * s.2.1, D * s.2.2)

theorem far_limit (b c : ℝ) : Filter.Tendsto (fun D : ℝ => Real.sqrt (D ^ 2 - 2 * D * b + c) - D) Filter.atTop (nhds (-b)) := by
  have h1 : Filter.Tendsto (fun D : ℝ => (-2 * b + c / D) / (Real.sqrt (1 - 2 * b / D + c / D / D) + 1)) Filter.atTop (nhds ((-2 * b + 0) / (Real.sqrt (1 - 0 + 0) + 1))) := by
    have hc : Filter.Tendsto (fun D : ℝ => c / D) Filter.atTop (nhds 0) := Filter.Tendsto.const_div_atTop Filter.tendsto_id c
    have hb : Filter.Tendsto (fun D : ℝ => 2 * b / D) Filter.atTop (nhds 0) := Filter.Tendsto.const_div_atTop Filter.tendsto_id _
    have hcc : Filter.Tendsto (fun D : ℝ => c / D / D) Filter.atTop (nhds 0) := by
      have := hc.mul (Filter.Tendsto.const_div_atTop Filter.tendsto_id (1 : ℝ))
      rw [zero_mul] at this
      refine this.congr fun D => ?_
      show c / D * (1 / D) = _
      rw [mul_one_div]
    refine Filter.Tendsto.div (tendsto_const_nhds.add hc) ((Real.continuous_sqrt.tendsto _).comp ((tendsto_const_nhds.sub hb).add hcc) |>.add tendsto_const_nhds) ?_
    rw [show (1 : ℝ) - 0 + 0 = 1 by ring, Real.sqrt_one]
    norm_num
  rw [show (-2 * b + 0) / (Real.sqrt (1 - 0 + 0) + 1) = -b by rw [show (1 : ℝ) - 0 + 0 = 1 by ring, Real.sqrt_one]; ring] at h1
  refine h1.congr' ?_
  have hpos : ∀ᶠ D : ℝ in Filter.atTop, 0 ≤ D ^ 2 - 2 * D * b + c := by
    filter_upwards [Filter.eventually_ge_atTop (2 * |b| + |c| + 1)] with D hD
    have := abs_nonneg b
    have := abs_nonneg c
    have h2 := le_abs_self b
    have h3 := neg_abs_le c
    nlinarith
  filter_upwards [Filter.eventually_gt_atTop (0 : ℝ), hpos] with D hD hq
  have e1 : Real.sqrt (1 - 2 * b / D + c / D / D) = Real.sqrt (D ^ 2 - 2 * D * b + c) / D := by
    rw [show 1 - 2 * b / D + c / D / D = (D ^ 2 - 2 * D * b + c) / D ^ 2 by field_simp, Real.sqrt_div hq, Real.sqrt_sq hD.le]
  rw [e1]
  have hs := Real.sq_sqrt hq
  have hn := Real.sqrt_nonneg (D ^ 2 - 2 * D * b + c)
  generalize Real.sqrt (D ^ 2 - 2 * D * b + c) = q at hs hn
  have hqD : q + D ≠ 0 := by positivity
  rw [show (-2 * b + c / D) / (q / D + 1) = (-2 * b * D + c) / (q + D) by field_simp, div_eq_iff hqD]
  linarith

theorem far_path (a s : ℝ × ℝ × ℝ) (hs : s.1 ^ 2 + s.2.1 ^ 2 + s.2.2 ^ 2 = 1) :
    Filter.Tendsto (fun D => distTo a (faraway s D) - D) Filter.atTop (nhds (-(a.1 * s.1 + a.2.1 * s.2.1 + a.2.2 * s.2.2))) := by
  refine (far_limit (a.1 * s.1 + a.2.1 * s.2.1 + a.2.2 * s.2.2) (a.1 ^ 2 + a.2.1 ^ 2 + a.2.2 ^ 2)).congr fun D => ?_
  unfold distTo faraway
  congr 2
  linear_combination (-(D ^ 2)) * hs

theorem enu_unit (az el : ℝ) : (toEnu az el).1 ^ 2 + (toEnu az el).2.1 ^ 2 + (toEnu az el).2.2 ^ 2 = 1 := by
  unfold toEnu
  have h1 := Real.sin_sq_add_cos_sq az
  have h2 := Real.sin_sq_add_cos_sq el
  dsimp only
  linear_combination (Real.cos el ^ 2) * h1 + h2

/-- C127. Correlations taken for a source of the sky are the limit of those of a transmitter which goes away in its direction. -/
theorem source_far (pos : Nat → ℝ × ℝ × ℝ) (az el wvl : ℝ) (k l : Nat) :
    Filter.Tendsto (fun D => Complex.exp (-(2 * Complex.I * Real.pi * ((pathDiff pos (faraway (toEnu az el) D) (k, l) : ℝ) / (wvl : ℝ))))) Filter.atTop
      (nhds (sourceVis pos (toEnu az el) wvl k l)) := by
  have h := (far_path (pos k) _ (enu_unit az el)).sub (far_path (pos l) _ (enu_unit az el))
  have h2 : Filter.Tendsto (fun D => pathDiff pos (faraway (toEnu az el) D) (k, l)) Filter.atTop
      (nhds (-((pos k).1 * (toEnu az el).1 + (pos k).2.1 * (toEnu az el).2.1 + (pos k).2.2 * (toEnu az el).2.2) -
        -((pos l).1 * (toEnu az el).1 + (pos l).2.1 * (toEnu az el).2.1 + (pos l).2.2 * (toEnu az el).2.2))) :=
    h.congr fun D => by unfold pathDiff; ring
  have h3 := (Complex.continuous_ofReal.tendsto _).comp h2
  have h4 := (Complex.continuous_exp.tendsto _).comp ((tendsto_const_nhds (x := -(2 * Complex.I * (Real.pi : ℂ) / (wvl : ℂ)))).mul h3)
  have e : sourceVis pos (toEnu az el) wvl k l = Complex.exp (-(2 * Complex.I * (Real.pi : ℂ) / (wvl : ℂ)) *
      ((-((pos k).1 * (toEnu az el).1 + (pos k).2.1 * (toEnu az el).2.1 + (pos k).2.2 * (toEnu az el).2.2) -
        -((pos l).1 * (toEnu az el).1 + (pos l).2.1 * (toEnu az el).2.1 + (pos l).2.2 * (toEnu az el).2.2) : ℝ) : ℂ)) := by
    unfold sourceVis
    congr 1
    push_cast
    ring
  rw [e]
  refine h4.congr fun D => ?_
  rw [Function.comp_apply, Function.comp_apply]
  congr 1
  ring

/-- C127. The imprint of a source is the near-field of its correlations; sources at 10 degrees of elevation or less are left out. -/
theorem source_imprint (nt n : Nat) (hnt : 0 < nt) (pos : Nat → ℝ × ℝ × ℝ) (wvls : List ℝ) (az alt radius : ℝ) (npix i j : Nat) :
    (alt * (180 / Real.pi) ≤ 10 → simuSource n pos wvls az alt radius npix i j = none) ∧
    (10 < alt * (180 / Real.pi) → simuSource n pos wvls az alt radius npix i j =
      some (nearfield n pos wvls (cubeOf nt wvls.length n fun _ f k l => some (sourceVis pos (toEnu az alt) (wvls.getD f 0) k l)) radius npix i j)) := by
  constructor
  · exact fun h => if_pos h
  · intro h
    unfold simuSource
    rw [if_neg (not_le.2 h)]
    unfold nearfield imprint
    congr 2
    refine List.map_congr_left fun p hp => ?_
    congr 2
    refine List.map_congr_left fun f hf => ?_
    congr 1
    dsimp only
    rw [time_whole nt wvls.length n hnt _ (List.mem_range.1 hf) hp fun t _ f _ => rfl]
    rw [averaged_const nt hnt _ f p.1 _ fun t => rfl]

/-! ## Image -/

/-- Values by baseline, in the order of the data. -/
def byPair {α : Type} (n : Nat) (g : Nat → Nat → α) (b : Nat) : α := g ((tril n).getD b (0, 0)).1 ((tril n).getD b (0, 0)).2

/-- Path difference of a baseline `u`, in the direction `s` (`l`, `m`, `n`), with respect to the phase centre. -/
def pathTo (u s : ℝ × ℝ × ℝ) : ℝ := u.1 * s.1 + u.2.1 * s.2.1 + u.2.2 * (s.2.2 - 1)

/-- Real part of the mean over frequencies of the correlations, with the phase of the mean baseline. -/
noncomputable def imageTerm (nt : Nat) (wvls : List ℝ) (V : Nat → Nat → Nat → Nat → Option ℂ) (U : Nat → Nat → Nat → ℝ × ℝ × ℝ) (s : ℝ × ℝ × ℝ) (p : Nat × Nat) : ℝ :=
  (((List.range wvls.length).map fun f => averaged nt V f p *
    Complex.exp (-(2 * Complex.I * Real.pi * ((((List.range nt).map fun t => pathTo (U t p.1 p.2) s).sum / nt / wvls.getD f 0 : ℝ))))).sum / wvls.length).re

theorem range_mapIdx {α β : Type} (m : Nat) (g : Nat → α) (h : Nat → α → β) : ((List.range m).map g).mapIdx h = (List.range m).map fun i => h i (g i) := by
  apply List.ext_getElem?
  intro i
  rw [List.getElem?_mapIdx, List.getElem?_map, List.getElem?_map]
  by_cases hi : i < m
  · rw [List.getElem?_range hi]; rfl
  · rw [List.getElem?_eq_none (by simpa using hi)]; rfl

theorem tril_mapIdx {α β : Type} (n : Nat) (g : Nat × Nat → α) (h : Nat → Nat → α → β) :
    ((tril n).map g).mapIdx (fun b v => byPair n h b v) = (tril n).map fun p => h p.1 p.2 (g p) := by
  apply List.ext_getElem?
  intro i
  rw [List.getElem?_mapIdx, List.getElem?_map, List.getElem?_map]
  unfold byPair
  rw [List.getD_eq_getElem?_getD]
  cases (tril n)[i]? with
  | none => rfl
  | some p => rfl

theorem rephased_cube (nt nf n : Nat) (V : Nat → Nat → Nat → Nat → Option ℂ) (R : Nat → Nat → Nat → Nat → ℂ) :
    rephased (cubeOf nt nf n V) (fun t f => byPair n (R t f)) = cubeOf nt nf n fun t f k l => (V t f k l).map (· * R t f k l) := by
  unfold rephased cubeOf
  rw [range_mapIdx]
  refine List.map_congr_left fun t _ => ?_
  rw [range_mapIdx]
  refine List.map_congr_left fun f _ => ?_
  exact tril_mapIdx n (fun p => V t f p.1 p.2) fun k l v => v.map (· * R t f k l)

theorem mean_path (nt n : Nat) (U : Nat → Nat → Nat → ℝ × ℝ × ℝ) (wvl : ℝ) {p : (Nat × Nat) × Nat} (hp : p ∈ crossPairs n) (s : ℝ × ℝ × ℝ) :
    imagePhase nt (fun t => byPair n (U t)) wvl p.2 s =
      Complex.exp (-(2 * Complex.I * Real.pi * ((((List.range nt).map fun t => pathTo (U t p.1.1 p.1.2) s).sum / nt / wvl : ℝ)))) := by
  have hb : ∀ t, byPair n (U t) p.2 = U t p.1.1 p.1.2 := by
    intro t
    unfold byPair
    rw [List.getD_eq_getElem?_getD, cross_mem n hp]
    rfl
  unfold imagePhase meanUvw
  have key : ((List.range nt).map fun t => (byPair n (U t) p.2).1 / wvl).sum / nt * s.1 + ((List.range nt).map fun t => (byPair n (U t) p.2).2.1 / wvl).sum / nt * s.2.1 +
      ((List.range nt).map fun t => (byPair n (U t) p.2).2.2 / wvl).sum / nt * (s.2.2 - 1) = ((List.range nt).map fun t => pathTo (U t p.1.1 p.1.2) s).sum / nt / wvl := by
    simp only [hb]
    generalize (nt : ℝ) = k
    induction List.range nt with
    | nil => simp
    | cons t l ih =>
      simp only [List.map_cons, List.sum_cons]
      unfold pathTo at ih ⊢
      linear_combination ih
  rw [key]
  congr 1
  ring

open Classical in
theorem dirty_exact (nt n : Nat) (hnt : 0 < nt) (wvls : List ℝ) (hw : wvls ≠ []) (V : Nat → Nat → Nat → Nat → Option ℂ) (U : Nat → Nat → Nat → ℝ × ℝ × ℝ)
    (s : ℝ × ℝ × ℝ) : dirtyAt n nt wvls (cubeOf nt wvls.length n V) (fun t => byPair n (U t)) s =
      meanOver ((pairsOf n).filter fun p => decide (Whole nt wvls.length V p)) (imageTerm nt wvls V U s) := by
  have hnf : 0 < wvls.length := List.length_pos_iff.2 hw
  unfold dirtyAt
  refine over_pairs n _ _ _ (fun p hp hP => ?_) fun p hp hP => ?_
  · rw [(phased nt wvls.length n hnt hnf V (fun f => imagePhase nt (fun t => byPair n (U t)) (wvls.getD f 0) p.2 s) hp).1 hP]
    show some _ = some _
    unfold imageTerm
    congr 4
    refine List.map_congr_left fun f _ => ?_
    rw [mean_path nt n U _ hp]
  · rw [(phased nt wvls.length n hnt hnf V (fun f => imagePhase nt (fun t => byPair n (U t)) (wvls.getD f 0) p.2 s) hp).2 hP]
    rfl

theorem whole_rephased (nt nf : Nat) (V : Nat → Nat → Nat → Nat → Option ℂ) (R : Nat → Nat → Nat → Nat → ℂ) (p : Nat × Nat) :
    Whole nt nf (fun t f k l => (V t f k l).map (· * R t f k l)) p ↔ Whole nt nf V p := by
  unfold Whole
  simp only [Option.isSome_map]

open Classical in
/-- C127 (partial). If the field has no pixel, or at least as many as there are processors: NaN out of the field and below the horizon; elsewhere the mean over the
pairs without missing value of the correlations, brought to the phase centre and then to the direction of the pixel. -/
theorem image_partial (cpu nt n : Nat) (hnt : 0 < nt) (wvls : List ℝ) (hw : wvls ≠ []) (V : Nat → Nat → Nat → Nat → Option ℂ) (R : Nat → Nat → Nat → Nat → ℂ)
    (U : Nat → Nat → Nat → ℝ × ℝ × ℝ) (fov : ℝ) (sky : List SkyPixel) (hcpu : 0 < cpu)
    (hp : (sky.countP fun x => decide (0 < x.alt ∧ x.sep ≤ fov)) = 0 ∨ cpu ≤ sky.countP fun x => decide (0 < x.alt ∧ x.sep ≤ fov)) :
    makeImage cpu n nt wvls (cubeOf nt wvls.length n V) (fun t f => byPair n (R t f)) (fun t => byPair n (U t)) fov sky =
      .ok (sky.map fun x => if 0 < x.alt ∧ x.sep ≤ fov then meanOver ((pairsOf n).filter fun p => decide (Whole nt wvls.length V p))
        (imageTerm nt wvls (fun t f k l => (V t f k l).map (· * R t f k l)) U x.lmn) else none) := by
  have hc : (sky.filter fun x => decide (inField fov x)).length = sky.countP fun x => decide (0 < x.alt ∧ x.sep ≤ fov) := by
    rw [← List.countP_eq_length_filter]
    congr 1
    funext x
    exact decide_eq_decide.2 Iff.rfl
  unfold makeImage
  rw [hc, rephased_cube]
  have hno : ¬ (0 < (sky.countP fun x => decide (0 < x.alt ∧ x.sep ≤ fov)) ∧ (sky.countP fun x => decide (0 < x.alt ∧ x.sep ≤ fov)) / cpu = 0) := by
    rintro ⟨h1, h2⟩
    rcases hp with h | h
    · omega
    · have := Nat.div_pos h hcpu
      omega
  rw [if_neg hno]
  congr 1
  refine List.map_congr_left fun x _ => ?_
  by_cases h : 0 < x.alt ∧ x.sep ≤ fov
  · rw [if_pos h]
    refine (if_pos h).trans ?_
    rw [dirty_exact nt n hnt wvls hw]
    simp only [whole_rephased]
  · rw [if_neg h]
    exact if_neg h

open Classical in
/-- C127 (violated). A field with fewer pixels than processors is a division by zero. -/
theorem image_few_violated (cpu n nt : Nat) (wvls : List ℝ) (cube : List (List (List (Option ℂ)))) (R : Nat → Nat → Nat → ℂ) (U : Nat → Nat → ℝ × ℝ × ℝ)
    (fov : ℝ) (sky : List SkyPixel) (h1 : 0 < sky.countP fun x => decide (0 < x.alt ∧ x.sep ≤ fov)) (h2 : (sky.countP fun x => decide (0 < x.alt ∧ x.sep ≤ fov)) < cpu) :
    makeImage cpu n nt wvls cube R U fov sky = .error .zeroDivision := by
  have hc : (sky.filter fun x => decide (inField fov x)).length = sky.countP fun x => decide (0 < x.alt ∧ x.sep ≤ fov) := by
    rw [← List.countP_eq_length_filter]
    congr 1
    funext x
    exact decide_eq_decide.2 Iff.rfl
  unfold makeImage
  rw [hc]
  exact if_pos ⟨h1, Nat.div_eq_of_lt h2⟩

/-- Correlations of a source of power `a f` in the direction `s`, once they are brought to the phase centre. -/
noncomputable def pointSource (wvls : List ℝ) (U : Nat → Nat → Nat → ℝ × ℝ × ℝ) (s : ℝ × ℝ × ℝ) (a : Nat → ℝ) : Nat → Nat → Nat → Nat → Option ℂ :=
  fun t f k l => some (a f * Complex.exp (2 * Complex.I * Real.pi * ((pathTo (U t k l) s / wvls.getD f 0 : ℝ))))

theorem source_average (nt : Nat) (hnt : 0 < nt) (wvls : List ℝ) (U : Nat → Nat → Nat → ℝ × ℝ × ℝ) (s : ℝ × ℝ × ℝ) (a : Nat → ℝ) (ha : ∀ f, 0 ≤ a f) (f : Nat)
    (p : Nat × Nat) : ‖averaged nt (pointSource wvls U s a) f p‖ ≤ a f := by
  unfold averaged
  have hn : (0 : ℝ) < nt := by exact_mod_cast hnt
  rw [norm_div, Complex.norm_natCast, div_le_iff₀ hn]
  refine (norm_sum_map _ _ (fun _ => a f) fun t _ => ?_).trans ?_
  · show ‖(a f : ℂ) * Complex.exp _‖ ≤ _
    rw [norm_mul, exp_norm, mul_one, Complex.norm_real, Real.norm_of_nonneg (ha f)]
  · rw [List.map_const', List.sum_replicate, List.length_range, nsmul_eq_mul, mul_comm]

/-- C127. No pixel is brighter than the source. -/
theorem image_source_bound (nt n : Nat) (hnt : 0 < nt) (hn : 2 ≤ n) (wvls : List ℝ) (hw : wvls ≠ []) (U : Nat → Nat → Nat → ℝ × ℝ × ℝ) (s x : ℝ × ℝ × ℝ) (a : Nat → ℝ)
    (ha : ∀ f, 0 ≤ a f) : ∃ v, dirtyAt n nt wvls (cubeOf nt wvls.length n (pointSource wvls U s a)) (fun t => byPair n (U t)) x = some v ∧
      v ≤ ((List.range wvls.length).map a).sum / wvls.length := by
  classical
  have hfil : ((pairsOf n).filter fun p => decide (Whole nt wvls.length (pointSource wvls U s a) p)) = pairsOf n := by
    rw [List.filter_eq_self]
    exact fun p _ => decide_eq_true fun t _ f _ => rfl
  have hne : pairsOf n ≠ [] := List.ne_nil_of_mem (mem_pairs.2 (show ((1, 0) : Nat × Nat).2 < ((1, 0) : Nat × Nat).1 ∧ ((1, 0) : Nat × Nat).1 < n from ⟨by norm_num, by dsimp only; omega⟩))
  have hnf : (0 : ℝ) < wvls.length := by exact_mod_cast List.length_pos_iff.2 hw
  rw [dirty_exact nt n hnt wvls hw, hfil]
  refine ⟨_, if_neg hne, ?_⟩
  refine meanOver_le (pairsOf n) _ _ (fun p _ => ?_) _ (if_neg hne)
  refine (Complex.re_le_norm _).trans ?_
  rw [norm_div, Complex.norm_natCast]
  refine div_le_div_of_nonneg_right ?_ hnf.le
  refine norm_sum_map _ _ _ fun f _ => ?_
  rw [norm_mul, ← mul_neg, ← Complex.ofReal_neg, exp_norm, mul_one]
  exact source_average nt hnt wvls U s a ha f p

/-- C127 (partial). The image of a source has its power at its direction, **if baselines do not change during the exposure**. -/
theorem image_source_partial (nt n : Nat) (hnt : 0 < nt) (hn : 2 ≤ n) (wvls : List ℝ) (hw : wvls ≠ []) (U : Nat → Nat → Nat → ℝ × ℝ × ℝ) (s : ℝ × ℝ × ℝ) (a : Nat → ℝ)
    (hU : ∀ t, U t = U 0) : dirtyAt n nt wvls (cubeOf nt wvls.length n (pointSource wvls U s a)) (fun t => byPair n (U t)) s =
      some (((List.range wvls.length).map a).sum / wvls.length) := by
  classical
  have hfil : ((pairsOf n).filter fun p => decide (Whole nt wvls.length (pointSource wvls U s a) p)) = pairsOf n := by
    rw [List.filter_eq_self]
    exact fun p _ => decide_eq_true fun t _ f _ => rfl
  have hne : pairsOf n ≠ [] := List.ne_nil_of_mem (mem_pairs.2 (show ((1, 0) : Nat × Nat).2 < ((1, 0) : Nat × Nat).1 ∧ ((1, 0) : Nat × Nat).1 < n from ⟨by norm_num, by dsimp only; omega⟩))
  have hn' : (nt : ℝ) ≠ 0 := by exact_mod_cast hnt.ne'
  rw [dirty_exact nt n hnt wvls hw, hfil]
  refine meanOver_const _ _ _ hne fun p _ => ?_
  unfold imageTerm
  have hpath : ((List.range nt).map fun t => pathTo (U t p.1 p.2) s).sum / nt = pathTo (U 0 p.1 p.2) s := by
    have : ((List.range nt).map fun t => pathTo (U t p.1 p.2) s) = (List.range nt).map fun _ => pathTo (U 0 p.1 p.2) s :=
      List.map_congr_left fun t _ => by rw [hU t]
    rw [this, List.map_const', List.sum_replicate, List.length_range, nsmul_eq_mul, mul_div_cancel_left₀ _ hn']
  have hterm : ((List.range wvls.length).map fun f => averaged nt (pointSource wvls U s a) f p *
      Complex.exp (-(2 * Complex.I * Real.pi * ((((List.range nt).map fun t => pathTo (U t p.1 p.2) s).sum / nt / wvls.getD f 0 : ℝ))))) =
      ((List.range wvls.length).map a).map (fun x : ℝ => (x : ℂ)) := by
    rw [List.map_map]
    refine List.map_congr_left fun f _ => ?_
    rw [hpath, averaged_const nt hnt _ f p (a f * Complex.exp (2 * Complex.I * Real.pi * ((pathTo (U 0 p.1 p.2) s / wvls.getD f 0 : ℝ)))), mul_assoc,
      ← Complex.exp_add, add_neg_cancel, Complex.exp_zero, mul_one]
    · rfl
    · intro t
      show some _ = some _
      rw [hU t]
  have hre : ∀ l : List ℝ, (l.map fun x : ℝ => (x : ℂ)).sum = ((l.sum : ℝ) : ℂ) := fun l => (map_list_sum Complex.ofRealHom l).symm
  rw [hterm, hre, ← Complex.ofReal_natCast, ← Complex.ofReal_div, Complex.ofReal_re]

/-- C127 (violated). The mean baseline is used for all times: a source away from the centre is lost when baselines turn during the exposure. Two times, two mini-arrays, one
frequency: nothing is left of the source at its own direction. -/
theorem image_smeared_violated : ∃ (U : Nat → Nat → Nat → ℝ × ℝ × ℝ) (s : ℝ × ℝ × ℝ), s.1 ^ 2 + s.2.1 ^ 2 + s.2.2 ^ 2 = 1 ∧
    dirtyAt 2 2 [1] (cubeOf 2 1 2 (pointSource [1] U s fun _ => 1)) (fun t => byPair 2 (U t)) s = some 0 := by
  refine ⟨fun t _ _ => if t = 0 then (5 / 12, 0, 0) else (-(5 / 12), 0, 0), (3 / 5, 0, 4 / 5), by norm_num, ?_⟩
  classical
  generalize hU : (fun t _ _ => if t = 0 then ((5 / 12, 0, 0) : ℝ × ℝ × ℝ) else (-(5 / 12), 0, 0) : Nat → Nat → Nat → ℝ × ℝ × ℝ) = U
  have hd := dirty_exact 2 2 (by norm_num) [1] (by simp) (pointSource [1] U (3 / 5, 0, 4 / 5) fun _ => 1) U (3 / 5, 0, 4 / 5)
  rw [show ([1] : List ℝ).length = 1 from rfl] at hd
  rw [hd]
  have hfil : ((pairsOf 2).filter fun p => decide (Whole 2 1 (pointSource [1] U (3 / 5, 0, 4 / 5) fun _ => 1) p)) = pairsOf 2 := by
    rw [List.filter_eq_self]
    exact fun p _ => decide_eq_true fun t _ f _ => rfl
  rw [hfil]
  refine meanOver_const _ _ _ (by decide) fun p _ => ?_
  have hav : averaged 2 (pointSource [1] U (3 / 5, 0, 4 / 5) fun _ => 1) 0 p = 0 := by
    show ([_, _] : List ℂ).sum / _ = 0
    show ([(((1 : ℝ) : ℂ) * Complex.exp (2 * Complex.I * Real.pi * ((pathTo (U 0 p.1 p.2) (3 / 5, 0, 4 / 5) / 1 : ℝ)))),
      (((1 : ℝ) : ℂ) * Complex.exp (2 * Complex.I * Real.pi * ((pathTo (U 1 p.1 p.2) (3 / 5, 0, 4 / 5) / 1 : ℝ))))] : List ℂ).sum / _ = 0
    have e0 : pathTo (U 0 p.1 p.2) (3 / 5, 0, 4 / 5) = 1 / 4 := by
      rw [← hU]
      unfold pathTo
      norm_num
    have e1 : pathTo (U 1 p.1 p.2) (3 / 5, 0, 4 / 5) = -(1 / 4) := by
      rw [← hU]
      unfold pathTo
      norm_num
    rw [e0, e1, List.sum_cons, List.sum_singleton]
    rw [show 2 * Complex.I * (Real.pi : ℂ) * ((1 / 4 / 1 : ℝ) : ℂ) = (Real.pi / 2 : ℂ) * Complex.I by push_cast; ring,
      show 2 * Complex.I * (Real.pi : ℂ) * ((-(1 / 4) / 1 : ℝ) : ℂ) = (-Real.pi / 2 : ℂ) * Complex.I by push_cast; ring,
      Complex.exp_pi_div_two_mul_I, Complex.exp_neg_pi_div_two_mul_I]
    simp
  unfold imageTerm
  show ([averaged 2 (pointSource [1] U (3 / 5, 0, 4 / 5) fun _ => 1) 0 p * _].sum / _ : ℂ).re = 0
  rw [hav]
  simp

/-- C127. One pixel is at the south-west corner of the field. -/
theorem ground_one (n : Nat) (pos : Nat → ℝ × ℝ × ℝ) (radius : ℝ) (i j : Nat) :
    (groundPoint n pos radius 1 i j).1 = -radius ∧ (groundPoint n pos radius 1 i j).2.1 = -radius := by
  have e : ∀ k, groundAt radius 1 k = -radius := fun k => if_pos rfl
  exact ⟨e j, e i⟩

/-- C127. Azimuths go from the north through the east, altitudes to the zenith: the direction has the altitude `el` above the horizon, and its
projection on the ground makes the angle `az` with the north. -/
theorem enu_exact (az el : ℝ) :
    (toEnu az el).2.2 = Real.sin el ∧
    (toEnu az el).2.1 * Real.sin az = (toEnu az el).1 * Real.cos az ∧
    (toEnu az el).2.1 * Real.cos az + (toEnu az el).1 * Real.sin az = Real.cos el := by
  unfold toEnu
  refine ⟨rfl, by ring, ?_⟩
  linear_combination Real.cos el * Real.sin_sq_add_cos_sq az

/-! ## The hypotheses hold -/

/-- A field with two pixels and one processor; with four processors the image is refused. -/
example : ∃ sky : List SkyPixel, (sky.countP fun x => decide (0 < x.alt ∧ x.sep ≤ 25)) = 2 ∧ sky.length = 3 :=
  ⟨[⟨80, 10, (0, 0, 1)⟩, ⟨70, 20, (0, 0, 1)⟩, ⟨60, 30, (0, 0, 1)⟩], by norm_num [List.countP_cons], rfl⟩

/-- One baseline without missing value, another one with one. -/
example : ∃ V : Nat → Nat → Nat → Nat → Option ℂ, Whole 2 3 V (1, 0) ∧ ¬ Whole 2 3 V (2, 0) :=
  ⟨fun _ _ k _ => if k = 1 then some 1 else none, fun t _ f _ => rfl, fun h => by simpa using h 0 (by norm_num) 0 (by norm_num)⟩

/-- A transmitter of the same power at three frequencies. -/
example : ∃ a : Nat → ℝ, (∀ f, 0 ≤ a f) ∧ ((List.range 3).map a).sum / 3 = 2 := ⟨fun _ => 2, fun _ => by norm_num, by norm_num [List.range_succ]⟩

end Verif.IO
