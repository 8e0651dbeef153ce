import Verif.GA.Parents
import Verif.GA.Props
import Mathlib.Tactic.Linarith
import Mathlib.Tactic.FieldSimp
import Mathlib.Tactic.Ring
import Mathlib.Data.List.Perm.Basic
import Mathlib.Algebra.Order.BigOperators.Group.List
import Mathlib.Algebra.BigOperators.Ring.List

/-!
# Selection of the parents: property C134
-/

namespace Verif.GA

/-! ## Proportional selection -/

/-- At least two scores are not zero. -/
def TwoNonzero (l : List ℚ) : Prop := 2 ≤ (l.filter fun x => decide (x ≠ 0)).length

theorem filter_map_div (l : List ℚ) (s : ℚ) (hs : s ≠ 0) :
    ((l.map fun x => x / s).filter fun x => decide (x ≠ 0)).length = (l.filter fun x => decide (x ≠ 0)).length := by
  rw [List.filter_map, List.length_map]
  congr 1
  apply List.filter_congr
  intro x _
  exact decide_eq_decide.2 (not_congr (div_eq_zero_iff.trans (or_iff_left hs)))

theorem getD_map_div (l : List ℚ) (s : ℚ) (i : Nat) : (l.map fun x => x / s).getD i 0 = l.getD i 0 / s := by
  rw [List.getD_eq_getElem?_getD, List.getD_eq_getElem?_getD, List.getElem?_map]
  rcases l[i]? with _ | x
  · simp
  · rfl

theorem sum_pos_of_nonzero (l : List ℚ) (h0 : ∀ x ∈ l, 0 ≤ x) (h2 : TwoNonzero l) : 0 < l.sum := by
  unfold TwoNonzero at h2
  have hne : l.filter (fun x => decide (x ≠ 0)) ≠ [] := fun h => by rw [h] at h2; simp at h2
  obtain ⟨x, hx⟩ := List.exists_mem_of_ne_nil _ hne
  obtain ⟨hxl, hx0⟩ := List.mem_filter.1 hx
  have hxp : 0 < x := lt_of_le_of_ne (h0 x hxl) (Ne.symm (of_decide_eq_true hx0))
  exact lt_of_lt_of_le hxp (List.single_le_sum h0 x hxl)

theorem fps_scores_two (l : List ℚ) (h : TwoNonzero l) : fpsScores l = l := if_neg (by unfold TwoNonzero at h; omega)

/-- **Proportional selection**: with scores that are not negative, two of which at least are not zero, the parents are any two different individuals
of nonzero scores, and each has a probability which is its part of the sum. -/
theorem fps_exact (l : List ℚ) (h0 : ∀ x ∈ l, 0 ≤ x) (h2 : TwoNonzero l) :
    ∃ D w, fps l = .ok D ∧ fpsWeights l = some w ∧ w.sum = 1 ∧ (∀ i, w.getD i 0 * l.sum = l.getD i 0) ∧
      ∀ i j, D i j ↔ i < l.length ∧ j < l.length ∧ i ≠ j ∧ l.getD i 0 ≠ 0 ∧ l.getD j 0 ≠ 0 := by
  have hs := sum_pos_of_nonzero l h0 h2
  have hw : fpsWeights l = some (l.map fun x => x / l.sum) := by
    unfold fpsWeights
    rw [fps_scores_two l h2, if_neg hs.ne']
  have hneg : ¬ (((l.map fun x => x / l.sum).any fun x => decide (x < 0)) = true ∨
      ((l.map fun x => x / l.sum).filter fun x => decide (x ≠ 0)).length < 2) := by
    rintro (h | h)
    · obtain ⟨y, hy, hy0⟩ := List.any_eq_true.1 h
      obtain ⟨x, hx, rfl⟩ := List.mem_map.1 hy
      exact absurd (of_decide_eq_true hy0) (not_lt.2 (div_nonneg (h0 x hx) hs.le))
    · rw [filter_map_div l _ hs.ne'] at h
      unfold TwoNonzero at h2
      omega
  have hf : fps l = .ok fun i j => i < l.length ∧ j < l.length ∧ i ≠ j ∧ (l.map fun x => x / l.sum).getD i 0 ≠ 0 ∧ (l.map fun x => x / l.sum).getD j 0 ≠ 0 := by
    unfold fps
    rw [hw]
    exact if_neg hneg
  refine ⟨_, _, hf, hw, ?_, ?_, ?_⟩
  · rw [show (l.map fun x => x / l.sum) = l.map fun x => x * (l.sum)⁻¹ from by simp only [div_eq_mul_inv]]
    have := List.sum_map_mul_right (l := l) (f := fun x => x) (r := (l.sum)⁻¹)
    rw [this, List.map_id']
    exact mul_inv_cancel₀ hs.ne'
  · intro i
    rw [getD_map_div, div_mul_cancel₀ _ hs.ne']
  · intro i j
    rw [getD_map_div, getD_map_div]
    have e : ∀ x : ℚ, x / l.sum ≠ 0 ↔ x ≠ 0 := fun x => not_congr (div_eq_zero_iff.trans (or_iff_left hs.ne'))
    rw [e, e]

/-- With less than two scores which are not zero, all the individuals are as likely. -/
theorem fps_flat (l : List ℚ) (h2 : ¬ TwoNonzero l) (hl : 2 ≤ l.length) :
    ∃ D, fps l = .ok D ∧ ∀ i j, D i j ↔ i < l.length ∧ j < l.length ∧ i ≠ j := by
  have hone : fpsScores l = List.replicate l.length 1 := by
    unfold fpsScores
    rw [if_pos (by unfold TwoNonzero at h2; omega), List.map_const']
  have hflt : ((List.replicate l.length (1 : ℚ)).filter fun x => decide (x ≠ 0)) = List.replicate l.length 1 := by
    rw [List.filter_eq_self]
    intro a ha
    rw [List.eq_of_mem_replicate ha]
    rfl
  have h0 : ∀ x ∈ List.replicate l.length (1 : ℚ), 0 ≤ x := fun x hx => by rw [List.eq_of_mem_replicate hx]; exact zero_le_one
  have h2' : TwoNonzero (List.replicate l.length (1 : ℚ)) := by
    unfold TwoNonzero
    rw [hflt, List.length_replicate]
    exact hl
  obtain ⟨D, w, h1, -, -, -, h5⟩ := fps_exact _ h0 h2'
  refine ⟨D, ?_, ?_⟩
  · rw [← h1]
    unfold fps fpsWeights
    rw [fps_scores_two _ h2', hone, List.length_replicate]
  · intro i j
    rw [h5, List.length_replicate]
    have e : ∀ k, k < l.length → (List.replicate l.length (1 : ℚ)).getD k 0 ≠ 0 := fun k hk => by
      rw [List.getD_eq_getElem?_getD, List.getElem?_replicate, if_pos hk]
      exact one_ne_zero
    constructor
    · rintro ⟨a, b, c, -⟩; exact ⟨a, b, c⟩
    · rintro ⟨a, b, c⟩; exact ⟨a, b, c, e i a, e j b⟩

/-- The scores are changed in place by a selection: the next selections of the same generation are not affected by it. -/
theorem fps_again (l : List ℚ) (hl : 2 ≤ l.length) : fps (fpsScores l) = fps l := by
  by_cases h2 : TwoNonzero l
  · rw [fps_scores_two l h2]
  · have hone : fpsScores l = List.replicate l.length 1 := by
      unfold fpsScores
      rw [if_pos (by unfold TwoNonzero at h2; omega), List.map_const']
    have h2' : TwoNonzero (List.replicate l.length (1 : ℚ)) := by
      unfold TwoNonzero
      rw [List.filter_eq_self.2 (fun a ha => by rw [List.eq_of_mem_replicate ha]; rfl), List.length_replicate]
      exact hl
    unfold fps fpsWeights
    rw [hone, fps_scores_two _ h2', List.length_replicate]

/-- **Violated**: negative scores, which are accepted, stop the search: as soon as scores of both signs have a sum which is not zero. -/
theorem fps_signs_violated (l : List ℚ) (h2 : TwoNonzero l) (a b : ℚ) (ha : a ∈ l) (hb : b ∈ l) (ha0 : a < 0) (hb0 : 0 < b) (hs : l.sum ≠ 0) :
    fps l = .error .valueError := by
  have hw : fpsWeights l = some (l.map fun x => x / l.sum) := by
    unfold fpsWeights
    rw [fps_scores_two l h2, if_neg hs]
  unfold fps
  rw [hw]
  have hneg : (l.map fun x => x / l.sum).any (fun x => decide (x < 0)) = true := by
    rw [List.any_eq_true]
    rcases lt_or_gt_of_ne hs with h | h
    · exact ⟨b / l.sum, List.mem_map.2 ⟨b, hb, rfl⟩, decide_eq_true (div_neg_of_pos_of_neg hb0 h)⟩
    · exact ⟨a / l.sum, List.mem_map.2 ⟨a, ha, rfl⟩, decide_eq_true (div_neg_of_neg_of_pos ha0 h)⟩
  exact if_pos (Or.inl hneg)

/-- **Violated**: with negative scores only, the lower a score the more likely its individual. -/
theorem fps_negative_violated (l : List ℚ) (h2 : TwoNonzero l) (hs : l.sum < 0) (i j : Nat) (hij : l.getD i 0 < l.getD j 0) :
    ∃ w, fpsWeights l = some w ∧ w.getD j 0 < w.getD i 0 := by
  refine ⟨l.map fun x => x / l.sum, ?_, ?_⟩
  · unfold fpsWeights
    rw [fps_scores_two l h2, if_neg hs.ne]
  · rw [getD_map_div, getD_map_div]
    exact div_lt_div_of_neg_of_lt hs hij

/-- Such scores. -/
example : TwoNonzero [1, 0, 1 / 2] ∧ (∀ x ∈ [1, 0, (1 / 2 : ℚ)], 0 ≤ x) ∧ TwoNonzero [-1, 3] ∧ ([-1, 3] : List ℚ).sum ≠ 0 ∧
    TwoNonzero [-1, -3] ∧ ([-1, -3] : List ℚ).sum < 0 := by
  unfold TwoNonzero
  decide +kernel

/-! ## Selection by rank -/

/-- `order` sorts the scores in increasing order: what `np.argsort` gives, whatever it does of equal ones. -/
structure Sorts (scores : Nat → ℚ) (n : Nat) (order : List Nat) : Prop where
  perm : order.Perm (List.range n)
  rising : (order.map scores).Pairwise (· ≤ ·)

theorem pairwise_strict (n : Nat) (order : List Nat) (hp : order.Perm (List.range n)) (hd : order.Pairwise (· > ·)) : order = (List.range n).reverse := by
  apply List.Perm.eq_of_pairwise (le := (· > ·)) (fun a b _ _ h1 h2 => absurd h1 (by omega)) hd
  · rw [List.pairwise_reverse]
    exact List.pairwise_lt_range
  · exact hp.trans (List.reverse_perm _).symm

/-- **Rank selection**: the population being in decreasing order of scores, all different, the weight of an individual is the number of those which
are not better: the best has the number of individuals, the worst 1. -/
theorem rks_ranks_partial (scores : Nat → ℚ) (n : Nat) (order : List Nat) (h : Sorts scores n order) (hs : ∀ i j, i < j → j < n → scores j < scores i)
    (i : Nat) (hi : i < n) : (rksRanks order).getD i 0 = (n : ℚ) - i := by
  have hdec : order.Pairwise (· > ·) := by
    have hr := List.pairwise_map.1 h.rising
    have hnd : order.Nodup := h.perm.nodup_iff.2 List.nodup_range
    have hall : ∀ a ∈ order, a < n := fun a ha => List.mem_range.1 (h.perm.mem_iff.1 ha)
    have := hr.and (List.nodup_iff_pairwise_ne.1 hnd)
    refine (List.Pairwise.imp_of_mem ?_ this)
    intro a b ha hb hab
    rcases lt_trichotomy a b with hlt | heq | hgt
    · have := hs a b hlt (hall b hb)
      exact absurd hab.1 (not_le.2 this)
    · exact absurd heq hab.2
    · exact hgt
  rw [pairwise_strict n order h.perm hdec]
  unfold rksRanks
  rw [List.getD_eq_getElem?_getD, List.getElem?_map, List.getElem?_reverse (by rw [List.length_range]; exact hi), List.length_range,
    List.getElem?_range (by omega)]
  show (((n - 1 - i : Nat) : ℚ) + 1) = _
  have : n - 1 - i + i + 1 = n := by omega
  have h2 : (((n - 1 - i + i + 1 : Nat)) : ℚ) = n := by rw [this]
  push_cast at h2
  linarith

/-- Any two different individuals may be drawn. -/
theorem rks_draws (n : Nat) (order : List Nat) (hp : order.Perm (List.range n)) (hn : 2 ≤ n) :
    ∃ D, rks order = .ok D ∧ ∀ i j, D i j ↔ i < n ∧ j < n ∧ i ≠ j := by
  have hlen : order.length = n := by rw [hp.length_eq, List.length_range]
  have hpos : ∀ x ∈ rksRanks order, 0 < x := by
    intro x hx
    obtain ⟨i, -, rfl⟩ := List.mem_map.1 hx
    positivity
  have hrl : (rksRanks order).length = n := by unfold rksRanks; rw [List.length_map, hlen]
  have hall : ((rksRanks order).filter fun x => decide (x ≠ 0)) = rksRanks order := by
    rw [List.filter_eq_self]
    intro a ha
    exact decide_eq_true (hpos a ha).ne'
  have h2 : TwoNonzero (rksRanks order) := by unfold TwoNonzero; rw [hall, hrl]; exact hn
  have hs := sum_pos_of_nonzero _ (fun x hx => (hpos x hx).le) h2
  have hneg : ¬ ((((rksRanks order).map fun x => x / (rksRanks order).sum).any fun x => decide (x < 0)) = true ∨
      (((rksRanks order).map fun x => x / (rksRanks order).sum).filter fun x => decide (x ≠ 0)).length < 2) := by
    rintro (h | h)
    · obtain ⟨y, hy, hy0⟩ := List.any_eq_true.1 h
      obtain ⟨x, hx, rfl⟩ := List.mem_map.1 hy
      exact absurd (of_decide_eq_true hy0) (not_lt.2 (div_nonneg (hpos x hx).le hs.le))
    · rw [filter_map_div _ _ hs.ne', hall, hrl] at h
      omega
  refine ⟨_, if_neg hneg, ?_⟩
  intro i j
  have e : ∀ k, k < n → ((rksRanks order).map fun x => x / (rksRanks order).sum).getD k 0 ≠ 0 := by
    intro k hk
    rw [getD_map_div]
    have hk' : k < (rksRanks order).length := by rw [hrl]; exact hk
    rw [List.getD_eq_getElem _ _ hk']
    exact (div_pos (hpos _ (List.getElem_mem hk')) hs).ne'
  rw [hlen]
  constructor
  · rintro ⟨a, b, c, -⟩; exact ⟨a, b, c⟩
  · rintro ⟨a, b, c⟩; exact ⟨a, b, c, e i a, e j b⟩

/-- One individual with a score, all the others without: `np.argsort` keeps the order of equal ones (it does up to 16 of them). -/
def tiedOrder (n : Nat) : List Nat := (List.range n).map (· + 1) ++ [0]

/-- **Violated**: `argsort` is not a rank. When all individuals but the best have the same score, the best has the weight 2, whereas the last but one
has the highest one, the number of individuals. -/
theorem rks_ties_violated (n : Nat) (hn : 2 ≤ n) (scores : Nat → ℚ) (h0 : 0 < scores 0) (h : ∀ i, 0 < i → scores i = 0) :
    Sorts scores (n + 1) (tiedOrder n) ∧ (rksRanks (tiedOrder n)).getD 0 0 = 2 ∧ (rksRanks (tiedOrder n)).getD (n - 1) 0 = n + 1 := by
  have hget : ∀ i, i < n → (rksRanks (tiedOrder n)).getD i 0 = (i : ℚ) + 2 := by
    intro i hi
    unfold rksRanks tiedOrder
    rw [List.getD_eq_getElem?_getD, List.getElem?_map, List.getElem?_append_left (by rw [List.length_map, List.length_range]; exact hi),
      List.getElem?_map, List.getElem?_range hi]
    show (((i + 1 : Nat) : ℚ) + 1) = _
    push_cast; ring
  refine ⟨⟨?_, ?_⟩, ?_, ?_⟩
  · unfold tiedOrder
    rw [List.range_succ_eq_map]
    exact (List.perm_append_comm).trans (List.Perm.refl _)
  · unfold tiedOrder
    rw [List.map_append, List.pairwise_append]
    refine ⟨?_, List.pairwise_singleton _ _, ?_⟩
    · rw [List.map_map]
      rw [List.pairwise_map]
      exact List.Pairwise.imp (R := fun _ _ => True) (fun {a b} _ => le_of_eq (by
        show scores (a + 1) = scores (b + 1)
        rw [h _ (Nat.succ_pos _), h _ (Nat.succ_pos _)])) (List.pairwise_of_forall fun _ _ => trivial)
    · intro a ha b hb
      obtain ⟨i, hi, rfl⟩ := List.mem_map.1 ha
      obtain ⟨k, -, rfl⟩ := List.mem_map.1 hi
      obtain ⟨j, hj, rfl⟩ := List.mem_map.1 hb
      rw [List.mem_singleton.1 hj, h _ (Nat.succ_pos _)]
      exact h0.le
  · rw [hget 0 (by omega)]; norm_num
  · rw [hget (n - 1) (by omega)]
    have : ((n - 1 : Nat) : ℚ) + 1 = n := by
      have h2 : (((n - 1 + 1 : Nat)) : ℚ) = n := by rw [show n - 1 + 1 = n by omega]
      push_cast at h2; exact h2
    linarith

/-- Scores in decreasing order and their order. -/
example : Sorts (fun i => 3 - (i : ℚ)) 3 [2, 1, 0] ∧ ∀ i j : Nat, i < j → j < 3 → 3 - (j : ℚ) < 3 - (i : ℚ) := by
  refine ⟨⟨by decide, by decide +kernel⟩, ?_⟩
  intro i j h _
  have : (i : ℚ) < j := by exact_mod_cast h
  linarith

/-! ## Tournaments -/

/-- **Violated**: the two parents of a tournament may be the same individual: the best one, if it is drawn twice. Always so in a population of two. -/
theorem tns_same_violated (score : Nat → ℚ) (d1 d2 : List Nat) (b : Nat) (h1 : b ∈ d1) (h2 : b ∈ d2) (hb : ∀ i, i ≠ b → score i < score b) :
    tns score d1 d2 = (b, b) := by
  have key : ∀ d : List Nat, b ∈ d → tournament score d = b := by
    intro d hd
    obtain ⟨hm, hmax⟩ := tournament_winner score d (List.ne_nil_of_mem hd)
    by_contra hne
    exact absurd (hmax b hd) (not_le.2 (hb _ hne))
  unfold tns
  rw [key d1 h1, key d2 h2]

/-! ## Functions given by the user -/

/-- A function is kept exactly if what it gives has the right dimension and the right length; otherwise the former one stays, with an exception. -/
theorem setter_exact {α : Type} (ndim first : Nat) (old new : α) (t : Tried) :
    (∀ shape, t = .array shape → shape.length = ndim → shape.getD 0 0 = first → setFn ndim first old new t = (new, none)) ∧
    ((∀ shape, t = .array shape → shape.length = ndim → shape.getD 0 0 ≠ first) →
      ∃ e, setFn ndim first old new t = (old, some e) ∧ (e = .typeError ∨ e = .indexError)) := by
  constructor
  · rintro shape rfl h1 h2
    have e : checked ndim first (.array shape) = .ok () := by
      show (if shape.length ≠ ndim then _ else if shape.getD 0 0 ≠ first then _ else _) = _
      rw [if_neg (not_not.2 h1), if_neg (not_not.2 h2)]
    unfold setFn
    rw [e]
    rfl
  · intro h
    rcases t with _ | _ | shape
    · exact ⟨.typeError, rfl, Or.inl rfl⟩
    · exact ⟨.typeError, rfl, Or.inl rfl⟩
    · refine ⟨.indexError, ?_, Or.inr rfl⟩
      have e : checked ndim first (.array shape) = .error .indexError := by
        show (if shape.length ≠ ndim then _ else if shape.getD 0 0 ≠ first then _ else _) = _
        by_cases h1 : shape.length = ndim
        · rw [if_neg (not_not.2 h1), if_pos (h shape rfl h1)]
        · rw [if_pos h1]
      unfold setFn
      rw [e]
      rfl

/-- **Violated**: a mutation whose parameter is not called `genome` is accepted when it is given, and refused when it is used. -/
theorem mutation_name_violated {G : Type} (f : Fn G) (h : f.param ≠ "genome") (x : G) :
    callPos f x = .ok (f.run x) ∧ callGenome f x = .error .typeError := ⟨rfl, if_neg h⟩

/-- With this name it is called with the child. -/
theorem mutation_named {G : Type} (f : Fn G) (h : f.param = "genome") (x : G) : callGenome f x = callPos f x := if_pos h

/-- Thresholds up to 1 and numbers of random individuals up to that of the population are accepted: in particular negative ones. -/
theorem evolve_checks (threshold : ℚ) (nRand : Int) (popSize : Nat) : evolveChecks threshold nRand popSize = .ok () ↔ threshold ≤ 1 ∧ nRand ≤ popSize := by
  unfold evolveChecks
  by_cases h1 : threshold > 1
  · rw [if_pos h1]
    exact ⟨(fun h => nomatch h), fun h => absurd h.1 (not_le.2 h1)⟩
  · rw [if_neg h1]
    by_cases h2 : nRand > popSize
    · rw [if_pos h2]
      exact ⟨(fun h => nomatch h), fun h => absurd h.2 (not_le.2 h2)⟩
    · rw [if_neg h2]
      exact ⟨fun _ => ⟨not_lt.1 h1, not_lt.1 h2⟩, fun _ => rfl⟩

end Verif.GA
