import Verif.Sched.Fitness
import Verif.Sched.PropsFilter
import Mathlib.Algebra.Order.Field.Basic
import Mathlib.Tactic.FieldSimp
import Mathlib.Tactic.Linarith
import Mathlib.Tactic.Positivity

/-!
# Fitness of a genome (property C77)
-/

namespace Verif.Scheduler

/-! ## Specification -/

/-- Candidates `i` and `j` share a slot. -/
def ShareSlot (cs : List Cand) (g : Nat → Nat) (i j : Nat) : Prop :=
  ∃ t, g i ≤ t ∧ t < g i + (candAt cs i).n ∧ g j ≤ t ∧ t < g j + (candAt cs j).n

/-- No two candidates share a slot. -/
def Conflictless (cs : List Cand) (g : Nat → Nat) : Prop :=
  ∀ i < cs.length, ∀ j < cs.length, i ≠ j → ¬ ShareSlot cs g i j

/-- The scores of a candidate are between zero and its maximal score, which is positive. The computed rows satisfy this: the maximum is the
largest entry and the candidates are the blocks with a non-zero maximum. -/
def GoodCand (c : Cand) : Prop := 0 < c.max ∧ ∀ j, 0 ≤ c.row j ∧ c.row j ≤ c.max

/-! ## Counting the conflicts -/

theorem badPairs_zero {start len : Nat → Int} :
    ∀ {ord : List Nat}, ord.Pairwise (fun a b => start a ≤ start b) → badPairs start len ord = 0 →
      (∀ a ∈ ord, 0 ≤ len a) → ord.Pairwise fun a b => start a + len a ≤ start b
  | [], _, _, _ => List.Pairwise.nil
  | [_], _, _, _ => List.pairwise_singleton _ _
  | a :: b :: l, hs, h0, hl => by
    have h1 : ¬ start b - start a - len a < 0 := by
      intro hlt
      simp only [badPairs, if_pos hlt] at h0
      omega
    have h2 : badPairs start len (b :: l) = 0 := by
      simp only [badPairs] at h0
      omega
    have hs' := List.pairwise_cons.1 hs
    have hs2 := List.pairwise_cons.1 hs'.2
    refine List.pairwise_cons.2 ⟨fun c hc => ?_, badPairs_zero hs'.2 h2 fun x hx => hl x (List.mem_cons_of_mem _ hx)⟩
    rcases List.mem_cons.1 hc with rfl | hc
    · omega
    · have := hs2.1 c hc
      omega

theorem badPairs_of_pairwise {start len : Nat → Int} :
    ∀ {ord : List Nat}, ord.Pairwise (fun a b => start a + len a ≤ start b) → badPairs start len ord = 0
  | [], _ => rfl
  | [_], _ => rfl
  | a :: b :: l, h => by
    have h' := List.pairwise_cons.1 h
    have hb := h'.1 b (List.mem_cons_self ..)
    simp only [badPairs]
    rw [badPairs_of_pairwise h'.2, if_neg (by omega)]

theorem badPairs_le {start len : Nat → Int} : ∀ {ord : List Nat}, badPairs start len ord ≤ ord.length - 1
  | [] => by simp [badPairs]
  | [_] => by simp [badPairs]
  | a :: b :: l => by
    have := badPairs_le (start := start) (len := len) (ord := b :: l)
    simp only [badPairs, List.length_cons] at this ⊢
    split_ifs <;> omega

theorem pairwise_or {R : Nat → Nat → Prop} {l : List Nat} (h : l.Pairwise R) {i j : Nat} (hi : i ∈ l) (hj : j ∈ l) (hij : i ≠ j) :
    R i j ∨ R j i := by
  induction h with
  | nil => exact absurd hi (by simp)
  | cons ha _ ih =>
    rcases List.mem_cons.1 hi with e | hi'
    · rcases List.mem_cons.1 hj with e' | hj'
      · exact absurd (e.trans e'.symm) hij
      · rw [e]; exact Or.inl (ha _ hj')
    · rcases List.mem_cons.1 hj with e' | hj'
      · rw [e']; exact Or.inr (ha _ hi')
      · exact ih hi' hj'

/-- **C77**: the count of overlaps of a genome is zero exactly if no two blocks share a slot, however ties are sorted. -/
theorem overlap_exact (cs : List Cand) (g : Nat → Nat) (ord : List Nat) (ho : IsArgsort (fun i => (g i : Int)) cs.length ord)
    (hn : ∀ i < cs.length, 0 < (candAt cs i).n) :
    overlapCount cs g ord = 0 ↔ Conflictless cs g := by
  have hmem : ∀ {i}, i ∈ ord ↔ i < cs.length := fun {i} => by rw [ho.1.mem_iff, List.mem_range]
  constructor
  · intro h0
    have hp := badPairs_zero ho.2 h0 (fun a _ => by positivity)
    have hsym : ∀ i ∈ ord, ∀ j ∈ ord, i ≠ j →
        ((g i : Int) + (candAt cs i).n ≤ g j ∨ (g j : Int) + (candAt cs j).n ≤ g i) :=
      fun i hi j hj hij => pairwise_or hp hi hj hij
    rintro i hi j hj hij ⟨t, h1, h2, h3, h4⟩
    have := hsym i (hmem.2 hi) j (hmem.2 hj) hij
    omega
  · intro hc
    refine badPairs_of_pairwise ?_
    have hnd : ord.Nodup := ho.1.nodup_iff.2 List.nodup_range
    have hboth := ho.2.and hnd
    refine List.Pairwise.imp_of_mem ?_ hboth
    rintro a b ha hb ⟨hle, hne⟩
    have hle' : (g a : Int) ≤ g b := hle
    by_contra hlt
    refine hc a (hmem.1 ha) b (hmem.1 hb) hne ⟨g b, ?_, ?_, le_refl _, ?_⟩
    · omega
    · omega
    · have := hn b (hmem.1 hb); omega

theorem sumTo_nonneg' {f : Nat → ℚ} : ∀ {n : Nat}, (∀ i < n, 0 ≤ f i) → 0 ≤ sumTo f n
  | 0, _ => by simp [sumTo]
  | n + 1, h => by
    have := sumTo_nonneg' (n := n) fun i hi => h i (by omega)
    have := h n (by omega)
    simp only [sumTo]
    linarith

theorem sumTo_le_card {f : Nat → ℚ} : ∀ {n : Nat}, (∀ i < n, f i ≤ 1) → sumTo f n ≤ n
  | 0, _ => by simp [sumTo]
  | n + 1, h => by
    have := sumTo_le_card (n := n) fun i hi => h i (by omega)
    have := h n (by omega)
    simp only [sumTo]
    push_cast
    linarith

theorem sumTo_eq_card {f : Nat → ℚ} : ∀ {n : Nat}, (∀ i < n, f i ≤ 1) → sumTo f n = n → ∀ i < n, f i = 1
  | 0, _, _ => by intro i hi; omega
  | n + 1, h, he => by
    have h1 := sumTo_le_card (n := n) fun i hi => h i (by omega)
    have h2 := h n (by omega)
    simp only [sumTo] at he
    push_cast at he
    intro i hi
    rcases Nat.lt_succ_iff_lt_or_eq.1 hi with hlt | rfl
    · exact sumTo_eq_card (fun i hi => h i (by omega)) (by linarith) i hlt
    · linarith

theorem sumTo_one {f : Nat → ℚ} : ∀ {n : Nat}, (∀ i < n, f i = 1) → sumTo f n = n
  | 0, _ => by simp [sumTo]
  | n + 1, h => by
    simp only [sumTo]
    rw [sumTo_one fun i hi => h i (by omega), h n (by omega)]
    push_cast
    ring

theorem quality_unit (cs : List Cand) (g : Nat → Nat) (hne : cs ≠ []) (hg : ∀ i < cs.length, GoodCand (candAt cs i)) :
    0 ≤ quality cs g ∧ quality cs g ≤ 1 ∧
      (quality cs g = 1 ↔ ∀ i < cs.length, (candAt cs i).row (g i) = (candAt cs i).max) := by
  have hpos : (0 : ℚ) < cs.length := by
    have := List.length_pos_iff.2 hne
    exact_mod_cast this
  have h0 : ∀ i < cs.length, 0 ≤ (candAt cs i).row (g i) / (candAt cs i).max := fun i hi =>
    div_nonneg ((hg i hi).2 _).1 (hg i hi).1.le
  have h1 : ∀ i < cs.length, (candAt cs i).row (g i) / (candAt cs i).max ≤ 1 := fun i hi =>
    (div_le_one (hg i hi).1).2 ((hg i hi).2 _).2
  unfold quality
  refine ⟨div_nonneg (sumTo_nonneg' h0) hpos.le, (div_le_one hpos).2 (sumTo_le_card h1), ?_⟩
  rw [div_eq_one_iff_eq hpos.ne']
  constructor
  · intro h i hi
    exact (div_eq_one_iff_eq (hg i hi).1.ne').1 (sumTo_eq_card h1 h i hi)
  · intro h
    exact sumTo_one fun i hi => (div_eq_one_iff_eq (hg i hi).1.ne').2 (h i hi)

/-- **C77**: the fitness is between zero and one. -/
theorem fitness_unit (cs : List Cand) (g : Nat → Nat) (ord ordD : List Nat) (hne : cs ≠ [])
    (hg : ∀ i < cs.length, GoodCand (candAt cs i)) : 0 ≤ fitness cs g ord ordD ∧ fitness cs g ord ordD ≤ 1 := by
  obtain ⟨h0, h1, -⟩ := quality_unit cs g hne hg
  unfold fitness
  have hp : (1 : ℚ) ≤ ((overlapCount cs g ord + delayCount cs g ordD + 1 : Nat) : ℚ) := by
    exact_mod_cast Nat.le_add_left 1 _
  exact ⟨div_nonneg h0 (by linarith), (div_le_one (by linarith)).2 (by linarith)⟩

/-- No block has a processing delay. -/
def NoDelays (cs : List Cand) : Prop := ∀ i < cs.length, (candAt cs i).delay = 0

theorem delayedIdx_nil {cs : List Cand} (h : NoDelays cs) : delayedIdx cs = [] := by
  unfold delayedIdx
  rw [List.filter_eq_nil_iff]
  intro i hi
  rw [h i (List.mem_range.1 hi)]
  simp

theorem argsort_zero {start : Nat → Int} {ord : List Nat} (h : IsArgsort start 0 ord) : ord = [] := by
  have := h.1
  rw [List.range_zero] at this
  exact List.Perm.eq_nil this

theorem delayCount_none {cs : List Cand} {g : Nat → Nat} {ordD : List Nat} (h : NoDelays cs)
    (ho : IsArgsort (delayedStart cs g) (delayedIdx cs).length ordD) : delayCount cs g ordD = 0 := by
  rw [delayedIdx_nil h] at ho
  rw [argsort_zero ho]
  rfl

/-- **C77**: without processing delays, a genome has the maximal fitness exactly if every block starts at a slot of maximal score and no two
blocks share a slot. -/
theorem fitness_one (cs : List Cand) (g : Nat → Nat) (ord ordD : List Nat) (hne : cs ≠ [])
    (hg : ∀ i < cs.length, GoodCand (candAt cs i)) (hn : ∀ i < cs.length, 0 < (candAt cs i).n) (hd : NoDelays cs)
    (ho : IsArgsort (fun i => (g i : Int)) cs.length ord)
    (hoD : IsArgsort (delayedStart cs g) (delayedIdx cs).length ordD) :
    fitness cs g ord ordD = 1 ↔
      (∀ i < cs.length, (candAt cs i).row (g i) = (candAt cs i).max) ∧ Conflictless cs g := by
  obtain ⟨h0, h1, hq⟩ := quality_unit cs g hne hg
  rw [← hq, ← overlap_exact cs g ord ho hn]
  unfold fitness
  rw [delayCount_none hd hoD]
  set k := overlapCount cs g ord
  have hk : (1 : ℚ) ≤ ((k + 0 + 1 : Nat) : ℚ) := by exact_mod_cast Nat.le_add_left 1 _
  rw [div_eq_one_iff_eq (by linarith)]
  constructor
  · intro h
    have h2 : quality cs g = 1 := by linarith
    refine ⟨h2, ?_⟩
    rw [h2] at h
    have : (1 : Nat) = k + 0 + 1 := by exact_mod_cast h
    omega
  · rintro ⟨h2, h3⟩
    rw [h2, h3]
    norm_num

/-- **C77**: a genome with two overlapping blocks loses at least half of its fitness. -/
theorem fitness_overlap (cs : List Cand) (g : Nat → Nat) (ord ordD : List Nat) (hne : cs ≠ [])
    (hg : ∀ i < cs.length, GoodCand (candAt cs i)) (hn : ∀ i < cs.length, 0 < (candAt cs i).n)
    (ho : IsArgsort (fun i => (g i : Int)) cs.length ord) (hov : ¬ Conflictless cs g) :
    fitness cs g ord ordD ≤ quality cs g / 2 := by
  obtain ⟨h0, -, -⟩ := quality_unit cs g hne hg
  have hk : overlapCount cs g ord ≠ 0 := fun h => hov ((overlap_exact cs g ord ho hn).1 h)
  unfold fitness
  refine div_le_div_of_nonneg_left h0 (by norm_num) ?_
  have : 2 ≤ overlapCount cs g ord + delayCount cs g ordD + 1 := by omega
  exact_mod_cast this

/-- **C77**: without delays, a genome without overlap has exactly the mean of its relative scores as fitness. -/
theorem fitness_conflictless (cs : List Cand) (g : Nat → Nat) (ord ordD : List Nat) (hn : ∀ i < cs.length, 0 < (candAt cs i).n)
    (hd : NoDelays cs) (ho : IsArgsort (fun i => (g i : Int)) cs.length ord)
    (hoD : IsArgsort (delayedStart cs g) (delayedIdx cs).length ordD) (hc : Conflictless cs g) :
    fitness cs g ord ordD = quality cs g := by
  unfold fitness
  rw [delayCount_none hd hoD, (overlap_exact cs g ord ho hn).2 hc]
  norm_num

/-! ## Processing delays -/

/-- Candidates `i` and `j` with delays are too close: one starts before the end of the other and its processing. -/
def TooClose (cs : List Cand) (g : Nat → Nat) (i j : Nat) : Prop :=
  g i ≤ g j ∧ g j < g i + (candAt cs i).n + (candAt cs i).delay

/-- What the second count should be zero for: no two delayed candidates are too close. -/
def DelaysKept (cs : List Cand) (g : Nat → Nat) : Prop :=
  ∀ i < cs.length, ∀ j < cs.length, i ≠ j → 0 < (candAt cs i).delay → 0 < (candAt cs j).delay → ¬ TooClose cs g i j

theorem delayedIdx_all {cs : List Cand} (h : ∀ i < cs.length, 0 < (candAt cs i).delay) : delayedIdx cs = List.range cs.length := by
  unfold delayedIdx
  rw [List.filter_eq_self]
  intro i hi
  simpa using h i (List.mem_range.1 hi)

/-- **C77**: when all the candidates have a processing delay, the second count is zero exactly if the delays are kept. -/
theorem delays_exact_partial (cs : List Cand) (g : Nat → Nat) (ordD : List Nat) (hall : ∀ i < cs.length, 0 < (candAt cs i).delay)
    (ho : IsArgsort (delayedStart cs g) (delayedIdx cs).length ordD) :
    delayCount cs g ordD = 0 ↔ DelaysKept cs g := by
  have hd := delayedIdx_all hall
  have hlen : (delayedIdx cs).length = cs.length := by rw [hd, List.length_range]
  rw [hlen] at ho
  have hst : ∀ i < cs.length, delayedStart cs g i = g i := by
    intro i hi
    unfold delayedStart
    rw [hd, List.getElem?_range hi]
    rfl
  have hmem : ∀ {i}, i ∈ ordD ↔ i < cs.length := fun {i} => by rw [ho.1.mem_iff, List.mem_range]
  constructor
  · intro h0
    have hp := badPairs_zero ho.2 h0 (fun a _ => by positivity)
    rintro i hi j hj hij hdi hdj ⟨h1, h2⟩
    have := pairwise_or hp (hmem.2 hi) (hmem.2 hj) hij
    rw [hst i hi, hst j hj] at this
    push_cast at this
    omega
  · intro hk
    refine badPairs_of_pairwise ?_
    have hnd : ordD.Nodup := ho.1.nodup_iff.2 List.nodup_range
    refine List.Pairwise.imp_of_mem ?_ (ho.2.and hnd)
    rintro a b ha hb ⟨hle, hne⟩
    have ha' := hmem.1 ha
    have hb' := hmem.1 hb
    rw [hst a ha', hst b hb'] at *
    by_contra hlt
    push_cast at hlt
    exact hk a ha' b hb' hne (hall a ha') (hall b hb') ⟨by omega, by omega⟩

/-- One candidate of 50 slots without delay, then two candidates of one slot with a delay of one slot. -/
def cs1 : List Cand := [⟨fun _ => 1, 1, 50, 0⟩, ⟨fun _ => 1, 1, 1, 1⟩, ⟨fun _ => 1, 1, 1, 1⟩]

/-- Three disjoint starts, ten slots between the two delayed blocks. -/
def g1 : Nat → Nat := fun i => if i = 0 then 100 else if i = 1 then 0 else 10

/-- One candidate of one slot without delay, then two candidates of ten slots with a delay of fifty slots. -/
def cs2 : List Cand := [⟨fun _ => 1, 1, 1, 0⟩, ⟨fun _ => 1, 1, 10, 50⟩, ⟨fun _ => 1, 1, 10, 50⟩]

/-- The two delayed blocks start at 0 and 10: the second one starts during the processing of the first one. -/
def g2 : Nat → Nat := fun i => if i = 0 then 100 else if i = 1 then 0 else 10

theorem g1_sorted : IsArgsort (fun i => (g1 i : Int)) cs1.length [1, 2, 0] ∧
    IsArgsort (delayedStart cs1 g1) (delayedIdx cs1).length [0, 1] := by
  refine ⟨⟨by decide, by decide⟩, ⟨by decide, by decide⟩⟩

theorem g2_sorted : IsArgsort (fun i => (g2 i : Int)) cs2.length [1, 2, 0] ∧
    IsArgsort (delayedStart cs2 g2) (delayedIdx cs2).length [0, 1] := by
  refine ⟨⟨by decide, by decide⟩, ⟨by decide, by decide⟩⟩

theorem kept_of_all {cs : List Cand} {g : Nat → Nat}
    (h : ((List.range cs.length).all fun i => (List.range cs.length).all fun j =>
      decide (i = j) || decide ((candAt cs i).delay = 0) || decide ((candAt cs j).delay = 0) ||
        !(decide (g i ≤ g j) && decide (g j < g i + (candAt cs i).n + (candAt cs i).delay))) = true) : DelaysKept cs g := by
  intro i hi j hj hij hdi hdj ⟨h1, h2⟩
  have := List.all_eq_true.1 (List.all_eq_true.1 h i (List.mem_range.2 hi)) j (List.mem_range.2 hj)
  simp only [Bool.or_eq_true, decide_eq_true_eq, Bool.not_eq_true', Bool.and_eq_false_iff, decide_eq_false_iff_not] at this
  omega

/-- **C77**, disagreement: in general the delays are read at the wrong candidates. A genome without any conflict, all at the best scores, gets
half of the fitness of a perfect one. -/
theorem delays_false_alarm_violated :
    ∃ (cs : List Cand) (g : Nat → Nat) (ord ordD : List Nat), IsArgsort (fun i => (g i : Int)) cs.length ord ∧
      IsArgsort (delayedStart cs g) (delayedIdx cs).length ordD ∧ Conflictless cs g ∧ DelaysKept cs g ∧
      (∀ i < cs.length, (candAt cs i).row (g i) = (candAt cs i).max) ∧ fitness cs g ord ordD = 1 / 2 := by
  refine ⟨cs1, g1, [1, 2, 0], [0, 1], g1_sorted.1, g1_sorted.2, ?_, kept_of_all (by decide), ?_, by decide +kernel⟩
  · exact (overlap_exact cs1 g1 [1, 2, 0] g1_sorted.1 (by decide)).1 (by decide)
  · intro i hi
    have : i = 0 ∨ i = 1 ∨ i = 2 := by
      have : i < 3 := hi
      omega
    rcases this with rfl | rfl | rfl <;> rfl

/-- **C77**, disagreement: and a genome which starts a block during the processing of another one gets the maximal fitness. -/
theorem delays_missed_violated :
    ∃ (cs : List Cand) (g : Nat → Nat) (ord ordD : List Nat), IsArgsort (fun i => (g i : Int)) cs.length ord ∧
      IsArgsort (delayedStart cs g) (delayedIdx cs).length ordD ∧ ¬ DelaysKept cs g ∧ fitness cs g ord ordD = 1 := by
  refine ⟨cs2, g2, [1, 2, 0], [0, 1], g2_sorted.1, g2_sorted.2, fun h => ?_, by decide +kernel⟩
  exact h 1 (by decide) 2 (by decide) (by decide) (by decide) (by decide) ⟨by decide, by decide⟩

/-! ## First population and mutations -/

/-- **C77**: an initial gene is a start with a non-zero score: clipping does not move it. The row is a computed one. -/
theorem populate_scored (s : Sched) (n : Nat) (c : Nat → ℚ) (r : Nat) (x : Int)
    (h : populateGene s.size n (cnstRow s.size n s.free c) r = some x) :
    ∃ j : Nat, x = j ∧ j + n < s.size ∧ (∀ k < n, s.free (j + k) = true) ∧ cnstRow s.size n s.free c j ≠ 0 := by
  unfold populateGene at h
  simp only [Option.map_eq_some_iff] at h
  obtain ⟨j, hj, rfl⟩ := h
  have hm := List.mem_filter.1 (List.mem_of_getElem? hj)
  have hlt := List.mem_range.1 hm.1
  have hne : cnstRow s.size n s.free c j ≠ 0 := by simpa using hm.2
  have hsc : Scored s n j := by
    by_contra hns
    exact hne ((row_exact s n c j hlt).2 hns)
  refine ⟨j, ?_, hsc.1, hsc.2, hne⟩
  unfold boundGene
  have := hsc.1
  simp only
  rw [if_neg (by omega), if_neg (by omega)]

/-- **C77**: and every start with a non-zero score can be chosen. -/
theorem populate_all (s : Sched) (n : Nat) (c : Nat → ℚ) (j : Nat) (hj : j < s.size) (hne : cnstRow s.size n s.free c j ≠ 0) :
    ∃ r, populateGene s.size n (cnstRow s.size n s.free c) r = some (j : Int) := by
  have hm : j ∈ (List.range s.size).filter fun j => decide (cnstRow s.size n s.free c j ≠ 0) :=
    List.mem_filter.2 ⟨List.mem_range.2 hj, by simpa using hne⟩
  obtain ⟨r, hr⟩ := List.mem_iff_getElem?.1 hm
  refine ⟨r, ?_⟩
  have hsc : Scored s n j := by
    by_contra hns
    exact hne ((row_exact s n c j hj).2 hns)
  unfold populateGene
  simp only [hr, Option.map_some, Option.some.injEq]
  unfold boundGene
  have := hsc.1
  simp only
  rw [if_neg (by omega), if_neg (by omega)]

/-- **C77**: a mutation keeps every block inside the schedule. Genes which were inside are not moved, except the mutated one. -/
theorem mutation_inside (size : Nat) (n : Nat → Nat) (g : Nat → Int) (i x : Nat) (k : Nat) (hn : n k < size) :
    (0 ≤ mutateGenome size n g i x k ∧ mutateGenome size n g i x k + n k < size) ∧
      (k ≠ i → 0 ≤ g k → g k + n k < size → mutateGenome size n g i x k = g k) ∧
      (k = i → x + n k < size → mutateGenome size n g i x k = x) := by
  unfold mutateGenome boundGene
  simp only
  refine ⟨?_, fun hk h0 h1 => ?_, fun hk h1 => ?_⟩
  · split_ifs <;> omega
  · rw [if_neg hk, if_neg (by omega), if_neg (by omega)]
  · rw [if_pos hk, if_neg (by omega), if_neg (by omega)]

/-- **C77**, disagreement: the last start which fits, `size - n`, is not reachable: it is never scored, and a mutation to it is moved one slot
back. -/
theorem last_gene_violated (size n : Nat) (hn : n < size) :
    (∀ (free : Nat → Bool) (c : Nat → ℚ), cnstRow size n free c (size - n) = 0) ∧
      boundGene size n ((size - n : Nat) : Int) = ((size - n - 1 : Nat) : Int) := by
  refine ⟨fun free c => by unfold cnstRow; rw [if_neg (by omega)], ?_⟩
  unfold boundGene
  have h : ¬ (((size - n : Nat) : Int) < 0) := by omega
  simp only [if_neg h]
  rw [if_pos (by omega)]
  omega

/-! ## The hypotheses can be met -/

example : ∀ i < cs1.length, GoodCand (candAt cs1 i) := by
  intro i hi
  have : i = 0 ∨ i = 1 ∨ i = 2 := by
    have : i < 3 := hi
    omega
  rcases this with rfl | rfl | rfl <;> exact ⟨by decide +kernel, fun j => ⟨by show (0 : ℚ) ≤ 1; decide +kernel, le_refl _⟩⟩

/-- Two candidates without delay, one scoring more on later slots, with a conflict or not. -/
example : let cs : List Cand := [⟨fun j => j, 10, 2, 0⟩, ⟨fun _ => 1, 1, 3, 0⟩]
    NoDelays cs ∧ overlapCount cs (fun i => if i = 0 then 4 else 5) [0, 1] = 1 ∧
      overlapCount cs (fun i => if i = 0 then 4 else 6) [0, 1] = 0 ∧
      fitness cs (fun i => if i = 0 then 4 else 5) [0, 1] [] = 7 / 20 ∧
      fitness cs (fun i => if i = 0 then 4 else 6) [0, 1] [] = 7 / 10 :=
  ⟨by unfold NoDelays; decide, by decide, by decide, by decide +kernel, by decide +kernel⟩

example : ∃ (cs : List Cand) (g : Nat → Nat), (∀ i < cs.length, 0 < (candAt cs i).delay) ∧ 2 ≤ cs.length ∧
    IsArgsort (delayedStart cs g) (delayedIdx cs).length [0, 1] ∧ delayCount cs g [0, 1] = 0 :=
  ⟨[⟨fun _ => 1, 1, 2, 3⟩, ⟨fun _ => 1, 1, 2, 3⟩], fun i => if i = 0 then 0 else 5, by decide, by decide,
    ⟨by decide, by decide⟩, by decide⟩

example : populateGene 10 3 (cnstRow 10 3 (fun j => decide (j ≠ 2)) fun _ => 1) 1 = some 4 := by decide +kernel

end Verif.Scheduler
