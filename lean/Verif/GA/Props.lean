import Verif.GA.Model

/-!
# Properties of the genetic algorithm (C19, C20)
-/

namespace Verif.GA

variable {G : Type}

/-! ## Helper lemmas -/

theorem bestOf_mem {fit : G → ℚ} {zero : G} {pop : List G} (h : pop ≠ []) : bestOf fit zero pop ∈ pop := by
  unfold bestOf
  have hl : 0 < pop.length := List.length_pos_iff.2 h
  have := argmax_lt (fun i => fit (pop.getD i zero)) hl
  rw [List.getD_eq_getElem _ _ this]
  exact List.getElem_mem this

theorem bestOf_max {fit : G → ℚ} {zero : G} {pop : List G} {g : G} (h : g ∈ pop) : fit g ≤ fit (bestOf fit zero pop) := by
  unfold bestOf
  obtain ⟨i, hi, rfl⟩ := List.mem_iff_getElem.1 h
  have := argmax_max (fun i => fit (pop.getD i zero)) hi
  rwa [List.getD_eq_getElem _ _ hi] at this

/-- What `order` must do: numpy's sort returns a permutation in decreasing order of score. -/
def Oracle.Sorts (O : Oracle G) (fit : G → ℚ) : Prop :=
  ∀ g pop, (O.order g pop).Perm pop ∧ (O.order g pop).Pairwise fun a b => fit b ≤ fit a

theorem nextGen_length (O : Oracle G) (P : Params) (zero : G) (g : Nat) (sorted : List G) (h : sorted.length = P.popSize)
    (h2 : 2 ≤ P.popSize) (hr : P.nRand ≤ P.popSize) : (nextGen O P zero g sorted).length = P.popSize := by
  have hf : ((List.range (P.popSize / 2 - 1)).flatMap fun i => [(O.pair g i sorted).1, (O.pair g i sorted).2]).length = 2 * (P.popSize / 2 - 1) := by
    rw [List.length_flatMap]
    simp
    ring
  have hb : (sorted.take 2 ++ (List.range (P.popSize / 2 - 1)).flatMap fun i => [(O.pair g i sorted).1, (O.pair g i sorted).2]).length =
      2 + 2 * (P.popSize / 2 - 1) := by
    rw [List.length_append, hf, List.length_take, h]; omega
  unfold nextGen
  simp only
  have hrows := hb
  generalize (sorted.take 2 ++ (List.range (P.popSize / 2 - 1)).flatMap fun i => [(O.pair g i sorted).1, (O.pair g i sorted).2]) = base at hrows
  split
  · rw [List.length_append, List.length_take, List.length_append, List.length_replicate, List.length_map, List.length_range]
    omega
  · rw [List.length_append, List.length_replicate]; omega

/-- The first row of the next generation is the best of this one, unless all rows are replaced by random individuals. -/
theorem nextGen_head (O : Oracle G) (P : Params) (zero : G) (g : Nat) (a : G) (l : List G) (hr : P.nRand < P.popSize) :
    a ∈ nextGen O P zero g (a :: l) := by
  unfold nextGen
  simp only
  have hrows : ∀ X Y : List G, a ∈ ((a :: l).take 2 ++ X ++ Y).take (P.popSize - P.nRand) := by
    intro X Y
    obtain ⟨k, hk⟩ : ∃ k, P.popSize - P.nRand = k + 1 := ⟨P.popSize - P.nRand - 1, by omega⟩
    rw [hk]
    simp
  split
  · exact List.mem_append_left _ (hrows _ _)
  · simp

/-- Invariant of the loop on the best genome, relative to the populations that were already seen. -/
structure Inv (fit : G → ℚ) (s0 s : St G) : Prop where
  ge : ∀ pop ∈ s.seen.drop s0.seen.length, ∀ g ∈ pop, fit g ≤ s.best
  start : s0.best ≤ s.best
  cur : s.best = s0.best ∨ (fit s.bestG = s.best ∧ ∃ pop ∈ s.seen.drop s0.seen.length, s.bestG ∈ pop)
  len : s0.seen.length ≤ s.seen.length

theorem evalGen_seen (fit : G → ℚ) (zero : G) (pop : List G) (s : St G) : (evalGen fit zero pop s).seen = s.seen ++ [pop] := by
  unfold evalGen; simp only; split <;> rfl

theorem evalGen_scores (fit : G → ℚ) (zero : G) (pop : List G) (s : St G) :
    (evalGen fit zero pop s).scores = s.scores ++ [fit (bestOf fit zero pop)] := by
  unfold evalGen; simp only; split <;> rfl

theorem evalGen_gen (fit : G → ℚ) (zero : G) (pop : List G) (s : St G) : (evalGen fit zero pop s).gen = s.gen := by
  unfold evalGen; simp only; split <;> rfl

theorem evalGen_best (fit : G → ℚ) (zero : G) (pop : List G) (s : St G) :
    (evalGen fit zero pop s).best = max s.best (fit (bestOf fit zero pop)) := by
  unfold evalGen; simp only
  split
  · rename_i h; exact (max_eq_right h.le).symm
  · rename_i h; exact (max_eq_left (not_lt.1 h)).symm

theorem evalGen_inv {fit : G → ℚ} {zero : G} {pop : List G} {s0 s : St G} (hpop : pop ≠ []) (hi : Inv fit s0 s) :
    Inv fit s0 (evalGen fit zero pop s) := by
  have hd : (evalGen fit zero pop s).seen.drop s0.seen.length = s.seen.drop s0.seen.length ++ [pop] := by
    rw [evalGen_seen, List.drop_append_of_le_length hi.len]
  refine ⟨?_, ?_, ?_, ?_⟩
  · intro p hp g hg
    rw [hd] at hp
    rw [evalGen_best]
    rcases List.mem_append.1 hp with hp | hp
    · exact le_trans (hi.ge p hp g hg) (le_max_left _ _)
    · rw [List.mem_singleton] at hp
      subst hp
      exact le_trans (bestOf_max hg) (le_max_right _ _)
  · rw [evalGen_best]; exact le_trans hi.start (le_max_left _ _)
  · unfold evalGen
    simp only
    split
    · right
      refine ⟨rfl, pop, ?_, bestOf_mem hpop⟩
      simp only
      rw [List.drop_append_of_le_length hi.len]; simp
    · rcases hi.cur with h | ⟨h1, p, h2, h3⟩
      · left; exact h
      · right
        refine ⟨h1, p, ?_, h3⟩
        simp only
        rw [List.drop_append_of_le_length hi.len]
        exact List.mem_append_left _ h2
  · rw [evalGen_seen, List.length_append]; have := hi.len; omega

theorem Inv.congr {fit : G → ℚ} {s0 s s' : St G} (h : Inv fit s0 s) (h1 : s'.seen = s.seen) (h2 : s'.best = s.best) (h3 : s'.bestG = s.bestG) :
    Inv fit s0 s' := by
  refine ⟨?_, ?_, ?_, ?_⟩
  · rw [h1, h2]; exact h.ge
  · rw [h2]; exact h.start
  · rw [h1, h2, h3]; exact h.cur
  · rw [h1]; exact h.len

theorem loop_inv {fit : G → ℚ} {O : Oracle G} {P : Params} {zero : G} (hO : O.Sorts fit) (h2 : 2 ≤ P.popSize) (hr : P.nRand ≤ P.popSize) {s0 : St G} :
    ∀ (k : Nat) (pop : List G) (s : St G), pop.length = P.popSize → (∀ p ∈ s.seen.drop s0.seen.length, p.length = P.popSize) → Inv fit s0 s →
    Inv fit s0 (loop fit O P zero k pop s) ∧ (∀ p ∈ (loop fit O P zero k pop s).seen.drop s0.seen.length, p.length = P.popSize) ∧
    (loop fit O P zero k pop s).seen.length ≤ s.seen.length + k ∧
    (loop fit O P zero k pop s).scores.length + s.seen.length = (loop fit O P zero k pop s).seen.length + s.scores.length
  | 0, pop, s, _, hs, hi => by
    refine ⟨hi.congr rfl rfl rfl, hs, by simp [loop], ?_⟩
    simp only [loop]; omega
  | k + 1, pop, s, hpop, hs, hi => by
    have hne : pop ≠ [] := by rintro rfl; simp at hpop; omega
    have hi1 := evalGen_inv (zero := zero) hne hi
    have hs1 : ∀ p ∈ (evalGen fit zero pop s).seen.drop s0.seen.length, p.length = P.popSize := by
      intro p hp
      rw [evalGen_seen, List.drop_append_of_le_length hi.len] at hp
      rcases List.mem_append.1 hp with hp | hp
      · exact hs p hp
      · rw [List.mem_singleton] at hp; rw [hp]; exact hpop
    have hlen : (evalGen fit zero pop s).seen.length = s.seen.length + 1 := by rw [evalGen_seen]; simp
    have hlen2 : (evalGen fit zero pop s).scores.length = s.scores.length + 1 := by rw [evalGen_scores]; simp
    rw [loop]
    split
    · exact ⟨hi1, hs1, by omega, by omega⟩
    · split
      · exact ⟨hi1, hs1, by omega, by omega⟩
      · have hnl : (nextGen O P zero s.gen.toNat (O.order s.gen.toNat pop)).length = P.popSize :=
          nextGen_length O P zero _ _ (by rw [(hO _ _).1.length_eq, hpop]) h2 hr
        obtain ⟨j1, j2, j3, j4⟩ := loop_inv hO h2 hr k _ { evalGen fit zero pop s with
          gen := (evalGen fit zero pop s).gen + 1, nStag := (evalGen fit zero pop s).nStag + 1 } hnl hs1 (hi1.congr rfl rfl rfl)
        simp only at j3 j4
        exact ⟨j1, j2, by omega, by omega⟩

/-! ## C19 -/

/-- **C19.** A first call to `evolve`, for every fitness function, random draws and parameters: the best score reported is at least the fitness of every individual ever
evaluated; when any of them has a positive fitness, the genome returned is one of them and has exactly that best score; all generations have the
size of the population; and at most `generation_max` generations are evaluated. -/
theorem evolve_best {fit : G → ℚ} {O : Oracle G} {P : Params} {zero : G} {pop : List G} {s : St G} (hO : O.Sorts fit) (h2 : 2 ≤ P.popSize)
    (hpop : pop.length = P.popSize) (h : evolve fit O P zero pop (fresh zero) = .ok s) :
    (∀ p ∈ s.seen, ∀ g ∈ p, fit g ≤ s.best) ∧
    ((∃ p ∈ s.seen, ∃ g ∈ p, 0 < fit g) → fit s.bestG = s.best ∧ ∃ p ∈ s.seen, s.bestG ∈ p) ∧
    (∀ p ∈ s.seen, p.length = P.popSize) ∧ s.seen.length ≤ P.genMax ∧ s.scores.length = s.seen.length := by
  unfold evolve at h
  split at h
  · cases h
  · split at h
    · cases h
    · rename_i hr
      obtain rfl := Except.ok.inj h
      have hinit : Inv fit (fresh zero) ({ fresh zero with bestG := pop.getD 0 zero, nStag := 0 } : St G) :=
        ⟨by simp [fresh], le_refl _, Or.inl rfl, le_refl _⟩
      obtain ⟨j1, j2, j3, j4⟩ := loop_inv (zero := zero) hO h2 (not_lt.1 hr) ((P.genMax : Int) - (fresh zero).gen).toNat pop
        { fresh zero with bestG := pop.getD 0 zero, nStag := 0 } hpop (by simp [fresh]) hinit
      have hd : ∀ l : List (List G), l.drop (fresh zero).seen.length = l := by intro l; simp [fresh]
      rw [hd] at j2
      have hge := j1.ge
      have hcur := j1.cur
      rw [hd] at hge hcur
      refine ⟨hge, ?_, j2, ?_, ?_⟩
      · rintro ⟨p, hp, g, hg, h0⟩
        rcases hcur with h | h
        · have := hge p hp g hg
          have hz : (fresh zero).best = 0 := rfl
          rw [h, hz] at this
          linarith
        · exact h
      · simpa [fresh] using j3
      · simpa [fresh] using j4

/-- **C19.** The best score never decreases, over any number of calls. -/
theorem evolve_monotone {fit : G → ℚ} {O : Oracle G} {P : Params} {zero : G} {pop : List G} {s0 s : St G}
    (h : evolve fit O P zero pop s0 = .ok s) : s0.best ≤ s.best := by
  have key : ∀ (k : Nat) (pop : List G) (s : St G), s.best ≤ (loop fit O P zero k pop s).best := by
    intro k
    induction k with
    | zero => intro pop s; exact le_refl _
    | succ k ih =>
      intro pop s
      have h1 : s.best ≤ (evalGen fit zero pop s).best := by rw [evalGen_best]; exact le_max_left _ _
      rw [loop]
      split
      · exact h1
      · split
        · exact h1
        · exact le_trans h1 (ih _ _)
  unfold evolve at h
  split at h
  · cases h
  · split at h
    · cases h
    · obtain rfl := Except.ok.inj h
      exact key _ _ _

/-- The scores reported generation after generation never decrease, as long as not all individuals are replaced at random. -/
theorem generations_monotone {fit : G → ℚ} {O : Oracle G} {P : Params} {zero : G} {pop : List G} {s : St G} (hO : O.Sorts fit) (h2 : 2 ≤ P.popSize)
    (hpop : pop.length = P.popSize) (hr : P.nRand < P.popSize) (h : evolve fit O P zero pop (fresh zero) = .ok s) :
    s.scores.Pairwise fun a b => a ≤ b := by
  have key : ∀ (k : Nat) (pop : List G) (s : St G), pop.length = P.popSize → s.scores.Pairwise (fun a b => a ≤ b) →
      (∀ x ∈ s.scores, x ≤ fit (bestOf fit zero pop)) → (loop fit O P zero k pop s).scores.Pairwise fun a b => a ≤ b := by
    intro k
    induction k with
    | zero => intro pop s _ hs _; exact hs
    | succ k ih =>
      intro pop s hpop hs hle
      have hne : pop ≠ [] := by rintro rfl; simp at hpop; omega
      have h1 : (evalGen fit zero pop s).scores.Pairwise fun a b => a ≤ b := by
        rw [evalGen_scores, List.pairwise_append]
        refine ⟨hs, by simp, fun a ha b hb => ?_⟩
        rw [List.mem_singleton] at hb; rw [hb]; exact hle a ha
      rw [loop]
      split
      · exact h1
      · split
        · exact h1
        · have hlen : (O.order s.gen.toNat pop).length = P.popSize := by rw [(hO _ _).1.length_eq, hpop]
          refine ih _ _ (nextGen_length O P zero _ _ hlen h2 hr.le) (by exact h1) ?_
          intro x hx
          simp only [evalGen_scores] at hx
          -- the best of this generation is the first of the sorted population
          obtain ⟨hperm, hsort⟩ := hO s.gen.toNat pop
          cases hso : O.order s.gen.toNat pop with
          | nil => rw [hso] at hlen; simp at hlen; omega
          | cons a l =>
            rw [hso] at hperm hsort
            have hhead := nextGen_head O P zero s.gen.toNat a l hr
            have hb : fit (bestOf fit zero pop) ≤ fit a := by
              have hm := hperm.symm.subset (bestOf_mem (fit := fit) (zero := zero) hne)
              rcases List.mem_cons.1 hm with h | h
              · rw [h]
              · exact (List.pairwise_cons.1 hsort).1 _ h
            have hup : fit a ≤ fit (bestOf fit zero (nextGen O P zero s.gen.toNat (a :: l))) := bestOf_max hhead
            rcases List.mem_append.1 hx with hx | hx
            · exact le_trans (hle x hx) (le_trans hb hup)
            · rw [List.mem_singleton] at hx; rw [hx]; exact le_trans hb hup
  unfold evolve at h
  split at h
  · cases h
  · split at h
    · cases h
    · obtain rfl := Except.ok.inj h
      exact key _ _ _ hpop (by simp [fresh]) (by simp [fresh])

/-- Why a call stops: it evaluated as many generations as allowed, or the last generation reached the threshold, or the score did not improve for the allowed number
of generations. -/
theorem evolve_stops {fit : G → ℚ} {O : Oracle G} {P : Params} {zero : G} {pop : List G} {s : St G}
    (h : evolve fit O P zero pop (fresh zero) = .ok s) :
    s.scores.length = P.genMax ∨ (∃ x, s.scores.getLast? = some x ∧ P.threshold ≤ x) ∨ (s.nStag = P.stagMax ∧ s.best ≠ 0) := by
  have key : ∀ (k : Nat) (pop : List G) (s : St G), (loop fit O P zero k pop s).scores.length = s.scores.length + k ∨
      (∃ x, (loop fit O P zero k pop s).scores.getLast? = some x ∧ P.threshold ≤ x) ∨
      ((loop fit O P zero k pop s).nStag = P.stagMax ∧ (loop fit O P zero k pop s).best ≠ 0) := by
    intro k
    induction k with
    | zero => intro pop s; left; simp [loop]
    | succ k ih =>
      intro pop s
      rw [loop]
      split
      · rename_i h
        right; left
        exact ⟨_, by rw [evalGen_scores]; simp, h⟩
      · split
        · rename_i h; right; right; exact h
        · have hl : (evalGen fit zero pop s).scores.length = s.scores.length + 1 := by rw [evalGen_scores]; simp
          rcases ih (nextGen O P zero s.gen.toNat (O.order s.gen.toNat pop)) { evalGen fit zero pop s with
              gen := (evalGen fit zero pop s).gen + 1, nStag := (evalGen fit zero pop s).nStag + 1 } with h | h
          · left; rw [h]; simp only; omega
          · right; exact h
  unfold evolve at h
  split at h
  · cases h
  · split at h
    · cases h
    · obtain rfl := Except.ok.inj h
      have := key ((P.genMax : Int) - (fresh zero).gen).toNat pop { fresh zero with bestG := pop.getD 0 zero, nStag := 0 }
      simpa [fresh] using this

/-- A sort, random draws and children for a concrete run on rational genomes. -/
def demoO : Oracle ℚ := ⟨fun _ l => l.insertionSort (fun a b => b ≤ a), fun g i _ => ((g : ℚ) / 10, (i : ℚ) / 10), fun g _ => (g : ℚ) / 7⟩

example : demoO.Sorts id := by
  intro g pop
  refine ⟨List.perm_insertionSort _ _, ?_⟩
  have := List.pairwise_insertionSort (fun a b : ℚ => b ≤ a) pop
  exact this

/-- Parameters of the concrete run. -/
def demoP : Params := ⟨4, 9 / 10, 5, 3, 1⟩

example : (match evolve id demoO demoP 0 [1 / 2, 1 / 5, 1 / 3, 0] (fresh 0) with
    | .ok s => (s.scores, s.best, s.bestG)
    | .error _ => ([], 0, 0)) = ([1 / 2, 1 / 2, 1 / 2, 1 / 2], 1 / 2, 1 / 2) := by decide +kernel

/-- **C19** is false when all the fitnesses are negative or zero: the genome is then the first individual drawn, not the best. Fitnesses -3 and -1; the first is kept. -/
theorem negative_fitness_violated :
    (match evolve id (⟨fun _ l => l.insertionSort (fun a b => b ≤ a), fun _ _ _ => (0, 0), fun _ _ => -5⟩ : Oracle ℚ) ⟨2, 1, 2, 5, 1⟩ 0 [-3, -1] (fresh 0) with
    | .ok s => (s.bestG, s.best)
    | .error _ => (0, 0)) = (-3, 0) := by decide +kernel

/-- **C19** is false of a second call to `evolve` on the same object: the best genome is replaced by the first individual of the new population while the best score is kept, so that
they no longer agree. The first call reaches 4/5; the second, from weaker individuals, ends with genome 1/10 and best score 4/5. -/
theorem second_call_violated :
    (match evolve id (⟨fun _ l => l.insertionSort (fun a b => b ≤ a), fun _ _ _ => (0, 0), fun _ _ => 0⟩ : Oracle ℚ) ⟨2, 1 / 2, 10, 5, 1⟩ 0 [4 / 5, 1 / 10] (fresh 0) with
    | .ok s =>
      match evolve id (⟨fun _ l => l.insertionSort (fun a b => b ≤ a), fun _ _ _ => (0, 0), fun _ _ => 0⟩ : Oracle ℚ) ⟨2, 1 / 2, 10, 5, 1⟩ 0 [1 / 10, 1 / 5] s with
      | .ok t => ((s.bestG, s.best), (t.bestG, t.best))
      | .error _ => ((0, 0), (0, 0))
    | .error _ => ((0, 0), (0, 0))) = ((4 / 5, 4 / 5), (1 / 10, 4 / 5)) := by decide +kernel

/-- With an odd population and no random individual, every new generation holds a row of zeros that nobody chose. -/
theorem odd_population_violated (O : Oracle G) (P : Params) (zero : G) (g : Nat) (sorted : List G) (h : sorted.length = P.popSize) (hodd : P.popSize % 2 = 1)
    (h3 : 3 ≤ P.popSize) (hr : P.nRand = 0) : (nextGen O P zero g sorted).getLast? = some zero := by
  have hf : ((List.range (P.popSize / 2 - 1)).flatMap fun i => [(O.pair g i sorted).1, (O.pair g i sorted).2]).length = 2 * (P.popSize / 2 - 1) := by
    rw [List.length_flatMap]
    simp
    ring
  have hb : (sorted.take 2 ++ (List.range (P.popSize / 2 - 1)).flatMap fun i => [(O.pair g i sorted).1, (O.pair g i sorted).2]).length + 1 = P.popSize := by
    rw [List.length_append, hf, List.length_take, h]; omega
  unfold nextGen
  simp only [hr, lt_irrefl, if_false]
  generalize (sorted.take 2 ++ (List.range (P.popSize / 2 - 1)).flatMap fun i => [(O.pair g i sorted).1, (O.pair g i sorted).2]) = base at hb
  rw [show P.popSize - base.length = 1 from by omega]
  simp

/-! ## C20 -/

theorem splice_get {α : Type} {a b : List α} {lo hi : Nat} (hab : a.length = b.length) (hlo : lo ≤ hi) (hhi : hi ≤ a.length) (k : Nat) :
    (splice a b lo hi)[k]? = if lo ≤ k ∧ k < hi then b[k]? else a[k]? := by
  unfold splice
  have h1 : (a.take lo).length = lo := by rw [List.length_take]; omega
  have h2 : ((b.take hi).drop lo).length = hi - lo := by rw [List.length_drop, List.length_take]; omega
  rw [max_eq_right hlo]
  rcases lt_or_ge k lo with h | h
  · rw [if_neg (by omega), List.append_assoc, List.getElem?_append_left (by omega), List.getElem?_take_of_lt h]
  · rcases lt_or_ge k hi with h' | h'
    · rw [if_pos ⟨h, h'⟩, List.append_assoc, List.getElem?_append_right (by omega), List.getElem?_append_left (by omega), h1,
        List.getElem?_drop, Nat.add_sub_cancel' h, List.getElem?_take_of_lt h']
    · rw [if_neg (by omega), List.append_assoc, List.getElem?_append_right (by omega), List.getElem?_append_right (by omega), h1, h2,
        List.getElem?_drop]
      congr 1; omega

theorem masked_get {α : Type} {a b : List α} {m : Nat → Bool} (hab : a.length = b.length) (k : Nat) :
    (masked a b m)[k]? = if m k then b[k]? else a[k]? := by
  unfold masked
  rw [List.getElem?_zipWith, List.getElem?_zipIdx]
  rcases lt_or_ge k a.length with h | h
  · rw [List.getElem?_eq_getElem h, List.getElem?_eq_getElem (hab ▸ h)]
    simp only [Option.map_some, Nat.zero_add]
    split <;> rfl
  · rw [List.getElem?_eq_none h, List.getElem?_eq_none (by omega)]
    simp

/-- The draws that numpy can make for a genome of a given size (geneticalgo.py:487-511). -/
def Method.Drawn (size : Nat) : Method → Prop
  | .spco idx => 1 ≤ idx ∧ idx < size
  | .tpco i j => i < size ∧ j < size
  | .unco _ => True
  | .unknown => True

/-- **C20.** Whatever the method and the random draws, at every locus the two children carry the two parents' genes at that locus, in one order or the other. -/
theorem crossover_locus {α : Type} {p1 p2 c1 c2 : List α} {m : Method} (hl : p1.length = p2.length) (hm : m.Drawn p1.length)
    (h : crossOver p1 p2 m = .ok (c1, c2)) (k : Nat) :
    (c1[k]? = p1[k]? ∧ c2[k]? = p2[k]?) ∨ (c1[k]? = p2[k]? ∧ c2[k]? = p1[k]?) := by
  unfold crossOver at h
  split at h
  · simp only [Except.ok.injEq, Prod.mk.injEq] at h
    obtain ⟨rfl, rfl⟩ := h
    exact Or.inl ⟨rfl, rfl⟩
  · have two : ∀ lo hi, lo ≤ hi → hi ≤ p1.length →
        ((splice p1 p2 lo hi)[k]? = p1[k]? ∧ (splice p2 p1 lo hi)[k]? = p2[k]?) ∨
        ((splice p1 p2 lo hi)[k]? = p2[k]? ∧ (splice p2 p1 lo hi)[k]? = p1[k]?) := by
      intro lo hi h1 h2
      rw [splice_get hl h1 h2, splice_get hl.symm h1 (by omega)]
      by_cases hc : lo ≤ k ∧ k < hi
      · rw [if_pos hc, if_pos hc]; exact Or.inr ⟨rfl, rfl⟩
      · rw [if_neg hc, if_neg hc]; exact Or.inl ⟨rfl, rfl⟩
    cases m with
    | spco idx =>
      simp only [Except.ok.injEq, Prod.mk.injEq] at h
      obtain ⟨rfl, rfl⟩ := h
      rw [← hl]
      exact two idx p1.length hm.2.le (le_refl _)
    | tpco i j =>
      simp only [Except.ok.injEq, Prod.mk.injEq] at h
      obtain ⟨rfl, rfl⟩ := h
      exact two _ _ (by omega) (by have := hm.1; have := hm.2; omega)
    | unco mask =>
      simp only [Except.ok.injEq, Prod.mk.injEq] at h
      obtain ⟨rfl, rfl⟩ := h
      rw [masked_get hl, masked_get hl.symm]
      cases mask k
      · exact Or.inl ⟨rfl, rfl⟩
      · exact Or.inr ⟨rfl, rfl⟩
    | unknown => cases h

/-- Single-point crossover always exchanges the last gene and keeps the first. -/
theorem spco_exchanges {α : Type} {p1 p2 c1 c2 : List α} {idx : Nat} (hl : p1.length = p2.length) (hm : (Method.spco idx).Drawn p1.length) (h1 : p1.length ≠ 1)
    (h : crossOver p1 p2 (.spco idx) = .ok (c1, c2)) :
    c1[0]? = p1[0]? ∧ c1[p1.length - 1]? = p2[p1.length - 1]? ∧ c2[p1.length - 1]? = p1[p1.length - 1]? := by
  obtain ⟨ha, hb⟩ := hm
  unfold crossOver at h
  rw [if_neg h1] at h
  simp only [Except.ok.injEq, Prod.mk.injEq] at h
  obtain ⟨rfl, rfl⟩ := h
  rw [← hl]
  rw [splice_get hl hb.le (le_refl _), splice_get hl hb.le (le_refl _), splice_get hl.symm hb.le (by omega)]
  rw [if_neg (by omega), if_pos (by omega), if_pos (by omega)]
  exact ⟨rfl, rfl, rfl⟩

/-- Two-point crossover can never exchange the last gene, as the upper cut is at most the last index and is excluded. -/
theorem tpco_keeps_last {α : Type} {p1 p2 c1 c2 : List α} {i j : Nat} (hl : p1.length = p2.length) (hm : (Method.tpco i j).Drawn p1.length) (h1 : p1.length ≠ 1)
    (h : crossOver p1 p2 (.tpco i j) = .ok (c1, c2)) :
    c1[p1.length - 1]? = p1[p1.length - 1]? ∧ c2[p1.length - 1]? = p2[p1.length - 1]? := by
  obtain ⟨ha, hb⟩ := hm
  unfold crossOver at h
  rw [if_neg h1] at h
  simp only [Except.ok.injEq, Prod.mk.injEq] at h
  obtain ⟨rfl, rfl⟩ := h
  rw [splice_get hl (by omega) (by omega), splice_get hl.symm (by omega) (by omega)]
  rw [if_neg (by omega), if_neg (by omega)]
  exact ⟨rfl, rfl⟩

/-- An unknown method is refused, except for genomes of one gene. -/
theorem crossover_unknown {α : Type} (p1 p2 : List α) (h : p1.length ≠ 1) : crossOver p1 p2 .unknown = .error .valueError := by
  unfold crossOver; rw [if_neg h]

example : crossOver [1, 2, 3, 4] [5, 6, 7, 8] (.tpco 3 1) = .ok ([1, 6, 7, 4], [5, 2, 3, 8]) := rfl
example : (Method.tpco 3 1).Drawn 4 := ⟨by decide, by decide⟩

/-- A tournament returns one of the drawn individuals, with the highest score among them. -/
theorem tournament_winner (score : Nat → ℚ) (draw : List Nat) (h : draw ≠ []) :
    tournament score draw ∈ draw ∧ ∀ i ∈ draw, score i ≤ score (tournament score draw) := by
  unfold tournament
  have hl : 0 < draw.length := List.length_pos_iff.2 h
  have h1 := argmax_lt (fun j => score (draw.getD j 0)) hl
  constructor
  · rw [List.getD_eq_getElem _ _ h1]; exact List.getElem_mem h1
  · intro i hi
    obtain ⟨j, hj, rfl⟩ := List.mem_iff_getElem.1 hi
    have := argmax_max (fun j => score (draw.getD j 0)) hj
    rwa [List.getD_eq_getElem _ _ hj] at this

/-- A tournament never asks for more individuals than there are, so the draw without replacement cannot fail. -/
theorem tournament_fits (n : Nat) (h : 2 ≤ n) : tournamentSize n ≤ n := by
  unfold tournamentSize; omega

end Verif.GA
