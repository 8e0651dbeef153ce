/-
The size of the population, and further calls to `evolve` on one object.
-/
import Verif.GA.Props

namespace Verif.GA

variable {G : Type}

/-- **C19.** A population size is accepted, and kept as it is, exactly when it is at least two; any other one is a `ValueError`. -/
theorem population_size (n : Int) : (2 ≤ n → setPop n = .ok n) ∧ (n < 2 → setPop n = .error .valueError) := by
  unfold setPop
  exact ⟨fun h => if_neg (by omega), fun h => if_pos h⟩

example : setPop 2 = .ok 2 ∧ setPop 1 = .error .valueError ∧ setPop (-4) = .error .valueError := by decide +kernel

/-- What the loop does to the counter, the reported scores, and how many generations it can evaluate. -/
theorem loop_counts (fit : G → ℚ) (O : Oracle G) (P : Params) (zero : G) : ∀ (k : Nat) (pop : List G) (s : St G),
    s.scores.length ≤ (loop fit O P zero k pop s).scores.length ∧ (loop fit O P zero k pop s).scores.length ≤ s.scores.length + k ∧
    (0 < k → s.scores.length + 1 ≤ (loop fit O P zero k pop s).scores.length) ∧
    (loop fit O P zero k pop s).gen = s.gen + ((loop fit O P zero k pop s).scores.length - s.scores.length : Int) - 1 := by
  intro k
  induction k with
  | zero => intro pop s; simp [loop]
  | succ k ih =>
    intro pop s
    have hl : (evalGen fit zero pop s).scores.length = s.scores.length + 1 := by rw [evalGen_scores]; simp
    have hg : (evalGen fit zero pop s).gen = s.gen := evalGen_gen fit zero pop s
    rw [loop]
    split
    · refine ⟨by omega, by omega, fun _ => by omega, ?_⟩
      rw [hl, hg]; push_cast; ring
    · split
      · refine ⟨by omega, by omega, fun _ => by omega, ?_⟩
        rw [hl, hg]; push_cast; ring
      · obtain ⟨h1, h2, _, h4⟩ := ih (nextGen O P zero s.gen.toNat (O.order s.gen.toNat pop)) { evalGen fit zero pop s with
            gen := (evalGen fit zero pop s).gen + 1, nStag := (evalGen fit zero pop s).nStag + 1 }
        simp only at h1 h2 h4
        refine ⟨by omega, by omega, fun _ => by omega, ?_⟩
        rw [h4, hl, hg]; push_cast; ring

/-- A successful call is the loop. -/
theorem evolve_ok {fit : G → ℚ} {O : Oracle G} {P : Params} {zero : G} {pop : List G} {s0 s : St G} (h : evolve fit O P zero pop s0 = .ok s) :
    s = loop fit O P zero ((P.genMax : Int) - s0.gen).toNat pop { s0 with bestG := pop.getD 0 zero, nStag := 0 } := by
  unfold evolve at h
  split at h
  · cases h
  · split at h
    · cases h
    · exact (Except.ok.inj h).symm

/-- **C19.** Any call, on an object with any past: `generation` goes up by the number of generations which were evaluated, less one; at most `generation_max - generation` are
evaluated, and at least one if that is positive. -/
theorem evolve_counts {fit : G → ℚ} {O : Oracle G} {P : Params} {zero : G} {pop : List G} {s0 s : St G} (h : evolve fit O P zero pop s0 = .ok s) :
    s.gen = s0.gen + ((s.scores.length : Int) - s0.scores.length) - 1 ∧
    s0.scores.length ≤ s.scores.length ∧ (s.scores.length : Int) - s0.scores.length ≤ max 0 (P.genMax - s0.gen) ∧
    (s0.gen < P.genMax → s0.scores.length < s.scores.length) := by
  obtain ⟨h1, h2, h3, h4⟩ := loop_counts fit O P zero ((P.genMax : Int) - s0.gen).toNat pop { s0 with bestG := pop.getD 0 zero, nStag := 0 }
  rw [← evolve_ok h] at h1 h2 h3 h4
  simp only at h1 h2 h3 h4
  refine ⟨by omega, h1, by omega, fun hg => ?_⟩
  have := h3 (by omega)
  omega

/-- **C19** is false of a further call on the same object, whatever the object, the draws and the limit: if no individual beats the score which was kept, the genome
reported is the first one drawn for this call, whatever its fitness, next to the best score of an earlier call. -/
theorem again_genome_violated {fit : G → ℚ} {O : Oracle G} {P : Params} {zero : G} {pop : List G} {s0 s : St G} (h : evolve fit O P zero pop s0 = .ok s)
    (hb : ∀ g, fit g ≤ s0.best) : s.bestG = pop.getD 0 zero ∧ s.best = s0.best := by
  have key : ∀ (k : Nat) (pop : List G) (t : St G), t.best = s0.best → (loop fit O P zero k pop t).bestG = t.bestG ∧ (loop fit O P zero k pop t).best = s0.best := by
    intro k
    induction k with
    | zero => intro pop t ht; exact ⟨rfl, ht⟩
    | succ k ih =>
      intro pop t ht
      have he : (evalGen fit zero pop t).bestG = t.bestG ∧ (evalGen fit zero pop t).best = s0.best := by
        have hn : ¬ t.best < fit (bestOf fit zero pop) := by rw [ht]; exact not_lt.2 (hb _)
        unfold evalGen
        simp only [if_neg hn]
        exact ⟨trivial, ht⟩
      rw [loop]
      split
      · exact he
      · split
        · exact he
        · obtain ⟨j1, j2⟩ := ih (nextGen O P zero t.gen.toNat (O.order t.gen.toNat pop)) { evalGen fit zero pop t with
            gen := (evalGen fit zero pop t).gen + 1, nStag := (evalGen fit zero pop t).nStag + 1 } he.2
          exact ⟨j1.trans he.1, j2⟩
  rw [evolve_ok h]
  exact key _ _ _ rfl

/-- **C19.** A search that used up its generations is not continued by a further call with the same limit: this one evaluates the newly drawn population and nothing else,
and the counter does not move. -/
theorem again_once_violated {fit : G → ℚ} {O : Oracle G} {P : Params} {zero : G} {pop : List G} {s0 s : St G} (h : evolve fit O P zero pop s0 = .ok s)
    (hg : s0.gen = P.genMax - 1) : s.scores.length = s0.scores.length + 1 ∧ s.gen = s0.gen := by
  obtain ⟨h1, h2, h3, h4⟩ := evolve_counts h
  have := h4 (by omega)
  have h5 : max 0 ((P.genMax : Int) - s0.gen) = 1 := by rw [hg]; simp
  rw [h5] at h3
  exact ⟨by omega, by omega⟩

/-- **C19.** With a limit that was reached already nothing is evaluated: the genome reported is an individual nobody evaluated, the best score is that of an earlier call, and the
counter goes down by one. -/
theorem again_none_violated {fit : G → ℚ} {O : Oracle G} {P : Params} {zero : G} {pop : List G} {s0 s : St G} (h : evolve fit O P zero pop s0 = .ok s)
    (hg : (P.genMax : Int) ≤ s0.gen) : s.scores = s0.scores ∧ s.seen = s0.seen ∧ s.best = s0.best ∧ s.bestG = pop.getD 0 zero ∧ s.gen = s0.gen - 1 := by
  rw [evolve_ok h, show ((P.genMax : Int) - s0.gen).toNat = 0 from by omega]
  exact ⟨rfl, rfl, rfl, rfl, rfl⟩

/-- Parameters of a concrete second call. -/
def demoAgain : Params := ⟨2, 1, 2, 9, 1⟩

/-- A first call which uses up two generations, then a second one: one more generation; and a third with a lower limit: none. -/
example : ((evolve id demoO demoAgain 0 [1 / 2, 1 / 5] (fresh 0)).bind fun s => (evolve id demoO demoAgain 0 [1 / 9, 1 / 5] s).bind fun t =>
    (evolve id demoO { demoAgain with genMax := 1 } 0 [1 / 8, 1 / 5] t).map fun u => ([s.gen, t.gen, u.gen], [s.scores.length, t.scores.length, u.scores.length], [t.best, u.bestG])).toOption =
    some ([1, 1, 0], [2, 3, 3], [1 / 2, 1 / 8]) := by decide +kernel

end Verif.GA
