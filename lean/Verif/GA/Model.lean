import Verif.Common.Prelude
import Mathlib.Data.List.Sort
import Mathlib.Data.List.GetD

/-!
# Model of the genetic algorithm: `nenupy/schedule/geneticalgo.py`

Genomes are abstract for `evolve` and lists of genes for the crossover. Random draws and the user's callables are parameters; the fitness is a
deterministic function of the genome (in the code it is computed for all the rows of the population at once).
-/

namespace Verif.GA

variable {G : Type}

/-- `populationSize` setter (geneticalgo.py:63-74). -/
def setPop (n : Int) : Except Err Int := if n < 2 then .error .valueError else .ok n

/-- Random draws and user functions: `order` is `population[np.argsort(scores)[::-1]]` (275-276; the order of equal scores depends on numpy's
sort), `pair g i` the two children of the `i`-th pair of generation `g` after selection, crossover and mutation (291-308), `rand g j` the `j`-th random individual (317). Used for geneticalgo.py:281-317. -/
structure Oracle (G : Type) where
  order : Nat → List G → List G
  pair : Nat → Nat → List G → G × G
  rand : Nat → Nat → G

/-- Parameters of `evolve` (geneticalgo.py:193-218). -/
structure Params where
  popSize : Nat
  threshold : ℚ
  genMax : Nat
  stagMax : Nat
  nRand : Nat

/-- Attributes of the object and local variables of `evolve`. `scores` is `_genScores`; `seen` is a record, kept for the proofs only, of the populations that were
evaluated. Used for geneticalgo.py:235-245. -/
structure St (G : Type) where
  gen : Int
  best : ℚ
  bestG : G
  nStag : Nat
  scores : List ℚ
  seen : List (List G)

/-- Construction of the next generation (geneticalgo.py:281-317). `zero` is the row of zeros. -/
def nextGen (O : Oracle G) (P : Params) (zero : G) (g : Nat) (sorted : List G) : List G :=
  let base := sorted.take 2 ++ (List.range (P.popSize / 2 - 1)).flatMap fun i => [(O.pair g i sorted).1, (O.pair g i sorted).2]
  let rows := base ++ List.replicate (P.popSize - base.length) zero
  if 0 < P.nRand then rows.take (P.popSize - P.nRand) ++ (List.range P.nRand).map (O.rand g) else rows

/-- `np.argmax(populationScores)` (239), as an individual; `zero` for an empty population, which cannot be. Used for geneticalgo.py:239. -/
def bestOf (fit : G → ℚ) (zero : G) (pop : List G) : G :=
  pop.getD (argmax (fun i => fit (pop.getD i zero)) pop.length) zero

/-- One evaluation (geneticalgo.py:235-245). -/
def evalGen (fit : G → ℚ) (zero : G) (pop : List G) (s : St G) : St G :=
  let b := bestOf fit zero pop
  let s1 : St G := { s with scores := s.scores ++ [fit b], seen := s.seen ++ [pop] }
  if s.best < fit b then { s1 with best := fit b, bestG := b, nStag := 0 } else s1

/-- The `while` loop (geneticalgo.py:233-329); `fuel` is the number of generations left, `generation_max - self.generation`. The two `break`s skip the `else` clause. -/
def loop (fit : G → ℚ) (O : Oracle G) (P : Params) (zero : G) : Nat → List G → St G → St G
  | 0, _, s => { s with gen := s.gen - 1 }
  | k + 1, pop, s =>
    let s1 := evalGen fit zero pop s
    if P.threshold ≤ fit (bestOf fit zero pop) then s1
    else if s1.nStag = P.stagMax ∧ s1.best ≠ 0 then s1
    else loop fit O P zero k (nextGen O P zero s.gen.toNat (O.order s.gen.toNat pop)) { s1 with gen := s1.gen + 1, nStag := s1.nStag + 1 }

/-- `evolve` (geneticalgo.py:193-331) from an object in state `s`, with initial population `pop` of `populationSize` individuals. -/
def evolve (fit : G → ℚ) (O : Oracle G) (P : Params) (zero : G) (pop : List G) (s : St G) : Except Err (St G) :=
  if 1 < P.threshold then .error .valueError
  else if P.popSize < P.nRand then .error .valueError
  else .ok (loop fit O P zero ((P.genMax : Int) - s.gen).toNat pop { s with bestG := pop.getD 0 zero, nStag := 0 })

/-- A new object (geneticalgo.py:43-53). -/
def fresh (zero : G) : St G := ⟨0, 0, zero, 0, [], []⟩

/-! ## Crossover -/

/-- Crossover methods and their random draws. Used for geneticalgo.py:469-522. -/
inductive Method
  | spco (idx : Nat)
  | tpco (i j : Nat)
  | unco (mask : Nat → Bool)
  | unknown

/-- `child[lo:hi] = other[lo:hi]`. Used for geneticalgo.py:469-522. -/
def splice {α : Type} (a b : List α) (lo hi : Nat) : List α := a.take lo ++ (b.take hi).drop lo ++ a.drop (max lo hi)

/-- `child[mask] = other[mask]`. Used for geneticalgo.py:469-522. -/
def masked {α : Type} (a b : List α) (m : Nat → Bool) : List α := List.zipWith (fun (p : α × Nat) y => if m p.2 then y else p.1) a.zipIdx b

/-- `_crossOver` (geneticalgo.py:469-522). Two-point indices are sorted (501); the draws satisfy `1 ≤ idx < size`, `i, j < size`. -/
def crossOver {α : Type} (p1 p2 : List α) : Method → Except Err (List α × List α)
  | m =>
    if p1.length = 1 then .ok (p1, p2)
    else match m with
      | .spco idx => .ok (splice p1 p2 idx p1.length, splice p2 p1 idx p2.length)
      | .tpco i j => .ok (splice p1 p2 (min i j) (max i j), splice p2 p1 (min i j) (max i j))
      | .unco mask => .ok (masked p1 p2 mask, masked p2 p1 mask)
      | .unknown => .error .valueError

/-! ## Selection of parents -/

/-- Tournament (geneticalgo.py:433-445): the winner among the drawn indices. -/
def tournament (score : Nat → ℚ) (draw : List Nat) : Nat := draw.getD (argmax (fun j => score (draw.getD j 0)) draw.length) 0

/-- Size of a tournament (433-435). Used for geneticalgo.py:433-435. -/
def tournamentSize (n : Nat) : Nat := max 2 ((n + 9) / 10)

end Verif.GA
