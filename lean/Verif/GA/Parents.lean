import Verif.GA.Model

/-!
# Selection of the parents and functions given to the genetic algorithm (nenupy/schedule/geneticalgo.py)

A draw of `randGen.choice` is one of the pairs it may return.
-/

namespace Verif.GA

/-- `randGen.choice(population, size=2, replace=False, p=w/sum(w))` (geneticalgo.py:422-427, 454-459): refused if a weight is negative or less than two are
not zero; otherwise any two different rows of nonzero weights may be drawn. `none` are equal weights (`p=None`). -/
def drawPair (n : Nat) : Option (List ℚ) → Except Err (Nat → Nat → Prop)
  | none => if n < 2 then .error .valueError else .ok fun i j => i < n ∧ j < n ∧ i ≠ j
  | some w => if (w.any fun x => decide (x < 0)) ∨ (w.filter fun x => decide (x ≠ 0)).length < 2 then .error .valueError
      else .ok fun i j => i < n ∧ j < n ∧ i ≠ j ∧ w.getD i 0 ≠ 0 ∧ w.getD j 0 ≠ 0

/-- Scores after they are set to one when less than two are not zero (geneticalgo.py:416-418). -/
def fpsScores (scores : List ℚ) : List ℚ :=
  if (scores.filter fun x => decide (x ≠ 0)).length < 2 then scores.map fun _ => 1 else scores

/-- Probabilities of `FPS` (geneticalgo.py:419-420). -/
def fpsWeights (scores : List ℚ) : Option (List ℚ) :=
  if (fpsScores scores).sum = 0 then none else some ((fpsScores scores).map fun x => x / (fpsScores scores).sum)

/-- `_selectPair(method='FPS')` (geneticalgo.py:412-427). -/
def fps (scores : List ℚ) : Except Err (Nat → Nat → Prop) := drawPair scores.length (fpsWeights scores)

/-- `ranks` (geneticalgo.py:452), where `order` is `np.argsort(scores)`. -/
def rksRanks (order : List Nat) : List ℚ := order.map fun i : Nat => (i : ℚ) + 1

/-- `_selectPair(method='RKS')` (geneticalgo.py:447-459). -/
def rks (order : List Nat) : Except Err (Nat → Nat → Prop) :=
  drawPair order.length (some ((rksRanks order).map fun x => x / (rksRanks order).sum))

/-- The two winners of `TNS` (geneticalgo.py:436-445): two tournaments, each of different rows. -/
def tns (score : Nat → ℚ) (d1 d2 : List Nat) : Nat × Nat := (tournament score d1, tournament score d2)

/-! ## Functions given by the user -/

/-- What a function gives when it is tried: it raises, or gives something which is not an array, or an array of some shape. Used for geneticalgo.py:85-106. -/
inductive Tried where
  | raises
  | noArray
  | array (shape : List Nat)
  deriving DecidableEq

/-- The checks of a result against a shape: its dimension, then the length of its first axis. Used for geneticalgo.py:92-106, 128-142, 165-179. -/
def checked (ndim first : Nat) : Tried → Except Err Unit
  | .raises => .error .typeError
  | .noArray => .error .typeError
  | .array shape => if shape.length ≠ ndim then .error .indexError else if shape.getD 0 0 ≠ first then .error .indexError else .ok ()

/-- The exception of a result, if any. Used for geneticalgo.py:83-181. -/
def errOf {α : Type} : Except Err α → Option Err
  | .error e => some e
  | .ok _ => none

/-- A setter: the function is kept if its result is accepted (geneticalgo.py:83-108, 117-144, 153-181). -/
def setFn {α : Type} (ndim first : Nat) (old new : α) (t : Tried) : α × Option Err :=
  ((errOf (checked ndim first t)).elim new fun _ => old, errOf (checked ndim first t))

/-- Functions of one argument: the name of their parameter, and what they do of a genome. Used for geneticalgo.py:157-159, 303-308. -/
structure Fn (G : Type) where
  param : String
  run : G → G

/-- `mut(individual)` (geneticalgo.py:157-159): any name is accepted. -/
def callPos {G : Type} (f : Fn G) (x : G) : Except Err G := .ok (f.run x)

/-- `self.mutation(genome=child1)` (geneticalgo.py:303-308): the parameter must have this name. -/
def callGenome {G : Type} (f : Fn G) (x : G) : Except Err G := if f.param = "genome" then .ok (f.run x) else .error .typeError

/-- Arguments of `evolve` which are checked (geneticalgo.py:201-215). -/
def evolveChecks (threshold : ℚ) (nRand : Int) (popSize : Nat) : Except Err Unit :=
  if threshold > 1 then .error .valueError else if nRand > popSize then .error .valueError else .ok ()

end Verif.GA
