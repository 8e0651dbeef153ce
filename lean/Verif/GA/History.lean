/-
The history of a genetic search, as drawn by `plot`: `nenupy/schedule/geneticalgo.py`.
-/
import Verif.GA.Model

namespace Verif.GA

variable {G : Type}

/-- The arguments of one call to `evolve`, with the population drawn for it. Used for geneticalgo.py:193-230. -/
structure Call (G : Type) where
  draws : Oracle G
  params : Params
  first : List G

/-- Calls to `evolve`, one after the other, on one object (geneticalgo.py:193-331); the first one which raises ends them. -/
def evolves (fit : G → ℚ) (zero : G) : List (Call G) → St G → Except Err (St G)
  | [], s => .ok s
  | c :: cs, s => (evolve fit c.draws c.params zero c.first s).bind (evolves fit zero cs)

/-- `generations`: `np.arange(self.generation + 1)` (geneticalgo.py:184-188). -/
def generations (s : St G) : List Nat := List.range (s.gen + 1).toNat

/-- `_childScores`: the fitnesses of all the populations which were evaluated (geneticalgo.py:235-236). -/
def childScores (fit : G → ℚ) (s : St G) : List (List ℚ) := s.seen.map fun p => p.map fit

/-- What is drawn: the curve (drawn twice, as a line and as dots) and the points counted in the hexagons. Used for geneticalgo.py:347-378. -/
structure Drawn where
  curve : List (Nat × ℚ)
  children : List (Nat × ℚ)

/-- `np.array(self._childScores).shape[1]` (geneticalgo.py:355-358): rows of different lengths are a `ValueError`, no row an `IndexError`. -/
def width (rows : List (List ℚ)) : Except Err Nat :=
  rows.head?.elim (.error .indexError) fun r => if rows.all fun q : List ℚ => q.length == r.length then .ok r.length else .error .valueError

/-- `np.repeat(x, n)`. Used for geneticalgo.py:358. -/
def repeatEach (n : Nat) (x : List Nat) : List Nat := x.flatMap fun g => List.replicate n g

/-- The points of the hexagons (geneticalgo.py:355-366): matplotlib wants as many abscissas as ordinates, and leaves out the masked scores, which are those equal to zero. -/
def hexagons (gens : List Nat) (rows : List (List ℚ)) : Except Err (List (Nat × ℚ)) :=
  (width rows).bind fun n =>
    if (repeatEach n gens).length ≠ rows.flatten.length then .error .valueError
    else .ok (((repeatEach n gens).zip rows.flatten).filter fun p : Nat × ℚ => p.2 ≠ 0)

/-- `plot` (geneticalgo.py:334-378); colours, labels and the file of the figure are left out. matplotlib refuses a curve whose abscissas and ordinates differ in number. -/
def plot (fit : G → ℚ) (s : St G) : Except Err Drawn :=
  if (generations s).length ≠ s.scores.length then .error .valueError
  else (hexagons (generations s) (childScores fit s)).map fun pts => ⟨(generations s).zip s.scores, pts⟩

end Verif.GA
