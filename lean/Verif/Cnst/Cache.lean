import Verif.Cnst.Eval

/-!
# Scores and positions kept by the blocks of a schedule (schedule.py, obsblocks.py, targets.py)

Several blocks may refer to the same `Constraints` object or to the same target object: objects are numbered, and a heap tells what each of them
keeps from earlier evaluations. `sky t G` stands for the positions of target `t` at the times of the schedule `G` (targets.py:141-154).
-/

namespace Verif.Cnst

/-- The times of a schedule: number of slots, start times and hours (schedule.py:1745-1751). -/
structure Grid where
  n : Nat
  time : Nat → ℚ
  utcHour : Nat → ℚ
  localHour : Nat → ℚ

/-- What the objects keep: `Constraints.score` (constraints.py:1335), `_Target._lst` and other positions (targets.py:75-81), and the Sun
elevations of the schedule. -/
structure Heap where
  score : Nat → Option (Nat → ℚ)
  pos : Nat → Option Ephem
  sun : Nat → Option ℚ

/-- A block of a schedule (schedule.py:75-104): its `Constraints` object with its content, its target object, its number of slots. -/
structure Blk where
  cnst : Nat
  content : List (ℚ × Cn)
  target : Option Nat
  nslots : Nat

/-- Insertion in a schedule (schedule.py:414-424): the new block refers to the same objects; the setter of the target forgets its positions
(obsblocks.py:394-404), that of the constraints forgets nothing (412-416). -/
def insertBlk (H : Heap) (b : Blk) : Heap :=
  { H with pos := fun t => if b.target = some t then none else H.pos t }

/-- Positions are computed if they are not known (schedule.py:176-177). -/
def locate (sky : Nat → Grid → Ephem) (G : Grid) (H : Heap) (b : Blk) : Heap :=
  { H with pos := fun t => if b.target = some t then some ((H.pos t).getD (sky t G)) else H.pos t }

/-- The arguments of `Constraints.evaluate` (schedule.py:181-187), from the positions which are kept. -/
def blkEnv (G : Grid) (H : Heap) (b : Blk) : Env :=
  ⟨G.n, b.nslots, G.time, G.utcHour, G.localHour, b.target.bind H.pos⟩

/-- The score kept after an evaluation (constraints.py:1441-1447). -/
def keepScore (H : Heap) (b : Blk) (sun : Nat → Option ℚ) (s : Nat → ℚ) : Heap × (Nat → ℚ) :=
  ({ H with score := fun c => if c = b.cnst then some s else H.score c, sun := sun }, s)

/-- `evaluate_score` on a block without a score (schedule.py:170-192). -/
def freshScore (sky : Nat → Grid → Ephem) (G : Grid) (H : Heap) (b : Blk) : Except Err (Heap × (Nat → ℚ)) :=
  (evaluate (blkEnv G (locate sky G H b) b) b.content H.sun).2.map
    (keepScore (locate sky G H b) b (evaluate (blkEnv G (locate sky G H b) b) b.content H.sun).1)

/-- The score used for one block (schedule.py:1753-1771): that which is kept, if there is one. -/
def usedScore (sky : Nat → Grid → Ephem) (G : Grid) (H : Heap) (b : Blk) : Except Err (Heap × (Nat → ℚ)) :=
  (H.score b.cnst).elim (freshScore sky G H b) fun s => .ok (H, s)

/-- The scores used for the blocks of a schedule, one after the other (schedule.py:1753-1785), and what is kept afterwards. -/
def usedScores (sky : Nat → Grid → Ephem) (G : Grid) : Heap → List Blk → Except Err (Heap × List (Nat → ℚ))
  | H, [] => .ok (H, [])
  | H, b :: l => (usedScore sky G H b).bind fun r => (usedScores sky G r.1 l).map fun q => (q.1, r.2 :: q.2)

/-- `target[min:max]` of the extension (targets.py:120-128): positions which are not known cannot be sliced. -/
def sliceTarget (H : Heap) (t : Nat) : Except Err Ephem := (H.pos t).elim (.error .typeError) .ok

end Verif.Cnst
