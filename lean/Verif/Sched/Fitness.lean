import Verif.Sched.Model2

/-!
# Fitness of a genome in the genetic search

Model of `Schedule._populate`, `_fitness` and `_mutation` (schedule.py:1822-1938).

The candidates are the blocks of `self._toSchedule`, numbered from zero. A genome gives a start slot to each of them. `np.argsort` is any
list of indices that sorts the values: the default algorithm of numpy is not stable, so nothing more is known about it.
-/

namespace Verif.Scheduler

/-- What the fitness reads about one candidate: `_cnstScores[i]`, `_maxScores[i]`, `nSlots` and `n_delay_slots`
(schedule.py:1862-1866, 1891-1895). -/
structure Cand where
  row : Nat → ℚ
  max : ℚ
  n : Nat
  delay : Nat

/-- Number of `True` in `np.diff(sorted) - len < 0` (schedule.py:1896-1906, 1910-1920) along the sorted indices. -/
def badPairs (start len : Nat → Int) : List Nat → Nat
  | [] => 0
  | [_] => 0
  | a :: b :: l => (if start b - start a - len a < 0 then 1 else 0) + badPairs start len (b :: l)

/-- `np.argsort` (schedule.py:1893, 1909): a permutation of the `m` indices in increasing order of the values. -/
def IsArgsort (start : Nat → Int) (m : Nat) (ord : List Nat) : Prop :=
  ord.Perm (List.range m) ∧ ord.Pairwise fun a b => start a ≤ start b

/-- Candidate `i`. The default is never read for `i` below the number of candidates (schedule.py:1862-1866). -/
def candAt (cs : List Cand) (i : Nat) : Cand := cs[i]?.getD ⟨fun _ => 0, 0, 0, 0⟩

/-- Indices with `n_delay_slots > 0` (schedule.py:1891). -/
def delayedIdx (cs : List Cand) : List Nat := (List.range cs.length).filter fun i => decide (0 < (candAt cs i).delay)

/-- Mean of the scores divided by the maximal scores (schedule.py:1858-1871). -/
def quality (cs : List Cand) (g : Nat → Nat) : ℚ :=
  sumTo (fun i => (candAt cs i).row (g i) / (candAt cs i).max) cs.length / cs.length

/-- `overlaps` (schedule.py:1908-1920), for the sorted indices `ord`. -/
def overlapCount (cs : List Cand) (g : Nat → Nat) (ord : List Nat) : Nat :=
  badPairs (fun i => g i) (fun i => (candAt cs i).n) ord

/-- Start of the `k`-th delayed candidate, `population_delay[:, k]` (schedule.py:1892). -/
def delayedStart (cs : List Cand) (g : Nat → Nat) (k : Nat) : Int := ((delayedIdx cs)[k]?.map g).getD 0

/-- `overlaps_delay` (schedule.py:1891-1906), for the sorted indices `ordD` of the delayed candidates. The lengths and delays are read at
position `k` of all the candidates, not of the delayed ones (1894-1895). -/
def delayCount (cs : List Cand) (g : Nat → Nat) (ordD : List Nat) : Nat :=
  badPairs (delayedStart cs g) (fun k => ((candAt cs k).delay + (candAt cs k).n : Nat)) ordD

/-- `_fitness` for one genome (schedule.py:1852-1924). -/
def fitness (cs : List Cand) (g : Nat → Nat) (ord ordD : List Nat) : ℚ :=
  quality cs g / ((overlapCount cs g ord + delayCount cs g ordD + 1 : Nat) : ℚ)

/-- `_populate` for one gene (schedule.py:1840-1847): a random choice among the starts with a non-zero score, then clipped. -/
def populateGene (size n : Nat) (row : Nat → ℚ) (r : Nat) : Option Int :=
  let starts := (List.range size).filter fun j => decide (row j ≠ 0)
  (starts[r]?).map fun j : Nat => boundGene size n (j : Int)

/-- `_mutation` (schedule.py:1927-1938): gene `i` becomes `x`, and all the genes are clipped. -/
def mutateGenome (size : Nat) (n : Nat → Nat) (g : Nat → Int) (i : Nat) (x : Nat) : Nat → Int :=
  fun k => boundGene size (n k) (if k = i then (x : Int) else g k)

end Verif.Scheduler
