import Verif.Cnst.Eval
import Verif.Sched.Model

/-!
# Scores of the windows tried by the extension of observations (constraints.py:1450-1505, schedule.py:1288-1316)
-/

namespace Verif.Cnst

/-- Positions of a target from time number `a` on: `target[min_idx : max_idx]` (constraints.py:1459-1464, targets.py:120-128). -/
def shiftEphem (a : Nat) (T : Ephem) : Ephem :=
  ⟨fun i => T.elev (a + i), fun i => T.hourAngle (a + i), fun i => T.azimuth (a + i), fun i => T.lst (a + i), T.circumpolar, fun i => T.sunSep (a + i), T.byName⟩

/-- The arguments of the constraints for `m` slots from slot `a` on (constraints.py:1458-1475). For a window of `w` indices the times are those of
these indices, without the end of the last slot: `m` is `w - 1` (`nslots = indices_window.size - 1`). -/
def windowEnv (E : Env) (a m : Nat) : Env :=
  ⟨m, m, fun i => E.time (a + i), fun i => E.utcHour (a + i), fun i => E.localHour (a + i), E.target.map (shiftEphem a)⟩

/-- One constraint on a window (constraints.py:1480-1491): as in `evaluate`, except that a constraint on the distance to the Sun is left out when there is
no target. -/
def windowOne (E : Env) (sun : Nat → Option ℚ) : Cn → (Nat → Option ℚ) × Except Err (Option (Nat → Option ℚ))
  | .solar cl sc a b => (sun, E.target.elim (.ok none) fun T => T.separation.map fun f => some (sunScore cl sc a b E.n f))
  | c => evalOne E sun c

/-- The loop over the constraints (constraints.py:1478-1491). -/
def windowRows (E : Env) : List (ℚ × Cn) → (Nat → Option ℚ) → Except Err (List (ℚ × Option (Nat → Option ℚ)))
  | [], _ => .ok []
  | p :: cs, sun => (windowOne E sun p.2).2.bind fun row => (windowRows E cs (windowOne E sun p.2).1).map fun rows => (p.1, row) :: rows

/-- `evaluate_various_nslots` for one window (constraints.py:1454-1505): the scores of `m` slots from slot `a` on. The Sun elevations are a copy (schedule.py:1298),
masked again in the same way for each window. -/
def windowScores (E : Env) (cs : List (ℚ × Cn)) (sun : Nat → Option ℚ) (a m : Nat) : Except Err (List ℚ) :=
  (windowRows (windowEnv E a m) cs fun i => sun (a + i)).map fun rows => (List.range m).map fun i => combine (slotRows rows i)

/-- `treat` (schedule.py:1303-1307): null if a slot is, else the mean, which is NaN without any slot. -/
def treat (l : List ℚ) : Option ℚ := if (0 : ℚ) ∈ l then some 0 else npDiv l.sum l.length

/-- The score of the window of indices `w` (schedule.py:1294-1308). -/
def windowScore (E : Env) (cs : List (ℚ × Cn)) (sun : Nat → Option ℚ) (w : List Nat) : Except Err (Option ℚ) :=
  (windowScores E cs sun (w.headD 0) (w.length - 1)).map treat

/-- `constraint_score > constraint_score[0] * relative_score_threshold` (schedule.py:1314). -/
def better (thr : ℚ) (first x : Option ℚ) : Bool := first.any fun f => x.any fun v => decide (f * thr < v)

/-- Is the window of size `w` kept for a block of `n0` slots booked from `s0` on (schedule.py:1288-1316)? `sc`: score of a window. -/
def keepSize (sc : List Nat → Option ℚ) (thr : ℚ) (size s0 n0 w : Nat) : Bool :=
  better thr (sc (Scheduler.extWindow size s0 n0 (n0 + 1))) (sc (Scheduler.extWindow size s0 n0 w))

/-- `extend_scheduled_observations` (schedule.py:1240-1366) with the scores of the windows of each block. -/
def extendWith (s : Scheduler.Sched) (maxDur : Option ℚ) (thr : ℚ) (sc : Nat → List Nat → Option ℚ) : Scheduler.Sched × Option Err :=
  s.extend maxDur fun i w => (s.blocks[i]?).any fun b => b.start.any fun s0 => keepSize (sc i) thr s.size s0 b.nSlots w

end Verif.Cnst
