import Verif.Cnst.Model

/-!
# Model of `Constraints.evaluate`: all the constraints of a block over all the slots of a schedule
-/

namespace Verif.Cnst

/-- The quantities that astropy computes for a target, as functions of the time index (`n + 1` times for `n` slots). Used for constraints.py:1423-1433. -/
structure Ephem where
  elev : Nat → ℚ
  hourAngle : Nat → ℚ
  azimuth : Nat → ℚ
  lst : Nat → ℚ
  circumpolar : Bool
  /-- separation to the Sun at the start of each slot -/
  sunSep : Nat → ℚ
  /-- a Solar System target: its `target` is a name, not coordinates (targets.py:294-296) -/
  byName : Bool

/-- What `Constraints.evaluate` is given: number of slots, number of slots that the block lasts, start times (in days) and hours of the
slots, and the target if the block has one. Used for constraints.py:1423-1433. -/
structure Env where
  n : Nat
  nslots : Nat
  time : Nat → ℚ
  utcHour : Nat → ℚ
  localHour : Nat → ℚ
  target : Option Ephem

/-- The constraint classes (constraints.py:388-1319) with their parameters. `LocalSiderealTimeCnst` is the default `strict_crossing=True`. -/
inductive Cn
  | elevation (elevMin : ℚ) (scale : Bool)
  | transit
  | azimuth (az : ℚ)
  | lst (lst : ℚ)
  | localTime (hMin hMax : ℚ)
  | utcHour (hMin hMax : ℚ)
  | timeRange (ranges : List (ℚ × ℚ))
  | periodic (start period tol : ℚ)
  | night (sunMax : ℚ) (scale : Bool)
  | solar (closer scale : Bool) (sepMin sepMax : Option ℚ)
  deriving DecidableEq

/-- Whether the class derives from `TargetConstraint` (constraints.py:388, 539, 621, 719). -/
def Cn.onTarget : Cn → Bool
  | .elevation .. | .transit | .azimuth _ | .lst _ => true
  | _ => false

/-- `target.target.separation(sun_position).deg` (constraints.py:1284): the `target` of a Solar System target is a string (targets.py:294-296), which has no
`separation`. -/
def Ephem.separation (T : Ephem) : Except Err (Nat → ℚ) := if T.byName then .error .attributeError else .ok T.sunSep

/-- One iteration of the loop of `Constraints.evaluate` (constraints.py:1423-1433): the shared Sun elevations after the call and the row, or
`none` for a constraint that is not evaluated. A `SolarProximityCnst` without a target fails on `target.target` (1284). -/
def evalOne (E : Env) (sun : Nat → Option ℚ) (c : Cn) :
    (Nat → Option ℚ) × Except Err (Option (Nat → Option ℚ)) :=
  match c with
  | .elevation m s => (sun, .ok (E.target.map fun T => elevScore m s E.n T.elev))
  | .transit => (sun, .ok (E.target.map fun T i => some (crossScore E.n E.nslots (transitHit T.hourAngle) i)))
  | .azimuth az => (sun, .ok (E.target.map fun T i =>
      some (crossScore E.n E.nslots (if T.circumpolar then azHitCircum az T.azimuth else azHit az T.azimuth) i)))
  | .lst l => (sun, .ok (E.target.map fun T i => some (crossScore E.n E.nslots (lstHit l T.lst) i)))
  | .localTime a b => (sun, .ok (some fun i => maskScore (hourMask a b (E.localHour i))))
  | .utcHour a b => (sun, .ok (some fun i => maskScore (hourMask a b (E.utcHour i))))
  | .timeRange rs => (sun, .ok (some fun i => maskScore (timeRangeMask rs (E.time i))))
  | .periodic a p t => (sun, .ok (some fun i => maskScore (periodicMask a p t (E.time i))))
  | .night m s => match nightEval m s E.n sun with
    | (sun', .ok f) => (sun', .ok (some f))
    | (sun', .error e) => (sun', .error e)
  | .solar cl sc a b => (sun, (E.target.elim (.error .attributeError) Ephem.separation).map fun f => some (sunScore cl sc a b E.n f))

/-- The loop over the constraints (constraints.py:1423-1433), stopping at the first exception. -/
def evalRows (E : Env) : List (ℚ × Cn) → (Nat → Option ℚ) →
    (Nat → Option ℚ) × Except Err (List (ℚ × Option (Nat → Option ℚ)))
  | [], sun => (sun, .ok [])
  | (w, c) :: cs, sun =>
    match evalOne E sun c with
    | (sun', .error e) => (sun', .error e)
    | (sun', .ok row) =>
      match evalRows E cs sun' with
      | (sun'', .error e) => (sun'', .error e)
      | (sun'', .ok rows) => (sun'', .ok ((w, row) :: rows))

/-- The scores at one slot. Used for constraints.py:1417-1447. -/
def slotRows (rows : List (ℚ × Option (Nat → Option ℚ))) (i : Nat) : List Row :=
  rows.map fun r => (r.1, r.2.map fun f => f i)

/-- `Constraints.evaluate` (constraints.py:1417-1447): the Sun elevations after the call, and the score of each slot. -/
def evaluate (E : Env) (cs : List (ℚ × Cn)) (sun : Nat → Option ℚ) :
    (Nat → Option ℚ) × Except Err (Nat → ℚ) :=
  match evalRows E cs sun with
  | (sun', .error e) => (sun', .error e)
  | (sun', .ok rows) => (sun', .ok fun i => combine (slotRows rows i))

/-- The values that the setters accept (constraints.py:218-228 for the weight, 437-445 for the elevation; `sun_elevation_max` is not checked). -/
def ValidCn (p : ℚ × Cn) : Prop :=
  0 < p.1 ∧ match p.2 with
    | .elevation m _ => 0 ≤ m ∧ m ≤ 90
    | _ => True

/-- `get_score` of a booked block for one constraint: crossing constraints give 1 when one of the slots holds a crossing (constraints.py:573-581,
651-656, 729-734); hour and time windows give `np.mean` of the scores, NaN as soon as one is NaN (854-858, 942-946, 1022-1026, 1226-1230); the others
the fraction of slots with a positive score (483-489, 1067-1075, 1269-1277). -/
def getScore (c : Cn) (score : Nat → Option ℚ) (start len : Nat) : Option ℚ :=
  match c with
  | .transit | .azimuth _ | .lst _ =>
    some (if (List.range len).any fun k => (score (start + k)).any fun v => decide (7 / 10 < v) then 1 else 0)
  | .localTime .. | .utcHour .. | .timeRange _ | .periodic .. =>
    if (List.range len).any fun k => (score (start + k)).isNone then none
    else some (((List.range len).map fun k => (score (start + k)).getD 0).sum / len)
  | _ => some ((((List.range len).filter fun k => (score (start + k)).any fun v => decide (0 < v)).length : ℚ) / len)

end Verif.Cnst
