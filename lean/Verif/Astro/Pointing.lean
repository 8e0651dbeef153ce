import Verif.Common.Prelude
import Mathlib.Algebra.Order.Floor.Ring
import Mathlib.Algebra.Order.Ring.Rat
import Mathlib.Data.Rat.Floor

/-!
# Pointings (nenupy/astro/pointing.py)

Times are rational numbers of seconds. Directions are values of any type `D`: the conversions between horizontal and equatorial
coordinates are not part of this model (see `Verif.Geom`). `none` stands for the zenith.
-/

namespace Verif.Astro

/-- `Pointing` (pointing.py:102-111); `one`: a scalar coordinate, repeated for each time. -/
inductive Dirs (D : Type) where
  | one (d : D)
  | many (ds : List D)

/-- Used for pointing.py:102-111, 281-294. -/
structure Pointing (D : Type) where
  dirs : Dirs D
  time : List ℚ
  dur : List ℚ

/-- The constructor, with the check of the durations (pointing.py:102-111, 281-294); no duration: one second. -/
def mkPointing {D : Type} (dirs : Dirs D) (time : List ℚ) (dur : Option (List ℚ)) : Except Err (Pointing D) :=
  if dur.any fun d => decide (d.length ≠ 1) && decide (d.length ≠ time.length) then .error .indexError
  else .ok ⟨dirs, time, dur.getD [1]⟩

/-- Duration number `i`: a single one is repeated (pointing.py:121). -/
def Pointing.durOf {D : Type} (p : Pointing D) (i : Nat) : ℚ := if p.dur.length = 1 then p.dur.headD 0 else p.dur.getD i 0

/-- `mask` (pointing.py:144): ranks of the intervals which hold `t`. -/
def Pointing.hits {D : Type} (p : Pointing D) (t : ℚ) : List Nat :=
  (List.range p.time.length).filter fun i => decide (p.time.getD i 0 ≤ t) && decide (t < p.time.getD i 0 + p.durOf i)

/-- Directions repeated for each time if needed (pointing.py:126-134). -/
def Pointing.dirList {D : Type} (p : Pointing D) : List D :=
  match p.dirs with
  | .one d => List.replicate p.time.length d
  | .many ds => ds

/-- Direction at time `t` (pointing.py:142-168): the last match, else the zenith; a mask of another length than the directions fails. -/
def Pointing.at {D : Type} (p : Pointing D) (t : ℚ) : Except Err (Option D) :=
  match (p.hits t).getLast? with
  | none => .ok none
  | some i => if p.dirList.length = p.time.length then .ok p.dirList[i]? else .error .indexError

/-- Intervals between consecutive times. Used for pointing.py:557-566. -/
def diffs : List ℚ → List ℚ
  | a :: b :: l => (b - a) :: diffs (b :: l)
  | _ => []

/-- Rows of a pointing file for one beam (pointing.py:507-508, 577-578). -/
def beamRows {D : Type} (rows : List (ℚ × Nat × D)) (beam : Nat) : List (ℚ × D) :=
  (rows.filter fun r => decide (r.2.1 = beam)).map fun r => (r.1, r.2.2)

/-- Rows with the extra one of single rows (pointing.py:551-555). -/
def padRows {D : Type} (zenith : D) (rows : List (ℚ × D)) : List (ℚ × D) :=
  match rows with
  | [r] => [r, (r.1 + 1, zenith)]
  | rows => rows

/-- Pointing made of rows, the last one being only an end (pointing.py:557-566). -/
def closedRows {D : Type} (rows : List (ℚ × D)) : Except Err (Pointing D) :=
  mkPointing (.many (rows.map Prod.snd).dropLast) (rows.map Prod.fst).dropLast (some (diffs (rows.map Prod.fst)))

/-- `from_file` for analog beams (pointing.py:496-566, 598-605). -/
def fromAltazA {D : Type} (zenith : D) (rows : List (ℚ × Nat × D)) (beam : Nat) : Except Err (Pointing D) :=
  if (beamRows rows beam).isEmpty then .error .valueError else closedRows (padRows zenith (beamRows rows beam))

/-- `duration.insert(-1, 10 s)` (pointing.py:587): before the last item; on an empty array the index is out of bounds. -/
def insertBeforeLast (x : ℚ) (l : List ℚ) : Except Err (List ℚ) :=
  match l.getLast? with
  | none => .error .indexError
  | some y => .ok (l.dropLast ++ [x, y])

/-- `from_file` for digital beams (pointing.py:567-605). -/
def fromAltazB {D : Type} (rows : List (ℚ × Nat × D)) (beam : Nat) : Except Err (Pointing D) :=
  if (beamRows rows beam).isEmpty then .error .valueError
  else
    (insertBeforeLast 10 (diffs ((beamRows rows beam).map Prod.fst))).bind fun d =>
      mkPointing (.many ((beamRows rows beam).map Prod.snd)) ((beamRows rows beam).map Prod.fst) (some d)

/-- `np.interp` of increasing abscissas. Used for pointing.py:425-435. -/
def interp (xs ys : List ℚ) (x : ℚ) : ℚ :=
  let i := ((List.range xs.length).filter fun i => decide (xs.getD i 0 ≤ x)).getLastD 0
  if i + 1 < xs.length then
    ys.getD i 0 + (ys.getD (i + 1) 0 - ys.getD i 0) * (x - xs.getD i 0) / (xs.getD (i + 1) 0 - xs.getD i 0)
  else ys.getD i 0

/-- `np.linspace` with both ends. Used for pointing.py:425-435. -/
def linspace (a b : ℚ) (n : Nat) : List ℚ := (List.range n).map fun i : Nat => a + (i : ℚ) * (b - a) / ((n : ℚ) - 1)

/-- Times, azimuths and elevations used by `from_bst` (pointing.py:425-435); `last`: last time of the data. -/
def bstTrack (time az el : List ℚ) (last : ℚ) (maxPoints : Nat) : List ℚ × List ℚ × List ℚ :=
  if time.length = 1 then (time ++ [last], az ++ [0], el ++ [90])
  else if maxPoints < time.length then
    let xs := linspace (time.headD 0) (time.getLastD 0) maxPoints
    (xs, xs.map (interp time az), xs.map (interp time el))
  else (time, az, el)

/-- `from_bst` (pointing.py:418-453). -/
def fromBst (time az el : List ℚ) (last : ℚ) (maxPoints : Nat) : Except Err (Pointing (ℚ × ℚ)) :=
  let tr := bstTrack time az el last maxPoints
  closedRows (tr.1.zip (tr.2.1.zip tr.2.2))

/-- Number of steps of `target_transit` (pointing.py:741-742). -/
def transitSteps (duration dt : ℚ) : Nat :=
  let n := ⌊duration / dt⌋.toNat
  if n % 2 = 0 then n + 1 else n

/-- `target_transit` (pointing.py:728-762): `transits`: times when the target crosses the azimuth. -/
def targetTransit {D : Type} (transits : List ℚ) (dir : D) (duration dt : ℚ) : Except Err (Pointing D) :=
  match transits with
  | [] => .error .valueError
  | t :: _ =>
    let n := transitSteps duration dt
    let times := (List.range n).map fun k : Nat => t + ((k : ℚ) - ((n : ℚ) - 1) / 2) * dt
    mkPointing (.many (List.replicate n dir)) times (some [dt])

end Verif.Astro
