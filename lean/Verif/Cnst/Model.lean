import Verif.Common.Prelude

/-!
# Model of observation constraints: `nenupy/schedule/constraints.py`

Arrays over time slots are functions on `Nat`, used below the number of slots `n`. A NaN is `none`.
-/

namespace Verif.Cnst

/-- Division by an element that numpy may find to be zero: `0/0` is NaN. (`x/0` with `x ≠ 0` would be infinite; it is `none` here as well.) Used for constraints.py:494-531. -/
def npDiv (x y : ℚ) : Option ℚ := if y = 0 then none else some (x / y)

/-- `np.nanmax` over the first `n` entries, `none` when all are NaN. Used for constraints.py:494-531. -/
def nanmax (f : Nat → Option ℚ) : Nat → Option ℚ
  | 0 => none
  | n + 1 => match nanmax f n, f n with
    | none, x => x
    | some a, none => some a
    | some a, some b => some (max a b)

/-- `np.nanmin`. Used for constraints.py:1080-1097. -/
def nanmin (f : Nat → Option ℚ) : Nat → Option ℚ
  | 0 => none
  | n + 1 => match nanmin f n, f n with
    | none, x => x
    | some a, none => some a
    | some a, some b => some (min a b)

/-! ## Individual constraints -/

/-- `elevMean` after masking (constraints.py:510-513). `elev` has one more entry than there are slots. -/
def elevMean (elevMin : ℚ) (elev : Nat → ℚ) (i : Nat) : Option ℚ :=
  if (elev (i + 1) + elev i) / 2 ≤ elevMin then none else some ((elev (i + 1) + elev i) / 2)

/-- `ElevationCnst._evaluate` (constraints.py:494-531). When everything is NaN the score is NaN everywhere. -/
def elevScore (elevMin : ℚ) (scale : Bool) (n : Nat) (elev : Nat → ℚ) (i : Nat) : Option ℚ :=
  match nanmax (elevMean elevMin elev) n with
  | none => none
  | some m =>
    match elevMean elevMin elev i with
    | none => none
    | some e => if scale then npDiv e m else npDiv e e

/-- `elevationMin` setter (constraints.py:437-445). -/
def setElevMin (e : ℚ) : Except Err ℚ := if e < 0 ∨ 90 < e then .error .valueError else .ok e

/-- `Constraint.weight` setter (constraints.py:218-228). -/
def setWeight (w : ℚ) : Except Err ℚ := if w ≤ 0 then .error .valueError else .ok w

/-- Slots around the crossing slots `hit k` get 0.5, crossing slots get 1, other slots 0 (constraints.py:593-612, 684-709, 758-783):
slot `i` is a neighbour of `k` when `i = k + d - nslots // 2` for some `d < nslots`. -/
def crossScore (n nslots : Nat) (hit : Nat → Bool) (i : Nat) : ℚ :=
  if hit i then 1
  else if (List.range n).any fun k => hit k && (List.range nslots).any fun d => decide (i + nslots / 2 = k + d) then 1 / 2
  else 0

/-- `MeridianTransitCnst._evaluate` (constraints.py:586-613): the hour angle decreases between the start of slot `i` and its end. -/
def transitHit (ha : Nat → ℚ) (i : Nat) : Bool := decide (ha (i + 1) - ha i < 0)

/-- Azimuth crossing, target which is not circumpolar (constraints.py:681-682). -/
def azHit (az : ℚ) (azim : Nat → ℚ) (i : Nat) : Bool := decide (azim i ≤ az) && decide (az ≤ azim (i + 1))

/-- `np.angle(cos x + 1j sin x)` in degrees: the representative in `(-180, 180]`, for `0 ≤ x ≤ 360`. Used for constraints.py:667-679. -/
def angle180 (x : ℚ) : ℚ := if x ≤ 180 then x else x - 360

/-- Azimuth crossing, circumpolar target (constraints.py:667-679). -/
def azHitCircum (az : ℚ) (azim : Nat → ℚ) (i : Nat) : Bool :=
  (decide (angle180 (azim i) ≤ angle180 az) && decide (angle180 az ≤ angle180 (azim (i + 1)))) ||
  (decide (angle180 az ≤ angle180 (azim i)) && decide (angle180 (azim (i + 1)) ≤ angle180 az))

/-- `(x - 180).wrap_at('360d')` for `0 ≤ x < 360`. Used for constraints.py:744-755. -/
def wrap180 (x : ℚ) : ℚ := if x < 180 then x + 180 else x - 180

/-- Sidereal time crossing (constraints.py:744-755), in degrees. -/
def lstHit (lst : ℚ) (l : Nat → ℚ) (i : Nat) : Bool :=
  if l (i + 1) < l i then
    decide (wrap180 (l i) ≤ wrap180 lst) && decide (wrap180 lst ≤ wrap180 (l (i + 1)))
  else decide (l i ≤ lst) && decide (lst ≤ l (i + 1))

/-- Hour window (constraints.py:882-889 and 961-968), on the hour of the start of the slot. -/
def hourMask (hMin hMax h : ℚ) : Bool :=
  if hMax < hMin then !(decide (h ≤ hMin) && decide (hMax ≤ h))
  else decide (hMin ≤ h) && decide (h ≤ hMax)

/-- `np.where(score == 0, np.nan, score)` on a mask (constraints.py:890-891, 969-970, 1046-1047, 1240-1241). -/
def maskScore (b : Bool) : Option ℚ := if b then some 1 else none

/-- `TimeRangeCnst` mask (constraints.py:1038-1045), for one or several ranges. -/
def timeRangeMask (ranges : List (ℚ × ℚ)) (t : ℚ) : Bool :=
  ranges.any fun r => decide (r.1 ≤ t) && decide (t ≤ r.2)

/-- Python's `%` for a positive divisor. Used for constraints.py:1237-1238. -/
def pyMod (x p : ℚ) : ℚ := x - p * ⌊x / p⌋

/-- `PeriodicCnst` mask (constraints.py:1237-1238). -/
def periodicMask (start period tol t : ℚ) : Bool :=
  decide (pyMod (t - start) period ≤ tol) || decide (period - tol ≤ pyMod (t - start) period)

/-- `sun_elevation[sun_elevation > self.sun_elevation_max] = np.nan` (constraints.py:1083). -/
def nightMask (sunMax : ℚ) (o : Option ℚ) : Option ℚ := o.filter fun e => !decide (sunMax < e)

/-- The score of one slot from its masked Sun elevation and the lowest elevation (constraints.py:1092-1096). -/
def nightSlot (scale : Bool) (m : ℚ) (o : Option ℚ) : Option ℚ := o.bind fun e => if scale then npDiv e m else npDiv e e

/-- `NightTimeCnst._evaluate` (constraints.py:1080-1097) on the shared array of Sun elevations: returns the new array (masked in place) and the
score, or the shape error that the caller meets when no slot qualifies: the score then has one entry too few
(1091) and `cnts[i, :] = ...` (1429) cannot broadcast it, unless the array has exactly two entries. -/
def nightEval (sunMax : ℚ) (scale : Bool) (n : Nat) (sun : Nat → Option ℚ) :
    (Nat → Option ℚ) × Except Err (Nat → Option ℚ) :=
  (fun i => nightMask sunMax (sun i),
    match nanmin (fun i => nightMask sunMax (sun i)) n with
    | none => if n = 2 then .ok (fun _ => none) else .error .valueError
    | some m => .ok fun i => nightSlot scale m (nightMask sunMax (sun i)))

/-- The separation is `<= min_separation_deg` or `> max_separation_deg`, for the bounds that are set (constraints.py:1287-1290). -/
def sunOut (sepMin sepMax : Option ℚ) (x : ℚ) : Bool :=
  (sepMin.any fun a => decide (x ≤ a)) || (sepMax.any fun b => decide (b < x))

/-- The masked separations (constraints.py:1284-1290). -/
def sunMask (sepMin sepMax : Option ℚ) (sep : Nat → ℚ) (i : Nat) : Option ℚ :=
  if sunOut sepMin sepMax (sep i) then none else some (sep i)

/-- The score before `scale`, from the largest separation `mx` (constraints.py:1309-1313). -/
def sunRaw (closer : Bool) (mx : ℚ) (n : Nat) (m : Nat → Option ℚ) (i : Nat) : Option ℚ :=
  if closer then
    (nanmax (fun k => (m k).map fun y => mx + 1 / 10 - y) n).bind fun d => (m i).bind fun x => npDiv (mx + 1 / 10 - x) d
  else (m i).bind fun x => npDiv x mx

/-- `SolarProximityCnst._evaluate` (constraints.py:1281-1319) from the separations to the Sun, in degrees. -/
def sunScore (closer scale : Bool) (sepMin sepMax : Option ℚ) (n : Nat) (sep : Nat → ℚ) (i : Nat) : Option ℚ :=
  (nanmax (sunMask sepMin sepMax sep) n).bind fun mx =>
    (sunRaw closer mx n (sunMask sepMin sepMax sep) i).map fun r => if scale then r else if 0 < r then 1 else r

/-! ## Combination -/

/-- One row for one time slot: the weight of the constraint and its score at that slot; the outer `none` is a constraint that could not be
evaluated (for instance no target), whose row stays at zero (constraints.py:1421-1433). -/
abbrev Row := ℚ × Option (Option ℚ)

/-- The entry of `cnts`: rows start at zero (constraints.py:1421) and those of unevaluated constraints stay so. -/
def entry (r : Option (Option ℚ)) : Option ℚ := r.getD (some 0)

/-- `np.average(cnts, weights=...)`, NaN replaced by 0, and 0 wherever the product is 0 (constraints.py:1440-1446), at one slot. -/
def average (vals : List (ℚ × Option ℚ)) : ℚ :=
  if vals.any fun v => v.2.isNone then 0
  else if (0 : ℚ) ∈ vals.map fun v => v.2.getD 0 then 0
  else (vals.map fun v => v.1 * v.2.getD 0).sum / (vals.map fun v => v.1).sum

/-- `Constraints.evaluate` at one slot (constraints.py:1421-1447). -/
def combine (rows : List Row) : ℚ :=
  if rows.all fun r => r.2.isNone then average (rows.map fun r => (r.1, some 1))
  else average (rows.map fun r => (r.1, entry r.2))

/-- `ScheduleBlock.score` of a booked block (schedule.py:134-150): each constraint's `get_score` on its slots, weighted; a NaN gives 0. A constraint that
was never evaluated (outer `none`) still holds the integer `1` (constraints.py:180), which cannot be indexed: `TypeError`. -/
def blockScore (rows : List Row) : Except Err ℚ :=
  if rows.any fun r => r.2.isNone then .error .typeError
  else if rows.any fun r => decide (r.2 = some none) then .ok 0
  else .ok ((rows.map fun v => v.1 * (v.2.bind id).getD 0).sum / (rows.map fun v => v.1).sum)

/-! ## The `Constraints` container -/

/-- Constraint classes that matter here; every other class is `other k`. The number is the payload (e.g. minimal elevation). Used for constraints.py:1332-1356. -/
inductive Kind
  | elevation
  | other (k : Nat)
  deriving DecidableEq, Repr

/-- A constraint: its class and a payload. Used for constraints.py:1332-1356. -/
structure C where
  kind : Kind
  val : Nat
  deriving DecidableEq, Repr

/-- A `Constraints` object: the tuple and the `_default_el` flag (constraints.py:1332-1356). -/
structure Cs where
  items : List C
  defaultEl : Bool
  deriving DecidableEq, Repr

/-- `Constraints.__init__` (constraints.py:1332-1356). -/
def mkCs (l : List C) : Except Err Cs :=
  if ¬ (l.map C.kind).Nodup then .error .valueError
  else if Kind.elevation ∈ l.map C.kind then .ok ⟨l, false⟩
  else .ok ⟨l ++ [⟨.elevation, 0⟩], true⟩

/-- `Constraints.__add__` (constraints.py:1359-1379): the left operand after the call, and the result. -/
def addCs (self : Cs) (o : C) : Cs × Except Err Cs :=
  let self' : Cs :=
    if o.kind = .elevation ∧ self.defaultEl then
      ⟨self.items.eraseP fun c => decide (c.kind = .elevation), false⟩
    else self
  (self', match mkCs (self'.items ++ [o]) with
    | .error e => .error e
    | .ok r => .ok ⟨r.items, self'.defaultEl⟩)

/-! ## UTC to local hours -/

/-- UTC offset in hours used by `LocalTimeCnst` (constraints.py:870-875) around the spring transition, which happens at hour `1` UTC (hour 2 local) of
the day: `tz.localize` is applied to the UTC date and time as if it were local time, so that the change is only seen from hour 3 on
(hours 2 to 3 do not exist locally and count as winter time). -/
def usedOffset (utcHour : ℚ) : ℚ := if utcHour < 3 then 1 else 2

/-- The offset in force in Paris that day. Used for constraints.py:865-880. -/
def trueOffset (utcHour : ℚ) : ℚ := if utcHour < 1 then 1 else 2

end Verif.Cnst
