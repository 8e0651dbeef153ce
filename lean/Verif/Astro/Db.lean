import Verif.Common.Prelude

/-!
# Queries of the observation database (nenupy/observation/tapdatabase.py)

Times are modified Julian days, frequencies MHz, angles degrees; conditions are kept as values instead of texts.
-/

namespace Verif.Astro

/-- Columns which can be asked for by default (tapdatabase.py:160-169, 429-438). -/
def defaultMeta : List String :=
  ["target_name", "obs_creator_did", "s_ra", "s_dec", "t_min", "t_max", "em_min", "em_max"]

/-- A part of the `WHERE` clause. Used for tapdatabase.py:370-382. -/
inductive Cond
  /-- `(t_min >= a AND t_max <= b)` (tapdatabase.py:251-252). -/
  | time (a b : ℚ)
  /-- `(em_min >= a AND em_max <= b)` (tapdatabase.py:293-294). -/
  | freq (a b : ℚ)
  /-- `1 = CONTAINS(POINT('ICRS', s_ra, s_dec), CIRCLE('ICRS', ra, dec, radius))` (tapdatabase.py:361-363). -/
  | pos (ra dec radius : ℚ)
deriving DecidableEq

/-- Attributes of `ObsDatabase`. Used for tapdatabase.py:200-216. -/
structure Db where
  names : List String
  timeRange : Option (ℚ × ℚ)
  freqRange : Option (ℚ × ℚ)
  radius : ℚ
  center : Option (ℚ × ℚ)
  condTime : Option Cond
  condFreq : Option Cond
  condPos : Option Cond
deriving DecidableEq

/-- What is assigned to an interval: `[None, None]`, a list of two values (each may be unreadable), a list of another length, or no list. Used for tapdatabase.py:241-250, 281-290. -/
inductive RangeArg
  | nones
  | pair (a b : Option ℚ)
  | listOf (n : Nat)
  | other
deriving DecidableEq

/-- What is assigned to the centre. Used for tapdatabase.py:346-366. -/
inductive CenterArg
  | none
  | coord (ra dec : ℚ)
  | coords
  | other
deriving DecidableEq

/-- What is assigned to the radius: `None`, a number or quantity, an array. Used for tapdatabase.py:316-327. -/
inductive RadiusArg
  | none
  | value (r : ℚ)
  | array
deriving DecidableEq

/-- Wavelength in metres of a frequency in MHz (the speed of light over it). Used for tapdatabase.py:275-297. -/
def wavelengthOf (f : ℚ) : ℚ := 299792458 / 1000000 / f

/-- Checks of the two interval setters (tapdatabase.py:241-250, 281-290): `bad` is what unreadable values raise. -/
def checkRange (bad : Err) : RangeArg → Except Err (Option (ℚ × ℚ))
  | .nones => .ok none
  | .pair (some a) (some b) => .ok (some (a, b))
  | .pair _ _ => .error bad
  | .listOf _ => .error .valueError
  | .other => .error .typeError

/-- `meta_names.setter` (tapdatabase.py:200-216); `known`: the columns of the table; `none`: not a list. -/
def setMeta (known : List String) (d : Db) : Option (List String) → Db × Except Err Unit
  | none => (d, .error .typeError)
  | some m => if m.any (fun x => !known.contains x) then (d, .error .valueError) else ({ d with names := m }, .ok ())

/-- `time_range.setter` (tapdatabase.py:235-255). -/
def setTimeRange (d : Db) (x : RangeArg) : Db × Except Err Unit :=
  match checkRange .valueError x with
  | .error e => (d, .error e)
  | .ok none => ({ d with condTime := none, timeRange := none }, .ok ())
  | .ok (some (a, b)) => ({ d with condTime := some (.time a b), timeRange := some (a, b) }, .ok ())

/-- `freq_range.setter` (tapdatabase.py:275-297). -/
def setFreqRange (d : Db) (x : RangeArg) : Db × Except Err Unit :=
  match checkRange .typeError x with
  | .error e => (d, .error e)
  | .ok none => ({ d with condFreq := none, freqRange := none }, .ok ())
  | .ok (some (a, b)) => ({ d with condFreq := some (.freq (wavelengthOf b) (wavelengthOf a)), freqRange := some (a, b) }, .ok ())

/-- `fov_radius.setter` (tapdatabase.py:316-327): the condition on the position is not updated. -/
def setRadius (d : Db) : RadiusArg → Db × Except Err Unit
  | .none => ({ d with radius := 180 }, .ok ())
  | .value r => ({ d with radius := r }, .ok ())
  | .array => (d, .error .valueError)

/-- `fov_center.setter` (tapdatabase.py:346-366). -/
def setCenter (d : Db) : CenterArg → Db × Except Err Unit
  | .none => ({ d with condPos := none, center := none }, .ok ())
  | .coord ra dec => ({ d with condPos := some (.pos ra dec d.radius), center := some (ra, dec) }, .ok ())
  | .coords => (d, .error .valueError)
  | .other => (d, .error .typeError)

/-- A new object (tapdatabase.py:155-178). -/
def Db.new : Db := ⟨defaultMeta, none, none, 180, none, none, none, none⟩

/-- `reset` (tapdatabase.py:426-446), as assignments one after the other. -/
def dbReset (known : List String) (d : Db) : Db :=
  (setCenter (setRadius (setFreqRange (setTimeRange (setMeta known d (some defaultMeta)).1 .nones).1 .nones).1 (.value 180)).1 .none).1

/-- `conditions` (tapdatabase.py:370-382): those which are set, in this order. -/
def Db.conditions (d : Db) : List Cond := [d.condTime, d.condFreq, d.condPos].filterMap id

/-- `search` (tapdatabase.py:403-423): columns and conditions of the query sent. -/
def dbSearch (d : Db) : Except Err (List String × List Cond) :=
  if d.conditions = [] then .error .valueError else .ok (d.names, d.conditions)

/-- One use of the object. Used for tapdatabase.py:200-366, 426-446. -/
inductive DbOp
  | names (m : Option (List String))
  | time (x : RangeArg)
  | freq (x : RangeArg)
  | radius (x : RadiusArg)
  | center (x : CenterArg)
  | reset
deriving DecidableEq

/-- Exceptions are caught by the caller. Used for tapdatabase.py:200-366, 426-446. -/
def DbOp.step (known : List String) (d : Db) : DbOp → Db
  | .names m => (setMeta known d m).1
  | .time x => (setTimeRange d x).1
  | .freq x => (setFreqRange d x).1
  | .radius x => (setRadius d x).1
  | .center x => (setCenter d x).1
  | .reset => dbReset known d

end Verif.Astro
