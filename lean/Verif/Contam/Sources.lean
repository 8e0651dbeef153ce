import Verif.Contam.Model

/-!
# Where the sources of a contamination map are (nenupy/schedule/contamination.py)

Names and texts are lists of characters, cases are those of ASCII letters. The ephemerides, the change from the local sky to the celestial one, the
resolution of names and `float` are parameters.
-/

namespace Verif.Contam

/-- A text. Used for contamination.py:557. -/
abbrev Txt := List Char

/-- Right ascension and declination in degrees. Used for contamination.py:572-573. -/
abbrev Pos := ℚ × ℚ

/-- What other packages answer: `solar_system_source`, the transformation to ICRS of an azimuth and an altitude, `SkyCoord.from_name` (no answer: an exception) and
`float` (no answer: `ValueError`). The index is that of the time. Used for contamination.py:576-589, astro_tools.py:90-138. -/
structure Lib where
  body : Txt → Nat → Pos
  fromLocal : ℚ → ℚ → Nat → Pos
  named : Txt → Option Pos
  float : Txt → Option ℚ

/-- `SolarSystemSource._member_names_` (astro_tools.py:68-79). -/
def bodies : List Txt :=
  ["SUN".toList, "MOON".toList, "MERCURY".toList, "VENUS".toList, "MARS".toList, "JUPITER".toList, "SATURN".toList, "URANUS".toList, "NEPTUNE".toList]

/-- `.replace("(", "").replace(")", "")` (contamination.py:581). -/
def unbracket (s : Txt) : Txt := (s.filter fun c => decide (c ≠ '(')).filter fun c => decide (c ≠ ')')

/-- `az, alt = ….split(",")`: two parts, so one comma (contamination.py:581). -/
def twoParts (s : Txt) : Except Err (Txt × Txt) :=
  if s.count ',' = 1 then .ok (s.takeWhile (fun c => decide (c ≠ ',')), (s.dropWhile fun c => decide (c ≠ ',')).drop 1) else .error .valueError

/-- `float` (contamination.py:582). -/
def readNum (L : Lib) (s : Txt) : Except Err ℚ := (L.float s).elim (.error .valueError) .ok

/-- A latitude is between -90 and 90 degrees: astropy raises otherwise. Used for contamination.py:582. -/
def latitude (y : ℚ) : Except Err ℚ := if -90 ≤ y ∧ y ≤ 90 then .ok y else .error .valueError

/-- A source given by its azimuth and altitude (contamination.py:580-585). -/
def localPos (L : Lib) (s : Txt) : Except Err (Nat → Pos) :=
  (twoParts (unbracket (s.drop 6))).bind fun p =>
    (readNum L p.1).bind fun az => (readNum L p.2).bind fun alt => (latitude alt).map fun y => L.fromLocal az y

/-- The position of one source, by time (contamination.py:575-589). -/
def sourcePos (L : Lib) (s : Txt) : Except Err (Nat → Pos) :=
  if s.map Char.toUpper ∈ bodies then .ok (L.body s)
  else if "altaz:".toList.isPrefixOf (s.map Char.toLower) then localPos L s
  else (L.named s).elim (.error .exception) fun p => .ok fun _ => p

/-- `_get_skycoord_array` (contamination.py:557-590): one row per source, in their order. -/
def skyCoords (L : Lib) : List Txt → Except Err (List (Nat → Pos))
  | [] => .ok []
  | s :: l => (sourcePos L s).bind fun p => (skyCoords L l).map fun r => p :: r

/-- `sources_in_lobes` (contamination.py:451-482), from names; `cellOf` is the cell of order 5 which holds a position. Positions come first: a refused name leaves the
object as it was. -/
def namesInLobes (L : Lib) (cellOf : Pos → Nat) (b : Beam) (names : List Txt) : Beam × Except Err Sil :=
  (skyCoords L names).casesOn (fun e => (b, .error e)) fun ps => sourcesInLobes b (ps.map fun (p : Nat → Pos) => fun (t : Nat) => cellOf (p t))

/-- `compute_weight_moc` (contamination.py:340-370), from names. -/
def weightsOfNames (L : Lib) (cellOf : Pos → Nat) (b : Beam) (names : List Txt) (thrs : List ℚ) : Except Err (Beam × Sil) :=
  (skyCoords L names).bind fun ps => computeWeights b (ps.map fun (p : Nat → Pos) => fun (t : Nat) => cellOf (p t)) thrs

end Verif.Contam
