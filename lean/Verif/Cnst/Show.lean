import Verif.Cnst.Model
import Verif.Parset.Text

/-!
# Model of what the drawing of a block tells: programme, title, status and path (nenupy/schedule/obsblocks.py and schedule.py)

Characters are those of ASCII where cases are changed. Left out: sizes and places of texts, and azimuths and elevations, which are those
of the target at the times given here.
-/

namespace Verif.Cnst

open Verif.Parset (Str natStr)

/-- Code, name and colour of the programmes (obsblocks.py:43-189). -/
def programmeTable : List (String × String × String) :=
  [("es00", "Comissioning", "#7DCEA0"), ("es01", "Cosmic Dawn", "#825A2C"), ("es02", "Exoplanets and stars", "#87794E"),
    ("es03", "Pulsars", "#3F729C"), ("es04", "Transients", "#8800CC"), ("es05", "Fast Radio Bursts", "#00ABA9"),
    ("es06", "Planetary Lightning", "#D80073"), ("es07", "Jupiter", "#B8860B"), ("es08", "Galaxy clusters and AGNs", "#0050EF"),
    ("es09", "Cluster filament and cosmic magnetism", "#CC66FF"), ("es10", "Recombination Lines", "#FA6800"), ("es11", "Sun", "#008A00"),
    ("es12", "Radio Gamma", "#A20025"), ("es13", "SETI", "#F4A460"), ("es14", "Cas A", "#517A7A"), ("es15", "Large Survey", "#6699FF"),
    ("es16", "LOFAR-NenuFAR", "#708D23"), ("es17", "Radio-Amateurs", "#424242"), ("lt00", "Comissioning", "#7DCEA0"),
    ("lt01", "Cosmic Dawn", "#825A2C"), ("lt02", "Exoplanets and stars", "#87794E"), ("lt03", "Pulsars", "#3F729C"),
    ("lt04", "Transients", "#8800CC"), ("lt05", "Fast Radio Bursts", "#00ABA9"), ("lt06", "Planetary Lightning", "#D80073"),
    ("lt07", "Jupiter joint studies", "#B8860B"), ("lt09", "Galaxies", "#CC66FF"), ("lt10", "Recombination Lines", "#FA6800"),
    ("lt11", "Sun", "#008A00"), ("lt12", "Radio Gamma", "#A20025"), ("lt13", "SETI", "#F4A460"),
    ("rp1a", "Faraday tomography of 3C196 field", "#000000"), ("rp1b", "NenuFAR Low-Frequency Sky Survey", "#6699FF"),
    ("rp1c", "Free-free absorption in Cassiopeia A", "#517A7A"), ("sp16", "Student training", "#708D23"), ("sp17", "Radio-Amateurs", "#424242")]

/-- `KPS` (obsblocks.py:43-189). -/
def programmes : List (Str × Str × Str) := programmeTable.map fun p => (p.1.toList, p.2.1.toList, p.2.2.toList)

/-- `str.lower`. Used for obsblocks.py:383. -/
def lowerStr (s : Str) : Str := s.map Char.toLower

/-- `str.upper`. Used for obsblocks.py:434. -/
def upperStr (s : Str) : Str := s.map Char.toUpper

/-- Setter of `program` (obsblocks.py:381-385, 549-558). -/
def setProgramme (p : Str) : Except Err Str := if (programmes.lookup (lowerStr p)).isSome then .ok (lowerStr p) else .error .keyError

/-- `kpColor` (obsblocks.py:420-424). -/
def colourOf (pg : Str) : Except Err Str := (programmes.lookup pg).elim (.error .keyError) fun q => .ok q.2

/-- `title` (obsblocks.py:427-439). -/
def titleOf (idx : Nat) (pg name : Str) : Except Err Str :=
  (programmes.lookup pg).elim (.error .keyError) fun q =>
    .ok ("ID: ".toList ++ natStr idx ++ '\n' :: ((upperStr pg ++ " - ".toList ++ q.1).take 23 ++ '\n' :: name.take 23))

/-- `STATUS` (schedule.py:59-63). -/
inductive Status
  | good
  | medium
  | bad
  deriving DecidableEq, Repr

/-- `statusColor` for a score (schedule.py:153-164). -/
def statusOf (x : ℚ) : Status := if 0 ≤ x ∧ x < 1 / 2 then .bad else if 1 / 2 ≤ x ∧ x < 4 / 5 then .medium else if 4 / 5 ≤ x ∧ x ≤ 1 then .good else .bad

/-- `score` (schedule.py:134-150): 0 for a block which is not booked (`none`). -/
def shownScore (rows : Option (List Row)) : Except Err ℚ := rows.elim (.ok 0) blockScore

/-- `statusColor` (schedule.py:153-164). -/
def blockStatus (rows : Option (List Row)) : Except Err Status := (shownScore rows).map statusOf

/-- The times at which `ScheduleBlock.plot` computes the path of the target (schedule.py:211-222), for a positive number of points; `none`: it is not booked. -/
def pathTimes (booked : Option (ℚ × ℚ)) (nPoints : Nat) : Option (List ℚ) :=
  booked.map fun b => (List.range (nPoints + 1)).map fun i : Nat => b.1 + (i : ℚ) * ((b.2 - b.1) / (nPoints : ℚ))

end Verif.Cnst
