import Verif.Cal.Model

/-!
# Events crossing an event (nenupy/schedule/open_time.py)
-/

namespace Verif.Cal

/-- State of the loops: `n_before`, `n_after`, `event_crossed`. Used for open_time.py:1099-1101. -/
structure CrossSt where
  before : Nat
  after : Nat
  crossed : Bool
  deriving DecidableEq

/-- One turn of the inner loop (open_time.py:1117-1126). The `==` of events is equality of times, programmes and names here. -/
def crossStep (ev : Ev) (s : CrossSt) (o : Ev) : CrossSt :=
  if o = ev then { s with crossed := true }
  else if timeIntersection ev.b ev.e o.b o.e then
    if s.crossed then { s with after := s.after + 1 } else { s with before := s.before + 1 }
  else s

/-- The loops of `_n_intersections_event` (open_time.py:1099-1127): the calendars of the key programmes in turn, each a list of events in the
order in which they are gone through. -/
def crossings (cals : List (List Ev)) (ev : Ev) : Nat × Nat :=
  let s := cals.foldl (fun s l => l.foldl (crossStep ev) s) ⟨0, 0, false⟩
  (s.before, s.after)

/-- A `NenuCalendar` (open_time.py:598-605): its events, and the calendars of the key programmes (`kp_names` and `calendars`), `none` when
these attributes are not set. -/
structure NenuCal where
  events : List Ev
  calendars : Option (List (List Ev))

/-- The constructor (open_time.py:600-601); the one which sets the calendars is a comment (602-605). -/
def NenuCal.make (events : List Ev) : NenuCal := ⟨events, none⟩

/-- `NenuCalendar._n_intersections_event` (open_time.py:1097-1127): without calendars, line 1103 fails. -/
def NenuCal.nIntersections (c : NenuCal) (ev : Ev) : Except Err (Nat × Nat) :=
  c.calendars.elim (.error .attributeError) fun cals => .ok (crossings cals ev)

end Verif.Cal
