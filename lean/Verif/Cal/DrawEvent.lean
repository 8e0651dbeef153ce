import Verif.Cal.Sheets

/-!
# Drawing of an event on the lines of a calendar, and clicks on it (`nenupy/schedule/open_time.py`, `NenuEvent`)

Times are numbers, as on the axis of a line. The whole height of a line goes from 0 to 1; colours other than those of the selection, fonts
and the refreshing of the figure are left out.
-/

namespace Verif.Cal

/-- Pieces of `k` characters: `text[i:i+k] for i in range(0, len(text), k)` (open_time.py:486). -/
def textPieces (k : Nat) : Nat → List Char → List (List Char)
  | 0, _ => []
  | fuel + 1, s => if s = [] then [] else s.take k :: textPieces k fuel (s.drop k)

/-- The title of an event (open_time.py:480-486); `range` refuses a step of zero. -/
def eventTitle (name : List Char) (size : Option Nat) : Except Err (List Char) :=
  size.elim (.ok name) fun k =>
    if name.map Char.toLower = "filler".toList ∨ name.map Char.toLower = "filer".toList then .ok "LT02 Filler time".toList
    else if k = 0 then .error .valueError
    else .ok (['\n'].intercalate (textPieces k name.length name))

/-- Where the title is written (open_time.py:489). -/
def middleOf (x : Slot) : ℚ := x.b + (x.e - x.b) / 2

/-- What is drawn of an event: bounds of its box, and place of its title. Used for open_time.py:398-405. -/
structure Drawn where
  box : Option (ℚ × ℚ)
  text : Option ℚ
  deriving DecidableEq

/-- `draw` (open_time.py:466-503) on a line from `x0` to `x1`: the box is always drawn, the title if the middle is on the line; the event
keeps the last of them. -/
def drawEvent (x : Slot) (x0 x1 : ℚ) (s : Drawn) : Drawn :=
  ⟨some (x.b, x.e), if x0 ≤ middleOf x ∧ middleOf x < x1 then some (middleOf x) else s.text⟩

/-- Whether the title is written on a line of the page of a month (open_time.py:491-503, 948-958). -/
def titledOn (month : ℚ → Int) (x : Slot) (page : Int) (d0 d1 : ℚ) : Bool :=
  drawnOn month x.b x.e page d0 d1 && decide (d0 ≤ middleOf x ∧ middleOf x < d1)

/-- `connect_to_plot_events` (open_time.py:441-447): an event has to be drawn before. -/
def connect (s : Drawn) : Except Err Unit := if s.box = none then .error .exception else .ok ()

/-- A click: its place if it is on a line. Used for open_time.py:535. -/
abbrev Click := Option (ℚ × ℚ)

/-- `contains` (open_time.py:436-439) for a box over the whole height. -/
def boxContains (b : ℚ × ℚ) (p : ℚ × ℚ) : Bool := decide (b.1 ≤ p.1 ∧ p.1 ≤ b.2 ∧ 0 ≤ p.2 ∧ p.2 ≤ 1)

/-- Selection of an event, and whether it is grey. Used for open_time.py:531-548. -/
structure Marked where
  selected : Bool
  grey : Bool
  deriving DecidableEq

/-- `_on_click` (open_time.py:531-548) on an event drawn in a box. -/
def onClick (b : ℚ × ℚ) (s : Marked) (c : Click) : Marked :=
  c.elim s fun p =>
    if boxContains b p = false then (if s.selected then ⟨false, false⟩ else s) else ⟨true, true⟩

/-- A click reaches all the events which are connected. Used for open_time.py:441-447. -/
def clickAll (l : List ((ℚ × ℚ) × Marked)) (c : Click) : List ((ℚ × ℚ) × Marked) := l.map fun x => (x.1, onClick x.1 x.2 c)

end Verif.Cal
