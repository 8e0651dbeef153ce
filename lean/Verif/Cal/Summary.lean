import Verif.Cal.Sheets

/-!
# `NenuCalendar.write_summary_csv` of `nenupy/schedule/open_time.py`

Times are in hours; `iso` is the text of a time given by astropy, to the second. Texts are lists of characters.
-/

namespace Verif.Cal

/-- An event of the calendar: bounds, project of its calendar and name. Used for open_time.py:772-792. -/
structure NEvent where
  b : ℚ
  e : ℚ
  kp : Txt
  name : Txt
  deriving DecidableEq

/-- `NenuEvent.__lt__` (open_time.py:412-413). -/
def NEvent.before (x y : NEvent) : Prop := x.b < y.e

instance : DecidableRel NEvent.before := fun x y => inferInstanceAs (Decidable (x.b < y.e))

/-- `sorted(self.events)` (open_time.py:763), by insertion. -/
def orderEvents (l : List NEvent) : List NEvent := l.insertionSort NEvent.before

/-- `os.path.basename`: what follows the last slash (open_time.py:767). -/
def baseName (s : Txt) : Txt := (s.reverse.takeWhile fun c => c ≠ '/').reverse

/-- `os.path.join` with a second part without slash (open_time.py:767, 769). -/
def joinPath (path name : Txt) : Txt := if path = [] ∨ path.getLast? = some '/' then path ++ name else path ++ '/' :: name

/-- The name of the file (open_time.py:765-769). -/
def summaryName (path filename : Txt) : Except Err Txt :=
  if filename ≠ [] then
    if ".csv".toList.isSuffixOf filename then .ok (joinPath path (baseName filename)) else .error .assertion
  else .ok (joinPath path "calendar_summary.csv".toList)

/-- First line (open_time.py:772). -/
def summaryHeader : Txt := "start_iso,stop_iso,kp_code,name".toList

/-- The line of an event (open_time.py:773-790). -/
def summaryLine (iso : ℚ → Txt) (x : NEvent) : Except Err Txt :=
  (kpSearch x.name).elim (.error .exception) fun k =>
    if k ≠ x.kp then .error .exception else .ok (iso x.b ++ ',' :: (iso x.e ++ ',' :: (k ++ ',' :: x.name)))

/-- The loop over the events (open_time.py:773-790): the lines written, and the exception if any. -/
def summaryLoop (iso : ℚ → Txt) : List NEvent → List Txt × Option Err
  | [] => ([], none)
  | x :: r => (summaryLine iso x).casesOn (fun e => ([], some e)) fun l => (l :: (summaryLoop iso r).1, (summaryLoop iso r).2)

/-- `write_summary_csv` (open_time.py:753-792): the name of the file, its lines, and the exception if any. -/
def writeSummary (iso : ℚ → Txt) (path filename : Txt) (events : List NEvent) : Except Err (Txt × List Txt × Option Err) :=
  (summaryName path filename).map fun n => (n, summaryHeader :: (summaryLoop iso (orderEvents events)).1, (summaryLoop iso (orderEvents events)).2)

end Verif.Cal
