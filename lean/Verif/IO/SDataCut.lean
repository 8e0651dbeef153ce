import Verif.IO.Slices
import Verif.TF.Flatten

/-!
# Parts and median profiles of a data set (nenupy/beamlet/sdata.py)

Values are rationals without missing ones. Times are in seconds and frequencies in MHz. The rounding of a
time written as text is a parameter.
-/

namespace Verif.IO

open Verif.TF (median)

/-- `slice(start, stop, step)`. Used for sdata.py:334-347. -/
structure PySlice where
  start : Option Int
  stop : Option Int
  step : Option Int

/-- The step, 1 if there is none. Used for sdata.py:343-346. -/
def PySlice.stride (s : PySlice) : Int := s.step.getD 1

/-- A bound of a slice with a positive step on an axis of `n` items, as Python clips it. Used for
sdata.py:343-346. -/
def clipUp (n : Nat) (x : Int) : Int := if x < 0 then max (x + n) 0 else min x n

/-- A bound of a slice with a negative step on an axis of `n` items, as Python clips it. Used for
sdata.py:343-346. -/
def clipDown (n : Nat) (x : Int) : Int := if x < 0 then max (x + n) (-1) else min x (n - 1)

/-- The first item of a slice. Used for sdata.py:343-346. -/
def PySlice.first (s : PySlice) (n : Nat) : Int :=
  if 0 < s.stride then (s.start.map (clipUp n)).getD 0 else (s.start.map (clipDown n)).getD (n - 1)

/-- Where a slice stops. Used for sdata.py:343-346. -/
def PySlice.last (s : PySlice) (n : Nat) : Int :=
  if 0 < s.stride then (s.stop.map (clipUp n)).getD n else (s.stop.map (clipDown n)).getD (-1)

/-- Number of items of a slice. Used for sdata.py:343-346. -/
def PySlice.count (s : PySlice) (n : Nat) : Nat :=
  if 0 < s.stride then ((s.last n - s.first n + s.stride - 1) / s.stride).toNat
  else ((s.first n - s.last n - s.stride - 1) / (-s.stride)).toNat

/-- The items of a slice of an axis of `n` items; a step of 0 is refused. Used for sdata.py:343-346. -/
def PySlice.ranks (s : PySlice) (n : Nat) : Except Err (List Nat) :=
  if s.stride = 0 then .error .valueError
  else .ok ((List.range (s.count n)).map fun k : Nat => (s.first n + k * s.stride).toNat)

/-- The items of given ranks. Used for sdata.py:343-346. -/
def takeRanks {α : Type} (l : List α) (r : List Nat) : List α := r.filterMap fun i => l[i]?

/-- The part of a data set for three slices (sdata.py:342-347). -/
def SData.part (s : SData) (a b c : PySlice) : Except Err SData :=
  (a.ranks s.time.length).bind fun i =>
    (b.ranks s.freq.length).bind fun j =>
      (c.ranks s.polar.length).bind fun k =>
        mkSData (takeRanks s.time i) (takeRanks s.freq j) (takeRanks s.polar k)
          ((takeRanks s.data i).map fun row : List (List ℚ) => (takeRanks row j).map fun cell : List ℚ => takeRanks cell k)

/-- What stands between the brackets; an item of a tuple is a slice or something else. Used for
sdata.py:337-341. -/
inductive CutArg where
  | tuple (l : List (Option PySlice))
  | other

/-- The three slices of a tuple (sdata.py:337-341). -/
def CutArg.slices : CutArg → Option (PySlice × PySlice × PySlice)
  | .tuple [some a, some b, some c] => some (a, b, c)
  | _ => none

/-- `SData.__getitem__` (sdata.py:334-347). -/
def SData.item (s : SData) (x : CutArg) : Except Err SData :=
  x.slices.elim (.error .indexError) fun t => s.part t.1 t.2.1 t.2.2

/-- The values of one channel and one polarisation, in time. Used for sdata.py:481. -/
def SData.column (s : SData) (f p : Nat) : List ℚ := s.data.map fun row : List (List ℚ) => (row.getD f []).getD p 0

/-- The values of one spectrum and one polarisation, in frequency. Used for sdata.py:495. -/
def spectrumOf (row : List (List ℚ)) (p : Nat) : List ℚ := row.map fun cell : List ℚ => cell.getD p 0

/-- The middle of the first and the last time. Used for sdata.py:482. -/
def SData.midTime (s : SData) : ℚ := s.time.headD 0 + (s.time.getLastD 0 - s.time.headD 0) / 2

/-- `medianFProfile` (sdata.py:475-485): the median spectrum, at the middle of the times written as text
(`isot`). -/
def SData.medianF (isot : ℚ → ℚ) (s : SData) : Except Err SData :=
  if s.time = [] then .error .indexError
  else mkSData [isot s.midTime] s.freq s.polar
    [(List.range s.freq.length).map fun f : Nat => (List.range s.polar.length).map fun p : Nat =>
      (median (s.column f p)).getD 0]

/-- `medianTProfile` (sdata.py:489-499): the median curve in time, at the mean frequency. The mean of no
frequency is not a number in the code and 0 here. -/
def SData.medianT (s : SData) : Except Err SData :=
  mkSData s.time [s.freq.sum / s.freq.length] s.polar
    (s.data.map fun row : List (List ℚ) => [(List.range s.polar.length).map fun p : Nat => (median (spectrumOf row p)).getD 0])

end Verif.IO
