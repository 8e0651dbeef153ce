import Verif.IO.SDataCut

/-!
# Parts of slices, and slices as data sets (nenupy/io/io_tools.py)
-/

namespace Verif.IO

/-- `value[a, b]` for two slices: a row has one axis only, and is refused. The second axis of a table has the length of its rows.
Used for io_tools.py:321-336. -/
def Val.cut : Val → PySlice → PySlice → Except Err Val
  | .one _, _, _ => .error .indexError
  | .two rows, a, b =>
    (a.ranks rows.length).bind fun i =>
      (b.ranks (rows.headD []).length).map fun j => .two ((takeRanks rows i).map fun row : List ℚ => takeRanks row j)

/-- The part of a slice for two slices (io_tools.py:329-336): times, then frequencies, then values; pointing times are kept whole. -/
def Slice.part (s : Slice) (a b : PySlice) : Except Err Slice :=
  (a.ranks s.time.length).bind fun i =>
    (b.ranks s.freq.length).bind fun j =>
      (s.value.cut a b).map fun v => { s with time := takeRanks s.time i, freq := takeRanks s.freq j, value := v }

/-- The two slices of a tuple (io_tools.py:324-328). -/
def CutArg.pair : CutArg → Option (PySlice × PySlice)
  | .tuple [some a, some b] => some (a, b)
  | _ => none

/-- `ST_Slice.__getitem__` (io_tools.py:321-336). -/
def Slice.item (s : Slice) (x : CutArg) : Except Err Slice :=
  x.pair.elim (.error .indexError) fun t => s.part t.1 t.2

/-- `ST_Slice.sdata` (io_tools.py:427-441): one more axis for the polarisation. Values with one axis then have two, which the setter of
the data (sdata.py:354-356) cannot unpack. -/
def Slice.toSData (s : Slice) : Except Err SData :=
  match s.value with
  | .one _ => .error .valueError
  | .two rows => mkSData s.time s.freq [s.pol] (rows.map fun row : List ℚ => row.map fun v : ℚ => [v])

end Verif.IO
