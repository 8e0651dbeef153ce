import Verif.Common.Prelude

/-!
# Model of the data slices and selections: `nenupy/io/io_tools.py`, `nenupy/io/bst.py`, `nenupy/io/sst.py`, `nenupy/beamlet/*.py`

Times, frequencies and values are rationals (times in days or seconds, all in the same unit).
-/

namespace Verif.IO

/-! ## `ST_Slice` -/

/-- Values of a slice: a row (spectrum or light curve) or a table, by rows. Used for io_tools.py:229-242. -/
inductive Val
  | one (l : List ℚ)
  | two (rows : List (List ℚ))
  deriving DecidableEq

/-- `ST_Slice` (io_tools.py:229-242). -/
structure Slice where
  time : List ℚ
  freq : List ℚ
  value : Val
  ana : List ℚ
  digi : List ℚ
  pol : List Char
  deriving DecidableEq

/-- `np.hstack((a, b))`: along the first axis of rows, and the second of tables. Used for io_tools.py:245-278. -/
def hstack : Val → Val → Except Err Val
  | .one a, .one b => .ok (.one (a ++ b))
  | .two a, .two b => if a.length = b.length then .ok (.two (List.zipWith (· ++ ·) a b)) else .error .valueError
  | _, _ => .error .valueError

/-- `all(a == b)`, with the extension of an axis of length 1; other lengths raise. Used for io_tools.py:245-278. -/
def eqAll (a b : List ℚ) : Except Err Bool :=
  if a.length = b.length then .ok (decide (a = b))
  else if a.length = 1 then .ok (b.all fun x => decide (a.getD 0 0 = x))
  else if b.length = 1 then .ok (a.all fun x => decide (x = b.getD 0 0))
  else .error .typeError

/-- `a.max() < b.min()` for axes which are not empty. Used for io_tools.py:245-278. -/
def allBefore (a b : List ℚ) : Bool := a.all fun x => b.all fun y => decide (x < y)

/-- `ST_Slice.__and__` (io_tools.py:245-278). -/
def sliceAnd (s o : Slice) : Except Err Slice :=
  (eqAll s.time o.time).bind fun b =>
    if !b then .error .valueError
    else if s.freq = [] ∨ o.freq = [] then .error .valueError
    else if allBefore s.freq o.freq then
      (hstack s.value o.value).map fun v => { s with freq := s.freq ++ o.freq, value := v }
    else (hstack o.value s.value).map fun v => { s with freq := o.freq ++ s.freq, value := v }

/-- `ST_Slice.__or__` (io_tools.py:281-318). -/
def sliceOr (s o : Slice) : Except Err Slice :=
  (eqAll s.freq o.freq).bind fun b =>
    if !b then .error .valueError
    else if s.time = [] ∨ o.time = [] then .error .valueError
    else if allBefore s.time o.time then
      (hstack s.value o.value).map fun v =>
        { s with time := s.time ++ o.time, value := v, ana := s.ana ++ o.ana, digi := s.digi ++ o.digi }
    else
      (hstack o.value s.value).map fun v =>
        { s with time := o.time ++ s.time, value := v, ana := o.ana ++ s.ana, digi := o.digi ++ s.digi }

/-- A numpy operation on two arrays of the same shape; other shapes are not modelled (`ValueError` or an extension). Used for io_tools.py:1251-1282. -/
def mapVal (op : ℚ → ℚ → ℚ) : Val → Val → Except Err Val
  | .one a, .one b => if a.length = b.length then .ok (.one (List.zipWith op a b)) else .error .valueError
  | .two a, .two b =>
    if a.map List.length = b.map List.length then .ok (.two (List.zipWith (List.zipWith op) a b)) else .error .valueError
  | _, _ => .error .valueError

/-- `_operation_with_other` (io_tools.py:1251-1282) on two slices. -/
def sliceOp (op : ℚ → ℚ → ℚ) (s o : Slice) : Except Err Slice :=
  if s.freq.length ≠ o.freq.length ∨ s.time.length ≠ o.time.length then .error .exception
  else if s.freq ≠ o.freq ∨ s.time ≠ o.time then .error .exception
  else
    (mapVal op s.value o.value).map fun v =>
      { s with
        value := v
        ana := if s.ana.length < o.ana.length then o.ana else s.ana
        digi := if s.digi.length < o.digi.length then o.digi else s.digi }

/-! ## `SData` -/

/-- `SData` (sdata.py:177-181): rows of the data are times, their items frequencies, whose items are polarisations. -/
structure SData where
  time : List ℚ
  freq : List ℚ
  polar : List (List Char)
  data : List (List (List ℚ))
  deriving DecidableEq

/-- The constructor, with the checks of the setter of the data (sdata.py:354-364). -/
def mkSData (time freq : List ℚ) (polar : List (List Char)) (data : List (List (List ℚ))) : Except Err SData :=
  if time.length = data.length ∧ (∀ r ∈ data, r.length = freq.length ∧ ∀ c ∈ r, c.length = polar.length)
  then .ok ⟨time, freq, polar, data⟩ else .error .assertion

/-- `time.isclose(other, time[1] - time[0])` for all items (sdata.py:199). -/
def closeTimes (a b : List ℚ) : Except Err Bool :=
  if a.length < 2 then .error .indexError
  else if a.length ≠ b.length ∧ b.length ≠ 1 then .error .valueError
  else if b.length = 1 then .ok (a.all fun x => decide (|x - b.getD 0 0| ≤ a.getD 1 0 - a.getD 0 0))
  else .ok ((a.zip b).all fun p => decide (|p.1 - p.2| ≤ a.getD 1 0 - a.getD 0 0))

/-- `np.hstack` of tables. Used for sdata.py:188-219. -/
def hstack3 (a b : List (List (List ℚ))) : Except Err (List (List (List ℚ))) :=
  if a.length = b.length then .ok (List.zipWith (· ++ ·) a b) else .error .valueError

/-- `SData.__and__` (sdata.py:188-219). -/
def sdataAnd (s o : SData) : Except Err SData :=
  if s.polar ≠ o.polar then .error .valueError
  else
    (closeTimes s.time o.time).bind fun b =>
      if !b then .error .valueError
      else if s.freq = [] ∨ o.freq = [] then .error .valueError
      else if allBefore s.freq o.freq then
        (hstack3 s.data o.data).bind fun d => mkSData s.time (s.freq ++ o.freq) s.polar d
      else (hstack3 o.data s.data).bind fun d => mkSData s.time (o.freq ++ s.freq) s.polar d

/-- `SData.__or__` (sdata.py:222-252). -/
def sdataOr (s o : SData) : Except Err SData :=
  if s.polar ≠ o.polar then .error .valueError
  else
    (eqAll s.freq o.freq).bind fun b =>
      if !b then .error .valueError
      else if s.time = [] ∨ o.time = [] then .error .valueError
      else if allBefore s.time o.time then mkSData (s.time ++ o.time) s.freq s.polar (s.data ++ o.data)
      else mkSData (s.time ++ o.time) s.freq s.polar (o.data ++ s.data)

/-- `_check_conformity` (sdata.py:737-761) for data which follow their axes. -/
def conform (s o : SData) : Option Err :=
  if s.time.length ≠ o.time.length ∨ s.freq.length ≠ o.freq.length ∨ s.polar.length ≠ o.polar.length then some .valueError
  else if (s.time.zip o.time).all fun p => decide (p.1 ≠ p.2) then some .valueError
  else if (s.freq.zip o.freq).all fun p => decide (p.1 ≠ p.2) then some .valueError
  else none

/-- `__add__` and `__sub__` (sdata.py:255-292) on two data sets. -/
def sdataOp (op : ℚ → ℚ → ℚ) (s o : SData) : Except Err SData :=
  if (conform s o).isSome then .error .valueError
  else if s.polar ≠ o.polar then .error .valueError
  else mkSData s.time s.freq s.polar (List.zipWith (List.zipWith (List.zipWith op)) s.data o.data)

/-! ## Selection texts -/

/-- The operators of io_tools.py:48-55. -/
inductive Op
  | gt
  | lt
  | ge
  | le
  | close
  deriving DecidableEq

/-- `op(x, v)`; equality is up to the relative tolerance `rtol` (1e-5 for frequencies, 1e-12 for times). Used for bst.py:270. -/
def Op.holds (rtol : ℚ) (op : Op) (x v : ℚ) : Bool :=
  match op with
  | .gt => decide (v < x)
  | .lt => decide (x < v)
  | .ge => decide (v ≤ x)
  | .le => decide (x ≤ v)
  | .close => decide (|x - v| ≤ rtol * |v|)

/-- `re.search` of the operator, and what follows it (io_tools.py:148-149); `tag` is `t` or `f`. -/
def findOp (tag : Char) : List Char → Option (Op × List Char)
  | [] => none
  | c :: cs =>
    if c = '>' ∧ cs.head? = some '=' then some (.ge, cs.tail)
    else if c = '<' ∧ cs.head? = some '=' then some (.le, cs.tail)
    else if c = tag ∧ cs.take 2 = ['=', '='] then some (.close, cs.drop 2)
    else if c = '<' then some (.lt, cs)
    else if c = '>' then some (.gt, cs)
    else findOp tag cs

/-- `conditions.replace("==", "t==")` (io_tools.py:169, 175). -/
def tagEq (tag : Char) : List Char → List Char
  | [] => []
  | c :: cs => if c = '=' ∧ cs.head? = some '=' then tag :: '=' :: '=' :: tagEq tag (cs.drop 1) else c :: tagEq tag cs
  termination_by l => l.length
  decreasing_by all_goals simp only [List.length_cons, List.length_drop]; omega

/-- `split("&")`. Used for io_tools.py:140-164. -/
def splitAmp : List Char → List (List Char)
  | [] => [[]]
  | c :: cs => if c = '&' then [] :: splitAmp cs else (splitAmp cs).modifyHead (c :: ·)

/-- One condition (io_tools.py:146-157); `conv` reads a value. -/
def readCond (tag : Char) (conv : List Char → Except Err ℚ) (cond : List Char) : Except Err (Op × ℚ) :=
  (((findOp tag cond).map Except.ok).getD (.error .attributeError)).bind fun p => (conv p.2).map fun v => (p.1, v)

/-- Conditions in turn. Used for io_tools.py:140-164. -/
def readConds (tag : Char) (conv : List Char → Except Err ℚ) : List (List Char) → Except Err (List (Op × ℚ))
  | [] => .ok []
  | c :: cs => (readCond tag conv c).bind fun p => (readConds tag conv cs).map fun ps => p :: ps

/-- `_parse_condition` (io_tools.py:140-164) after the tagging of `==` (167-176): at most two conditions. -/
def parseConds (tag : Char) (conv : List Char → Except Err ℚ) (text : List Char) : Except Err (List (Op × ℚ)) :=
  (readConds tag conv (splitAmp ((tagEq tag text).filter fun c => decide (c ≠ ' ')))).bind fun l =>
    if l.length = 1 ∨ l.length = 2 then .ok l else .error .exception

/-- The mask of a selection. Used for bst.py:270. -/
def maskOf (rtol : ℚ) (conds : List (Op × ℚ)) (x : ℚ) : Bool := conds.all fun c => c.1.holds rtol x c.2

/-- The default time selection (bst.py:270, sst.py:159, xst.py:1142): `isot` is the text of a time, written to the millisecond. -/
def defaultTimes (isot : ℚ → ℚ) (times : List ℚ) (x : ℚ) : Bool :=
  maskOf 0 [(.ge, isot (times.headD 0)), (.le, isot (times.getLastD 0))] x

/-- `BST.get` (bst.py:257-303) once masks are known: frequencies are centred; the columns read are the beamlets of the beam.
Each item is a frequency and the column it is read from. -/
def bstColumns (freqs : List ℚ) (beamlets : List Nat) (fmask : ℚ → Bool) : List (ℚ × Nat) :=
  (freqs.zip beamlets).filter fun p => fmask p.1

/-! ## `BST_Data` -/

/-- Content of a file: for each beam, its beamlets with the frequencies of the list of the file (bstdata.py:229-255). -/
structure BstFile where
  beams : List (List (Nat × ℚ))
  deriving DecidableEq

/-- Selection state: the beam, and the beamlets chosen by the last frequency range. Used for bstdata.py:432-448. -/
structure BstState where
  beam : Nat
  freqIdx : List Nat
  deriving DecidableEq

/-- Half of the sub-band width (bstdata.py:254), in MHz. -/
def hbw : ℚ := 1953125 / 20000000

/-- `beamlets` and `freqs` (bstdata.py:229-255) of the current beam. -/
def BstFile.current (f : BstFile) (beam : Nat) : List (Nat × ℚ) := (f.beams.getD beam []).map fun p => (p.1, p.2 - hbw)

/-- Setter of the beam (bstdata.py:432-448): the frequency selection is kept. -/
def setBeam (f : BstFile) (s : BstState) (b : Nat) : Except Err BstState :=
  if b < f.beams.length then .ok { s with beam := b } else .error .indexError

/-- Setter of the frequency range (bstdata.py:585-610), for two bounds. -/
def setRange (f : BstFile) (s : BstState) (lo hi : ℚ) : BstState :=
  { s with freqIdx := ((f.current s.beam).filter fun p => decide (lo ≤ p.2) && decide (p.2 ≤ hi)).map Prod.fst }

/-- `freq` (bstdata.py:267-271): the frequencies announced. -/
def announced (f : BstFile) (s : BstState) : List ℚ :=
  ((f.current s.beam).filter fun p => decide (p.1 ∈ s.freqIdx)).map Prod.snd

/-- `select` (bstdata.py:635-648): the announced frequencies and the columns read; a difference of lengths is refused by `SData`. -/
def bstSelect (f : BstFile) (s : BstState) : Except Err (List ℚ × List Nat) :=
  if (announced f s).length = s.freqIdx.length then .ok (announced f s, s.freqIdx) else .error .assertion

/-- All the frequencies of the file which are not zero (beamlet.py:61-83). -/
def listed (f : BstFile) : List ℚ := (f.beams.flatMap fun b => b.map Prod.snd).filter fun x => decide (x ≠ 0)

/-- The state after construction (bstdata.py:117-120). -/
def bstInit (f : BstFile) (fmin fmax : ℚ) : BstState := setRange f ⟨0, []⟩ fmin fmax

/-! ## `SST_Data` -/

/-- Is a file left out of a selection (sstdata.py:574-579)? -/
def sstSkipped (t0 t1 f0 f1 tMin tMax _fMin fMax : ℚ) : Bool :=
  decide (tMax < t0) || decide (t1 < tMin) || decide (fMax < f0) || decide (fMax < f1)

/-- `SST_Data.__eq__` (sstdata.py:298-300) on the names of the files. -/
def sstEq (a b : List (List Char)) : Bool := b.all fun x => decide (x ∈ a)

/-! ## Rebinning of slices -/

/-- Indices of `_rebin_frequency_indices` and `_rebin_time_indices` (io_tools.py:1213-1221, 1236-1248): the number of samples per bin and
of bins; `none` when nothing is done. `ratio` is the wanted step over the step of the data. -/
def sliceBins (n : Nat) (ratio : ℚ) : Except Err (Option (Nat × Nat)) :=
  if (n : Int) < ⌊ratio⌋ then (if n = 0 then .error .zeroDivision else .ok (some (n, n / n)))
  else if ⌊ratio⌋ = 0 then .ok none
  else .ok (some (⌊ratio⌋.toNat, n / ⌊ratio⌋.toNat))

/-! ## `accepts` -/

/-- Arguments given to the function by the decorator (miscellaneous.py:46-54): `names` the parameters of the function,
`defaults` the default values of the last ones, `args` and `kw` the arguments of the call. -/
def bindArg {V : Type} (defaults : Option (List V)) (args : List V) (kw : List (List Char × V)) (i : Nat) (name : List Char) :
    Except Err V :=
  if i < args.length then ((args[i]?).map Except.ok).getD (.error .indexError)
  else if args.length + kw.length ≤ i then
    (defaults.map fun d => ((d[i - (args.length + kw.length)]?).map Except.ok).getD (.error .indexError)).getD (.error .typeError)
  else ((kw.lookup name).map Except.ok).getD (.error .keyError)

/-- All of them. Used for miscellaneous.py:44-74. -/
def bindFrom {V : Type} (defaults : Option (List V)) (args : List V) (kw : List (List Char × V)) :
    Nat → List (List Char) → Except Err (List V)
  | _, [] => .ok []
  | i, n :: ns => (bindArg defaults args kw i n).bind fun v => (bindFrom defaults args kw (i + 1) ns).map fun vs => v :: vs

/-- The check of one argument (miscellaneous.py:56-72): `isInst` is `isinstance`, `conv` the conversion to the type. -/
def checkArg {V : Type} (isInst : Nat → V → Bool) (conv : Nat → V → Option V) (strict : Nat → Bool) (i : Nat) (v : V) : Except Err V :=
  if isInst i v then .ok v
  else if strict i then .error .typeError
  else ((conv i v).map Except.ok).getD (.error .typeError)

/-- All the checks. Used for miscellaneous.py:44-74. -/
def checkFrom {V : Type} (isInst : Nat → V → Bool) (conv : Nat → V → Option V) (strict : Nat → Bool) : Nat → List V → Except Err (List V)
  | _, [] => .ok []
  | i, v :: vs => (checkArg isInst conv strict i v).bind fun w => (checkFrom isInst conv strict (i + 1) vs).map fun ws => w :: ws

/-- What the decorated function receives (miscellaneous.py:44-74). -/
def accepts {V : Type} (isInst : Nat → V → Bool) (conv : Nat → V → Option V) (strict : Nat → Bool) (names : List (List Char))
    (defaults : Option (List V)) (args : List V) (kw : List (List Char × V)) : Except Err (List V) :=
  (bindFrom defaults args kw 0 names).bind (checkFrom isInst conv strict 0)

end Verif.IO
