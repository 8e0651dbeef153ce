import Verif.Parset.Text

/-!
# Model of `ParsetUser`, of its text and of the export: `nenupy/observation/parset.py`
-/

namespace Verif.Parset

/-! ## Tables of properties -/

/-- Values given to a property. Used for parset.py:1582-1596. -/
inductive UVal
  | time (isot : Str)
  | delta (seconds : ℚ)
  | bool (b : Bool)
  | list (l : List Str)
  | text (s : Str)
  deriving DecidableEq, Repr

/-- `np.round` to the nearest integer, ties to even. Used for parset.py:1582-1596. -/
def roundEven (q : ℚ) : Int :=
  let f := ⌊q⌋
  if q - f < 1 / 2 then f else if 1 / 2 < q - f then f + 1 else if f % 2 = 0 then f else f + 1

/-- Text stored for a value (parset.py:1582-1596). -/
def UVal.stored : UVal → Str
  | .time isot => isot ++ ['Z']
  | .delta q => intStr (roundEven q) ++ ['s']
  | .bool b => if b then "true".toList else "false".toList
  | .list l => '[' :: join ',' l ++ [']']
  | .text s => s

/-- One property: its key, value and flags. Used for parset.py:1552. -/
structure Field where
  key : Str
  value : Str
  modified : Bool
  required : Bool
  deriving DecidableEq, Repr

/-- `_ParsetBlock.configuration` (parset.py:1552), in order. -/
abbrev Block := List Field

/-- One step of the loop of `_modify_properties` (parset.py:1576-1606): an unknown key is only reported. -/
def setKey (kv : Str × UVal) (b : Block) : Block :=
  b.map fun p => if p.key = kv.1 then { p with value := kv.2.stored, modified := true } else p

/-- `_modify_properties` (parset.py:1573-1606). -/
def modify (b : Block) (kw : List (Str × UVal)) : Block := kw.foldl (fun b kv => setKey kv b) b

/-- `_write_block_list` (parset.py:1609-1623): the pairs written, one for each line. -/
def written (b : Block) : List (Str × Str) := (b.filter fun p => p.modified || p.required).map fun p => (p.key, p.value)

/-! ## Lines of a file -/

/-- Section of a line. Used for parset.py:1613-1620. -/
inductive Sect
  | observation
  | output
  | anabeam (i : Nat)
  | beam (i : Nat)
  | phaseCenter (i : Nat)
  deriving DecidableEq, Repr

/-- Beginning of the line (parset.py:1613-1620). -/
def Sect.text : Sect → Str
  | .observation => "Observation".toList
  | .output => "Output".toList
  | .anabeam i => "Anabeam[".toList ++ natStr i ++ [']']
  | .beam i => "Beam[".toList ++ natStr i ++ [']']
  | .phaseCenter i => "PhaseCenter[".toList ++ natStr i ++ [']']

/-- One assignment of the file. Used for parset.py:1620. -/
structure Entry where
  sect : Sect
  key : Str
  value : Str
  deriving DecidableEq, Repr

/-- Its line (parset.py:1620). -/
def Entry.line (e : Entry) : Str := e.sect.text ++ '.' :: e.key ++ '=' :: e.value

/-- `s.split(c, 1)` when `c` is in `s`. Used for parset.py:1196-1232. -/
def cut (c : Char) : Str → Option (Str × Str)
  | [] => none
  | x :: s => if x = c then some ([], s) else (cut c s).map fun p => (x :: p.1, p.2)

/-- The digits after a bracket, up to the closing bracket. Used for parset.py:1212, 1219, 1226. -/
def bracketDigits (s : Str) : Option Str :=
  if (s.dropWhile Char.isDigit).head? = some ']' then some (s.takeWhile Char.isDigit) else none

/-- `re.search(r'\[(\d*)\]', s).group(1)` (parset.py:1212, 1219, 1226). -/
def searchIndex : Str → Option Str
  | [] => none
  | x :: s => if x = '[' then (bracketDigits s).or (searchIndex s) else searchIndex s

/-- The index of a beam, `int(...)` of the above. Used for parset.py:1205-1230. -/
def beamIndex (name : Str) : Except Err Nat :=
  match searchIndex name with
  | none => .error .attributeError
  | some d => if isDigits d then .ok (Nat.ofDigitChars 10 d 0) else .error .valueError

/-- Which dictionary a line goes to (parset.py:1205-1230); `name` is the part before the first dot. -/
def sectOf (line name : Str) : Except Err (Option Sect) :=
  if "Observation".toList.isPrefixOf line then .ok (some .observation)
  else if "Output".toList.isPrefixOf line then .ok (some .output)
  else if "anabeam".toList.isPrefixOf (lower line) then (beamIndex name).map fun i => some (.anabeam i)
  else if "beam".toList.isPrefixOf (lower line) then (beamIndex name).map fun i => some (.beam i)
  else if "phasecenter".toList.isPrefixOf (lower line) then (beamIndex name).map fun i => some (.phaseCenter i)
  else .ok none

/-- One assignment made by a line, given its two parts. Used for parset.py:1196-1232. -/
def assignLine (line : Str) (p : Str × Str) : Except Err (List Entry) :=
  match cut '=' p.2 with
  | none => .error .valueError
  | some kv => (sectOf line p.1).map fun s => (s.map fun s => (⟨s, kv.1, kv.2⟩ : Entry)).toList

/-- The loop over the lines (parset.py:1196-1232): a line without a dot keeps the parts of the previous line; there is none for the first line. -/
def decode : Option (Str × Str) → List Str → Except Err (List Entry)
  | _, [] => .ok []
  | prev, line :: rest =>
    match (cut '.' line).or prev with
    | none => .error .unboundLocal
    | some p => (assignLine line p).bind fun es => (decode (some p) rest).map fun r => es ++ r

/-! ## Beams -/

/-- A numerical beam or a phase center: an identity, its number and the analog beam it announces. Used for parset.py:2222-2231, 2272-2281. -/
structure NBeam where
  tag : Nat
  index : Nat
  noBeam : Int
  deriving DecidableEq, Repr

/-- An analog beam. Used for parset.py:1732-1738. -/
structure ABeam where
  tag : Nat
  index : Nat
  nums : List NBeam
  pcs : List NBeam
  deriving DecidableEq, Repr

/-- `ParsetUser.analog_beams`. Used for parset.py:2503-2509. -/
abbrev PUser := List ABeam

/-- `_propagate_index` (parset.py:1732-1738). -/
def ABeam.propagate (a : ABeam) : ABeam :=
  { a with nums := a.nums.map fun n => { n with noBeam := a.index }, pcs := a.pcs.map fun n => { n with noBeam := a.index } }

/-- Numbers from `k` on. Used for parset.py:2503-2509. -/
def numberFrom (k : Nat) : List NBeam → List NBeam
  | [] => []
  | n :: l => { n with index := k } :: numberFrom (k + 1) l

/-- `_updates_numbeams_indices` (parset.py:2503-2509). -/
def renumNums (k : Nat) : PUser → PUser
  | [] => []
  | a :: l => { a with nums := numberFrom k a.nums } :: renumNums (k + a.nums.length) l

/-- `_updates_phasecenter_indices` (parset.py:2512-2518). -/
def renumPcs (k : Nat) : PUser → PUser
  | [] => []
  | a :: l => { a with pcs := numberFrom k a.pcs } :: renumPcs (k + a.pcs.length) l

/-- The loop of `_updates_anabeams_indices` (parset.py:2523-2527). -/
def renumAna (k : Nat) : PUser → PUser
  | [] => []
  | a :: l => ({ a with index := k } : ABeam).propagate :: renumAna (k + 1) l

/-- `_updates_anabeams_indices` (parset.py:2521-2528). -/
def updateAna (s : PUser) : PUser := renumNums 0 (renumAna 0 s)

/-- Position designated by a Python index in a list of `n` elements. Used for parset.py:2128-2163. -/
def pyIndex (n : Nat) (i : Int) : Option Nat :=
  if 0 ≤ i then (if i.toNat < n then some i.toNat else none) else (if (-i).toNat ≤ n then some (n - (-i).toNat) else none)

/-- `add_analog_beam` (parset.py:2079-2103): new beams have the number 0 before the update. -/
def addAna (s : PUser) (tag : Nat) : PUser := updateAna (s ++ [⟨tag, 0, [], []⟩])

/-- `remove_analog_beam` (parset.py:2128-2163). -/
def rmAna (s : PUser) (i : Int) : Except Err PUser :=
  match pyIndex s.length i with
  | none => .error .indexError
  | some j => .ok (updateAna (s.eraseIdx j))

/-- Appends a beam, then `_propagate_index` (parset.py:2196-2198). -/
def ABeam.addNum (a : ABeam) (tag : Nat) (noBeam : Int) : ABeam := ({ a with nums := a.nums ++ [⟨tag, 0, noBeam⟩] } : ABeam).propagate

/-- Same for phase centers (parset.py:2315-2317). -/
def ABeam.addPc (a : ABeam) (tag : Nat) (noBeam : Int) : ABeam := ({ a with pcs := a.pcs ++ [⟨tag, 0, noBeam⟩] } : ABeam).propagate

/-- `add_numerical_beam` (parset.py:2166-2199); `noBeam` is what the user gives for that key, or its default. -/
def addNum (s : PUser) (i : Int) (tag : Nat) (noBeam : Int) : Except Err PUser :=
  match pyIndex s.length i with
  | none => .error .indexError
  | some j => .ok (renumNums 0 (s.modify j fun a => a.addNum tag noBeam))

/-- `add_phase_center` (parset.py:2285-2318). -/
def addPc (s : PUser) (i : Int) (tag : Nat) (noBeam : Int) : Except Err PUser :=
  match pyIndex s.length i with
  | none => .error .indexError
  | some j => .ok (renumPcs 0 (s.modify j fun a => a.addPc tag noBeam))

/-- Applies `f` to the list and position of the `k`-th numerical beam, counted over all analog beams (parset.py:2222-2231, 2272-2281). -/
def atNum (f : Nat → List NBeam → List NBeam) (k : Nat) : PUser → PUser
  | [] => []
  | a :: l => if k < a.nums.length then { a with nums := f k a.nums } :: l else a :: atNum f (k - a.nums.length) l

/-- Same for phase centers (parset.py:2341-2350, 2391-2400). -/
def atPc (f : Nat → List NBeam → List NBeam) (k : Nat) : PUser → PUser
  | [] => []
  | a :: l => if k < a.pcs.length then { a with pcs := f k a.pcs } :: l else a :: atPc f (k - a.pcs.length) l

/-- `remove_numerical_beam` (parset.py:2234-2282). -/
def rmNum (s : PUser) (k : Nat) : PUser := renumNums 0 (atNum (fun i l => l.eraseIdx i) k s)

/-- `remove_phase_center` (parset.py:2353-2401). -/
def rmPc (s : PUser) (k : Nat) : PUser := renumPcs 0 (atPc (fun i l => l.eraseIdx i) k s)

/-- `modify_numerical_beam(k, noBeam=...)` (parset.py:2202-2231). -/
def modNum (s : PUser) (k : Nat) (noBeam : Int) : PUser := atNum (fun i l => l.modify i fun n => { n with noBeam := noBeam }) k s

/-- Edits of a user. Changes of other properties do not touch what is modelled here. Used for parset.py:2128-2300. -/
inductive Edit
  | addAna (tag : Nat)
  | rmAna (i : Int)
  | addNum (i : Int) (tag : Nat) (noBeam : Int)
  | rmNum (k : Nat)
  | addPc (i : Int) (tag : Nat) (noBeam : Int)
  | rmPc (k : Nat)
  | modNum (k : Nat) (noBeam : Int)

/-- A refused edit leaves everything as it was. Used for parset.py:2128-2300. -/
def edit (s : PUser) : Edit → PUser
  | .addAna t => Parset.addAna s t
  | .rmAna i => (Parset.rmAna s i).toOption.getD s
  | .addNum i t n => (Parset.addNum s i t n).toOption.getD s
  | .rmNum k => Parset.rmNum s k
  | .addPc i t n => (Parset.addPc s i t n).toOption.getD s
  | .rmPc k => Parset.rmPc s k
  | .modNum k n => Parset.modNum s k n

/-- What `__str__` writes about numbering (parset.py:1812-1886, 2531-2538): announced counts, numbers of the analog beams, number and analog beam of the numerical beams and
phase centers. -/
structure Numbering where
  nrAnabeams : Nat
  nrBeams : Nat
  nrPhaseCenters : Nat
  anabeams : List Nat
  beams : List (Nat × Int)
  phaseCenters : List (Nat × Int)
  deriving DecidableEq, Repr

/-- `__str__`. Used for parset.py:1812-1886, 2531-2538. -/
def numbering (s : PUser) : Numbering where
  nrAnabeams := s.length
  nrBeams := (s.map fun a => a.nums.length).sum
  nrPhaseCenters := (s.map fun a => a.pcs.length).sum
  anabeams := s.map ABeam.index
  beams := s.flatMap fun a => a.nums.map fun n => (n.index, n.noBeam)
  phaseCenters := s.flatMap fun a => a.pcs.map fun n => (n.index, n.noBeam)

/-! ## Export -/

/-- A parset as seen by `to_json`: keys of its dictionaries in order, with the field of view of each beam. Used for parset.py:851-855. -/
structure PFile where
  anabeams : List Nat
  digibeams : List (Nat × Nat)
  phaseCenters : List (Nat × Nat)
  recent : Bool
  xst : Bool
  nickel : Bool

/-- `_JsonEntry`: identifiers of the fields of view with the pointings stored in them, and pointings (position of the field of view, identifier). Used for parset.py:833-874. -/
structure JsonEntry where
  fovs : List (Nat × List Nat)
  pointings : List (Nat × Nat)
  deriving DecidableEq, Repr

/-- `fov_idx` (parset.py:676). -/
def fovPos (fovs : List Nat) (noBeam : Nat) : Except Err Nat := if noBeam ∈ fovs then .ok (fovs.idxOf noBeam) else .error .indexError

/-- The pointings of a dictionary of beams (parset.py:846-855). -/
def addPointings (fovs : List Nat) (shift : Nat) (l : List (Nat × Nat)) : Except Err (List (Nat × Nat)) :=
  mapE (fun p => (fovPos fovs p.2).map fun i => (i, p.1 + shift)) l

/-- `digi_idx` after the loop over numerical beams (parset.py:846-848). -/
def lastKey (l : List (Nat × Nat)) : Nat := (l.getLast?.map Prod.fst).getD 0

/-- Pointings of the cross-correlations, one for each field of view (parset.py:698-738). -/
def xstPointings (nFov nPointings : Nat) : List (Nat × Nat) := (List.range nFov).map fun i => (i, nPointings + i)

/-- Entries added when the flag holds. Used for parset.py:833-874. -/
def whenL (c : Bool) (l : List (Nat × Nat)) : List (Nat × Nat) := if c then l else []

/-- Phase centers only exist in recent files (parset.py:851-855). -/
def pcPointings (p : PFile) : Except Err (List (Nat × Nat)) :=
  if p.recent then addPointings p.anabeams (lastKey p.digibeams + 1) p.phaseCenters else .ok []

/-- `to_json` up to the entry (parset.py:833-874). `nickel` stands for the tests of lines 864-865. -/
def buildEntry (p : PFile) : Except Err JsonEntry :=
  (addPointings p.anabeams 0 p.digibeams).bind fun d =>
  (pcPointings p).map fun c =>
    let dc := d ++ c
    let x := dc ++ whenL p.xst (xstPointings p.anabeams.length dc.length)
    let n := x ++ whenL (!p.recent && p.nickel) [(0, x.length)]
    ⟨p.anabeams.map fun i => (i, []), n⟩

/-- One pointing appended to its field of view (parset.py:579-580). -/
def attach (fovs : List (Nat × List Nat)) (q : Nat × Nat) : List (Nat × List Nat) := fovs.modify q.1 fun f => (f.1, f.2 ++ [q.2])

/-- `data` (parset.py:574-588): the copy of the list is shallow, so the fields of view of the entry change too. -/
def JsonEntry.data (e : JsonEntry) : List (Nat × List Nat) × JsonEntry :=
  let f := e.pointings.foldl attach e.fovs
  (f, { e with fovs := f })

/-- Mini-arrays left by `remove_unused_miniarrays` (parset.py:741-760); the inner loop only skips to its own next turn, and runs before pointings are stored. -/
def keptMiniArrays (mas : List Nat) (_usesNickel : Bool) : List Nat := if mas.any (fun m => decide (96 < m)) then mas.filter (fun m => decide (m ≤ 96)) else mas

end Verif.Parset
