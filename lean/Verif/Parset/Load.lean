import Verif.Parset.Validate

/-!
# Model of reading a parset file and of `ParsetUser.load_from_parset` / `replay_from_parset`: `nenupy/observation/parset.py`
-/

namespace Verif.Parset

/-! ## Dictionaries -/

/-- `d[k] = v`: a known key keeps its place. Used for parset.py:1205-1230. -/
def dictSet {α β : Type} [DecidableEq α] (d : List (α × β)) (k : α) (v : β) : List (α × β) :=
  if k ∈ d.map Prod.fst then d.map (fun p => if p.1 = k then (k, v) else p) else d ++ [(k, v)]

/-- `d.get(k)`. Used for parset.py:1911, 1917. -/
def dictGet {α β : Type} [DecidableEq α] (d : List (α × β)) (k : α) : Option β := (d.find? fun p => p.1 = k).map Prod.snd

/-- `_ParsetProperty.mapping` (parset.py:60-62). -/
abbrev Props := List (Str × PVal)

/-- `Parset`: the properties of its blocks (parset.py:780-784). -/
structure PSet where
  obs : Props
  out : Props
  anas : List (Nat × Props)
  digis : List (Nat × Props)
  pcs : List (Nat × Props)
deriving DecidableEq, Repr

/-- A property of the beam `i`, which is made with its number at its first mention (parset.py:1211-1230). -/
def setBeam (tag : Str) (d : List (Nat × Props)) (i : Nat) (k : Str) (v : PVal) : List (Nat × Props) :=
  dictSet d i (dictSet ((dictGet d i).getD [(tag, .int i)]) k v)

/-- The assignment of one line (parset.py:1205-1230). -/
def PSet.assign (p : PSet) (s : Sect) (k : Str) (v : PVal) : PSet :=
  match s with
  | .observation => { p with obs := dictSet p.obs k v }
  | .output => { p with out := dictSet p.out k v }
  | .anabeam i => { p with anas := setBeam "anaIdx".toList p.anas i k v }
  | .beam i => { p with digis := setBeam "digiIdx".toList p.digis i k v }
  | .phaseCenter i => { p with pcs := setBeam "pcIdx".toList p.pcs i k v }

/-- All assignments one after the other (parset.py:1196-1232). The value of a line ends with the end of the line. -/
def collect (isTime : Str → Bool) (isFloat : IsFloat) : PSet → List Entry → Except Err PSet
  | p, [] => .ok p
  | p, e :: l => (setItem isTime isFloat e.key e.value).bind fun v => collect isTime isFloat (p.assign e.sect e.key v) l

/-- `_decodeParset` (parset.py:1189-1232). -/
def readFile (isTime : Str → Bool) (isFloat : IsFloat) (lines : List Str) : Except Err PSet :=
  (decode none lines).bind fun es => collect isTime isFloat ⟨[], [], [], [], []⟩ es

/-! ## Loading -/

/-- `str(element)` of an element of a list (parset.py:1595-1596); `isot` is the text of a time in the format it was read in. -/
def Item.text (isot : Str → Str) : Item → Str
  | .int n => intStr n
  | .time s => isot s
  | .str s => s

/-- A value of a parset as it is given to a user parset (parset.py:1573-1606). A number is kept and written with `str`. -/
def PVal.toU (isot : Str → Str) : PVal → UVal
  | .list l => .list (l.map (Item.text isot))
  | .bool b => .bool b
  | .angle s => .text s
  | .int n => .text (natStr n)
  | .time s => .time (isot s)
  | .str s => .text s

/-- `copy_fields` (parset.py:1891-1893). -/
def copyFields (isot : Str → Str) (rows : List Row) (d : Props) : List (Str × UVal) :=
  (d.filter fun p => p.1 ∈ rows.map Row.key).map fun p => (p.1, p.2.toU isot)

/-- A new block with the values of `d` (parset.py:1631-1634, 2054-2055, 2075-2076). -/
def blockOf (isot : Str → Str) (rows : List Row) (d : Props) : Block := modify (fresh rows) (copyFields isot rows d)

/-- `beam.get("noBeam", 0)` compared with a number (parset.py:1911, 1917, 2192): only numbers and booleans can be. -/
def noBeamOf (d : Props) : Except Err Nat :=
  (dictGet d "noBeam".toList).elim (.ok 0) fun v => v.casesOn (fun _ => .error .typeError) (fun b => .ok b.toNat) (fun _ => .error .typeError) (fun n => .ok n) (fun _ => .error .typeError) (fun _ => .error .typeError)

/-- `_propagate_index` (parset.py:1732-1738) of the analog beam number `n`. -/
def propagate (n : Nat) (a : Block × List Block × List Block) : Block × List Block × List Block :=
  (a.1, a.2.1.map (setKey ("noBeam".toList, .text (natStr n))), a.2.2.map (setKey ("noBeam".toList, .text (natStr n))))

/-- `add_numerical_beam` (parset.py:2192-2199). -/
def addBlock (n : Nat) (b : Block) (l : List (Block × List Block × List Block)) : Except Err (List (Block × List Block × List Block)) :=
  if l.length ≤ n then .error .indexError else .ok (l.modify n fun a => propagate n (a.1, a.2.1 ++ [b], a.2.2))

/-- `add_phase_center` (parset.py:2311-2318). -/
def addCenter (n : Nat) (b : Block) (l : List (Block × List Block × List Block)) : Except Err (List (Block × List Block × List Block)) :=
  if l.length ≤ n then .error .indexError else .ok (l.modify n fun a => propagate n (a.1, a.2.1, a.2.2 ++ [b]))

/-- The loop over the numerical beams (parset.py:1909-1913). -/
def addBlocks (isot : Str → Str) : List (Nat × Props) → List (Block × List Block × List Block) → Except Err (List (Block × List Block × List Block))
  | [], l => .ok l
  | d :: ds, l => (noBeamOf d.2).bind fun n => (addBlock n (blockOf isot beamRows d.2) l).bind fun l => addBlocks isot ds l

/-- The loop over the phase centers (parset.py:1915-1919). -/
def addCenters (isot : Str → Str) : List (Nat × Props) → List (Block × List Block × List Block) → Except Err (List (Block × List Block × List Block))
  | [], l => .ok l
  | d :: ds, l => (noBeamOf d.2).bind fun n => (addCenter n (blockOf isot pcRows d.2) l).bind fun l => addCenters isot ds l

/-- `load_from_parset` (parset.py:1889-1923). -/
def load (isot : Str → Str) (p : PSet) : Except Err UFile :=
  (addBlocks isot p.digis (p.anas.map fun a => (blockOf isot anaRows a.2, [], []))).bind fun l =>
  (addCenters isot p.pcs l).map fun l => ⟨blockOf isot obsRows p.obs, blockOf isot outRows p.out, l⟩

/-! ## Writing -/

/-- The lines of a block (parset.py:1609-1623). -/
def blockEntries (s : Sect) (b : Block) : List Entry := (written b).map fun p => ⟨s, p.1, p.2⟩

/-- The lines of numbered blocks (parset.py:1609-1623, 2503-2528). -/
def numberedEntries (f : Nat → Sect) : Nat → List Block → List Entry
  | _, [] => []
  | k, b :: l => blockEntries (f k) b ++ numberedEntries f (k + 1) l

/-- `ParsetUser.__str__` (parset.py:1812-1886): the lines, without the blank ones between the blocks. -/
def UFile.entries (u : UFile) : List Entry :=
  blockEntries .observation u.numbered.obs ++ numberedEntries .anabeam 0 (u.anas.map Prod.fst) ++ numberedEntries .beam 0 (u.anas.flatMap fun a => a.2.1) ++
    numberedEntries .phaseCenter 0 (u.anas.flatMap fun a => a.2.2) ++ blockEntries .output u.out

end Verif.Parset
