import Verif.Config.Model
import Verif.Parset.Text

/-!
# Model of the configurations read from parset files: `nenupy/observation/obs_config.py`

A parset is what `_ParsetProperty` holds once the file is read: values are `Parset.PVal`. The keys `toDo`, `duration`, `subbandList`, `maList` and `startTime` of the beams
are taken to be there. `F` is `float(text)`, with `none` for a refused text; NaN is left out.
-/

namespace Verif.Config

open Verif.Parset (Str PVal Item lower pyInt isBlank splitOn)

/-- A digital beam. Used for obs_config.py:596-602, 982-1005. `start` is in seconds. -/
structure DBeam where
  toDo : Str
  params : Option Str
  duration : Str
  subbands : List Item
  start : ℚ

/-- An analog beam. Used for obs_config.py:707-714. -/
structure ABeam where
  duration : Str
  mas : List Item

/-- A parset. Used for obs_config.py:588-607, 689-714. Missing keys of `output` are `none`. -/
structure PSet where
  start : ℚ
  hd : Option PVal
  nri : Option PVal
  dump : Option PVal
  nriSub : Option (List Item)
  chan : Option PVal
  anas : List ABeam
  digis : List DBeam

/-! ## Text of the parameters -/

/-- `s.split('--')`. Used for obs_config.py:757-763, 772. -/
def splitDash : Str → List Str
  | [] => [[]]
  | [x] => [[x]]
  | x :: y :: s => if x = '-' ∧ y = '-' then [] :: splitDash s else (splitDash (y :: s)).modifyHead (x :: ·)

/-- `s.split()`, from the word `w` being read (obs_config.py:768). -/
def wordsFrom (w : Str) : Str → List Str
  | [] => if w = [] then [] else [w]
  | x :: s => if isBlank x then (if w = [] then wordsFrom [] s else w :: wordsFrom [] s) else wordsFrom (w ++ [x]) s

/-- `s.split()` (obs_config.py:768). -/
def words (s : Str) : List Str := wordsFrom [] s

/-- `s.rstrip()`. Used for obs_config.py:761, 771. -/
def rstrip (s : Str) : Str := (s.reverse.dropWhile isBlank).reverse

/-- Value of a parameter. Used for obs_config.py:755-774. -/
inductive PV
  | text (s : Str)
  | flag
  deriving DecidableEq, Repr

/-- `param.split('=')[0]: param.split('=')[1] … if '=' in param` (obs_config.py:756-758, 766-768). -/
def valued (l : List Str) : List (Str × PV) :=
  (l.filter (fun p => decide ('=' ∈ p))).map fun p => ((splitOn '=' p).getD 0 [], PV.text ((splitOn '=' p).getD 1 []))

/-- `param.rstrip(): True … if '=' not in param` (obs_config.py:760-764, 770-774). -/
def flags (l : List Str) : List (Str × PV) := (l.filter (fun p => decide ('=' ∉ p))).map fun p => (rstrip p, PV.flag)

/-- Look-up in a dictionary filled in this order: the last value of a key stays. Used for obs_config.py:755-774. -/
def find (d : List (Str × PV)) (k : Str) : Option PV := (d.reverse.find? (fun p => decide (p.1 = k))).map Prod.snd

/-- `mode` of `_parseParameters` (obs_config.py:752-753). -/
def modeOf (s : Str) : Str := (splitOn ':' (lower s)).getD 0 []

/-- The dictionary of `_parseParameters` (obs_config.py:747-776). -/
def paramsOf (pulsar : Bool) (s : Str) : List (Str × PV) :=
  valued (if pulsar then splitDash (lower s) else words (lower s)) ++ flags (splitDash (lower s))

/-! ## Numbers -/

/-- `int(text.replace("s", ""))` (obs_config.py:598, 708, 1002, 1132, 1279, 1424, 1572). -/
def seconds (s : Str) : Except Err Int := pyInt (s.filter (fun c => decide (c ≠ 's')))

/-- `float(v)` of a parameter; `True` is one. Used for obs_config.py:995-996, 1278. -/
def pvFloat (F : Str → Option ℚ) : PV → Except Err ℚ
  | .text s => (F s).elim (.error .valueError) .ok
  | .flag => .ok 1

/-- `int(v)` of a parameter; `True` is one. Used for obs_config.py:1280, 1571, 1573. -/
def pvInt : PV → Except Err Int
  | .text s => pyInt s
  | .flag => .ok 1

/-- `float(parameters.get(key, default))` (obs_config.py:1278). -/
def floatOr (F : Str → Option ℚ) (d : List (Str × PV)) (k : Str) (q : ℚ) : Except Err ℚ := (find d k).elim (.ok q) (pvFloat F)

/-- `int(parameters.get(key, default))` (obs_config.py:1280, 1571, 1573). -/
def intOr (d : List (Str × PV)) (k : Str) (n : Int) : Except Err Int := (find d k).elim (.ok n) pvInt

/-- `float(parameters[key])` (obs_config.py:995-996): a missing key raises. -/
def floatAt (F : Str → Option ℚ) (d : List (Str × PV)) (k : Str) : Except Err ℚ := (find d k).elim (.error .keyError) (pvFloat F)

/-- A stored value given to a setter; a boolean is an integer in Python. Used for obs_config.py:709, 711. -/
def toVal : PVal → Val
  | .int n => .int n
  | .bool b => .int (if b then 1 else 0)
  | _ => .other

/-- `name in value` for a stored value (obs_config.py:700, 978, 1123, 1252, 1399, 1545): membership in a list, part of a string, an exception for numbers and times. -/
def contains (name : Str) : PVal → Except Err Bool
  | .list l => .ok (decide (Item.str name ∈ l))
  | .str s => .ok (Parset.hasSub name s)
  | _ => .error .typeError

/-- `out[key]` (obs_config.py:978): a missing key raises. -/
def need {α : Type} (v : Option α) : Except Err α := v.elim (.error .keyError) .ok

/-! ## One beam of each backend -/

/-- Values of an object, as numbers. Used for obs_config.py:848-850. -/
def toBeam (b : Backend) (d : ℚ) (st : State) : Beam := ⟨b, fun k => ((st k).bind Val.num).getD 0, d⟩

/-- A beam from keywords (obs_config.py:837-838, 1021-1022, 1151-1152, 1298-1299, 1442-1443). -/
def mkBeam (b : Backend) (kw : Attr → Option Val) (d : Int) : Except Err Beam := (construct b kw).map (toBeam b d)

/-- Keywords given as a list. Used for obs_config.py:999-1004. -/
def kwOf (l : List (Attr × Val)) : Attr → Option Val := fun k => (l.find? (fun p => decide (p.1 = k))).map Prod.snd

/-- `len(subbandList)` as a keyword value. Used for obs_config.py:1003. -/
def lenVal (l : List Item) : Val := .int l.length

/-- Number of polarizations of the pulsar modes (obs_config.py:1277, 1570). -/
def polVal (d : List (Str × PV)) : Val := .int (if (find d "onlyi".toList).isSome then 1 else 4)

/-- A time-frequency beam (obs_config.py:994-1004). The numbers given to `_checkDFvsDT` are numpy floats: a width of zero is divided by without exception, all differences are infinite
and the first length, 16, is taken (obs_config.py:797-801). So does the model, where a division by zero is zero and 16 the closest length. -/
def tfBeam (F : Str → Option ℚ) (x : DBeam) (s : Str) : Except Err Beam :=
  (floatAt F (paramsOf false s) "dt".toList).bind fun dt => (floatAt F (paramsOf false s) "df".toList).bind fun df =>
    (seconds x.duration).bind fun n =>
      mkBeam .tf (kwOf [(.timeRes, .flt (checkDFvsDT (dt / 1000) (df * 1000)).1), (.freqRes, .flt (checkDFvsDT (dt / 1000) (df * 1000)).2),
        (.nSubBands, lenVal x.subbands)]) n

/-- A waveform beam (obs_config.py:1130-1134). -/
def rawBeam (x : DBeam) : Except Err Beam := (seconds x.duration).bind fun n => mkBeam .raw (kwOf [(.nSubBands, lenVal x.subbands)]) n

/-- A folding beam (obs_config.py:1272-1281). -/
def foldBeam (F : Str → Option ℚ) (x : DBeam) (s : Str) : Except Err Beam :=
  (floatOr F (paramsOf true s) "tfold".toList (1073741824 / 100000000)).bind fun t => (seconds x.duration).bind fun n =>
    (intOr (paramsOf true s) "nbin".toList 2048).bind fun bins =>
      mkBeam .fold (kwOf [(.nSubBands, lenVal x.subbands), (.nPolars, polVal (paramsOf true s)), (.tFold, .flt t), (.nBins, .int bins)]) n

/-- A pulsar waveform beam (obs_config.py:1421-1426). -/
def waveBeam (x : DBeam) : Except Err Beam := (seconds x.duration).bind fun n => mkBeam .waveolaf (kwOf [(.nSubBands, lenVal x.subbands)]) n

/-- A single-pulse beam (obs_config.py:1565-1574). -/
def singleBeam (x : DBeam) (s : Str) : Except Err Beam :=
  (intOr (paramsOf true s) "dstime".toList 128).bind fun ds => (seconds x.duration).bind fun n =>
    (intOr (paramsOf true s) "nbits".toList 32).bind fun bits =>
      mkBeam .single (kwOf [(.nSubBands, lenVal x.subbands), (.nPolars, polVal (paramsOf true s)), (.dsTime, .int ds), (.nBits, .int bits)]) n

/-! ## The beams of a parset -/

/-- What a digital beam is for a backend: skipped for another `toDo`, without parameters or in another mode (obs_config.py:983-993, 1257-1270, 1404-1417, 1550-1563). -/
def inMode (todo mode : Str) (f : Str → Except Err Beam) (x : DBeam) : Except Err (Option Beam) :=
  if lower x.toDo = todo then x.params.elim (.ok none) fun s => if modeOf s = mode then (f s).map some else .ok none
  else .ok none

/-- The test and the beam of each backend fed by the digital beams (obs_config.py:982-1005, 1127-1135, 1256-1282, 1403-1426, 1549-1575). -/
def beamOf (F : Str → Option ℚ) : Backend → DBeam → Except Err (Option Beam)
  | .tf, x => inMode "dynamicspectrum".toList "tf".toList (tfBeam F x) x
  | .raw, x => if lower x.toDo = "waveform".toList then (rawBeam x).map some else .ok none
  | .fold, x => inMode "pulsar".toList "fold".toList (foldBeam F x) x
  | .waveolaf, x => inMode "pulsar".toList "waveolaf".toList (fun _ => waveBeam x) x
  | .single, x => inMode "pulsar".toList "single".toList (singleBeam x) x
  | _, _ => .ok none

/-- The loop over the digital beams (obs_config.py:982-1005). -/
def collect (f : DBeam → Except Err (Option Beam)) : List DBeam → Except Err (List Beam)
  | [] => .ok []
  | x :: l => (f x).bind fun o => (collect f l).map fun r => o.toList ++ r

/-- `_beamConfigs` of `fromParset` for the five backends on the beamformer (obs_config.py:968-1008, 1112-1138, 1241-1285, 1388-1429, 1534-1578). -/
def undysputed (F : Str → Option ℚ) (b : Backend) (p : PSet) : Except Err (List Beam) :=
  (need p.hd).bind fun hd => (contains "undysputed".toList hd).bind fun on =>
    if on then collect (beamOf F b) p.digis else .ok []

/-- Times of a digital beam: one a second (obs_config.py:597-601). -/
def beamTimes (start : ℚ) (n : Int) : List ℚ := (List.range n.toNat).map fun i : Nat => start + i

/-- `np.union1d` of all the times (obs_config.py:595-602), as a set. -/
def allTimes : List DBeam → Except Err (Finset ℚ)
  | [] => .ok ∅
  | x :: l => (seconds x.duration).bind fun n => (allTimes l).map fun r => (beamTimes x.start n).toFinset ∪ r

/-- `BSTConfig.fromParset` (obs_config.py:588-607). -/
def bstOf (p : PSet) : Except Err Beam := (allTimes p.digis).bind fun t => mkBeam .bst (kwOf []) t.card

/-- NICKEL is recorded (obs_config.py:695-704): a missing key or a list without it says no. -/
def nickelOn (p : PSet) : Except Err Bool := p.nri.elim (.ok false) (contains "nickel".toList)

/-- The configuration of a recorded correlation (obs_config.py:707-714). `anabeams[0]` of an empty dictionary raises. -/
def nickelBeam (p : PSet) : Except Err Beam :=
  (need p.anas.head?).bind fun a => (seconds a.duration).bind fun n => (need p.dump).bind fun dt => (need p.nriSub).bind fun sb =>
    (need p.chan).bind fun ch =>
      mkBeam .nickel (kwOf [(.timeRes, toVal dt), (.nSubBands, lenVal sb), (.nChannels, toVal ch), (.nMAs, lenVal a.mas)]) n

/-- `NICKELConfig.fromParset` (obs_config.py:689-714). -/
def nickelOf (p : PSet) : Except Err Beam := (nickelOn p).bind fun on => if on then nickelBeam p else mkBeam .nickel (kwOf []) 0

/-- A beam of a backend without beams, for the own attributes that `fromParset` leaves unset (obs_config.py:861-874). Their values are never read by `volume`. -/
def bare (b : Backend) : Beam := ⟨b, fun _ => 0, 0⟩

/-- `fromParset` of each backend (obs_config.py:1685). -/
def confOf (F : Str → Option ℚ) (p : PSet) : Backend → Except Err Conf
  | .bst => (bstOf p).map fun x => ⟨x, [], p.start⟩
  | .nickel => (nickelOf p).map fun x => ⟨x, [], p.start⟩
  | b => (undysputed F b p).map fun l => ⟨bare b, l, p.start⟩

/-- The order of `backendClasses` (obs_config.py:1583-1593). -/
def order : List Backend := [.nickel, .raw, .tf, .bst, .fold, .waveolaf, .single]

/-- The loop of `ObsConfig.fromParset` (obs_config.py:1682-1686). -/
def obsLoop (F : Str → Option ℚ) (p : PSet) : List Backend → Obs → Except Err Obs
  | [], o => .ok o
  | b :: l, o => (confOf F p b).bind fun c => obsLoop F p l (fun i => if i = b then o i ++ [c] else o i)

/-- `ObsConfig.fromParset` (obs_config.py:1679-1686). -/
def obsOf (F : Str → Option ℚ) (p : PSet) : Except Err Obs := obsLoop F p order Obs.empty

end Verif.Config
