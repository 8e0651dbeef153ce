import Verif.Parset.Load
import Verif.Config.FromParset

/-!
# Model of the export of parsets: `Parset.version`, `Parset.to_json` and `_JsonEntry` of `nenupy/observation/parset.py`

`F` is the number read by `TimeDelta(text, format='sec')` and by `float(text)`, with `none` for a refused text; `center` is `_get_pointing_center_dict` once the duration is known
(parset.py:227-375), which depends on the sky; `isot` is the text of a time.
-/

namespace Verif.Parset

open Verif.Config (PV paramsOf modeOf pvFloat pvInt contains)

/-- `d[k]`. Used for parset.py:65-66. -/
def item (d : Props) (k : Str) : Except Err PVal := (dictGet d k).elim (.error .keyError) .ok

/-! ## Version -/

/-- `a < b` between tuples. Used for parset.py:528, 545, 851, 863. -/
def tupleLt : List Int → List Int → Bool
  | [], [] => false
  | [], _ :: _ => true
  | _ :: _, [] => false
  | a :: l, b :: m => if a = b then tupleLt l m else decide (a < b)

/-- `version >= (1, 0)`. Used for parset.py:528, 545, 851, 863. -/
def recent (v : List Int) : Bool := !tupleLt v [1, 0]

/-- The tuple of a value of `parsetVersion` (parset.py:819-823): only texts can be split. -/
def versionText : PVal → Except Err (List Int)
  | .str s => if s = [] then .ok [1, 0] else mapE pyInt (splitOn '.' s)
  | _ => .error .attributeError

/-- `Parset.version` (parset.py:815-823). -/
def versionOf (obs : Props) : Except Err (List Int) := versionText ((dictGet obs "parsetVersion".toList).getD (.str ['0']))

/-! ## Topic -/

/-- The pattern of the topics (parset.py:613). -/
def topicPattern : Str :=
  "^(?P<code>(ES([0]?[0-9]|1[0-7])|LT(?!08)([0]?[0-9]|1[0-3])|RP\\d+[A-Z]|SP(16|17))) (?P<name>\\w+)$".toList

/-- The topic of a file where it could not be read (parset.py:617-620). -/
def debugTopic : Str × Str := ("LT00".toList, "DEBUG".toList)

/-- Code and name of a topic (parset.py:614-626); the groups of the pattern are numbered 1 and 6. -/
def decodeTopic (s : Str) : Str × Str :=
  ((compile topicPattern).bind fun q => matchCaps q.1 q.2 s).elim debugTopic fun c => ((capOf c 1).getD [], (capOf c 6).getD [])

/-- `re.match` of a value of `topic` (parset.py:611-626): only texts can be matched. -/
def topicText : PVal → Except Err (Str × Str)
  | .str s => .ok (decodeTopic s)
  | _ => .error .typeError

/-- The exported topic (parset.py:611-626). -/
def topicOf (obs : Props) : Except Err (Str × Str) := topicText ((dictGet obs "topic".toList).getD (.str "LT00 DEBUG".toList))

/-! ## Times -/

/-- `TimeDelta(v, format='sec')` (parset.py:226, 380). Lists and booleans are left out. -/
def secOf (F : Str → Option ℚ) : PVal → Except Err ℚ
  | .str s => (F s).elim (.error .valueError) .ok
  | .int n => .ok n
  | _ => .error .valueError

/-- `v.isot` (parset.py:386, 593, 603-604). -/
def isoOf (isot : Str → Str) : PVal → Except Err Str
  | .time s => .ok (isot s)
  | _ => .error .attributeError

/-- Centre, start and duration of a block (parset.py:226-228, 380-393). -/
def placeOf {C : Type} (F : Str → Option ℚ) (center : Props → ℚ → Except Err C) (isot : Str → Str) (d : Props) : Except Err (C × Str × ℚ) :=
  (item d "duration".toList).bind fun v => (secOf F v).bind fun n => (center d n).bind fun c =>
  (item d "startTime".toList).bind fun t => (isoOf isot t).map fun t => (c, t, n)

/-! ## Frequencies -/

/-- An element of a list of numbers (parset.py:399-402). -/
def itemInt : Item → Except Err Int
  | .int n => .ok n
  | _ => .error .typeError

/-- The numbers given to `np.diff` (parset.py:399-402). -/
def intsOf : PVal → Except Err (List Int)
  | .list l => mapE itemInt l
  | _ => .error .valueError

/-- `_get_frequency_dict` (parset.py:395-411), in kHz. -/
def freqOf (d : Props) (field : Str) : Except Err (List (ℚ × ℚ)) := (item d field).bind fun v => (intsOf v).bind frequencyDict

/-! ## Receivers -/

/-- The receiver of a pointing (parset.py:413-548). -/
inductive Receiver
  | empty
  | lanewba (freq : List (ℚ × ℚ))
  | fold (src : Str) (polars : Nat) (freq : List (ℚ × ℚ))
  | single (src : Str) (dstime : Int) (polars : Nat) (freq : List (ℚ × ℚ))
  | waveolaf (src : Str) (freq : List (ℚ × ℚ))
  | wave (src : Str) (freq : List (ℚ × ℚ))
  | waveform (freq : List (ℚ × ℚ))
  | tf (dt df : ℚ) (freq : List (ℚ × ℚ))
  | nickel (chan dump : PVal) (freq : List (ℚ × ℚ))
  deriving DecidableEq

/-- Sub-bands of a beam. Used for parset.py:424, 444, 453, 460, 467, 477, 508. -/
def beamFreq (d : Props) : Except Err (List (ℚ × ℚ)) := freqOf d "subbandList".toList

/-- `_default_setting` (parset.py:413-425): one second, one sub-band. -/
def defaultSetting (d : Props) : Except Err Receiver := (beamFreq d).map .lanewba

/-- `parameters.lower()` (parset.py:171): only texts have it. -/
def textOf : PVal → Except Err Str
  | .str s => .ok s
  | _ => .error .attributeError

/-- The value of a parameter is true. Used for parset.py:443, 452, 494. -/
def truthy : Option PV → Bool
  | none => false
  | some .flag => true
  | some (.text s) => !s.isEmpty

/-- `config["src"].rstrip()` (parset.py:442, 450, 459, 466). -/
def srcOf (c : List (Str × PV)) : Except Err Str :=
  (Config.find c "src".toList).elim (.error .keyError) fun v => v.casesOn (fun s => .ok (Config.rstrip s)) (.error .attributeError)

/-- Number of polarisations (parset.py:443, 452). -/
def polarsOf (c : List (Str × PV)) : Nat := if truthy (Config.find c "onlyi".toList) then 1 else 4

/-- The modes of `_pulsar_setting` (parset.py:438-471). -/
def pulsarMode (d : Props) (mode : Str) (c : List (Str × PV)) : Except Err Receiver :=
  if mode = "fold".toList then (srcOf c).bind fun s => (beamFreq d).map (.fold s (polarsOf c))
  else if mode = "single".toList then
    (srcOf c).bind fun s => ((Config.find c "dstime".toList).elim (.error .keyError) pvInt).bind fun n => (beamFreq d).map (.single s n (polarsOf c))
  else if mode = "waveolaf".toList then (srcOf c).bind fun s => (beamFreq d).map (.waveolaf s)
  else if mode = "wave".toList then (srcOf c).bind fun s => (beamFreq d).map (.wave s)
  else .ok .empty

/-- `_pulsar_setting` (parset.py:427-471). The message about missing parameters needs the number of the analog beam. -/
def pulsarSetting (d : Props) : Except Err Receiver :=
  (dictGet d "parameters".toList).elim ((item d "noBeam".toList).map fun _ => .empty) fun v =>
    (textOf v).bind fun s => pulsarMode d (modeOf s) (paramsOf true s)

/-- `_waveform_setting` (parset.py:473-478). -/
def waveformSetting (d : Props) : Except Err Receiver := (beamFreq d).map .waveform

/-- A missing key gives an empty receiver (parset.py:510-514). -/
def noKey : Except Err Receiver → Except Err Receiver
  | .error .keyError => .ok .empty
  | r => r

/-- The receiver of a time-frequency beam with known parameters (parset.py:494-509). -/
def tfOf (F : Str → Option ℚ) (d : Props) (c : List (Str × PV)) : Except Err Receiver :=
  if truthy (Config.find c "tf: rawrt".toList) then waveformSetting d
  else (Config.floatAt F c "dt".toList).bind fun dt => (Config.floatAt F c "df".toList).bind fun df => (beamFreq d).map (.tf dt df)

/-- `_dynamicspectrum_setting` (parset.py:480-514). -/
def tfSetting (F : Str → Option ℚ) (d : Props) : Except Err Receiver :=
  (dictGet d "parameters".toList).elim ((item d "noBeam".toList).bind fun _ => noKey ((beamFreq d).map (.tf 5 (61 / 10)))) fun v =>
    (textOf v).bind fun s => noKey (tfOf F d (paramsOf false s))

/-- The parameters of a phase center are read, not used (parset.py:530-536). -/
def centerParams (d : Props) : Except Err Unit :=
  (dictGet d "parameters".toList).elim ((item d "noBeam".toList).map fun _ => ()) fun v => (textOf v).map fun _ => ()

/-- `_nickel_setting` (parset.py:516-542). -/
def nickelSetting (d out : Props) (v : List Int) : Except Err Receiver :=
  (item out "nri_channelization".toList).bind fun ch => (item out "nri_dumpTime".toList).bind fun du =>
  if recent v then (centerParams d).bind fun _ => (beamFreq d).map (.nickel ch du)
  else (freqOf out "nri_subbandList".toList).map (.nickel ch du)

/-- `"nickel" in output.get("nri_receivers", [])` (parset.py:545, 864). -/
def usesNickel (out : Props) : Except Err Bool := (dictGet out "nri_receivers".toList).elim (.ok false) (contains "nickel".toList)

/-- `_tbd_setting` (parset.py:544-548). -/
def tbdSetting (d out : Props) (v : List Int) : Except Err Receiver :=
  (usesNickel out).bind fun n => if n && !recent v then nickelSetting d out v else defaultSetting d

/-- `BEAM_SETTINGS[toDo](beam, output, version)` (parset.py:550-557, 672-673). -/
def receiverOf (F : Str → Option ℚ) (toDo : Str) (d out : Props) (v : List Int) : Except Err Receiver :=
  if toDo = "none".toList then defaultSetting d
  else if toDo = "pulsar".toList then pulsarSetting d
  else if toDo = "waveform".toList then waveformSetting d
  else if toDo = "dynamicspectrum".toList then tfSetting F d
  else if toDo = "tbd".toList then tbdSetting d out v
  else if toDo = "nickel".toList then nickelSetting d out v
  else .error .keyError

/-! ## The entry -/

/-- A field of view (parset.py:638-656). -/
structure Fov (C : Type) where
  idx : Nat
  name : PVal
  place : C × Str × ℚ
  squint : PVal
  optFrq : Option PVal
  mas : List Item
  ants : List Item
  filters : List (Int × Str)

/-- A pointing with the position of its field of view (parset.py:659-678, 681-696, 716-738). `receiver` is missing for the pointings of line 696. -/
structure Pointing (C : Type) where
  fov : Nat
  idx : Nat
  name : PVal
  place : C × Str × ℚ
  receiver : Option Receiver

/-- The elements of a list (parset.py:197-206, 655). -/
def listOf : PVal → Except Err (List Item)
  | .list l => .ok l
  | _ => .error .typeError

/-- `int(fil)` (parset.py:655). -/
def filterInt : Item → Except Err Int
  | .int n => .ok n
  | .str s => pyInt s
  | .time _ => .error .typeError

/-- `tim.isot` (parset.py:655). -/
def filterTime (isot : Str → Str) : Item → Except Err Str
  | .time s => .ok (isot s)
  | _ => .error .attributeError

/-- Filters with their times (parset.py:655). -/
def filtersOf (isot : Str → Str) (f t : List Item) : Except Err (List (Int × Str)) :=
  mapE (fun p => (filterInt p.1).bind fun n => (filterTime isot p.2).map fun s => (n, s)) (f.zip t)

/-- The elements of a list of the block. Used for parset.py:653-655. -/
def listAt (d : Props) (k : Str) : Except Err (List Item) := (item d k).bind listOf

/-- `add_field_of_view` (parset.py:638-656). -/
def fovOf {C : Type} (F : Str → Option ℚ) (center : Props → ℚ → Except Err C) (isot : Str → Str) (a : Nat × Props) : Except Err (Fov C) :=
  (item a.2 "target".toList).bind fun name => (placeOf F center isot a.2).bind fun pl =>
  (listAt a.2 "maList".toList).bind fun mas => (listAt a.2 "antList".toList).bind fun ants =>
  (listAt a.2 "filter".toList).bind fun f => (listAt a.2 "filterTime".toList).bind fun t => (filtersOf isot f t).map fun fs =>
    ⟨a.1, name, pl, (dictGet a.2 "beamSquint".toList).getD (.bool false), dictGet a.2 "optFrq".toList, mas, ants, fs⟩

/-- `beam.get("toDo", "none").lower()` (parset.py:672). -/
def toDoOf (d : Props) : Except Err Str := (textOf ((dictGet d "toDo".toList).getD (.str "none".toList))).map lower

/-- The number to which `noBeam` is equal, if any (parset.py:676). -/
def beamNumber : PVal → Option Nat
  | .int n => some n
  | .bool b => some b.toNat
  | _ => none

/-- `add_pointing` (parset.py:659-678). -/
def pointingOf {C : Type} (F : Str → Option ℚ) (center : Props → ℚ → Except Err C) (isot : Str → Str) (fovs : List Nat) (out : Props) (v : List Int) (shift : Nat) (d : Nat × Props) :
    Except Err (Pointing C) :=
  (item d.2 "target".toList).bind fun name => (placeOf F center isot d.2).bind fun pl =>
  (toDoOf d.2).bind fun td => (receiverOf F td d.2 out v).bind fun r =>
  (item d.2 "noBeam".toList).bind fun nb => ((beamNumber nb).elim (.error .indexError) (fovPos fovs)).map fun i => ⟨i, d.1 + shift, name, pl, some r⟩

/-- `add_xst_pointings` (parset.py:698-738); `zenith` is the direction of the zenith at the middle of the field of view. -/
def xstOf {C : Type} (zenith : Str × ℚ → C) (out : Props) (n : Nat) (fovs : List (Fov C)) : Except Err (List (Pointing C)) :=
  mapE (fun p => (freqOf out "xst_sbList".toList).map fun f => ⟨p.2, n + p.2, .str [], (zenith p.1.place.2, p.1.place.2), some (.lanewba f)⟩) fovs.zipIdx

/-- `add_nickel_pointing` (parset.py:681-696): the name is replaced by that of the receiver, whose settings are not in an entry of their own. -/
def nickelPointing {C : Type} (F : Str → Option ℚ) (center : Props → ℚ → Except Err C) (isot : Str → Str) (out : Props) (n : Nat) (a : Props) : Except Err (Pointing C) :=
  (item a "target".toList).bind fun _ => (placeOf F center isot a).bind fun pl => (nickelSetting a out [0, 0]).map fun _ => ⟨0, n, .str "nickel".toList, pl, none⟩

/-- Content of `output.get("xst_userfile", False)` as a condition (parset.py:859). -/
def pvTrue : PVal → Bool
  | .bool b => b
  | .int n => decide (n ≠ 0)
  | .str s => !s.isEmpty
  | .list l => !l.isEmpty
  | _ => true

/-- The pointing of the imager in old files (parset.py:863-871). -/
def oldNickel {C : Type} (F : Str → Option ℚ) (center : Props → ℚ → Except Err C) (isot : Str → Str) (p : PSet) (n : Nat) : Except Err (List (Pointing C)) :=
  (usesNickel p.out).bind fun u => if u then
    (mapE (fun d : Nat × Props => item d.2 "toDo".toList) p.digis).bind fun l => if PVal.str "TBD".toList ∈ l then .ok []
      else ((dictGet p.anas 0).elim (.error .keyError) (nickelPointing F center isot p.out n)).map fun x => [x]
  else .ok []

/-- What `to_json` exports: start and stop of the observation, topic, fields of view and pointings (parset.py:828-882). -/
structure Json (C : Type) where
  start : Str
  stop : Str
  topic : Str × Str
  fovs : List (Fov C)
  pointings : List (Pointing C)

/-- Mini-arrays left in a field of view (parset.py:741-760), when all are numbers. -/
def coreItems (l : List Item) : List Item := if l.any (fun i => i.casesOn (fun n => decide (96 < n)) (fun _ => false) (fun _ => false)) then
  l.filter (fun i => i.casesOn (fun n => decide (n ≤ 96)) (fun _ => true) (fun _ => true)) else l

/-- The pointings of a file whose fields of view are known (parset.py:846-871). -/
def pointingsOf {C : Type} (F : Str → Option ℚ) (center : Props → ℚ → Except Err C) (zenith : Str × ℚ → C) (isot : Str → Str) (p : PSet) (v : List Int) (fovs : List (Fov C)) :
    Except Err (List (Pointing C)) :=
  (mapE (pointingOf F center isot (fovs.map Fov.idx) p.out v 0) p.digis).bind fun a =>
  (if recent v then mapE (pointingOf F center isot (fovs.map Fov.idx) p.out v ((p.digis.getLast?.map Prod.fst).getD 0 + 1)) p.pcs else .ok []).bind fun b =>
  (if pvTrue ((dictGet p.out "xst_userfile".toList).getD (.bool false)) then xstOf zenith p.out (a ++ b).length fovs else .ok []).bind fun c =>
  (if recent v then .ok [] else oldNickel F center isot p (a ++ b ++ c).length).map fun d => a ++ b ++ c ++ d

/-- `to_json` without writing (parset.py:828-874). -/
def toJson {C : Type} (F : Str → Option ℚ) (center : Props → ℚ → Except Err C) (zenith : Str × ℚ → C) (isot : Str → Str) (p : PSet) : Except Err (Json C) :=
  (versionOf p.obs).bind fun v =>
  (item p.obs "startTime".toList).bind fun t0 => (isoOf isot t0).bind fun t0 =>
  (item p.obs "stopTime".toList).bind fun t1 => (isoOf isot t1).bind fun t1 =>
  (topicOf p.obs).bind fun tp =>
  (mapE (fovOf F center isot) p.anas).bind fun fovs =>
  (pointingsOf F center zenith isot p v fovs).map fun ps => ⟨t0, t1, tp, fovs.map fun f => { f with mas := coreItems f.mas }, ps⟩

end Verif.Parset
