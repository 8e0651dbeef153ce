import Verif.Parset.Json

/-!
# `Parset.to_json_old` of `nenupy/observation/parset.py`

The parts shared with `to_json` (centres, times, frequencies, parameters: parset.py:1234-1270, 1296-1370, 1372-1539 are the same text as 167-411) are those of `Json.lean`;
`F`, `center`, `isot` and `zenith` are as there.
-/

namespace Verif.Parset

open Verif.Config (PV paramsOf modeOf pvInt)

/-- The receiver of a pointing (parset.py:974-1060). The name of a source is the value of `src`, which may be `True`. -/
inductive OldRec
  | lanewba (freq : List (ℚ × ℚ))
  | fold (src : PV) (polars : Nat) (freq : List (ℚ × ℚ))
  | single (src : PV) (dstime : Int) (polars : Nat) (freq : List (ℚ × ℚ))
  | waveolaf (src : PV) (freq : List (ℚ × ℚ))
  | wave (src : PV) (freq : List (ℚ × ℚ))
  | waveform (freq : List (ℚ × ℚ))
  | tf (dt df : ℚ) (freq : List (ℚ × ℚ))
  | nickel (chan dump : PVal) (freq : List (ℚ × ℚ))
  deriving DecidableEq

/-- `config["src"]` (parset.py:989, 997, 1006, 1013). -/
def oldSrc (c : List (Str × PV)) : Except Err PV := (Config.find c "src".toList).elim (.error .keyError) .ok

/-- The modes of pulsar beams (parset.py:985-1018). `none`: there is no entry `receiver`. -/
def oldPulsar (d : Props) (mode : Str) (c : List (Str × PV)) : Except Err (Option OldRec) :=
  if mode = "fold".toList then (oldSrc c).bind fun s => (beamFreq d).map fun f => some (.fold s (polarsOf c) f)
  else if mode = "single".toList then
    (oldSrc c).bind fun s => ((Config.find c "dstime".toList).elim (.error .keyError) pvInt).bind fun n => (beamFreq d).map fun f => some (.single s n (polarsOf c) f)
  else if mode = "waveolaf".toList then (oldSrc c).bind fun s => (beamFreq d).map fun f => some (.waveolaf s f)
  else if mode = "wave".toList then (oldSrc c).bind fun s => (beamFreq d).map fun f => some (.wave s f)
  else .ok none

/-- What is done with a beam: `none` is `continue` (parset.py:983, 1034, 1054), which leaves the beam out. -/
abbrev OldSetting := Except Err (Option (Option OldRec))

/-- `except KeyError: … continue` (parset.py:1050-1054). -/
def orSkip : OldSetting → OldSetting
  | .error .keyError => .ok none
  | r => r

/-- The parameters of a beam, which is left out without them (parset.py:977-983, 1028-1034); the message needs the number of the analog beam. -/
def withParams (d : Props) (g : Str → OldSetting) : OldSetting :=
  (dictGet d "parameters".toList).elim ((item d "noBeam".toList).map fun _ => none) fun v => (textOf v).bind g

/-- The beam of the imager (parset.py:1055-1068). -/
def oldNickelRec (out : Props) : Except Err OldRec :=
  (item out "nri_channelization".toList).bind fun ch => (item out "nri_dumpTime".toList).bind fun du => (freqOf out "nri_subbandList".toList).map (.nickel ch du)

/-- The branches on `toDo` (parset.py:976-1068). -/
def oldToDo (F : Str → Option ℚ) (td : Str) (d out : Props) : OldSetting :=
  if td = "pulsar".toList then withParams d fun s => (oldPulsar d (modeOf s) (paramsOf true s)).map some
  else if td = "waveform".toList then (beamFreq d).map fun f => some (some (.waveform f))
  else if td = "dynamicspectrum".toList then withParams d fun s => orSkip
    ((Config.floatAt F (paramsOf false s) "dt".toList).bind fun dt => (Config.floatAt F (paramsOf false s) "df".toList).bind fun df => (beamFreq d).map fun f => some (some (.tf dt df f)))
  else if td = "tbd".toList then (usesNickel out).bind fun u => if u then (oldNickelRec out).map fun r => some (some r) else .ok (some none)
  else .ok (some none)

/-- The receiver of a numerical beam (parset.py:971-1068). -/
def oldReceiver (F : Str → Option ℚ) (d out : Props) : OldSetting :=
  (dictGet d "toDo".toList).elim ((beamFreq d).map fun f => some (some (.lanewba f))) fun v => (textOf v).bind fun s => oldToDo F (lower s) d out

/-- A pointing (parset.py:965-1075, 1094-1113). -/
structure OldPointing (C : Type) where
  idx : Nat
  name : PVal
  place : C × Str × ℚ
  receiver : Option OldRec

/-- One numerical beam (parset.py:964-1073): its pointing with the position of its field of view, or nothing. -/
def oldBeam {C : Type} (F : Str → Option ℚ) (center : Props → ℚ → Except Err C) (isot : Str → Str) (fovs : List Nat) (out : Props) (d : Nat × Props) :
    Except Err (Option (Nat × OldPointing C)) :=
  (item d.2 "target".toList).bind fun name => (placeOf F center isot d.2).bind fun pl => (oldReceiver F d.2 out).bind fun o => o.elim (.ok none) fun r =>
  (item d.2 "noBeam".toList).bind fun nb => ((beamNumber nb).elim (.error .indexError) (fovPos fovs)).map fun i => some (i, ⟨d.1, name, pl, r⟩)

/-- A field of view with its pointings (parset.py:941-960, 1075). -/
structure OldFov (C : Type) where
  fov : Fov C
  pointings : List (OldPointing C)

/-- `last_dig_idx + 1` (parset.py:1089-1092): after the number of the last beam of the file. -/
def oldNext (digis : List (Nat × Props)) : Nat := (digis.getLast?.map fun d => d.1 + 1).getD 0

/-- The pointing added to the field of view at position `i` if cross-correlations are taken (parset.py:1077-1113). -/
def oldXst {C : Type} (zenith : Str × ℚ → C) (p : PSet) (f : Fov C) (i : Nat) : Except Err (List (OldPointing C)) :=
  if pvTrue ((dictGet p.out "xst_userfile".toList).getD (.bool false)) then
    (freqOf p.out "xst_sbList".toList).map fun q => [⟨oldNext p.digis + i, .str [], (zenith f.place.2, f.place.2), some (.lanewba q)⟩]
  else .ok []

/-- Whether a pointing is one of the imager (parset.py:1133): its receiver must be there. -/
def usesImager {C : Type} (q : OldPointing C) : Except Err Bool :=
  q.receiver.elim (.error .keyError) fun r => .ok (r.casesOn (fun _ => false) (fun _ _ _ => false) (fun _ _ _ _ => false) (fun _ _ => false) (fun _ _ => false) (fun _ => false)
    (fun _ _ _ => false) (fun _ _ _ => true))

/-- A number of a remote mini-array (parset.py:1126, 1140). -/
def remoteItem : Item → Bool
  | .int n => decide (96 < n)
  | _ => false

/-- Removal of the remote mini-arrays (parset.py:1121-1144). -/
def oldRemote {C : Type} (f : OldFov C) : Except Err (OldFov C) :=
  (mapE itemInt f.fov.mas).bind fun _ => if f.fov.mas.any remoteItem then
    (mapE usesImager f.pointings).map fun l => if true ∈ l then f else { f with fov := { f.fov with mas := f.fov.mas.filter fun i => !remoteItem i } }
  else .ok f

/-- `data["topic"]` (parset.py:908-912). -/
def oldTopic (s : Str) : Str × Str := if "ES".toList.isPrefixOf s then (s.take 4, s.drop 5) else ("ES00".toList, s)

/-- The names of the receivers (parset.py:924-927): two lists, or the letters of two texts. -/
def oldReceivers : PVal → PVal → Except Err (List Item)
  | .list a, .list b => .ok (a ++ b)
  | .str a, .str b => .ok ((a ++ b).map fun c => .str [c])
  | _, _ => .error .typeError

/-- What is exported (parset.py:888-1152). -/
structure OldJson (C : Type) where
  start : Str
  stop : Str
  topic : Str × Str
  receivers : List Item
  fovs : List (OldFov C)

/-- The field of view at position `i` with its pointings (parset.py:1072-1075, 1077-1113). -/
def oldFill {C : Type} (zenith : Str × ℚ → C) (p : PSet) (bs : List (Option (Nat × OldPointing C))) (f : Fov C × Nat) : Except Err (OldFov C) :=
  (oldXst zenith p f.1 f.2).map fun x => ⟨f.1, (bs.filterMap fun o => (o.filter fun q => q.1 = f.2).map Prod.snd) ++ x⟩

/-- `to_json_old` without writing (parset.py:885-1152). -/
def toJsonOld {C : Type} (F : Str → Option ℚ) (center : Props → ℚ → Except Err C) (zenith : Str × ℚ → C) (isot : Str → Str) (p : PSet) : Except Err (OldJson C) :=
  (item p.obs "startTime".toList).bind fun t0 => (isoOf isot t0).bind fun t0 =>
  (item p.obs "stopTime".toList).bind fun t1 => (isoOf isot t1).bind fun t1 =>
  (textOf ((dictGet p.obs "topic".toList).getD (.str "ES00 DEBUG".toList))).bind fun tp =>
  (item p.out "hd_receivers".toList).bind fun hd => (oldReceivers hd ((dictGet p.out "nri_receivers".toList).getD (.list []))).bind fun rs =>
  (mapE (fovOf F center isot) p.anas).bind fun fovs =>
  (mapE (oldBeam F center isot (fovs.map Fov.idx) p.out) p.digis).bind fun bs =>
  (mapE (oldFill zenith p bs) fovs.zipIdx).bind fun fs => (mapE oldRemote fs).map fun fs => ⟨t0, t1, oldTopic tp, rs, fs⟩

end Verif.Parset
