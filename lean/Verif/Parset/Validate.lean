import Verif.Parset.User
import Verif.Parset.Regex

/-!
# The properties of user parsets and their syntax: `nenupy/observation/parset_user_options.json`
-/

namespace Verif.Parset

/-- A property which can be given: its name, whether it is always written, its value if it is not given, the pattern of its values. Used for observation/__init__.py:7-11. -/
structure Row where
  key : Str
  required : Bool
  value : Str
  syn : Option Str

/-- Properties of the block `Observation` (parset_user_options.json:2-54). -/
def obsRows : List Row := [
  ⟨"contactName".toList, true, "contact_name".toList, some "^\\S+$".toList⟩,
  ⟨"name".toList, true, "observation_name".toList, some "^\\S{1,40}$".toList⟩,
  ⟨"title".toList, false, "observation_title".toList, none⟩,
  ⟨"contactEmail".toList, true, "contact_email".toList, some "^([a-zA-Z0-9_\\-\\.]+)@([a-zA-Z0-9_\\-\\.]+)\\.([a-zA-Z]{2,5}){1,25}(,[ ]{0,1}([a-zA-Z0-9_\\-\\.]+)@([a-zA-Z0-9_\\-\\.]+)\\.([a-zA-Z]{2,5}){1,25})*$".toList⟩,
  ⟨"nrAnabeams".toList, false, "1".toList, some "\\d+".toList⟩,
  ⟨"nrBeams".toList, false, "0".toList, some "\\d+".toList⟩,
  ⟨"nrPhaseCenters".toList, false, "0".toList, some "\\d+".toList⟩,
  ⟨"calibration".toList, false, "calibration_file".toList, none⟩,
  ⟨"corAzel".toList, false, "enable".toList, some "(?i)^(enable|disable|polys_2022|grid)$".toList⟩,
  ⟨"topic".toList, true, "key_project_name".toList, none⟩,
  ⟨"parsetVersion".toList, false, "1.0".toList, none⟩]

/-- Properties of the block `Output` (parset_user_options.json:55-137). -/
def outRows : List Row := [
  ⟨"sst_userfile".toList, false, "false".toList, some "(?i)^(true)|(false)$".toList⟩,
  ⟨"bst_userfile".toList, false, "false".toList, some "(?i)^(true)|(false)$".toList⟩,
  ⟨"xst_userfile".toList, false, "false".toList, some "(?i)^(true)|(false)$".toList⟩,
  ⟨"xst_NrList".toList, false, "1".toList, none⟩,
  ⟨"xst_sbList".toList, false, "[0,1,2,3,4,5,6,7,8,9,10,11,12,13,14,15]".toList, some "^\\[([0-9]|1[0-9])(,[0-9]|,1[0-5])*\\]$".toList⟩,
  ⟨"xst_sbDuration".toList, false, "#".toList, none⟩,
  ⟨"xst_sbIncr".toList, false, "0".toList, some "\\d+".toList⟩,
  ⟨"hd_bitMode".toList, false, "8".toList, some "^((8)|(16))$".toList⟩,
  ⟨"hd_receivers".toList, false, "[undysputed]".toList, some "^\\[[a-z]+(,[a-z]+)*\\]$".toList⟩,
  ⟨"nri_receivers".toList, false, "false".toList, some "(?i)^(true)|(false)$".toList⟩,
  ⟨"nri_bitMode".toList, false, "8".toList, some "^((4)|(8)|(16))$".toList⟩,
  ⟨"nri_subbandList".toList, false, "[50,51,52,53,194,195,196,197,242,266,290,314,338,362,386,410]".toList, some "^\\[([0-9]|[0-9][0-9]|[0-4][0-9][0-9]|50[0-9]|51[0-1])(,[0-9]|,[0-9][0-9]|,[0-4][0-9][0-9]|,50[0-9]|,51[0-1])*\\]$".toList⟩,
  ⟨"nri_channelization".toList, false, "64".toList, some "^([1-9])|([1-5][0-9])|(6[0-4])$".toList⟩,
  ⟨"nri_attenuationlane0".toList, false, "0".toList, none⟩,
  ⟨"nri_attenuationlane1".toList, false, "0".toList, none⟩,
  ⟨"nri_dumpTime".toList, false, "1".toList, some "^((0.5)|(1)|(2)$".toList⟩,
  ⟨"nri_correctbandPass".toList, false, "enable".toList, some "(?i)^enable|disable$".toList⟩]

/-- Properties of the block `Anabeam` (parset_user_options.json:138-261). -/
def anaRows : List Row := [
  ⟨"target".toList, true, "analog_beam_name".toList, some "^\\S*$".toList⟩,
  ⟨"simbadSearch".toList, false, "source_name".toList, none⟩,
  ⟨"psrcatSearch".toList, false, "psr_name".toList, none⟩,
  ⟨"trackingType".toList, true, "tracking".toList, some "(?i)^tracking|pointingto$".toList⟩,
  ⟨"directionType".toList, false, "J2000".toList, some "(?i)^j2000|azelgeo|mercury|venus|mars|jupiter|saturn|uranus|neptune|sun|moon$".toList⟩,
  ⟨"transitDate".toList, false, "2021-01-01T00:00:00Z".toList, some "^20[1-2][0-9]-(0[1-9]|1[0-2])-(0[1-9]|[1-2][0-9]|3[0-1])T(0[0-9]|1[0-9]|2[0-4]):[0-5][0-9]:[0-5][0-9]Z$".toList⟩,
  ⟨"decal_transit".toList, false, "0".toList, some "^(-|\\+)*\\d+(\\.\\d*)?(h|m|s)$".toList⟩,
  ⟨"azimuth".toList, false, "0".toList, some "^\\d{1,3}(\\.\\d*)?$".toList⟩,
  ⟨"elevation".toList, false, "90".toList, some "^(-|\\+)?\\d{1,2}(\\.\\d*)?$".toList⟩,
  ⟨"ra".toList, false, "right_ascension".toList, some "^'(-|\\+)?((\\d+(\\.\\d*)?)|(\\d{2}:\\d{2}:\\d{2}(\\.\\d*)?))'$".toList⟩,
  ⟨"dec".toList, false, "declination".toList, some "^'(-|\\+)?((\\d+(\\.\\d*)?)|(\\d{2}:\\d{2}:\\d{2}(\\.\\d*)?))'$".toList⟩,
  ⟨"startHA".toList, false, "-4h".toList, some "^(-|\\+)*\\d+(\\.\\d*)?(h|m|s)$".toList⟩,
  ⟨"stopHA".toList, false, "4h".toList, some "^(-|\\+)*\\d+(\\.\\d*)?(h|m|s)$".toList⟩,
  ⟨"startTime".toList, true, "2021-01-01T00:00:00Z".toList, some "^20[1-2][0-9]-(0[1-9]|1[0-2])-(0[1-9]|[1-2][0-9]|3[0-1])T(0[0-9]|1[0-9]|2[0-4]):[0-5][0-9]:[0-5][0-9]Z$".toList⟩,
  ⟨"duration".toList, true, "60s".toList, some "^\\d+[smh]$".toList⟩,
  ⟨"antState".toList, false, "ON".toList, some "(?i)^(ON|OFF)$".toList⟩,
  ⟨"antList".toList, false, "[1,2,3,4,5,6,7,8,9,10,11,12,13,14,15,16,17,18,19]".toList, some "^\\[(?!.*\\b(\\d+)\\b.*\\b\\1\\b)(0?[1-9]|1[0-9])(,(0?\\d|1[0-9]))*\\]$".toList⟩,
  ⟨"maList".toList, false, "[0..95]".toList, some "^\\[(\\d|[1-8]\\d|9[0-5]|10[0-7])(,(\\d|[1-8]\\d|9[0-5]|10[0-7])|\\.\\.(\\d|[1-8]\\d|9[0-5]|10[0-7])(?=(,|\\])))*\\]$".toList⟩,
  ⟨"attList".toList, false, "attenuation_list".toList, none⟩,
  ⟨"filterStart".toList, false, "3".toList, none⟩,
  ⟨"filter".toList, false, "[3]".toList, none⟩,
  ⟨"filterTime".toList, false, "filter_time".toList, none⟩,
  ⟨"beamSquint".toList, false, "enable".toList, some "(?i)^enable|disable$".toList⟩,
  ⟨"optFrq".toList, false, "beamsquint_frequency".toList, some "^[1-8]0$".toList⟩,
  ⟨"azelFile".toList, false, "My_AzEl_File.csv".toList, none⟩,
  ⟨"corAzel".toList, false, "default".toList, none⟩]

/-- Properties of the block `Beam` (parset_user_options.json:262-386). -/
def beamRows : List Row := [
  ⟨"target".toList, true, "numerical_beam_name".toList, some "^\\S*$".toList⟩,
  ⟨"simbadSearch".toList, false, "source_name".toList, none⟩,
  ⟨"psrcatSearch".toList, false, "psr_name".toList, none⟩,
  ⟨"trackingType".toList, false, "tracking".toList, some "(?i)^tracking|pointingto$".toList⟩,
  ⟨"directionType".toList, false, "J2000".toList, none⟩,
  ⟨"transitDate".toList, false, "2021-01-01T00:00:00Z".toList, some "^20[1-2][0-9]-(0[1-9]|1[0-2])-(0[1-9]|[1-2][0-9]|3[0-1])T(0[0-9]|1[0-9]|2[0-4]):[0-5][0-9]:[0-5][0-9]Z$".toList⟩,
  ⟨"decal_transit".toList, false, "0".toList, some "^(-|\\+)*\\d+(\\.\\d*)?(h|m|s)$".toList⟩,
  ⟨"azimuth".toList, false, "0".toList, some "^\\d{1,3}(\\.\\d*)?$".toList⟩,
  ⟨"elevation".toList, false, "90".toList, some "^(-|\\+)?\\d{1,2}(\\.\\d*)?$".toList⟩,
  ⟨"ra".toList, false, "right_ascension".toList, some "^'(-|\\+)?((\\d+(\\.\\d*)?)|(\\d{2}:\\d{2}:\\d{2}(\\.\\d*)?))'$".toList⟩,
  ⟨"dec".toList, false, "declination".toList, some "^'(-|\\+)?((\\d+(\\.\\d*)?)|(\\d{2}:\\d{2}:\\d{2}(\\.\\d*)?))'$".toList⟩,
  ⟨"startHA".toList, false, "-4h".toList, some "^(-|\\+)*\\d+(\\.\\d*)?(h|m|s)$".toList⟩,
  ⟨"stopHA".toList, false, "4h".toList, some "^(-|\\+)*\\d+(\\.\\d*)?(h|m|s)$".toList⟩,
  ⟨"startTime".toList, false, "2021-01-01T00:00:00Z".toList, some "^20[1-2][0-9]-(0[1-9]|1[0-2])-(0[1-9]|[1-2][0-9]|3[0-1])T(0[0-9]|1[0-9]|2[0-4]):[0-5][0-9]:[0-5][0-9]Z$".toList⟩,
  ⟨"duration".toList, false, "".toList, some "^\\d+[smh]$".toList⟩,
  ⟨"parameters".toList, false, "parameters".toList, some "^(\\'.+\\')|(\".+\")|(.+)$".toList⟩,
  ⟨"noBeam".toList, false, "0".toList, none⟩,
  ⟨"toDo".toList, true, "tbd".toList, some "^(pulsar)|(dynamicspectrum)|(waveform)|(none)|(tbd)$".toList⟩,
  ⟨"subbandList".toList, false, "[41..451]".toList, some "^\\[(\\d{1,2}|[0-4]\\d{2}|50\\d|51[0-1])(,([1-9]|\\d{2}|[0-4]\\d{2}|50\\d|51[0-1])|\\.\\.([1-9]|\\d{2}|[0-4]\\d{2}|50\\d|51[0-1])(?=(,|\\])))*\\]$".toList⟩,
  ⟨"subbandFrq".toList, false, "[8.0-88.0]".toList, some "^\\[\\d{1,2}(\\.\\d*)?((,\\d{1,2}(\\.\\d*)?)|(-\\d{1,2}(\\.\\d*)?(?=(,|\\]))))*\\]$".toList⟩,
  ⟨"subbandListLoop".toList, false, "sb_list_loop".toList, none⟩,
  ⟨"subbandFrqLoop".toList, false, "sb_freq_loop".toList, none⟩,
  ⟨"useParentPointing".toList, true, "false".toList, some "^(true)|(false)$".toList⟩,
  ⟨"decal_az".toList, false, "0.0".toList, some "^(-|\\+)?\\d{1,3}(\\.\\d*)?$".toList⟩,
  ⟨"decal_el".toList, false, "0.0".toList, some "^(-|\\+)?\\d{1,2}(\\.\\d*)?$".toList⟩,
  ⟨"corAzel".toList, false, "default".toList, none⟩]

/-- Properties of the block `PhaseCenter` (parset_user_options.json:387-480). -/
def pcRows : List Row := [
  ⟨"target".toList, true, "numerical_beam_name".toList, some "^\\S*$".toList⟩,
  ⟨"simbadSearch".toList, false, "source_name".toList, none⟩,
  ⟨"psrcatSearch".toList, false, "psr_name".toList, none⟩,
  ⟨"trackingType".toList, false, "tracking".toList, some "(?i)^tracking|pointingto$".toList⟩,
  ⟨"directionType".toList, false, "J2000".toList, none⟩,
  ⟨"transitDate".toList, false, "2021-01-01T00:00:00Z".toList, some "^20[1-2][0-9]-(0[1-9]|1[0-2])-(0[1-9]|[1-2][0-9]|3[0-1])T(0[0-9]|1[0-9]|2[0-4]):[0-5][0-9]:[0-5][0-9]Z$".toList⟩,
  ⟨"decal_transit".toList, false, "0".toList, some "^(-|\\+)*\\d+(\\.\\d*)?(h|m|s)$".toList⟩,
  ⟨"ra".toList, false, "right_ascension".toList, some "^'(-|\\+)?((\\d+(\\.\\d*)?)|(\\d{2}:\\d{2}:\\d{2}(\\.\\d*)?))'$".toList⟩,
  ⟨"dec".toList, false, "declination".toList, some "^'(-|\\+)?((\\d+(\\.\\d*)?)|(\\d{2}:\\d{2}:\\d{2}(\\.\\d*)?))'$".toList⟩,
  ⟨"startHA".toList, false, "-4h".toList, some "^(-|\\+)*\\d+(\\.\\d*)?(h|m|s)$".toList⟩,
  ⟨"stopHA".toList, false, "4h".toList, some "^(-|\\+)*\\d+(\\.\\d*)?(h|m|s)$".toList⟩,
  ⟨"startTime".toList, false, "2021-01-01T00:00:00Z".toList, some "^20[1-2][0-9]-(0[1-9]|1[0-2])-(0[1-9]|[1-2][0-9]|3[0-1])T(0[0-9]|1[0-9]|2[0-4]):[0-5][0-9]:[0-5][0-9]Z$".toList⟩,
  ⟨"duration".toList, false, "".toList, some "^\\d+[smh]$".toList⟩,
  ⟨"parameters".toList, false, "parameters".toList, some "^(\\'.+\\')|(\".+\")|(.+)$".toList⟩,
  ⟨"noBeam".toList, false, "0".toList, none⟩,
  ⟨"toDo".toList, true, "nickel".toList, some "^nickel$".toList⟩,
  ⟨"subbandList".toList, false, "[41..451]".toList, some "^\\[(\\d{1,2}|[0-4]\\d{2}|50\\d|51[0-1])(,([1-9]|\\d{2}|[0-4]\\d{2}|50\\d|51[0-1])|\\.\\.([1-9]|\\d{2}|[0-4]\\d{2}|50\\d|51[0-1])(?=(,|\\])))*\\]$".toList⟩,
  ⟨"subbandFrq".toList, false, "[8.0-88.0]".toList, some "^\\[\\d{1,2}(\\.\\d*)?((,\\d{1,2}(\\.\\d*)?)|(-\\d{1,2}(\\.\\d*)?(?=(,|\\]))))*\\]$".toList⟩,
  ⟨"useParentPointing".toList, true, "false".toList, some "^(true)|(false)$".toList⟩]

/-- `_ParsetBlock.__init__` (parset.py:1550-1552, observation/__init__.py:7-11): the properties with the values they have when nothing is given. -/
def fresh (l : List Row) : Block := l.map fun r => ⟨r.key, r.value, false, r.required⟩

/-- `dictionnary[key]['syntax']` (parset.py:2439-2442). -/
def synOf (l : List Row) (k : Str) : Option Str := (l.find? fun r => r.key = k).bind Row.syn

/-- A user parset: the blocks, and for each analog beam its block, those of its numerical beams and of its phase centers. Used for parset.py:1806-1809. -/
structure UFile where
  obs : Block
  out : Block
  anas : List (Block × List Block × List Block)

/-- `_update_beam_numbers` (parset.py:2531-2538). -/
def UFile.numbered (u : UFile) : UFile :=
  { u with obs := modify u.obs [("nrAnabeams".toList, .text (natStr u.anas.length)), ("nrBeams".toList, .text (natStr (u.anas.map fun a => a.2.1.length).sum)),
      ("nrPhaseCenters".toList, .text (natStr (u.anas.map fun a => a.2.2.length).sum))] }

/-- One turn of `check_keys` (parset.py:2437-2460): nothing is asked without a pattern or if the property has not been given. -/
def checkField (l : List Row) (f : Field) : Except Err Bool :=
  (synOf l f.key).elim (.ok true) fun p => if f.modified then fullmatchText p f.value else .ok true

/-- `check_keys` (parset.py:2433-2462). -/
def checkKeys (l : List Row) : Block → Except Err Bool
  | [] => .ok true
  | f :: b => (checkField l f).bind fun x => (checkKeys l b).map fun y => x && y

/-- The blocks in the order of their checks, with their properties (parset.py:2465-2481). -/
def UFile.blocks (u : UFile) : List (List Row × Block) :=
  (obsRows, u.obs) :: (outRows, u.out) :: u.anas.flatMap fun a => (anaRows, a.1) :: ((a.2.1.map fun b => (beamRows, b)) ++ a.2.2.map fun b => (pcRows, b))

/-- The checks one after the other (parset.py:2465-2481). -/
def checkAll : List (List Row × Block) → Except Err Bool
  | [] => .ok true
  | b :: l => (checkKeys b.1 b.2).bind fun x => (checkAll l).map fun y => x && y

/-- `validate` (parset.py:2404-2483). The beams are always said to be above the horizon (parset.py:1641-1645). -/
def UFile.validate (u : UFile) : Except Err (UFile × Bool) := (checkAll u.numbered.blocks).map fun b => (u.numbered, b)

end Verif.Parset
