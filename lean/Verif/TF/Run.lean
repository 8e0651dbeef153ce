import Verif.TF.Model
import Verif.TF.Pipeline
import Verif.TF.Stokes

/-!
# Running a pipeline: axes, shapes, steps and active tasks

Model of the tasks of tf.py:209-881 and of `TFPipeline.info` and `run` (942-982, 1128-1154). The data are represented by their shape and by
the number of recorded samples averaged in each of their samples; the values computed by each task are modelled in other files.
-/

namespace Verif.TF

/-- The tasks offered by the library (tf.py:209-800). -/
inductive PTask
  | bandpass | flatten | remove | dreambeam | parallactic | faraday | dedisperse | timeRebin | freqRebin | stokes | freqRfi | timeRfi
  deriving DecidableEq

/-- Parameters read by the tasks (tf_utils.py:2876-3016). `none` is Python's `None`. `channels`, `dt` and `df` are fixed and set. A Stokes
parameter given as a text is the list of this text, and the empty text the empty list. -/
structure RunPars where
  channels : Nat
  dt : ℚ
  df : ℚ
  dm : Option ℚ
  rm : Option ℚ
  rebinDt : Option ℚ
  rebinDf : Option ℚ
  removeCh : Option (List Int)
  skycoord : Option Unit
  calibDt : Option ℚ
  dreambeamPar : Option Bool
  stokes : Option (List String)
  ignoreVolume : Option Bool
  smooth : Option Bool
  lna : Option Int

/-- Default parameters (tf_utils.py:2876-3016). -/
def RunPars.default (channels : Nat) (dt df : ℚ) : RunPars :=
  ⟨channels, dt, df, none, none, none, none, none, none, none, some true, some ["I"], some false, some false, none⟩

/-! ## Active tasks -/

/-- Some parameter of `args_to_update` is `None` (tf.py:830, lists at 242, 275, 310, 404-410, 454-459, 514, 587, 638, 681, 713, 756, 799). -/
def missing : PTask → RunPars → Bool
  | .bandpass, p => p.lna.isNone
  | .flatten, p => p.smooth.isNone
  | .remove, p => p.removeCh.isNone
  | .dreambeam, p => p.skycoord.isNone || p.calibDt.isNone || p.dreambeamPar.isNone
  | .parallactic, p => p.skycoord.isNone || p.calibDt.isNone
  | .faraday, p => p.rm.isNone
  | .dedisperse, p => p.dm.isNone || p.ignoreVolume.isNone
  | .timeRebin, p => p.rebinDt.isNone
  | .freqRebin, p => p.rebinDf.isNone
  | .stokes, p => p.stokes.isNone
  | .freqRfi, _ => false
  | .timeRfi, _ => false

/-- A task of a pipeline and its `is_active` attribute (tf.py:148-153). -/
structure TaskSt where
  kind : PTask
  active : Bool

/-- A new task (tf.py:149). -/
def TaskSt.new (k : PTask) : TaskSt := ⟨k, false⟩

/-- `TFTask.update` (tf.py:819-832): the attribute is only ever set to true. -/
def TaskSt.update (t : TaskSt) (p : RunPars) : TaskSt := if missing t.kind p then t else { t with active := true }

/-- Whether `info` shows the task without parentheses (tf.py:972-978) after the updates made by `info` and `run` (974, 1151) with the given
values of the parameters, the last one by this call. -/
def shownActive (k : PTask) (history : List RunPars) : Bool := (history.foldl TaskSt.update (TaskSt.new k)).active

/-- The embedded function returns the data as they are (tf.py:301-302, 383-388, 435-439, 503-504, 562-573, 627-628, 669-670, 708-709).
`big` tells whether the data exceed the volume threshold. -/
def idle (big : Bool) : PTask → RunPars → Bool
  | .bandpass, _ => false
  | .flatten, _ => false
  | .remove, p => decide (p.removeCh.getD [] = [])
  | .dreambeam, p => p.calibDt.isNone || p.skycoord.isNone || p.dreambeamPar.isNone
  | .parallactic, p => p.calibDt.isNone || p.skycoord.isNone
  | .faraday, p => p.rm.isNone
  | .dedisperse, p => p.dm.isNone || (big && !p.ignoreVolume.getD false)
  | .timeRebin, p => p.rebinDt.isNone
  | .freqRebin, p => p.rebinDf.isNone
  | .stokes, p => decide (p.stokes.getD [] = [])
  | .freqRfi, _ => false
  | .timeRfi, _ => false

/-! ## Shapes -/

/-- Sizes of the time and frequency axes, shape of the data `(rows, cols) + rest`, and number of recorded samples averaged in one sample along
each axis. Used for tf.py:834-881. -/
structure Frame where
  nt : Nat
  nf : Nat
  rows : Nat
  cols : Nat
  rest : List Nat
  tBin : Nat
  fBin : Nat
  deriving DecidableEq

/-- `correct_bandpass` (tf_utils.py:712-738), with the checks of `get_bandpass` (1246) and `bandpass_correction_coefficients` (276). -/
def bandpassShape (p : RunPars) (fr : Frame) : Except Err Frame :=
  if p.channels < 16 ∨ p.channels % 2 ≠ 0 then .error .valueError
  else if fr.rest.length ≠ 2 then .error .valueError
  else if fr.cols % p.channels ≠ 0 then .error .valueError
  else if fr.rows * fr.cols * size fr.rest ≠ fr.rows * fr.cols * 4 then .error .valueError
  else if p.lna.any (fun k => decide (k < 0) || decide (3 < k)) then .error .valueError
  else if p.lna.isSome ∧ fr.nf ≠ fr.cols then .error .valueError
  else .ok { fr with rest := [2, 2] }

/-- `flatten_subband` (tf_utils.py:1372-1431). -/
def flattenShape (p : RunPars) (fr : Frame) : Except Err Frame := (subbandsOk fr.cols p.channels).map fun _ => fr

/-- `remove_channels_per_subband` (tf_utils.py:2113-2141). -/
def removeShape (p : RunPars) (fr : Frame) : Except Err Frame :=
  if (p.removeCh.getD []).any fun c => decide (c < -(p.channels : Int)) || decide ((p.channels : Int) ≤ c) then .error .indexError
  else (subbandsOk fr.cols p.channels).map fun _ => fr

/-- Shapes of `apply_dreambeam_corrections` and `correct_parallactic` (tf_utils.py:134-245, 754-839). Failures in the computation of the
matrices are not modelled. -/
def jonesShape (p : RunPars) (fr : Frame) : Except Err Frame :=
  if fr.nt ≠ fr.rows then .error .valueError
  else if fr.nf ≠ fr.cols then .error .valueError
  else (subbandsOk fr.nf p.channels).bind fun _ =>
    (timeGroups fr.nt p.dt (p.calibDt.getD 0)).bind fun _ =>
      if fr.rows * fr.cols * size fr.rest ≠ fr.rows * fr.cols * 4 then .error .valueError
      else .ok { fr with rest := [2, 2] }

/-- `de_faraday_data` (tf_utils.py:1191-1208). -/
def faradayShape (fr : Frame) : Except Err Frame :=
  if fr.cols ≠ fr.nf ∨ fr.rest ≠ [2, 2] then .error .exception else .ok fr

/-- `de_disperse_array` (tf_utils.py:1037-1074): the shape is kept. -/
def dedisperseShape (fr : Frame) : Except Err Frame :=
  if fr.cols ≠ fr.nf then .error .valueError else if fr.nf = 0 then .error .valueError else .ok fr

/-- Number of samples averaged by `rebin_along_dimension` (tf_utils.py:2033-2046): width of the windows. -/
def rebinWidth (n : Nat) (dx ndx : ℚ) : Nat :=
  (n - n % ((rebinSizes n dx ndx).2 * (rebinSizes n dx ndx).1)) / (rebinSizes n dx ndx).2

/-- `rebin_along_dimension` (tf_utils.py:2012-2059) along time. -/
def timeRebinShape (p : RunPars) (fr : Frame) (ndx : ℚ) : Except Err Frame :=
  if fr.rows ≠ fr.nt then .error .valueError
  else if ndx < p.dt then .error .valueError
  else if (rebinSizes fr.nt p.dt ndx).2 * (rebinSizes fr.nt p.dt ndx).1 = 0 then .error .zeroDivision
  else .ok { fr with nt := (rebinSizes fr.nt p.dt ndx).2, rows := (rebinSizes fr.nt p.dt ndx).2,
                     tBin := fr.tBin * rebinWidth fr.nt p.dt ndx }

/-- `rebin_along_dimension` (tf_utils.py:2012-2059) along frequency. -/
def freqRebinShape (p : RunPars) (fr : Frame) (ndx : ℚ) : Except Err Frame :=
  if fr.cols ≠ fr.nf then .error .valueError
  else if ndx < p.df then .error .valueError
  else if (rebinSizes fr.nf p.df ndx).2 * (rebinSizes fr.nf p.df ndx).1 = 0 then .error .zeroDivision
  else .ok { fr with nf := (rebinSizes fr.nf p.df ndx).2, cols := (rebinSizes fr.nf p.df ndx).2,
                     fBin := fr.fBin * rebinWidth fr.nf p.df ndx }

/-- Names accepted by `compute_stokes_parameters` (tf_utils.py:622-655). -/
def stokesKnown (s : String) : Bool :=
  decide (stokesName s ∈ ["I".toList, "Q".toList, "U".toList, "V".toList, "L".toList, "Q/I".toList, "U/I".toList, "V/I".toList,
    "L/I".toList])

/-- `compute_stokes_parameters` (tf_utils.py:610-665). -/
def stokesShape (names : List String) (fr : Frame) : Except Err Frame :=
  if fr.rest ≠ [2, 2] then .error .exception
  else if names.any fun s => !stokesKnown s then .error .notImplemented
  else .ok { fr with rest := [names.length] }

/-- One task run on the data (tf.py:834-881). -/
def runTask (big : Frame → Bool) (p : RunPars) (k : PTask) (fr : Frame) : Except Err Frame :=
  if idle (big fr) k p then .ok fr
  else match k with
    | .bandpass => bandpassShape p fr
    | .flatten => flattenShape p fr
    | .remove => removeShape p fr
    | .dreambeam => jonesShape p fr
    | .parallactic => jonesShape p fr
    | .faraday => faradayShape fr
    | .dedisperse => dedisperseShape fr
    | .timeRebin => timeRebinShape p fr (p.rebinDt.getD 0)
    | .freqRebin => freqRebinShape p fr (p.rebinDf.getD 0)
    | .stokes => stokesShape (p.stokes.getD []) fr
    | .freqRfi => .ok fr
    | .timeRfi => .ok fr

/-- `TFPipeline.run` (tf.py:1150-1154). -/
def runAll (big : Frame → Bool) (p : RunPars) : List PTask → Frame → Except Err Frame
  | [], fr => .ok fr
  | k :: ks, fr => (runTask big p k fr).bind (runAll big p ks)

/-- Tasks of `set_default` (tf.py:998-1004). -/
def defaultKinds : List PTask := [.bandpass, .remove, .timeRebin, .freqRebin, .stokes]

/-- Labels given to the polarisations of the result, and the last dimensions of its data (tf.py:1853-1871, sdata.py:355-409): with a Stokes task
the labels are the parameter, otherwise the four products. -/
def labels (ks : List PTask) (p : RunPars) (fr : Frame) : Except Err (List String) :=
  if PTask.stokes ∈ ks then
    if p.stokes.isNone then .error .typeError
    else if fr.rest.length ≠ 1 then .error .valueError
    else if fr.rest ≠ [(p.stokes.getD []).length] then .error .assertion
    else .ok (p.stokes.getD [])
  else if size fr.rest ≠ 4 then .error .assertion
  else .ok ["XX", "XY", "YX", "YY"]

end Verif.TF
