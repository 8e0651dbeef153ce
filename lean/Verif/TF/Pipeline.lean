import Verif.Common.Prelude

/-!
# Model of the pipeline of `Spectra` objects: `nenupy/io/tf.py` and the parameters of `nenupy/io/tf_utils.py`

Functions that change an object give the object afterwards even when they raise an exception.
-/

namespace Verif.TF

/-! ## Parameters -/

/-- Values given to parameters. Times and quantities are numbers, in the unit of the parameter. Used for tf_utils.py:2528-2551. -/
inductive PyVal
  | none
  | bool (b : Bool)
  | num (q : ℚ)
  | nan
  | text (s : List Char)
  | list (l : List ℚ)
  | other (k : Nat)
  deriving DecidableEq

/-- The classes of parameters (tf_utils.py:2560-2654): `_FixedParameter`, `_ValueParameter`, `_RestrictedParameter`, `_BooleanParameter`. -/
inductive Kind
  | fixed
  | value (min max : Option ℚ) (res : ℚ)
  | restricted (avail : List ℚ)
  | boolean
  deriving DecidableEq

/-- A parameter. `conv` is `_type_check` (tf_utils.py:2528-2551): the value itself if it has the expected type or if there is none,
else its conversion, which fails with `none`. -/
structure Param where
  name : List Char
  kind : Kind
  conv : PyVal → Option PyVal
  val : PyVal

/-- `v < x` for a number `x`; a comparison with NaN is false. Used for tf_utils.py:2604-2609. -/
def ltNum : PyVal → ℚ → Except Err Bool
  | .num q, x => .ok (decide (q < x))
  | .nan, _ => .ok false
  | .bool b, x => .ok (decide ((if b then 1 else 0 : ℚ) < x))
  | _, _ => .error .typeError

/-- `v > x` for a number `x`. Used for tf_utils.py:2610-2615. -/
def gtNum : PyVal → ℚ → Except Err Bool
  | .num q, x => .ok (decide (x < q))
  | .nan, _ => .ok false
  | .bool b, x => .ok (decide (x < (if b then 1 else 0 : ℚ)))
  | _, _ => .error .typeError

/-- First test of tf_utils.py:2604-2609. -/
def belowMin (min : Option ℚ) (res : ℚ) (v : PyVal) : Except Err Bool :=
  if min.isSome then ltNum v (min.getD 0 - res / 2) else .ok false

/-- Second test (tf_utils.py:2610-2615). -/
def aboveMax (max : Option ℚ) (res : ℚ) (v : PyVal) : Except Err Bool :=
  if max.isSome then gtNum v (max.getD 0 + res / 2) else .ok false

/-- Items of the loop of tf_utils.py:2635-2640, those which are numbers. Characters of a text and other objects are never available. -/
def allAvailable (avail : List ℚ) : PyVal → Bool
  | .num q => decide (q ∈ avail)
  | .bool b => decide ((if b then 1 else 0 : ℚ) ∈ avail)
  | .list l => l.all fun q => decide (q ∈ avail)
  | .text s => decide (s = [])
  | _ => false

/-- `is_expected_value` (tf_utils.py:2574, 2603-2616, 2634-2641, 2650-2654). -/
def expected : Kind → PyVal → Except Err Bool
  | .fixed, _ => .error .exception
  | .value min max res, v =>
    (belowMin min res v).bind fun b => if b then .ok false else (aboveMax max res v).map fun c => !c
  | .restricted avail, v => .ok (allAvailable avail v)
  | .boolean, .bool _ => .ok true
  | .boolean, _ => .ok false

/-- New value of a parameter, after conversion and check (tf_utils.py:2509-2523 and 2571-2572). -/
def checked (p : Param) (v : PyVal) : Except Err PyVal :=
  if p.kind = .fixed then .error .exception
  else if v = .none then .ok .none
  else
    (((p.conv v).map Except.ok).getD (.error .typeError)).bind fun w =>
      (expected p.kind w).bind fun b => if b then .ok w else .error .valueError

/-- Assignment of a parameter: the value is stored last, so that nothing is if an exception is raised. Used for tf_utils.py:2719-2720, 2751-2759. -/
def Param.assign (p : Param) (v : PyVal) : Option Err × Param :=
  match checked p v with
  | .error e => (some e, p)
  | .ok w => (none, { p with val := w })

/-- `TFPipelineParameters` (tf_utils.py:2698-2707). -/
structure Pars where
  params : List Param
  original : List Param

/-- Lower case of a name. Used for tf_utils.py:2719-2720, 2751-2759. -/
def lowerName (s : List Char) : List Char := s.map Char.toLower

/-- Assignment of the first parameter with a name (tf_utils.py:2719-2720, 2751-2759): the error, and the parameters afterwards. -/
def assignFirst (name : List Char) (v : PyVal) : List Param → Option Err × List Param
  | [] => (some .keyError, [])
  | p :: ps =>
    if p.name = lowerName name then ((p.assign v).1, (p.assign v).2 :: ps)
    else ((assignFirst name v ps).1, p :: (assignFirst name v ps).2)

/-- `TFPipelineParameters.__setitem__` (tf_utils.py:2709-2720). -/
def Pars.set (s : Pars) (name : List Char) (v : PyVal) : Option Err × Pars :=
  ((assignFirst name v s.params).1, { s with params := (assignFirst name v s.params).2 })

/-- `TFPipelineParameters.__getitem__` (tf_utils.py:2722-2723). -/
def Pars.get (s : Pars) (name : List Char) : Except Err PyVal :=
  ((s.params.find? fun p => decide (p.name = lowerName name)).map fun p => Except.ok p.val).getD (.error .keyError)

/-- `TFPipelineParameters.reset` (tf_utils.py:2783). -/
def Pars.reset (s : Pars) : Pars := { s with params := s.original }

/-- `TFPipelineParameters.__init__` (tf_utils.py:2706-2707). -/
def Pars.mk' (ps : List Param) : Pars := ⟨ps, ps⟩

/-- What can be done to the parameters of a pipeline. Used for tf_utils.py:2709-2783. -/
inductive ParOp
  | set (name : List Char) (v : PyVal)
  | reset

/-- One operation; an exception is seen by the user, who may carry on. Used for tf_utils.py:2709-2783. -/
def Pars.apply (s : Pars) : ParOp → Pars
  | .set n v => (s.set n v).2
  | .reset => s.reset

/-! ## Reading data -/

/-- How the body of `Spectra.get` ends (tf.py:1428-1485). -/
inductive Outcome
  | returned
  | stored
  | tooLarge
  | raised (e : Err)
  | interrupted

/-- Assignment of the options in turn, until one is refused (tf.py:1425-1426). -/
def setAll (s : Pars) : List (List Char × PyVal) → Option Err × Pars
  | [] => (none, s)
  | o :: os => if (s.set o.1 o.2).1 = none then setAll (s.set o.1 o.2).2 os else s.set o.1 o.2

/-- `Spectra.get` (tf.py:1423-1485): the exception, if any, and the parameters of the reader afterwards. `interrupted` is
an exception which is not an `Exception` (a keyboard interruption during a long computation). -/
def spectraGet (body : Pars → Outcome) (s : Pars) (opts : List (List Char × PyVal)) : Option Err × Pars :=
  match (setAll s opts).1 with
  | some e => (some e, (setAll s opts).2)
  | none =>
    match body (setAll s opts).2 with
    | .returned => (none, s)
    | .stored => (none, s)
    | .tooLarge => (none, (setAll s opts).2)
    | .raised e => (some e, s)
    | .interrupted => (some .exception, (setAll s opts).2)

/-! ## Tasks -/

/-- A task (tf.py:148-153): only what the list of tasks depends on. -/
structure Task where
  name : List Char
  repeatable : Bool
  deriving DecidableEq

/-- `contains` (tf.py:1126). -/
def containsTask (ts : List Task) (name : List Char) : Bool := ts.any fun t => decide (t.name = name)

/-- `list.insert`. Used for tf.py:1021-1028. -/
def pyInsert {α : Type} (l : List α) (i : Int) (x : α) : List α :=
  l.take (pyBound l.length i) ++ x :: l.drop (pyBound l.length i)

/-- `TFPipeline.insert` (tf.py:1021-1028) of a task. -/
def insertTask (ts : List Task) (t : Task) (i : Int) : List Task :=
  if containsTask ts t.name && !t.repeatable then ts else pyInsert ts i t

/-- `TFPipeline.append` (tf.py:1043-1050) of a task. -/
def appendTask (ts : List Task) (t : Task) : List Task :=
  if containsTask ts t.name && !t.repeatable then ts else ts ++ [t]

/-- Argument of `remove`. Used for tf.py:1090-1101. -/
inductive RmArg
  | name (s : List Char)
  | index (i : Int)
  | other

/-- Position meant by a Python index on a list of length `n`. Used for tf.py:1090-1101. -/
def pyIndex (n : Nat) (i : Int) : Option Nat :=
  if 0 ≤ i ∧ i < n then some i.toNat else if -(n : Int) ≤ i ∧ i < 0 then some (i + n).toNat else none

/-- Removal of one argument (tf.py:1090-1101): the error, and the tasks afterwards. An unknown name is ignored. -/
def removeOne (ts : List Task) : RmArg → Option Err × List Task
  | .name s => (none, ts.eraseP fun t => decide (t.name = s))
  | .index i => ((if (pyIndex ts.length i).isSome then none else some .indexError),
      ((pyIndex ts.length i).map ts.eraseIdx).getD ts)
  | .other => (some .typeError, ts)

/-- `TFPipeline.remove` (tf.py:1089-1101): the error, and the tasks afterwards. -/
def removeTasks (ts : List Task) : List RmArg → Option Err × List Task
  | [] => (none, ts)
  | a :: as => if (removeOne ts a).1 = none then removeTasks (removeOne ts a).2 as else removeOne ts a

/-- `set_default` (tf.py:998-1004). -/
def defaultTasks : List Task :=
  [⟨"Correct bandpass".toList, false⟩, ⟨"Remove subband channels".toList, false⟩, ⟨"Rebin in time".toList, true⟩,
   ⟨"Rebin in frequency".toList, true⟩, ⟨"Compute Stokes parameters".toList, false⟩]

/-- What can be done to the tasks of a pipeline. Used for tf.py:998-1101. -/
inductive TaskOp
  | insert (t : Task) (i : Int)
  | append (t : Task)
  | remove (args : List RmArg)
  | default

/-- One operation. Used for tf.py:998-1101. -/
def applyTask (ts : List Task) : TaskOp → List Task
  | .insert t i => insertTask ts t i
  | .append t => appendTask ts t
  | .remove as => (removeTasks ts as).2
  | .default => defaultTasks

/-- `TFPipeline.run` (tf.py:1150-1154): `step` runs one task on the data. -/
def runTasks {D : Type} (step : Task → D → Except Err D) : List Task → D → Except Err D
  | [], d => .ok d
  | t :: ts, d => (step t d).bind (runTasks step ts)

end Verif.TF
