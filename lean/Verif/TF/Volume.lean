import Verif.Common.Prelude

/-!
# The limit on the volume of the data (nenupy/io/tf.py)

The limit interrupts the computation of a large result, and the de-dispersion of a large table, which is done outside of Dask. Tables have their
real shape; what each of the tasks other than the de-dispersion computes, and the de-dispersion itself, are parameters.
-/

namespace Verif.TF

/-- A table of the pipeline: its shape (the dimensions after time and frequency are merged), the bytes of an item, and its items. Used for
tf.py:565, 1809. -/
structure Cube where
  nt : Nat
  nf : Nat
  np : Nat
  item : Nat
  val : Nat → Nat → Nat → Option ℚ

/-- `data.nbytes` (tf.py:565, 1809). -/
def Cube.nbytes (c : Cube) : Nat := c.nt * c.nf * c.np * c.item

/-- `DATA_VOLUME_SECURITY_THRESHOLD` (tf.py:57), in bytes. -/
def volumeLimit : Nat := 2 * 1024 ^ 3

/-- `projected_data_volume >= DATA_VOLUME_SECURITY_THRESHOLD and not ignore_volume_warning` (tf.py:566-568, 1810-1812). -/
def tooBig (ignore : Bool) (c : Cube) : Bool := decide (c.nbytes ≥ volumeLimit) && !ignore

/-- The de-dispersion task (tf.py:559-582); `shift` is `de_disperse_array` (577-582). -/
def deDisperseTask (shift : ℚ → Cube → Except Err Cube) (dm : Option ℚ) (ignore : Bool) (c : Cube) : Except Err Cube :=
  dm.elim (.ok c) fun m : ℚ => if tooBig ignore c then .ok c else shift m c

/-- A task of the pipeline. Used for tf.py:1150-1154. -/
inductive VTask
  | dedisperse
  | other (f : Cube → Except Err Cube)

/-- A task run on a table. Used for tf.py:1150-1154. -/
def VTask.run (shift : ℚ → Cube → Except Err Cube) (dm : Option ℚ) (ignore : Bool) : VTask → Cube → Except Err Cube
  | .dedisperse, c => deDisperseTask shift dm ignore c
  | .other f, c => f c

/-- `TFPipeline.run` (tf.py:1150-1154). -/
def runVol (shift : ℚ → Cube → Except Err Cube) (dm : Option ℚ) (ignore : Bool) : List VTask → Cube → Except Err Cube
  | [], c => .ok c
  | t :: l, c => (t.run shift dm ignore c).bind (runVol shift dm ignore l)

/-- `_data_to_numpy_array` (tf.py:1808-1832): nothing above the limit. -/
def toNumpy (ignore : Bool) (c : Cube) : Option Cube := if tooBig ignore c then none else some c

/-- `Spectra.get` (tf.py:1438-1478) after the selection of the data: what is returned (`toFile` false) or stored. -/
def getVol (shift : ℚ → Cube → Except Err Cube) (dm : Option ℚ) (ignore toFile : Bool) (l : List VTask) (c : Cube) :
    Except Err (Option Cube) :=
  (runVol shift dm ignore l c).map fun d : Cube => if toFile then some d else toNumpy ignore d

end Verif.TF
