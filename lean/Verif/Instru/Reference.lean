import Verif.Common.Prelude
import Mathlib.Data.List.Sort
import Mathlib.Analysis.SpecialFunctions.Trigonometric.Basic

/-!
# Model of the choice of a measured antenna response: `nenupy/instru/antenna.py` and `nenufar.py`

Positions and projections are exact reals: the positions of the file (given to about a micrometre) are read as the
points of a triangular lattice of 5.5 m, and `np.isclose` is equality.
-/

namespace Verif.Instru

/-- Antennas of a mini-array (`miniarray_antennas.json`, read at antenna.py:341-342): the point `(a, b)` stands for
`x = 2.75 a`, `y = 2.75 √3 b`. -/
def antennas : List (String × (ℤ × ℤ)) :=
  [("Ant01", (-2, -2)), ("Ant02", (0, -2)), ("Ant03", (2, -2)), ("Ant04", (-3, -1)), ("Ant05", (-1, -1)), ("Ant06", (1, -1)),
   ("Ant07", (3, -1)), ("Ant08", (-4, 0)), ("Ant09", (-2, 0)), ("Ant10", (0, 0)), ("Ant11", (2, 0)), ("Ant12", (4, 0)), ("Ant13",
   (-3, 1)), ("Ant14", (-1, 1)), ("Ant15", (1, 1)), ("Ant16", (3, 1)), ("Ant17", (-2, 2)), ("Ant18", (0, 2)), ("Ant19", (2, 2))]

/-- Rotations of the mini-arrays, in degrees (`nenufar_array.json`, read at antenna.py:343). -/
def arrays : List (ℤ × ℤ) :=
  [(0, 0), (1, 30), (2, 300), (3, 200), (4, 20), (5, 180), (6, 180), (7, 230), (8, 150), (9, 240), (10, 290), (11, 310), (12, 250),
   (13, 40), (14, 330), (15, 280), (16, 60), (17, 110), (18, 10), (19, 210), (20, 320), (21, 260), (22, 250), (23, 170), (24, 180),
   (25, 50), (26, 300), (27, 210), (28, 320), (29, 330), (30, 60), (31, 20), (32, 290), (33, 240), (34, 230), (35, 340), (36, 170),
   (37, 350), (38, 260), (39, 160), (40, 220), (41, 120), (42, 140), (43, 130), (44, 110), (45, 150), (46, 300), (47, 190), (48,
   100), (49, 340), (50, 160), (51, 240), (52, 270), (53, 340), (54, 310), (55, 90), (56, 10), (57, 350), (58, 50), (59, 270), (60,
   310), (61, 220), (62, 40), (63, 80), (64, 140), (65, 200), (66, 190), (67, 60), (68, 50), (69, 170), (70, 70), (71, 0), (72, 90),
   (73, 140), (74, 350), (75, 120), (76, 30), (77, 190), (78, 270), (79, 40), (80, 130), (81, 150), (82, 100), (83, 70), (84, 280),
   (85, 130), (86, 100), (87, 250), (88, 220), (89, 160), (90, 110), (91, 90), (92, 80), (93, 10), (94, 20), (95, 120), (100, 270),
   (101, 270), (102, 270), (103, 90), (104, 90), (105, 90)]

/-- `ref_antennas` (antenna.py:324-330), also the files downloaded by `download_ant_ref_models` (antenna.py:407-427). -/
def measured : List (ℤ × List String) :=
  [(88, ["Ant01", "Ant02", "Ant03", "Ant05"]), (91, ["Ant02", "Ant08", "Ant09"]),
   (93, ["Ant01", "Ant02", "Ant05", "Ant10"]), (94, ["Ant02", "Ant06"]), (95, ["Ant01", "Ant02", "Ant05", "Ant10"])]

/-- `polarization_vectors` (antenna.py:332-335). -/
def polVectors : List (String × (ℤ × ℤ)) := [("NW", (-1, 1)), ("NE", (1, 1))]

/-- `nenufar_miniarrays[f"MA{ma_id:03d}"]["rotation"]` (antenna.py:343). -/
def rotation (ma : ℤ) : Option ℤ := arrays.lookup ma

/-- `np.argwhere(antenna_names == antenna)[0][0]` (antenna.py:359, 376): the point of a named antenna. -/
def antennaAt (name : String) : Option (ℤ × ℤ) := antennas.lookup name

/-- `np.radians(360 - rotation.value)` (antenna.py:344). -/
noncomputable def turnAngle (rot : ℤ) : ℝ := (360 - rot) * (Real.pi / 180)

/-- `np.dot(antPos, rotMatrix)`, first two coordinates (antenna.py:345-352). -/
noncomputable def turned (rot : ℤ) (p : ℤ × ℤ) : ℝ × ℝ :=
  ((11 / 4 * p.1) * Real.cos (turnAngle rot) - (11 / 4 * √3 * p.2) * Real.sin (turnAngle rot),
   -((11 / 4 * p.1) * Real.sin (turnAngle rot)) - (11 / 4 * √3 * p.2) * Real.cos (turnAngle rot))

/-- `np.dot(polarization_vectors[pol], (positions - positions[i]).T)` (antenna.py:363-366, 377-380). -/
noncomputable def scalars (rot : ℤ) (v : ℤ × ℤ) (p : ℤ × ℤ) : List ℝ :=
  antennas.map fun q => v.1 * ((turned rot q.2).1 - (turned rot p).1) + v.2 * ((turned rot q.2).2 - (turned rot p).2)

/-- `np.sort` (antenna.py:362, 381-382). -/
noncomputable def sortReals (l : List ℝ) : List ℝ := l.insertionSort (· ≤ ·)

/-- The comparison of antenna.py:383. -/
def sameScalars (d r : List ℝ) : Prop := sortReals d = sortReals r ∨ sortReals d = sortReals (r.map fun x => -x)

/-- One element of the returned list (antenna.py:384-390). -/
structure Dipole where
  ma : ℤ
  polar : String
  antenna : String
deriving DecidableEq

/-- The candidates, in the order of the three loops (antenna.py:372-376). -/
def candidates : List Dipole :=
  measured.flatMap fun m => polVectors.flatMap fun v => m.2.map fun a => ⟨m.1, v.1, a⟩

/-- Projections seen by a dipole (antenna.py:373, 376-380); `none` when a name is unknown. -/
noncomputable def seenBy (d : Dipole) : Option (List ℝ) :=
  (rotation d.ma).bind fun rot => (polVectors.lookup d.polar).bind fun v => (antennaAt d.antenna).map fun p =>
    scalars rot v p

open Classical in
/-- `ant_pol_to_ref` (antenna.py:278-392). -/
noncomputable def references (ma : ℤ) (antenna polar : String) : Except Err (List Dipole) :=
  if (polVectors.lookup polar).isNone then .error .valueError
  else if (rotation ma).isNone then .error .keyError
  else if (antennaAt antenna).isNone then .error .valueError
  else .ok (candidates.filter fun c => decide (∃ d r, seenBy ⟨ma, polar, antenna⟩ = some d ∧ seenBy c = some r ∧
    sameScalars d r))

/-- The file of an antenna response and the columns read in it. Used for nenufar.py:77-96. -/
inductive Response where
  | generic (polar : String)
  | file (ma : ℤ) (antenna : String) (polar : String)
deriving DecidableEq

/-- `ant_pol_to_ref(…)[0]` (nenufar.py:81-85). -/
noncomputable def firstReference (ma : ℤ) (antenna polar : String) : Except Err Dipole :=
  (references ma antenna polar).bind fun l => (l.head?).elim (.error .indexError) .ok

/-- `_AntennaGain.__init__` (nenufar.py:77-94), without a `filename`: the file read, and the polarisation looked for in it.
The existence of the file is not modelled. -/
noncomputable def response (polar : String) (antenna : Option String) (ma : Option ℤ) : Except Err Response :=
  antenna.elim (.ok (.generic polar)) fun a => ma.elim (.ok (.generic polar)) fun m =>
    (firstReference m a polar).map fun r => .file r.ma r.antenna polar

end Verif.Instru
