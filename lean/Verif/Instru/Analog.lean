import Verif.Instru.Grid
import Verif.Instru.Squint

/-!
# Analog pointing of mini-arrays: `MiniArray.analog_pointing`, `MiniArray.beam`, `NenuFAR.beam` and `NenuFAR.__init__`

Directions are azimuths and elevations in radians, over exact reals. `PropsGrid` has the angle between two directions.
-/

namespace Verif.Instru

noncomputable section

/-- Angle between two directions, as `SkyCoord.separation` (nenufar.py:850). -/
def angleOf (d e : ℝ × ℝ) : ℝ :=
  Real.arccos (Real.cos d.2 * Real.sin d.1 * (Real.cos e.2 * Real.sin e.1) + Real.cos d.2 * Real.cos d.1 * (Real.cos e.2 * Real.cos e.1) +
    Real.sin d.2 * Real.sin e.2)

/-- `np.unravel_index(np.argmin(separations), …)` (nenufar.py:849-856): the first of the closest nodes, rows first; the grid is transposed (1012). -/
def node (rot : ℝ) (d : ℝ × ℝ) : Nat × Nat :=
  let k := firstLeast ((List.range 16384).map fun k => angleOf d (gridDir rot (k / 128) (k % 128)))
  (k / 128, k % 128)

/-- `_order_to_skycoord(_skycoord_to_order(d))` (nenufar.py:837-858, 927-928): one is taken off the numbers from 64 on (857). -/
def snap (rot : ℝ) (d : ℝ × ℝ) : ℝ × ℝ := gridDir rot (fixWrong (node rot d).1) (fixWrong (node rot d).2)

/-- `NenuFAR_Configuration` (nenufar.py:188-213). -/
structure BeamConf where
  squintOn : Bool
  freq : ℝ

/-- Values given as `beamsquint_frequency`. Used for nenufar.py:204-213. -/
inductive FreqArg
  | plain (x : ℝ)
  | scalar (x : ℝ)
  | array (l : List ℝ)

/-- `beamsquint_frequency` setter (nenufar.py:204-213). -/
def setFreq : FreqArg → Except Err ℝ
  | .plain _ => .error .typeError
  | .array _ => .error .valueError
  | .scalar x => .ok x

/-- `beamsquint_correction` (nenufar.py:861-902) of a direction in radians. -/
def squintDir (f : ℝ) (d : ℝ × ℝ) : ℝ × ℝ := (d.1, squint f (d.2 * 180 / Real.pi) * Real.pi / 180)

/-- Direction set by a mini-array for the direction it is asked (nenufar.py:917-931). -/
def analogDir (c : BeamConf) (rot : ℝ) (d : ℝ × ℝ) : ℝ × ℝ := snap rot (if c.squintOn then squintDir c.freq d else d)

/-- A `Pointing` object: the horizontal coordinates computed from its right ascensions and declinations at its times, and those set by hand. Used for
astro_tools.py:1182-1216, pointing.py:102-111. -/
structure Track where
  sky : List (ℝ × ℝ)
  custom : Option (List (ℝ × ℝ))

/-- `horizontal_coordinates` (astro_tools.py:1183-1207, pointing.py:298-316). -/
def Track.horizontal (p : Track) : List (ℝ × ℝ) := p.custom.getD p.sky

/-- `analog_pointing` (nenufar.py:905-938): the directions are set in the object which was given. -/
def analogPoint (c : BeamConf) (rot : ℝ) (p : Track) : Track := { p with custom := some (p.horizontal.map (analogDir c rot)) }

/-- `MiniArray.beam` (nenufar.py:454-582): the beam for the directions left in the pointing, and that pointing. `value` is the computation of `Interferometer.beam`, on
copies of the sky and of the pointing (interferometer.py:782-783). -/
def maBeam {V : Type} (value : ℝ → List (ℝ × ℝ) → V) (c : BeamConf) (rot : ℝ) (p : Track) : V × Track :=
  (value rot (analogPoint c rot p).horizontal, analogPoint c rot p)

/-- The beams of the groups of mini-arrays (nenufar.py:1345-1354), by the rotation of the first one of each group, and the analog pointing afterwards. -/
def groupBeams {V : Type} (value : ℝ → List (ℝ × ℝ) → V) (c : BeamConf) : List ℝ → Track → List V × Track
  | [], p => ([], p)
  | r :: l, p => ((maBeam value c r p).1 :: (groupBeams value c l (maBeam value c r p).2).1, (groupBeams value c l (maBeam value c r p).2).2)

/-- `NenuFAR.beam` (nenufar.py:1248-1363): the directions of the array factor, the beams of the groups, the numerical and the analog pointings afterwards. Without an analog
pointing the numerical one is used (1319-1320): they are the same object. -/
def arrayRun {V : Type} (value : ℝ → List (ℝ × ℝ) → V) (c : BeamConf) (rots : List ℝ) (num : Track) (ana : Option Track) :
    List (ℝ × ℝ) × List V × Track × Option Track :=
  ana.elim (num.horizontal, (groupBeams value c rots num).1, (groupBeams value c rots num).2, none) fun a =>
    (num.horizontal, (groupBeams value c rots a).1, num, some (groupBeams value c rots a).2)

end

/-! ## The whole array -/

/-- An entry of `nenufar_array.json`, with the name as its key. Used for nenufar.py:1110-1119. -/
structure MaEntry (P : Type) where
  name : String
  id : Nat
  pos : P
  rot : Int

/-- `include_remote_mas` setter (nenufar.py:1173-1178). `none` is any value which is not a boolean. -/
def setRemote : Option Bool → Except Err Bool
  | none => .error .typeError
  | some b => .ok b

/-- `NenuFAR(miniarray_antennas, include_remote_mas)` (nenufar.py:1106-1133). `gain` is the beam of the mini-array of a number, restricted to the antennas. -/
def nenufarNew {P Gn : Type} (table : List (MaEntry P)) (gain : Nat → Gn) (remote : Option Bool) : Except Err (Interf P Gn) :=
  (setRemote remote).map fun inc =>
    let m : Nat → Bool := fun i => inc || !((table.map MaEntry.name)[i]?.any fun s => s.startsWith "MA1")
    Interf.new (pick m (table.map MaEntry.name)) (pick m (table.map MaEntry.pos)) (pick m (table.map fun e => gain e.id))

/-- `miniarray_rotations` (nenufar.py:1151-1156). -/
def rotationsOf {P Gn : Type} (table : List (MaEntry P)) (s : Interf P Gn) : List (Option Int) :=
  s.names.map fun n => (table.find? fun e => decide (e.name = n)).map MaEntry.rot

end Verif.Instru
