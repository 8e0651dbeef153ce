import Verif.IO.Xst

/-!
# Mini-arrays of a beam formed from cross-correlations (nenupy/io/xst.py:997-1050)

For one time and one frequency.
-/

namespace Verif.IO

open Complex

/-- `NenuFAR()[mini_arrays]` (xst.py:1002-1005; interferometer.py:197-238): numbers of the selected antennas among `size` of them, in increasing
order. The names of the antennas of the core hold their numbers. -/
def antennasOf (size : Nat) (asked : List Int) : Except Err (List Nat) :=
  if asked = [] then .error .valueError
  else if ¬ asked.Nodup then .error .exception
  else if asked.any fun x => decide ((size : Int) ≤ x) then .error .exception
  else .ok ((List.range size).filter fun i => decide ((i : Int) ∈ asked))

/-- `ma_real_indices` and `ma_indices` (xst.py:1001-1012). -/
def beamMinis (size : Nat) (recorded : List Nat) (asked : List Int) : Except Err (List Nat × List Nat) :=
  (antennasOf size asked).bind fun real =>
    if real.any fun m => decide (m ∉ recorded) then .error .indexError else .ok (real, maIndices recorded real)

/-- `pol_idx[polarization]` (xst.py:1021-1027). -/
def calColumn (pol : String) : Except Err Nat := if pol = "NW" then .ok 0 else if pol = "NE" then .ok 1 else .error .keyError

/-- `"XX" if polarization.upper() == "NW" else "YY"` (xst.py:1035). -/
def beamPol (pol : String) : Prod2 := if pol.toUpper = "NW" then ⟨.X, .X⟩ else ⟨.Y, .Y⟩

/-- `cal` (xst.py:1017-1029) of the `a`-th selected mini-array; `table` is the calibration of an antenna and a column at the frequency, `none` without calibration. -/
def calOf (table : Option (Nat → Nat → ℂ)) (pol : String) (real : List Nat) : Except Err (Nat → ℂ) :=
  table.elim (.ok fun _ => 1) fun t => (calColumn pol).map fun c a => t (real.getD a 0) c

/-- `vis_matrix[tri_x, tri_y] = vis` (xst.py:1039-1049) for `b ≤ a`. -/
def trilAt (vis : List ℂ) (a b : Nat) : ℂ := vis.getD (a * (a + 1) / 2 + b) 0

/-- `mask` (xst.py:1013-1014). -/
def beamMask (recorded idx : List Nat) : List Bool := (tril recorded.length).map fun p => decide (p.1 ∈ idx) && decide (p.2 ∈ idx)

/-- `get_beamform` (xst.py:1001-1093) for one time and one frequency, among `nt` times and `nf` frequencies. -/
noncomputable def beamOf (size : Nat) (recorded : List Nat) (nt nf : Nat) (data : List ℂ) (asked : List Int) (pol : String) (table : Option (Nat → Nat → ℂ))
    (wl : ℝ) (delay : Nat → ℝ) : Except Err ℝ :=
  (beamMinis size recorded asked).bind fun m => (calOf table pol m.1).bind fun cal =>
    (getCross recorded recorded nt nf (beamPol pol) data).map fun vis =>
      beamform m.2.length (trilAt (pickMask (beamMask recorded m.2) vis)) cal wl delay fun a => m.2.getD a 0

end Verif.IO
