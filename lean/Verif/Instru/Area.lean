import Verif.Instru.Radio

/-!
# Model of the effective area: `nenupy/instru/nenufar.py`

Positions are in metres in the plane of the mini-array, frequencies in MHz, elevations in radians; reals are exact.
-/

namespace Verif.Instru

/-- `radius_ant_eff_area` (nenufar.py:651-658): radius of the disc of an antenna. -/
noncomputable def discRadius (f : ℝ) : ℝ := √(waveOf f ^ 2 / 3 / Real.pi)

/-- `np.max` and `np.min` of a list (nenufar.py:659, 663-673). -/
noncomputable def topOf (l : List ℝ) : ℝ := l.tail.foldr max (l.headD 0)
noncomputable def lowOf (l : List ℝ) : ℝ := l.tail.foldr min (l.headD 0)

/-- One end and the step of `np.linspace(min - R, max + R, 500)` (nenufar.py:661-674). -/
noncomputable def gridStart (xs : List ℝ) (R : ℝ) : ℝ := lowOf xs - R
noncomputable def gridStep (xs : List ℝ) (R : ℝ) : ℝ := (topOf xs + R - (lowOf xs - R)) / 499

/-- Element of the grid (nenufar.py:663-675). -/
noncomputable def gridAt (xs : List ℝ) (R : ℝ) (k : Nat) : ℝ := gridStart xs R + k * gridStep xs R

/-- `dist <= radius` for one antenna and one point of the grid (nenufar.py:677-686). -/
def inDisc (p : ℝ × ℝ) (r x y : ℝ) : Prop := √((p.1 - x) ^ 2 + (p.2 - y) ^ 2) ≤ r

open Classical in
/-- Number of points of the grid within the disc of an antenna (nenufar.py:683-690). -/
noncomputable def covered500 (pos : List (ℝ × ℝ)) (R r : ℝ) : Nat :=
  ((Finset.range 500 ×ˢ Finset.range 500).filter fun k =>
    ∃ p ∈ pos, inDisc p r (gridAt (pos.map (·.1)) R k.1) (gridAt (pos.map (·.2)) R k.2)).card

/-- The area at one frequency, `R` being the largest radius of the call (nenufar.py:683-690). -/
noncomputable def areaWith (pos : List (ℝ × ℝ)) (R f elev : ℝ) : ℝ :=
  covered500 pos R (discRadius f) * gridStep (pos.map (·.1)) R * gridStep (pos.map (·.2)) R * Real.sin elev

/-- `MiniArray.effective_area` (nenufar.py:585-690), for an array of frequencies (a single one is a list of one element);
`np.max` and `min` raise on empty arrays. -/
noncomputable def effectiveArea (pos : List (ℝ × ℝ)) (freqs : List ℝ) (elev : ℝ) : Except Err (List ℝ) :=
  if freqs = [] ∨ pos = [] then .error .valueError
  else .ok (freqs.map fun f => areaWith pos (topOf (freqs.map discRadius)) f elev)

/-- `NenuFAR.effective_area` (nenufar.py:1418-1434), for `n` mini-arrays and the positions of the antennas used. -/
noncomputable def arrayArea (n : Nat) (pos : List (ℝ × ℝ)) (freqs : List ℝ) (elev : ℝ) : Except Err (List ℝ) :=
  (effectiveArea pos freqs elev).map fun l => l.map fun x => x * n

end Verif.Instru
