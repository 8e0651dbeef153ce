import Verif.Config.Model
import Verif.Config.FromParset

/-!
# Model of the plot of cumulative data volumes

`ObsConfig.plotCumulativeVolume` of `nenupy/observation/obs_config.py`, down to the curves given to the plotting library.
-/

namespace Verif.Config

/-- Sum of two arrays of one dimension: equal sizes, or one of them has a single element, which is added to all those of the other.
Used for obs_config.py:1856. -/
def addCurves (a b : List ℚ) : Except Err (List ℚ) :=
  if a.length = b.length then .ok (List.zipWith (fun v w : ℚ => v + w) a b)
  else if a.length = 1 then .ok (b.map fun w : ℚ => a.headD 0 + w)
  else if b.length = 1 then .ok (a.map fun v : ℚ => v + b.headD 0)
  else .error .valueError

/-- `sum` of a list of arrays, from the first one on. Used for obs_config.py:1856. -/
def sumCurves (acc : List ℚ) : List (List ℚ) → Except Err (List ℚ)
  | [] => .ok acc
  | c :: l => (addCurves acc c).bind fun a => sumCurves a l

/-- `volCumDico[receiver] = ...` (obs_config.py:1841-1844): the place of a known name is kept. -/
def putCurve (d : List (Backend × List ℚ)) (b : Backend) (v : List ℚ) : List (Backend × List ℚ) :=
  if d.any fun p => decide (p.1 = b) then d.map fun p => if p.1 = b then (b, v) else p else d ++ [(b, v)]

/-- What the loop over receivers holds: the dictionary, the variable `times`, not bound at first, and the curves drawn
(obs_config.py:1835-1851). -/
structure Drawn where
  dict : List (Backend × List ℚ)
  times : Option (List ℚ)
  curves : List (List ℚ × List ℚ)

/-- The loop over receivers (obs_config.py:1835-1851); an unknown name is `none`. -/
def drawLoop (x : Obs) : List (Option Backend) → Drawn → Except Err Drawn
  | [], d => .ok d
  | r :: l, d => (getCumulative r x).bind fun c =>
      drawLoop x l ⟨r.elim d.dict fun b => putCurve d.dict b c.2, some c.1, d.curves ++ [c]⟩

/-- The curve of the total, drawn at the times bound by the last turn of the loop (obs_config.py:1854-1861); the plotting library
refuses two arrays of different lengths. -/
def totalCurve (d : Drawn) : Except Err (List ℚ × List ℚ) :=
  d.times.elim (.error .unboundLocal) fun ts =>
    (sumCurves ((d.dict.map Prod.snd).headD []) (d.dict.map Prod.snd).tail).bind fun tot =>
      if tot.length = ts.length then .ok (ts, tot) else .error .valueError

/-- `plotCumulativeVolume` (obs_config.py:1818-1861): the curves of the receivers and that of the total. -/
def plotVolume (receivers : List (Option Backend)) (x : Obs) : Except Err (List (List ℚ × List ℚ) × (List ℚ × List ℚ)) :=
  (drawLoop x receivers ⟨[], none, []⟩).bind fun d => (totalCurve d).map fun t => (d.curves, t)

/-- `plotCumulativeVolume` without `receivers` (obs_config.py:1818): all of them, in the order of the table (obs_config.py:1583-1593). -/
def plotVolumeAll (x : Obs) : Except Err (List (List ℚ × List ℚ) × (List ℚ × List ℚ)) := plotVolume (order.map some) x

end Verif.Config
