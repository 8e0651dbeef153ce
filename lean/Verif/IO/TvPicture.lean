import Verif.Common.Prelude
import Mathlib.Tactic.Linarith
import Mathlib.Tactic.NormNum
import Mathlib.Data.Rat.Defs
import Mathlib.Algebra.Order.Field.Rat

/-!
# Picture of a NenuFAR-TV image (`TV_Image.save_png`, nenupy/io/xst.py)

Separations of the sources from the centre of the image, in degrees, are parameters, as are the contours of the beam. The call of `plot` is given by its keywords (`Astro/SkyPlot.lean` models `plot`).
-/

namespace Verif.IO.TvPicture

/-- A listed source: its name and its separation from the centre of the image. Used for xst.py:1537-1550. -/
structure Source where
  name : String
  sep : ℚ
deriving DecidableEq

/-- `nenufar_tv_sources.json`, with the separations at the time of the image. Used for xst.py:1538-1550. -/
structure Listed where
  fixed : List Source
  solar : List Source

/-- The loops over the sources (xst.py:1534-1550). -/
def kept (fov : ℚ) (l : Listed) : List Source :=
  (l.fixed.filter fun s => decide (s.sep ≤ 8 / 10 * fov)) ++ l.solar.filter fun s => decide (s.sep ≤ 8 / 10 * fov)

/-- Keywords given by the user on top of the named arguments: a text, contours, and the names of the others. Used for xst.py:1486. -/
structure Keywords where
  text : Option (List Source)
  contour : Option String
  others : List String

/-- Arguments of the call of `plot`. Used for xst.py:1572-1579. -/
structure Plot where
  text : Option (List Source)
  contour : Option String
  radius : ℚ
  label : String

/-- The text asked for (xst.py:1533-1553): only set if a source is kept. -/
def textOf (showSources : Bool) (fov : ℚ) (l : Listed) (kw : Keywords) : Option (List Source) :=
  if showSources ∧ (kept fov l).length ≠ 0 then some (kept fov l) else kw.text

/-- The contours asked for (xst.py:1555-1570). -/
def contourOf (beamContours : Bool) (beam : String) (kw : Keywords) : Option String := if beamContours then some beam else kw.contour

/-- `save_png` (xst.py:1527-1579): a keyword set twice in the last call is refused. -/
def savePng (showSources beamContours : Bool) (fov : ℚ) (beam stokes : String) (l : Listed) (kw : Keywords) : Except Err Plot :=
  if kw.others.any fun k => decide (k ∈ ["center", "radius", "colorbar_label"]) then .error .typeError
  else .ok ⟨textOf showSources fov l kw, contourOf beamContours beam kw, fov - 5 / 2, "Stokes " ++ stokes⟩

end Verif.IO.TvPicture
