import Verif.Astro.SkyImage
import Verif.IO.Draw
import Verif.Instru.Current

/-!
# Drawing of a sky: options and overlays (nenupy/astro/sky.py)

What `plot` does around the image of `SkyImage.lean`: the axes it takes, the colour scale, what is drawn over the image, and the end of the
drawing. The image is the list of its values, `none` for NaN. Colours, fonts and positions on the page are not modelled.
-/

namespace Verif.Astro

open Verif.IO (drawnAs)
open Verif.Instru (FigEnd figEnd)

noncomputable section

/-- Keyword `ax`: missing, given without `axes`, or given with the axes of the figure and its rank among them. Used for sky.py:244-257. -/
inductive AxArg where
  | new
  | alone
  | within (slots : List Nat) (start : Nat)
  deriving DecidableEq

/-- The axes of the caller after the new ones (`fresh`) took their place (sky.py:244-257). -/
def placed (fresh : Nat) : AxArg → Except Err (List Nat)
  | .new => .ok []
  | .alone => .error .valueError
  | .within slots start => if start < slots.length then .ok (slots.set start fresh) else .error .indexError

/-- Greatest of the items, 0 without any. Used for sky.py:274. -/
def greatest (l : List ℝ) : ℝ := (l.max?).getD 0

open Classical in
/-- `alpha_image` (sky.py:265-274): NaN are 0, then all are divided by the greatest; `none` for what is not a finite number. -/
def alphaOf (l : List (Option ℝ)) : List (Option ℝ) :=
  l.map fun x => if greatest (l.map fun y => y.getD 0) = 0 then none else some (x.getD 0 / greatest (l.map fun y => y.getD 0))

/-- The image in the scale which is drawn (sky.py:277-278). -/
def scaled (db : Bool) (image : List (Option ℝ)) : List (Option EReal) := image.map (drawnAs db)

/-- `vmin` and `vmax` (sky.py:280-281), `none` for NaN: the defaults are computed in all cases, and there is none of an empty image. -/
def limitsOf (image : List (Option EReal)) (vmin vmax : Option EReal) : Except Err (Option EReal × Option EReal) :=
  if image = [] then .error .valueError
  else .ok (vmin.elim ((image.filterMap id).min?) some, vmax.elim ((image.filterMap id).max?) some)

/-- Azimuths, in degrees, of the labels of the horizon (sky.py:332-339). -/
def cardinals : List (String × Nat) := ["N", "E", "S", "W"].zip [0, 90, 180, 270]

/-- Coverages which are drawn, each with its colour (sky.py:403-404). -/
def mocsDrawn {M : Type} (mocs : List M) : List (M × String) := mocs.zip ["tab:red", "tab:green"]

/-- A keyword given as a tuple: missing, of a length which is not 3, or right. Used for sky.py:436-483. -/
inductive Triple (A : Type) where
  | none
  | wrong (n : Nat)
  | right (a : A)

/-- Scatter keyword (sky.py:436-453): the directions which get a mark. -/
def marksOf {C : Type} : Triple (List C) → Except Err (List C)
  | .none => .ok []
  | .wrong _ => .error .valueError
  | .right l => .ok l

/-- The texts of the keyword `text`: a list, or one text, whose items are its letters. Used for sky.py:464, 471. -/
inductive Texts where
  | list (l : List String)
  | one (s : String)
  deriving DecidableEq

/-- Items by their rank. Used for sky.py:471. -/
def Texts.items : Texts → List String
  | .list l => l
  | .one s => s.toList.map fun c => String.ofList [c]

/-- The texts written at the directions (sky.py:467-475). -/
def written {C : Type} (coords : List C) (t : Texts) : Except Err (List (C × String)) :=
  if coords.length ≤ t.items.length then .ok (coords.zip t.items) else .error .indexError

/-- Text keyword (sky.py:455-475). -/
def textsOf {C : Type} : Triple (List C × Texts) → Except Err (List (C × String))
  | .none => .ok []
  | .wrong _ => .error .valueError
  | .right p => written p.1 p.2

/-- Contour keyword (sky.py:477-495): its first item is read before its length is checked. -/
def contourOf {V : Type} : Triple V → Except Err (Option V)
  | .none => .ok Option.none
  | .wrong n => if n = 0 then .error .indexError else .error .valueError
  | .right v => .ok (some v)

/-- Shape given by `_compute_wcs` (sky.py:564, 652) from the numbers of pixels in right ascension and declination: not in the same order for a sky of
HEALPix cells (`hpx`). -/
def wcsShape (hpx : Bool) (dims : Nat × Nat) : Nat × Nat := if hpx then (dims.2, dims.1) else (dims.1, dims.2)

/-- Rows and columns of the image drawn (sky.py:571, 602, 669-675): transposed if the sky has no HEALPix cells. -/
def imageGrid (hpx : Bool) (dims : Nat × Nat) : Nat × Nat := if hpx then wcsShape hpx dims else (wcsShape hpx dims).swap

/-- Rows and columns of the contours (sky.py:484-489), which are drawn over the image from its first row and column on. -/
def contourGrid (hpx : Bool) (dims : Nat × Nat) : Nat × Nat := wcsShape hpx dims

/-- Keywords of `plot`, with the images of the sky and of `alpha`. Used for sky.py:223-235. -/
structure PlotArgs (C M V : Type) where
  figGiven : Bool
  ax : AxArg
  alpha : Option (List (Option ℝ))
  db : Bool
  vmin : Option EReal
  vmax : Option EReal
  overlay : Bool
  mocs : List M
  scatter : Triple (List C)
  text : Triple (List C × Texts)
  contour : Triple V
  figname : Option String

/-- What has been drawn. Used for sky.py:284-513. -/
structure SkyDrawn (C M V : Type) where
  axes : List Nat
  values : List (Option EReal)
  opacity : Option (List (Option ℝ))
  limits : Option EReal × Option EReal
  labels : List (String × Nat)
  mocs : List (M × String)
  marks : List C
  texts : List (C × String)
  contour : Option V
  done : FigEnd

/-- `plot` (sky.py:223-513). An image without pixel is refused with `alpha` as without. -/
def skyPlot {C M V : Type} (fresh : Nat) (image : List (Option ℝ)) (k : PlotArgs C M V) : Except Err (SkyDrawn C M V) :=
  (placed fresh k.ax).bind fun ax => (limitsOf (scaled k.db image) k.vmin k.vmax).bind fun lim =>
    (marksOf k.scatter).bind fun marks => (textsOf k.text).bind fun texts => (contourOf k.contour).map fun c =>
      ⟨ax, scaled k.db image, k.alpha.map alphaOf, lim, if k.overlay then cardinals else [], mocsDrawn k.mocs, marks, texts, c, figEnd k.figname⟩

/-- Figures open after a call (sky.py:243, 502-513): a figure is made even when one is given, all are closed at the end (those of the caller too),
and none if the drawing is returned or refused. -/
def figuresAfter {C M V : Type} (before : Nat) (r : Except Err (SkyDrawn C M V)) : Nat :=
  r.toOption.elim (before + 1) fun d => if d.done = .returned then before + 1 else 0

end

end Verif.Astro
