import Verif.Common.Prelude

/-!
# Limits of the figure of a UV coverage (nenupy/astro/uvw.py)

Baselines are pairs `(u, v)`, all times and frequencies in one list. Only the limits of the figure are modelled, with exact numbers.
-/

namespace Verif.Astro

/-- `.min()`, which refuses an empty array. Used for uvw.py:473. -/
def lowestUv : List ℚ → Except Err ℚ
  | [] => .error .valueError
  | x :: l => .ok (l.foldl min x)

/-- `.max()`, which refuses an empty array. Used for uvw.py:474. -/
def highestUv : List ℚ → Except Err ℚ
  | [] => .error .valueError
  | x :: l => .ok (l.foldl max x)

/-- `ax_min` and `ax_max` (uvw.py:475-477) from the least and the greatest coordinate. -/
def withMargin (lo hi : ℚ) : ℚ × ℚ := (lo - 1 / 100 * |lo - hi|, hi + 1 / 100 * |lo - hi|)

/-- `extent` (uvw.py:473-477, 491), the same in `u` and `v`. -/
def uvExtent (l : List (ℚ × ℚ)) : Except Err (ℚ × ℚ) :=
  (lowestUv (l.map Prod.fst)).bind fun a => (lowestUv (l.map Prod.snd)).bind fun b =>
    (highestUv (l.map Prod.fst)).bind fun c => (highestUv (l.map Prod.snd)).map fun d => withMargin (min a b) (max c d)

/-- The coverage in wavelengths (uvw.py:457-465), at the wavelengths `ws`. -/
def inWaves (ws : List ℚ) (l : List (ℚ × ℚ)) : List (ℚ × ℚ) := ws.flatMap fun w : ℚ => l.map fun x : ℚ × ℚ => (x.1 / w, x.2 / w)

end Verif.Astro
