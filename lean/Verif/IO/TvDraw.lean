import Verif.IO.Imaging
import Mathlib.Data.List.Sort

/-!
# Drawing of a near-field (`TV_Nearfield.save_png`, nenupy/io/xst.py)

Images are square, of `n > 0` pixels a side, held as functions of the flattened index `k` (row `k / n`, column `k % n`) below `n * n`. Pixels are real numbers: NaN and floats are left
out. matplotlib is taken to draw what it is asked for; colours, the bar and the titles are left out.
-/

namespace Verif.IO.TvDraw

/-- `argmax` of a flattened image: the first place of the maximum. Used for xst.py:1952, 1961-1963. -/
noncomputable def argmaxR (f : Nat → ℝ) : Nat → Nat
  | 0 => 0
  | n + 1 => if f (argmaxR f n) < f n then n else argmaxR f n

/-- `max` of a flattened image. Used for xst.py:1941, 1962. -/
noncomputable def maxR (f : Nat → ℝ) (N : Nat) : ℝ := f (argmaxR f N)

/-- `imprint /= imprint.max()` (xst.py:1940-1941), done in the array of the dictionary of the near-field. -/
noncomputable def normalised (N : Nat) (f : Nat → ℝ) : Nat → ℝ := fun k => f k / maxR f N

/-- `dist` (xst.py:1933-1935). -/
noncomputable def distAt (radius : ℝ) (n : Nat) : Nat → ℝ := fun k => Real.sqrt (groundAt radius n (k % n) ^ 2 + groundAt radius n (k / n) ^ 2)

/-- `np.median`: mean of the two middle values of the sorted ones. Used for xst.py:1960. -/
noncomputable def median (N : Nat) (d : Nat → ℝ) : ℝ :=
  ((((List.range N).map d).insertionSort (· ≤ ·)).getD ((N - 1) / 2) 0 + (((List.range N).map d).insertionSort (· ≤ ·)).getD (N / 2) 0) / 2

/-- `dist[dist <= np.median(dist)] = 0` (xst.py:1960). -/
noncomputable def cut (N : Nat) (d : Nat → ℝ) : Nat → ℝ := fun k => if d k ≤ median N d then 0 else d k

/-- The test on the place of the maximum (xst.py:1936-1937, 1954-1959). -/
def atBorder (n x y : Nat) : Prop :=
  (x : ℚ) ≤ 1 / 10 * n ∨ (y : ℚ) ≤ 1 / 10 * n ∨ (n : ℚ) - 1 / 10 * n ≤ x ∨ (n : ℚ) - 1 / 10 * n ≤ y

instance (n x y : Nat) : Decidable (atBorder n x y) := inferInstanceAs (Decidable (_ ∨ _ ∨ _ ∨ _))

/-- The imprint weighted by the distances (xst.py:1961-1963); without any distance left all products are NaN, whose first one is taken. -/
noncomputable def recentred (n : Nat) (d im : Nat → ℝ) : Nat :=
  if maxR d (n * n) = 0 then 0 else argmaxR (fun k => (1 - d k / maxR d (n * n)) * im k) (n * n)

/-- Place of the name of one source (xst.py:1951-1963), and the distances after it, which are those of the next source. -/
noncomputable def place (n : Nat) (d im : Nat → ℝ) : Nat × (Nat → ℝ) :=
  if atBorder n (argmaxR im (n * n) % n) (argmaxR im (n * n) / n) then (recentred n (cut (n * n) d) im, cut (n * n) d) else (argmaxR im (n * n), d)

/-- A name and where it is written. Used for xst.py:1965-1974. -/
structure Label where
  name : String
  x : ℝ
  y : ℝ

/-- `ax.text` (xst.py:1965-1974) for the flattened index `k`. -/
noncomputable def labelAt (radius : ℝ) (n : Nat) (name : String) (k : Nat) : Label := ⟨name, groundAt radius n (k % n), groundAt radius n (k / n)⟩

/-- The loop over the sources (xst.py:1938-1974): names written, and the imprints of the near-field after it. -/
noncomputable def names (radius : ℝ) (n : Nat) : (Nat → ℝ) → List (String × (Nat → ℝ)) → List Label × List (String × (Nat → ℝ))
  | _, [] => ([], [])
  | d, s :: l =>
    ((labelAt radius n s.1 (place n d (normalised (n * n) s.2)).1) :: (names radius n (place n d (normalised (n * n) s.2)).2 l).1,
      (s.1, normalised (n * n) s.2) :: (names radius n (place n d (normalised (n * n) s.2)).2 l).2)

/-- Names and imprints of `save_png` (xst.py:1932-1974). -/
noncomputable def savePng (radius : ℝ) (n : Nat) (sources : List (String × (Nat → ℝ))) : List Label × List (String × (Nat → ℝ)) :=
  names radius n (distAt radius n) sources

/-- `np.flipud` (xst.py:1896): the row drawn at rank `i` from the top. -/
def flipud (n i : Nat) : Nat := n - 1 - i

/-- Side of the cell of rank `i` of `imshow` along one axis, from its lower to its upper end, `extent` being `[-radius, radius]` and ranks being from the left or from the bottom. Used for
xst.py:1895-1902. -/
noncomputable def cell (radius : ℝ) (n i : Nat) : ℝ × ℝ := (-radius + 2 * radius / n * i, -radius + 2 * radius / n * (i + 1))

/-- The cell in which the pixel of row `i` and column `j` is drawn (xst.py:1895-1902): the rows of the flipped image are drawn from the top. -/
noncomputable def drawnCell (radius : ℝ) (n i j : Nat) : (ℝ × ℝ) × (ℝ × ℝ) := (cell radius n j, cell radius n (n - 1 - flipud n i))

end Verif.IO.TvDraw
