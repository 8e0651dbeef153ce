import Verif.IO.Xst
import Verif.IO.Draw

/-!
# Model of the drawing of a matrix of correlations: `XST_Slice.plot_correlaton_matrix`

Left out: the limits and names of colours, ticks, labels and titles, and the end of the function (figure saved or shown).
-/

namespace Verif.IO

noncomputable section

/-- The loop on the numbers below `m` (xst.py:197-200), for one index: numbers which are missing move the indices from them on. -/
def moved (mas : List Nat) (m i : Nat) : Nat := (List.range m).foldl (fun (x g : Nat) => if g ∉ mas ∧ g ≤ x then x + 1 else x) i

/-- `np.mean(self.value, axis=(0, 1))` for a baseline (xst.py:205). -/
def meanVis (nt nf : Nat) (v : Nat → Nat → Nat → ℂ) (k : Nat) : ℂ := (∑ t ∈ Finset.range nt, ∑ f ∈ Finset.range nf, v t f k) / ((nt * nf : Nat) : ℂ)

/-- What is written (xst.py:202-205): column, row and value for each pair of indices, without the pairs of equal numbers if they are masked; one value alone is used for all pairs. -/
def corrEntries (mask : Bool) (mas : List Nat) (top nbl : Nat) (mean : Nat → ℂ) : List ((Nat × Nat) × ℂ) :=
  ((tril mas.length).zipIdx.filter fun q => !mask || decide (moved mas (top + 1) q.1.1 ≠ moved mas (top + 1) q.1.2)).map fun q =>
    ((moved mas (top + 1) q.1.1, moved mas (top + 1) q.1.2), mean (if nbl = 1 then 0 else q.2))

/-- The matrix, NaN where nothing is written (xst.py:195, 205): row, then column. -/
def corrCell (es : List ((Nat × Nat) × ℂ)) (r c : Nat) : Option ℂ := (es.reverse.find? fun e => decide (e.1 = (c, r))).map Prod.snd

/-- The table which is drawn (xst.py:207-216): absolute values or their decibels, against the numbers. -/
def corrTable (db : Bool) (top : Nat) (m : Nat → Nat → Option ℂ) : Shape (Option EReal) :=
  .table ((List.range (top + 1)).map fun a : Nat => (a : ℚ)) ((List.range (top + 1)).map fun a : Nat => (a : ℚ))
    ((List.range (top + 1)).map fun r => (List.range (top + 1)).map fun c => drawnAs db ((m r c).map fun z => ‖z‖))

/-- `plot_correlaton_matrix` (xst.py:193-220) for `nt` times, `nf` frequencies and `nbl` baselines. -/
def corrMatrix (mask db : Bool) (mas : List Nat) (nt nf nbl : Nat) (v : Nat → Nat → Nat → ℂ) : Except Err (Shape (Option EReal)) :=
  mas.max?.elim (.error .valueError) fun top =>
    if mask = true ∧ nbl ≠ (tril mas.length).length then .error .indexError
    else if mask = false ∧ nbl ≠ (tril mas.length).length ∧ nbl ≠ 1 then .error .valueError
    else if ∃ e ∈ corrEntries mask mas top nbl (meanVis nt nf v), top < e.1.1 ∨ top < e.1.2 then .error .indexError
    else .ok (corrTable db top (corrCell (corrEntries mask mas top nbl (meanVis nt nf v))))

end

end Verif.IO
