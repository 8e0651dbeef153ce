import Verif.Cnst.Model

/-!
# `LocalSiderealTimeCnst` with `strict_crossing=False` (constraints.py:784-800)
-/

namespace Verif.Cnst

/-- `bool_array`: the slots without a crossing (constraints.py:786-787). -/
def noHit (n : Nat) (hit : Nat → Bool) : List Bool := (List.range n).map fun i => !hit i

/-- `np.concatenate(([b[0]], b[:-1] != b[1:], [True]))` (constraints.py:790-792). -/
def edges (b : List Bool) : List Bool := b.headD false :: (List.zipWith (fun x y => x != y) b b.tail ++ [true])

/-- `np.where(l)[0]`, the first item being number `p` (constraints.py:789-795). -/
def whereTrue : Nat → List Bool → List Nat
  | _, [] => []
  | p, x :: l => if x then p :: whereTrue (p + 1) l else whereTrue (p + 1) l

/-- `np.diff` of increasing numbers (constraints.py:788). -/
def diffs : List Nat → List Nat
  | [] => []
  | [_] => []
  | a :: b :: l => (b - a) :: diffs (b :: l)

/-- `l[::2]` (constraints.py:796). -/
def evens : List Nat → List Nat
  | [] => []
  | [a] => [a]
  | a :: _ :: l => a :: evens l

/-- `consecutive_falses` (constraints.py:788-796); the maximum of an empty array is refused. -/
def longestRun (n : Nat) (hit : Nat → Bool) : Except Err Nat :=
  match evens (diffs (whereTrue 0 (edges (noHit n hit)))) with
  | [] => .error .valueError
  | a :: l => .ok (l.foldl max a)

/-- `kernel_size` (constraints.py:797). -/
def kernelSize (c : Nat) : Nat := if c % 2 = 0 then c + 1 else c

/-- The kernel at a distance `d` of its middle (constraints.py:798-799), for an odd size `k` larger than one. -/
def kernelAt (k : Nat) (d : ℚ) : ℚ := 1 - |d| / ((k / 2 : Nat) : ℚ)

/-- `np.convolve(scores, kernel, mode='same')` at slot `i` (constraints.py:800): the kernel, centred on each crossing. -/
def convAt (n k : Nat) (hit : Nat → Bool) (i : Nat) : ℚ :=
  sumTo (fun m => if hit m = true ∧ i ≤ m + k / 2 ∧ m ≤ i + k / 2 then kernelAt k ((i : ℚ) - m) else 0) n

/-- The scores (constraints.py:784-804), as received by `cnts[i, :] = …` (1426). With a kernel of one item its only value is `0/0`, and so are all the
scores. `np.convolve` gives as many items as its longest operand: with a kernel longer than the schedule the result does not fit. -/
def relaxedScore (n : Nat) (hit : Nat → Bool) : Except Err (Nat → Option ℚ) :=
  (longestRun n hit).bind fun c =>
    if n < kernelSize c then .error .valueError
    else .ok fun i => if kernelSize c = 1 then none else some (convAt n (kernelSize c) hit i)

end Verif.Cnst
