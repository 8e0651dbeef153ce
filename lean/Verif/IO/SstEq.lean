import Verif.IO.Sst

/-!
# Comparison of sets of SST files: `SST_Data.__eq__` (`nenupy/beamlet/sstdata.py`)
-/

namespace Verif.IO

/-- `all([basename(fi) in baseNames for fi in other.filename])` (sstdata.py:298-301). -/
def sameFiles {F B : Type} [LinearOrder F] [DecidableEq B] (base : F → B) (a b : Sst F) : Bool :=
  b.names.all fun f => decide (base f ∈ a.names.map base)

/-- Comparison of the pointings (sstdata.py:303-312): without pointing on both sides they are the same; two `Pointing` objects are compared by
an attribute `filename` which they do not have (astro/pointing.py:53-112); otherwise they differ. -/
def samePointing (a b : Bool) : Except Err Bool :=
  if a = false ∧ b = false then .ok true else if a = true ∧ b = true then .error .attributeError else .ok false

/-- `a == other` (sstdata.py:295-316); `none` is any object which is not a set of SST files: it has no `filename` (300). -/
def eqSst {F B : Type} [LinearOrder F] [DecidableEq B] (base : F → B) (a : Sst F) : Option (Sst F) → Except Err Bool
  | none => .error .attributeError
  | some b => (samePointing a.pointed b.pointed).map fun p => sameFiles base a b && p

/-- `a != other`: Python negates `==` when `__ne__` is not defined (sstdata.py:295). -/
def neSst {F B : Type} [LinearOrder F] [DecidableEq B] (base : F → B) (a : Sst F) (b : Option (Sst F)) : Except Err Bool :=
  (eqSst base a b).map fun r => !r

end Verif.IO
