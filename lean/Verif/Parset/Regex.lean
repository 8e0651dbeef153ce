import Verif.Parset.Text

/-!
# Regular expressions as read and matched by the module `re` of Python

The package checks texts with `re.fullmatch` (parset.py:2454) and `re.match` (parset.py:613-614, 1652-1655). The patterns are texts of `parset_user_options.json`; this file
holds the part of the syntax they use. Escapes and classes are over ASCII characters (`\d`, `\w` and `\S` of Python also know other alphabets).
-/

namespace Verif.Parset

/-- A pattern. Used for parset.py:2454. Captured groups are numbered by their opening bracket. -/
inductive Re
  | eps
  /-- One character of the ranges, or of none of them. -/
  | cls (neg : Bool) (l : List (Char × Char))
  | cat (a b : Re)
  | alt (a b : Re)
  /-- At least `lo` and at most `hi` times. -/
  | rep (lo : Nat) (hi : Option Nat) (r : Re)
  | grp (n : Nat) (r : Re)
  | bos
  | eos
  /-- `\b` -/
  | edge
  | back (n : Nat)
  | look (neg : Bool) (r : Re)
  deriving DecidableEq, Repr

/-! ## Matching -/

/-- Where the matcher is: the character before, the text left, the groups read. Used for parset.py:2454. -/
structure Pos where
  prev : Option Char
  rest : Str
  caps : List (Nat × Str)
  deriving DecidableEq, Repr

/-- The character is one of the class; `ci`: without regard to capitals. Used for parset.py:2454. -/
def inCls (ci neg : Bool) (l : List (Char × Char)) (c : Char) : Bool :=
  neg != (l.any fun p => (p.1 ≤ c && c ≤ p.2) || (ci && ((p.1 ≤ c.toLower && c.toLower ≤ p.2) || (p.1 ≤ c.toUpper && c.toUpper ≤ p.2))))

/-- `\w`. Used for parset.py:613. -/
def isWord (c : Char) : Bool := c.isAlphanum || c = '_'

/-- `c` is there and belongs to a word. Used for parset.py:2454. -/
def wordAt (c : Option Char) : Bool := c.any isWord

/-- Last character of `w`, or the one before. Used for parset.py:2454. -/
def lastOr (p : Option Char) (w : Str) : Option Char := w.getLast?.or p

/-- The position after `w`. Used for parset.py:2454. -/
def Pos.after (s : Pos) (w : Str) : Pos := ⟨lastOr s.prev w, s.rest.drop w.length, s.caps⟩

/-- Text read between two positions. Used for parset.py:2454. -/
def Pos.read (s t : Pos) : Str := s.rest.take (s.rest.length - t.rest.length)

/-- Repetitions, longest first; a turn which reads nothing ends them. `n` bounds the number of turns. Used for parset.py:2454. -/
def iter (f : Pos → List Pos) : Nat → Nat → Option Nat → Pos → List Pos
  | 0, lo, _, s => if lo = 0 then [s] else []
  | n + 1, lo, hi, s =>
    (if hi = some 0 then [] else (f s).flatMap fun t => if lo = 0 ∧ t.rest.length = s.rest.length then [] else iter f n (lo - 1) (hi.map (· - 1)) t)
      ++ (if lo = 0 then [s] else [])

/-- Text of a group. Used for parset.py:613-626. -/
def capOf (l : List (Nat × Str)) (n : Nat) : Option Str := (l.find? fun p => p.1 = n).map Prod.snd

/-- Positions after one character of the class. Used for parset.py:2454. -/
def stepCls (ci neg : Bool) (l : List (Char × Char)) (s : Pos) : List Pos :=
  if (s.rest.head?).any (inCls ci neg l) then [s.after (s.rest.take 1)] else []

/-- All the positions at which a match of the pattern can end, in the order of the search of Python. Used for parset.py:613-614, 2454. -/
def run (ci : Bool) : Re → Pos → List Pos
  | .eps, s => [s]
  | .cls neg l, s => stepCls ci neg l s
  | .cat a b, s => (run ci a s).flatMap (run ci b)
  | .alt a b, s => run ci a s ++ run ci b s
  | .rep lo hi r, s => iter (run ci r) (lo + s.rest.length + 1) lo hi s
  | .grp n r, s => (run ci r s).map fun t => { t with caps := (n, s.read t) :: t.caps }
  | .bos, s => if s.prev = none then [s] else []
  | .eos, s => if s.rest = [] ∨ s.rest = ['\n'] then [s] else []
  | .edge, s => if wordAt s.prev != wordAt s.rest.head? then [s] else []
  | .back n, s => ((capOf s.caps n).filter fun w => w.isPrefixOf s.rest).elim [] fun w => [s.after w]
  | .look neg r, s => if (run ci r s).isEmpty = neg then (if neg then [s] else [{ s with caps := ((run ci r s).head?.map Pos.caps).getD s.caps }]) else []

/-- The beginning of a text. Used for parset.py:2454. -/
def Pos.start (t : Str) : Pos := ⟨none, t, []⟩

/-- `re.fullmatch(pattern, text) is not None` (parset.py:2454). -/
def fullmatch (ci : Bool) (r : Re) (t : Str) : Bool := (run ci r (.start t)).any fun p => p.rest.isEmpty

/-- Groups of `re.match(pattern, text)` (parset.py:614): those of the first match. -/
def matchCaps (ci : Bool) (r : Re) (t : Str) : Option (List (Nat × Str)) := (run ci r (.start t)).head?.map Pos.caps

/-! ## Reading a pattern -/

/-- Ranges of `\d`, `\w` and `\s`. Used for parset.py:613, 2454. -/
def escCls (c : Char) : Option (List (Char × Char)) :=
  if c = 'd' then some [('0', '9')] else if c = 'w' then some [('a', 'z'), ('A', 'Z'), ('0', '9'), ('_', '_')]
  else if c = 's' then some [(' ', ' '), ('\t', '\r')] else none

/-- An escaped character outside brackets. Used for parset.py:613, 2454. -/
def escRe (c : Char) : Re :=
  if c = 'b' then .edge else if c.isDigit then .back (c.toNat - 48) else if c.isUpper then .cls true ((escCls c.toLower).getD []) else .cls false ((escCls c).getD [(c, c)])

/-- The inside of brackets, up to the closing one: one item for each character or range. Used for parset.py:613, 2454. -/
def readCls (acc : List (Char × Char)) : Str → Option (List (Char × Char) × Str)
  | [] => none
  | ']' :: s => some (acc.reverse, s)
  | '\\' :: c :: s => readCls ((c, c) :: acc) s
  | a :: '-' :: b :: s => if b = ']' then some (((('-', '-') :: (a, a) :: acc)).reverse, s) else readCls ((a, b) :: acc) s
  | c :: s => readCls ((c, c) :: acc) s

/-- The digits in front. Used for parset.py:2454. -/
def readNat (s : Str) : Nat × Str := (Nat.ofDigitChars 10 (s.takeWhile Char.isDigit) 0, s.dropWhile Char.isDigit)

/-- Bounds of `{m}` or `{m,n}`, after the opening brace. Used for parset.py:2454. -/
def readBounds (s : Str) : Option ((Nat × Option Nat) × Str) :=
  match (readNat s).2 with
  | '}' :: t => some (((readNat s).1, some (readNat s).1), t)
  | ',' :: t => (match (readNat t).2 with
    | '}' :: u => some (((readNat s).1, some (readNat t).1), u)
    | _ => none)
  | _ => none

/-- What follows an atom: how many times it is taken. Used for parset.py:2454. -/
def readQuant (r : Re) : Str → Option (Re × Str)
  | '*' :: s => some (.rep 0 none r, s)
  | '+' :: s => some (.rep 1 none r, s)
  | '?' :: s => some (.rep 0 (some 1) r, s)
  | '{' :: s => (readBounds s).map fun p => (.rep p.1.1 p.1.2 r, p.2)
  | s => some (r, s)

/-- Name of a group, after `(?P<`. Used for parset.py:613. -/
def skipName (s : Str) : Option Str := (s.dropWhile (· ≠ '>')).head?.map fun _ => (s.dropWhile (· ≠ '>')).tail

/-- The closing bracket of a group, with what is made of the pattern inside. Used for parset.py:613, 2454. -/
def closing (f : Re → Re) (p : Re × Nat × Str) : Option (Re × Nat × Str) :=
  match p.2.2 with
  | ')' :: s => some (f p.1, p.2.1, s)
  | _ => none

mutual

/-- Alternatives. `g`: groups opened so far; `n` bounds the depth. Used for parset.py:613, 2454. -/
def readAlt (n : Nat) (g : Nat) (s : Str) : Option (Re × Nat × Str) :=
  match n with
  | 0 => none
  | n + 1 => (readSeq n g s).bind fun p => match p.2.2 with
    | '|' :: t => (readAlt n p.2.1 t).map fun q => (.alt p.1 q.1, q.2.1, q.2.2)
    | _ => some p

/-- Atoms one after the other. Used for parset.py:613, 2454. -/
def readSeq (n : Nat) (g : Nat) (s : Str) : Option (Re × Nat × Str) :=
  match n with
  | 0 => none
  | n + 1 => match s with
    | [] => some (.eps, g, [])
    | '|' :: t => some (.eps, g, '|' :: t)
    | ')' :: t => some (.eps, g, ')' :: t)
    | c :: t => (readAtom n g (c :: t)).bind fun p => (readQuant p.1 p.2.2).bind fun q => (readSeq n p.2.1 q.2).map fun z => (.cat q.1 z.1, z.2.1, z.2.2)

/-- One atom. Used for parset.py:613, 2454. -/
def readAtom (n : Nat) (g : Nat) (s : Str) : Option (Re × Nat × Str) :=
  match n with
  | 0 => none
  | n + 1 => match s with
    | '(' :: '?' :: '=' :: t => (readAlt n g t).bind (closing (.look false))
    | '(' :: '?' :: '!' :: t => (readAlt n g t).bind (closing (.look true))
    | '(' :: '?' :: 'P' :: '<' :: t => (skipName t).bind fun u => (readAlt n (g + 1) u).bind (closing (.grp (g + 1)))
    | '(' :: t => (readAlt n (g + 1) t).bind (closing (.grp (g + 1)))
    | '[' :: t => (readCls [] t).map fun p => (.cls false p.1, g, p.2)
    | '\\' :: c :: t => some (escRe c, g, t)
    | '^' :: t => some (.bos, g, t)
    | '$' :: t => some (.eos, g, t)
    | '.' :: t => some (.cls true [('\n', '\n')], g, t)
    | c :: t => some (.cls false [(c, c)], g, t)
    | [] => none

end

/-- The pattern read to its end: a missing or unexpected bracket is an error. Used for parset.py:613, 2454. -/
def compileRe (s : Str) : Option Re := (readAlt (3 * s.length + 3) 0 s).bind fun p => if p.2.2 = [] then some p.1 else none

/-- A pattern with its flag `(?i)` (parset.py:2454). -/
def compile : Str → Option (Bool × Re)
  | '(' :: '?' :: 'i' :: ')' :: s => (compileRe s).map fun r => (true, r)
  | s => (compileRe s).map fun r => (false, r)

/-- `re.fullmatch(pattern, text) is not None` for the text of a pattern (parset.py:2454): a pattern which cannot be read raises. -/
def fullmatchText (p t : Str) : Except Err Bool := (compile p).elim (.error .exception) fun q => .ok (fullmatch q.1 q.2 t)

end Verif.Parset
