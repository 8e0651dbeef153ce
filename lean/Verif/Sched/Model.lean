import Verif.Common.Prelude

/-!
# Model of the scheduler: `nenupy/schedule/schedule.py`

numpy arrays of length `size` are functions on `Nat`; only indices `< size` are meaningful.
Times are exact rationals in seconds from an arbitrary origin.  A Python call that may raise
returns the state it leaves behind together with the exception.
-/

namespace Verif.Scheduler

/-- `ScheduleBlock` (schedule.py:74-103), with the per-block rows of the two schedule-wide arrays
`_cnstScores` and `_toSchedule` (schedule.py:1739, 871) kept beside the block they belong to.
`cnst` is `blk.constraints.score`, the per-slot combined constraint score (NaN already replaced by 0,
constraints.py:1400-1447). -/
structure Block where
  duration : ℚ
  procDelay : Option ℚ
  maxExt : Option ℚ
  nSlots : Nat
  nDelay : Nat
  cnst : Nat → ℚ
  start : Option Nat
  tMin : Option ℚ
  tMax : Option ℚ
  row : Nat → ℚ
  toSched : Bool

/-- `Schedule` / `_TimeSlots` (schedule.py:443-482, 696-729): slot `i` is
`[t0 + i*dt, t0 + (i+1)*dt)`; `free` is `freeSlots`, `proc` is `_cumulative_processing_slots`,
`day` is `day_mask` (`night_mask` is its negation, schedule.py:618-633). -/
structure Sched where
  t0 : ℚ
  dt : ℚ
  size : Nat
  free : Nat → Bool
  proc : Nat → Int
  day : Nat → Bool
  blocks : List Block

/-- `self.starts[i]` (schedule.py:613). -/
def Sched.slotStart (s : Sched) (i : Nat) : ℚ := s.t0 + i * s.dt

/-- `self.stops[i]` (schedule.py:614). -/
def Sched.slotStop (s : Sched) (i : Nat) : ℚ := s.slotStart i + s.dt

/-- `int(np.ceil(x / dt))` (schedule.py:99, 103, 1764) for a non-negative quotient. -/
def ceilSlots (x dt : ℚ) : Nat := ⌈x / dt⌉.toNat

/-- `_compute_slots_time_range` and `_TimeSlots.__init__` (schedule.py:443-482, 599-616), for `dt > 0`.
`int(np.floor(period/dt))` slots. -/
def mkSched (tMin tMax dt : ℚ) (day : Nat → Bool) : Except Err Sched :=
  if tMax ≤ tMin then .error .valueError
  else .ok { t0 := tMin, dt := dt, size := ⌊(tMax - tMin) / dt⌋.toNat,
             free := fun _ => true, proc := fun _ => 0, day := day, blocks := [] }

/-- `time2idx(t)` (schedule.py:541-544, 559): slots with `start <= t < stop`. -/
def Sched.time2idx1 (s : Sched) (t : ℚ) : List Nat :=
  (List.range s.size).filter fun i => decide (s.slotStart i ≤ t) && decide (t < s.slotStop i)

/-- `time2idx(t0, t1)` (schedule.py:545-559): `ValueError` when `t1 < t0`, else slots with
`stop > t0` and `start < t1`. -/
def Sched.time2idx2 (s : Sched) (a b : ℚ) : Except Err (List Nat) :=
  if b < a then .error .valueError
  else .ok ((List.range s.size).filter fun i => decide (a < s.slotStop i) && decide (s.slotStart i < b))

/-- `add_booking` (schedule.py:562-586); the warning when some slot is already taken is only a log line. -/
def Sched.addBooking (s : Sched) (a b : ℚ) : Sched × Option Err :=
  match s.time2idx2 a b with
  | .error e => (s, some e)
  | .ok idx => ({ s with free := fun i => if i ∈ idx then false else s.free i }, none)

/-- `remove_booking` (schedule.py:589-594). -/
def Sched.removeBooking (s : Sched) (a b : ℚ) : Sched × Option Err :=
  match s.time2idx2 a b with
  | .error e => (s, some e)
  | .ok idx => ({ s with free := fun i => if i ∈ idx then true else s.free i }, none)

/-- What the user gives for one observation block (obsblocks.py:354-371). -/
structure ObsSpec where
  duration : ℚ
  procDelay : Option ℚ
  maxExt : Option ℚ
  cnst : Nat → ℚ

/-- `ScheduleBlock.__init__` (schedule.py:74-103). -/
def ObsSpec.toBlock (dt : ℚ) (o : ObsSpec) : Block :=
  { duration := o.duration, procDelay := o.procDelay, maxExt := o.maxExt
    nSlots := ceilSlots o.duration dt
    nDelay := match o.procDelay with
      | none => 0
      | some d => ceilSlots d dt
    cnst := o.cnst, start := none, tMin := none, tMax := none, row := fun _ => 0, toSched := true }

/-- `Schedule.insert` of observation blocks (schedule.py:406-430, 820-871):
append unbooked blocks; `_toSchedule` becomes all ones. -/
def Sched.insertObs (s : Sched) (os : List ObsSpec) : Sched :=
  { s with blocks := (s.blocks ++ os.map (ObsSpec.toBlock s.dt)).map fun b => { b with toSched := true } }

/-- `Schedule.insert` of one reserved block (schedule.py:858-865). -/
def Sched.insertReserved (s : Sched) (a b : ℚ) : Sched × Option Err :=
  let r := s.addBooking a b
  match r.2 with
  | some e => (r.1, some e)
  | none => ({ r.1 with blocks := r.1.blocks.map fun b => { b with toSched := true } }, none)

/-! ## Constraint score table -/

/-- One row of `_cnstScores` (schedule.py:1764-1775): windows `j .. j+n-1` with `j < size - n` get the mean
constraint score, zeroed when some slot of the window is not free; the remaining entries stay zero. Durations are taken
positive, so that `n` is at least one: with no slot at all the slice `[:-0]` (1769) is empty and numpy refuses the
assignment. -/
def cnstRow (size n : Nat) (free : Nat → Bool) (cnst : Nat → ℚ) (j : Nat) : ℚ :=
  if j < size - n then
    if (List.range n).any (fun k => !free (j + k)) then 0
    else sumTo (fun k => cnst (j + k)) n / n
  else 0

/-- `_compute_block_constraint_scores` for one block (schedule.py:1753-1784). -/
def Sched.scoreBlock (s : Sched) (b : Block) : Block :=
  let n := ceilSlots b.duration s.dt
  let row := cnstRow s.size n s.free b.cnst
  { b with nSlots := n, row := row, toSched := b.toSched && decide (row (argmax row s.size) ≠ 0) }

/-- `_compute_block_constraint_scores` (schedule.py:1732-1789). -/
def Sched.computeScores (s : Sched) : Sched := { s with blocks := s.blocks.map s.scoreBlock }

/-- The `very_strict` filter (schedule.py:1069-1077): some run of at least `nSlots` consecutive start indices has
a positive score. -/
def hasRun (size n : Nat) (row : Nat → ℚ) : Bool :=
  (List.range (size + 1)).any fun j =>
    decide (j + n ≤ size) && decide (1 ≤ n) && (List.range n).all fun k => decide (0 < row (j + k))

/-- schedule.py:1069-1077. -/
def Sched.veryStrict (s : Sched) : Sched :=
  { s with blocks := s.blocks.map fun b => { b with toSched := b.toSched && hasRun s.size b.nSlots b.row } }

/-! ## Heuristic booking -/

/-- Keyword arguments of `book` (schedule.py:974), with the processing order `block_indices`
already computed: `order` stands for any of the sort options (1138-1152), including a user-given index array. -/
structure BookParams where
  minScore : ℚ
  dayHours : Option ℚ
  nightHours : Option ℚ
  veryStrict : Bool
  reset : Bool
  order : List Nat

/-- `mask_idx` (schedule.py:1173-1176): a start `j` is masked when some non-available slot `t` equals `j + k`, `k < nSlots`. -/
def masked (size n : Nat) (f : Nat → Bool) (j : Nat) : Bool :=
  (List.range size).any fun t => !f t && (List.range n).any fun k => decide (k ≤ t) && decide (t - k = j)

/-- `freeSlotsShifted` before masking (schedule.py:1165-1168). -/
def Sched.avail (s : Sched) (b : Block) (j : Nat) : Bool :=
  if b.nDelay ≠ 0 then s.free j && decide (s.proc j = 0) else s.free j

/-- `freeSlotsShifted` after masking (schedule.py:1176). -/
def Sched.availStart (s : Sched) (b : Block) (j : Nat) : Bool :=
  s.avail b j && !masked s.size b.nSlots (s.avail b) j

/-- The day/night multiplier (schedule.py:1181-1190). -/
def hoursWeight (hours : Option ℚ) (used : ℚ) : ℚ :=
  match hours with
  | none => 1
  | some h => if h = 0 then 0 else 1 - min 1 (used / h)

/-- Booleans as numbers in a numpy product. Used for schedule.py:1179-1191. -/
def b2q (b : Bool) : ℚ := if b then 1 else 0

/-- `score = blk_score * self.freeSlots * freeSlotsShifted` (schedule.py:1179-1191). -/
def Sched.bookScore (s : Sched) (p : BookParams) (dayUsed nightUsed : ℚ) (b : Block) (j : Nat) : ℚ :=
  b.row j * (if s.day j then hoursWeight p.dayHours dayUsed else hoursWeight p.nightHours nightUsed)
    * b2q (s.free j) * b2q (s.availStart b j)

/-- `_freeze_processing_slots` (schedule.py:1990-2013). -/
def Sched.freezeProc (s : Sched) (a b : Int) : Sched × Option Err :=
  if a ≥ b then (s, some .indexError)
  else
    let a' := if a < 0 then 0 else a
    let b' := if b > s.size then (s.size : Int) else b
    ({ s with proc := fun i => if inSlice s.size a' b' i then s.proc i + 1 else s.proc i }, none)

/-- Set the slice `[a, a+n)` of `freeSlots` to `v`. Used for schedule.py:1208-1221. -/
def Sched.setFree (s : Sched) (a n : Nat) (v : Bool) : Sched :=
  { s with free := fun i => if inSlice s.size a (a + n : Nat) i then v else s.free i }

/-- Write a block back at index `i` of `observation_blocks`. Used for schedule.py:1208-1221. -/
def Sched.setBlock (s : Sched) (i : Nat) (b : Block) : Sched := { s with blocks := s.blocks.set i b }

/-- Assign a start index to a block and its reported times (schedule.py:1208, 1220-1221; also 1109-1111,
1348-1353, 1445-1447, 2117-2119). -/
def Sched.placed (s : Sched) (b : Block) (st : Nat) : Block :=
  { b with start := some st, tMin := some (s.slotStart st), tMax := some (s.slotStop (st + b.nSlots - 1)) }

/-- Book block `b` (index `i`) at start `st` (schedule.py:1208-1221). -/
def Sched.bookAt (s : Sched) (i : Nat) (b : Block) (st : Nat) : Sched :=
  let s1 := s.setFree st b.nSlots false
  let s2 := if b.nDelay ≠ 0 then
      (s1.freezeProc ((st : Int) - b.nDelay) ((st : Int) + b.nSlots - 1 + b.nDelay + 1)).1
    else s1
  s2.setBlock i (s.placed b st)

/-- Number of slots of `[st, st+n)` inside the schedule where `f` holds (schedule.py:1225, 1227). -/
def countIn (size : Nat) (f : Nat → Bool) (st n : Nat) : Nat :=
  ((List.range size).filter fun i => f i && inSlice size st (st + n : Nat) i).length

/-- Loop state of the heuristic: the schedule and the day/night hours used so far. Used for schedule.py:1159-1227. -/
structure BState where
  s : Sched
  dayUsed : ℚ
  nightUsed : ℚ

/-- The decision for one block (schedule.py:1191-1206): `none` when all scores are zero or none reaches
`minimal_score`, else the first best start. -/
def Sched.choose (s : Sched) (p : BookParams) (du nu : ℚ) (b : Block) : Option Nat :=
  let score := s.bookScore p du nu b
  if (List.range s.size).all fun j => decide (score j = 0) then none
  else if !((List.range s.size).any fun j => decide (p.minScore ≤ score j)) then none
  else some (argmax score s.size)

/-- One iteration of the loop over `block_indices` (schedule.py:1159-1227). -/
def bookStep (p : BookParams) (st : BState) (i : Nat) : BState × Option Err :=
  match st.s.blocks[i]? with
  | none => (st, some .indexError)
  | some b =>
    if !b.toSched || b.start.isSome then (st, none)
    else
      match st.s.choose p st.dayUsed st.nightUsed b with
      | none => (st, none)
      | some j =>
        let s' := st.s.bookAt i b j
        ({ s := s'
           dayUsed := if p.dayHours.isSome then
               st.dayUsed + countIn s'.size s'.day j b.nSlots * s'.dt / 3600 else st.dayUsed
           nightUsed := if p.nightHours.isSome then
               st.nightUsed + countIn s'.size (fun k => !s'.day k) j b.nSlots * s'.dt / 3600 else st.nightUsed },
         none)

/-- The loop; an exception stops it and the state so far remains (schedule.py:1159-1227). -/
def bookLoop (p : BookParams) : BState → List Nat → BState × Option Err
  | st, [] => (st, none)
  | st, i :: is =>
    match bookStep p st i with
    | (st', none) => bookLoop p st' is
    | (st', some e) => (st', some e)

/-- `_reset_observation_block_bookings` (schedule.py:1792-1806), block by block. The processing counter slice
is `[start - delay - 1 : start + nSlots + delay]`, with Python's meaning of a negative bound. -/
def resetLoop (size : Nat) : List Block → (Nat → Bool) → (Nat → Int) →
    List Block × (Nat → Bool) × (Nat → Int)
  | [], f, p => ([], f, p)
  | b :: bs, f, p =>
    match b.start with
    | none =>
      let r := resetLoop size bs f p
      (b :: r.1, r.2)
    | some st =>
      let f' : Nat → Bool := fun i => if inSlice size st (st + b.nSlots : Nat) i then true else f i
      let p' : Nat → Int := if b.nDelay ≠ 0 then
          fun i => if inSlice size ((st : Int) - b.nDelay - 1) ((st : Int) + b.nSlots + b.nDelay) i
            then p i - 1 else p i
        else p
      let r := resetLoop size bs f' p'
      ({ b with start := none } :: r.1, r.2)

/-- schedule.py:1792-1806. -/
def Sched.reset (s : Sched) : Sched :=
  let r := resetLoop s.size s.blocks s.free s.proc
  { s with blocks := r.1, free := r.2.1, proc := r.2.2 }

/-- Everything `book` does before choosing the algorithm (schedule.py:1048-1077). -/
def Sched.prepare (s : Sched) (reset strict : Bool) : Sched :=
  let s1 := if reset then s.reset else s
  let s2 := s1.computeScores
  if strict then s2.veryStrict else s2

/-- `book(optimize=False, ...)` (schedule.py:974-1077, 1137-1237). When nothing is to schedule it returns early
(1057-1062); the `very_strict` filter only comes after that test, but with nothing to schedule the loop does nothing
anyway, so the early return is not separated. -/
def Sched.book (s : Sched) (p : BookParams) : Sched × Option Err :=
  let r := bookLoop p ⟨s.prepare p.reset p.veryStrict, 0, 0⟩ p.order
  (r.1.s, r.2)

/-! ## Booking from the genetic algorithm -/

/-- Give genome entries, in order, to the blocks to schedule (schedule.py:1095-1111). A block whose scores over
`[g, g + nSlots)` are all zero is skipped. An entry missing from the genome raises `IndexError`; so does a block
reaching outside of the schedule (`self.stops[...]`, 1111). -/
def assignGenome (s : Sched) : List Block → List Nat → List Block × Option Err
  | [], _ => ([], none)
  | b :: bs, g =>
    if !b.toSched then
      let r := assignGenome s bs g
      (b :: r.1, r.2)
    else match g with
      | [] => (b :: bs, some .indexError)
      | x :: xs =>
        if (List.range s.size).all fun i => !inSlice s.size x (x + b.nSlots : Nat) i || decide (b.row i = 0) then
          let r := assignGenome s bs xs
          (b :: r.1, r.2)
        else if x + b.nSlots - 1 < s.size then
          let r := assignGenome s bs xs
          (s.placed b x :: r.1, r.2)
        else ({ b with start := some x, tMin := if x < s.size then some (s.slotStart x) else b.tMin } :: bs, some .indexError)

/-- One accepted move of `fine_tune` (schedule.py:1436-1447): block `i` shifts by one slot to the left or right,
which only happens when the score of the new start is strictly larger. Which block and direction are best
is not modelled: `moves` lists any choices; a choice without strict improvement does nothing. -/
def Sched.tuneMove (s : Sched) (mv : Nat × Bool) : Sched :=
  match s.blocks[mv.1]? with
  | none => s
  | some b =>
    match b.start with
    | none => s
    | some st =>
      if mv.2 then
        if 0 < st ∧ b.row st < b.row (st - 1) then s.setBlock mv.1 (s.placed b (st - 1)) else s
      else
        if b.row st < b.row (st + 1) then s.setBlock mv.1 (s.placed b (st + 1)) else s

/-- The clean-up after the genetic algorithm (schedule.py:1117-1127), for blocks in the given order: a block whose
slots are not all free is unbooked, otherwise its slots are taken. -/
def Sched.cleanStep (s : Sched) (i : Nat) : Sched :=
  match s.blocks[i]? with
  | none => s
  | some b =>
    match b.start with
    | none => s
    | some st =>
      if (List.range s.size).all fun t => !inSlice s.size st (st + b.nSlots : Nat) t || s.free t then
        s.setFree st b.nSlots false
      else s.setBlock i { b with start := none }

/-- Insert by increasing score, after the blocks of equal score (Python's stable `sorted`, schedule.py:1118). -/
def insertByScore (score : Nat → ℚ) (i : Nat) : List Nat → List Nat
  | [] => [i]
  | j :: js => if score i < score j then i :: j :: js else j :: insertByScore score i js

/-- `sorted(zip(scores, blocks), key=score)` (schedule.py:1118), as a list of block indices. -/
def sortByScore (score : Nat → ℚ) (n : Nat) : List Nat :=
  (List.range n).foldl (fun acc i => insertByScore score i acc) []

/-- `book(optimize=True)` (schedule.py:1079-1135) for whatever genome the search returned and whatever moves
the fine tuning chose; `score i` is `blk.score` of block `i` at the time of the clean-up. The early return for a schedule
with nothing to do (1057-1062) comes before the `very_strict` filter (1069-1077): when only the filter removes every block,
the search is still built, and drawing a position in an empty genome (1930-1933) fails, a `TypeError` after
geneticalgo.py:152-163. Fine tuning with no booked block takes the maximum of an empty array (1437), a `ValueError`. -/
def Sched.bookGA (s : Sched) (reset strict : Bool) (genome : List Nat) (moves : List (Nat × Bool))
    (score : Nat → ℚ) : Sched × Option Err :=
  let s1 := s.prepare reset strict
  if (s.prepare reset false).blocks.all fun b => !b.toSched then (s1, none)
  else if s1.blocks.all fun b => !b.toSched then (s1, some .typeError)
  else
    let a := assignGenome s1 s1.blocks genome
    let s2 := { s1 with blocks := a.1 }
    match a.2 with
    | some e => (s2, some e)
    | none =>
      if s2.blocks.all fun b => b.start.isNone then (s2, some .valueError)
      else
      let s3 := moves.foldl Sched.tuneMove s2
      ((sortByScore score s3.blocks.length).foldl Sched.cleanStep s3, none)

/-! ## Extension of booked observations -/

/-- One candidate window (schedule.py:1288-1292): `w` indices centred on the block, clipped to the schedule. -/
def extWindow (size s0 n0 w : Nat) : List Nat :=
  (List.range w).filterMap fun (k : Nat) =>
    let x : Int := (k : Int) - ((w / 2 : Nat) : Int) + s0 + ((n0 / 2 : Nat) : Int)
    if 0 ≤ x ∧ x < size then some x.toNat else none

/-- `np.all(np.diff(l) == 1)` (schedule.py:1347). -/
def consecutive : List Nat → Bool
  | [] => true
  | [_] => true
  | a :: b :: l => decide (b = a + 1) && consecutive (b :: l)

/-- One attempt to extend block `i` to window `w` (schedule.py:1338-1360). -/
def Sched.extendAttempt (s : Sched) (i : Nat) (w : List Nat) : Sched :=
  match s.blocks[i]? with
  | none => s
  | some b =>
    match b.start with
    | none => s
    | some st =>
      if w.any s.free then
        let w' := w.filter fun x => s.free x || (decide (st ≤ x) && decide (x < st + b.nSlots))
        if consecutive w' then
          match w' with
          | [] => s
          | h :: _ =>
            let b' := { b with nSlots := w'.length, duration := w'.length * s.dt }
            (s.setFree h w'.length false).setBlock i (s.placed b' h)
        else s
      else s

/-- The window sizes tried for a booked block of `n` slots (schedule.py:1266-1315). `ext` is the maximal duration.
No maximum, or a maximum equal to the present length: nothing to try. A maximum *shorter* than the
present length makes an empty list of windows, and `constraint_score[0]` (1314) raises `IndexError`.
`keep w` is the outcome of the score comparison for window size `w`. -/
def extCandidates (n : Nat) (ext : Option ℚ) (dt : ℚ) (keep : Nat → Bool) : Except Err (List Nat) :=
  match ext with
  | none => .ok []
  | some e =>
    let m := ceilSlots e dt
    if n = m then .ok []
    else if m < n then .error .indexError
    else .ok ((List.range' (n + 1) (m - n)).filter keep)

/-- Candidate window sizes for every block (schedule.py:1261-1315), empty for blocks that are not booked.
`maxDur` overrides the duration carried by the blocks (1266-1269). -/
def allCandidates (dt : ℚ) (maxDur : Option ℚ) (keep : Nat → Nat → Bool) :
    Nat → List Block → Except Err (List (List Nat))
  | _, [] => .ok []
  | i, b :: bs =>
    match (if b.start.isSome then
        extCandidates b.nSlots (match maxDur with | none => b.maxExt | some d => some d) dt (keep i)
      else .ok []) with
    | .error e => .error e
    | .ok c =>
      match allCandidates dt maxDur keep (i + 1) bs with
      | .error e => .error e
      | .ok cs => .ok (c :: cs)

/-- The attempt on block `i` at iteration `it` (schedule.py:1328-1362); windows are centred on the position
the blocks had when the method was called (`orig`). -/
def extendBlock (orig : List Block) (cands : List (List Nat)) (it : Nat) (s : Sched) (i : Nat) : Sched :=
  match orig[i]?, cands[i]? with
  | some b0, some c =>
    match b0.start, c[it]? with
    | some s0, some w => s.extendAttempt i (extWindow s.size s0 b0.nSlots w)
    | _, _ => s
  | _, _ => s

/-- One pass over the blocks (schedule.py:1324-1364). -/
def extendIter (orig : List Block) (cands : List (List Nat)) (s : Sched) (it : Nat) : Sched :=
  (List.range orig.length).foldl (extendBlock orig cands it) s

/-- `extend_scheduled_observations` (schedule.py:1240-1366), apart from the `_obs_extension_done` flag. -/
def Sched.extend (s : Sched) (maxDur : Option ℚ) (keep : Nat → Nat → Bool) : Sched × Option Err :=
  match allCandidates s.dt maxDur keep 0 s.blocks with
  | .error e => (s, some e)
  | .ok cands =>
    ((List.range ((cands.map List.length).foldl max 0)).foldl (extendIter s.blocks cands) s, none)

/-! ## Guarded slot updates and shifts -/

/-- `_free_slots` (schedule.py:2015-2040). -/
def Sched.freeSlots (s : Sched) (a b : Int) : Sched × Option Err :=
  if a < 0 ∨ a ≥ b ∨ b > s.size then (s, some .indexError)
  else if (List.range s.size).any fun i => inSlice s.size a b i && s.free i then (s, some .valueError)
  else ({ s with free := fun i => if inSlice s.size a b i then true else s.free i }, none)

/-- `_freeze_slots` (schedule.py:2042-2067). -/
def Sched.freezeSlots (s : Sched) (a b : Int) : Sched × Option Err :=
  if a < 0 ∨ a ≥ b ∨ b > s.size then (s, some .indexError)
  else if (List.range s.size).any fun i => inSlice s.size a b i && !s.free i then (s, some .valueError)
  else ({ s with free := fun i => if inSlice s.size a b i then false else s.free i }, none)

/-- `_free_processing_slots` (schedule.py:1962-1988). -/
def Sched.freeProc (s : Sched) (a b : Int) : Sched × Option Err :=
  if a < 0 ∨ a ≥ b ∨ b > s.size then (s, some .indexError)
  else if (List.range s.size).any fun i => inSlice s.size a b i && decide (s.proc i < 1) then (s, some .valueError)
  else ({ s with proc := fun i => if inSlice s.size a b i then s.proc i - 1 else s.proc i }, none)

/-- Sequence two calls that may raise. Used for schedule.py:2069-2129. -/
def andThen (r : Sched × Option Err) (k : Sched → Sched × Option Err) : Sched × Option Err :=
  match r.2 with
  | none => k r.1
  | some e => (r.1, some e)

/-- `_shift_obsblock` (schedule.py:2069-2129) for block `i`. The new start is clipped to the schedule; nothing happens
when both end slots are taken or the new score is below the minimum; otherwise the block is moved first, then its old slots
are released and the new ones taken, each step possibly raising. -/
def Sched.shift (s : Sched) (i : Nat) (by_ : Int) (minScore : ℚ) : Sched × Option Err :=
  match s.blocks[i]? with
  | none => (s, some .indexError)
  | some b =>
    match b.start with
    | none => (s, none)
    | some st =>
      let ns0 : Int := (st : Int) + by_
      let ns : Int := if ns0 ≤ 0 then 0
        else if ns0 + b.nSlots ≥ s.size then (s.size : Int) - b.nSlots else ns0
      let stop : Int := ns + b.nSlots - 1
      if !(s.free ns.toNat || s.free stop.toNat) then (s, none)
      else if b.row ns.toNat < minScore then (s, none)
      else
        let s1 := s.setBlock i (s.placed b ns.toNat)
        andThen (s1.freeSlots st (st + b.nSlots)) fun s2 =>
        andThen (s2.freezeSlots ns (stop + 1)) fun s3 =>
        if b.nDelay ≠ 0 then
          andThen (s3.freeProc ((st : Int) - b.nDelay) ((st : Int) + b.nSlots + b.nDelay)) fun s4 =>
          s4.freezeProc (ns - b.nDelay) (stop + b.nDelay + 1)
        else (s3, none)

/-- `_shift_obsblock_later` (schedule.py:2131-2158); `dt = none` means one slot. -/
def Sched.shiftLater (s : Sched) (i : Nat) (dt : Option ℚ) (minScore : ℚ) : Sched × Option Err :=
  s.shift i (match dt with | none => 1 | some d => ⌊|d| / s.dt⌋) minScore

/-- `_shift_obsblock_earlier` (schedule.py:2160-2185). The sign for an explicit `dt` is positive, as in the code. -/
def Sched.shiftEarlier (s : Sched) (i : Nat) (dt : Option ℚ) (minScore : ℚ) : Sched × Option Err :=
  s.shift i (match dt with | none => -1 | some d => ⌊|d| / s.dt⌋) minScore

end Verif.Scheduler
