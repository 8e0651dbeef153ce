import Verif.Sched.Model

/-!
# What a user expects from a schedule

These definitions only speak about what can be observed on a schedule: which slots each booked block
occupies, the times it reports, and which slots are available.
-/

namespace Verif.Scheduler

/-- Block `b` is booked and occupies slot `t`: it uses `nSlots` consecutive slots from its start. -/
def Occupies (b : Block) (t : Nat) : Prop :=
  ∃ st, b.start = some st ∧ st ≤ t ∧ t < st + b.nSlots

/-- No slot is used by two different blocks. -/
def NoDoubleBooking (s : Sched) : Prop :=
  ∀ (i j : Nat) (bi bj : Block) (t : Nat), s.blocks[i]? = some bi → s.blocks[j]? = some bj → i ≠ j →
    Occupies bi t → ¬ Occupies bj t

/-- Booked blocks lie inside the schedule. -/
def InsideSchedule (s : Sched) : Prop :=
  ∀ b ∈ s.blocks, ∀ t, Occupies b t → t < s.size

/-- Slots used by a booked block are not offered any more. -/
def BookedNotFree (s : Sched) : Prop :=
  ∀ b ∈ s.blocks, ∀ t, Occupies b t → s.free t = false

/-- The start and stop times reported by booked blocks are the bounds of the slots they occupy. -/
def TimesMatch (s : Sched) : Prop :=
  ∀ b ∈ s.blocks, ∀ st, b.start = some st →
    b.tMin = some (s.t0 + st * s.dt) ∧ b.tMax = some (s.t0 + (st + b.nSlots : ℕ) * s.dt)

/-- Each block uses the least number of slots covering its duration. -/
def SlotsCoverDuration (s : Sched) : Prop :=
  ∀ b ∈ s.blocks, b.duration ≤ b.nSlots * s.dt ∧ (b.nSlots : ℚ) * s.dt < b.duration + s.dt

/-- User-level operations on a schedule. -/
inductive Op
  | insertObs (os : List ObsSpec)
  | reserve (a b : ℚ)
  | book (p : BookParams)
  | bookGA (reset strict : Bool) (genome : List Nat) (moves : List (Nat × Bool)) (score : Nat → ℚ)
  | extend (maxDur : Option ℚ) (keep : Nat → Nat → Bool)

/-- State left by an operation, whether it returns or raises. -/
def Sched.apply (s : Sched) : Op → Sched
  | .insertObs os => s.insertObs os
  | .reserve a b => (s.insertReserved a b).1
  | .book p => (s.book p).1
  | .bookGA r v g m sc => (s.bookGA r v g m sc).1
  | .extend d k => (s.extend d k).1

/-- State after a history of operations. -/
def Sched.run (s : Sched) (ops : List Op) : Sched := ops.foldl Sched.apply s

/-- Legal use in state `s`: inserted blocks have a positive duration and non-negative constraint scores, extended
durations are positive, and a genetic-algorithm booking does not raise
(`bookGA_succeeds` says when it does not). -/
def Sched.Legal (s : Sched) : Op → Prop
  | .insertObs os => ∀ o ∈ os, 0 < o.duration ∧ ∀ j, 0 ≤ o.cnst j
  | .bookGA r v g m sc => (s.bookGA r v g m sc).2 = none
  | _ => True

/-- Slot `t` overlaps the open time interval `(a, b)`, for `a ≤ b`. -/
def Sched.Overlaps (s : Sched) (t : Nat) (a b : ℚ) : Prop :=
  a ≤ b ∧ a < s.t0 + (t + 1) * s.dt ∧ s.t0 + t * s.dt < b

/-- Slot `t` is covered by one of the reservations made in a history. -/
def Sched.ReservedBy (s : Sched) (ops : List Op) (t : Nat) : Prop :=
  ∃ a b, Op.reserve a b ∈ ops ∧ s.Overlaps t a b

/-- Reservations are not placed over booked observations, and the genetic algorithm starts from a reset schedule. -/
def Sched.Careful (s : Sched) : Op → Prop
  | .reserve a b => ∀ c ∈ s.blocks, ∀ t, Occupies c t → ¬ s.Overlaps t a b
  | .bookGA r _ _ _ _ => r = true
  | _ => True

/-- Every operation of the history is careful in the state where it is called. -/
def Sched.CarefulRun (s : Sched) : List Op → Prop
  | [] => True
  | op :: ops => s.Careful op ∧ (s.apply op).CarefulRun ops

/-- Every operation of the history is legal in the state where it is called. -/
def Sched.LegalRun (s : Sched) : List Op → Prop
  | [] => True
  | op :: ops => s.Legal op ∧ (s.apply op).LegalRun ops

/-- States a user can reach from a new schedule by any history of legal operations. -/
def Reachable (s : Sched) : Prop :=
  ∃ tMin tMax dt day s0 ops, 0 < dt ∧ mkSched tMin tMax dt day = .ok s0 ∧ s0.LegalRun ops ∧ s = s0.run ops

/-- Block `b`, booked, keeps clear of slot range "`c` enlarged on both sides by `c`'s processing delay". -/
def ClearOf (b c : Block) : Prop :=
  ∀ sc, c.start = some sc → ∀ t, Occupies b t → ¬ (sc ≤ t + c.nDelay ∧ t < sc + c.nSlots + c.nDelay)

/-- A start for block `b` is feasible: the whole window is inside the schedule, on available slots, and, for a block with
a processing delay, off the slots frozen by the delays of others. -/
def Feasible (s : Sched) (b : Block) (j : Nat) : Prop :=
  j + b.nSlots ≤ s.size ∧ ∀ t, j ≤ t → t < j + b.nSlots → s.free t = true ∧ (b.nDelay ≠ 0 → s.proc t = 0)

end Verif.Scheduler
