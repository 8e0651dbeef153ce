import Verif.Sched.Spec

/-! # Concrete schedules used as witnesses and counter-examples -/

namespace Verif.Scheduler

/-- A schedule of `n` slots of one second. -/
def demo (n : Nat) : Sched :=
  { t0 := 0, dt := 1, size := n, free := fun _ => true, proc := fun _ => 0, day := fun _ => false, blocks := [] }

theorem mk_demo (n : Nat) (hn : 0 < n) : mkSched 0 n 1 (fun _ => false) = .ok (demo n) := by
  have : ¬ ((n : ℚ) ≤ 0) := by
    have : (0 : ℚ) < n := by exact_mod_cast hn
    linarith
  simp [mkSched, demo, this]

/-- An observation of `d` slots whose constraints are met exactly on the slots of `l`. -/
def obsOn (d : ℚ) (delay : Option ℚ) (ext : Option ℚ) (l : List Nat) : ObsSpec :=
  ⟨d, delay, ext, fun t => if t ∈ l then 1 else 0⟩

/-- `book()` with all defaults and a given order. -/
def plain (order : List Nat) : BookParams := ⟨0, none, none, false, true, order⟩

/-- `book(reset_booking=False)`. -/
def noReset (order : List Nat) : BookParams := ⟨0, none, none, false, false, order⟩

theorem legal_obsOn {os : List ObsSpec} (h : ∀ o ∈ os, ∃ d a e l, o = obsOn d a e l ∧ 0 < d) :
    ∀ o ∈ os, 0 < o.duration ∧ ∀ j, 0 ≤ o.cnst j := by
  intro o ho
  obtain ⟨d, a, e, l, rfl, hd⟩ := h o ho
  refine ⟨hd, fun j => ?_⟩
  simp only [obsOn]
  split <;> norm_num

theorem reachable_demo (n : Nat) (hn : 0 < n) (ops : List Op) (h : (demo n).LegalRun ops) :
    Reachable ((demo n).run ops) :=
  ⟨0, n, 1, _, demo n, ops, by norm_num, mk_demo n hn, h, rfl⟩

theorem pair_of_map {α β : Type} {f : α → β} {l : List α} {x y : β} (h : l.map f = [x, y]) :
    ∃ a b, l = [a, b] ∧ f a = x ∧ f b = y := by
  match l, h with
  | [a, b], h =>
    simp only [List.map_cons, List.map_nil, List.cons.injEq, and_true] at h
    exact ⟨a, b, rfl, h.1, h.2⟩

/-- Starts of the blocks of a schedule. -/
def Sched.starts (s : Sched) : List (Option Nat) := s.blocks.map (·.start)

/-- Availability of all slots. -/
def Sched.frees (s : Sched) : List Bool := (List.range s.size).map s.free

end Verif.Scheduler
