import Verif.Cal.Crossings
import Verif.Cal.Props
import Mathlib.Data.List.Perm.Basic

/-!
# Events crossing an event (property C198)
-/

namespace Verif.Cal

/-! ## Specification -/

/-- Another event with an instant in common, ends left out. -/
def Meets (ev o : Ev) : Prop := o ≠ ev ∧ ∃ t, ev.b < t ∧ t < ev.e ∧ o.b < t ∧ t < o.e

open Classical in
/-- Number of the events of a list which meet one. -/
noncomputable def meeting (ev : Ev) (l : List Ev) : Nat := l.countP fun o : Ev => decide (Meets ev o)

/-- Events of positive length. -/
def Proper (l : List Ev) : Prop := ∀ o ∈ l, o.b < o.e

/-! ## Loops -/

theorem foldl_calendars (ev : Ev) (cals : List (List Ev)) (s : CrossSt) :
    cals.foldl (fun s l => l.foldl (crossStep ev) s) s = cals.flatten.foldl (crossStep ev) s := by
  induction cals generalizing s with
  | nil => rfl
  | cons l c ih =>
    rw [List.foldl_cons, List.flatten_cons, List.foldl_append]
    exact ih _

theorem crossings_eq (cals : List (List Ev)) (ev : Ev) :
    crossings cals ev = ((cals.flatten.foldl (crossStep ev) ⟨0, 0, false⟩).before, (cals.flatten.foldl (crossStep ev) ⟨0, 0, false⟩).after) := by
  unfold crossings
  rw [foldl_calendars]

theorem meeting_cons (ev o : Ev) (l : List Ev) (h : Meets ev o) : meeting ev (o :: l) = meeting ev l + 1 := by
  unfold meeting
  rw [List.countP_cons, if_pos (by simpa using h)]

theorem meeting_skip (ev o : Ev) (l : List Ev) (h : ¬ Meets ev o) : meeting ev (o :: l) = meeting ev l := by
  unfold meeting
  rw [List.countP_cons, if_neg (by simpa using h)]
  rfl

theorem step_cases (ev o : Ev) (he : ev.b < ev.e) (ho : o.b < o.e) (s : CrossSt) :
    (o = ev ∧ ¬ Meets ev o ∧ crossStep ev s o = { s with crossed := true })
      ∨ (o ≠ ev ∧ Meets ev o ∧ crossStep ev s o = if s.crossed then { s with after := s.after + 1 } else { s with before := s.before + 1 })
      ∨ (o ≠ ev ∧ ¬ Meets ev o ∧ crossStep ev s o = s) := by
  unfold crossStep
  by_cases h : o = ev
  · exact Or.inl ⟨h, fun k => k.1 h, by rw [if_pos h]⟩
  · rw [if_neg h]
    have ti := intersection_exact ev.b ev.e o.b o.e he ho
    by_cases k : timeIntersection ev.b ev.e o.b o.e = true
    · exact Or.inr (Or.inl ⟨h, ⟨h, ti.1 k⟩, by rw [if_pos k]⟩)
    · exact Or.inr (Or.inr ⟨h, fun q => k (ti.2 q.2), by rw [if_neg k]⟩)

theorem fold_total (ev : Ev) (he : ev.b < ev.e) (l : List Ev) (hl : Proper l) (s : CrossSt) :
    (l.foldl (crossStep ev) s).before + (l.foldl (crossStep ev) s).after = s.before + s.after + meeting ev l := by
  induction l generalizing s with
  | nil => rfl
  | cons o l ih =>
    rw [List.foldl_cons, ih (fun x hx => hl x (List.mem_cons_of_mem _ hx))]
    rcases step_cases ev o he (hl o (List.mem_cons_self ..)) s with ⟨_, hm, hs⟩ | ⟨_, hm, hs⟩ | ⟨_, hm, hs⟩
    · rw [hs, meeting_skip ev o l hm]
    · rw [hs, meeting_cons ev o l hm]
      by_cases hc : s.crossed = true
      · rw [if_pos hc]
        show s.before + (s.after + 1) + _ = _
        omega
      · rw [if_neg hc]
        show s.before + 1 + s.after + _ = _
        omega
    · rw [hs, meeting_skip ev o l hm]

theorem fold_crossed (ev : Ev) (he : ev.b < ev.e) (l : List Ev) (hl : Proper l) (b a : Nat) :
    l.foldl (crossStep ev) ⟨b, a, true⟩ = ⟨b, a + meeting ev l, true⟩ := by
  induction l generalizing a with
  | nil => rfl
  | cons o l ih =>
    have ih' := ih (fun x hx => hl x (List.mem_cons_of_mem _ hx))
    rw [List.foldl_cons]
    rcases step_cases ev o he (hl o (List.mem_cons_self ..)) ⟨b, a, true⟩ with ⟨_, hm, hs⟩ | ⟨_, hm, hs⟩ | ⟨_, hm, hs⟩
    · rw [hs, meeting_skip ev o l hm]
      exact ih' a
    · rw [hs, meeting_cons ev o l hm, if_pos rfl]
      refine (ih' (a + 1)).trans ?_
      rw [Nat.add_assoc, Nat.add_comm 1]
    · rw [hs, meeting_skip ev o l hm]
      exact ih' a

theorem fold_before (ev : Ev) (he : ev.b < ev.e) (l : List Ev) (hl : Proper l) (hn : ev ∉ l) (b a : Nat) :
    l.foldl (crossStep ev) ⟨b, a, false⟩ = ⟨b + meeting ev l, a, false⟩ := by
  induction l generalizing b with
  | nil => rfl
  | cons o l ih =>
    have ih' := ih (fun x hx => hl x (List.mem_cons_of_mem _ hx)) (fun q => hn (List.mem_cons_of_mem _ q))
    rw [List.foldl_cons]
    rcases step_cases ev o he (hl o (List.mem_cons_self ..)) ⟨b, a, false⟩ with ⟨hq, _, _⟩ | ⟨_, hm, hs⟩ | ⟨_, hm, hs⟩
    · exact absurd (by rw [hq]; exact List.mem_cons_self ..) hn
    · rw [hs, meeting_cons ev o l hm, if_neg Bool.false_ne_true]
      refine (ih' (b + 1)).trans ?_
      rw [Nat.add_assoc, Nat.add_comm 1]
    · rw [hs, meeting_skip ev o l hm]
      exact ih' b

/-! ## Properties -/

/-- C198: the events counted before and after an event are together those of all the calendars, other than it, with an instant in common. -/
theorem crossings_total (cals : List (List Ev)) (ev : Ev) (he : ev.b < ev.e) (hc : Proper cals.flatten) :
    (crossings cals ev).1 + (crossings cals ev).2 = meeting ev cals.flatten := by
  rw [crossings_eq]
  refine (fold_total ev he _ hc _).trans ?_
  show 0 + 0 + _ = _
  omega

/-- C198: those before it in the calendars are counted first and those after it second. -/
theorem crossings_sides (cals : List (List Ev)) (ev : Ev) (he : ev.b < ev.e) (p q : List Ev) (h : cals.flatten = p ++ ev :: q) (hp : Proper p)
    (hq : Proper q) (hn : ev ∉ p) : crossings cals ev = (meeting ev p, meeting ev q) := by
  rw [crossings_eq, h, List.foldl_append, fold_before ev he p hp hn, List.foldl_cons]
  have e : crossStep ev ⟨0 + meeting ev p, 0, false⟩ ev = ⟨0 + meeting ev p, 0, true⟩ := by
    unfold crossStep
    rw [if_pos rfl]
  rw [e, fold_crossed ev he q hq, Nat.zero_add, Nat.zero_add]

/-- C198: for an event which is in no calendar, all are counted before. -/
theorem crossings_absent (cals : List (List Ev)) (ev : Ev) (he : ev.b < ev.e) (hc : Proper cals.flatten) (hn : ev ∉ cals.flatten) :
    crossings cals ev = (meeting ev cals.flatten, 0) := by
  rw [crossings_eq, fold_before ev he _ hc hn, Nat.zero_add]

/-- C198: the total does not depend on the order of the events nor on the calendar in which they are. -/
theorem crossings_order (cals cals' : List (List Ev)) (h : cals.flatten.Perm cals'.flatten) (ev : Ev) (he : ev.b < ev.e)
    (hc : Proper cals.flatten) :
    (crossings cals ev).1 + (crossings cals ev).2 = (crossings cals' ev).1 + (crossings cals' ev).2 := by
  rw [crossings_total cals ev he hc, crossings_total cals' ev he (fun o ho => hc o (h.mem_iff.2 ho))]
  exact h.countP_eq _

/-- C198: nothing is counted exactly when no other event has an instant in common. -/
theorem crossings_none (cals : List (List Ev)) (ev : Ev) (he : ev.b < ev.e) (hc : Proper cals.flatten) :
    crossings cals ev = (0, 0) ↔ ∀ o ∈ cals.flatten, ¬ Meets ev o := by
  have t := crossings_total cals ev he hc
  have z : meeting ev cals.flatten = 0 ↔ ∀ o ∈ cals.flatten, ¬ Meets ev o := by
    unfold meeting
    rw [List.countP_eq_zero]
    exact ⟨fun h o ho hm => h o ho (by simpa using hm), fun h o ho hm => h o ho (by simpa using hm)⟩
  rw [← z, ← t, Prod.ext_iff]
  show _ = 0 ∧ _ = 0 ↔ _
  omega

/-- C198, violated: on the calendars which can be made from events, the count always fails, whatever the events. -/
theorem crossings_unavailable_violated (l : List Ev) (ev : Ev) : (NenuCal.make l).nIntersections ev = .error .attributeError := rfl

/-- C198: with the calendars of the programmes set by hand, the count is the one above and never fails. -/
theorem crossings_available (l : List Ev) (cals : List (List Ev)) (ev : Ev) (he : ev.b < ev.e) (hc : Proper cals.flatten) :
    ∃ b a : Nat, (NenuCal.mk l (some cals)).nIntersections ev = .ok (b, a) ∧ b + a = meeting ev cals.flatten :=
  ⟨_, _, rfl, crossings_total cals ev he hc⟩

/-- Three events of two programmes; the second one has one event in common on each side. -/
example : crossings [[⟨0, 2, "ES00", none⟩, ⟨1, 4, "ES00", none⟩], [⟨3, 5, "ES01", none⟩, ⟨4, 6, "ES01", none⟩]] ⟨1, 4, "ES00", none⟩ = (1, 1) := by
  decide +kernel

end Verif.Cal
