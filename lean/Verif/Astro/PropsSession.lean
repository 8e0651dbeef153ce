import Verif.Astro.Session
import Verif.Astro.PropsCross

/-!
# C158: a call without a time is about the present
-/

namespace Verif.Astro

/-- What the documentation says ("Default is current time"): the time of a call is the one given, else the clock. -/
def meant (c : TimedCall) : ℚ := c.given.getD c.clock

theorem call_time (imported : ℚ) (c : TimedCall) : timeArg imported c = meant c ↔ c.given.isSome = true ∨ c.clock = imported := by
  obtain ⟨t, g⟩ := c
  cases g with
  | some g => exact ⟨fun _ => Or.inl rfl, fun _ => rfl⟩
  | none => exact ⟨fun h => Or.inr h.symm, fun h => h.elim (fun h => by cases h) fun h => h.symm⟩

/-- **C158**, calls with a time: whatever the program did before, the next crossing is after this time, no more than two days, and the first one found; it is that of a
pair of samples no further apart than the precision. -/
theorem given_next_partial (cross : ℚ → ℚ → Bool) (imported prec t clock r : ℚ) (fuel : Nat)
    (h : nextCall cross imported prec fuel ⟨clock, some t⟩ = some (.ok (some r))) :
    t ≤ r ∧ r ≤ t + 172800 ∧ ∃ a b, a ≤ r ∧ r ≤ b ∧ b - a ≤ prec ∧ cross a b = true := by
  obtain ⟨rs, h1, h2, h3, -⟩ := next_crossing cross t prec fuel r h
  obtain ⟨a, b, ha, hb, hab, hc, -, hb'⟩ := crossing_sound cross t 172800 prec fuel rs (by norm_num) h1 r h3
  exact ⟨h2, by linarith, a, b, ha, hb, hab, hc⟩

/-- **C158**, calls with a time: the previous crossing is before it, no more than two days. -/
theorem given_previous_partial (cross : ℚ → ℚ → Bool) (imported prec t clock r : ℚ) (fuel : Nat)
    (h : previousCall cross imported prec fuel ⟨clock, some t⟩ = some (.ok (some r))) :
    t - 172800 ≤ r ∧ r ≤ t ∧ ∃ a b, a ≤ r ∧ r ≤ b ∧ b - a ≤ prec ∧ cross a b = true := by
  obtain ⟨rs, h1, h2, h3, -⟩ := previous_crossing cross t prec fuel r h
  obtain ⟨a, b, ha, hb, hab, hc, ha', -⟩ := crossing_sound cross (t - 172800) 172800 prec fuel rs (by norm_num) h1 r h3
  exact ⟨by linarith, h2, a, b, ha, hb, hab, hc⟩

/-- The answers do not depend on the calls made before. -/
theorem run_get (cross : ℚ → ℚ → Bool) (imported prec : ℚ) (fuel : Nat) (l : List TimedCall) (i : Nat) :
    (nextRun cross imported prec fuel l)[i]? = l[i]?.map (nextCall cross imported prec fuel) := by
  induction l generalizing i with
  | nil => rfl
  | cons c l ih =>
    cases i with
    | zero => rfl
    | succ i => exact ih i

/-- **C158** fails: within one program all the calls without a time have the same answer, however much time passes between them. -/
theorem same_answer_violated (cross : ℚ → ℚ → Bool) (imported prec : ℚ) (fuel : Nat) (l : List TimedCall) (i j : Nat) (a b : TimedCall) (hi : l[i]? = some a) (hj : l[j]? = some b)
    (ha : a.given = none) (hb : b.given = none) :
    (nextRun cross imported prec fuel l)[i]? = (nextRun cross imported prec fuel l)[j]? := by
  rw [run_get, run_get, hi, hj]
  show some (nextCrossing cross (a.given.getD imported) prec fuel) = some (nextCrossing cross (b.given.getD imported) prec fuel)
  rw [ha, hb]

/-- **C158** fails: in a program which has been running for more than two days, the "next" crossing of a call without a time is always in the past. -/
theorem next_past_violated (cross : ℚ → ℚ → Bool) (imported prec clock r : ℚ) (fuel : Nat) (hlong : imported + 172800 < clock)
    (h : nextCall cross imported prec fuel ⟨clock, none⟩ = some (.ok (some r))) : r < clock := by
  obtain ⟨rs, h1, -, h3, -⟩ := next_crossing cross imported prec fuel r h
  obtain ⟨a, b, -, hb, -, -, -, hb'⟩ := crossing_sound cross imported 172800 prec fuel rs (by norm_num) h1 r h3
  linarith

/-- **C158** fails: so it is as soon as one crossing has passed since the modules were read (one which the search sees: it is not undone within six hours). -/
theorem next_passed_violated (cross : ℚ → ℚ → Bool) (imported prec clock t : ℚ) (fuel : Nat) (rs : List ℚ) (hrun : findCrossings cross imported 172800 prec fuel = some (.ok rs))
    (h1 : imported < t) (h2 : t ≤ imported + 172800) (hc : ∀ a b, a < t → t ≤ b → b - a ≤ maxDt → cross a b = true) (hpast : t + prec < clock) :
    ∃ r, nextCall cross imported prec fuel ⟨clock, none⟩ = some (.ok (some r)) ∧ r < clock := by
  obtain ⟨x, hx, hxt⟩ := crossing_found cross imported 172800 prec t fuel rs (by norm_num) hrun h1 h2 hc
  have e : nextCall cross imported prec fuel ⟨clock, none⟩ = some (.ok rs.head?) := by
    show (findCrossings cross imported 172800 prec fuel).map (fun r => r.map List.head?) = _
    rw [hrun]; rfl
  cases rs with
  | nil => cases hx
  | cons r rs =>
    refine ⟨r, e, ?_⟩
    obtain ⟨rs', h3, -, -, h4⟩ := next_crossing cross imported prec fuel r e
    rw [hrun] at h3
    injection h3 with h3
    injection h3 with h3
    subst h3
    have := h4 x hx
    have := (abs_le.mp hxt).2
    linarith

/-- **C158** fails: the "previous" crossing of a call without a time is never one which happened since the modules were read. -/
theorem previous_missed_violated (cross : ℚ → ℚ → Bool) (imported prec clock r : ℚ) (fuel : Nat)
    (h : previousCall cross imported prec fuel ⟨clock, none⟩ = some (.ok (some r))) : r ≤ imported := by
  obtain ⟨-, -, h2, -, -⟩ := previous_crossing cross imported prec fuel r h
  exact h2

/-- **C158** fails for searches over a duration as well: everything found is before the clock once this duration has passed since the modules were read. -/
theorem find_past_violated (cross : ℚ → ℚ → Bool) (imported duration prec clock : ℚ) (fuel : Nat) (rs : List ℚ) (hd : 0 < duration) (hlong : imported + duration < clock)
    (h : findCall cross imported duration prec fuel ⟨clock, none⟩ = some (.ok rs)) : ∀ r ∈ rs, r < clock := by
  intro r hr
  obtain ⟨a, b, -, hb, -, -, -, hb'⟩ := crossing_sound cross imported duration prec fuel rs hd h r hr
  linarith

/-- With a time, everything found is within the duration after it. -/
theorem given_find_partial (cross : ℚ → ℚ → Bool) (imported duration prec t clock : ℚ) (fuel : Nat) (rs : List ℚ) (hd : 0 < duration)
    (h : findCall cross imported duration prec fuel ⟨clock, some t⟩ = some (.ok rs)) : ∀ r ∈ rs, t ≤ r ∧ r ≤ t + duration := by
  intro r hr
  obtain ⟨a, b, ha, hb, -, -, ha', hb'⟩ := crossing_sound cross t duration prec fuel rs hd h r hr
  exact ⟨by linarith, by linarith⟩

/-- A source which rises at the times 10000, 96164, …: a program started at time 0, asked at 50000 for the next rise, answers about 10000. -/
def demoRise : ℚ → ℚ → Bool := fun a b => decide (a < 10000) && decide (10000 ≤ b) || decide (a < 96164) && decide (96164 ≤ b)

example : ∃ fuel r, nextCall demoRise 0 5 fuel ⟨50000, none⟩ = some (.ok (some r)) ∧ r < 50000 := by
  obtain ⟨n, r, h⟩ := crossing_ends demoRise 0 172800 5 (by norm_num)
  have h := h 0
  cases r with
  | error e =>
    rw [find_unfold _ _ _ _ _ (by norm_num)] at h
    cases hr : refine demoRise (downFactor 172800) 5 (n + 0) [0] 172800 (172800 / (downFactor 172800 : ℚ)) with
    | none => rw [hr] at h; cases h
    | some l => rw [hr] at h; cases h
  | ok rs =>
    refine ⟨n + 0, next_passed_violated demoRise 0 5 50000 10000 _ rs h (by norm_num) (by norm_num) (fun a b h1 h2 _ => ?_) (by norm_num)⟩
    unfold demoRise
    rw [decide_eq_true h1, decide_eq_true h2]; rfl

end Verif.Astro
