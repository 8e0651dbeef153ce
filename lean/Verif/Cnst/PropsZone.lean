import Verif.Cnst.Zone
import Verif.Cnst.Props

/-!
# Local times (property C161)
-/

namespace Verif.Cnst

/-! ## Specification -/

/-- What a clock of the zone shows at the time `t`. -/
def clock (z : Zone) (t : ℤ) : ℤ := t + (z t).1

/-- Two days before and after `t`, the zone has the offset `a` before `T` and `b` from `T` on. Offsets are less than a day and differ by six hours at most; when clocks go back, daylight
saving is not switched on. -/
structure Changes (z : Zone) (t T : ℤ) (a b : ℤ × Bool) : Prop where
  near : ∀ s, t - 172800 ≤ s → s ≤ t + 172800 → z s = if s < T then a else b
  before : |a.1| < 86400
  after : |b.1| < 86400
  forward : b.1 - a.1 ≤ 21600
  back : b.1 < a.1 → b.2 = true → a.2 = true

/-! ## The offset which is used -/

theorem offsetsOf_eq (z : Zone) (x : ℤ) (p q : ℤ × Bool) (h1 : z (x - 86400) = p) (h2 : z (x + 86400) = q) :
    offsetsOf z x = (if (z (x - p.1)).1 = p.1 then [z (x - p.1)] else []) ++ (if (z (x - q.1)).1 = q.1 then [z (x - q.1)] else []) := by
  unfold offsetsOf
  rw [h1, h2]
  by_cases hp : (z (x - p.1)).1 = p.1 <;> by_cases hq : (z (x - q.1)).1 = q.1 <;> simp [hp, hq]

theorem chosen_one (o : ℤ × Bool) : chosen [o] = o.1 := by
  obtain ⟨o, d⟩ := o
  cases d <;> simp [chosen, smallest]

theorem chosen_same (o : ℤ × Bool) : chosen [o, o] = o.1 := by
  obtain ⟨o, d⟩ := o
  cases d <;> simp [chosen, smallest]

theorem chosen_two (a b : ℤ × Bool) (h : b.1 < a.1) (hd : b.2 = true → a.2 = true) : chosen [a, b] = b.1 := by
  obtain ⟨a, da⟩ := a
  obtain ⟨b, db⟩ := b
  dsimp only at h hd
  cases da <;> cases db <;> simp [chosen, smallest, le_of_lt h] at hd ⊢

/-- **C161**: where two offsets are possible, the one without daylight saving is used, be it the larger or the smaller one. -/
theorem chosen_winter (a b : ℤ) : chosen [(a, true), (b, false)] = b ∧ chosen [(a, false), (b, true)] = a := by
  constructor <;> simp [chosen, smallest]

/-- If the zone has one offset around `x`, it is the one used. -/
theorem offset_steady (z : Zone) (n : Nat) (x : ℤ) (a : ℤ × Bool) (ha : |a.1| ≤ 86400) (h : ∀ s, x - 86400 ≤ s → s ≤ x + 86400 → z s = a) :
    localOffset z (n + 1) x = some a.1 := by
  have ha' := abs_le.1 ha
  have e : offsetsOf z x = [a, a] := by
    rw [offsetsOf_eq z x a a (h _ (by omega) (by omega)) (h _ (by omega) (by omega)), h (x - a.1) (by omega) (by omega), if_pos rfl]
    rfl
  show (if offsetsOf z x = [] then _ else some (chosen (offsetsOf z x))) = _
  rw [e, if_neg (by simp), chosen_same]

/-- Around a change, the offset before it is used until the local time *after* it. -/
theorem offset_used (z : Zone) (n : Nat) (x T : ℤ) (a b : ℤ × Bool) (h : Changes z x T a b) (hab : a.1 ≠ b.1) :
    localOffset z (n + 2) x = some (if x < T + b.1 then a.1 else b.1) := by
  obtain ⟨hz, ha, hb, hf, hk⟩ := h
  have ha' := abs_lt.1 ha
  have hb' := abs_lt.1 hb
  -- far from the change
  by_cases far1 : x + 86400 < T
  · rw [if_pos (by omega)]
    exact offset_steady z (n + 1) x a (le_of_lt ha) fun s h1 h2 => by rw [hz s (by omega) (by omega), if_pos (by omega)]
  by_cases far2 : T ≤ x - 86400
  · rw [if_neg (by omega)]
    exact offset_steady z (n + 1) x b (le_of_lt hb) fun s h1 h2 => by rw [hz s (by omega) (by omega), if_neg (by omega)]
  have e1 : z (x - 86400) = a := by rw [hz _ (by omega) (by omega), if_pos (by omega)]
  have e2 : z (x + 86400) = b := by rw [hz _ (by omega) (by omega), if_neg (by omega)]
  have e := offsetsOf_eq z x a b e1 e2
  rw [hz (x - a.1) (by omega) (by omega), hz (x - b.1) (by omega) (by omega)] at e
  show (if offsetsOf z x = [] then localOffset z (n + 1) (x - 21600) else some (chosen (offsetsOf z x))) = _
  by_cases hA : x - a.1 < T
  · rw [if_pos hA, if_pos rfl] at e
    by_cases hB : x - b.1 < T
    · rw [if_pos hB, if_neg hab] at e
      rw [e, if_neg (by simp), if_pos (by omega)]
      exact congrArg some (chosen_one a)
    · rw [if_neg hB, if_pos rfl] at e
      rw [e, if_neg (by simp), if_neg (by omega)]
      exact congrArg some (chosen_two a b (by omega) (hk (by omega)))
  · rw [if_neg hA, if_neg (fun k => hab k.symm)] at e
    by_cases hB : x - b.1 < T
    · rw [if_pos hB, if_neg hab] at e
      rw [e, List.append_nil, if_pos rfl, if_pos (by omega)]
      -- a date and time which does not exist
      by_cases far3 : x - 21600 + 86400 < T
      · exact offset_steady z n (x - 21600) a (le_of_lt ha) fun s h1 h2 => by rw [hz s (by omega) (by omega), if_pos (by omega)]
      by_cases far4 : T ≤ x - 21600 - 86400
      · omega
      have d1 : z (x - 21600 - 86400) = a := by rw [hz _ (by omega) (by omega), if_pos (by omega)]
      have d2 : z (x - 21600 + 86400) = b := by rw [hz _ (by omega) (by omega), if_neg (by omega)]
      have d := offsetsOf_eq z (x - 21600) a b d1 d2
      rw [hz (x - 21600 - a.1) (by omega) (by omega), hz (x - 21600 - b.1) (by omega) (by omega), if_pos (show x - 21600 - a.1 < T by omega), if_pos rfl,
        if_pos (show x - 21600 - b.1 < T by omega), if_neg hab] at d
      show (if offsetsOf z (x - 21600) = [] then localOffset z n (x - 21600 - 21600) else some (chosen (offsetsOf z (x - 21600)))) = _
      rw [d, if_neg (by simp)]
      exact congrArg some (chosen_one a)
    · rw [if_neg hB, if_pos rfl] at e
      rw [e, if_neg (by simp), if_neg (by omega)]
      exact congrArg some (chosen_one b)

/-- **C161** (in part): far from any change, the local time is what a clock shows. -/
theorem local_steady_partial (z : Zone) (t : ℤ) (a : ℤ × Bool) (ha : |a.1| ≤ 86400) (h : ∀ s, t - 86400 ≤ s → s ≤ t + 86400 → z s = a) :
    toLocalTime z t = some (clock z t) := by
  unfold toLocalTime clock
  rw [offset_steady z 99 t a ha h, h t (by omega) (by omega)]
  rfl

/-- **C161** (violated): around a change of the offset from `a` to `b` at `T`, the local time is wrong exactly between `T` and `T + b`, and there it is wrong by the difference of the offsets. -/
theorem local_time_violated (z : Zone) (t T : ℤ) (a b : ℤ × Bool) (h : Changes z t T a b) (hab : a.1 ≠ b.1) :
    (∃ x, toLocalTime z t = some x)
    ∧ (toLocalTime z t ≠ some (clock z t) ↔ (T ≤ t ∧ t < T + b.1) ∨ (T + b.1 ≤ t ∧ t < T))
    ∧ (T ≤ t → t < T + b.1 → toLocalTime z t = some (clock z t + a.1 - b.1))
    ∧ (T + b.1 ≤ t → t < T → toLocalTime z t = some (clock z t + b.1 - a.1)) := by
  have e : toLocalTime z t = some (t + if t < T + b.1 then a.1 else b.1) := by
    unfold toLocalTime
    rw [offset_used z 98 t T a b h hab]
    rfl
  have c : clock z t = t + if t < T then a.1 else b.1 := by
    unfold clock
    rw [h.near t (by omega) (by omega)]
    split_ifs <;> rfl
  rw [e, c]
  refine ⟨⟨_, rfl⟩, ?_, fun h1 h2 => ?_, fun h1 h2 => ?_⟩
  · rw [ne_eq, Option.some.injEq]
    split_ifs <;> constructor <;> intro k <;> omega
  · rw [if_pos h2, if_neg (by omega)]
    congr 1; omega
  · rw [if_neg (by omega), if_pos h2]
    congr 1; omega

/-- **C161** (in part): around a change it is right everywhere else. -/
theorem local_time_partial (z : Zone) (t T : ℤ) (a b : ℤ × Bool) (h : Changes z t T a b) (hab : a.1 ≠ b.1)
    (hn : t < T ∧ t < T + b.1 ∨ T ≤ t ∧ T + b.1 ≤ t) : toLocalTime z t = some (clock z t) := by
  by_contra k
  rcases (local_time_violated z t T a b h hab).2.1.1 k with k | k <;> omega

theorem hour_ne (x y : ℤ) (h0 : x ≠ y) (h1 : |x - y| < 86400) : hourOf x ≠ hourOf y := by
  unfold hourOf
  intro h
  have h2 : ((x % 86400 : ℤ) : ℚ) = ((y % 86400 : ℤ) : ℚ) := by
    field_simp at h
    exact h
  have h3 : x % 86400 = y % 86400 := by exact_mod_cast h2
  have h4 := abs_lt.1 h1
  omega

/-- **C161** (violated): between `T` and `T + b`, a constraint on local hours keeps a slot which starts at another hour of the clocks than the one asked. -/
theorem local_slot_violated (z : Zone) (t T : ℤ) (a b : ℤ × Bool) (h : Changes z t T a b) (hab : a.1 ≠ b.1) (hd : |a.1 - b.1| < 86400)
    (ht : (T ≤ t ∧ t < T + b.1) ∨ (T + b.1 ≤ t ∧ t < T)) (E : Env) (i : Nat) (x : ℤ) (hx : toLocalTime z t = some x) (hE : E.localHour i = hourOf x)
    (sun : Nat → Option ℚ) :
    ∃ hour, (∃ row, (evalOne E sun (.localTime hour hour)).2 = .ok (some row) ∧ row i = some 1) ∧ ¬ InHours hour hour (hourOf (clock z t)) := by
  refine ⟨hourOf x, ⟨_, rfl, ?_⟩, ?_⟩
  · show maskScore (hourMask (hourOf x) (hourOf x) (E.localHour i)) = _
    rw [hE]
    simp [hourMask, maskScore]
  · have hne : hourOf x ≠ hourOf (clock z t) := by
      have hv := local_time_violated z t T a b h hab
      have hd' := abs_lt.1 hd
      rcases ht with k | k
      · have := hv.2.2.1 k.1 k.2
        rw [hx] at this
        cases this
        exact hour_ne _ _ (by omega) (by rw [abs_lt]; omega)
      · have := hv.2.2.2 k.1 k.2
        rw [hx] at this
        cases this
        exact hour_ne _ _ (by omega) (by rw [abs_lt]; omega)
    rintro (⟨_, h1, h2⟩ | ⟨h1, _⟩)
    · exact hne (le_antisymm h1 h2)
    · exact absurd h1 (lt_irrefl _)

/-! ## Cases -/

/-- Paris around a spring change at `0`. -/
def parisSpring : Zone := fun s => if s < 0 then (3600, false) else (7200, true)

/-- Paris around an autumn change at `0`. -/
def parisAutumn : Zone := fun s => if s < 0 then (7200, true) else (3600, false)

/-- **C161** (violated): in Paris, two hours after the change in spring and one hour after the change in autumn. -/
theorem paris_local_violated (t : ℤ) :
    (toLocalTime parisSpring t ≠ some (clock parisSpring t) ↔ 0 ≤ t ∧ t < 7200)
    ∧ (toLocalTime parisAutumn t ≠ some (clock parisAutumn t) ↔ 0 ≤ t ∧ t < 3600) := by
  constructor
  · rw [(local_time_violated parisSpring t 0 (3600, false) (7200, true) ⟨fun s _ _ => rfl, by norm_num, by norm_num, by norm_num, by norm_num⟩ (by norm_num)).2.1]
    dsimp only
    omega
  · rw [(local_time_violated parisAutumn t 0 (7200, true) (3600, false) ⟨fun s _ _ => rfl, by norm_num, by norm_num, by norm_num, by norm_num⟩ (by norm_num)).2.1]
    dsimp only
    omega

example : toLocalTime parisSpring 3600 = some 7200 ∧ clock parisSpring 3600 = 10800 := by decide +kernel
example : toLocalTime parisAutumn 5400 = some 9000 ∧ clock parisAutumn 5400 = 9000 := by decide +kernel
example : hourOf 90000 = 1 := by norm_num [hourOf]
example : ∀ s, (10 ^ 6 : ℤ) - 86400 ≤ s → s ≤ 10 ^ 6 + 86400 → parisSpring s = (7200, true) := fun s h _ => if_neg (by omega)

end Verif.Cnst
