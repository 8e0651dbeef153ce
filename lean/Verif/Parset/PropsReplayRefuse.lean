import Verif.Parset.Replay
import Verif.Parset.Regex

/-!
# Parsets which cannot be replayed (property C102), and words of patterns (property C98)
-/

namespace Verif.Parset

/-- **C102**: a parset without a first analog beam, without its start, or whose start was not read as a time, is not replayed. -/
theorem replay_start_refused (s : Sky) (f : Int) (dur : Option ℚ) (same : Bool) (p : PSet) :
    (dictGet p.anas 0 = none → replay s f dur same p = .error .keyError) ∧
    (∀ a, dictGet p.anas 0 = some a → dictGet a "startTime".toList = none → replay s f dur same p = .error .keyError) ∧
    (∀ a v, dictGet p.anas 0 = some a → dictGet a "startTime".toList = some v → (∀ t, v ≠ .time t) → replay s f dur same p = .error .attributeError) := by
  have key : ∀ e, startOf s p = .error e → replay s f dur same p = .error e := by
    intro e h
    unfold replay replayShift
    rw [h]
    rfl
  refine ⟨fun h => key _ ?_, fun a h h' => key _ ?_, fun a v h h' hv => key _ ?_⟩
  · unfold startOf
    rw [h]
    rfl
  · unfold startOf
    rw [h]
    show (dictGet a "startTime".toList).elim _ _ = _
    rw [h']
    rfl
  · unfold startOf
    rw [h]
    show (dictGet a "startTime".toList).elim _ _ = _
    rw [h']
    cases v with
    | time t => exact absurd rfl (hv t)
    | _ => rfl

/-- **C102**: of the values of `filterTime` which are not lists, only the empty text is replayed, as an empty list. -/
theorem filter_times_refused (s : Sky) (δ : Int) (v : PVal) (hv : ∀ l, v ≠ .list l) :
    (v = .str [] → shiftList s δ v = .ok (.list [])) ∧ (v ≠ .str [] → shiftList s δ v = .error .typeError) := by
  constructor
  · rintro rfl
    rfl
  · intro h
    cases v with
    | list l => exact absurd rfl (hv l)
    | str t =>
      show (if t = [] then Except.ok (UVal.list []) else Except.error Err.typeError) = _
      rw [if_neg fun e => h (by rw [e])]
    | _ => rfl

/-- Characters of words: Latin letters, digits and the underscore. -/
def WordChar (c : Char) : Prop := ('a' ≤ c ∧ c ≤ 'z') ∨ ('A' ≤ c ∧ c ≤ 'Z') ∨ ('0' ≤ c ∧ c ≤ '9') ∨ c = '_'

/-- **The edges of words** are between a character of a word and another one, or the ends of the text. -/
theorem word_exact (c : Char) : isWord c = true ↔ WordChar c := by
  unfold isWord WordChar Char.isAlphanum Char.isAlpha Char.isUpper Char.isLower Char.isDigit
  simp only [Bool.or_eq_true, Bool.and_eq_true, decide_eq_true_eq, Char.le_def]
  constructor
  · rintro (((h | h) | h) | h)
    · exact .inr (.inl h)
    · exact .inl h
    · exact .inr (.inr (.inl h))
    · exact .inr (.inr (.inr h))
  · rintro (h | h | h | h)
    · exact .inl (.inl (.inr h))
    · exact .inl (.inl (.inl h))
    · exact .inl (.inr h)
    · exact .inr h

example : isWord '_' = true := (word_exact '_').2 (.inr (.inr (.inr rfl)))

example (s : Sky) : shiftList s 3600 (.str "now".toList) = .error .typeError := (filter_times_refused s 3600 _ (fun l e => by cases e)).2 (fun e => by injection e with e; exact absurd e (by decide))

end Verif.Parset
