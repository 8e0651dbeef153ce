import Verif.Cal.DrawEvent
import Verif.Cal.PropsFiles

/-!
# C184: title, place and selection of an event drawn on a calendar
-/

namespace Verif.Cal

/-! ## Title -/

theorem pieces_spec (k : Nat) (hk : 0 < k) (fuel : Nat) (s : List Char) (h : s.length ≤ fuel) :
    (textPieces k fuel s).flatten = s ∧ (∀ p ∈ textPieces k fuel s, 0 < p.length ∧ p.length ≤ k) ∧
      ∀ a p b q, textPieces k fuel s = a ++ p :: q :: b → p.length = k := by
  induction fuel generalizing s with
  | zero =>
    have : s = [] := List.length_eq_zero_iff.1 (by omega)
    subst this
    refine ⟨rfl, fun p hp => (nomatch hp), ?_⟩
    intro a p b q e
    cases a <;> cases e
  | succ n ih =>
    by_cases hs : s = []
    · have e : textPieces k (n + 1) s = [] := if_pos hs
      rw [e, hs]
      refine ⟨rfl, fun p hp => (nomatch hp), ?_⟩
      intro a p b q e
      cases a <;> cases e
    · have e : textPieces k (n + 1) s = s.take k :: textPieces k n (s.drop k) := if_neg hs
      have hl : 0 < s.length := List.length_pos_iff.2 hs
      obtain ⟨h1, h2, h3⟩ := ih (s.drop k) (by rw [List.length_drop]; omega)
      rw [e]
      refine ⟨?_, ?_, ?_⟩
      · rw [List.flatten_cons, h1, List.take_append_drop]
      · intro p hp
        rcases List.mem_cons.1 hp with rfl | hp
        · rw [List.length_take]
          omega
        · exact h2 p hp
      · intro a p b q e'
        cases a with
        | nil =>
          injection e' with e1 e2
          rw [← e1, List.length_take]
          by_contra hc
          have hd : s.drop k = [] := List.drop_eq_nil_iff.2 (by omega)
          rw [hd] at e2 h1 h2
          have : q ∈ textPieces k n [] := by rw [e2]; exact List.mem_cons_self ..
          have h4 := (h2 q this).1
          have h5 : q = [] := List.flatten_eq_nil_iff.1 h1 q this
          rw [h5] at h4
          exact absurd h4 (by decide)
        | cons c a =>
          injection e' with e1 e2
          exact h3 a p b q e2

theorem intercalate_filter (l : List (List Char)) (h : '\n' ∉ l.flatten) : (['\n'].intercalate l).filter (· ≠ '\n') = l.flatten := by
  have hf : ∀ p : List Char, '\n' ∉ p → p.filter (· ≠ '\n') = p := by
    intro p hp
    rw [List.filter_eq_self]
    intro c hc
    exact decide_eq_true fun e => hp (e ▸ hc)
  induction l with
  | nil => rfl
  | cons a l ih =>
    rw [List.flatten_cons, List.mem_append, not_or] at h
    cases l with
    | nil =>
      rw [show ['\n'].intercalate [a] = a by simp [List.intercalate], hf a h.1]
      simp
    | cons b l =>
      have : ['\n'].intercalate (a :: b :: l) = a ++ '\n' :: ['\n'].intercalate (b :: l) := by simp [List.intercalate]
      rw [this, List.filter_append, hf a h.1, List.filter_cons_of_neg (by decide), ih h.2]
      rfl

/-- The names for which another title is written. -/
def IsFiller (name : List Char) : Prop := name.map Char.toLower = "filler".toList ∨ name.map Char.toLower = "filer".toList

/-- **C184**: without a size the title is the name of the event. With a size, it is the name cut in pieces of this size, one per line: the
last may be shorter; the characters are those of the name. -/
theorem title_exact (name : List Char) (k : Nat) (hk : 0 < k) (hn : ¬ IsFiller name) :
    eventTitle name none = .ok name ∧
      ∃ l : List (List Char), eventTitle name (some k) = .ok (['\n'].intercalate l) ∧ l.flatten = name ∧ (∀ p ∈ l, 0 < p.length ∧ p.length ≤ k) ∧
        (∀ a p b q, l = a ++ p :: q :: b → p.length = k) ∧ ('\n' ∉ name → (['\n'].intercalate l).filter (· ≠ '\n') = name) := by
  refine ⟨rfl, textPieces k name.length name, ?_, ?_⟩
  · show (if _ then _ else if k = 0 then _ else _) = _
    unfold IsFiller at hn
    rw [if_neg hn, if_neg (by omega)]
  · obtain ⟨h1, h2, h3⟩ := pieces_spec k hk name.length name le_rfl
    refine ⟨h1, h2, h3, fun h => ?_⟩
    rw [intercalate_filter _ (by rw [h1]; exact h), h1]

example : eventTitle "ES04 Jupiter and Io".toList (some 16) = .ok "ES04 Jupiter and\n Io".toList :=
  congrArg Except.ok (by decide +kernel)

example : ¬ IsFiller "ES04 Jupiter and Io".toList := by unfold IsFiller; decide +kernel

/-- **C184**: a short name is written on one line. -/
theorem title_short (name : List Char) (k : Nat) (hk : 0 < k) (hn : ¬ IsFiller name) (h0 : name ≠ []) (h : name.length ≤ k) :
    eventTitle name (some k) = .ok name := by
  obtain ⟨_, l, h1, h2, h3, h4, _⟩ := title_exact name k hk hn
  match l, h1, h2, h3, h4 with
  | [], _, h2, _, _ => exact absurd h2.symm h0
  | [p], h1, h2, _, _ =>
    rw [h1]
    have h2 : p ++ [] = name := h2
    rw [List.append_nil] at h2
    rw [h2]
    simp [List.intercalate]
  | p :: q :: b, _, h2, h3, h4 =>
    exfalso
    have e1 := h4 [] p b q rfl
    have e2 := (h3 q (by simp)).1
    have e3 := congrArg List.length h2
    rw [List.flatten_cons, List.flatten_cons, List.length_append, List.length_append] at e3
    omega

/-- **C184** (violated): an event named `filler`, in any case and of any programme, has another title, on the pages of months. -/
theorem title_filler_violated (name : List Char) (k : Nat) (h : IsFiller name) :
    eventTitle name (some k) = .ok "LT02 Filler time".toList ∧ eventTitle name none = .ok name ∧ "LT02 Filler time".toList ≠ name := by
  refine ⟨if_pos h, rfl, ?_⟩
  rintro rfl
  rcases h with h | h <;> exact absurd h (by decide +kernel)

example : IsFiller "FILLER".toList := Or.inl (by decide +kernel)

/-- **C184**: pieces of no character are refused. -/
theorem title_zero (name : List Char) (h : ¬ IsFiller name) : eventTitle name (some 0) = .error .valueError := by
  show (if _ then _ else if 0 = 0 then _ else _) = _
  unfold IsFiller at h
  rw [if_neg h, if_pos rfl]

/-! ## Place -/

theorem middle_between (x : Slot) (h : x.b < x.e) : x.b < middleOf x ∧ middleOf x < x.e := by
  unfold middleOf
  constructor <;> linarith

/-- **C184**: the box is from the begin to the end of the event, the title at its middle if it is on the line; else the title drawn before
stays. An event can be connected once it is drawn, not before. -/
theorem drawn_exact (x : Slot) (x0 x1 : ℚ) (s : Drawn) :
    (drawEvent x x0 x1 s).box = some (x.b, x.e) ∧
      (x0 ≤ (x.b + x.e) / 2 → (x.b + x.e) / 2 < x1 → (drawEvent x x0 x1 s).text = some ((x.b + x.e) / 2)) ∧
      (¬ (x0 ≤ (x.b + x.e) / 2 ∧ (x.b + x.e) / 2 < x1) → (drawEvent x x0 x1 s).text = s.text) ∧
      connect (drawEvent x x0 x1 s) = .ok () ∧ connect ⟨none, s.text⟩ = .error .exception := by
  have e : middleOf x = (x.b + x.e) / 2 := by unfold middleOf; ring
  refine ⟨rfl, ?_, ?_, ?_, if_pos rfl⟩
  · intro h1 h2
    show (if _ then _ else _) = _
    rw [e, if_pos ⟨h1, h2⟩]
  · intro h
    show (if _ then _ else _) = _
    rw [e, if_neg h]
  · show (if _ then _ else _) = _
    rw [if_neg]
    intro h
    cases h

/-- **C184**: if its months are at most two consecutive ones, the title of an event is written on the line of its middle, and on no other. -/
theorem titled_partial (month : ℚ → Int) (hm : Monotone month) (x : Slot) (hx : x.b < x.e) (h2 : month x.e ≤ month x.b + 1) (page : Int) (d0 d1 : ℚ)
    (hd : d0 < d1) (hday : ∀ t, d0 ≤ t → t < d1 → month t = page) :
    titledOn month x page d0 d1 = true ↔ d0 ≤ (x.b + x.e) / 2 ∧ (x.b + x.e) / 2 < d1 := by
  have e : middleOf x = (x.b + x.e) / 2 := by unfold middleOf; ring
  unfold titledOn
  rw [Bool.and_eq_true, page_partial month hm x.b x.e hx h2 page d0 d1 hd hday, decide_eq_true_iff, e]
  constructor
  · exact fun h => h.2
  · exact fun h => ⟨⟨by linarith [h.2], by linarith [h.1]⟩, h⟩

/-- **C184** (violated): if its middle is in a month between the first and the last, no line of any page has the title of the event. -/
theorem titled_violated (month : ℚ → Int) (x : Slot) (h1 : month x.b < month (middleOf x)) (h2 : month (middleOf x) < month x.e) (page : Int) (d0 d1 : ℚ)
    (hday : ∀ t, d0 ≤ t → t < d1 → month t = page) : titledOn month x page d0 d1 = false := by
  unfold titledOn
  by_cases h : d0 ≤ middleOf x ∧ middleOf x < d1
  · have hp := hday _ h.1 h.2
    rw [(page_violated month x.b x.e d0 d1 page).1 (by omega) (by omega)]
    rfl
  · rw [decide_eq_false h, Bool.and_false]

example : (fun t : ℚ => ⌊t / 720⌋) 700 < ⌊middleOf ⟨700, 1500⟩ / 720⌋ ∧ ⌊middleOf ⟨700, 1500⟩ / 720⌋ < ⌊(1500 : ℚ) / 720⌋ := by
  have e : middleOf ⟨700, 1500⟩ = 1100 := by unfold middleOf; norm_num
  rw [e]
  have h1 : ⌊(700 : ℚ) / 720⌋ = 0 := by norm_num [Int.floor_eq_iff]
  have h2 : ⌊(1100 : ℚ) / 720⌋ = 1 := by norm_num [Int.floor_eq_iff]
  have h3 : ⌊(1500 : ℚ) / 720⌋ = 2 := by norm_num [Int.floor_eq_iff]
  show ⌊(700 : ℚ) / 720⌋ < _ ∧ _
  rw [h1, h2, h3]
  decide

/-! ## Selection -/

/-- **C184**: a click in the box selects the event, a click elsewhere on a line unselects it, a click out of the lines changes nothing; grey
events are those which are selected. -/
theorem click_exact (b : ℚ × ℚ) (s : Marked) (p : ℚ × ℚ) (hs : s.grey = s.selected) :
    onClick b s none = s ∧
      ((onClick b s (some p)).selected = true ↔ b.1 ≤ p.1 ∧ p.1 ≤ b.2 ∧ 0 ≤ p.2 ∧ p.2 ≤ 1) ∧
      (onClick b s (some p)).grey = (onClick b s (some p)).selected := by
  obtain ⟨sel, grey⟩ := s
  have hs : grey = sel := hs
  subst hs
  have hb : boxContains b p = true ↔ b.1 ≤ p.1 ∧ p.1 ≤ b.2 ∧ 0 ≤ p.2 ∧ p.2 ≤ 1 := decide_eq_true_iff
  have e : onClick b ⟨grey, grey⟩ (some p) = if boxContains b p = false then (if grey then ⟨false, false⟩ else ⟨grey, grey⟩) else ⟨true, true⟩ := rfl
  refine ⟨rfl, ?_, ?_⟩
  · rw [e, ← hb]
    cases boxContains b p <;> cases grey <;> decide
  · rw [e]
    cases boxContains b p <;> cases grey <;> rfl

/-- **C184**: after any clicks on lines the events which are selected are those which contain the last of them. -/
theorem clicks_last (b : ℚ × ℚ) (s : Marked) (l : List Click) (p : ℚ × ℚ) (hs : s.grey = s.selected) :
    ((l ++ [some p]).foldl (onClick b) s).selected = true ↔ b.1 ≤ p.1 ∧ p.1 ≤ b.2 ∧ 0 ≤ p.2 ∧ p.2 ≤ 1 := by
  rw [List.foldl_append, List.foldl_cons, List.foldl_nil]
  refine (click_exact b _ p ?_).2.1
  induction l generalizing s with
  | nil => exact hs
  | cons c l ih =>
    refine ih _ ?_
    cases c with
    | none => exact hs
    | some q => exact (click_exact b s q hs).2.2

/-- **C184** (violated): one click selects all the events drawn at this place, so that a key moves them together. -/
theorem click_many_violated (l : List ((ℚ × ℚ) × Marked)) (p : ℚ × ℚ) (h0 : 0 ≤ p.2) (h1 : p.2 ≤ 1) (h : ∀ x ∈ l, x.1.1 ≤ p.1 ∧ p.1 ≤ x.1.2) :
    (clickAll l (some p)).length = l.length ∧ ∀ x ∈ clickAll l (some p), x.2.selected = true := by
  refine ⟨List.length_map _, ?_⟩
  intro x hx
  obtain ⟨y, hy, rfl⟩ := List.mem_map.1 hx
  show (if boxContains y.1 p = false then _ else _ : Marked).selected = true
  have : boxContains y.1 p = true := decide_eq_true ⟨(h y hy).1, (h y hy).2, h0, h1⟩
  rw [if_neg (by rw [this]; exact Bool.true_eq_false.mp)]

/-- Two events at the same place. -/
example : ∀ x ∈ [(((10 : ℚ), (14 : ℚ)), (⟨false, false⟩ : Marked)), ((12, 16), ⟨false, false⟩)], x.1.1 ≤ (13 : ℚ) ∧ (13 : ℚ) ≤ x.1.2 := by
  intro x hx
  rcases List.mem_cons.1 hx with rfl | hx
  · norm_num
  · rw [List.mem_singleton.1 hx]
    norm_num

end Verif.Cal
