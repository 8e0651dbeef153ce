import Verif.Parset.LemmasSyntax
import Verif.Parset.Validate

/-!
# Lists of mini-arrays and of sub-bands which are accepted (property C99)
-/

namespace Verif.Parset

/-- The character `c` as a pattern. -/
abbrev lit (c : Char) : Re := .cls false [(c, c)]

/-- One digit from `a` to `b`. -/
abbrev dig (a b : Char) : Re := .cls false [(a, b)]

/-- Pattern of a list of numbers and ranges. -/
def listRe (A B : Re) : Re :=
  .cat .bos (.cat (lit '[') (.cat (.grp 1 A) (.cat
    (.rep 0 none (.grp 2 (.alt (.cat (lit ',') (.cat (.grp 3 B) .eps))
      (.cat (lit '.') (.cat (lit '.') (.cat (.grp 4 B) (.cat (.look false (.cat (.grp 5 (.alt (.cat (lit ',') .eps) (.cat (lit ']') .eps))) .eps)) .eps)))))))
    (.cat (lit ']') (.cat .eos .eps)))))

/-- A number or a range of a list, as texts. -/
inductive Elem
  | one (a : Str)
  | range (a b : Str)

/-- Its text. -/
def Elem.text : Elem → Str
  | .one a => a
  | .range a b => a ++ '.' :: '.' :: b

/-- Its first number is as `A` says, its second as `B` says. -/
def Elem.Ok (A B : Str → Prop) : Elem → Prop
  | .one a => A a
  | .range a b => A a ∧ B b

/-- Texts of the elements, each after a comma. -/
def commaText (l : List Elem) : Str := l.flatMap fun e => ',' :: e.text

/-- One turn of the repetition. -/
theorem turn_iff {B : Re} {LB : Str → Prop} (hB : Free false B LB) (p : Option Char) (u rest : Str) :
    Reads false (.grp 2 (.alt (.cat (lit ',') (.cat (.grp 3 B) .eps))
      (.cat (lit '.') (.cat (lit '.') (.cat (.grp 4 B) (.cat (.look false (.cat (.grp 5 (.alt (.cat (lit ',') .eps) (.cat (lit ']') .eps))) .eps)) .eps)))))) p u rest ↔
    (∃ x, u = ',' :: x ∧ LB x) ∨ (∃ x, u = '.' :: '.' :: x ∧ LB x ∧ ∃ c z, rest = c :: z ∧ (c = ',' ∨ c = ']')) := by
  rw [reads_grp, reads_alt]
  refine or_congr ?_ ?_
  · rw [cat_cls]
    constructor
    · rintro ⟨c, v, rfl, hc, hv⟩
      rw [char_cls] at hc
      rw [cat_ends, reads_grp] at hv
      exact ⟨v, by rw [hc], (hB _ _ _).1 hv⟩
    · rintro ⟨x, rfl, hx⟩
      exact ⟨',', x, rfl, (char_cls _ _).2 rfl, cat_ends.2 ((hB _ _ _).2 hx)⟩
  · rw [cat_cls]
    have look : ∀ (p : Option Char) (w rest : Str), Reads false (.cat (.look false (.cat (.grp 5 (.alt (.cat (lit ',') .eps) (.cat (lit ']') .eps))) .eps)) .eps) p w rest ↔
        w = [] ∧ ∃ c z, rest = c :: z ∧ (c = ',' ∨ c = ']') := by
      intro p w rest
      rw [cat_ends]
      refine and_congr_right fun _ => ?_
      constructor
      · rintro ⟨u, v, rfl, h⟩
        rw [cat_ends, reads_grp, reads_alt, cat_ends, cat_ends] at h
        rcases h with ⟨c, rfl, hc⟩ | ⟨c, rfl, hc⟩
        · exact ⟨c, v, rfl, Or.inl ((char_cls _ _).1 hc)⟩
        · exact ⟨c, v, rfl, Or.inr ((char_cls _ _).1 hc)⟩
      · rintro ⟨c, z, rfl, h⟩
        refine ⟨[c], z, rfl, ?_⟩
        rw [cat_ends, reads_grp, reads_alt, cat_ends, cat_ends]
        exact h.imp (fun e => ⟨c, rfl, (char_cls _ _).2 e⟩) (fun e => ⟨c, rfl, (char_cls _ _).2 e⟩)
    constructor
    · rintro ⟨c, v, rfl, hc, hv⟩
      rw [cat_cls] at hv
      obtain ⟨d, v, rfl, hd, a, b, rfl, ha, hb⟩ := hv
      rw [char_cls] at hc hd
      obtain ⟨rfl, h⟩ := (look _ _ _).1 hb
      rw [List.append_nil]
      exact ⟨a, by rw [hc, hd], (hB _ _ _).1 ha, h⟩
    · rintro ⟨x, rfl, hx, h⟩
      refine ⟨'.', '.' :: x, rfl, (char_cls _ _).2 rfl, ?_⟩
      rw [cat_cls]
      exact ⟨'.', x, rfl, (char_cls _ _).2 rfl, x, [], (List.append_nil x).symm, (hB _ _ _).2 hx, (look _ _ _).2 ⟨rfl, h⟩⟩

theorem commaText_head (l : List Elem) (z : Str) : ∃ c y, commaText l ++ ']' :: z = c :: y ∧ (c = ',' ∨ c = ']') := by
  cases l with
  | nil => exact ⟨']', z, rfl, Or.inr rfl⟩
  | cons e l => exact ⟨',', _, rfl, Or.inl rfl⟩

/-- All the turns: elements after commas, possibly after the end of a range. -/
theorem turns_iff {B : Re} {LB : Str → Prop} (hB : Free false B LB) (z : Str) : ∀ (n : Nat) (p : Option Char) (w : Str),
    Times (Reads false (.grp 2 (.alt (.cat (lit ',') (.cat (.grp 3 B) .eps))
      (.cat (lit '.') (.cat (lit '.') (.cat (.grp 4 B) (.cat (.look false (.cat (.grp 5 (.alt (.cat (lit ',') .eps) (.cat (lit ']') .eps))) .eps)) .eps))))))) n p w (']' :: z) →
    ∃ l : List Elem, (∀ e ∈ l, e.Ok LB LB) ∧ (w = commaText l ∨ ∃ y, LB y ∧ w = '.' :: '.' :: y ++ commaText l)
  | 0, p, w, h => ⟨[], (fun e he => by cases he), Or.inl h⟩
  | n + 1, p, w, h => by
    obtain ⟨u, v, rfl, hu, hv⟩ := h
    obtain ⟨l, hl, hw⟩ := turns_iff hB z n _ v hv
    rcases (turn_iff hB _ _ _).1 hu with ⟨x, rfl, hx⟩ | ⟨x, rfl, hx, c, y, e, hc⟩
    · rcases hw with rfl | ⟨y, hy, rfl⟩
      · exact ⟨.one x :: l, by rw [List.forall_mem_cons]; exact ⟨hx, hl⟩, Or.inl rfl⟩
      · refine ⟨.range x y :: l, by rw [List.forall_mem_cons]; exact ⟨⟨hx, hy⟩, hl⟩, Or.inl ?_⟩
        show _ = (',' :: (x ++ '.' :: '.' :: y)) ++ commaText l
        simp
    · rcases hw with rfl | ⟨y', hy', rfl⟩
      · exact ⟨l, hl, Or.inr ⟨x, hx, rfl⟩⟩
      · exfalso
        injection e with e1 e2
        rw [← e1] at hc
        revert hc; decide

theorem turns_of {B : Re} {LB : Str → Prop} (hB : Free false B LB) (z : Str) : ∀ (l : List Elem) (p : Option Char), (∀ e ∈ l, e.Ok LB LB) →
    ∃ n, Times (Reads false (.grp 2 (.alt (.cat (lit ',') (.cat (.grp 3 B) .eps))
      (.cat (lit '.') (.cat (lit '.') (.cat (.grp 4 B) (.cat (.look false (.cat (.grp 5 (.alt (.cat (lit ',') .eps) (.cat (lit ']') .eps))) .eps)) .eps))))))) n p (commaText l) (']' :: z)
  | [], p, _ => ⟨0, rfl⟩
  | e :: l, p, h => by
    rw [List.forall_mem_cons] at h
    cases e with
    | one x =>
      obtain ⟨n, hn⟩ := turns_of hB z l (lastOr p (',' :: x)) h.2
      exact ⟨n + 1, ',' :: x, commaText l, rfl, (turn_iff hB _ _ _).2 (Or.inl ⟨x, rfl, h.1⟩), hn⟩
    | range x y =>
      obtain ⟨n, hn⟩ := turns_of hB z l (lastOr (lastOr p (',' :: x)) ('.' :: '.' :: y)) h.2
      refine ⟨n + 2, ',' :: x, '.' :: '.' :: y ++ commaText l, ?_, (turn_iff hB _ _ _).2 (Or.inl ⟨x, rfl, h.1.1⟩), '.' :: '.' :: y, commaText l, rfl,
        (turn_iff hB _ _ _).2 (Or.inr ⟨y, rfl, h.1.2, commaText_head l z⟩), hn⟩
      show (',' :: (x ++ '.' :: '.' :: y)) ++ commaText l = _
      simp

/-- What such a pattern accepts: a list of numbers and ranges between brackets, with commas. -/
theorem list_syntax {A B : Re} {LA LB : Str → Prop} (hA : Free false A LA) (hB : Free false B LB) (t : Str) :
    Reads false (listRe A B) none t [] ↔ ∃ (e : Elem) (l : List Elem), e.Ok LA LB ∧ (∀ x ∈ l, x.Ok LB LB) ∧ t = '[' :: (e.text ++ commaText l) ++ [']'] := by
  unfold listRe
  rw [cat_bos, cat_cls]
  have tail : ∀ (p : Option Char) (v : Str), Reads false (.cat (lit ']') (.cat .eos .eps)) p v [] ↔ v = [']'] := by
    intro p v
    rw [cat_cls]
    constructor
    · rintro ⟨c, u, rfl, hc, hu⟩
      rw [(char_cls _ _).1 hc, at_end.1 hu]
    · rintro rfl
      exact ⟨']', [], rfl, (char_cls _ _).2 rfl, at_end.2 rfl⟩
  constructor
  · rintro ⟨c, v, rfl, hc, x, y, rfl, hx, u, w, rfl, ⟨n, -, -, hn⟩, hw⟩
    rw [char_cls] at hc
    rw [tail] at hw
    subst hw
    rw [reads_grp, hA] at hx
    obtain ⟨l, hl, hu⟩ := turns_iff hB [] n _ u hn
    rcases hu with rfl | ⟨y, hy, rfl⟩
    · exact ⟨.one x, l, hx, hl, by rw [hc]; simp [Elem.text]⟩
    · exact ⟨.range x y, l, ⟨hx, hy⟩, hl, by rw [hc]; simp [Elem.text]⟩
  · rintro ⟨e, l, he, hl, rfl⟩
    refine ⟨'[', e.text ++ commaText l ++ [']'], rfl, (char_cls _ _).2 rfl, ?_⟩
    cases e with
    | one x =>
      obtain ⟨n, hn⟩ := turns_of hB [] l (lastOr (some '[') x) hl
      exact ⟨x, commaText l ++ [']'], by simp [Elem.text], (hA _ _ _).2 he, commaText l, [']'], rfl, ⟨n, Nat.zero_le _, (fun _ e => by cases e), hn⟩, (tail _ _).2 rfl⟩
    | range x y =>
      obtain ⟨n, hn⟩ := turns_of hB [] l (lastOr (lastOr (some '[') x) ('.' :: '.' :: y)) hl
      exact ⟨x, '.' :: '.' :: y ++ commaText l ++ [']'], by simp [Elem.text], (hA _ _ _).2 he.1, '.' :: '.' :: y ++ commaText l, [']'], rfl,
        ⟨n + 1, Nat.zero_le _, (fun _ e => by cases e), '.' :: '.' :: y, commaText l, rfl, (turn_iff hB _ _ _).2 (Or.inr ⟨y, rfl, he.2, commaText_head l []⟩), hn⟩, (tail _ _).2 rfl⟩

/-! ## Numbers -/

/-- Pattern of a mini-array. -/
def maNum : Re :=
  .alt (.cat (dig '0' '9') .eps) (.alt (.cat (dig '1' '8') (.cat (dig '0' '9') .eps)) (.alt (.cat (lit '9') (.cat (dig '0' '5') .eps))
    (.cat (lit '1') (.cat (lit '0') (.cat (dig '0' '7') .eps)))))

/-- End of the pattern of a sub-band. -/
def sbTail : Re :=
  .alt (.cat (dig '0' '4') (.cat (.rep 2 (some 2) (dig '0' '9')) .eps))
    (.alt (.cat (lit '5') (.cat (lit '0') (.cat (dig '0' '9') .eps))) (.cat (lit '5') (.cat (lit '1') (.cat (dig '0' '1') .eps))))

/-- Pattern of the first sub-band of a list. -/
def sbFirst : Re := .alt (.cat (.rep 1 (some 2) (dig '0' '9')) .eps) sbTail

/-- Pattern of the other ones. -/
def sbNext : Re := .alt (.cat (dig '1' '9') .eps) (.alt (.cat (.rep 2 (some 2) (dig '0' '9')) .eps) sbTail)

theorem dig_iff {a b : Nat} (ha : a < 10) (hb : b < 10) {c : Char} :
    inCls false false [(Nat.digitChar a, Nat.digitChar b)] c = true ↔ ∃ k, a ≤ k ∧ k ≤ b ∧ c = Nat.digitChar k := range_cls a b ha hb c

theorem digit_iff (c : Char) : c.isDigit = true ↔ ∃ k, k < 10 ∧ c = Nat.digitChar k := by
  rw [← digit_cls]
  refine (dig_iff (a := 0) (b := 9) (by omega) (by omega)).trans ?_
  exact ⟨fun ⟨k, _, h2, h3⟩ => ⟨k, by omega, h3⟩, fun ⟨k, h1, h2⟩ => ⟨k, Nat.zero_le _, by omega, h2⟩⟩

/-- One character, then what follows. -/
theorem one_digit {a b : Nat} (ha : a < 10) (hb : b < 10) {r : Re} {p : Option Char} {w rest : Str} :
    Reads false (.cat (dig (Nat.digitChar a) (Nat.digitChar b)) r) p w rest ↔ ∃ k v, a ≤ k ∧ k ≤ b ∧ w = Nat.digitChar k :: v ∧ Reads false r (some (Nat.digitChar k)) v rest := by
  rw [cat_cls]
  constructor
  · rintro ⟨c, v, rfl, hc, hv⟩
    obtain ⟨k, h1, h2, rfl⟩ := (dig_iff ha hb).1 hc
    exact ⟨k, v, h1, h2, rfl, hv⟩
  · rintro ⟨k, v, h1, h2, rfl, hv⟩
    exact ⟨_, v, rfl, (dig_iff ha hb).2 ⟨k, h1, h2, rfl⟩, hv⟩

theorem natStr_one : ∀ k, k < 10 → natStr k = [Nat.digitChar k] := by decide

theorem natStr_two : ∀ a, a < 10 → ∀ b, b < 10 → 1 ≤ a → natStr (10 * a + b) = [Nat.digitChar a, Nat.digitChar b] := by decide +kernel

theorem natStr_hundred : ∀ k, k < 10 → natStr (100 + k) = ['1', '0', Nat.digitChar k] := by decide +kernel

/-- The numbers accepted for mini-arrays: 0 to 95 and 100 to 107, as they are written. -/
theorem maNum_iff (w : Str) : Reads false maNum none w [] ↔ ∃ n, (n ≤ 95 ∨ (100 ≤ n ∧ n ≤ 107)) ∧ w = natStr n := by
  unfold maNum
  rw [reads_alt, reads_alt, reads_alt, show dig '0' '9' = dig (Nat.digitChar 0) (Nat.digitChar 9) from rfl, show dig '1' '8' = dig (Nat.digitChar 1) (Nat.digitChar 8) from rfl,
    show dig '0' '5' = dig (Nat.digitChar 0) (Nat.digitChar 5) from rfl, show dig '0' '7' = dig (Nat.digitChar 0) (Nat.digitChar 7) from rfl]
  constructor
  · rintro (h | h | h | h)
    · obtain ⟨k, v, h1, h2, rfl, hv⟩ := (one_digit (by omega) (by omega)).1 h
      have : v = [] := hv
      exact ⟨k, Or.inl (by omega), by rw [this, natStr_one k (by omega)]⟩
    · obtain ⟨a, v, h1, h2, rfl, hv⟩ := (one_digit (by omega) (by omega)).1 h
      obtain ⟨b, v, h3, h4, rfl, hv1⟩ := (one_digit (by omega) (by omega)).1 hv
      have : v = [] := hv1
      exact ⟨10 * a + b, Or.inl (by omega), by rw [this, natStr_two a (by omega) b (by omega) h1]⟩
    · obtain ⟨c, v, rfl, hc, hv⟩ := cat_cls.1 h
      obtain ⟨b, v, h3, h4, rfl, hv1⟩ := (one_digit (by omega) (by omega)).1 hv
      have : v = [] := hv1
      exact ⟨10 * 9 + b, Or.inl (by omega), by rw [this, natStr_two 9 (by omega) b (by omega) (by omega), (char_cls _ _).1 hc]; rfl⟩
    · obtain ⟨c, v, rfl, hc, hv⟩ := cat_cls.1 h
      obtain ⟨d, v, rfl, hd, hv1⟩ := cat_cls.1 hv
      obtain ⟨b, v, h3, h4, rfl, hv2⟩ := (one_digit (by omega) (by omega)).1 hv1
      have : v = [] := hv2
      exact ⟨100 + b, Or.inr (by omega), by rw [this, natStr_hundred b (by omega), (char_cls _ _).1 hc, (char_cls _ _).1 hd]⟩
  · rintro ⟨n, h | h, rfl⟩
    · by_cases h10 : n < 10
      · left
        exact (one_digit (by omega) (by omega)).2 ⟨n, [], by omega, by omega, natStr_one n h10, rfl⟩
      · have e : n = 10 * (n / 10) + n % 10 := by omega
        have h2 := natStr_two (n / 10) (by omega) (n % 10) (by omega) (by omega)
        rw [← e] at h2
        by_cases h90 : n < 90
        · right; left
          exact (one_digit (by omega) (by omega)).2 ⟨n / 10, _, by omega, by omega, h2, (one_digit (by omega) (by omega)).2 ⟨n % 10, [], by omega, by omega, rfl, rfl⟩⟩
        · right; right; left
          have e9 : n / 10 = 9 := by omega
          rw [e9] at h2
          exact cat_cls.2 ⟨'9', _, h2, (char_cls _ _).2 rfl, (one_digit (by omega) (by omega)).2 ⟨n % 10, [], by omega, by omega, rfl, rfl⟩⟩
    · right; right; right
      obtain ⟨k, rfl⟩ : ∃ k, n = 100 + k := ⟨n - 100, by omega⟩
      exact cat_cls.2 ⟨'1', _, natStr_hundred k (by omega), (char_cls _ _).2 rfl, cat_cls.2 ⟨'0', _, rfl, (char_cls _ _).2 rfl,
        (one_digit (by omega) (by omega)).2 ⟨k, [], by omega, by omega, rfl, rfl⟩⟩⟩

/-- A number of at most three digits, up to 511. -/
def Sub (w : Str) : Prop := (∀ c ∈ w, c.isDigit = true) ∧ 1 ≤ w.length ∧ w.length ≤ 3 ∧ Nat.ofDigitChars 10 w 0 ≤ 511

theorem value_three : ∀ a, a < 10 → ∀ b, b < 10 → ∀ c, c < 10 → Nat.ofDigitChars 10 [Nat.digitChar a, Nat.digitChar b, Nat.digitChar c] 0 = 100 * a + 10 * b + c := by decide +kernel

theorem value_two : ∀ a, a < 10 → ∀ b, b < 10 → Nat.ofDigitChars 10 [Nat.digitChar a, Nat.digitChar b] 0 = 10 * a + b := by decide +kernel

theorem value_one : ∀ a, a < 10 → Nat.ofDigitChars 10 [Nat.digitChar a] 0 = a := by decide +kernel

theorem digits_two {w : Str} (hl : w.length = 2) (hd : ∀ c ∈ w, c.isDigit = true) : ∃ a b, a < 10 ∧ b < 10 ∧ w = [Nat.digitChar a, Nat.digitChar b] := by
  match w, hl with
  | [x, y], _ =>
    obtain ⟨a, ha, rfl⟩ := (digit_iff x).1 (hd x (by simp))
    obtain ⟨b, hb, rfl⟩ := (digit_iff y).1 (hd y (by simp))
    exact ⟨a, b, ha, hb, rfl⟩

theorem isDigit_char : ∀ a, a < 10 → (Nat.digitChar a).isDigit = true := by decide

theorem sbTail_iff (w : Str) : Reads false sbTail none w [] ↔ ∃ a b c, a < 10 ∧ b < 10 ∧ c < 10 ∧ 100 * a + 10 * b + c ≤ 511 ∧ w = [Nat.digitChar a, Nat.digitChar b, Nat.digitChar c] := by
  unfold sbTail
  rw [reads_alt, reads_alt, show dig '0' '4' = dig (Nat.digitChar 0) (Nat.digitChar 4) from rfl, show lit '5' = dig (Nat.digitChar 5) (Nat.digitChar 5) from rfl,
    show lit '0' = dig (Nat.digitChar 0) (Nat.digitChar 0) from rfl, show lit '1' = dig (Nat.digitChar 1) (Nat.digitChar 1) from rfl,
    show dig '0' '1' = dig (Nat.digitChar 0) (Nat.digitChar 1) from rfl]
  constructor
  · rintro (h | h | h)
    · obtain ⟨a, v, h1, h2, rfl, hv⟩ := (one_digit (by omega) (by omega)).1 h
      obtain ⟨h3, h4, h5⟩ := rep_cls.1 (cat_ends.1 hv)
      obtain ⟨b, c, hb, hc, rfl⟩ := digits_two (w := v) (by have := h4 2 rfl; omega) (fun c hc => by rw [← digit_cls]; exact h5 c hc)
      exact ⟨a, b, c, by omega, hb, hc, by omega, rfl⟩
    · obtain ⟨a, v, h1, h2, rfl, hv⟩ := (one_digit (by omega) (by omega)).1 h
      obtain ⟨b, v, h3, h4, rfl, hv1⟩ := (one_digit (by omega) (by omega)).1 hv
      rw [show dig '0' '9' = dig (Nat.digitChar 0) (Nat.digitChar 9) from rfl] at hv1
      obtain ⟨c, v, h5, h6, rfl, hv2⟩ := (one_digit (by omega) (by omega)).1 hv1
      have : v = [] := hv2
      exact ⟨a, b, c, by omega, by omega, by omega, by omega, by rw [this]⟩
    · obtain ⟨a, v, h1, h2, rfl, hv⟩ := (one_digit (by omega) (by omega)).1 h
      obtain ⟨b, v, h3, h4, rfl, hv1⟩ := (one_digit (by omega) (by omega)).1 hv
      obtain ⟨c, v, h5, h6, rfl, hv2⟩ := (one_digit (by omega) (by omega)).1 hv1
      have : v = [] := hv2
      exact ⟨a, b, c, by omega, by omega, by omega, by omega, by rw [this]⟩
  · rintro ⟨a, b, c, ha, hb, hc, hle, rfl⟩
    by_cases h4 : a ≤ 4
    · left
      refine (one_digit (by omega) (by omega)).2 ⟨a, _, by omega, h4, rfl, cat_ends.2 (rep_cls.2 ⟨Nat.le_refl 2, ?_, ?_⟩)⟩
      · intro h e; injection e with e; rw [← e]; exact Nat.le_refl 2
      · intro x hx
        rw [digit_cls]
        simp only [List.mem_cons, List.not_mem_nil, or_false] at hx
        rcases hx with rfl | rfl
        · exact isDigit_char b hb
        · exact isDigit_char c hc
    · by_cases h0 : b = 0
      · right; left
        rw [show dig '0' '9' = dig (Nat.digitChar 0) (Nat.digitChar 9) from rfl]
        exact (one_digit (by omega) (by omega)).2 ⟨a, _, by omega, by omega, rfl, (one_digit (by omega) (by omega)).2 ⟨b, _, by omega, by omega, rfl,
          (one_digit (by omega) (by omega)).2 ⟨c, [], by omega, by omega, rfl, rfl⟩⟩⟩
      · right; right
        exact (one_digit (by omega) (by omega)).2 ⟨a, _, by omega, by omega, rfl, (one_digit (by omega) (by omega)).2 ⟨b, _, by omega, by omega, rfl,
          (one_digit (by omega) (by omega)).2 ⟨c, [], by omega, by omega, rfl, rfl⟩⟩⟩

theorem sub_three {w : Str} (h3 : w.length = 3) : Sub w ↔ ∃ a b c, a < 10 ∧ b < 10 ∧ c < 10 ∧ 100 * a + 10 * b + c ≤ 511 ∧ w = [Nat.digitChar a, Nat.digitChar b, Nat.digitChar c] := by
  constructor
  · rintro ⟨hd, -, -, hv⟩
    match w, h3 with
    | [x, y, z], _ =>
      obtain ⟨a, ha, rfl⟩ := (digit_iff x).1 (hd x (by simp))
      obtain ⟨b, hb, rfl⟩ := (digit_iff y).1 (hd y (by simp))
      obtain ⟨c, hc, rfl⟩ := (digit_iff z).1 (hd z (by simp))
      rw [value_three a ha b hb c hc] at hv
      exact ⟨a, b, c, ha, hb, hc, hv, rfl⟩
  · rintro ⟨a, b, c, ha, hb, hc, hle, rfl⟩
    refine ⟨?_, by simp, by simp, by rw [value_three a ha b hb c hc]; exact hle⟩
    intro x hx
    simp only [List.mem_cons, List.not_mem_nil, or_false] at hx
    rcases hx with rfl | rfl | rfl
    · exact isDigit_char a ha
    · exact isDigit_char b hb
    · exact isDigit_char c hc

theorem sub_short {w : Str} (h1 : 1 ≤ w.length) (h2 : w.length ≤ 2) : Sub w ↔ ∀ c ∈ w, c.isDigit = true := by
  refine ⟨fun h => h.1, fun hd => ⟨hd, h1, by omega, ?_⟩⟩
  match w, h1, h2 with
  | [x], _, _ =>
    obtain ⟨a, ha, rfl⟩ := (digit_iff x).1 (hd x (by simp))
    rw [value_one a ha]; omega
  | [x, y], _, _ =>
    obtain ⟨a, ha, rfl⟩ := (digit_iff x).1 (hd x (by simp))
    obtain ⟨b, hb, rfl⟩ := (digit_iff y).1 (hd y (by simp))
    rw [value_two a ha b hb]; omega

/-- The first number of a list of sub-bands: any number up to 511, with at most three digits. -/
theorem sbFirst_iff (w : Str) : Reads false sbFirst none w [] ↔ Sub w := by
  unfold sbFirst
  rw [reads_alt, sbTail_iff, cat_ends, rep_cls]
  constructor
  · rintro (⟨h1, h2, h3⟩ | ⟨a, b, c, h⟩)
    · exact (sub_short h1 (h2 2 rfl)).2 (fun c hc => by rw [← digit_cls]; exact h3 c hc)
    · exact (sub_three (by rw [h.2.2.2.2]; rfl)).2 ⟨a, b, c, h⟩
  · intro h
    by_cases h3 : w.length = 3
    · exact Or.inr ((sub_three h3).1 h)
    · refine Or.inl ⟨h.2.1, fun x e => ?_, fun c hc => by rw [digit_cls]; exact h.1 c hc⟩
      injection e with e
      have := h.2.2.1
      omega

/-- The next ones: the same, but not a single 0. -/
theorem sbNext_iff (w : Str) : Reads false sbNext none w [] ↔ Sub w ∧ w ≠ ['0'] := by
  unfold sbNext
  rw [reads_alt, reads_alt, sbTail_iff, cat_ends, cat_ends, rep_cls]
  constructor
  · rintro (⟨c, rfl, hc⟩ | ⟨h1, h2, h3⟩ | ⟨a, b, c, h⟩)
    · obtain ⟨k, h1, h2, rfl⟩ := (dig_iff (a := 1) (b := 9) (by omega) (by omega)).1 hc
      refine ⟨(sub_short (by simp) (by simp)).2 ?_, ?_⟩
      · intro x hx
        rw [List.mem_singleton.1 hx]
        exact isDigit_char k (by omega)
      · intro e
        injection e with e
        have : ∀ k, k < 10 → Nat.digitChar k = '0' → k = 0 := by decide
        have := this k (by omega) e
        omega
    · have := h2 2 rfl
      refine ⟨(sub_short (by omega) this).2 (fun c hc => by rw [← digit_cls]; exact h3 c hc), ?_⟩
      rintro rfl
      simp at h1
    · refine ⟨(sub_three (by rw [h.2.2.2.2]; rfl)).2 ⟨a, b, c, h⟩, ?_⟩
      rw [h.2.2.2.2]; simp
  · rintro ⟨h, hne⟩
    by_cases h3 : w.length = 3
    · exact Or.inr (Or.inr ((sub_three h3).1 h))
    · by_cases h2 : w.length = 2
      · refine Or.inr (Or.inl ⟨by omega, fun x e => ?_, fun c hc => by rw [digit_cls]; exact h.1 c hc⟩)
        injection e with e
        omega
      · left
        have h1 : w.length = 1 := by have := h.2.1; have := h.2.2.1; omega
        match w, h1 with
        | [x], _ =>
          obtain ⟨a, ha, rfl⟩ := (digit_iff x).1 (h.1 x (by simp))
          refine ⟨_, rfl, (dig_iff (a := 1) (b := 9) (by omega) (by omega)).2 ⟨a, ?_, by omega, rfl⟩⟩
          rcases Nat.eq_zero_or_pos a with rfl | h
          · exact absurd rfl hne
          · exact h

end Verif.Parset
