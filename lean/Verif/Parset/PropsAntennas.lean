import Verif.Parset.PropsAccepted

/-!
# C167: lists of antennas accepted by the validation

The pattern of `antList` (parset_user_options.json:220) refuses with a negative look-ahead and a reference to a group the lists
in which a number comes twice.
-/

namespace Verif.Parset

/-! ## Patterns with references -/

theorem finds_cat {ci : Bool} {a b : Re} {R S : Option Char → Str → Str → Prop} (ha : Finds (run ci a) R) (hb : Finds (run ci b) S) :
    Finds (run ci (.cat a b)) (fun p w rest => ∃ u v : Str, w = u ++ v ∧ R p u (v ++ rest) ∧ S (lastOr p u) v rest) := by
  intro s q rest
  constructor
  · rintro ⟨t, ht, rfl, rfl⟩
    rw [run, List.mem_flatMap] at ht
    obtain ⟨x, hx, ht⟩ := ht
    obtain ⟨u, e1, e2, e3⟩ := (ha s x.prev x.rest).1 ⟨x, hx, rfl, rfl⟩
    obtain ⟨v, f1, f2, f3⟩ := (hb x t.prev t.rest).1 ⟨t, ht, rfl, rfl⟩
    exact ⟨u ++ v, by rw [e1, f1, List.append_assoc], by rw [f2, e2, lastOr_append], u, v, rfl, f1 ▸ e3, e2 ▸ f3⟩
  · rintro ⟨w, h1, rfl, u, v, rfl, hu, hv⟩
    rw [List.append_assoc] at h1
    obtain ⟨x, hx, ex, ep⟩ := (ha s _ _).2 ⟨u, h1, rfl, hu⟩
    obtain ⟨t, ht, et, eq⟩ := (hb x _ _).2 ⟨v, ex, rfl, ep ▸ hv⟩
    exact ⟨t, by rw [run, List.mem_flatMap]; exact ⟨x, hx, ht⟩, et, by rw [eq, ep, lastOr_append]⟩

theorem finds_not {ci : Bool} {r : Re} {D : Option Char → Str → Prop} (h : ∀ s : Pos, (∃ t : Pos, t ∈ run ci r s) ↔ D s.prev s.rest) :
    Finds (run ci (.look true r)) (fun p w rest => w = [] ∧ ¬D p rest) := by
  intro s q rest
  have key : (run ci r s).isEmpty = true ↔ ¬D s.prev s.rest := by
    rw [← h s, List.isEmpty_iff]
    constructor
    · rintro e ⟨t, ht⟩
      rw [e] at ht
      cases ht
    · intro e
      cases hl : run ci r s with
      | nil => rfl
      | cons x l => exact absurd ⟨x, by rw [hl]; exact List.mem_cons_self⟩ e
  constructor
  · rintro ⟨t, ht, rfl, rfl⟩
    rw [run] at ht
    by_cases hp : (run ci r s).isEmpty = true
    · rw [if_pos hp, if_pos rfl, List.mem_singleton] at ht
      subst ht
      exact ⟨[], rfl, rfl, rfl, key.1 hp⟩
    · rw [if_neg hp] at ht
      cases ht
  · rintro ⟨w, h1, rfl, rfl, hp⟩
    have h1' : s.rest = rest := h1
    exact ⟨s, by rw [run, if_pos (key.2 (h1' ▸ hp)), if_pos rfl, List.mem_singleton], h1, rfl⟩

theorem mem_cat {ci : Bool} {a b : Re} {s t : Pos} : t ∈ run ci (.cat a b) s ↔ ∃ x : Pos, x ∈ run ci a s ∧ t ∈ run ci b x := by
  rw [run, List.mem_flatMap]

theorem mem_edge {ci : Bool} {s t : Pos} : t ∈ run ci .edge s ↔ t = s ∧ wordAt s.prev ≠ wordAt s.rest.head? := by
  rw [run]
  by_cases h : wordAt s.prev = wordAt s.rest.head?
  · rw [if_neg (by simp [h])]
    exact ⟨(fun e => by cases e), fun e => absurd h e.2⟩
  · rw [if_pos (by simpa using h), List.mem_singleton]
    exact ⟨fun e => ⟨e, h⟩, fun e => e.1⟩

theorem mem_back {ci : Bool} {n : Nat} {w : Str} {l : List (Nat × Str)} {s t : Pos} (h : s.caps = (n, w) :: l) :
    t ∈ run ci (.back n) s ↔ ∃ z : Str, s.rest = w ++ z ∧ t = s.after w := by
  have hc : capOf s.caps n = some w := by
    unfold capOf
    rw [h, List.find?_cons_of_pos (by simp)]
    rfl
  rw [run, hc]
  by_cases hp : w.isPrefixOf s.rest = true
  · obtain ⟨z, hz⟩ := List.isPrefixOf_iff_prefix.1 hp
    have : (some w).filter (fun w => w.isPrefixOf s.rest) = some w := by simp [Option.filter, hp]
    rw [this]
    show t ∈ [s.after w] ↔ _
    rw [List.mem_singleton]
    exact ⟨fun e => ⟨z, hz.symm, e⟩, fun ⟨_, _, e⟩ => e⟩
  · have : (some w).filter (fun w => w.isPrefixOf s.rest) = none := by simp [Option.filter, hp]
    rw [this]
    show t ∈ [] ↔ _
    constructor
    · intro e; cases e
    · rintro ⟨z, hz, -⟩
      exact absurd (List.isPrefixOf_iff_prefix.2 ⟨z, hz.symm⟩) hp

theorem iter_caps {f : Pos → List Pos} (hf : ∀ s t : Pos, t ∈ f s → t.caps = s.caps) : ∀ (k lo : Nat) (hi : Option Nat) (s t : Pos),
    t ∈ iter f k lo hi s → t.caps = s.caps
  | 0, lo, hi, s, t, h => by
    unfold iter at h
    by_cases h0 : lo = 0
    · rw [if_pos h0, List.mem_singleton] at h
      rw [h]
    · rw [if_neg h0] at h; cases h
  | k + 1, lo, hi, s, t, h => by
    rw [iter, List.mem_append] at h
    rcases h with h | h
    · by_cases hh : hi = some 0
      · rw [if_pos hh] at h; cases h
      · rw [if_neg hh, List.mem_flatMap] at h
        obtain ⟨x, hx, h⟩ := h
        by_cases hz : lo = 0 ∧ x.rest.length = s.rest.length
        · rw [if_pos hz] at h; cases h
        · rw [if_neg hz] at h
          rw [iter_caps hf k _ _ x t h, hf s x hx]
    · by_cases h0 : lo = 0
      · rw [if_pos h0, List.mem_singleton] at h
        rw [h]
      · rw [if_neg h0] at h; cases h

theorem mem_many {ci neg : Bool} {l : List (Char × Char)} {lo : Nat} {s t : Pos} : t ∈ run ci (.rep lo none (.cls neg l)) s ↔
    t.caps = s.caps ∧ ∃ w : Str, s.rest = w ++ t.rest ∧ t.prev = lastOr s.prev w ∧ lo ≤ w.length ∧ ∀ c ∈ w, inCls ci neg l c = true := by
  have caps : ∀ t : Pos, t ∈ run ci (.rep lo none (.cls neg l)) s → t.caps = s.caps := by
    intro t ht
    rw [run] at ht
    refine iter_caps (fun s t ht => ?_) _ _ _ s t ht
    rw [run, stepCls] at ht
    by_cases h : (s.rest.head?).any (inCls ci neg l) = true
    · rw [if_pos h, List.mem_singleton] at ht
      rw [ht]; rfl
    · rw [if_neg h] at ht; cases ht
  have hr := run_iff ci (.rep lo none (.cls neg l)) rfl s
  constructor
  · intro ht
    obtain ⟨w, e1, e2, e3⟩ := (hr t.prev t.rest).1 ⟨t, ht, rfl, rfl⟩
    rw [rep_cls] at e3
    exact ⟨caps t ht, w, e1, e2, e3.1, e3.2.2⟩
  · rintro ⟨hc, w, e1, e2, e3, e4⟩
    obtain ⟨x, hx, x1, x2⟩ := (hr t.prev t.rest).2 ⟨w, e1, e2, rep_cls.2 ⟨e3, (fun h e => by cases e), e4⟩⟩
    have : x = t := by
      have x3 := (caps x hx).trans hc.symm
      cases x; cases t
      cases x1; cases x2; cases x3
      rfl
    exact this ▸ hx

/-! ## The pattern -/

/-- `.*` -/
def anyRe : Re := .rep 0 none (.cls true [('\n', '\n')])

/-- What the look-ahead searches for: `.*\b(\d+)\b.*\b\1\b`. -/
def dupRe : Re := .cat anyRe (.cat .edge (.cat (.grp 1 (.cat (.rep 1 none (dig '0' '9')) .eps)) (.cat .edge (.cat anyRe (.cat .edge (.cat (.back 1) (.cat .edge .eps)))))))

def antFirst : Re := .alt (.cat (.rep 0 (some 1) (lit '0')) (.cat (dig '1' '9') .eps)) (.cat (lit '1') (.cat (dig '0' '9') .eps))

def antNext : Re := .alt (.cat (.rep 0 (some 1) (lit '0')) (.cat (dig '0' '9') .eps)) (.cat (lit '1') (.cat (dig '0' '9') .eps))

/-- What follows the look-ahead. -/
def antTail : Re := .cat (.grp 2 antFirst) (.cat (.rep 0 none (.grp 3 (.cat (lit ',') (.cat (.grp 4 antNext) .eps)))) (.cat (lit ']') (.cat .eos .eps)))

theorem ant_pattern : (synOf anaRows "antList".toList).bind compile = some (false, .cat .bos (.cat (lit '[') (.cat (.look true dupRe) antTail))) := by
  decide +kernel

/-- The same number, as text, comes twice in `t` when `p` is the character before `t`. -/
def Twice (p : Option Char) (t : Str) : Prop :=
  ∃ x n y z : Str, t = x ++ (n ++ (y ++ (n ++ z))) ∧ '\n' ∉ x ∧ '\n' ∉ y ∧ n ≠ [] ∧ (∀ c ∈ n, c.isDigit = true)
    ∧ wordAt (lastOr p x) = false ∧ wordAt (y ++ (n ++ z)).head? = false ∧ wordAt (lastOr n.getLast? y) = false ∧ wordAt z.head? = false

theorem any_iff (c : Char) : inCls false true [('\n', '\n')] c = true ↔ c ≠ '\n' := by
  have := char_cls '\n' c
  unfold inCls at this ⊢
  cases h : ([('\n', '\n')] : List (Char × Char)).any fun p => (p.1 ≤ c && c ≤ p.2) || (false && ((p.1 ≤ c.toLower && c.toLower ≤ p.2) || (p.1 ≤ c.toUpper && c.toUpper ≤ p.2)))
  · rw [h] at this
    simpa using this
  · rw [h] at this
    simpa using this

theorem digit_range (c : Char) : inCls false false [('0', '9')] c = true ↔ c.isDigit = true := by
  unfold inCls Char.isDigit
  simp only [List.any_cons, List.any_nil, Bool.or_false, Bool.false_and, Bool.false_bne, Bool.and_eq_true, decide_eq_true_eq]
  exact Iff.rfl

theorem digit_word {c : Char} (h : c.isDigit = true) : isWord c = true := by
  unfold isWord Char.isAlphanum
  rw [h]
  simp

theorem word_head {n r : Str} (h0 : n ≠ []) (h : ∀ c ∈ n, c.isDigit = true) : wordAt (n ++ r).head? = true := by
  cases n with
  | nil => exact absurd rfl h0
  | cons c n => exact digit_word (h c List.mem_cons_self)

theorem last_word {p : Option Char} {n : Str} (h0 : n ≠ []) (h : ∀ c ∈ n, c.isDigit = true) : wordAt (lastOr p n) = true := by
  unfold lastOr
  rw [List.getLast?_eq_getLast_of_ne_nil h0]
  exact digit_word (h _ (List.getLast_mem h0))

theorem lastOr_last {p : Option Char} {n : Str} (h0 : n ≠ []) (y : Str) : lastOr (lastOr p n) y = lastOr n.getLast? y := by
  unfold lastOr
  rw [List.getLast?_eq_getLast_of_ne_nil h0]
  rfl

theorem edge_true {a b : Option Char} (hb : wordAt b = true) : wordAt a ≠ wordAt b ↔ wordAt a = false := by
  rw [hb]
  cases wordAt a <;> simp

theorem edge_false {a b : Option Char} (ha : wordAt a = true) : wordAt a ≠ wordAt b ↔ wordAt b = false := by
  rw [ha]
  cases wordAt b <;> simp

theorem dup_iff (s : Pos) : (∃ t : Pos, t ∈ run false dupRe s) ↔ Twice s.prev s.rest := by
  unfold dupRe
  constructor
  · rintro ⟨t, ht⟩
    obtain ⟨s1, h1, ht⟩ := mem_cat.1 ht
    obtain ⟨s2, h2, ht⟩ := mem_cat.1 ht
    obtain ⟨s3, h3, ht⟩ := mem_cat.1 ht
    obtain ⟨s4, h4, ht⟩ := mem_cat.1 ht
    obtain ⟨s5, h5, ht⟩ := mem_cat.1 ht
    obtain ⟨s6, h6, ht⟩ := mem_cat.1 ht
    obtain ⟨s7, h7, ht⟩ := mem_cat.1 ht
    obtain ⟨s8, h8, -⟩ := mem_cat.1 ht
    obtain ⟨-, x, x1, x2, -, x3⟩ := mem_many.1 h1
    obtain ⟨rfl, e2⟩ := mem_edge.1 h2
    rw [run, List.mem_map] at h3
    obtain ⟨g, hg, rfl⟩ := h3
    obtain ⟨g', hg', hg⟩ := mem_cat.1 hg
    rw [run, List.mem_singleton] at hg
    subst hg
    obtain ⟨-, n, n1, n2, n3, n4⟩ := mem_many.1 hg'
    obtain ⟨rfl, e4⟩ := mem_edge.1 h4
    obtain ⟨c5, y, y1, y2, -, y3⟩ := mem_many.1 h5
    obtain ⟨rfl, e6⟩ := mem_edge.1 h6
    have hread : s2.read g = n := by
      unfold Pos.read
      rw [n1]
      simp
    rw [show ({ g with caps := (1, s2.read g) :: g.caps } : Pos).caps = (1, n) :: g.caps by rw [← hread]] at c5
    obtain ⟨z, z1, rfl⟩ := (mem_back c5).1 h7
    obtain ⟨-, e8⟩ := mem_edge.1 h8
    have y1' : g.rest = y ++ s6.rest := y1
    have y2' : s6.prev = lastOr g.prev y := y2
    have n0 : n ≠ [] := by rintro rfl; simp at n3
    have nd : ∀ c ∈ n, c.isDigit = true := fun c hc => (digit_range c).1 (n4 c hc)
    have e4' : wordAt g.prev ≠ wordAt g.rest.head? := e4
    have e8' : wordAt (lastOr s6.prev n) ≠ wordAt (s6.rest.drop n.length).head? := e8
    have zr : s6.rest.drop n.length = z := by rw [z1]; simp
    refine ⟨x, n, y, z, by rw [x1, n1, y1', z1], fun h => (any_iff _).1 (x3 _ h) rfl, fun h => (any_iff _).1 (y3 _ h) rfl, n0, nd, ?_, ?_, ?_, ?_⟩
    · rw [← x2]
      exact (edge_true (by rw [n1]; exact word_head n0 nd)).1 e2
    · rw [← z1, ← y1']
      exact (edge_false (by rw [n2]; exact last_word n0 nd)).1 e4'
    · rw [← lastOr_last (p := s2.prev) n0, ← n2, ← y2']
      exact (edge_true (by rw [z1]; exact word_head n0 nd)).1 e6
    · rw [← zr]
      exact (edge_false (last_word n0 nd)).1 e8'
  · rintro ⟨x, n, y, z, e, hx, hy, n0, nd, w1, w2, w3, w4⟩
    let s2 : Pos := ⟨lastOr s.prev x, n ++ (y ++ (n ++ z)), s.caps⟩
    let g : Pos := ⟨lastOr s2.prev n, y ++ (n ++ z), s.caps⟩
    let s4 : Pos := ⟨g.prev, g.rest, (1, n) :: s.caps⟩
    let s6 : Pos := ⟨lastOr g.prev y, n ++ z, (1, n) :: s.caps⟩
    have hread : s2.read g = n := by
      show (n ++ (y ++ (n ++ z))).take _ = n
      rw [show s2.rest.length - g.rest.length = n.length by show (n ++ (y ++ (n ++ z))).length - (y ++ (n ++ z)).length = _; simp]
      simp
    have h1 : s2 ∈ run false anyRe s := mem_many.2 ⟨rfl, x, e, rfl, Nat.zero_le _, fun c hc => (any_iff c).2 (fun h => hx (h ▸ hc))⟩
    have h2 : s2 ∈ run false .edge s2 := mem_edge.2 ⟨rfl, (edge_true (word_head n0 nd)).2 w1⟩
    have hg : g ∈ run false (.cat (.rep 1 none (dig '0' '9')) .eps) s2 := mem_cat.2 ⟨g,
      mem_many.2 ⟨rfl, n, rfl, rfl, List.length_pos_iff.2 n0, fun c hc => (digit_range c).2 (nd c hc)⟩, by rw [run]; exact List.mem_singleton_self _⟩
    have h3 : s4 ∈ run false (.grp 1 (.cat (.rep 1 none (dig '0' '9')) .eps)) s2 := by
      rw [run, List.mem_map]
      exact ⟨g, hg, by rw [hread]⟩
    have h4 : s4 ∈ run false .edge s4 := mem_edge.2 ⟨rfl, (edge_false (last_word n0 nd)).2 w2⟩
    have h5 : s6 ∈ run false anyRe s4 := mem_many.2 ⟨rfl, y, rfl, rfl, Nat.zero_le _, fun c hc => (any_iff c).2 (fun h => hy (h ▸ hc))⟩
    have h6 : s6 ∈ run false .edge s6 := mem_edge.2 ⟨rfl, (edge_true (word_head n0 nd)).2 (by
      show wordAt (lastOr (lastOr s2.prev n) y) = false
      rw [lastOr_last n0]; exact w3)⟩
    have h7 : s6.after n ∈ run false (.back 1) s6 := (mem_back rfl).2 ⟨z, rfl, rfl⟩
    have h8 : s6.after n ∈ run false (.cat .edge .eps) (s6.after n) := mem_cat.2 ⟨_, mem_edge.2 ⟨rfl, (edge_false (last_word n0 nd)).2 (by
      show wordAt ((n ++ z).drop n.length).head? = false
      rw [show (n ++ z).drop n.length = z by simp]; exact w4)⟩, by rw [run]; exact List.mem_singleton_self _⟩
    exact ⟨_, mem_cat.2 ⟨_, h1, mem_cat.2 ⟨_, h2, mem_cat.2 ⟨_, h3, mem_cat.2 ⟨_, h4, mem_cat.2 ⟨_, h5, mem_cat.2 ⟨_, h6, mem_cat.2 ⟨_, h7, h8⟩⟩⟩⟩⟩⟩⟩⟩

/-! ## The numbers -/

/-- Numbers from `lo` to 9, with or without a 0 in front, and from 10 to 19, as they are written. -/
def AntText (lo : Nat) (w : Str) : Prop :=
  ∃ n : Nat, lo ≤ n ∧ n ≤ 19 ∧ (w = natStr n ∨ (n ≤ 9 ∧ w = '0' :: natStr n))

theorem ant_texts (lo : Nat) (h : lo < 10) (w : Str) :
    Reads false (.alt (.cat (.rep 0 (some 1) (lit '0')) (.cat (dig lo.digitChar (Nat.digitChar 9)) .eps)) (.cat (lit '1') (.cat (dig (Nat.digitChar 0) (Nat.digitChar 9)) .eps))) none w [] ↔ AntText lo w := by
  rw [reads_alt]
  constructor
  · rintro (⟨u, v, rfl, hu, hv⟩ | hw)
    · obtain ⟨k, v, h1, h2, rfl, hv1⟩ := (one_digit h (by omega)).1 hv
      have : v = [] := hv1
      subst this
      rcases rep_opt.1 hu with rfl | ⟨c, rfl, hc⟩
      · exact ⟨k, h1, by omega, Or.inl (by rw [natStr_one k (by omega)]; rfl)⟩
      · rw [(char_cls _ _).1 hc]
        exact ⟨k, h1, by omega, Or.inr ⟨h2, by rw [natStr_one k (by omega)]; rfl⟩⟩
    · obtain ⟨c, v, rfl, hc, hv⟩ := cat_cls.1 hw
      obtain ⟨k, v, h1, h2, rfl, hv1⟩ := (one_digit (by omega) (by omega)).1 hv
      have : v = [] := hv1
      subst this
      rw [(char_cls _ _).1 hc]
      exact ⟨10 * 1 + k, by omega, by omega, Or.inl (by rw [natStr_two 1 (by omega) k (by omega) (by omega)]; rfl)⟩
  · rintro ⟨n, h1, h2, rfl | ⟨h3, rfl⟩⟩
    · by_cases h3 : n < 10
      · left
        refine ⟨[], natStr n, rfl, rep_opt.2 (Or.inl rfl), (one_digit h (by omega)).2 ⟨n, [], h1, by omega, natStr_one n h3, rfl⟩⟩
      · right
        obtain ⟨k, rfl⟩ : ∃ k, n = 10 * 1 + k := ⟨n - 10, by omega⟩
        refine cat_cls.2 ⟨'1', [Nat.digitChar k], ?_, (char_cls _ _).2 rfl, (one_digit (by omega) (by omega)).2 ⟨k, [], by omega, by omega, rfl, rfl⟩⟩
        rw [natStr_two 1 (by omega) k (by omega) (by omega)]
        rfl
    · left
      refine ⟨['0'], natStr n, rfl, rep_opt.2 (Or.inr ⟨'0', rfl, (char_cls _ _).2 rfl⟩), (one_digit h (by omega)).2 ⟨n, [], h1, by omega, natStr_one n (by omega), rfl⟩⟩

theorem first_text (w : Str) : Reads false antFirst none w [] ↔ AntText 1 w := ant_texts 1 (by omega) w

theorem next_text (w : Str) : Reads false antNext none w [] ↔ AntText 0 w := ant_texts 0 (by omega) w

/-- Texts after commas. -/
def afterCommas (l : List Str) : Str := l.flatMap fun w : Str => ',' :: w

theorem join_after : ∀ (a : Str) (l : List Str), join ',' (a :: l) = a ++ afterCommas l
  | a, [] => by simp [join, afterCommas]
  | a, b :: l => by
    rw [join, join_after b l]
    simp [afterCommas]

theorem turn_text (p : Option Char) (w rest : Str) :
    Reads false (.grp 3 (.cat (lit ',') (.cat (.grp 4 antNext) .eps))) p w rest ↔ ∃ x : Str, w = ',' :: x ∧ AntText 0 x := by
  have hB := free_of_simple (ci := false) antNext (by decide)
  rw [reads_grp, cat_cls]
  constructor
  · rintro ⟨c, v, rfl, hc, hv⟩
    rw [cat_ends, reads_grp, hB] at hv
    rw [(char_cls _ _).1 hc]
    exact ⟨v, rfl, (next_text v).1 hv⟩
  · rintro ⟨x, rfl, hx⟩
    refine ⟨',', x, rfl, (char_cls _ _).2 rfl, ?_⟩
    rw [cat_ends, reads_grp, hB]
    exact (next_text x).2 hx

theorem turns_text (rest : Str) : ∀ (n : Nat) (p : Option Char) (w : Str),
    Times (Reads false (.grp 3 (.cat (lit ',') (.cat (.grp 4 antNext) .eps)))) n p w rest ↔ ∃ l : List Str, l.length = n ∧ w = afterCommas l ∧ ∀ x ∈ l, AntText 0 x
  | 0, p, w => by
    constructor
    · intro h
      exact ⟨[], rfl, h, (fun x hx => by cases hx)⟩
    · rintro ⟨l, h1, rfl, -⟩
      rw [List.length_eq_zero_iff.1 h1]
      rfl
  | n + 1, p, w => by
    constructor
    · rintro ⟨u, v, rfl, hu, hv⟩
      obtain ⟨x, rfl, hx⟩ := (turn_text _ _ _).1 hu
      obtain ⟨l, h1, rfl, h2⟩ := (turns_text rest n _ v).1 hv
      exact ⟨x :: l, by rw [List.length_cons, h1], rfl, by rw [List.forall_mem_cons]; exact ⟨hx, h2⟩⟩
    · rintro ⟨l, h1, rfl, h2⟩
      cases l with
      | nil => cases h1
      | cons x l =>
        rw [List.forall_mem_cons] at h2
        exact ⟨',' :: x, afterCommas l, rfl, (turn_text _ _ _).2 ⟨x, rfl, h2.1⟩, (turns_text rest n _ _).2 ⟨l, by simpa using h1, rfl, h2.2⟩⟩

theorem tail_text (p : Option Char) (t : Str) : Reads false antTail p t [] ↔
    ∃ (a : Str) (l : List Str), AntText 1 a ∧ (∀ x ∈ l, AntText 0 x) ∧ t = join ',' (a :: l) ++ [']'] := by
  have hA := free_of_simple (ci := false) antFirst (by decide)
  have last : ∀ (p : Option Char) (v : Str), Reads false (.cat (lit ']') (.cat .eos .eps)) p v [] ↔ v = [']'] := by
    intro p v
    rw [cat_cls]
    constructor
    · rintro ⟨c, u, rfl, hc, hu⟩
      rw [at_end] at hu
      rw [hu, (char_cls _ _).1 hc]
    · rintro rfl
      exact ⟨']', [], rfl, (char_cls _ _).2 rfl, at_end.2 rfl⟩
  unfold antTail
  constructor
  · rintro ⟨a, v, rfl, ha, u, z, rfl, ⟨n, -, -, hu⟩, hz⟩
    rw [last] at hz
    subst hz
    rw [reads_grp, hA] at ha
    obtain ⟨l, -, rfl, hl⟩ := (turns_text _ n _ u).1 hu
    exact ⟨a, l, (first_text a).1 ha, hl, by rw [join_after, List.append_assoc]⟩
  · rintro ⟨a, l, ha, hl, rfl⟩
    rw [join_after, List.append_assoc]
    exact ⟨a, afterCommas l ++ [']'], rfl, by rw [reads_grp, hA]; exact (first_text a).2 ha, afterCommas l, [']'], rfl,
      ⟨l.length, Nat.zero_le _, (fun h e => by cases e), (turns_text _ _ _ _).2 ⟨l, rfl, rfl, hl⟩⟩, (last _ _).2 rfl⟩

/-! ## Twice the same number -/

theorem splitOn_mid (c : Char) : ∀ u v : Str, splitOn c (u ++ c :: v) = splitOn c u ++ splitOn c v := by
  intro u
  induction h : u.length using Nat.strong_induction_on generalizing u with
  | _ n ih =>
    intro v
    by_cases hc : c ∈ u
    · obtain ⟨a, b, rfl, ha⟩ := List.eq_append_cons_of_mem hc
      rw [List.append_assoc, List.cons_append, splitOn_append c a _ ha, splitOn_append c a _ ha, ih b.length (by rw [← h]; simp; omega) b rfl v, List.cons_append]
    · rw [splitOn_append c u v hc, splitOn_none c u hc]
      rfl

theorem field_start {u : Str} (h : u = [] ∨ ∃ v : Str, u = v ++ [',']) (r : Str) : ∃ A : List Str, splitOn ',' (u ++ r) = A ++ splitOn ',' r := by
  rcases h with rfl | ⟨v, rfl⟩
  · exact ⟨[], rfl⟩
  · refine ⟨splitOn ',' v, ?_⟩
    rw [List.append_assoc]
    exact splitOn_mid ',' v r

theorem field_end {n z : Str} (hn : ',' ∉ n) (h : z = [] ∨ ∃ v : Str, z = ',' :: v) : ∃ C : List Str, splitOn ',' (n ++ z) = n :: C := by
  rcases h with rfl | ⟨v, rfl⟩
  · exact ⟨[], by rw [List.append_nil]; exact splitOn_none _ n hn⟩
  · exact ⟨_, splitOn_append ',' n v hn⟩

theorem two_of_not_nodup : ∀ l : List Str, ¬l.Nodup → ∃ (A B C : List Str) (n : Str), l = A ++ n :: (B ++ n :: C)
  | [], h => absurd List.nodup_nil h
  | a :: l, h => by
    by_cases ha : a ∈ l
    · obtain ⟨B, C, rfl⟩ := List.append_of_mem ha
      exact ⟨[], B, C, a, rfl⟩
    · obtain ⟨A, B, C, n, rfl⟩ := two_of_not_nodup l (fun hl => h (List.nodup_cons.2 ⟨ha, hl⟩))
      exact ⟨a :: A, B, C, n, rfl⟩

theorem after_append (A B : List Str) : afterCommas (A ++ B) = afterCommas A ++ afterCommas B := List.flatMap_append

theorem join_before (A : List Str) (n : Str) (R : List Str) : join ',' (A ++ n :: R) = (A.flatMap fun w : Str => w ++ [',']) ++ join ',' (n :: R) := by
  induction A with
  | nil => rfl
  | cons a A ih =>
    rw [List.cons_append, join_after, List.flatMap_cons, List.append_assoc, ← ih]
    cases A with
    | nil => rw [List.nil_append, join_after]; simp [afterCommas]
    | cons b A => rw [List.cons_append, join_after]; simp [afterCommas]

/-- In a list of texts of digits between commas, the same number comes twice exactly when a text comes twice. -/
theorem twice_iff (L : List Str) (h0 : L ≠ []) (h : ∀ w ∈ L, w ≠ [] ∧ ∀ c ∈ w, c.isDigit = true) :
    Twice (some '[') (join ',' L ++ [']']) ↔ ¬L.Nodup := by
  have dcomma : Char.isDigit ',' = false := by decide
  have dclose : Char.isDigit ']' = false := by decide
  have wcomma : isWord ',' = false := by decide +kernel
  have wclose : isWord ']' = false := by decide +kernel
  have wopen : isWord '[' = false := by decide +kernel
  have hL : ∀ w ∈ L, ',' ∉ w := fun w hw hc => by rw [(h w hw).2 _ hc] at dcomma; cases dcomma
  have chars : ∀ c ∈ join ',' L, c = ',' ∨ c.isDigit = true := by
    intro c hc
    rcases join_chars ',' L c hc with e | ⟨s, hs, hcs⟩
    · exact Or.inl e
    · exact Or.inr ((h s hs).2 c hcs)
  constructor
  · rintro ⟨x, n, y, z, e, -, -, n0, nd, w1, w2, w3, w4⟩
    -- the closing bracket is in the end
    have hz : ∃ z' : Str, z = z' ++ [']'] := by
      cases z using List.reverseRecOn with
      | nil =>
        exfalso
        rw [List.append_nil, ← List.append_assoc, ← List.append_assoc] at e
        have e2 := congrArg List.getLast? e
        rw [List.getLast?_append_of_ne_nil _ (List.cons_ne_nil _ _), List.getLast?_append_of_ne_nil _ n0, List.getLast?_eq_getLast_of_ne_nil n0] at e2
        have := nd _ (List.getLast_mem n0)
        rw [← Option.some.inj e2] at this
        exact absurd this (by decide)
      | append_singleton z c =>
        have e2 := congrArg List.getLast? e
        rw [← List.append_assoc, ← List.append_assoc, ← List.append_assoc, ← List.append_assoc, List.getLast?_append_of_ne_nil _ (List.cons_ne_nil _ _),
          List.getLast?_append_of_ne_nil _ (List.cons_ne_nil _ _)] at e2
        have hc : ']' = c := Option.some.inj e2
        exact ⟨z, by rw [hc]⟩
    obtain ⟨z, rfl⟩ := hz
    have e' : join ',' L = x ++ (n ++ (y ++ (n ++ z))) := by
      have : join ',' L ++ [']'] = (x ++ (n ++ (y ++ (n ++ z)))) ++ [']'] := by rw [e]; simp
      exact List.append_cancel_right this
    have cs : ∀ c ∈ x ++ (n ++ (y ++ (n ++ z))), c = ',' ∨ c.isDigit = true := e' ▸ chars
    have nc : ',' ∉ n := fun hc => by rw [nd _ hc] at dcomma; cases dcomma
    have hx : x = [] ∨ ∃ v : Str, x = v ++ [','] := by
      cases x using List.reverseRecOn with
      | nil => exact Or.inl rfl
      | append_singleton v c =>
        right
        have hw : isWord c = false := by
          have : lastOr (some '[') (v ++ [c]) = some c := by unfold lastOr; simp
          rw [this] at w1
          exact w1
        rcases cs c (by simp) with rfl | hd
        · exact ⟨v, rfl⟩
        · rw [digit_word hd] at hw; cases hw
    have hy : ∃ v : Str, y = ',' :: v ∧ (v = [] ∨ ∃ u : Str, v = u ++ [',']) := by
      cases y with
      | nil =>
        rw [List.nil_append, word_head n0 nd] at w2
        cases w2
      | cons c v =>
        have hc : c = ',' := by
          rcases cs c (by simp) with rfl | hd
          · rfl
          · have : isWord c = false := w2
            rw [digit_word hd] at this; cases this
        subst hc
        refine ⟨v, rfl, ?_⟩
        cases v using List.reverseRecOn with
        | nil => exact Or.inl rfl
        | append_singleton u c =>
          right
          have hw : isWord c = false := by
            have : lastOr n.getLast? (',' :: (u ++ [c])) = some c := by rw [← List.cons_append]; unfold lastOr; rw [List.getLast?_append_of_ne_nil _ (List.cons_ne_nil _ _)]; rfl
            rw [this] at w3
            exact w3
          rcases cs c (by simp) with rfl | hd
          · exact ⟨u, rfl⟩
          · rw [digit_word hd] at hw; cases hw
    have hz : z = [] ∨ ∃ v : Str, z = ',' :: v := by
      cases z with
      | nil => exact Or.inl rfl
      | cons c v =>
        right
        rcases cs c (by simp) with rfl | hd
        · exact ⟨v, rfl⟩
        · have : isWord c = false := w4
          rw [digit_word hd] at this; cases this
    obtain ⟨v, rfl, hv⟩ := hy
    obtain ⟨A, hA⟩ := field_start hx (n ++ ((',' :: v) ++ (n ++ z)))
    obtain ⟨B, hB⟩ := field_start hv (n ++ z)
    obtain ⟨C, hC⟩ := field_end nc hz
    have hl : L = A ++ n :: (B ++ n :: C) := by
      rw [← splitOn_join ',' L h0 hL, e', hA, List.cons_append, splitOn_append ',' n _ nc, hB, hC]
    rw [hl]
    intro hn
    have := (List.nodup_append.1 hn).2.1
    exact (List.nodup_cons.1 this).1 (by simp)
  · intro hn
    obtain ⟨A, B, C, n, rfl⟩ := two_of_not_nodup L hn
    obtain ⟨n0, nd⟩ := h n (by simp)
    have nl : ∀ l : List Str, (∀ w ∈ l, w ∈ A ++ n :: (B ++ n :: C)) → '\n' ∉ (l.flatMap fun w : Str => w ++ [',']) ∧ '\n' ∉ afterCommas l := by
      intro l hl
      have hd : ∀ w ∈ l, '\n' ∉ w := fun w hw hc => absurd ((h w (hl w hw)).2 _ hc) (by decide)
      constructor
      · intro hc
        obtain ⟨w, hw, hc⟩ := List.mem_flatMap.1 hc
        rcases List.mem_append.1 hc with hc | hc
        · exact hd w hw hc
        · exact absurd (List.mem_singleton.1 hc) (by decide)
      · intro hc
        obtain ⟨w, hw, hc⟩ := List.mem_flatMap.1 hc
        rcases List.mem_cons.1 hc with hc | hc
        · exact absurd hc (by decide)
        · exact hd w hw hc
    refine ⟨A.flatMap fun w : Str => w ++ [','], n, afterCommas B ++ [','], afterCommas C ++ [']'], ?_, (nl A (fun w hw => by simp [hw])).1, ?_, n0, nd, ?_, ?_, ?_, ?_⟩
    · rw [join_before, join_after, after_append]
      simp [afterCommas]
    · intro hc
      rcases List.mem_append.1 hc with hc | hc
      · exact (nl B (fun w hw => by simp [hw])).2 hc
      · exact absurd (List.mem_singleton.1 hc) (by decide)
    · cases A using List.reverseRecOn with
      | nil => exact wopen
      | append_singleton A a =>
        have : lastOr (some '[') ((A ++ [a]).flatMap fun w : Str => w ++ [',']) = some ',' := by
          unfold lastOr
          rw [List.flatMap_append]
          simp
        rw [this]
        exact wcomma
    · cases B with
      | nil => exact wcomma
      | cons b B => exact wcomma
    · have : lastOr n.getLast? (afterCommas B ++ [',']) = some ',' := by unfold lastOr; simp
      rw [this]
      exact wcomma
    · cases C with
      | nil => exact wclose
      | cons c C => exact wcomma

theorem ant_digits {lo : Nat} {w : Str} (h : AntText lo w) : w ≠ [] ∧ ∀ c ∈ w, c.isDigit = true := by
  obtain ⟨n, -, -, rfl | ⟨-, rfl⟩⟩ := h
  · exact ⟨natStr_ne n, natStr_digits n⟩
  · refine ⟨List.cons_ne_nil _ _, ?_⟩
    rw [List.forall_mem_cons]
    exact ⟨by decide, natStr_digits n⟩

/-- **C167** The lists of antennas which are accepted: numbers between brackets with commas, from 1 to 19 for the first one and
from 0 to 19 for the others, with or without a 0 in front of one digit, no text coming twice. -/
theorem ant_list_accepted (t : Str) : Accepts anaRows "antList".toList t ↔
    ∃ (a : Str) (l : List Str), t = '[' :: join ',' (a :: l) ++ [']'] ∧ AntText 1 a ∧ (∀ x ∈ l, AntText 0 x) ∧ (a :: l).Nodup := by
  obtain ⟨p, hs, hc⟩ := Option.bind_eq_some_iff.1 ant_pattern
  have F := finds_cat (run_iff false .bos rfl) (finds_cat (run_iff false (lit '[') rfl) (finds_cat (finds_not dup_iff) (run_iff false antTail (by decide))))
  have acc : Accepts anaRows "antList".toList t ↔ fullmatch false (.cat .bos (.cat (lit '[') (.cat (.look true dupRe) antTail))) t = true := by
    unfold Accepts checkField
    simp only [hs, Option.elim_some, if_true, fullmatchText, hc, Except.ok.injEq]
  rw [acc]
  unfold fullmatch
  rw [List.any_eq_true]
  have dig : ∀ (a : Str) (l : List Str), AntText 1 a → (∀ x ∈ l, AntText 0 x) → ∀ w ∈ a :: l, w ≠ [] ∧ ∀ c ∈ w, c.isDigit = true := by
    intro a l ha hl w hw
    rcases List.mem_cons.1 hw with rfl | hw
    · exact ant_digits ha
    · exact ant_digits (hl w hw)
  constructor
  · rintro ⟨x, hx, he⟩
    have hr : x.rest = [] := List.isEmpty_iff.1 he
    obtain ⟨w, e1, -, u1, v1, rfl, ⟨rfl, -⟩, u2, v2, rfl, ⟨c, rfl, hc⟩, u3, v3, rfl, ⟨rfl, ht⟩, h4⟩ := (F (.start t) x.prev x.rest).1 ⟨x, hx, rfl, rfl⟩
    rw [hr] at e1 ht h4
    obtain ⟨a, l, ha, hl, rfl⟩ := (tail_text _ _).1 h4
    rw [(char_cls _ _).1 hc] at e1 ht
    refine ⟨a, l, ?_, ha, hl, ?_⟩
    · have : t = _ := e1
      rw [this]
      simp
    · by_contra hn
      apply ht
      rw [List.append_nil]
      exact (twice_iff (a :: l) (List.cons_ne_nil _ _) (dig a l ha hl)).2 hn
  · rintro ⟨a, l, rfl, ha, hl, hn⟩
    obtain ⟨x, hx, he, -⟩ := (F (.start ('[' :: join ',' (a :: l) ++ [']'])) _ []).2 ⟨'[' :: join ',' (a :: l) ++ [']'], (List.append_nil _).symm, rfl,
      [], _, rfl, ⟨rfl, rfl⟩, ['['], join ',' (a :: l) ++ [']'], rfl, ⟨'[', rfl, (char_cls _ _).2 rfl⟩, [], join ',' (a :: l) ++ [']'], rfl, ⟨rfl, by
        rw [List.append_nil]
        intro h
        exact (twice_iff (a :: l) (List.cons_ne_nil _ _) (dig a l ha hl)).1 h hn⟩, (tail_text _ _).2 ⟨a, l, ha, hl, rfl⟩⟩
    exact ⟨x, hx, by rw [he]; rfl⟩

/-! ## What is read -/

/-- Number written by `w`. -/
theorem ant_value {lo : Nat} {w : Str} (h : AntText lo w) : lo ≤ num w ∧ num w ≤ 19 := by
  obtain ⟨n, h1, h2, rfl | ⟨h3, rfl⟩⟩ := h
  · have : num (natStr n) = n := by
      have : ∀ n : Nat, n < 20 → num (natStr n) = n := by decide +kernel
      exact this n (by omega)
    omega
  · have : num ('0' :: natStr n) = n := by
      have : ∀ n : Nat, n < 10 → num ('0' :: natStr n) = n := by decide +kernel
      exact this n (by omega)
    omega

theorem digits_elem (isTime : Str → Bool) {w : Str} (h : w ≠ [] ∧ ∀ c ∈ w, c.isDigit = true) : parseElem isTime w = .ok [Item.int (num w)] := by
  have hn : ∀ c : Char, c.isDigit = false → c ∉ w := fun c hc hm => by rw [h.2 c hm] at hc; cases hc
  have hd : isDigits w = true := by
    unfold isDigits
    rw [Bool.and_eq_true, List.all_eq_true]
    exact ⟨by cases w with | nil => exact absurd rfl h.1 | cons => rfl, h.2⟩
  unfold parseElem
  rw [hasDots_none _ (hn _ (by decide)), if_neg (by simp), if_neg (hn _ (by decide)), if_pos hd]
  rfl

theorem digits_elems (isTime : Str → Bool) : ∀ L : List Str, (∀ w ∈ L, w ≠ [] ∧ ∀ c ∈ w, c.isDigit = true) →
    parseElems isTime L = .ok (L.map fun w : Str => Item.int (num w))
  | [], _ => rfl
  | w :: L, h => by
    rw [List.forall_mem_cons] at h
    rw [parseElems, digits_elem isTime h.1, digits_elems isTime L h.2]
    rfl

theorem ant_read (isTime : Str → Bool) (isFloat : IsFloat) (key : Str) (L : List Str) (h0 : L ≠ []) (h : ∀ w ∈ L, w ≠ [] ∧ ∀ c ∈ w, c.isDigit = true) :
    setItem isTime isFloat key ('[' :: join ',' L ++ [']']) = .ok (.list (L.map fun w : Str => Item.int (num w))) := by
  have hn : ∀ c : Char, c.isDigit = false → c ≠ ',' → c ∉ join ',' L := by
    intro c h1 h2 hc
    rcases join_chars ',' L c hc with e | ⟨s, hs, hcs⟩
    · exact h2 e
    · rw [(h s hs).2 c hcs] at h1; cases h1
  rw [setItem_list isTime isFloat key _ (hn _ (by decide) (by decide)) (hn _ (by decide) (by decide)),
    splitOn_join ',' L h0 (fun w hw hc => absurd ((h w hw).2 _ hc) (by decide)), digits_elems isTime L h]
  rfl

/-- **C167** An accepted list of antennas is read as numbers, the first one from 1 to 19 and the others from 0 to 19. -/
theorem ant_list_read (isTime : Str → Bool) (isFloat : IsFloat) (t : Str) (h : Accepts anaRows "antList".toList t) :
    ∃ (n : Nat) (l : List Nat), setItem isTime isFloat "antList".toList t = .ok (.list ((n :: l).map fun k : Nat => Item.int k))
      ∧ 1 ≤ n ∧ n ≤ 19 ∧ ∀ k ∈ l, k ≤ 19 := by
  obtain ⟨a, l, rfl, ha, hl, -⟩ := (ant_list_accepted t).1 h
  refine ⟨num a, l.map num, ?_, (ant_value ha).1, (ant_value ha).2, ?_⟩
  · rw [ant_read isTime isFloat _ (a :: l) (List.cons_ne_nil _ _) ?_]
    · rw [List.map_cons, List.map_cons, List.map_map]
      rfl
    · rw [List.forall_mem_cons]
      exact ⟨ant_digits ha, fun w hw => ant_digits (hl w hw)⟩
  · intro k hk
    obtain ⟨w, hw, rfl⟩ := List.mem_map.1 hk
    exact (ant_value (hl w hw)).2

theorem natStr_injective {m n : Nat} (h : natStr m = natStr n) : m = n := by
  rw [← ofDigits_natStr m, h, ofDigits_natStr]

theorem plain_text {lo n : Nat} : AntText lo (natStr n) ↔ lo ≤ n ∧ n ≤ 19 := by
  constructor
  · intro h
    have := ant_value h
    rwa [show num (natStr n) = n from ofDigits_natStr n] at this
  · rintro ⟨h1, h2⟩
    exact ⟨n, h1, h2, Or.inl rfl⟩

theorem same_fields {L M : List Str} (h0 : L ≠ []) (h1 : M ≠ []) (hL : ∀ w ∈ L, ',' ∉ w) (hM : ∀ w ∈ M, ',' ∉ w)
    (h : '[' :: join ',' L ++ [']'] = '[' :: join ',' M ++ [']']) : L = M := by
  have : join ',' L = join ',' M := by simpa using h
  rw [← splitOn_join ',' L h0 hL, this, splitOn_join ',' M h1 hM]

/-- **C167** A list of numbers given by a user is accepted exactly if it is not empty, its numbers are from 0 to 19, no number
comes twice and the first one is not 0. -/
theorem ant_numbers_accepted (l : List Nat) : Accepts anaRows "antList".toList (UVal.list (l.map natStr)).stored ↔
    ∃ (n : Nat) (m : List Nat), l = n :: m ∧ 1 ≤ n ∧ (∀ k ∈ l, k ≤ 19) ∧ l.Nodup := by
  have hst : (UVal.list (l.map natStr)).stored = '[' :: join ',' (l.map natStr) ++ [']'] := rfl
  have hc : ∀ w ∈ l.map natStr, ',' ∉ w := by
    intro w hw
    obtain ⟨n, -, rfl⟩ := List.mem_map.1 hw
    exact notMem_natStr (by decide) n
  have inj : Function.Injective natStr := fun _ _ h => natStr_injective h
  rw [hst, ant_list_accepted]
  constructor
  · rintro ⟨a, m, e, ha, hm, hn⟩
    have dg : ∀ w ∈ a :: m, w ≠ [] ∧ ∀ c ∈ w, c.isDigit = true := by
      rw [List.forall_mem_cons]
      exact ⟨ant_digits ha, fun w hw => ant_digits (hm w hw)⟩
    cases l with
    | nil =>
      exfalso
      have e' : join ',' (a :: m) = [] := by
        have : ([] : Str) = join ',' (a :: m) := by simpa [join] using e
        exact this.symm
      rw [join_after] at e'
      exact (ant_digits ha).1 (List.append_eq_nil_iff.1 e').1
    | cons n l =>
      have e' := same_fields (List.cons_ne_nil _ _) (List.cons_ne_nil _ _) hc (fun w hw hx => absurd ((dg w hw).2 _ hx) (by decide)) e
      injection e' with e1 e2
      subst e1 e2
      refine ⟨n, l, rfl, (plain_text.1 ha).1, ?_, ?_⟩
      · rw [List.forall_mem_cons]
        exact ⟨(plain_text.1 ha).2, fun k hk => (plain_text.1 (hm _ (List.mem_map.2 ⟨k, hk, rfl⟩))).2⟩
      · rw [← List.map_cons] at hn
        exact List.Nodup.of_map _ hn
  · rintro ⟨n, m, rfl, h1, h2, h3⟩
    rw [List.forall_mem_cons] at h2
    refine ⟨natStr n, m.map natStr, rfl, plain_text.2 ⟨h1, h2.1⟩, ?_, ?_⟩
    · intro x hx
      obtain ⟨k, hk, rfl⟩ := List.mem_map.1 hx
      exact plain_text.2 ⟨Nat.zero_le _, h2.2 k hk⟩
    · rw [← List.map_cons]
      exact h3.map inj

/-- **C167** If no number of an accepted list starts with a 0, distinct antennas from 1 to 19 are read. -/
theorem ant_list_partial (isTime : Str → Bool) (isFloat : IsFloat) (t : Str) (h : Accepts anaRows "antList".toList t)
    (h0 : ∀ w ∈ splitOn ',' t.tail.dropLast, w.head? ≠ some '0') :
    ∃ l : List Nat, setItem isTime isFloat "antList".toList t = .ok (.list (l.map fun k : Nat => Item.int k)) ∧ l ≠ [] ∧ l.Nodup
      ∧ ∀ k ∈ l, 1 ≤ k ∧ k ≤ 19 := by
  obtain ⟨a, l, rfl, ha, hl, hn⟩ := (ant_list_accepted t).1 h
  have dg : ∀ w ∈ a :: l, w ≠ [] ∧ ∀ c ∈ w, c.isDigit = true := by
    rw [List.forall_mem_cons]
    exact ⟨ant_digits ha, fun w hw => ant_digits (hl w hw)⟩
  have e : splitOn ',' ('[' :: join ',' (a :: l) ++ [']']).tail.dropLast = a :: l := by
    rw [List.cons_append, List.tail_cons, List.dropLast_concat]
    exact splitOn_join ',' _ (List.cons_ne_nil _ _) (fun w hw hx => absurd ((dg w hw).2 _ hx) (by decide))
  rw [e] at h0
  have zero : ∀ w ∈ a :: l, ∃ n : Nat, w = natStr n ∧ 1 ≤ n ∧ n ≤ 19 := by
    intro w hw
    have hw0 : AntText 0 w := by
      rcases List.mem_cons.1 hw with rfl | hw
      · obtain ⟨n, -, h2, h3⟩ := ha
        exact ⟨n, Nat.zero_le _, h2, h3⟩
      · exact hl w hw
    obtain ⟨n, -, h2, rfl | ⟨-, rfl⟩⟩ := hw0
    · refine ⟨n, rfl, ?_, h2⟩
      by_contra hlt
      have : n = 0 := by omega
      subst this
      exact h0 _ hw rfl
    · exact absurd rfl (h0 _ hw)
  refine ⟨(a :: l).map num, ?_, by simp, ?_, ?_⟩
  · rw [ant_read isTime isFloat _ (a :: l) (List.cons_ne_nil _ _) dg, List.map_map]
    rfl
  · refine List.Nodup.map_on ?_ hn
    intro x hx y hy hxy
    obtain ⟨m, rfl, -⟩ := zero x hx
    obtain ⟨n, rfl, -⟩ := zero y hy
    rw [show num (natStr m) = m from ofDigits_natStr m, show num (natStr n) = n from ofDigits_natStr n] at hxy
    rw [hxy]
  · intro k hk
    obtain ⟨w, hw, rfl⟩ := List.mem_map.1 hk
    obtain ⟨n, rfl, h1, h2⟩ := zero w hw
    rw [show num (natStr n) = n from ofDigits_natStr n]
    exact ⟨h1, h2⟩

/-- **C167** (violated): antenna 0, which does not exist, is accepted after any other one. -/
theorem ant_zero_violated (isTime : Str → Bool) (isFloat : IsFloat) (n : Nat) (h1 : 1 ≤ n) (h2 : n ≤ 19) :
    Accepts anaRows "antList".toList (UVal.list ([n, 0].map natStr)).stored
      ∧ setItem isTime isFloat "antList".toList (UVal.list ([n, 0].map natStr)).stored = .ok (.list [.int n, .int 0])
      ∧ ¬Accepts anaRows "antList".toList (UVal.list ([0, n].map natStr)).stored := by
  refine ⟨(ant_numbers_accepted [n, 0]).2 ⟨n, [0], rfl, h1, ?_, ?_⟩, ?_, ?_⟩
  · intro k hk
    rcases List.mem_cons.1 hk with rfl | hk
    · exact h2
    · rw [List.mem_singleton.1 hk]; omega
  · rw [List.nodup_cons]
    exact ⟨by rw [List.mem_singleton]; omega, List.nodup_singleton _⟩
  · refine (ant_read isTime isFloat _ ([n, 0].map natStr) (by simp) ?_).trans ?_
    · intro w hw
      obtain ⟨k, -, rfl⟩ := List.mem_map.1 hw
      exact ⟨natStr_ne k, natStr_digits k⟩
    · show Except.ok (PVal.list [Item.int (num (natStr n)), Item.int (num (natStr 0))]) = _
      rw [show num (natStr n) = n from ofDigits_natStr n, show num (natStr 0) = 0 from ofDigits_natStr 0]
      rfl
  · intro h
    obtain ⟨k, m, e, hk, -⟩ := (ant_numbers_accepted [0, n]).1 h
    injection e with e1 e2
    omega

/-- **C167** (violated): an antenna is accepted twice if it is written once with a 0 in front, and read twice. -/
theorem ant_twice_violated (isTime : Str → Bool) (isFloat : IsFloat) (n : Nat) (h1 : 1 ≤ n) (h2 : n ≤ 9) :
    Accepts anaRows "antList".toList ('[' :: join ',' [natStr n, '0' :: natStr n] ++ [']'])
      ∧ setItem isTime isFloat "antList".toList ('[' :: join ',' [natStr n, '0' :: natStr n] ++ [']']) = .ok (.list [.int n, .int n]) := by
  have ha : AntText 1 (natStr n) := plain_text.2 ⟨h1, by omega⟩
  have hb : AntText 0 ('0' :: natStr n) := ⟨n, Nat.zero_le _, by omega, Or.inr ⟨h2, rfl⟩⟩
  refine ⟨(ant_list_accepted _).2 ⟨natStr n, ['0' :: natStr n], rfl, ha, ?_, ?_⟩, ?_⟩
  · intro x hx
    rw [List.mem_singleton.1 hx]
    exact hb
  · rw [List.nodup_cons]
    refine ⟨?_, List.nodup_singleton _⟩
    rw [List.mem_singleton]
    intro e
    exact absurd (congrArg List.length e) (by simp)
  · refine (ant_read isTime isFloat _ [natStr n, '0' :: natStr n] (by simp) ?_).trans ?_
    · intro w hw
      rcases List.mem_cons.1 hw with rfl | hw
      · exact ant_digits ha
      · rw [List.mem_singleton.1 hw]
        exact ant_digits hb
    · show Except.ok (PVal.list [Item.int (num (natStr n)), Item.int (num ('0' :: natStr n))]) = _
      rw [show num (natStr n) = n from ofDigits_natStr n, show num ('0' :: natStr n) = n from (by
        have : ∀ n : Nat, n < 10 → num ('0' :: natStr n) = n := by decide +kernel
        exact this n (by omega))]

/-- **C167** No range is accepted, unlike for the mini-arrays: only digits and commas come between the brackets. -/
theorem ant_range_refused (t : Str) (h : '.' ∈ t) : ¬Accepts anaRows "antList".toList t := by
  intro hc
  obtain ⟨a, l, rfl, ha, hl, -⟩ := (ant_list_accepted t).1 hc
  rcases List.mem_append.1 h with h | h
  · rcases List.mem_cons.1 h with h | h
    · exact absurd h (by decide)
    · rcases join_chars ',' _ _ h with e | ⟨s, hs, hcs⟩
      · exact absurd e (by decide)
      · have : ∀ c ∈ s, c.isDigit = true := by
          rcases List.mem_cons.1 hs with rfl | hs
          · exact (ant_digits ha).2
          · exact (ant_digits (hl s hs)).2
        exact absurd (this _ hcs) (by decide)
  · exact absurd (List.mem_singleton.1 h) (by decide)

/-! ## Concrete cases -/

/-- The default of the options is accepted, with an antenna twice it is not. -/
example : Accepts anaRows "antList".toList "[1,2,3,4,5,6,7,8,9,10,11,12,13,14,15,16,17,18,19]".toList :=
  (ant_numbers_accepted (List.range' 1 19)).2 ⟨1, List.range' 2 18, rfl, by omega, by decide, by decide⟩

example : ¬Accepts anaRows "antList".toList "[1,12,2,12]".toList := by
  intro h
  obtain ⟨n, m, -, -, -, hn⟩ := (ant_numbers_accepted [1, 12, 2, 12]).1 h
  exact absurd hn (by decide)

end Verif.Parset
