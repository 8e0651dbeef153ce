import Verif.Parset.PropsLists
import Verif.Parset.PropsText

/-!
# C99: lists of mini-arrays and of sub-bands accepted by the validation, and what is read of them
-/

namespace Verif.Parset

theorem ma_pattern : (synOf anaRows "maList".toList).bind compile = some (false, listRe maNum maNum) := by decide +kernel

theorem sb_pattern : (synOf beamRows "subbandList".toList).bind compile = some (false, listRe sbFirst sbNext) := by decide +kernel

theorem pc_pattern : synOf pcRows "subbandList".toList = synOf beamRows "subbandList".toList := by decide +kernel

/-- Does the validation accept the text `t` for the property `k` of a block? (`none`: nothing is asked.) -/
def Accepts (rows : List Row) (k t : Str) : Prop := checkField rows ⟨k, t, true, true⟩ = .ok true

theorem accepts_of {rows : List Row} {k : Str} {r : Re} (h : (synOf rows k).bind compile = some (false, r)) (hp : r.plain = true) (t : Str) :
    Accepts rows k t ↔ Reads false r none t [] := by
  obtain ⟨p, hs, hc⟩ := Option.bind_eq_some_iff.1 h
  unfold Accepts checkField
  simp only [hs, Option.elim_some, if_true, fullmatchText, hc, Except.ok.injEq]
  exact fullmatch_iff _ r hp t

theorem join_comma : ∀ (e : Elem) (l : List Elem), join ',' ((e :: l).map Elem.text) = e.text ++ commaText l
  | e, [] => by simp [join, commaText]
  | e, x :: l => by
    rw [List.map_cons, List.map_cons, join, ← List.map_cons, join_comma x l]
    simp [commaText]

/-- The numbers of mini-arrays. -/
def IsMA (n : Nat) : Prop := n ≤ 95 ∨ (100 ≤ n ∧ n ≤ 107)

/-- All the numbers which are written satisfy `P`. -/
def Idx.All (P : Nat → Prop) : Idx → Prop
  | .one n => P n
  | .range a b => P a ∧ P b

/-- The lists of mini-arrays which are accepted are exactly the non-empty lists of numbers and ranges between brackets, whose numbers are those of mini-arrays. -/
theorem ma_list_accepted (t : Str) : Accepts anaRows "maList".toList t ↔ ∃ l : List Idx, l ≠ [] ∧ t = Idx.textAll l ∧ ∀ x ∈ l, x.All IsMA := by
  rw [accepts_of ma_pattern (by decide) t, list_syntax (free_of_simple maNum (by decide)) (free_of_simple maNum (by decide))]
  have to_idx : ∀ e : Elem, e.Ok (fun w => Reads false maNum none w []) (fun w => Reads false maNum none w []) → ∃ x : Idx, x.text = e.text ∧ x.All IsMA := by
    rintro (a | ⟨a, b⟩) he
    · obtain ⟨n, hn, rfl⟩ := (maNum_iff a).1 he
      exact ⟨.one n, rfl, hn⟩
    · obtain ⟨n, hn, rfl⟩ := (maNum_iff a).1 he.1
      obtain ⟨m, hm, rfl⟩ := (maNum_iff b).1 he.2
      exact ⟨.range n m, rfl, hn, hm⟩
  have of_idx : ∀ x : Idx, x.All IsMA → ∃ e : Elem, e.Ok (fun w => Reads false maNum none w []) (fun w => Reads false maNum none w []) ∧ e.text = x.text := by
    rintro (n | ⟨n, m⟩) hx
    · exact ⟨.one (natStr n), (maNum_iff _).2 ⟨n, hx, rfl⟩, rfl⟩
    · exact ⟨.range (natStr n) (natStr m), ⟨(maNum_iff _).2 ⟨n, hx.1, rfl⟩, (maNum_iff _).2 ⟨m, hx.2, rfl⟩⟩, rfl⟩
  have to_all : ∀ l : List Elem, (∀ e ∈ l, e.Ok (fun w => Reads false maNum none w []) (fun w => Reads false maNum none w [])) → ∃ m : List Idx, m.map Idx.text = l.map Elem.text ∧ ∀ x ∈ m, x.All IsMA := by
    intro l
    induction l with
    | nil => exact fun _ => ⟨[], rfl, fun x hx => by cases hx⟩
    | cons e l ih =>
      intro h
      obtain ⟨m, h1, h2⟩ := ih fun e he => h e (List.mem_cons_of_mem _ he)
      obtain ⟨x, hx, hx'⟩ := to_idx e (h e List.mem_cons_self)
      refine ⟨x :: m, by rw [List.map_cons, List.map_cons, h1, hx], ?_⟩
      intro y hy
      rcases List.mem_cons.1 hy with rfl | hy
      · exact hx'
      · exact h2 y hy
  have of_all : ∀ m : List Idx, (∀ x ∈ m, x.All IsMA) → ∃ l : List Elem, (∀ e ∈ l, e.Ok (fun w => Reads false maNum none w []) (fun w => Reads false maNum none w [])) ∧ l.map Elem.text = m.map Idx.text := by
    intro m
    induction m with
    | nil => exact fun _ => ⟨[], (fun x hx => by cases hx), rfl⟩
    | cons x m ih =>
      intro h
      obtain ⟨l, h1, h2⟩ := ih fun e he => h e (List.mem_cons_of_mem _ he)
      obtain ⟨e, he, he'⟩ := of_idx x (h x List.mem_cons_self)
      refine ⟨e :: l, ?_, by rw [List.map_cons, List.map_cons, h2, he']⟩
      intro y hy
      rcases List.mem_cons.1 hy with rfl | hy
      · exact he
      · exact h1 y hy
  constructor
  · rintro ⟨e, l, he, hl, rfl⟩
    obtain ⟨m, h1, h2⟩ := to_all (e :: l) (fun y hy => by
      rcases List.mem_cons.1 hy with rfl | hy
      · exact he
      · exact hl y hy)
    refine ⟨m, ?_, ?_, h2⟩
    · rintro rfl; simp at h1
    · rw [Idx.textAll, h1, join_comma]
  · rintro ⟨m, hm, rfl, hall⟩
    obtain ⟨l, h1, h2⟩ := of_all m hall
    cases l with
    | nil =>
      have := congrArg List.length h2
      cases m with
      | nil => exact absurd rfl hm
      | cons x m => simp at this
    | cons e l => exact ⟨e, l, h1 e List.mem_cons_self, fun x hx => h1 x (List.mem_cons_of_mem _ hx), by rw [Idx.textAll, ← h2, join_comma]⟩

/-- An accepted list of mini-arrays is read as the indices it stands for; none is above 107. -/
theorem ma_list_read (isTime : Str → Bool) (isFloat : IsFloat) (t : Str) (h : Accepts anaRows "maList".toList t) :
    ∃ l : List Nat, setItem isTime isFloat "maList".toList (t ++ ['\n']) = .ok (.list (l.map fun n : Nat => Item.int n)) ∧ ∀ n ∈ l, n ≤ 107 := by
  obtain ⟨l, h1, rfl, h2⟩ := (ma_list_accepted t).1 h
  refine ⟨_, list_read_exact isTime isFloat _ l h1, ?_⟩
  intro n hn
  obtain ⟨x, hx, hn⟩ := List.mem_flatMap.1 hn
  have hx := h2 x hx
  cases x with
  | one k =>
    rw [Idx.indices, List.mem_singleton] at hn
    have : IsMA k := hx
    unfold IsMA at this
    omega
  | range a b =>
    rw [Idx.indices, List.mem_range'_1] at hn
    have := hx.2
    unfold IsMA at this
    omega

/-- Lists without a range over the gap are read as numbers of mini-arrays only. -/
theorem ma_list_partial (isTime : Str → Bool) (isFloat : IsFloat) (l : List Idx) (hl : l ≠ [])
    (h : ∀ x ∈ l, x.All IsMA ∧ ∀ a b, x = .range a b → (a ≤ 95 ↔ b ≤ 95)) :
    Accepts anaRows "maList".toList (Idx.textAll l) ∧
    ∃ r : List Nat, setItem isTime isFloat "maList".toList (Idx.textAll l ++ ['\n']) = .ok (.list (r.map fun n : Nat => Item.int n)) ∧ ∀ n ∈ r, IsMA n := by
  refine ⟨(ma_list_accepted _).2 ⟨l, hl, rfl, fun x hx => (h x hx).1⟩, _, list_read_exact isTime isFloat _ l hl, ?_⟩
  intro n hn
  obtain ⟨x, hx, hn⟩ := List.mem_flatMap.1 hn
  obtain ⟨h1, h2⟩ := h x hx
  cases x with
  | one k =>
    rw [Idx.indices, List.mem_singleton] at hn
    rw [hn]; exact h1
  | range a b =>
    rw [Idx.indices, List.mem_range'_1] at hn
    have := h1.1
    have := h1.2
    have := h2 a b rfl
    unfold IsMA at *
    omega

example : Accepts anaRows "maList".toList "[0..95,100,103..107]".toList :=
  (ma_list_accepted _).2 ⟨[.range 0 95, .one 100, .range 103 107], by simp, by decide +kernel, by simp [Idx.All, IsMA]⟩

/-- Any list with a range over the gap is accepted, and read with the number of no mini-array. -/
theorem ma_list_violated (isTime : Str → Bool) (isFloat : IsFloat) (l : List Idx) (h : ∀ x ∈ l, x.All IsMA) (a b : Nat) (hab : .range a b ∈ l) (ha : a ≤ 95)
    (hb : 100 ≤ b) : Accepts anaRows "maList".toList (Idx.textAll l) ∧
    ∃ r : List Nat, setItem isTime isFloat "maList".toList (Idx.textAll l ++ ['\n']) = .ok (.list (r.map fun n : Nat => Item.int n)) ∧ 97 ∈ r ∧ ¬IsMA 97 := by
  have hl : l ≠ [] := List.ne_nil_of_mem hab
  refine ⟨(ma_list_accepted _).2 ⟨l, hl, rfl, h⟩, _, list_read_exact isTime isFloat _ l hl, ?_, by unfold IsMA; omega⟩
  refine List.mem_flatMap.2 ⟨_, hab, ?_⟩
  rw [Idx.indices, List.mem_range'_1]
  omega

example : Idx.textAll [.range 95 100] = "[95..100]".toList ∧ ∀ x ∈ [Idx.range 95 100], x.All IsMA := ⟨by decide +kernel, by simp [Idx.All, IsMA]⟩

/-- A range written backwards is accepted and read as no mini-array at all. -/
theorem ma_list_empty_violated (isTime : Str → Bool) (isFloat : IsFloat) (a b : Nat) (ha : IsMA a) (hb : IsMA b) (h : b < a) :
    Accepts anaRows "maList".toList (Idx.textAll [.range a b]) ∧
    setItem isTime isFloat "maList".toList (Idx.textAll [.range a b] ++ ['\n']) = .ok (.list []) := by
  refine ⟨(ma_list_accepted _).2 ⟨[.range a b], by simp, rfl, by simpa [Idx.All] using ⟨ha, hb⟩⟩, ?_⟩
  rw [list_read_exact isTime isFloat _ _ (by simp)]
  have : b + 1 - a = 0 := by omega
  simp [Idx.indices, this]

/-! ## Sub-bands -/

/-- Text of a list of elements. -/
def Elem.textAll (l : List Elem) : Str := '[' :: join ',' (l.map Elem.text) ++ [']']

/-- The lists of sub-bands which are accepted: numbers and ranges, each number being at most 511 with at most three digits, and none but the first being a lone 0. -/
theorem sb_list_accepted (t : Str) : Accepts beamRows "subbandList".toList t ↔
    ∃ (e : Elem) (l : List Elem), t = Elem.textAll (e :: l) ∧ e.Ok Sub (fun w => Sub w ∧ w ≠ ['0']) ∧ ∀ x ∈ l, x.Ok (fun w => Sub w ∧ w ≠ ['0']) (fun w => Sub w ∧ w ≠ ['0']) := by
  have hA : Free false sbFirst Sub := fun p w rest => (free_of_simple sbFirst (by decide) p w rest).trans (sbFirst_iff w)
  have hB : Free false sbNext (fun w => Sub w ∧ w ≠ ['0']) := fun p w rest => (free_of_simple sbNext (by decide) p w rest).trans (sbNext_iff w)
  rw [accepts_of sb_pattern (by decide) t, list_syntax hA hB]
  constructor
  · rintro ⟨e, l, he, hl, rfl⟩
    exact ⟨e, l, by rw [Elem.textAll, join_comma], he, hl⟩
  · rintro ⟨e, l, rfl, he, hl⟩
    exact ⟨e, l, he, hl, by rw [Elem.textAll, join_comma]⟩

/-- The same is asked of phase centers. -/
theorem pc_list_accepted (t : Str) : Accepts pcRows "subbandList".toList t ↔ Accepts beamRows "subbandList".toList t := by
  unfold Accepts checkField
  simp only [pc_pattern]

/-- Number of a text of digits. -/
def num (w : Str) : Nat := Nat.ofDigitChars 10 w 0

/-- Indices of an element. -/
def Elem.indices : Elem → List Nat
  | .one a => [num a]
  | .range a b => List.range' (num a) (num b + 1 - num a)

theorem sub_digits {w : Str} (h : Sub w) : isDigits w = true := by
  unfold isDigits
  have : w ≠ [] := by rintro rfl; exact absurd h.2.1 (by simp)
  rw [Bool.and_eq_true, List.all_eq_true]
  exact ⟨by cases w with | nil => exact absurd rfl this | cons => rfl, h.1⟩

theorem sub_notMem {w : Str} (h : Sub w) {c : Char} (hc : c.isDigit = false) : c ∉ w := fun hm => by
  have := h.1 c hm
  rw [hc] at this; cases this

theorem sub_int {w : Str} (h : Sub w) : pyInt w = .ok (num w : Int) := by
  unfold pyInt
  rw [strip_digits h.1, signed_digits (sub_digits h)]; rfl

theorem sub_elem (isTime : Str → Bool) (e : Elem) (h : e.Ok Sub Sub) : parseElem isTime e.text = .ok (e.indices.map (fun n : Nat => Item.int n)) := by
  cases e with
  | one a =>
    have h : Sub a := h
    show parseElem isTime a = _
    unfold parseElem
    rw [hasDots_none _ (sub_notMem h (by decide)), if_neg (by simp), if_neg (sub_notMem h (by decide)), if_pos (sub_digits h)]
    rfl
  | range a b =>
    obtain ⟨ha, hb⟩ := h
    show parseElem isTime (a ++ '.' :: '.' :: b) = _
    unfold parseElem
    rw [hasDots_append, if_pos rfl, splitDots_append _ _ (sub_notMem ha (by decide)), splitDots_none _ (sub_notMem hb (by decide))]
    show (pyInt a).bind _ = _
    rw [sub_int ha]
    show (pyInt b).map _ = _
    rw [sub_int hb]
    show Except.ok ((pyRange (num a) (num b)).map Item.int) = _
    rw [pyRange_range, List.map_map]; rfl

theorem sub_elems (isTime : Str → Bool) : ∀ l : List Elem, (∀ e ∈ l, e.Ok Sub Sub) → parseElems isTime (l.map Elem.text) = .ok ((l.flatMap Elem.indices).map (fun n : Nat => Item.int n))
  | [], _ => rfl
  | x :: l, h => by
    rw [List.map_cons, parseElems, sub_elem isTime x (h x List.mem_cons_self)]
    show (parseElems isTime (l.map Elem.text)).map _ = _
    rw [sub_elems isTime l (fun e he => h e (List.mem_cons_of_mem _ he)), List.flatMap_cons, List.map_append]; rfl

theorem elem_notMem {e : Elem} (h : e.Ok Sub Sub) {c : Char} (hc : c.isDigit = false) (hd : c ≠ '.') : c ∉ e.text := by
  cases e with
  | one a => exact sub_notMem (w := a) h hc
  | range a b =>
    simp only [Elem.text, List.mem_append, List.mem_cons, not_or]
    exact ⟨sub_notMem h.1 hc, hd, hd, sub_notMem h.2 hc⟩

/-- Lists of sub-band numbers of at most three digits are read as the indices they stand for. -/
theorem sb_list_read (isTime : Str → Bool) (isFloat : IsFloat) (key : Str) (l : List Elem) (hl : l ≠ []) (h : ∀ e ∈ l, e.Ok Sub Sub) :
    setItem isTime isFloat key (Elem.textAll l ++ ['\n']) = .ok (.list ((l.flatMap Elem.indices).map fun n : Nat => Item.int n)) := by
  have hbody : ∀ c : Char, c.isDigit = false → c ≠ '.' → c ≠ ',' → c ∉ join ',' (l.map Elem.text) := by
    intro c h1 h2 h3 hc
    rcases join_chars ',' _ c hc with h' | ⟨s, hs, hcs⟩
    · exact h3 h'
    · obtain ⟨x, hx, rfl⟩ := List.mem_map.mp hs
      exact elem_notMem (h x hx) h1 h2 hcs
  have hn := hbody '\n' (by decide) (by decide) (by decide)
  have hq := hbody '"' (by decide) (by decide) (by decide)
  have key1 := setItem_list isTime isFloat key _ hn hq
  have hclean : clean (Elem.textAll l ++ ['\n']) = clean (Elem.textAll l) := by
    unfold clean; rw [List.filter_append]; simp
  have hset : setItem isTime isFloat key (Elem.textAll l ++ ['\n']) = setItem isTime isFloat key (Elem.textAll l) := by
    unfold setItem; rw [hclean]
  rw [hset]
  show setItem isTime isFloat key ('[' :: join ',' (l.map Elem.text) ++ [']']) = _
  rw [key1, splitOn_join ',' _ (by simpa using hl) ?_, sub_elems isTime l h]
  · rfl
  · intro s hs
    obtain ⟨x, hx, rfl⟩ := List.mem_map.mp hs
    exact elem_notMem (h x hx) (by decide) (by decide)

/-- Every accepted list of sub-bands is read as a list of sub-bands, all between 0 and 511. -/
theorem sb_list_in_band (isTime : Str → Bool) (isFloat : IsFloat) (t : Str) (h : Accepts beamRows "subbandList".toList t) :
    ∃ l : List Nat, setItem isTime isFloat "subbandList".toList (t ++ ['\n']) = .ok (.list (l.map fun n : Nat => Item.int n)) ∧ ∀ n ∈ l, n ≤ 511 := by
  obtain ⟨e, l, rfl, he, hl⟩ := (sb_list_accepted t).1 h
  have hall : ∀ x ∈ e :: l, x.Ok Sub Sub := by
    intro x hx
    rcases List.mem_cons.1 hx with rfl | hx
    · cases x with
      | one a => exact he
      | range a b => exact ⟨he.1, he.2.1⟩
    · have := hl x hx
      cases x with
      | one a => exact this.1
      | range a b => exact ⟨this.1.1, this.2.1⟩
  refine ⟨_, sb_list_read isTime isFloat _ _ (by simp) hall, ?_⟩
  intro n hn
  obtain ⟨x, hx, hn⟩ := List.mem_flatMap.1 hn
  have hx := hall x hx
  cases x with
  | one a =>
    rw [Elem.indices, List.mem_singleton] at hn
    have : Sub a := hx
    rw [hn]; exact this.2.2.2
  | range a b =>
    rw [Elem.indices, List.mem_range'_1] at hn
    have h2 : num b ≤ 511 := hx.2.2.2.2
    omega

example : Accepts beamRows "subbandList".toList "[0..99,200,300..511]".toList := by
  refine (sb_list_accepted _).2 ⟨.range ['0'] ['9', '9'], [.one ['2', '0', '0'], .range ['3', '0', '0'] ['5', '1', '1']], by decide +kernel, ?_, ?_⟩
  · exact ⟨by unfold Sub; decide, by unfold Sub; decide, by decide⟩
  · intro x hx
    simp only [List.mem_cons, List.not_mem_nil, or_false] at hx
    rcases hx with rfl | rfl
    · exact ⟨by unfold Sub; decide, by decide⟩
    · exact ⟨⟨by unfold Sub; decide, by decide⟩, by unfold Sub; decide, by decide⟩

/-- Sub-band 0 is refused after the first place: the order of a list matters. -/
theorem sb_zero_violated : Accepts beamRows "subbandList".toList "[0,5]".toList ∧ ¬Accepts beamRows "subbandList".toList "[5,0]".toList := by
  constructor
  · refine (sb_list_accepted _).2 ⟨.one ['0'], [.one ['5']], by decide +kernel, ?_, ?_⟩
    · show Sub ['0']; unfold Sub; decide
    · intro x hx
      rw [List.mem_singleton.1 hx]
      exact ⟨by unfold Sub; decide, by decide⟩
  · unfold Accepts; decide +kernel

end Verif.Parset
