import Verif.Parset.Text

/-!
# Text of parset files: properties C29 and C30
-/

namespace Verif.Parset

/-! ## Helpers on text -/

theorem splitOn_none (c : Char) : ∀ s : Str, c ∉ s → splitOn c s = [s]
  | [], _ => rfl
  | x :: s, h => by
    have hx : x ≠ c := fun e => h (by simp [e])
    rw [splitOn, if_neg hx, splitOn_none c s (fun hc => h (List.mem_cons_of_mem _ hc))]; rfl

theorem splitOn_append (c : Char) : ∀ (s t : Str), c ∉ s → splitOn c (s ++ c :: t) = s :: splitOn c t
  | [], t, _ => by rw [List.nil_append, splitOn, if_pos rfl]
  | x :: s, t, h => by
    have hx : x ≠ c := fun e => h (by simp [e])
    rw [List.cons_append, splitOn, if_neg hx, splitOn_append c s t (fun hc => h (List.mem_cons_of_mem _ hc))]; rfl

/-- Splitting undoes joining. -/
theorem splitOn_join (c : Char) : ∀ l : List Str, l ≠ [] → (∀ s ∈ l, c ∉ s) → splitOn c (join c l) = l
  | [], h, _ => absurd rfl h
  | [s], _, h => by rw [join]; exact splitOn_none c s (h s (by simp))
  | s :: t :: l, _, h => by
    rw [join, splitOn_append c s _ (h s (by simp)), splitOn_join c (t :: l) (by simp) (fun x hx => h x (List.mem_cons_of_mem _ hx))]

theorem natStr_digits (n : Nat) : ∀ c ∈ natStr n, c.isDigit = true :=
  fun _ hc => Nat.isDigit_of_mem_toDigits (by norm_num) (by norm_num) hc

theorem natStr_ne (n : Nat) : natStr n ≠ [] := Nat.toDigits_ne_nil

theorem isDigits_natStr (n : Nat) : isDigits (natStr n) = true := by
  unfold isDigits
  rw [Bool.and_eq_true]
  refine ⟨?_, List.all_eq_true.mpr (natStr_digits n)⟩
  cases h : natStr n with
  | nil => exact absurd h (natStr_ne n)
  | cons a l => rfl

theorem notMem_natStr {c : Char} (h : c.isDigit = false) (n : Nat) : c ∉ natStr n := fun hc => by
  have := natStr_digits n c hc; rw [h] at this; cases this

theorem ofDigits_natStr (n : Nat) : Nat.ofDigitChars 10 (natStr n) 0 = n := Nat.ofDigitChars_ten_toDigits

theorem hasDots_none : ∀ s : Str, '.' ∉ s → hasDots s = false
  | [], _ => rfl
  | [_], _ => rfl
  | x :: y :: s, h => by
    have hx : x ≠ '.' := fun e => h (by simp [e])
    rw [hasDots, hasDots_none (y :: s) (fun hc => h (List.mem_cons_of_mem _ hc))]
    simp [hx]

theorem splitDots_none : ∀ s : Str, '.' ∉ s → splitDots s = [s]
  | [], _ => rfl
  | [_], _ => rfl
  | x :: y :: s, h => by
    have hx : x ≠ '.' := fun e => h (by simp [e])
    rw [splitDots, if_neg (fun hh => hx hh.1), splitDots_none (y :: s) (fun hc => h (List.mem_cons_of_mem _ hc))]; rfl

theorem splitDots_append : ∀ s t : Str, '.' ∉ s → splitDots (s ++ '.' :: '.' :: t) = s :: splitDots t
  | [], t, _ => by rw [List.nil_append, splitDots, if_pos ⟨rfl, rfl⟩]
  | [x], t, h => by
    have hx : x ≠ '.' := fun e => h (by simp [e])
    show splitDots (x :: '.' :: '.' :: t) = _
    rw [splitDots, if_neg (fun hh => hx hh.1), splitDots, if_pos ⟨rfl, rfl⟩]; rfl
  | x :: y :: s, t, h => by
    have hx : x ≠ '.' := fun e => h (by simp [e])
    show splitDots (x :: y :: (s ++ '.' :: '.' :: t)) = _
    have ih := splitDots_append (y :: s) t (fun hc => h (List.mem_cons_of_mem _ hc))
    rw [List.cons_append] at ih
    rw [splitDots, if_neg (fun hh => hx hh.1), ih]; rfl

theorem hasDots_append : ∀ s t : Str, hasDots (s ++ '.' :: '.' :: t) = true
  | [], t => by simp [hasDots]
  | [x], t => by
    show hasDots (x :: '.' :: '.' :: t) = true
    simp [hasDots]
  | x :: y :: s, t => by
    have ih := hasDots_append (y :: s) t
    rw [List.cons_append] at ih
    show hasDots (x :: y :: (s ++ '.' :: '.' :: t)) = true
    rw [hasDots, ih, Bool.or_true]

theorem digit_not_blank {c : Char} (h : c.isDigit = true) : isBlank c = false := by
  rw [Bool.eq_false_iff]
  intro hb
  unfold isBlank at hb
  simp only [Bool.or_eq_true, decide_eq_true_iff] at hb
  rcases hb with ((rfl | rfl) | rfl) | rfl <;> revert h <;> decide

theorem dropWhile_head {p : Char → Bool} : ∀ {s : Str}, (∀ c ∈ s, p c = false) → s.dropWhile p = s
  | [], _ => rfl
  | x :: s, h => by rw [List.dropWhile_cons_of_neg]; rw [h x (by simp)]; simp

theorem strip_digits {s : Str} (h : ∀ c ∈ s, c.isDigit = true) : strip s = s := by
  unfold strip
  rw [dropWhile_head (fun c hc => digit_not_blank (h c hc)),
    dropWhile_head (fun c hc => digit_not_blank (h c (List.mem_reverse.mp hc))), List.reverse_reverse]

theorem signed_digits {s : Str} (h : isDigits s = true) : signed s = .ok (Nat.ofDigitChars 10 s 0) := by
  cases s with
  | nil => simp [isDigits] at h
  | cons c s =>
    have hc : c.isDigit = true := by
      unfold isDigits at h; rw [Bool.and_eq_true] at h
      exact List.all_eq_true.mp h.2 c (by simp)
    have h1 : c ≠ '-' := by rintro rfl; revert hc; decide
    have h2 : c ≠ '+' := by rintro rfl; revert hc; decide
    unfold signed
    split
    · rename_i heq; injection heq with e; exact absurd e h1
    · rename_i heq; injection heq with e; exact absurd e h2
    · rw [if_pos h]

theorem pyInt_natStr (n : Nat) : pyInt (natStr n) = .ok (n : Int) := by
  unfold pyInt
  rw [strip_digits (natStr_digits n), signed_digits (isDigits_natStr n), ofDigits_natStr]

/-! ## C29 Lists of indices -/

/-- An element of a list of indices, as a user writes it. -/
inductive Idx
  | one (n : Nat)
  | range (a b : Nat)

/-- Its text. -/
def Idx.text : Idx → Str
  | .one n => natStr n
  | .range a b => natStr a ++ '.' :: '.' :: natStr b

/-- What it stands for: a single index, or all indices from `a` to `b` included. -/
def Idx.Stands (x : Idx) (l : List Nat) : Prop :=
  match x with
  | .one n => l = [n]
  | .range a b => l.Pairwise (· < ·) ∧ ∀ n, n ∈ l ↔ a ≤ n ∧ n ≤ b

/-- The indices, in order. -/
def Idx.indices : Idx → List Nat
  | .one n => [n]
  | .range a b => List.range' a (b + 1 - a)

theorem indices_stand (x : Idx) : x.Stands x.indices := by
  cases x with
  | one n => exact rfl
  | range a b =>
    refine ⟨List.pairwise_lt_range', fun n => ?_⟩
    show n ∈ List.range' a (b + 1 - a) ↔ _
    rw [List.mem_range'_1]; omega

/-- Text of a whole list. -/
def Idx.textAll (l : List Idx) : Str := '[' :: join ',' (l.map Idx.text) ++ [']']

theorem text_chars (x : Idx) : ∀ c ∈ x.text, c.isDigit = true ∨ c = '.' := by
  intro c hc
  cases x with
  | one n => exact Or.inl (natStr_digits n c hc)
  | range a b =>
    simp only [Idx.text, List.mem_append, List.mem_cons] at hc
    rcases hc with h | h | h | h
    · exact Or.inl (natStr_digits a c h)
    · exact Or.inr h
    · exact Or.inr h
    · exact Or.inl (natStr_digits b c h)

theorem notMem_text {c : Char} (h1 : c.isDigit = false) (h2 : c ≠ '.') (x : Idx) : c ∉ x.text := fun hc => by
  rcases text_chars x c hc with h | h
  · rw [h1] at h; cases h
  · exact h2 h

theorem pyRange_range (a b : Nat) : pyRange a b = (List.range' a (b + 1 - a)).map (fun n : Nat => (n : Int)) := by
  unfold pyRange
  have : ((b : Int) + 1 - a).toNat = b + 1 - a := by omega
  rw [this, List.range'_eq_map_range, List.map_map]
  refine List.map_congr_left (fun i _ => ?_)
  simp

theorem parseElem_text (isTime : Str → Bool) (x : Idx) : parseElem isTime x.text = .ok (x.indices.map (fun n : Nat => Item.int n)) := by
  cases x with
  | one n =>
    show parseElem isTime (natStr n) = _
    unfold parseElem
    rw [hasDots_none _ (notMem_natStr (by decide) n), if_neg (by simp), if_neg (notMem_natStr (by decide) n), if_pos (isDigits_natStr n), ofDigits_natStr]
    rfl
  | range a b =>
    show parseElem isTime (natStr a ++ '.' :: '.' :: natStr b) = _
    unfold parseElem
    rw [hasDots_append, if_pos rfl, splitDots_append _ _ (notMem_natStr (by decide) a), splitDots_none _ (notMem_natStr (by decide) b)]
    show (pyInt (natStr a)).bind _ = _
    rw [pyInt_natStr]
    show (pyInt (natStr b)).map _ = _
    rw [pyInt_natStr]
    show Except.ok ((pyRange a b).map Item.int) = _
    rw [pyRange_range, List.map_map]; rfl

theorem parseElems_text (isTime : Str → Bool) : ∀ l : List Idx, parseElems isTime (l.map Idx.text) = .ok ((l.flatMap Idx.indices).map (fun n : Nat => Item.int n))
  | [] => rfl
  | x :: l => by
    rw [List.map_cons, parseElems, parseElem_text]
    show (parseElems isTime (l.map Idx.text)).map _ = _
    rw [parseElems_text isTime l, List.flatMap_cons, List.map_append]; rfl

theorem join_chars (c : Char) : ∀ l : List Str, ∀ x ∈ join c l, x = c ∨ ∃ s ∈ l, x ∈ s
  | [], x, h => by simp [join] at h
  | [s], x, h => Or.inr ⟨s, by simp, h⟩
  | s :: t :: l, x, h => by
    rw [join, List.mem_append, List.mem_cons] at h
    rcases h with h | h | h
    · exact Or.inr ⟨s, by simp, h⟩
    · exact Or.inl h
    · rcases join_chars c (t :: l) x h with h | ⟨y, hy, hx⟩
      · exact Or.inl h
      · exact Or.inr ⟨y, List.mem_cons_of_mem _ hy, hx⟩

theorem clean_id {s : Str} (h1 : '\n' ∉ s) (h2 : '"' ∉ s) : clean s = s := by
  unfold clean
  rw [List.filter_eq_self]
  intro c hc
  have e1 : c ≠ '\n' := fun e => h1 (by rw [← e]; exact hc)
  have e2 : c ≠ '"' := fun e => h2 (by rw [← e]; exact hc)
  simp [e1, e2]

theorem setItem_list (isTime : Str → Bool) (isFloat : IsFloat) (key : Str) (body : Str) (h1 : '\n' ∉ body) (h2 : '"' ∉ body) :
    setItem isTime isFloat key ('[' :: body ++ [']']) = (parseElems isTime (splitOn ',' body)).map PVal.list := by
  unfold setItem
  have hc : clean ('[' :: body ++ [']']) = '[' :: body ++ [']'] := by
    apply clean_id
    · simp only [List.cons_append, List.mem_cons, List.mem_append, List.mem_nil_iff, or_false, not_or]
      exact ⟨by decide, h1, by decide⟩
    · simp only [List.cons_append, List.mem_cons, List.mem_append, List.mem_nil_iff, or_false, not_or]
      exact ⟨by decide, h2, by decide⟩
  rw [hc]
  rw [if_pos ⟨rfl, by rw [List.getLast?_append]; rfl⟩]
  congr 2
  simp

/-- A list of indices and ranges is read as exactly the indices it stands for, in order, for any key and any line end. -/
theorem list_read_exact (isTime : Str → Bool) (isFloat : IsFloat) (key : Str) (l : List Idx) (hl : l ≠ []) :
    setItem isTime isFloat key (Idx.textAll l ++ ['\n']) = .ok (.list ((l.flatMap Idx.indices).map (fun n : Nat => Item.int n))) := by
  have hbody : ∀ c : Char, c.isDigit = false → c ≠ '.' → c ≠ ',' → c ∉ join ',' (l.map Idx.text) := by
    intro c h1 h2 h3 hc
    rcases join_chars ',' _ c hc with h | ⟨s, hs, hcs⟩
    · exact h3 h
    · obtain ⟨x, -, rfl⟩ := List.mem_map.mp hs
      exact notMem_text h1 h2 x hcs
  have hn := hbody '\n' (by decide) (by decide) (by decide)
  have hq := hbody '"' (by decide) (by decide) (by decide)
  have key1 := setItem_list isTime isFloat key _ hn hq
  have hclean : clean (Idx.textAll l ++ ['\n']) = clean (Idx.textAll l) := by
    unfold clean; rw [List.filter_append]; simp
  have hset : setItem isTime isFloat key (Idx.textAll l ++ ['\n']) = setItem isTime isFloat key (Idx.textAll l) := by
    unfold setItem; rw [hclean]
  rw [hset]
  show setItem isTime isFloat key ('[' :: join ',' (l.map Idx.text) ++ [']']) = _
  rw [key1, splitOn_join ',' _ (by simpa using hl) ?_, parseElems_text]
  · rfl
  · intro s hs
    obtain ⟨x, -, rfl⟩ := List.mem_map.mp hs
    exact notMem_text (by decide) (by decide) x

example : (([Idx.range 2 4, Idx.one 7, Idx.range 5 3].flatMap Idx.indices) = [2, 3, 4, 7])
    ∧ String.ofList (Idx.textAll [Idx.range 2 4, Idx.one 17]) = "[2..4,17]" := by
  refine ⟨by decide, by decide +kernel⟩

/-- A list of indices written in a user file is read back as the same list. -/
theorem list_round_trip_partial (isTime : Str → Bool) (isFloat : IsFloat) (key : Str) (l : List Nat) (hl : l ≠ []) :
    setItem isTime isFloat key (listStr (l.map (fun n : Nat => (n : Int))) ++ ['\n']) = .ok (.list (l.map (fun n : Nat => Item.int n))) := by
  have h := list_read_exact isTime isFloat key (l.map Idx.one) (by simpa using hl)
  have e1 : Idx.textAll (l.map Idx.one) = listStr (l.map (fun n : Nat => (n : Int))) := by
    unfold Idx.textAll listStr; rw [List.map_map, List.map_map]; rfl
  have e2 : (l.map Idx.one).flatMap Idx.indices = l := by
    clear * -; induction l with
    | nil => rfl
    | cons a l ih => rw [List.map_cons, List.flatMap_cons, ih]; rfl
  rw [e1, e2] at h
  exact h

/-- An empty list is not read back as an empty list. -/
theorem empty_list_violated (isTime : Str → Bool) (isFloat : IsFloat) (key : Str) :
    setItem isTime isFloat key (listStr []) = .ok (.list [.str []]) := by
  show setItem isTime isFloat key ('[' :: [] ++ [']']) = _
  rw [setItem_list isTime isFloat key [] (by simp) (by simp)]
  rfl

/-- A negative number is read back as text, and so is a number after a blank. -/
theorem list_text_violated (isTime : Str → Bool) (isFloat : IsFloat) (key : Str) :
    setItem isTime isFloat key (listStr [3, -1]) = .ok (.list [.int 3, .str "-1".toList])
    ∧ setItem isTime isFloat key "[3, 4]".toList = .ok (.list [.int 3, .str " 4".toList]) := by
  have h1 : listStr [3, -1] = '[' :: "3,-1".toList ++ [']'] := by decide +kernel
  have h2 : "[3, 4]".toList = '[' :: "3, 4".toList ++ [']'] := by decide +kernel
  constructor
  · rw [h1, setItem_list _ _ _ _ (by decide) (by decide)]; rfl
  · rw [h2, setItem_list _ _ _ _ (by decide) (by decide)]; rfl

/-- A malformed range raises. -/
theorem bad_range (isTime : Str → Bool) (isFloat : IsFloat) (key : Str) : setItem isTime isFloat key "[1..2..3]".toList = .error .valueError := by
  have h1 : "[1..2..3]".toList = '[' :: "1..2..3".toList ++ [']'] := by decide +kernel
  rw [h1, setItem_list _ _ _ _ (by decide) (by decide)]; rfl

/-- Names lose their case when read. -/
theorem name_case_violated (isTime : Str → Bool) (isFloat : IsFloat) : setItem isTime isFloat "target".toList "Cas A".toList = .ok (.str "cas a".toList) := by
  rfl

/-- Durations in seconds are kept. -/
theorem duration_seconds_partial (isTime : Str → Bool) (isFloat : IsFloat) (n : Nat) :
    setItem isTime isFloat "duration".toList (natStr n ++ ['s']) = .ok (.str (natStr n ++ ['s'])) := by
  have hm : ∀ c : Char, c.isDigit = false → c ≠ 's' → c ∉ natStr n ++ ['s'] := by
    intro c h1 h2 hc
    rcases List.mem_append.mp hc with h | h
    · exact notMem_natStr h1 n h
    · exact h2 (by simpa using h)
  unfold setItem
  rw [clean_id (hm _ (by decide) (by decide)) (hm _ (by decide) (by decide))]
  have hhead : ∃ c t, natStr n = c :: t ∧ c.isDigit = true := by
    cases h : natStr n with
    | nil => exact absurd h (natStr_ne n)
    | cons c t => exact ⟨c, t, rfl, natStr_digits n c (by rw [h]; simp)⟩
  obtain ⟨c, t, hct, hc⟩ := hhead
  have hlow : Char.toLower c = c := by
    unfold Char.isDigit at hc
    unfold Char.toLower
    rw [Bool.and_eq_true, decide_eq_true_iff, decide_eq_true_iff] at hc
    have h2 := hc.2
    rw [dif_neg]
    rintro ⟨ha, -⟩
    have : (65 : UInt32) ≤ 57 := UInt32.le_trans ha h2
    revert this; decide
  have hlt : lower (natStr n ++ ['s']) = c :: lower (t ++ ['s']) := by
    rw [hct]; show Char.toLower c :: _ = _; rw [hlow]; rfl
  have d1 : c ≠ '[' := by rintro rfl; revert hc; decide
  have d2 : c ≠ 't' := by rintro rfl; revert hc; decide
  have d3 : c ≠ 'f' := by rintro rfl; revert hc; decide
  have e1 : ("true".toList : Str) = ['t', 'r', 'u', 'e'] := by decide
  have e2 : ("false".toList : Str) = ['f', 'a', 'l', 's', 'e'] := by decide
  rw [if_neg (by rw [hct]; simp [d1]), hlt, if_neg (by rw [e1]; simp [d2]), if_neg (by rw [e2]; simp [d3]), if_neg (by decide), if_pos (by decide)]
  congr 2
  unfold rstripS
  rw [List.reverse_append]
  show ((('s' :: (natStr n).reverse).dropWhile (· = 's')).reverse ++ ['s']) = _
  rw [List.dropWhile_cons_of_pos (by simp), dropWhile_head, List.reverse_reverse]
  intro x hx
  have := natStr_digits n x (List.mem_reverse.mp hx)
  have hx' : x ≠ 's' := by rintro rfl; revert this; decide
  simp [hx']

/-- Durations in minutes become something else: "60m" is stored as "60ms". -/
theorem duration_minutes_violated (isTime : Str → Bool) (isFloat : IsFloat) :
    setItem isTime isFloat "duration".toList "60m".toList = .ok (.str "60ms".toList) := by
  rfl

/-! ## C30 Consecutive runs -/

/-- Consecutive indices. -/
def Consecutive : List Int → Prop
  | [] => True
  | [_] => True
  | x :: y :: l => y = x + 1 ∧ Consecutive (y :: l)

/-- Two runs that follow each other could not be one: the second does not start right after the end of the first. -/
def Separated : List (List Int) → Prop
  | [] => True
  | [_] => True
  | g :: h :: r => (∃ x y, g.getLast? = some x ∧ h.head? = some y ∧ y ≠ x + 1) ∧ Separated (h :: r)

theorem runs_shape : ∀ (l : List Int) (x : Int), ∃ g r, runs (x :: l) = (x :: g) :: r ∧ (x :: g) ++ r.flatten = x :: l ∧ (∀ h ∈ runs (x :: l), h ≠ [] ∧ Consecutive h)
      ∧ Separated (runs (x :: l))
  | [], x => by
    refine ⟨[], [], rfl, rfl, ?_, trivial⟩
    intro h hh
    simp only [runs, List.mem_singleton] at hh
    subst hh
    exact ⟨by simp, trivial⟩
  | y :: l, x => by
    obtain ⟨g, r, h1, h2, h3, h4⟩ := runs_shape l y
    rw [runs]
    by_cases hxy : y = x + 1
    · rw [if_pos hxy, h1]
      refine ⟨y :: g, r, rfl, ?_, ?_, ?_⟩
      · rw [List.cons_append, h2]
      · intro h hh
        change h ∈ (x :: y :: g) :: r at hh
        rcases List.mem_cons.mp hh with rfl | hh
        · exact ⟨by simp, hxy, (h3 (y :: g) (by rw [h1]; simp)).2⟩
        · exact h3 h (by rw [h1]; exact List.mem_cons_of_mem _ hh)
      · rw [h1] at h4
        show Separated ((x :: y :: g) :: r)
        cases r with
        | nil => trivial
        | cons k r =>
          obtain ⟨⟨a, b, ha, hb, hab⟩, h5⟩ := h4
          exact ⟨⟨a, b, by rw [List.getLast?_cons_cons]; exact ha, hb, hab⟩, h5⟩
    · rw [if_neg hxy]
      refine ⟨[], runs (y :: l), rfl, ?_, ?_, ?_⟩
      · rw [h1, List.flatten_cons, h2]; rfl
      · intro h hh
        rcases List.mem_cons.mp hh with rfl | hh
        · exact ⟨by simp, trivial⟩
        · exact h3 h hh
      · rw [h1] at h4 ⊢
        exact ⟨⟨x, y, rfl, rfl, hxy⟩, h4⟩

/-- Grouping loses nothing and keeps the order; each run is made of consecutive indices, and runs are as long as possible. -/
theorem runs_exact (l : List Int) (hl : l ≠ []) :
    (runs l).flatten = l ∧ (∀ g ∈ runs l, g ≠ [] ∧ Consecutive g) ∧ Separated (runs l) := by
  cases l with
  | nil => exact absurd rfl hl
  | cons x l =>
    obtain ⟨g, r, h1, h2, h3, h4⟩ := runs_shape l x
    refine ⟨?_, h3, h4⟩
    rw [h1, List.flatten_cons, h2]

example : runs [1, 2, 3, 7, 8, 8, 10] = [[1, 2, 3], [7, 8], [8], [10]] := by decide

theorem consecutive_mem : ∀ (l : List Int) (x : Int), Consecutive (x :: l) → ∀ k, k ∈ x :: l ↔ x ≤ k ∧ k ≤ x + l.length
  | [], x, _, k => by simp; omega
  | y :: l, x, h, k => by
    rw [List.mem_cons, consecutive_mem l y h.2 k, h.1]
    simp only [List.length_cons]
    push_cast
    constructor
    · rintro (rfl | h) <;> omega
    · intro h
      by_cases hk : k = x
      · exact Or.inl hk
      · exact Or.inr (by omega)

theorem consecutive_last : ∀ (l : List Int) (x : Int), Consecutive (x :: l) → (x :: l).getLast (by simp) = x + l.length
  | [], x, _ => by simp
  | y :: l, x, h => by
    rw [List.getLast_cons (by simp), consecutive_last l y h.2, h.1]; simp only [List.length_cons]; push_cast; ring

theorem foldl_min : ∀ (l : List Int) (x : Int), (∀ y ∈ l, x ≤ y) → l.foldl min x = x
  | [], _, _ => rfl
  | y :: l, x, h => by
    rw [List.foldl_cons, min_eq_left (h y (by simp))]; exact foldl_min l x (fun z hz => h z (List.mem_cons_of_mem _ hz))

theorem foldl_max_con : ∀ (l : List Int) (x : Int), Consecutive (x :: l) → l.foldl max x = x + l.length
  | [], x, _ => by simp
  | y :: l, x, h => by
    rw [List.foldl_cons, max_eq_right (by rw [h.1]; omega), foldl_max_con l y h.2, h.1]; simp only [List.length_cons]; push_cast; ring

theorem minMax_con (l : List Int) (x : Int) (h : Consecutive (x :: l)) : minMax (x :: l) = .ok (x, x + l.length) := by
  show Except.ok (l.foldl min x, l.foldl max x) = _
  rw [foldl_min l x (fun y hy => ((consecutive_mem l x h y).mp (List.mem_cons_of_mem _ hy)).1), foldl_max_con l x h]

theorem width_pos : 0 < width := by unfold width; norm_num

/-- Width of a sub-band in kHz: 100 MHz in 512 parts. -/
def subbandWidth : ℚ := 100000 / 512

theorem width_exact : subbandWidth = width := by unfold subbandWidth width; norm_num

/-- Frequencies of sub-band `k`: half a width on both sides of `k` widths. -/
def InSubband (k : Int) (f : ℚ) : Prop := (k - 1 / 2) * subbandWidth ≤ f ∧ f < (k + 1 / 2) * subbandWidth

theorem group_freq (x : Int) (l : List Int) (h : Consecutive (x :: l)) (hr : ∀ k ∈ x :: l, 0 ≤ k ∧ k ≤ 511) :
    ∃ p, freqGroup (x :: l) = .ok p ∧ ∀ f, (p.1 ≤ f ∧ f < p.2) ↔ ∃ k ∈ x :: l, InSubband k f := by
  have hx := hr x (by simp)
  have hlast := hr (x + l.length) ((consecutive_mem l x h _).mpr ⟨by omega, le_rfl⟩)
  refine ⟨((x : ℚ) * width - width / 2, ((x + l.length : Int) : ℚ) * width - width / 2 + width), ?_, ?_⟩
  · unfold freqGroup
    rw [minMax_con l x h]
    show (sb2freq x).bind _ = _
    have e1 : sb2freq x = .ok (x * width - width / 2) := by unfold sb2freq; rw [if_neg (by omega)]
    have e2 : sb2freq (x + l.length) = .ok (((x + l.length : Int) : ℚ) * width - width / 2) := by unfold sb2freq; rw [if_neg (by omega)]
    rw [e1]
    show (sb2freq (x + l.length)).map _ = _
    rw [e2]; rfl
  · intro f
    have hw := width_pos
    unfold InSubband
    rw [width_exact]
    constructor
    · rintro ⟨h1, h2⟩
      simp only at h1 h2
      -- the sub-band of f
      have hk1 : ((⌊f / width + 1 / 2⌋ : Int) : ℚ) ≤ f / width + 1 / 2 := Int.floor_le _
      have hk2 : f / width + 1 / 2 < (⌊f / width + 1 / 2⌋ : Int) + 1 := Int.lt_floor_add_one _
      have hf : f = f / width * width := by field_simp
      generalize f / width = q at *
      generalize hk : ⌊q + 1 / 2⌋ = k at *
      refine ⟨k, ?_, ?_, ?_⟩
      · rw [consecutive_mem l x h]
        constructor
        · have : (x : ℚ) * width - width / 2 ≤ q * width := by rw [← hf]; exact h1
          have h3 : (x : ℚ) ≤ q + 1 / 2 := by
            have : ((x : ℚ) - 1 / 2) * width ≤ q * width := by linarith
            have := le_of_mul_le_mul_right this hw
            linarith
          rw [← hk]; exact Int.le_floor.mpr h3
        · have : q * width < ((x + l.length : Int) : ℚ) * width - width / 2 + width := by rw [← hf]; exact h2
          have h3 : q < ((x + l.length : Int) : ℚ) + 1 / 2 := by
            have : q * width < (((x + l.length : Int) : ℚ) + 1 / 2) * width := by linarith
            exact lt_of_mul_lt_mul_right this hw.le
          have h4 : (k : ℚ) < ((x + l.length + 1 : Int) : ℚ) := by push_cast at h3 ⊢; linarith
          have : k < x + l.length + 1 := by exact_mod_cast h4
          omega
      · rw [hf]; exact mul_le_mul_of_nonneg_right (by linarith) hw.le
      · rw [hf]; exact mul_lt_mul_of_pos_right (by linarith) hw
    · rintro ⟨k, hk, h1, h2⟩
      rw [consecutive_mem l x h] at hk
      have a1 : (x : ℚ) ≤ k := by exact_mod_cast hk.1
      have a2 : (k : ℚ) ≤ ((x + l.length : Int) : ℚ) := by exact_mod_cast hk.2
      constructor
      · show (x : ℚ) * width - width / 2 ≤ f
        have : ((x : ℚ) - 1 / 2) * width ≤ ((k : ℚ) - 1 / 2) * width := mul_le_mul_of_nonneg_right (by linarith) hw.le
        linarith
      · show f < ((x + l.length : Int) : ℚ) * width - width / 2 + width
        have : ((k : ℚ) + 1 / 2) * width ≤ (((x + l.length : Int) : ℚ) + 1 / 2) * width := mul_le_mul_of_nonneg_right (by linarith) hw.le
        linarith

theorem mapE_ok {α β : Type} (f : α → Except Err β) (P : α → β → Prop) : ∀ l : List α, (∀ x ∈ l, ∃ y, f x = .ok y ∧ P x y) →
    ∃ r, mapE f l = .ok r ∧ List.Forall₂ P l r
  | [], _ => ⟨[], rfl, List.Forall₂.nil⟩
  | x :: l, h => by
    obtain ⟨y, h1, h2⟩ := h x (by simp)
    obtain ⟨r, h3, h4⟩ := mapE_ok f P l (fun z hz => h z (List.mem_cons_of_mem _ hz))
    refine ⟨y :: r, ?_, List.Forall₂.cons h2 h4⟩
    rw [mapE, h1]
    show (mapE f l).map _ = _
    rw [h3]; rfl

theorem forall2_cover {α β : Type} {P : α → β → Prop} {Q : β → Prop} {R : α → Prop} (hPQ : ∀ a b, P a b → (Q b ↔ R a)) :
    ∀ {l : List α} {r : List β}, List.Forall₂ P l r → ((∃ b ∈ r, Q b) ↔ ∃ a ∈ l, R a)
  | _, _, .nil => by simp
  | _, _, .cons h1 h2 => by rw [List.exists_mem_cons_iff, List.exists_mem_cons_iff, hPQ _ _ h1, forall2_cover hPQ h2]

/-- The exported frequency intervals hold exactly the frequencies of the listed sub-bands, one interval for each run. -/
theorem frequency_exact (l : List Int) (hl : l ≠ []) (hr : ∀ k ∈ l, 0 ≤ k ∧ k ≤ 511) :
    ∃ r, frequencyDict l = .ok r ∧ r.length = (runs l).length ∧ ∀ f, (∃ p ∈ r, p.1 ≤ f ∧ f < p.2) ↔ ∃ k ∈ l, InSubband k f := by
  obtain ⟨hflat, hcon, -⟩ := runs_exact l hl
  obtain ⟨r, h1, h2⟩ := mapE_ok freqGroup (fun g p => ∀ f, (p.1 ≤ f ∧ f < p.2) ↔ ∃ k ∈ g, InSubband k f) (runs l) (by
    intro g hg
    obtain ⟨hne, hc⟩ := hcon g hg
    cases g with
    | nil => exact absurd rfl hne
    | cons x g =>
      exact group_freq x g hc (fun k hk => hr k (by rw [← hflat]; exact List.mem_flatten.mpr ⟨_, hg, hk⟩)))
  refine ⟨r, h1, h2.length_eq.symm, fun f => ?_⟩
  rw [forall2_cover (Q := fun p => p.1 ≤ f ∧ f < p.2) (R := fun g => ∃ k ∈ g, InSubband k f) (fun a b h => h f) h2]
  conv_rhs => rw [← hflat]
  constructor
  · rintro ⟨g, hg, k, hk, h⟩; exact ⟨k, List.mem_flatten.mpr ⟨g, hg, hk⟩, h⟩
  · rintro ⟨k, hk, h⟩
    obtain ⟨g, hg, hk⟩ := List.mem_flatten.mp hk
    exact ⟨g, hg, k, hk, h⟩

example : frequencyDict [10, 11, 20] = .ok [(10 * width - width / 2, 12 * width - width / 2), (20 * width - width / 2, 21 * width - width / 2)] := by decide +kernel

/-- Groups of mini-arrays hold exactly the listed mini-arrays. -/
theorem miniarrays_exact (l : List Int) (hl : l ≠ []) :
    ∃ r, miniarrayDict l = .ok r ∧ r.length = (runs l).length ∧ ∀ k, (∃ p ∈ r, p.1 ≤ k ∧ k ≤ p.2) ↔ k ∈ l := by
  obtain ⟨hflat, hcon, -⟩ := runs_exact l hl
  obtain ⟨r, h1, h2⟩ := mapE_ok endsOf (fun g p => ∀ k, (p.1 ≤ k ∧ k ≤ p.2) ↔ k ∈ g) (runs l) (by
    intro g hg
    obtain ⟨hne, hc⟩ := hcon g hg
    cases g with
    | nil => exact absurd rfl hne
    | cons x g =>
      refine ⟨_, rfl, fun k => ?_⟩
      rw [consecutive_mem g x hc k]
      show x ≤ k ∧ k ≤ (x :: g).getLast _ ↔ _
      rw [consecutive_last g x hc])
  refine ⟨r, h1, h2.length_eq.symm, fun k => ?_⟩
  rw [forall2_cover (Q := fun p => p.1 ≤ k ∧ k ≤ p.2) (R := fun g => k ∈ g) (fun a b h => h k) h2]
  conv_rhs => rw [← hflat]
  rw [List.mem_flatten]

/-- An empty list of sub-bands, or a sub-band outside 0..511, raises. -/
theorem frequency_errors : frequencyDict [] = .error .valueError ∧ frequencyDict [600] = .error .valueError ∧ miniarrayDict [] = .error .indexError := by
  decide +kernel

/-! ## Durations and angles -/

/-- A duration written as a number and a unit is read in seconds. -/
theorem duration_exact (n : Nat) (rest : Str) : getDuration (natStr n ++ 's' :: rest) = .ok n ∧ getDuration (natStr n ++ 'm' :: rest) = .ok (n * 60)
    ∧ getDuration (natStr n ++ 'h' :: rest) = .ok (n * 3600) := by
  have tk : ∀ c : Char, c.isDigit = false → (natStr n ++ c :: rest).takeWhile Char.isDigit = natStr n ∧ (natStr n ++ c :: rest).dropWhile Char.isDigit = c :: rest := by
    intro c hc
    have hd := natStr_digits n
    generalize natStr n = s at hd
    induction s with
    | nil => simp [hc]
    | cons a s ih =>
      have ha := hd a (by simp)
      obtain ⟨i1, i2⟩ := ih (fun x hx => hd x (List.mem_cons_of_mem _ hx))
      rw [List.cons_append, List.takeWhile_cons_of_pos ha, List.dropWhile_cons_of_pos ha, i1, i2]
      exact ⟨rfl, rfl⟩
  have main : ∀ (c : Char) (k : Nat), c.isDigit = false → unitSeconds c = some k → getDuration (natStr n ++ c :: rest) = .ok (n * k) := by
    intro c k hc hk
    unfold getDuration
    obtain ⟨i1, i2⟩ := tk c hc
    rw [i1, i2]
    show (match (some c).bind unitSeconds with | none => _ | some k => _) = _
    rw [Option.bind_some, hk]
    show (if natStr n = [] then _ else _) = _
    rw [if_neg (natStr_ne n), ofDigits_natStr]
  exact ⟨by rw [main 's' 1 (by decide) rfl, Nat.mul_one], main 'm' 60 (by decide) rfl, main 'h' 3600 (by decide) rfl⟩

/-- A duration read from a file in minutes ("60ms") counts as minutes again. -/
theorem duration_restored : getDuration "60ms".toList = .ok 3600 ∧ getDuration "ms".toList = .error .attributeError := by decide +kernel

/-- Angles are brought between the bounds, and not changed when they already are. -/
theorem angle_clipped (a lo hi : ℚ) (h : lo ≤ hi) : (lo ≤ constrainAngle a lo hi ∧ constrainAngle a lo hi ≤ hi) ∧ (lo ≤ a → a ≤ hi → constrainAngle a lo hi = a) := by
  unfold constrainAngle
  refine ⟨?_, fun h1 h2 => by rw [if_neg (not_lt.mpr h1), if_neg (not_lt.mpr h2)]⟩
  split_ifs <;> constructor <;> linarith

/-- Azimuths are not wrapped: a pointing moved past 360°, by less than a turn, stays at 360° instead of the same direction. -/
theorem angle_wrap_violated (a : ℚ) (h1 : 360 < a) (h2 : a < 720) : constrainAngle a 0 360 = 360 ∧ ∀ n : Int, (360 : ℚ) ≠ a + 360 * n := by
  refine ⟨?_, fun n h => ?_⟩
  · unfold constrainAngle
    rw [if_neg (by linarith), if_pos h1]
  · have h3 : (-1 : ℚ) < n := by linarith
    have h4 : (n : ℚ) < 0 := by linarith
    have h5 : -1 < n := by exact_mod_cast h3
    have h6 : n < 0 := by exact_mod_cast h4
    omega

example : constrainAngle 365 0 360 = 360 := (angle_wrap_violated 365 (by norm_num) (by norm_num)).1

end Verif.Parset
