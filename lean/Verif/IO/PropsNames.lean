import Mathlib.Data.List.Infix
import Verif.IO.Names

/-!
# Properties of the names of files

C186: a file is taken exactly if its name has the form which is documented, the lane read in it is the one written there, and files exported from
different parset files are not confused.
-/

namespace Verif.IO.Names

/-! ## Lanes -/

theorem laneHere_some (u : Txt) (d : Char) :
    laneHere u = some d ↔ ∃ c t, u = '_' :: d :: c :: t ∧ d.isDigit = true ∧ c ≠ '\n' ∧ (t = "spectra".toList ∨ t = "spectra\n".toList) := by
  constructor
  · intro h
    unfold laneHere at h
    split at h
    · rename_i e c t
      split_ifs at h with hc
      injection h with h
      subst h
      exact ⟨c, t, rfl, hc⟩
    · cases h
  · rintro ⟨c, t, rfl, h⟩
    show (if _ then some d else none) = _
    rw [if_pos h]

theorem laneFound_cons (a : Char) (s : Txt) : laneFound (a :: s) = (laneHere (a :: s)).toList ++ laneFound s := by
  unfold laneFound
  rw [List.tails_cons]
  cases h : laneHere (a :: s) with
  | none => rw [List.filterMap_cons_none h]; rfl
  | some d => rw [List.filterMap_cons_some h]; rfl

theorem laneHere_first {a : Char} (h : a ≠ '_') (s : Txt) : laneHere (a :: s) = none := by
  cases e : laneHere (a :: s) with
  | none => rfl
  | some d =>
    obtain ⟨c, t, h1, _⟩ := (laneHere_some _ _).1 e
    injection h1 with h1
    exact absurd h1 h

theorem found_tail {a : Char} {s : Txt} {d : Char} (h : laneHere (a :: s) = some d) : laneFound s = [] := by
  obtain ⟨c, t, h1, hd, hc, ht⟩ := (laneHere_some _ _).1 h
  injection h1 with h1 h2
  subst h2
  have hd' : d ≠ '_' := by rintro rfl; exact absurd hd (by decide)
  rw [laneFound_cons, laneHere_first hd', laneFound_cons]
  have h3 : laneHere (c :: t) = none := by
    cases e : laneHere (c :: t) with
    | none => rfl
    | some x =>
      obtain ⟨c', t', e1, e2, _⟩ := (laneHere_some _ _).1 e
      injection e1 with _ e1
      rcases ht with ht | ht
      · rw [ht] at e1
        injection e1 with e1
        rw [← e1] at e2
        exact absurd e2 (by decide)
      · rw [ht] at e1
        injection e1 with e1
        rw [← e1] at e2
        exact absurd e2 (by decide)
  rw [h3]
  rcases ht with ht | ht <;> rw [ht] <;> decide

theorem found_of (p : Txt) (a : Char) (s : Txt) (d : Char) (h : laneHere (a :: s) = some d) : laneFound (p ++ a :: s) = [d] := by
  induction p with
  | nil => rw [List.nil_append, laneFound_cons, h, found_tail h]; rfl
  | cons b p ih =>
    rw [List.cons_append, laneFound_cons, ih]
    cases e : laneHere (b :: (p ++ a :: s)) with
    | none => rfl
    | some x =>
      have := found_tail e
      rw [ih] at this
      cases this

theorem found_iff (l : Txt) (d : Char) : laneFound l = [d] ↔ ∃ p u, l = p ++ u ∧ laneHere u = some d := by
  constructor
  · intro h
    have : d ∈ laneFound l := by rw [h]; exact List.mem_singleton_self d
    obtain ⟨u, hu, e⟩ := List.mem_filterMap.1 this
    obtain ⟨p, hp⟩ := (List.mem_tails _ _).1 hu
    exact ⟨p, u, hp.symm, e⟩
  · rintro ⟨p, u, rfl, e⟩
    cases u with
    | nil => cases e
    | cons a s => exact found_of p a s d e

theorem digit_iff (d : Char) (n : Nat) : d.isDigit = true ∧ digitVal d = n ↔ n < 10 ∧ d = n.digitChar := by
  constructor
  · rintro ⟨h, rfl⟩
    have h : 48 ≤ d.toNat ∧ d.toNat ≤ 57 := by
      unfold Char.isDigit at h
      simp only [Bool.and_eq_true, decide_eq_true_eq] at h
      exact ⟨by have := UInt32.le_iff_toNat_le.1 h.1; exact this, by have := UInt32.le_iff_toNat_le.1 h.2; exact this⟩
    have e : digitVal d = d.toNat - 48 := rfl
    refine ⟨by omega, ?_⟩
    apply Char.toNat_inj.1
    rw [Nat.toNat_digitChar_of_lt_ten (by omega)]
    omega
  · rintro ⟨h, rfl⟩
    refine ⟨by rw [Nat.isDigit_digitChar]; exact decide_eq_true h, ?_⟩
    exact Nat.toNat_digitChar_sub_48_of_lt_ten h

/-- **C186**: a lane file is taken exactly if it is there and its name ends with `_`, one digit, any character and `spectra` (an end of line may
follow); the lane is this digit. -/
theorem lane_exact (there : Txt → Bool) (l : Txt) (n : Nat) : laneFile there l = .ok n ↔ there l = true ∧ n < 10 ∧
    ∃ (p : Txt) (c : Char), c ≠ '\n' ∧ (l = p ++ '_' :: n.digitChar :: c :: "spectra".toList ∨ l = p ++ '_' :: n.digitChar :: c :: "spectra\n".toList) := by
  unfold laneFile
  constructor
  · intro h
    split_ifs at h with h1 h2
    obtain ⟨d, hd⟩ := List.length_eq_one_iff.1 (not_not.1 h2)
    rw [hd] at h
    injection h with h
    obtain ⟨p, u, e, hu⟩ := (found_iff l d).1 hd
    obtain ⟨c, t, e2, e3, e4, e5⟩ := (laneHere_some u d).1 hu
    obtain ⟨h5, h6⟩ := (digit_iff d n).1 ⟨e3, h⟩
    refine ⟨by simpa using h1, h5, p, c, e4, ?_⟩
    rw [e, e2, h6]
    rcases e5 with e5 | e5
    · exact .inl (by rw [e5])
    · exact .inr (by rw [e5])
  · rintro ⟨h1, h2, p, c, hc, h3⟩
    obtain ⟨hd, hv⟩ := (digit_iff n.digitChar n).2 ⟨h2, rfl⟩
    have hf : laneFound l = [n.digitChar] := by
      rcases h3 with h3 | h3
      · exact (found_iff l _).2 ⟨p, _, h3, (laneHere_some _ _).2 ⟨c, _, rfl, hd, hc, .inl rfl⟩⟩
      · exact (found_iff l _).2 ⟨p, _, h3, (laneHere_some _ _).2 ⟨c, _, rfl, hd, hc, .inr rfl⟩⟩
    rw [if_neg (by rw [h1]; exact Bool.noConfusion), hf, if_neg (by simp)]
    show Except.ok _ = _
    rw [hv]

/-- **C186**: a lane file which is not there, or whose name has another form, is refused. -/
theorem lane_refused (there : Txt → Bool) (l : Txt) (e : Err) : laneFile there l = .error e ↔
    there l = false ∧ e = .exception ∨ there l = true ∧ e = .valueError ∧ ∀ n, laneFile there l ≠ .ok n := by
  unfold laneFile
  cases h : there l with
  | false => simp [eq_comm]
  | true =>
    simp only [Bool.true_eq_false, if_false, false_and, true_and, false_or]
    by_cases hl : (laneFound l).length ≠ 1
    · rw [if_pos hl]
      constructor
      · intro h
        injection h with h
        exact ⟨h.symm, fun n hn => by cases hn⟩
      · rintro ⟨rfl, _⟩; rfl
    · rw [if_neg hl]
      obtain ⟨d, hd⟩ := List.length_eq_one_iff.1 (not_not.1 hl)
      rw [hd]
      exact ⟨fun h => (by cases h), fun h => absurd rfl (h.2 _)⟩

/-- **C186**, for lanes of one digit: the name which is documented is taken, whatever the directory and the name before. -/
theorem lane_partial (there : Txt → Bool) (p : Txt) (n : Nat) (hn : n < 10) (h : there (p ++ '_' :: (Nat.toDigits 10 n ++ ".spectra".toList)) = true) :
    laneFile there (p ++ '_' :: (Nat.toDigits 10 n ++ ".spectra".toList)) = .ok n := by
  rw [lane_exact]
  refine ⟨h, hn, p, '.', by decide, .inl ?_⟩
  rw [Nat.toDigits_of_lt_base hn]
  rfl

/-- **C186** (violated): lanes of two digits or more are refused. -/
theorem lane_digits_violated (there : Txt → Bool) (p : Txt) (n : Nat) (hn : 10 ≤ n) (h : there (p ++ '_' :: (Nat.toDigits 10 n ++ ".spectra".toList)) = true) :
    laneFile there (p ++ '_' :: (Nat.toDigits 10 n ++ ".spectra".toList)) = .error .valueError := by
  rw [lane_refused]
  refine .inr ⟨h, rfl, fun m hm => ?_⟩
  obtain ⟨_, _, q, c, _, hq⟩ := (lane_exact _ _ _).1 hm
  have hne : Nat.toDigits 10 (n / 10) ≠ [] := Nat.toDigits_ne_nil
  obtain ⟨D, f, hD⟩ := List.eq_nil_or_concat (Nat.toDigits 10 (n / 10)) |>.resolve_left hne
  have hf : f.isDigit = true := Nat.isDigit_of_mem_toDigits (b := 10) (n := n / 10) (by decide) (by decide) (by rw [hD]; simp)
  have e : p ++ '_' :: (Nat.toDigits 10 n ++ ".spectra".toList) = (p ++ '_' :: D) ++ f :: (n % 10).digitChar :: '.' :: "spectra".toList := by
    rw [Nat.toDigits_of_base_le (by decide) hn, hD]
    simp
  rcases hq with hq | hq
  · rw [e] at hq
    have := (List.append_inj' hq rfl).2
    injection this with this
    rw [this] at hf
    exact absurd hf (by decide)
  · rw [e] at hq
    have := congrArg List.getLast? hq
    rw [List.getLast?_append_of_ne_nil _ (by simp), List.getLast?_append_of_ne_nil _ (by simp)] at this
    simp [List.getLast?_cons_cons] at this

/-- **C186** (violated): any character may stand for the dot. -/
theorem lane_dot_violated (there : Txt → Bool) (p : Txt) (n : Nat) (hn : n < 10) (c : Char) (hc : c ≠ '\n')
    (h : there (p ++ '_' :: n.digitChar :: c :: "spectra".toList) = true) : laneFile there (p ++ '_' :: n.digitChar :: c :: "spectra".toList) = .ok n :=
  (lane_exact _ _ _).2 ⟨h, hn, p, c, hc, .inl rfl⟩

/-! ## Raw lanes -/

/-- **C186**: a raw file is taken exactly if it is there and its name ends with two characters and `raw`; the lane is the first of both. -/
theorem raw_exact (there : Txt → Bool) (r : Txt) (d : Char) : rawFile there r = .ok d ↔ there r = true ∧ ∃ (p : Txt) (c : Char), r = p ++ d :: c :: "raw".toList := by
  unfold rawFile
  constructor
  · intro h
    split_ifs at h with h1 h2 h3
    have h2 : "raw".toList.isSuffixOf r = true := by simpa using h2
    obtain ⟨q, hq⟩ := List.isSuffixOf_iff_suffix.1 h2
    refine ⟨by simpa using h1, ?_⟩
    have hl : q.length + 3 = r.length := by rw [← hq, List.length_append]; rfl
    obtain ⟨q1, c, e1⟩ := (List.eq_nil_or_concat q).resolve_left (by rintro rfl; simp at hl; omega)
    obtain ⟨q2, x, e2⟩ := (List.eq_nil_or_concat q1).resolve_left (by rintro rfl; rw [e1] at hl; simp at hl; omega)
    have e : r = q2 ++ x :: c :: "raw".toList := by rw [← hq, e1, e2]; simp
    rw [e] at h
    have hx : (q2 ++ x :: c :: "raw".toList)[(q2 ++ x :: c :: "raw".toList).length - 5]? = some x := by
      rw [show (q2 ++ x :: c :: "raw".toList).length - 5 = q2.length by rw [List.length_append]; show q2.length + 5 - 5 = _; omega]
      simp
    rw [hx] at h
    injection h with h
    exact ⟨q2, c, by rw [e, h]⟩
  · rintro ⟨h1, p, c, rfl⟩
    have hl : (p ++ d :: c :: "raw".toList).length = p.length + 5 := by rw [List.length_append]; rfl
    rw [if_neg (by rw [h1]; exact Bool.noConfusion), if_neg, if_neg (by omega), hl, Nat.add_sub_cancel]
    · have : (p ++ d :: c :: "raw".toList)[p.length]? = some d := by simp
      rw [this]
      rfl
    · have : "raw".toList.isSuffixOf (p ++ d :: c :: "raw".toList) = true := List.isSuffixOf_iff_suffix.2 ⟨p ++ [d, c], by simp⟩
      rw [this]
      exact Bool.noConfusion

/-- **C186** (violated): of the lane of a raw file only the last digit is read, so that those which differ by tens are confused. -/
theorem raw_digits_violated (there : Txt → Bool) (p : Txt) (n : Nat) (h : there (p ++ Nat.toDigits 10 n ++ ".raw".toList) = true) :
    rawFile there (p ++ Nat.toDigits 10 n ++ ".raw".toList) = .ok (n % 10).digitChar := by
  rw [raw_exact]
  refine ⟨h, ?_⟩
  rcases lt_or_ge n 10 with hn | hn
  · exact ⟨p, '.', by rw [Nat.toDigits_of_lt_base hn, Nat.mod_eq_of_lt hn]; simp⟩
  · exact ⟨p ++ Nat.toDigits 10 (n / 10), '.', by rw [Nat.toDigits_of_base_le (by decide) hn]; simp⟩

/-! ## Parset files -/

/-- **C186**: a parset file is taken exactly if its name ends with `.parset` or `.parset_user` and it is there. -/
theorem parset_exact (there : Txt → Bool) (p q : Txt) :
    parsetFile there p = .ok q ↔ q = p ∧ there p = true ∧ ∃ s, p = s ++ ".parset".toList ∨ p = s ++ ".parset_user".toList := by
  unfold parsetFile
  have key : (".parset".toList.isSuffixOf p = true ∨ ".parset_user".toList.isSuffixOf p = true) ↔ ∃ s, p = s ++ ".parset".toList ∨ p = s ++ ".parset_user".toList := by
    rw [List.isSuffixOf_iff_suffix, List.isSuffixOf_iff_suffix]
    exact ⟨fun h => h.elim (fun ⟨s, h⟩ => ⟨s, .inl h.symm⟩) (fun ⟨s, h⟩ => ⟨s, .inr h.symm⟩), fun ⟨s, h⟩ => h.elim (fun h => .inl ⟨s, h.symm⟩) (fun h => .inr ⟨s, h.symm⟩)⟩
  by_cases h : ∃ s, p = s ++ ".parset".toList ∨ p = s ++ ".parset_user".toList
  · rw [if_neg (not_not.2 (key.2 h))]
    cases ht : there p with
    | false => exact ⟨fun h => (by cases h), fun h => (by cases h.2.1)⟩
    | true => exact ⟨fun e => ⟨by injection e with e; exact e.symm, rfl, h⟩, fun e => by rw [e.1]; rfl⟩
  · rw [if_pos (fun e => h (key.1 e))]
    exact ⟨fun e => (by cases e), fun e => absurd e.2.2 h⟩

/-- **C186**: other names are refused before the file is looked for. -/
theorem parset_refused (there : Txt → Bool) (p : Txt) (h : ¬∃ s, p = s ++ ".parset".toList ∨ p = s ++ ".parset_user".toList) :
    parsetFile there p = .error .valueError ∧ writeUser p = .error .valueError := by
  constructor
  · unfold parsetFile
    rw [if_pos]
    rw [List.isSuffixOf_iff_suffix, List.isSuffixOf_iff_suffix]
    rintro (⟨s, e⟩ | ⟨s, e⟩)
    · exact h ⟨s, .inl e.symm⟩
    · exact h ⟨s, .inr e.symm⟩
  · unfold writeUser
    rw [if_neg]
    rw [List.isSuffixOf_iff_suffix]
    rintro ⟨s, e⟩
    exact h ⟨s, .inr e.symm⟩

/-- **C186**: a file which was written under any name is taken when it is read. -/
theorem written_read (there : Txt → Bool) (p q : Txt) (h : writeUser p = .ok q) (ht : there q = true) : q = p ∧ parsetFile there q = .ok q := by
  unfold writeUser at h
  split_ifs at h with h1
  injection h with h
  subst h
  obtain ⟨s, e⟩ := List.isSuffixOf_iff_suffix.1 h1
  exact ⟨rfl, (parset_exact there _ _).2 ⟨rfl, ht, s, .inr e.symm⟩⟩

/-! ## Exported files -/

theorem basename_dir (d n : Txt) (hn : '/' ∉ n) : basename (d ++ '/' :: n) = n := by
  unfold basename
  have : (d ++ '/' :: n).reverse = n.reverse ++ '/' :: d.reverse := by simp
  rw [this, List.takeWhile_append_of_pos (fun c hc => decide_eq_true (by rintro rfl; exact hn (List.mem_reverse.1 hc)))]
  simp

/-- The text is not at the beginning of what follows a place inside a text without it. -/
theorem no_prefix (c : Char) (s t : Txt) (h : ¬".parset".toList <:+: c :: s) : ".parset".toList.isPrefixOf (c :: s ++ '.' :: t) = false := by
  cases e : ".parset".toList.isPrefixOf (c :: s ++ '.' :: t) with
  | false => rfl
  | true =>
    exfalso
    have e := List.isPrefixOf_iff_prefix.1 e
    rcases Nat.le_total ".parset".toList.length (c :: s).length with hl | hl
    · exact h (List.prefix_of_prefix_length_le e (List.prefix_append _ _) hl).isInfix
    · obtain ⟨v, hv⟩ := List.prefix_of_prefix_length_le (List.prefix_append (c :: s) ('.' :: t)) e hl
      obtain ⟨w, hw⟩ := e
      rw [← hv, List.append_assoc] at hw
      have hw := List.append_cancel_left hw
      cases v with
      | nil => exact h ⟨[], [], by rw [← hv]; simp⟩
      | cons x v =>
        injection hw with hx
        have h2 : ".parset".toList.tail = s ++ '.' :: v := by rw [← hv, hx]; rfl
        have : '.' ∈ ".parset".toList.tail := by rw [h2]; simp
        exact absurd this (by decide)

theorem repl_stem (new s t : Txt) (h : ¬".parset".toList <:+: s) :
    replGo ".parset".toList new 0 (s ++ '.' :: t) = s ++ replGo ".parset".toList new 0 ('.' :: t) := by
  induction s with
  | nil => rfl
  | cons c s ih =>
    have e := no_prefix c s t h
    show (if ".parset".toList.isPrefixOf (c :: s ++ '.' :: t) then _ else c :: replGo ".parset".toList new 0 (s ++ '.' :: t)) = _
    rw [e, if_neg Bool.noConfusion, ih (fun ⟨a, b, hab⟩ => h ⟨c :: a, b, by rw [← hab]; rfl⟩)]
    rfl

/-- **C186**, for names with no other `.parset`: the file exported has the name of the parset file, with the extension changed, in any directory. -/
theorem json_name_partial (d s : Txt) (h : ¬".parset".toList <:+: s) (hs : '/' ∉ s) :
    jsonName (d ++ '/' :: (s ++ ".parset".toList)) = s ++ ".json".toList ∧ jsonName (d ++ '/' :: (s ++ ".parset_user".toList)) = s ++ ".json_user".toList := by
  unfold jsonName
  rw [basename_dir d _ (by simp [hs]), basename_dir d _ (by simp [hs])]
  exact ⟨repl_stem _ s _ h, repl_stem _ s _ h⟩

/-- The name of a parset file, in any directory: `k` tells the extension. -/
def nameOf (d s : Txt) (k : Bool) : Txt := d ++ '/' :: (s ++ if k then ".parset_user".toList else ".parset".toList)

/-- **C186**, same names: two of them are given the same name only if they have the same one, apart from their directories. -/
theorem json_distinct_partial (d e s t : Txt) (k m : Bool) (hs : ¬".parset".toList <:+: s) (ht : ¬".parset".toList <:+: t) (hs' : '/' ∉ s) (ht' : '/' ∉ t)
    (h : jsonName (nameOf d s k) = jsonName (nameOf e t m)) : s = t ∧ k = m := by
  have hj : ∀ (d s : Txt) (k : Bool), ¬".parset".toList <:+: s → '/' ∉ s → jsonName (nameOf d s k) = s ++ if k then ".json_user".toList else ".json".toList := by
    intro d s k h1 h2
    cases k
    · exact (json_name_partial d s h1 h2).1
    · exact (json_name_partial d s h1 h2).2
  rw [hj d s k hs hs', hj e t m ht ht'] at h
  have hl := congrArg List.getLast? h
  cases k <;> cases m
  · exact ⟨List.append_cancel_right h, rfl⟩
  · simp at hl
  · simp at hl
  · exact ⟨List.append_cancel_right h, rfl⟩

theorem save_mem {α : Type} (dir : List (Txt × α)) (name : Txt) (x : α) (f : Txt × α) : f ∈ save dir name x ↔ f = (name, x) ∨ f ∈ dir ∧ f.1 ≠ name := by
  unfold save
  rw [List.mem_cons, List.mem_filter, decide_eq_true_iff]

/-- **C186**: after any exports in a directory, the last one under each name is there, and what was under other names before. -/
theorem exported_exact {α : Type} (content : Txt → α) (ps : List Txt) (dir : List (Txt × α)) (f : Txt × α) :
    f ∈ exportAll content dir ps ↔ (∃ l p r, ps = l ++ p :: r ∧ f = (jsonName p, content p) ∧ ∀ q ∈ r, jsonName q ≠ jsonName p) ∨
      f ∈ dir ∧ ∀ q ∈ ps, jsonName q ≠ f.1 := by
  induction ps generalizing dir with
  | nil =>
    rw [exportAll]
    refine ⟨fun h => .inr ⟨h, by simp⟩, ?_⟩
    rintro (⟨l, p, r, h, _⟩ | h)
    · simp at h
    · exact h.1
  | cons p ps ih =>
    rw [exportAll, ih, save_mem]
    constructor
    · rintro (⟨l, q, r, h1, h2, h3⟩ | ⟨rfl | ⟨h1, h2⟩, h3⟩)
      · exact .inl ⟨p :: l, q, r, by rw [h1]; rfl, h2, h3⟩
      · exact .inl ⟨[], p, ps, rfl, rfl, h3⟩
      · refine .inr ⟨h1, fun q hq => ?_⟩
        rcases List.mem_cons.1 hq with rfl | hq
        · exact Ne.symm h2
        · exact h3 q hq
    · rintro (⟨l, q, r, h1, h2, h3⟩ | ⟨h1, h2⟩)
      · cases l with
        | nil =>
          injection h1 with h1 h4
          subst h1
          subst h4
          exact .inr ⟨.inl h2, by rw [h2]; exact h3⟩
        | cons a l =>
          injection h1 with _ h1
          exact .inl ⟨l, q, r, h1, h2, h3⟩
      · exact .inr ⟨.inr ⟨h1, Ne.symm (h2 p List.mem_cons_self)⟩, fun q hq => h2 q (List.mem_cons_of_mem _ hq)⟩

/-- **C186** (violated): of two parset files with the same name in different directories, only the last one exported is kept. -/
theorem json_directory_violated {α : Type} (content : Txt → α) (d e n : Txt) (hn : '/' ∉ n) :
    ∃ name, exportAll content [] [d ++ '/' :: n, e ++ '/' :: n] = [(name, content (e ++ '/' :: n))] := by
  refine ⟨jsonName (e ++ '/' :: n), ?_⟩
  have h : jsonName (d ++ '/' :: n) = jsonName (e ++ '/' :: n) := by
    unfold jsonName
    rw [basename_dir d n hn, basename_dir e n hn]
  show save (save [] (jsonName (d ++ '/' :: n)) _) (jsonName (e ++ '/' :: n)) _ = _
  rw [h]
  unfold save
  simp

/-- **C186** (violated): so are two different names of one directory, as the extension is replaced everywhere. -/
theorem json_name_violated (d s : Txt) (h : ¬".parset".toList <:+: s) (hs : '/' ∉ s) :
    jsonName (d ++ '/' :: (s ++ ".parset.parset".toList)) = jsonName (d ++ '/' :: (s ++ ".json.parset".toList)) := by
  unfold jsonName
  rw [basename_dir d _ (by simp [hs]), basename_dir d _ (by simp [hs])]
  have e1 := repl_stem ".json".toList s "parset.parset".toList h
  have e2 := repl_stem ".json".toList s "json.parset".toList h
  have e3 : replGo ".parset".toList ".json".toList 0 ('.' :: "parset.parset".toList) = replGo ".parset".toList ".json".toList 0 ('.' :: "json.parset".toList) := by
    decide +kernel
  exact e1.trans ((congrArg (s ++ ·) e3).trans e2.symm)

/-! ## Calendars -/

/-- **C186** (violated): a spreadsheet is never converted; whatever the names, no file is written. -/
theorem excel_violated (f : Txt) (o : Option Txt) : excelToIcs f o = .ok [] ∨ excelToIcs f o = .error .valueError := by
  unfold excelToIcs
  cases o with
  | none => split_ifs; exacts [.inr rfl, .inl rfl]
  | some o =>
    show (if _ then _ else (if _ then _ else _)) = _ ∨ (if _ then _ else (if _ then _ else _)) = _
    split_ifs
    exacts [.inr rfl, .inr rfl, .inl rfl]

/-- **C186**: wrong extensions are refused, and nothing else is. -/
theorem excel_refused (f : Txt) (o : Option Txt) : excelToIcs f o = .error .valueError ↔ ¬".xlsx".toList <:+ f ∨ ∃ x, o = some x ∧ ¬".ics".toList <:+ x := by
  unfold excelToIcs
  by_cases h1 : ".xlsx".toList <:+ f
  · have e1 := List.isSuffixOf_iff_suffix.2 h1
    rw [e1, if_neg Bool.noConfusion]
    cases o with
    | none => exact ⟨fun h => (by cases h), fun h => h.elim (absurd h1) (fun ⟨x, h, _⟩ => by cases h)⟩
    | some x =>
      show (if ".ics".toList.isSuffixOf x = false then _ else _) = _ ↔ _
      by_cases h2 : ".ics".toList <:+ x
      · rw [List.isSuffixOf_iff_suffix.2 h2, if_neg Bool.noConfusion]
        exact ⟨fun h => (by cases h), fun h => h.elim (absurd h1) (fun ⟨y, h, hy⟩ => by injection h with h; rw [← h] at hy; exact absurd h2 hy)⟩
      · rw [if_pos (by cases e : ".ics".toList.isSuffixOf x; rfl; exact absurd (List.isSuffixOf_iff_suffix.1 e) h2)]
        exact ⟨fun _ => .inr ⟨x, rfl, h2⟩, fun _ => rfl⟩
  · rw [if_pos (by cases e : ".xlsx".toList.isSuffixOf f; rfl; exact absurd (List.isSuffixOf_iff_suffix.1 e) h1)]
    exact ⟨fun _ => .inl h1, fun _ => rfl⟩

/-! ## Cases -/

example : (laneFile (fun _ => true) "/data/B1919_0.spectra".toList).toOption = some 0 ∧ (laneFile (fun _ => true) "/data/B1919_3xspectra".toList).toOption = some 3 ∧
    (laneFile (fun _ => true) "/data/B1919_12.spectra".toList).toOption = none ∧ (rawFile (fun _ => true) "/data/B1919_12.raw".toList).toOption = some '2' := by
  decide +kernel

example : jsonName "/obs/a.parset".toList = "a.json".toList ∧ jsonName "/obs/a.parset_user".toList = "a.json_user".toList ∧
    jsonName "/obs/a.parset.parset".toList = "a.json.json".toList ∧ ¬".parset".toList <:+: "a.par".toList := by decide +kernel

end Verif.IO.Names
