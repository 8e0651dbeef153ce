import Verif.Parset.User
import Verif.Parset.PropsText

/-!
# Parset editing, files and export: properties C31 to C33
-/

namespace Verif.Parset

/-! ## C32 Edits of a table of properties -/

theorem setKey_at (kv : Str × UVal) (b : Block) (i : Nat) :
    (setKey kv b)[i]? = (b[i]?).map fun p => if p.key = kv.1 then { p with value := kv.2.stored, modified := true } else p := by
  unfold setKey; rw [List.getElem?_map]

/-- Last value given for a key. -/
def lastGiven (kw : List (Str × UVal)) (k : Str) : Option UVal := (kw.reverse.find? fun p => p.1 = k).map Prod.snd

/-- After an edit a property named by the keywords holds the text of the value given for it and is marked as modified; any other property is as before. Keys, their order and the
required flags never change. -/
theorem modify_exact : ∀ (kw : List (Str × UVal)) (b : Block) (i : Nat), (modify b kw)[i]? = (b[i]?).map fun p =>
    match lastGiven kw p.key with
    | none => p
    | some v => ⟨p.key, v.stored, true, p.required⟩ := by
  intro kw
  induction kw using List.reverseRecOn with
  | nil => intro b i; show b[i]? = _; cases b[i]? <;> rfl
  | append_singleton kw kv ih =>
    intro b i
    have e : modify b (kw ++ [kv]) = setKey kv (modify b kw) := by unfold modify; rw [List.foldl_append]; rfl
    rw [e, setKey_at, ih b i]
    cases hb : b[i]? with
    | none => rfl
    | some p =>
      have hl : lastGiven (kw ++ [kv]) p.key = if kv.1 = p.key then some kv.2 else lastGiven kw p.key := by
        unfold lastGiven
        rw [List.reverse_append]
        show (List.find? _ (kv :: kw.reverse)).map _ = _
        by_cases h : kv.1 = p.key
        · rw [List.find?_cons_of_pos (by simp [h]), if_pos h]; rfl
        · rw [List.find?_cons_of_neg (by simp [h]), if_neg h]
      simp only [Option.map_some, hl]
      by_cases h : kv.1 = p.key
      · rw [if_pos h]
        cases lastGiven kw p.key with
        | none => simp only; rw [if_pos h.symm]
        | some v => simp only; rw [if_pos h.symm]
      · rw [if_neg h]
        cases lastGiven kw p.key with
        | none => simp only; rw [if_neg (fun e => h e.symm)]
        | some v => simp only; rw [if_neg (fun e => h e.symm)]

theorem lastGiven_none {kw : List (Str × UVal)} {k : Str} (h : ∀ p ∈ kw, p.1 ≠ k) : lastGiven kw k = none := by
  unfold lastGiven
  rw [List.find?_eq_none.mpr]
  · rfl
  · intro p hp; simpa using h p (List.mem_reverse.mp hp)

/-- Unknown keys change nothing. -/
theorem unknown_keys_ignored (b : Block) (kw : List (Str × UVal)) (h : ∀ p ∈ kw, ∀ q ∈ b, p.1 ≠ q.key) : modify b kw = b := by
  apply List.ext_getElem?
  intro i
  rw [modify_exact]
  cases hb : b[i]? with
  | none => rfl
  | some q =>
    have hq : q ∈ b := List.mem_of_getElem? hb
    simp only [Option.map_some]
    rw [lastGiven_none (fun p hp => h p hp q hq)]

/-- A line is written for a property exactly when it is required or was named by an edit, with its last value. -/
theorem written_exact (b : Block) (kw : List (Str × UVal)) (hfresh : ∀ p ∈ b, p.modified = false) (k v : Str) :
    (k, v) ∈ written (modify b kw) ↔
      ∃ p ∈ b, p.key = k ∧ ((∃ x, lastGiven kw k = some x ∧ v = x.stored) ∨ (lastGiven kw k = none ∧ p.required = true ∧ v = p.value)) := by
  unfold written
  rw [List.mem_map]
  constructor
  · rintro ⟨q, hq, he⟩
    obtain ⟨hq, hflag⟩ := List.mem_filter.mp hq
    obtain ⟨i, hi⟩ := List.mem_iff_getElem?.mp hq
    rw [modify_exact] at hi
    obtain ⟨p, hp, hpq⟩ := Option.map_eq_some_iff.mp hi
    have hmem := List.mem_of_getElem? hp
    cases hl : lastGiven kw p.key with
    | none =>
      rw [hl] at hpq
      simp only at hpq
      subst hpq
      injection he with h1 h2
      rw [hfresh p hmem] at hflag
      exact ⟨p, hmem, h1, Or.inr ⟨by rw [← h1]; exact hl, by simpa using hflag, h2.symm⟩⟩
    | some x =>
      rw [hl] at hpq
      simp only at hpq
      subst hpq
      injection he with h1 h2
      exact ⟨p, hmem, h1, Or.inl ⟨x, by rw [← h1]; exact hl, h2.symm⟩⟩
  · rintro ⟨p, hp, rfl, h⟩
    obtain ⟨i, hi⟩ := List.mem_iff_getElem?.mp hp
    rcases h with ⟨x, hx, rfl⟩ | ⟨hn, hr, rfl⟩
    · refine ⟨⟨p.key, x.stored, true, p.required⟩, List.mem_filter.mpr ⟨?_, rfl⟩, rfl⟩
      apply List.mem_of_getElem? (i := i)
      rw [modify_exact, hi, Option.map_some, hx]
    · refine ⟨p, List.mem_filter.mpr ⟨?_, by rw [hr, Bool.or_true]⟩, rfl⟩
      apply List.mem_of_getElem? (i := i)
      rw [modify_exact, hi, Option.map_some, hn]

example : written (modify [⟨['a'], ['1'], false, true⟩, ⟨['b'], ['2'], false, false⟩, ⟨['c'], ['3'], false, false⟩] [(['b'], .bool true), (['z'], .text ['9'])])
    = [(['a'], ['1']), (['b'], "true".toList)] := by decide +kernel

/-! ### Files -/

theorem cut_append (c : Char) : ∀ (s t : Str), c ∉ s → cut c (s ++ c :: t) = some (s, t)
  | [], t, _ => by rw [List.nil_append, cut, if_pos rfl]
  | x :: s, t, h => by
    have hx : x ≠ c := fun e => h (by simp [e])
    rw [List.cons_append, cut, if_neg hx, cut_append c s t (fun hc => h (List.mem_cons_of_mem _ hc))]; rfl

theorem cut_none (c : Char) : ∀ s : Str, c ∉ s → cut c s = none
  | [], _ => rfl
  | x :: s, h => by
    have hx : x ≠ c := fun e => h (by simp [e])
    rw [cut, if_neg hx, cut_none c s (fun hc => h (List.mem_cons_of_mem _ hc))]; rfl

theorem take_digits (n : Nat) (rest : Str) (c : Char) (hc : c.isDigit = false) :
    (natStr n ++ c :: rest).takeWhile Char.isDigit = natStr n ∧ (natStr n ++ c :: rest).dropWhile Char.isDigit = c :: rest := by
  have hd := natStr_digits n
  generalize natStr n = s at hd
  induction s with
  | nil => simp [hc]
  | cons a s ih =>
    have ha := hd a (by simp)
    obtain ⟨i1, i2⟩ := ih (fun x hx => hd x (List.mem_cons_of_mem _ hx))
    rw [List.cons_append, List.takeWhile_cons_of_pos ha, List.dropWhile_cons_of_pos ha, i1, i2]
    exact ⟨rfl, rfl⟩

theorem searchIndex_skip : ∀ (s t : Str), '[' ∉ s → searchIndex (s ++ t) = searchIndex t
  | [], _, _ => rfl
  | x :: s, t, h => by
    have hx : x ≠ '[' := fun e => h (by simp [e])
    rw [List.cons_append, searchIndex, if_neg hx]
    exact searchIndex_skip s t (fun hc => h (List.mem_cons_of_mem _ hc))

theorem beamIndex_name (s : Str) (i : Nat) (h : '[' ∉ s) : beamIndex (s ++ '[' :: (natStr i ++ [']'])) = .ok i := by
  unfold beamIndex
  have hb : bracketDigits (natStr i ++ [']']) = some (natStr i) := by
    unfold bracketDigits
    obtain ⟨h1, h2⟩ := take_digits i [] ']' (by decide)
    rw [h1, h2]; rfl
  have : searchIndex (s ++ '[' :: (natStr i ++ [']'])) = some (natStr i) := by
    rw [searchIndex_skip s _ h, searchIndex, if_pos rfl, hb]; rfl
  rw [this]
  show (if isDigits (natStr i) then _ else _) = _
  rw [if_pos (isDigits_natStr i), ofDigits_natStr]

/-- A name without bracket has no index. -/
theorem searchIndex_none : ∀ s : Str, '[' ∉ s → searchIndex s = none
  | [], _ => rfl
  | x :: s, h => by
    rw [searchIndex, if_neg fun e => h (by simp [e])]
    exact searchIndex_none s fun hc => h (List.mem_cons_of_mem _ hc)

/-- **C32**: the index of a beam which is missing, which is empty, or which has anything else than digits, is refused. -/
theorem beamIndex_refused (s r : Str) (c : Char) (n : Nat) (hs : '[' ∉ s) (hr : '[' ∉ r) (hc : c.isDigit = false) (h1 : c ≠ ']') (h2 : c ≠ '[') :
    beamIndex s = .error .attributeError ∧ beamIndex (s ++ "[]".toList) = .error .valueError ∧
      beamIndex (s ++ '[' :: c :: r) = .error .attributeError ∧ beamIndex (s ++ '[' :: (natStr n ++ c :: r)) = .error .attributeError := by
  have hb : ∀ d : Str, '[' ∉ d → bracketDigits d = none → beamIndex (s ++ '[' :: d) = .error .attributeError := by
    intro d hd hn
    unfold beamIndex
    rw [searchIndex_skip s _ hs, searchIndex, if_pos rfl, hn, searchIndex_none d hd]
    rfl
  refine ⟨?_, ?_, ?_, ?_⟩
  · unfold beamIndex
    rw [searchIndex_none s hs]
  · unfold beamIndex
    rw [searchIndex_skip s _ hs]
    rfl
  · refine hb _ (by simp [hr, Ne.symm h2]) ?_
    unfold bracketDigits
    rw [List.dropWhile_cons_of_neg (by rw [hc]; decide), if_neg]
    intro e
    exact h1 (Option.some.inj e)
  · refine hb _ ?_ ?_
    · intro h
      rcases List.mem_append.1 h with h | h
      · have := natStr_digits n _ h
        revert this
        decide
      · rcases List.mem_cons.1 h with h | h
        · exact h2 h.symm
        · exact hr h
    · unfold bracketDigits
      rw [(take_digits n r c hc).2, if_neg]
      intro e
      exact h1 (Option.some.inj e)

example : beamIndex "Beam[0x]".toList = .error .attributeError :=
  (beamIndex_refused "Beam".toList "]".toList 'x' 0 (by decide) (by decide) (by decide) (by decide) (by decide)).2.2.2

theorem nodot_indexed (p : Str) (hp : '.' ∉ p) (i : Nat) : '.' ∉ p ++ natStr i ++ [']'] := by
  intro h
  rcases List.mem_append.mp h with h | h
  · rcases List.mem_append.mp h with h | h
    · exact hp h
    · have := natStr_digits i _ h
      revert this; decide
  · revert h; decide

theorem sect_nodot (s : Sect) : '.' ∉ s.text := by
  cases s with
  | observation => decide
  | output => decide
  | anabeam i => exact nodot_indexed _ (by decide) i
  | beam i => exact nodot_indexed _ (by decide) i
  | phaseCenter i => exact nodot_indexed _ (by decide) i

theorem sectOf_text (s : Sect) (rest : Str) : sectOf (s.text ++ rest) s.text = .ok (some s) := by
  cases s with
  | observation => rfl
  | output => rfl
  | anabeam i =>
    have e : (Sect.anabeam i).text = "Anabeam".toList ++ '[' :: (natStr i ++ [']']) := rfl
    rw [e]
    show (beamIndex ("Anabeam".toList ++ '[' :: (natStr i ++ [']']))).map _ = _
    rw [beamIndex_name _ i (by decide)]; rfl
  | beam i =>
    have e : (Sect.beam i).text = "Beam".toList ++ '[' :: (natStr i ++ [']']) := rfl
    rw [e]
    show (beamIndex ("Beam".toList ++ '[' :: (natStr i ++ [']']))).map _ = _
    rw [beamIndex_name _ i (by decide)]; rfl
  | phaseCenter i =>
    have e : (Sect.phaseCenter i).text = "PhaseCenter".toList ++ '[' :: (natStr i ++ [']']) := rfl
    rw [e]
    show (beamIndex ("PhaseCenter".toList ++ '[' :: (natStr i ++ [']']))).map _ = _
    rw [beamIndex_name _ i (by decide)]; rfl

/-- The parts of a written line. -/
def Entry.parts (e : Entry) : Str × Str := (e.sect.text, e.key ++ '=' :: e.value)

theorem cut_line (e : Entry) : cut '.' e.line = some e.parts := by
  have : e.line = e.sect.text ++ '.' :: (e.key ++ '=' :: e.value) := by
    unfold Entry.line; simp
  rw [this, cut_append '.' _ _ (sect_nodot e.sect)]; rfl

theorem assign_line (e : Entry) (hk : '=' ∉ e.key) : assignLine e.line e.parts = .ok [e] := by
  unfold assignLine
  have : cut '=' e.parts.2 = some (e.key, e.value) := cut_append '=' _ _ hk
  rw [this]
  show (sectOf e.line e.sect.text).map _ = _
  have hl : e.line = e.sect.text ++ ('.' :: e.key ++ '=' :: e.value) := by unfold Entry.line; simp
  rw [hl, sectOf_text]; rfl

/-- A file of assignments, some of them followed by empty lines, is read as exactly these assignments in order, whatever the values hold, if no key holds the equal sign. -/
theorem file_round_trip : ∀ (l : List (Entry × Nat)) (prev : Option (Str × Str)), (∀ x ∈ l, '=' ∉ x.1.key) →
    decode prev (l.flatMap fun x => x.1.line :: List.replicate x.2 []) = .ok (l.map Prod.fst)
  | [], _, _ => rfl
  | (e, n) :: l, prev, h => by
    have blank : ∀ (m : Nat) (rest : List Str), decode (some e.parts) (List.replicate m [] ++ rest) = decode (some e.parts) rest := by
      intro m rest
      induction m with
      | zero => rfl
      | succ m ih =>
        rw [List.replicate_succ, List.cons_append, decode]
        show (assignLine [] e.parts).bind _ = _
        have : assignLine [] e.parts = .ok [] := by
          unfold assignLine
          rw [show cut '=' e.parts.2 = some (e.key, e.value) from cut_append '=' _ _ (h (e, n) (by simp))]
          rfl
        rw [this]
        show (decode (some e.parts) (List.replicate m [] ++ rest)).map _ = _
        rw [ih]
        cases decode (some e.parts) rest <;> rfl
    rw [List.flatMap_cons, List.cons_append, decode]
    rw [cut_line]
    show (assignLine e.line e.parts).bind _ = _
    rw [assign_line e (h (e, n) (by simp))]
    show (decode (some e.parts) (List.replicate n [] ++ _)).map _ = _
    rw [blank, file_round_trip l (some e.parts) (fun x hx => h x (List.mem_cons_of_mem _ hx))]
    rfl

example : String.ofList (Entry.mk (.beam 12) "toDo".toList "tbd".toList).line = "Beam[12].toDo=tbd" := by decide +kernel

/-- A file that starts with an empty line cannot be read. -/
theorem leading_blank_violated (l : List Str) : decode none ([] :: l) = .error .unboundLocal := rfl

/-- A comment line that starts like a beam and holds no dot makes the previous assignment a second time, and raises when the previous line was not about a beam. -/
theorem comment_line_violated : decode none ["Observation.name=x".toList, "Beams below".toList] = .error .attributeError := by decide +kernel

/-! ## C31 Numbering of beams -/

/-- Analog beams numbered from `k` in order, with all their beams announcing their number. -/
def Numbered : Nat → PUser → Prop
  | _, [] => True
  | k, a :: l => a.index = k ∧ (∀ n ∈ a.nums, n.noBeam = k) ∧ (∀ n ∈ a.pcs, n.noBeam = k) ∧ Numbered (k + 1) l

theorem numberFrom_index : ∀ (l : List NBeam) (k : Nat), (numberFrom k l).map NBeam.index = List.range' k l.length
  | [], _ => rfl
  | n :: l, k => by rw [numberFrom, List.map_cons, numberFrom_index l (k + 1), List.length_cons, List.range'_succ]

theorem numberFrom_tag : ∀ (l : List NBeam) (k : Nat), (numberFrom k l).map (fun n => (n.tag, n.noBeam)) = l.map (fun n => (n.tag, n.noBeam))
  | [], _ => rfl
  | n :: l, k => by rw [numberFrom, List.map_cons, List.map_cons, numberFrom_tag l (k + 1)]

theorem numberFrom_mem {l : List NBeam} {k : Nat} {n : NBeam} (h : n ∈ numberFrom k l) : ∃ m ∈ l, m.noBeam = n.noBeam ∧ m.tag = n.tag := by
  have : (n.tag, n.noBeam) ∈ l.map (fun n => (n.tag, n.noBeam)) := by
    rw [← numberFrom_tag l k]; exact List.mem_map.mpr ⟨n, h, rfl⟩
  obtain ⟨m, hm, he⟩ := List.mem_map.mp this
  injection he with h1 h2
  exact ⟨m, hm, h2, h1⟩

theorem numberFrom_length : ∀ (l : List NBeam) (k : Nat), (numberFrom k l).length = l.length
  | [], _ => rfl
  | n :: l, k => by rw [numberFrom, List.length_cons, List.length_cons, numberFrom_length l]

theorem renumNums_numbered : ∀ (s : PUser) (j k : Nat), Numbered k s → Numbered k (renumNums j s)
  | [], _, _, _ => trivial
  | a :: l, j, k, h => by
    refine ⟨h.1, ?_, h.2.2.1, renumNums_numbered l _ _ h.2.2.2⟩
    intro n hn
    obtain ⟨m, hm, e, -⟩ := numberFrom_mem hn
    rw [← e]; exact h.2.1 m hm

theorem renumPcs_numbered : ∀ (s : PUser) (j k : Nat), Numbered k s → Numbered k (renumPcs j s)
  | [], _, _, _ => trivial
  | a :: l, j, k, h => by
    refine ⟨h.1, h.2.1, ?_, renumPcs_numbered l _ _ h.2.2.2⟩
    intro n hn
    obtain ⟨m, hm, e, -⟩ := numberFrom_mem hn
    rw [← e]; exact h.2.2.1 m hm

theorem renumAna_numbered : ∀ (s : PUser) (k : Nat), Numbered k (renumAna k s)
  | [], _ => trivial
  | a :: l, k => by
    refine ⟨rfl, ?_, ?_, renumAna_numbered l (k + 1)⟩
    · intro n hn
      obtain ⟨m, -, rfl⟩ := List.mem_map.mp hn; rfl
    · intro n hn
      obtain ⟨m, -, rfl⟩ := List.mem_map.mp hn; rfl

theorem modify_numbered (f : ABeam → ABeam) (hf : ∀ a k, Numbered k [a] → Numbered k [f a]) : ∀ (s : PUser) (j k : Nat), Numbered k s → Numbered k (s.modify j f)
  | [], j, _, _ => by cases j <;> trivial
  | a :: l, 0, k, h => by
    rw [List.modify_zero_cons]
    have := hf a k ⟨h.1, h.2.1, h.2.2.1, trivial⟩
    exact ⟨this.1, this.2.1, this.2.2.1, h.2.2.2⟩
  | a :: l, j + 1, k, h => by
    rw [List.modify_succ_cons]
    exact ⟨h.1, h.2.1, h.2.2.1, modify_numbered f hf l j (k + 1) h.2.2.2⟩

theorem addNum_numbered (t : Nat) (nb : Int) (a : ABeam) (k : Nat) (h : Numbered k [a]) : Numbered k [a.addNum t nb] := by
  refine ⟨h.1, ?_, ?_, trivial⟩
  · intro n hn
    obtain ⟨m, -, rfl⟩ := List.mem_map.mp hn
    show ((a.index : Nat) : Int) = k; rw [h.1]
  · intro n hn
    obtain ⟨m, -, rfl⟩ := List.mem_map.mp hn
    show ((a.index : Nat) : Int) = k; rw [h.1]

theorem addPc_numbered (t : Nat) (nb : Int) (a : ABeam) (k : Nat) (h : Numbered k [a]) : Numbered k [a.addPc t nb] := by
  refine ⟨h.1, ?_, ?_, trivial⟩
  · intro n hn
    obtain ⟨m, -, rfl⟩ := List.mem_map.mp hn
    show ((a.index : Nat) : Int) = k; rw [h.1]
  · intro n hn
    obtain ⟨m, -, rfl⟩ := List.mem_map.mp hn
    show ((a.index : Nat) : Int) = k; rw [h.1]

theorem atNum_numbered (f : Nat → List NBeam → List NBeam) (hf : ∀ i l, ∀ n ∈ f i l, n ∈ l) : ∀ (s : PUser) (j k : Nat), Numbered k s → Numbered k (atNum f j s)
  | [], _, _, _ => trivial
  | a :: l, j, k, h => by
    rw [atNum]
    split
    · exact ⟨h.1, fun n hn => h.2.1 n (hf _ _ n hn), h.2.2.1, h.2.2.2⟩
    · exact ⟨h.1, h.2.1, h.2.2.1, atNum_numbered f hf l _ (k + 1) h.2.2.2⟩

theorem atPc_numbered (f : Nat → List NBeam → List NBeam) (hf : ∀ i l, ∀ n ∈ f i l, n ∈ l) : ∀ (s : PUser) (j k : Nat), Numbered k s → Numbered k (atPc f j s)
  | [], _, _, _ => trivial
  | a :: l, j, k, h => by
    rw [atPc]
    split
    · exact ⟨h.1, h.2.1, fun n hn => h.2.2.1 n (hf _ _ n hn), h.2.2.2⟩
    · exact ⟨h.1, h.2.1, h.2.2.1, atPc_numbered f hf l _ (k + 1) h.2.2.2⟩

theorem erase_sub (i : Nat) (l : List NBeam) : ∀ n ∈ l.eraseIdx i, n ∈ l := fun _ hn => List.mem_of_mem_eraseIdx hn

/-- Numbers of all numerical beams, in order. -/
def numIdx (s : PUser) : List Nat := s.flatMap fun a => a.nums.map NBeam.index

/-- Numbers of all phase centers, in order. -/
def pcIdx (s : PUser) : List Nat := s.flatMap fun a => a.pcs.map NBeam.index

/-- Counted from `k`. -/
def NumsFrom (k : Nat) (s : PUser) : Prop := numIdx s = List.range' k (s.map fun a => a.nums.length).sum

/-- Same for phase centers. -/
def PcsFrom (k : Nat) (s : PUser) : Prop := pcIdx s = List.range' k (s.map fun a => a.pcs.length).sum

theorem renumNums_from : ∀ (s : PUser) (k : Nat), NumsFrom k (renumNums k s)
  | [], _ => rfl
  | a :: l, k => by
    have ih := renumNums_from l (k + a.nums.length)
    unfold NumsFrom numIdx at *
    rw [renumNums, List.flatMap_cons, ih, List.map_cons, List.sum_cons, numberFrom_index]
    simp only [numberFrom_length]
    rw [List.range'_append_1]

theorem renumPcs_from : ∀ (s : PUser) (k : Nat), PcsFrom k (renumPcs k s)
  | [], _ => rfl
  | a :: l, k => by
    have ih := renumPcs_from l (k + a.pcs.length)
    unfold PcsFrom pcIdx at *
    rw [renumPcs, List.flatMap_cons, ih, List.map_cons, List.sum_cons, numberFrom_index]
    simp only [numberFrom_length]
    rw [List.range'_append_1]

/-- Two states with the same phase centers, up to the beam they announce. -/
def pcView (s : PUser) : List (List Nat) := s.map fun a => a.pcs.map NBeam.index

/-- Same for numerical beams. -/
def numView (s : PUser) : List (List Nat) := s.map fun a => a.nums.map NBeam.index

theorem pcsFrom_view {s t : PUser} (h : pcView s = pcView t) (k : Nat) (ht : PcsFrom k t) : PcsFrom k s := by
  have e1 : ∀ u : PUser, pcIdx u = (pcView u).flatten := fun u => by unfold pcIdx pcView; rw [List.flatMap_def]
  have e2 : ∀ u : PUser, (u.map fun a => a.pcs.length) = (pcView u).map List.length := fun u => by
    unfold pcView; rw [List.map_map]; exact List.map_congr_left (fun a _ => by simp)
  unfold PcsFrom at *
  rw [e1, e2] at *
  rw [h]; exact ht

theorem numsFrom_view {s t : PUser} (h : numView s = numView t) (k : Nat) (ht : NumsFrom k t) : NumsFrom k s := by
  have e1 : ∀ u : PUser, numIdx u = (numView u).flatten := fun u => by unfold numIdx numView; rw [List.flatMap_def]
  have e2 : ∀ u : PUser, (u.map fun a => a.nums.length) = (numView u).map List.length := fun u => by
    unfold numView; rw [List.map_map]; exact List.map_congr_left (fun a _ => by simp)
  unfold NumsFrom at *
  rw [e1, e2] at *
  rw [h]; exact ht

theorem renumNums_pcView : ∀ (s : PUser) (k : Nat), pcView (renumNums k s) = pcView s
  | [], _ => rfl
  | a :: l, k => by
    have := renumNums_pcView l (k + a.nums.length)
    unfold pcView at *
    rw [renumNums, List.map_cons, List.map_cons, this]

theorem renumPcs_numView : ∀ (s : PUser) (k : Nat), numView (renumPcs k s) = numView s
  | [], _ => rfl
  | a :: l, k => by
    have := renumPcs_numView l (k + a.pcs.length)
    unfold numView at *
    rw [renumPcs, List.map_cons, List.map_cons, this]

theorem renumAna_pcView : ∀ (s : PUser) (k : Nat), pcView (renumAna k s) = pcView s
  | [], _ => rfl
  | a :: l, k => by
    have := renumAna_pcView l (k + 1)
    unfold pcView at *
    rw [renumAna, List.map_cons, List.map_cons, this]
    congr 1
    show (a.pcs.map _).map _ = _
    rw [List.map_map]; rfl

theorem modify_view {β : Type} (v : ABeam → β) (f : ABeam → ABeam) (hf : ∀ a, v (f a) = v a) : ∀ (s : PUser) (j : Nat), (s.modify j f).map v = s.map v
  | [], j => by cases j <;> rfl
  | a :: l, 0 => by rw [List.modify_zero_cons, List.map_cons, List.map_cons, hf]
  | a :: l, j + 1 => by rw [List.modify_succ_cons, List.map_cons, List.map_cons, modify_view v f hf l j]

theorem atNum_pcView (f : Nat → List NBeam → List NBeam) : ∀ (s : PUser) (k : Nat), pcView (atNum f k s) = pcView s
  | [], _ => rfl
  | a :: l, k => by
    have := atNum_pcView f l (k - a.nums.length)
    unfold pcView at *
    rw [atNum]; split
    · rfl
    · rw [List.map_cons, List.map_cons, this]

theorem atPc_numView (f : Nat → List NBeam → List NBeam) : ∀ (s : PUser) (k : Nat), numView (atPc f k s) = numView s
  | [], _ => rfl
  | a :: l, k => by
    have := atPc_numView f l (k - a.pcs.length)
    unfold numView at *
    rw [atPc]; split
    · rfl
    · rw [List.map_cons, List.map_cons, this]

/-- Edits that do not set the analog beam of a beam by hand. -/
def Edit.plain : Edit → Prop
  | .modNum _ _ => False
  | _ => True

/-- Edits that do not remove an analog beam. -/
def Edit.keepsAna : Edit → Prop
  | .rmAna _ => False
  | _ => True

/-- What holds after any history of plain edits. -/
def Fine (s : PUser) : Prop := Numbered 0 s ∧ NumsFrom 0 s

theorem updateAna_fine (s : PUser) : Fine (updateAna s) :=
  ⟨renumNums_numbered _ _ _ (renumAna_numbered s 0), renumNums_from _ 0⟩

theorem edit_fine (s : PUser) (e : Edit) (he : e.plain) (h : Fine s) : Fine (edit s e) := by
  cases e with
  | addAna t => exact updateAna_fine _
  | rmAna i =>
    show Fine ((Parset.rmAna s i).toOption.getD s)
    unfold Parset.rmAna
    cases pyIndex s.length i with
    | none => exact h
    | some j => exact updateAna_fine _
  | addNum i t nb =>
    show Fine ((Parset.addNum s i t nb).toOption.getD s)
    unfold Parset.addNum
    cases pyIndex s.length i with
    | none => exact h
    | some j => exact ⟨renumNums_numbered _ _ _ (modify_numbered _ (addNum_numbered t nb) s j 0 h.1), renumNums_from _ 0⟩
  | rmNum k => exact ⟨renumNums_numbered _ _ _ (atNum_numbered _ erase_sub s k 0 h.1), renumNums_from _ 0⟩
  | addPc i t nb =>
    show Fine ((Parset.addPc s i t nb).toOption.getD s)
    unfold Parset.addPc
    cases pyIndex s.length i with
    | none => exact h
    | some j =>
      refine ⟨renumPcs_numbered _ _ _ (modify_numbered _ (addPc_numbered t nb) s j 0 h.1), ?_⟩
      refine numsFrom_view ?_ 0 h.2
      show numView (renumPcs 0 _) = _
      rw [renumPcs_numView]
      refine modify_view _ _ (fun a => ?_) s j
      show (a.nums.map _).map _ = _
      rw [List.map_map]; rfl
  | rmPc k =>
    refine ⟨renumPcs_numbered _ _ _ (atPc_numbered _ erase_sub s k 0 h.1), ?_⟩
    refine numsFrom_view ?_ 0 h.2
    show numView (renumPcs 0 _) = _
    rw [renumPcs_numView, atPc_numView]
  | modNum k nb => exact absurd he (fun x => x)

theorem edit_pcs (s : PUser) (e : Edit) (he : e.keepsAna) (h : PcsFrom 0 s) : PcsFrom 0 (edit s e) := by
  cases e with
  | addAna t =>
    show PcsFrom 0 (renumNums 0 (renumAna 0 (s ++ [⟨t, 0, [], []⟩])))
    refine pcsFrom_view (t := s ++ [⟨t, 0, [], []⟩]) (by rw [renumNums_pcView, renumAna_pcView]) 0 ?_
    unfold PcsFrom pcIdx at *
    rw [List.flatMap_append, List.map_append, List.sum_append, h]
    simp
  | rmAna i => exact absurd he (fun x => x)
  | addNum i t nb =>
    show PcsFrom 0 ((Parset.addNum s i t nb).toOption.getD s)
    unfold Parset.addNum
    cases pyIndex s.length i with
    | none => exact h
    | some j =>
      refine pcsFrom_view ?_ 0 h
      show pcView (renumNums 0 _) = _
      rw [renumNums_pcView]
      refine modify_view _ _ (fun a => ?_) s j
      show (a.pcs.map _).map _ = _
      rw [List.map_map]; rfl
  | rmNum k =>
    refine pcsFrom_view ?_ 0 h
    show pcView (renumNums 0 _) = _
    rw [renumNums_pcView, atNum_pcView]
  | addPc i t nb =>
    show PcsFrom 0 ((Parset.addPc s i t nb).toOption.getD s)
    unfold Parset.addPc
    cases pyIndex s.length i with
    | none => exact h
    | some j => exact renumPcs_from _ 0
  | rmPc k => exact renumPcs_from _ 0
  | modNum k nb =>
    refine pcsFrom_view ?_ 0 h
    show pcView (atNum _ _ _) = _
    rw [atNum_pcView]

theorem numbered_index : ∀ (s : PUser) (k : Nat), Numbered k s → s.map ABeam.index = List.range' k s.length
  | [], _, _ => rfl
  | a :: l, k, h => by rw [List.map_cons, numbered_index l (k + 1) h.2.2.2, h.1, List.length_cons, List.range'_succ]

theorem numbered_refers : ∀ (s : PUser) (k : Nat), Numbered k s → ∀ (j : Nat) (a : ABeam), s[j]? = some a →
    (∀ n ∈ a.nums, n.noBeam = (k + j : Nat)) ∧ (∀ n ∈ a.pcs, n.noBeam = (k + j : Nat))
  | [], _, _, j, a, h => by simp at h
  | b :: l, k, h, 0, a, hj => by
    simp only [List.getElem?_cons_zero, Option.some.injEq] at hj
    subst hj
    exact ⟨h.2.1, h.2.2.1⟩
  | b :: l, k, h, j + 1, a, hj => by
    rw [List.getElem?_cons_succ] at hj
    have := numbered_refers l (k + 1) h.2.2.2 j a hj
    rw [show k + 1 + j = k + (j + 1) by omega] at this
    exact this

theorem history_fine : ∀ (l : List Edit) (s : PUser), (∀ e ∈ l, e.plain) → Fine s → Fine (l.foldl edit s)
  | [], _, _, h => h
  | e :: l, s, hl, h => history_fine l (edit s e) (fun x hx => hl x (List.mem_cons_of_mem _ hx)) (edit_fine s e (hl e (by simp)) h)

theorem history_pcs : ∀ (l : List Edit) (s : PUser), (∀ e ∈ l, e.keepsAna) → PcsFrom 0 s → PcsFrom 0 (l.foldl edit s)
  | [], _, _, h => h
  | e :: l, s, hl, h => history_pcs l (edit s e) (fun x hx => hl x (List.mem_cons_of_mem _ hx)) (edit_pcs s e (hl e (by simp)) h)

/-- After any history of additions and removals the written file announces the right counts, numbers analog and numerical beams from 0 in order, and each numerical beam and phase
center announces the analog beam that holds it. -/
theorem numbering_consistent_partial (l : List Edit) (hl : ∀ e ∈ l, e.plain) :
    let s := l.foldl edit []
    (numbering s).anabeams = List.range (numbering s).nrAnabeams
    ∧ (numbering s).beams.map Prod.fst = List.range (numbering s).nrBeams
    ∧ (numbering s).phaseCenters.length = (numbering s).nrPhaseCenters
    ∧ (∀ (j : Nat) (a : ABeam), s[j]? = some a → (∀ n ∈ a.nums, n.noBeam = (j : Int)) ∧ (∀ n ∈ a.pcs, n.noBeam = (j : Int))) := by
  intro s
  have hf : Fine s := history_fine l [] hl ⟨trivial, rfl⟩
  refine ⟨?_, ?_, ?_, ?_⟩
  · show s.map ABeam.index = List.range s.length
    rw [numbered_index s 0 hf.1, List.range_eq_range']
  · show (s.flatMap fun a => a.nums.map fun n => (n.index, n.noBeam)).map Prod.fst = _
    rw [List.map_flatMap]
    have : (s.flatMap fun a => (a.nums.map fun n => (n.index, n.noBeam)).map Prod.fst) = numIdx s := by
      unfold numIdx; congr 1; funext a; rw [List.map_map]; rfl
    rw [this, hf.2, List.range_eq_range']; rfl
  · show (s.flatMap fun a => a.pcs.map fun n => (n.index, n.noBeam)).length = (s.map fun a => a.pcs.length).sum
    rw [List.length_flatMap]; simp
  · intro j a h
    have := numbered_refers s 0 hf.1 j a h
    simpa using this

/-- Phase centers are numbered from 0 in order too, as long as no analog beam was removed. -/
theorem phase_centers_numbered_partial (l : List Edit) (hl : ∀ e ∈ l, e.keepsAna) :
    let s := l.foldl edit []
    (numbering s).phaseCenters.map Prod.fst = List.range (numbering s).nrPhaseCenters := by
  intro s
  have hf : PcsFrom 0 s := history_pcs l [] hl rfl
  show (s.flatMap fun a => a.pcs.map fun n => (n.index, n.noBeam)).map Prod.fst = _
  rw [List.map_flatMap]
  have : (s.flatMap fun a => (a.pcs.map fun n => (n.index, n.noBeam)).map Prod.fst) = pcIdx s := by
    unfold pcIdx; congr 1; funext a; rw [List.map_map]; rfl
  rw [this, hf, List.range_eq_range']; rfl

/-- Removing an analog beam leaves the numbers of the phase centers as they were: one phase center announced, numbered 1. -/
theorem phase_center_numbers_violated :
    let s := [Edit.addAna 0, .addAna 1, .addPc 0 10 0, .addPc 1 11 0, .rmAna 0].foldl edit []
    (numbering s).nrPhaseCenters = 1 ∧ (numbering s).phaseCenters = [(1, 0)] := by decide

/-- The analog beam of a numerical beam can be set to one that does not exist. -/
theorem no_beam_violated :
    let s := [Edit.addAna 0, .addNum 0 10 0, .modNum 0 7].foldl edit []
    (numbering s).nrAnabeams = 1 ∧ (numbering s).beams = [(0, 7)] := by decide

example : numbering ([Edit.addAna 0, .addAna 1, .addNum 1 10 9, .addNum 0 11 0, .addNum (-1) 12 0, .rmNum 0].foldl edit [])
    = ⟨2, 2, 0, [0, 1], [(0, 1), (1, 1)], []⟩ := by decide

/-! ### Attachment -/

/-- Which analog beam holds each numerical beam, in order. -/
def attached (s : PUser) : List (Nat × Nat) := s.flatMap fun a => a.nums.map fun n => (n.tag, a.tag)

/-- Analog beams, in order. -/
def anaTags (s : PUser) : List Nat := s.map ABeam.tag

theorem renumNums_attached : ∀ (s : PUser) (k : Nat), attached (renumNums k s) = attached s ∧ anaTags (renumNums k s) = anaTags s
  | [], _ => ⟨rfl, rfl⟩
  | a :: l, k => by
    obtain ⟨h1, h2⟩ := renumNums_attached l (k + a.nums.length)
    unfold attached anaTags at *
    rw [renumNums, List.flatMap_cons, List.flatMap_cons, List.map_cons, List.map_cons, h1, h2]
    refine ⟨?_, rfl⟩
    congr 1
    have := congrArg (List.map fun p : Nat × Int => (p.1, a.tag)) (numberFrom_tag a.nums k)
    rw [List.map_map, List.map_map] at this
    exact this

theorem renumPcs_attached : ∀ (s : PUser) (k : Nat), attached (renumPcs k s) = attached s ∧ anaTags (renumPcs k s) = anaTags s
  | [], _ => ⟨rfl, rfl⟩
  | a :: l, k => by
    obtain ⟨h1, h2⟩ := renumPcs_attached l (k + a.pcs.length)
    unfold attached anaTags at *
    rw [renumPcs, List.flatMap_cons, List.flatMap_cons, List.map_cons, List.map_cons, h1, h2]
    exact ⟨rfl, rfl⟩

theorem renumAna_attached : ∀ (s : PUser) (k : Nat), attached (renumAna k s) = attached s ∧ anaTags (renumAna k s) = anaTags s
  | [], _ => ⟨rfl, rfl⟩
  | a :: l, k => by
    obtain ⟨h1, h2⟩ := renumAna_attached l (k + 1)
    unfold attached anaTags at *
    rw [renumAna, List.flatMap_cons, List.flatMap_cons, List.map_cons, List.map_cons, h1, h2]
    refine ⟨?_, rfl⟩
    congr 1
    show (a.nums.map _).map _ = _
    rw [List.map_map]; rfl

theorem updateAna_attached (s : PUser) : attached (updateAna s) = attached s ∧ anaTags (updateAna s) = anaTags s := by
  unfold updateAna
  obtain ⟨h1, h2⟩ := renumNums_attached (renumAna 0 s) 0
  obtain ⟨h3, h4⟩ := renumAna_attached s 0
  exact ⟨h1.trans h3, h2.trans h4⟩

theorem atNum_attached : ∀ (s : PUser) (k : Nat), attached (atNum (fun i l => l.eraseIdx i) k s) = (attached s).eraseIdx k
    ∧ anaTags (atNum (fun i l => l.eraseIdx i) k s) = anaTags s
  | [], k => by simp [atNum, attached, anaTags]
  | a :: l, k => by
    obtain ⟨h1, h2⟩ := atNum_attached l (k - a.nums.length)
    unfold attached anaTags at *
    rw [atNum]
    split
    · rename_i hk
      refine ⟨?_, rfl⟩
      rw [List.flatMap_cons, List.flatMap_cons, List.eraseIdx_append_of_lt_length (by simpa using hk)]
      congr 1
      show (a.nums.eraseIdx k).map _ = _
      rw [List.eraseIdx_map]
    · rename_i hk
      rw [List.flatMap_cons, List.flatMap_cons, List.map_cons, List.map_cons, h1, h2]
      refine ⟨?_, rfl⟩
      rw [List.eraseIdx_append_of_length_le (by simpa using hk)]
      simp

/-- Removing a numerical beam removes that beam only. -/
theorem remove_beam_exact (s : PUser) (k : Nat) : attached (edit s (.rmNum k)) = (attached s).eraseIdx k ∧ anaTags (edit s (.rmNum k)) = anaTags s := by
  show attached (renumNums 0 _) = _ ∧ anaTags (renumNums 0 _) = _
  obtain ⟨h1, h2⟩ := renumNums_attached (atNum (fun i l => l.eraseIdx i) k s) 0
  obtain ⟨h3, h4⟩ := atNum_attached s k
  exact ⟨h1.trans h3, h2.trans h4⟩

theorem modify_attached (t : Nat) (nb : Int) : ∀ (s : PUser) (j : Nat) (a : ABeam), s[j]? = some a → ∀ p,
    p ∈ attached (s.modify j fun a => a.addNum t nb) ↔ p ∈ attached s ∨ p = (t, a.tag)
  | [], j, a, h, p => by simp at h
  | b :: l, 0, a, h, p => by
    simp only [List.getElem?_cons_zero, Option.some.injEq] at h
    subst h
    rw [List.modify_zero_cons]
    unfold attached
    rw [List.flatMap_cons, List.flatMap_cons, List.mem_append, List.mem_append]
    have : (b.addNum t nb).nums.map (fun n => (n.tag, (b.addNum t nb).tag)) = b.nums.map (fun n => (n.tag, b.tag)) ++ [(t, b.tag)] := by
      show ((b.nums ++ [(⟨t, 0, nb⟩ : NBeam)]).map _).map _ = _
      rw [List.map_map, List.map_append]; rfl
    rw [this, List.mem_append, List.mem_singleton]
    tauto
  | b :: l, j + 1, a, h, p => by
    rw [List.getElem?_cons_succ] at h
    have ih := modify_attached t nb l j a h p
    rw [List.modify_succ_cons]
    unfold attached at *
    rw [List.flatMap_cons, List.flatMap_cons, List.mem_append, List.mem_append, ih]
    tauto

/-- Adding a numerical beam attaches it to the analog beam at the given position (counted from the end when negative) and changes nothing else. -/
theorem add_beam_exact (s : PUser) (i : Int) (t : Nat) (nb : Int) (j : Nat) (a : ABeam) (hj : pyIndex s.length i = some j) (ha : s[j]? = some a) :
    (∀ p, p ∈ attached (edit s (.addNum i t nb)) ↔ p ∈ attached s ∨ p = (t, a.tag)) ∧ anaTags (edit s (.addNum i t nb)) = anaTags s := by
  have e : edit s (.addNum i t nb) = renumNums 0 (s.modify j fun a => a.addNum t nb) := by
    show (Parset.addNum s i t nb).toOption.getD s = _
    unfold Parset.addNum; rw [hj]; rfl
  rw [e]
  obtain ⟨h1, h2⟩ := renumNums_attached (s.modify j fun a => a.addNum t nb) 0
  refine ⟨fun p => by rw [h1]; exact modify_attached t nb s j a ha p, ?_⟩
  rw [h2]
  exact modify_view ABeam.tag (fun a => a.addNum t nb) (fun _ => rfl) s j

/-- Removing an analog beam removes it with its beams, and nothing else. -/
theorem remove_analog_exact (s : PUser) (i : Int) (j : Nat) (hj : pyIndex s.length i = some j) :
    anaTags (edit s (.rmAna i)) = (anaTags s).eraseIdx j ∧ attached (edit s (.rmAna i)) = attached (s.take j) ++ attached (s.drop (j + 1)) := by
  have e : edit s (.rmAna i) = updateAna (s.eraseIdx j) := by
    show (Parset.rmAna s i).toOption.getD s = _
    unfold Parset.rmAna; rw [hj]; rfl
  rw [e]
  obtain ⟨h1, h2⟩ := updateAna_attached (s.eraseIdx j)
  rw [h1, h2]
  constructor
  · unfold anaTags; rw [List.eraseIdx_map]
  · unfold attached; rw [List.eraseIdx_eq_take_drop_succ, List.flatMap_append]

/-- All other edits leave every attachment as it is. -/
theorem other_edits_exact (s : PUser) : (∀ t, attached (edit s (.addAna t)) = attached s ∧ anaTags (edit s (.addAna t)) = anaTags s ++ [t])
    ∧ (∀ k, attached (edit s (.rmPc k)) = attached s) ∧ (∀ i t nb, attached (edit s (.addPc i t nb)) = attached s) := by
  refine ⟨fun t => ?_, fun k => ?_, fun i t nb => ?_⟩
  · obtain ⟨h1, h2⟩ := updateAna_attached (s ++ [⟨t, 0, [], []⟩])
    refine ⟨h1.trans ?_, h2.trans ?_⟩
    · unfold attached; rw [List.flatMap_append]; simp
    · unfold anaTags; rw [List.map_append]; rfl
  · show attached (renumPcs 0 _) = _
    rw [(renumPcs_attached _ 0).1]
    have : ∀ (u : PUser) (k : Nat), attached (atPc (fun i l => l.eraseIdx i) k u) = attached u := by
      intro u
      induction u with
      | nil => intro k; rfl
      | cons a l ih =>
        intro k
        rw [atPc]; split
        · rfl
        · have := ih (k - a.pcs.length)
          unfold attached at *
          rw [List.flatMap_cons, List.flatMap_cons, this]
    exact this s k
  · show attached ((Parset.addPc s i t nb).toOption.getD s) = _
    unfold Parset.addPc
    cases hj : pyIndex s.length i with
    | none => rfl
    | some j =>
      show attached (renumPcs 0 _) = _
      rw [(renumPcs_attached _ 0).1]
      have := modify_view (fun a : ABeam => a.nums.map fun n => (n.tag, a.tag)) (fun a => a.addPc t nb) (fun a => by
        show (a.nums.map _).map _ = _
        rw [List.map_map]; rfl) s j
      unfold attached
      rw [List.flatMap_def, List.flatMap_def, this]

/-- Which analog beam holds each phase center, in order. -/
def attachedPcs (s : PUser) : List (Nat × Nat) := s.flatMap fun a => a.pcs.map fun n => (n.tag, a.tag)

theorem renumPcs_attachedPcs : ∀ (s : PUser) (k : Nat), attachedPcs (renumPcs k s) = attachedPcs s
  | [], _ => rfl
  | a :: l, k => by
    have h1 := renumPcs_attachedPcs l (k + a.pcs.length)
    unfold attachedPcs at *
    rw [renumPcs, List.flatMap_cons, List.flatMap_cons, h1]
    congr 1
    have := congrArg (List.map fun p : Nat × Int => (p.1, a.tag)) (numberFrom_tag a.pcs k)
    rw [List.map_map, List.map_map] at this
    exact this

theorem atPc_attachedPcs : ∀ (s : PUser) (k : Nat), attachedPcs (atPc (fun i l => l.eraseIdx i) k s) = (attachedPcs s).eraseIdx k
    ∧ anaTags (atPc (fun i l => l.eraseIdx i) k s) = anaTags s
  | [], k => by simp [atPc, attachedPcs, anaTags]
  | a :: l, k => by
    obtain ⟨h1, h2⟩ := atPc_attachedPcs l (k - a.pcs.length)
    unfold attachedPcs anaTags at *
    rw [atPc]
    split
    · rename_i hk
      refine ⟨?_, rfl⟩
      rw [List.flatMap_cons, List.flatMap_cons, List.eraseIdx_append_of_lt_length (by simpa using hk)]
      congr 1
      show (a.pcs.eraseIdx k).map _ = _
      rw [List.eraseIdx_map]
    · rename_i hk
      rw [List.flatMap_cons, List.flatMap_cons, List.map_cons, List.map_cons, h1, h2]
      refine ⟨?_, rfl⟩
      rw [List.eraseIdx_append_of_length_le (by simpa using hk)]
      simp

/-- Removing a phase center removes that phase center only. -/
theorem remove_center_exact (s : PUser) (k : Nat) : attachedPcs (edit s (.rmPc k)) = (attachedPcs s).eraseIdx k ∧ anaTags (edit s (.rmPc k)) = anaTags s := by
  show attachedPcs (renumPcs 0 _) = _ ∧ anaTags (renumPcs 0 _) = _
  rw [renumPcs_attachedPcs, (renumPcs_attached _ 0).2]
  exact atPc_attachedPcs s k

/-- Adding a phase center puts it after those of the analog beam at the given position (counted from the end when negative) and changes nothing else. -/
theorem add_center_exact (s : PUser) (i : Int) (t : Nat) (nb : Int) (l r : PUser) (a : ABeam) (hs : s = l ++ a :: r)
    (hi : i = l.length ∨ i = (l.length : Int) - s.length) :
    attachedPcs (edit s (.addPc i t nb)) = attachedPcs (l ++ [a]) ++ (t, a.tag) :: attachedPcs r ∧ anaTags (edit s (.addPc i t nb)) = anaTags s := by
  have hn : s.length = l.length + r.length + 1 := by rw [hs, List.length_append, List.length_cons]; omega
  have hj : pyIndex s.length i = some l.length := by
    unfold pyIndex
    rcases hi with hi | hi
    · rw [if_pos (by omega), if_pos (by omega)]
      congr 1
      omega
    · rw [if_neg (by omega), if_pos (by omega)]
      congr 1
      omega
  have e : edit s (.addPc i t nb) = renumPcs 0 (s.modify l.length fun a => a.addPc t nb) := by
    show (Parset.addPc s i t nb).toOption.getD s = _
    unfold Parset.addPc; rw [hj]; rfl
  rw [e, renumPcs_attachedPcs, (renumPcs_attached _ 0).2]
  refine ⟨?_, modify_view ABeam.tag (fun a => a.addPc t nb) (fun _ => rfl) s _⟩
  have hm : s.modify l.length (fun a => a.addPc t nb) = l ++ a.addPc t nb :: r := by
    rw [hs]
    clear e hj hn hi hs
    induction l with
    | nil => rfl
    | cons b l ih => rw [List.length_cons, List.cons_append, List.modify_succ_cons, ih]; rfl
  rw [hm]
  unfold attachedPcs
  rw [List.flatMap_append, List.flatMap_append, List.flatMap_cons, List.flatMap_cons, List.flatMap_nil, List.append_nil]
  have : (a.addPc t nb).pcs.map (fun n => (n.tag, (a.addPc t nb).tag)) = a.pcs.map (fun n => (n.tag, a.tag)) ++ [(t, a.tag)] := by
    show ((a.pcs ++ [(⟨t, 0, nb⟩ : NBeam)]).map _).map _ = _
    rw [List.map_map, List.map_append]; rfl
  rw [this, List.append_assoc, List.append_assoc]
  rfl

/-- An analog beam which is not there is refused, for each of the three edits which name one, and these are the only refusals. -/
theorem edits_refused (s : PUser) (i : Int) (t : Nat) (nb : Int) (e : Err) :
    (Parset.rmAna s i = .error e ↔ e = .indexError ∧ (i < -s.length ∨ s.length ≤ i)) ∧
    (Parset.addNum s i t nb = .error e ↔ e = .indexError ∧ (i < -s.length ∨ s.length ≤ i)) ∧
    (Parset.addPc s i t nb = .error e ↔ e = .indexError ∧ (i < -s.length ∨ s.length ≤ i)) := by
  have key : pyIndex s.length i = none ↔ (i < -(s.length : Int) ∨ (s.length : Int) ≤ i) := by
    unfold pyIndex
    split_ifs <;> simp <;> omega
  have hq : ∀ (f : Nat → PUser) (x : Except Err PUser), x = (pyIndex s.length i).elim (.error .indexError) (fun j => .ok (f j)) →
      (x = .error e ↔ e = .indexError ∧ (i < -(s.length : Int) ∨ (s.length : Int) ≤ i)) := by
    intro f x hx
    rw [hx, ← key]
    cases h : pyIndex s.length i with
    | none => exact ⟨fun h => ⟨by injection h with h; exact h.symm, rfl⟩, fun h => by rw [h.1]; rfl⟩
    | some j => exact ⟨fun h => (by cases h), fun h => (by cases h.2)⟩
  refine ⟨hq (fun j => updateAna (s.eraseIdx j)) _ ?_, hq (fun j => renumNums 0 (s.modify j fun a => a.addNum t nb)) _ ?_,
    hq (fun j => renumPcs 0 (s.modify j fun a => a.addPc t nb)) _ ?_⟩
  · unfold Parset.rmAna; cases pyIndex s.length i <;> rfl
  · unfold Parset.addNum; cases pyIndex s.length i <;> rfl
  · unfold Parset.addPc; cases pyIndex s.length i <;> rfl

example : attachedPcs ([Edit.addAna 0, .addAna 1, .addPc 0 10 0, .addPc (-1) 11 0, .addPc 0 12 0, .rmPc 0].foldl edit []) = [(12, 0), (11, 1)] := by decide

/-! ## C33 Export -/

/-- Identifiers of the exported pointings. -/
def ids (e : JsonEntry) : List Nat := e.pointings.map Prod.snd

theorem mapE_snd (fovs : List Nat) (k : Nat) : ∀ (l r : List (Nat × Nat)), addPointings fovs k l = .ok r → r.map Prod.snd = l.map fun p => p.1 + k
  | [], r, h => by
    unfold addPointings mapE at h; injection h with h; rw [← h]; rfl
  | p :: l, r, h => by
    unfold addPointings at h
    rw [mapE] at h
    cases hf : fovPos fovs p.2 with
    | error e => rw [hf] at h; cases h
    | ok i =>
      rw [hf] at h
      change (mapE _ l).map _ = _ at h
      cases hm : addPointings fovs k l with
      | error e => unfold addPointings at hm; rw [hm] at h; cases h
      | ok r' =>
        have ih := mapE_snd fovs k l r' hm
        unfold addPointings at hm
        rw [hm] at h
        injection h with h
        rw [← h]
        show (p.1 + k) :: r'.map Prod.snd = _
        rw [ih]; rfl

/-- In a file whose numerical beams and phase centers are numbered from 0 in order, with at least one numerical beam, all exported identifiers are different: they count the
pointings. -/
theorem ids_distinct_partial (p : PFile) (e : JsonEntry) (hb : buildEntry p = .ok e) (n m : Nat) (hn : 0 < n)
    (hd : p.digibeams.map Prod.fst = List.range n) (hc : p.phaseCenters.map Prod.fst = List.range m) :
    ids e = List.range e.pointings.length := by
  unfold buildEntry at hb
  cases h1 : addPointings p.anabeams 0 p.digibeams with
  | error x => rw [h1] at hb; cases hb
  | ok d =>
    rw [h1] at hb
    change (pcPointings p).map _ = _ at hb
    have hdl : d.map Prod.snd = List.range n := by
      rw [mapE_snd _ _ _ _ h1, ← hd]; exact List.map_congr_left (fun _ _ => by simp)
    have hdn : d.length = n := by have := congrArg List.length hdl; simpa using this
    have hlast : lastKey p.digibeams = n - 1 := by
      unfold lastKey
      rw [← List.getLast?_map, hd]
      have : List.range n = List.range (n - 1) ++ [n - 1] := by
        conv_lhs => rw [← Nat.sub_add_cancel hn]
        rw [List.range_succ]
      rw [this, List.getLast?_concat]; rfl
    cases h2 : pcPointings p with
    | error x => rw [h2] at hb; cases hb
    | ok c =>
      rw [h2] at hb
      injection hb with hb
      have step : ∀ (x y : List (Nat × Nat)), x.map Prod.snd = List.range x.length → y.map Prod.snd = List.range' x.length y.length →
          (x ++ y).map Prod.snd = List.range (x ++ y).length := by
        intro x y h1 h2
        rw [List.map_append, h1, h2, List.length_append, List.range_eq_range', List.range_eq_range']
        have := List.range'_append_1 (s := 0) (m := x.length) (n := y.length)
        rw [Nat.zero_add] at this
        exact this
      have hdc : (d ++ c).map Prod.snd = List.range (d ++ c).length := by
        apply step
        · rw [hdl, hdn]
        · unfold pcPointings at h2
          by_cases hr : p.recent
          · rw [if_pos hr] at h2
            have := mapE_snd _ _ _ _ h2
            rw [hlast, Nat.sub_add_cancel hn] at this
            have e2 : (p.phaseCenters.map fun q => q.1 + n) = (p.phaseCenters.map Prod.fst).map (· + n) := by rw [List.map_map]; rfl
            rw [e2, hc] at this
            have hm : c.length = m := by have := congrArg List.length this; simpa using this
            rw [this, hdn, hm, List.range'_eq_map_range]
            exact List.map_congr_left (fun _ _ => by omega)
          · rw [if_neg hr] at h2
            injection h2 with h2
            rw [← h2]; rfl
      rw [← hb]
      show ((d ++ c) ++ whenL p.xst _ ++ whenL _ _).map Prod.snd = List.range ((d ++ c) ++ whenL p.xst _ ++ whenL _ _).length
      apply step
      · apply step _ _ hdc
        unfold whenL
        split
        · unfold xstPointings
          rw [List.map_map, List.length_map, List.length_range, List.range'_eq_map_range]
          rfl
        · rfl
      · unfold whenL
        split
        · rfl
        · rfl

example : (buildEntry ⟨[0, 1], [(0, 0), (1, 1)], [(0, 1)], true, true, false⟩).map ids = .ok [0, 1, 2, 3, 4] := by decide

theorem ids_eq (p : PFile) (e : JsonEntry) (hb : buildEntry p = .ok e) :
    ∃ rest, ids e = p.digibeams.map Prod.fst ++ (if p.recent then p.phaseCenters.map fun q => q.1 + (lastKey p.digibeams + 1) else []) ++
      (whenL p.xst (xstPointings p.anabeams.length (p.digibeams.length + if p.recent then p.phaseCenters.length else 0))).map Prod.snd ++ rest := by
  unfold buildEntry at hb
  cases h1 : addPointings p.anabeams 0 p.digibeams with
  | error x => rw [h1] at hb; cases hb
  | ok d =>
    rw [h1] at hb
    change (pcPointings p).map _ = _ at hb
    have hdl : d.map Prod.snd = p.digibeams.map Prod.fst := by
      rw [mapE_snd _ _ _ _ h1]; exact List.map_congr_left (fun _ _ => by simp)
    have hdn : d.length = p.digibeams.length := by have := congrArg List.length hdl; simpa using this
    cases h2 : pcPointings p with
    | error x => rw [h2] at hb; cases hb
    | ok c =>
      rw [h2] at hb
      injection hb with hb
      have hcl : c.map Prod.snd = if p.recent then p.phaseCenters.map fun q => q.1 + (lastKey p.digibeams + 1) else [] := by
        unfold pcPointings at h2
        by_cases hr : p.recent
        · rw [if_pos hr] at h2 ⊢
          exact mapE_snd _ _ _ _ h2
        · rw [if_neg hr] at h2 ⊢
          injection h2 with h2
          rw [← h2]; rfl
      have hcn : c.length = if p.recent then p.phaseCenters.length else 0 := by
        have := congrArg List.length hcl
        rw [List.length_map] at this
        rw [this]
        split <;> simp
      refine ⟨(whenL (!p.recent && p.nickel) [(0, (d ++ c ++ whenL p.xst (xstPointings p.anabeams.length (d ++ c).length)).length)]).map Prod.snd, ?_⟩
      rw [← hb]
      show ((d ++ c) ++ whenL p.xst (xstPointings p.anabeams.length (d ++ c).length) ++ whenL _ _).map Prod.snd = _
      rw [List.map_append, List.map_append, List.map_append, hdl, hcl, List.length_append, hdn, hcn]

/-- **C33** (violated): without numerical beams, in any file with phase centers and cross-correlations, the last phase center and the first cross-correlation get the same
identifier. -/
theorem ids_collision_violated (p : PFile) (e : JsonEntry) (hb : buildEntry p = .ok e) (m : Nat) (hm : 0 < m) (hd : p.digibeams = [])
    (hc : p.phaseCenters.map Prod.fst = List.range m) (hr : p.recent = true) (hx : p.xst = true) (ha : p.anabeams ≠ []) : 2 ≤ (ids e).count m := by
  obtain ⟨rest, h⟩ := ids_eq p e hb
  have hlen : p.phaseCenters.length = m := by have := congrArg List.length hc; simpa using this
  rw [h, hd, if_pos hr, if_pos hr, hlen, hx]
  have h1 : m ∈ p.phaseCenters.map fun q => q.1 + (lastKey [] + 1) := by
    have : m - 1 ∈ p.phaseCenters.map Prod.fst := by rw [hc]; exact List.mem_range.2 (by omega)
    obtain ⟨q, hq, e⟩ := List.mem_map.1 this
    exact List.mem_map.2 ⟨q, hq, by rw [e]; show m - 1 + (0 + 1) = m; omega⟩
  have h2 : m ∈ (whenL true (xstPointings p.anabeams.length (0 + m))).map Prod.snd := by
    refine List.mem_map.2 ⟨(0, 0 + m + 0), List.mem_map.2 ⟨0, List.mem_range.2 (List.length_pos_iff.2 ha), rfl⟩, by omega⟩
  have h1 := List.count_pos_iff.2 h1
  have h2 := List.count_pos_iff.2 h2
  simp only [List.count_append, List.map_nil, List.length_nil]
  omega

/-- **C33** (violated): so do a numerical beam and a phase center in any file whose numerical beams are listed in such an order that one of them has a number after the last. -/
theorem ids_order_violated (p : PFile) (e : JsonEntry) (hb : buildEntry p = .ok e) (hr : p.recent = true) (k j a b : Nat) (hk : (k, a) ∈ p.digibeams)
    (hj : (j, b) ∈ p.phaseCenters) (hkj : k = lastKey p.digibeams + 1 + j) : 2 ≤ (ids e).count k := by
  obtain ⟨rest, h⟩ := ids_eq p e hb
  rw [h, if_pos hr]
  have h1 : k ∈ p.digibeams.map Prod.fst := List.mem_map.2 ⟨_, hk, rfl⟩
  have h2 : k ∈ p.phaseCenters.map fun q => q.1 + (lastKey p.digibeams + 1) := List.mem_map.2 ⟨_, hj, by show j + _ = k; omega⟩
  have h1 := List.count_pos_iff.2 h1
  have h2 := List.count_pos_iff.2 h2
  simp only [List.count_append]
  omega

example : (buildEntry ⟨[0], [], [(0, 0)], true, true, false⟩).map ids = .ok [1, 1] ∧
    (buildEntry ⟨[0], [(1, 0), (0, 0)], [(0, 0)], true, false, false⟩).map ids = .ok [1, 0, 1] := by decide

/-- A beam of a field of view that does not exist cannot be exported. -/
theorem unknown_fov : (buildEntry ⟨[0], [(0, 3)], [], true, false, false⟩) = .error .indexError := by decide

theorem attach_at (l : List (Nat × List Nat)) (q : Nat × Nat) (j : Nat) :
    (attach l q)[j]? = (l[j]?).map fun f => (f.1, f.2 ++ if q.1 = j then [q.2] else []) := by
  unfold attach
  rw [List.getElem?_modify]
  by_cases h : q.1 = j
  · simp [h]
  · simp [h]

/-- Each field of view gets exactly the pointings that refer to it, in order, after those it already had. -/
theorem data_exact : ∀ (ps : List (Nat × Nat)) (fovs : List (Nat × List Nat)) (j : Nat),
    (ps.foldl attach fovs)[j]? = (fovs[j]?).map fun f => (f.1, f.2 ++ (ps.filter fun q => q.1 = j).map Prod.snd)
  | [], fovs, j => by simp
  | q :: ps, fovs, j => by
    rw [List.foldl_cons, data_exact ps, attach_at, Option.map_map]
    congr 1
    funext f
    by_cases h : q.1 = j
    · simp [h]
    · simp [h]

/-- Reading the exported data a second time from the same entry lists all pointings twice. -/
theorem data_twice_violated (e : JsonEntry) (j : Nat) (i : Nat) (h : e.fovs[j]? = some (i, [])) :
    (e.data.2.data.1)[j]? = some (i, ((e.pointings.filter fun q => q.1 = j).map Prod.snd) ++ ((e.pointings.filter fun q => q.1 = j).map Prod.snd)) := by
  show (e.pointings.foldl attach (e.pointings.foldl attach e.fovs))[j]? = _
  rw [data_exact, data_exact, h]; simp

/-- Mini-arrays above 96 are dropped even when the correlator uses them. -/
theorem remote_dropped_violated (mas : List Nat) (m : Nat) (hm : 96 < m) (h : m ∈ mas) : m ∉ keptMiniArrays mas true := by
  unfold keptMiniArrays
  rw [if_pos (List.any_eq_true.mpr ⟨m, h, by simpa using hm⟩), List.mem_filter]
  rintro ⟨-, h2⟩
  have : m ≤ 96 := by simpa using h2
  omega

/-- The other ones are kept. -/
theorem core_kept (mas : List Nat) (b : Bool) (m : Nat) (hm : m ≤ 96) : m ∈ keptMiniArrays mas b ↔ m ∈ mas := by
  unfold keptMiniArrays
  split
  · rw [List.mem_filter]; simp [hm]
  · rfl

end Verif.Parset
