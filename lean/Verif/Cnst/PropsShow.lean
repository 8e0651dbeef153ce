import Verif.Cnst.Show
import Verif.Cnst.PropsScore
import Verif.Parset.PropsJson

/-!
# C180: what the drawing of a block tells
-/

namespace Verif.Cnst

open Verif.Parset (Str natStr natStr_digits ofDigits_natStr decodeTopic)

/-! ## Programmes -/

/-- The codes are different, of four characters, in lower case, and without ends of lines. -/
theorem codes_regular : (programmes.map Prod.fst).Nodup ∧ ∀ q ∈ programmes, q.1.length = 4 ∧ lowerStr q.1 = q.1 ∧ lowerStr (upperStr q.1) = q.1 ∧ '\n' ∉ upperStr q.1 ∧ '\n' ∉ q.2.1 := by
  decide +kernel

theorem lookup_mem {pg : Str} {v : Str × Str} (h : programmes.lookup pg = some v) : (pg, v) ∈ programmes := by
  revert h
  generalize programmes = l
  induction l with
  | nil => intro h; cases h
  | cons a l ih =>
    intro h
    rw [List.lookup_cons] at h
    by_cases e : pg = a.1
    · rw [show (pg == a.1) = true by simpa using e] at h
      have : v = a.2 := (Option.some.inj h).symm
      rw [e, this]
      exact List.mem_cons_self
    · rw [show (pg == a.1) = false by simpa using e] at h
      exact List.mem_cons_of_mem _ (ih h)

theorem mem_lookup {pg : Str} {v : Str × Str} (h : (pg, v) ∈ programmes) : programmes.lookup pg = some v := by
  have hn := codes_regular.1
  revert h hn
  generalize programmes = l
  induction l with
  | nil => intro h; cases h
  | cons a l ih =>
    intro h hn
    rw [List.map_cons, List.nodup_cons] at hn
    rw [List.lookup_cons]
    rcases List.mem_cons.1 h with e | h'
    · rw [← e]
      simp
    · have hne : pg ≠ a.1 := fun e => hn.1 (e ▸ List.mem_map.2 ⟨_, h', rfl⟩)
      rw [show (pg == a.1) = false by simpa using hne]
      exact ih h' hn.2

/-- **Programmes**: exactly the codes of the table are accepted, in any case, and are kept in lower case. -/
theorem programme_exact (p pg : Str) : setProgramme p = .ok pg ↔ pg = lowerStr p ∧ ∃ v, (pg, v) ∈ programmes := by
  unfold setProgramme
  constructor
  · intro h
    split_ifs at h with hc
    · have e : lowerStr p = pg := by injection h
      obtain ⟨v, hv⟩ := Option.isSome_iff_exists.1 hc
      exact ⟨e.symm, v, e ▸ lookup_mem hv⟩
  · rintro ⟨rfl, v, hv⟩
    rw [if_pos]
    rw [mem_lookup hv]
    rfl

/-- Other programmes are refused. -/
theorem programme_refused (p : Str) (h : ∀ v, (lowerStr p, v) ∉ programmes) : setProgramme p = .error .keyError := by
  unfold setProgramme
  rw [if_neg]
  intro hc
  obtain ⟨v, hv⟩ := Option.isSome_iff_exists.1 hc
  exact h v (lookup_mem hv)

/-- **An early science programme and its long-term continuation have the same colour.** -/
theorem programme_colours : ∀ a ∈ programmes, ∀ b ∈ programmes, a.1.take 2 = "es".toList → b.1.take 2 = "lt".toList → a.1.drop 2 = b.1.drop 2 → a.2.2 = b.2.2 := by
  decide +kernel

/-- **Each programme has a name and a colour**: the name starts with a letter, the colour is a number of six hexadecimal digits; those of the table
are found by the code. -/
theorem programme_entries : (∀ q ∈ programmes, (q.2.1.head?.any Char.isAlpha) = true ∧ q.2.2.head? = some '#' ∧ q.2.2.length = 7 ∧ (q.2.2.tail.all fun c => c.isDigit || "ABCDEF".toList.contains c) = true) ∧
    ∀ e ∈ programmeTable, programmes.lookup e.1.toList = some (e.2.1.toList, e.2.2.toList) := by
  constructor
  · decide +kernel
  · intro e he
    exact mem_lookup (List.mem_map.2 ⟨e, he, rfl⟩)

/-- **Codes of the table are codes of topics**: all are read from the topic of a parset. -/
theorem codes_topics : ∀ q ∈ programmes, decodeTopic (upperStr q.1 ++ " NAME".toList) = (upperStr q.1, "NAME".toList) := by
  decide +kernel

/-- **Violated: codes of topics are programmes**: rapid programmes which a parset may have are refused by the scheduler. -/
theorem topics_codes_violated : decodeTopic "RP2A NAME".toList = ("RP2A".toList, "NAME".toList) ∧ setProgramme "RP2A".toList = .error .keyError ∧
    decodeTopic "LT1 NAME".toList = ("LT1".toList, "NAME".toList) ∧ setProgramme "LT1".toList = .error .keyError := by
  refine ⟨by decide +kernel, programme_refused _ ?_, by decide +kernel, programme_refused _ ?_⟩
  · intro v hv
    have : programmes.lookup (lowerStr "RP2A".toList) = none := by decide +kernel
    rw [mem_lookup hv] at this
    cases this
  · intro v hv
    have : programmes.lookup (lowerStr "LT1".toList) = none := by decide +kernel
    rw [mem_lookup hv] at this
    cases this

/-! ## Titles -/

theorem split_line {a b c d : Str} (ha : '\n' ∉ a) (hb : '\n' ∉ b) (h : a ++ '\n' :: c = b ++ '\n' :: d) : a = b ∧ c = d := by
  induction a generalizing b with
  | nil =>
    cases b with
    | nil => exact ⟨rfl, List.tail_eq_of_cons_eq h⟩
    | cons x b =>
      have : '\n' = x := List.head_eq_of_cons_eq h
      exact absurd (this ▸ List.mem_cons_self) hb
  | cons y a ih =>
    cases b with
    | nil =>
      have : y = '\n' := List.head_eq_of_cons_eq h
      exact absurd (this ▸ List.mem_cons_self) ha
    | cons x b =>
      have e1 : y = x := List.head_eq_of_cons_eq h
      obtain ⟨h1, h2⟩ := ih (fun m => ha (List.mem_cons_of_mem _ m)) (fun m => hb (List.mem_cons_of_mem _ m)) (List.tail_eq_of_cons_eq h)
      exact ⟨by rw [e1, h1], h2⟩

theorem id_line (n : Nat) : '\n' ∉ "ID: ".toList ++ natStr n := by
  rw [List.mem_append]
  rintro (h | h)
  · revert h; decide
  · exact absurd (natStr_digits n _ h) (by decide)

/-- **Three lines**: the number of the block, the code and name of its programme, and its own name, the last two cut after 23 characters. -/
theorem title_lines (idx : Nat) (pg name kp colour : Str) (h : (pg, kp, colour) ∈ programmes) :
    titleOf idx pg name = .ok ("ID: ".toList ++ natStr idx ++ "\n".toList ++ (upperStr pg ++ " - ".toList ++ kp).take 23 ++ "\n".toList ++ name.take 23) ∧ colourOf pg = .ok colour := by
  unfold titleOf colourOf
  rw [mem_lookup h]
  refine ⟨?_, rfl⟩
  show Except.ok _ = Except.ok _
  congr 1
  simp

/-- **The title tells blocks apart**: it gives the number, the programme and the first 23 characters of the name. -/
theorem title_identifies (i j : Nat) (p q n m t : Str) (h1 : titleOf i p n = .ok t) (h2 : titleOf j q m = .ok t) : i = j ∧ p = q ∧ n.take 23 = m.take 23 := by
  have key : ∀ (k : Nat) (r w : Str), titleOf k r w = .ok t → ∃ v, (r, v) ∈ programmes ∧
      t = "ID: ".toList ++ natStr k ++ '\n' :: ((upperStr r ++ " - ".toList ++ v.1).take 23 ++ '\n' :: w.take 23) := by
    intro k r w h
    unfold titleOf at h
    cases hl : programmes.lookup r with
    | none => rw [hl] at h; cases h
    | some v =>
      rw [hl] at h
      refine ⟨v, lookup_mem hl, ?_⟩
      have h' : (Except.ok ("ID: ".toList ++ natStr k ++ '\n' :: ((upperStr r ++ " - ".toList ++ v.1).take 23 ++ '\n' :: w.take 23)) : Except Err Str) = .ok t := h
      injection h' with e
      exact e.symm
  obtain ⟨v, hv, e1⟩ := key i p n h1
  obtain ⟨w, hw, e2⟩ := key j q m h2
  obtain ⟨e3, e4⟩ := split_line (id_line i) (id_line j) (e1.symm.trans e2)
  have nl : ∀ (r : Str) (v : Str × Str), (r, v) ∈ programmes → '\n' ∉ (upperStr r ++ " - ".toList ++ v.1).take 23 := by
    intro r v hv hm
    have hm' := List.mem_of_mem_take hm
    rw [List.mem_append, List.mem_append] at hm'
    obtain ⟨-, -, -, c1, c2⟩ := codes_regular.2 _ hv
    rcases hm' with (h | h) | h
    · exact c1 h
    · revert h; decide
    · exact c2 h
  obtain ⟨e5, e6⟩ := split_line (nl p v hv) (nl q w hw) e4
  have hcode : ∀ (r : Str) (v : Str × Str), (r, v) ∈ programmes → ((upperStr r ++ " - ".toList ++ v.1).take 23).take 4 = upperStr r := by
    intro r v hv
    have hl : (upperStr r).length = 4 := by
      unfold upperStr
      rw [List.length_map]
      exact (codes_regular.2 _ hv).1
    rw [List.take_take, List.append_assoc, show min 4 23 = 4 from rfl]
    rw [← hl]
    exact List.take_left
  refine ⟨?_, ?_, e6⟩
  · have e7 := List.append_cancel_left e3
    rw [← ofDigits_natStr i, e7, ofDigits_natStr]
  · have e8 : upperStr p = upperStr q := by rw [← hcode p v hv, e5, hcode q w hw]
    have a := (codes_regular.2 _ hv).2.2.1
    have b := (codes_regular.2 _ hw).2.2.1
    exact a.symm.trans ((congrArg lowerStr e8).trans b)

/-! ## Status -/

/-- **Status of a booked block** whose constraints all have scores from 0 to 1: good from 0.8 on, bad below 0.5, medium between; the score is never out of range. -/
theorem status_exact {l : List (ℚ × ℚ)} (hne : l ≠ []) (hw : ∀ p ∈ l, 0 < p.1) (hv : ∀ p ∈ l, 0 ≤ p.2 ∧ p.2 ≤ 1) :
    ∃ v s, shownScore (some (l.map fun p => (p.1, some (some p.2)))) = .ok v ∧ blockStatus (some (l.map fun p => (p.1, some (some p.2)))) = .ok s ∧
      v = (l.map fun p => p.1 * p.2).sum / (l.map fun p => p.1).sum ∧ (s = .good ↔ 4 / 5 ≤ v) ∧ (s = .medium ↔ 1 / 2 ≤ v ∧ v < 4 / 5) ∧ (s = .bad ↔ v < 1 / 2) := by
  obtain ⟨v, h1, h2, h3⟩ := block_score_between hne hw hv
  have h1' : shownScore (some (l.map fun p => (p.1, some (some p.2)))) = .ok v := h1
  have e : v = (l.map fun p => p.1 * p.2).sum / (l.map fun p => p.1).sum := by
    have := h1.symm.trans (block_score_mean l)
    injection this
  refine ⟨v, statusOf v, h1', ?_, e, ?_⟩
  · unfold blockStatus
    rw [h1']
    rfl
  · unfold statusOf
    rcases lt_or_ge v (1 / 2) with a | a
    · rw [if_pos ⟨h2, a⟩]
      refine ⟨⟨fun e => (by cases e), fun h => ?_⟩, ⟨fun e => (by cases e), fun h => ?_⟩, fun _ => a, fun _ => rfl⟩ <;> exfalso <;> linarith [h]
    · rw [if_neg fun h => absurd h.2 (not_lt.2 a)]
      rcases lt_or_ge v (4 / 5) with b | b
      · rw [if_pos ⟨a, b⟩]
        refine ⟨⟨fun e => (by cases e), fun h => ?_⟩, ⟨fun _ => ⟨a, b⟩, fun _ => rfl⟩, ⟨fun e => (by cases e), fun h => ?_⟩⟩ <;> exfalso <;> linarith [h]
      · rw [if_neg fun h => absurd h.2 (not_lt.2 b), if_pos ⟨b, h3⟩]
        refine ⟨⟨fun _ => b, fun _ => rfl⟩, ⟨fun e => (by cases e), fun h => ?_⟩, ⟨fun e => (by cases e), fun h => ?_⟩⟩
        · exact absurd h.2 (not_lt.2 b)
        · exact absurd h (not_lt.2 a)

/-- A block which is not booked, or of which a constraint misses its window, is bad; a constraint which could not be evaluated is a TypeError. -/
theorem status_none (rows : List Row) : blockStatus none = .ok .bad ∧
    ((∀ r ∈ rows, r.2 ≠ none) → (∃ r ∈ rows, r.2 = some none) → blockStatus (some rows) = .ok .bad) ∧ ((∃ r ∈ rows, r.2 = none) → blockStatus (some rows) = .error .typeError) := by
  have h0 : statusOf 0 = .bad := by unfold statusOf; rw [if_pos ⟨le_refl _, by norm_num⟩]
  refine ⟨?_, fun h1 h2 => ?_, fun h => ?_⟩
  · show Except.ok (statusOf 0) = _
    rw [h0]
  · unfold blockStatus shownScore
    show (blockScore rows).map statusOf = _
    rw [block_score_nan h1 h2]
    show Except.ok (statusOf 0) = _
    rw [h0]
  · unfold blockStatus shownScore
    show (blockScore rows).map statusOf = _
    rw [block_score_violated rows h]
    rfl

/-- **Violated: score and status shown together agree**: with two decimals, all scores a bit below a limit are shown as the limit, with the lower status. -/
theorem label_violated (x : ℚ) (r : Int) (hr : |(r : ℚ) - 100 * x| ≤ 1 / 2) :
    (159 / 200 < x → x < 4 / 5 → r = 80 ∧ statusOf x = .medium ∧ statusOf (80 / 100) = .good) ∧
    (99 / 200 < x → x < 1 / 2 → r = 50 ∧ statusOf x = .bad ∧ statusOf (50 / 100) = .medium) := by
  obtain ⟨h1, h2⟩ := abs_le.1 hr
  constructor
  · intro a b
    refine ⟨?_, ?_, ?_⟩
    · have c : (79 : ℚ) < r := by linarith
      have d : (r : ℚ) < 81 := by linarith
      have c' : (79 : Int) < r := by exact_mod_cast c
      have d' : r < (81 : Int) := by exact_mod_cast d
      omega
    · unfold statusOf
      rw [if_neg (by rintro ⟨-, h⟩; linarith), if_pos ⟨by linarith, b⟩]
    · unfold statusOf
      norm_num
  · intro a b
    refine ⟨?_, ?_, ?_⟩
    · have c : (49 : ℚ) < r := by linarith
      have d : (r : ℚ) < 51 := by linarith
      have c' : (49 : Int) < r := by exact_mod_cast c
      have d' : r < (51 : Int) := by exact_mod_cast d
      omega
    · unfold statusOf
      rw [if_pos ⟨by linarith, b⟩]
    · unfold statusOf
      norm_num

/-! ## Path -/

/-- **Path**: the target is followed from the start to the end of the block, at equal steps, for any number of points; nothing is drawn for a block which is not booked. -/
theorem path_exact (a b : ℚ) (n : Nat) (hn : 0 < n) : ∃ l, pathTimes (some (a, b)) n = some l ∧ l.length = n + 1 ∧ l[0]? = some a ∧ l[n]? = some b ∧
    (∀ i x y, l[i]? = some x → l[i + 1]? = some y → y - x = (b - a) / n) ∧ pathTimes none n = none := by
  have g : ∀ i : Nat, i ≤ n → ((List.range (n + 1)).map fun i : Nat => a + (i : ℚ) * ((b - a) / (n : ℚ)))[i]? = some (a + (i : ℚ) * ((b - a) / (n : ℚ))) := by
    intro i hi
    rw [List.getElem?_map, List.getElem?_range (by omega)]
    rfl
  have hq : (n : ℚ) ≠ 0 := by exact_mod_cast hn.ne'
  refine ⟨_, rfl, by rw [List.length_map, List.length_range], ?_, ?_, ?_, rfl⟩
  · rw [g 0 (by omega)]
    simp
  · rw [g n le_rfl]
    congr 1
    field_simp
    ring
  · intro i x y hx hy
    have hi : i + 1 < n + 1 := by
      have := (List.getElem?_eq_some_iff.1 hy).1
      rwa [List.length_map, List.length_range] at this
    rw [g i (by omega)] at hx
    rw [g (i + 1) (by omega)] at hy
    rw [← Option.some.inj hx, ← Option.some.inj hy, Nat.cast_add, Nat.cast_one]
    ring

/-! ## Examples -/

example : setProgramme "LT02".toList = .ok "lt02".toList := (programme_exact _ _).2 ⟨by decide, ("Exoplanets and stars".toList, "#87794E".toList), by decide +kernel⟩

example : titleOf 3 "es09".toList "A night".toList = .ok "ID: 3\nES09 - Cluster filament\nA night".toList := by
  rw [(title_lines 3 "es09".toList "A night".toList "Cluster filament and cosmic magnetism".toList "#CC66FF".toList (by decide +kernel)).1]
  congr 1

example : ∃ x : ℚ, 159 / 200 < x ∧ x < 4 / 5 ∧ |((80 : Int) : ℚ) - 100 * x| ≤ 1 / 2 := ⟨399 / 500, by norm_num, by norm_num, by rw [abs_le]; norm_num⟩

example : ∃ l : List (ℚ × ℚ), l ≠ [] ∧ (∀ p ∈ l, 0 < p.1) ∧ ∀ p ∈ l, 0 ≤ p.2 ∧ p.2 ≤ 1 := ⟨[(1, 1), (2, 1 / 2)], by simp, by simp, by simp; norm_num⟩

end Verif.Cnst
