import Verif.Parset.PropsAccepted
import Verif.Parset.PropsStored

/-!
# C98: what the validation of a user parset checks; C100: values written by the package
-/

namespace Verif.Parset

/-! ## C98 -/

/-- A property is well written if it has not been given, if no pattern is known for it, or if its text is matched by the pattern. -/
def WellWritten (rows : List Row) (f : Field) : Prop := f.modified = true → ∀ p, synOf rows f.key = some p → fullmatchText p f.value = .ok true

/-- All tables of properties. -/
def allRows : List (List Row) := [obsRows, outRows, anaRows, beamRows, pcRows]

theorem all_compile : ∀ rows ∈ allRows, ∀ r ∈ rows, r.key ≠ "nri_dumpTime".toList → ∀ p, r.syn = some p → (compile p).isSome = true := by
  have : allRows.all (fun rows => rows.all fun r => decide (r.key = "nri_dumpTime".toList) || r.syn.all fun p => (compile p).isSome) = true := by decide +kernel
  intro rows hrows r hr hk p hp
  have h1 := List.all_eq_true.1 (List.all_eq_true.1 this rows hrows) r hr
  rw [Bool.or_eq_true, decide_eq_true_eq] at h1
  rcases h1 with h1 | h1
  · exact absurd h1 hk
  · rw [hp] at h1; exact h1

theorem dump_pattern : ∀ rows ∈ allRows, ∀ p, synOf rows "nri_dumpTime".toList = some p → compile p = none := by
  have : allRows.all (fun rows => (synOf rows "nri_dumpTime".toList).all fun p => decide (compile p = none)) = true := by decide +kernel
  intro rows hrows p hp
  have h1 := List.all_eq_true.1 this rows hrows
  rw [hp] at h1
  exact of_decide_eq_true h1

theorem syn_row {rows : List Row} {k p : Str} (h : synOf rows k = some p) : ∃ r ∈ rows, r.key = k ∧ r.syn = some p := by
  obtain ⟨r, h1, h2⟩ := Option.bind_eq_some_iff.1 h
  exact ⟨r, List.mem_of_find?_eq_some h1, by simpa using List.find?_some h1, h2⟩

theorem field_cases {rows : List Row} (hr : rows ∈ allRows) (f : Field) :
    (f.key = "nri_dumpTime".toList ∧ f.modified = true ∧ (∃ p, synOf rows f.key = some p) ∧ checkField rows f = .error .exception) ∨
    (¬(f.key = "nri_dumpTime".toList ∧ f.modified = true ∧ ∃ p, synOf rows f.key = some p) ∧ ∃ b, checkField rows f = .ok b ∧ (b = true ↔ WellWritten rows f)) := by
  unfold checkField WellWritten
  cases hs : synOf rows f.key with
  | none => exact Or.inr ⟨by simp, true, rfl, by simp⟩
  | some p =>
    rw [Option.elim_some]
    by_cases hm : f.modified = true
    · rw [if_pos hm]
      by_cases hk : f.key = "nri_dumpTime".toList
      · left
        refine ⟨hk, hm, ⟨p, rfl⟩, ?_⟩
        unfold fullmatchText
        rw [dump_pattern rows hr p (by rw [← hk]; exact hs)]; rfl
      · right
        obtain ⟨r, h1, h2, h3⟩ := syn_row hs
        have h4 := all_compile rows hr r h1 (by rw [h2]; exact hk) p h3
        obtain ⟨q, hq⟩ := Option.isSome_iff_exists.1 h4
        refine ⟨fun h => hk h.1, fullmatch q.1 q.2 f.value, by unfold fullmatchText; rw [hq]; rfl, ?_⟩
        constructor
        · intro h _ p' hp'
          injection hp' with hp'
          rw [← hp']; unfold fullmatchText; rw [hq]
          exact congrArg Except.ok h
        · intro h
          have := h hm p rfl
          unfold fullmatchText at this
          rw [hq] at this
          injection this
    · right
      rw [if_neg hm]
      exact ⟨fun h => hm h.2.1, true, rfl, by simp [hm]⟩

/-- The dump time of the imager is given. -/
def GivesDump (rows : List Row) (b : Block) : Prop := ∃ f ∈ b, f.key = "nri_dumpTime".toList ∧ f.modified = true ∧ ∃ p, synOf rows f.key = some p

theorem keys_cases {rows : List Row} (hr : rows ∈ allRows) : ∀ b : Block,
    (GivesDump rows b ∧ checkKeys rows b = .error .exception) ∨ (¬GivesDump rows b ∧ ∃ x, checkKeys rows b = .ok x ∧ (x = true ↔ ∀ f ∈ b, WellWritten rows f))
  | [] => Or.inr ⟨(by rintro ⟨f, hf, -⟩; cases hf), true, rfl, by simp⟩
  | f :: b => by
    unfold checkKeys
    rcases field_cases hr f with ⟨h1, h2, h3, h4⟩ | ⟨h1, x, h2, h3⟩
    · left
      rw [h4]
      exact ⟨⟨f, List.mem_cons_self, h1, h2, h3⟩, rfl⟩
    · rw [h2]
      rcases keys_cases hr b with ⟨⟨g, hg, h4⟩, h5⟩ | ⟨h4, y, h5, h6⟩
      · left
        refine ⟨⟨g, List.mem_cons_of_mem _ hg, h4⟩, ?_⟩
        show (checkKeys rows b).map _ = _
        rw [h5]; rfl
      · right
        refine ⟨?_, x && y, ?_, ?_⟩
        · rintro ⟨g, hg, hg'⟩
          rcases List.mem_cons.1 hg with rfl | hg
          · exact h1 hg'
          · exact h4 ⟨g, hg, hg'⟩
        · show (checkKeys rows b).map _ = _
          rw [h5]; rfl
        · rw [Bool.and_eq_true, h3, h6, List.forall_mem_cons]

theorem all_cases : ∀ l : List (List Row × Block), (∀ b ∈ l, b.1 ∈ allRows) →
    ((∃ b ∈ l, GivesDump b.1 b.2) ∧ checkAll l = .error .exception) ∨
    ((¬∃ b ∈ l, GivesDump b.1 b.2) ∧ ∃ x, checkAll l = .ok x ∧ (x = true ↔ ∀ b ∈ l, ∀ f ∈ b.2, WellWritten b.1 f))
  | [], _ => Or.inr ⟨(by rintro ⟨f, hf, -⟩; cases hf), true, rfl, by simp⟩
  | b :: l, h => by
    unfold checkAll
    rcases keys_cases (h b List.mem_cons_self) b.2 with ⟨h1, h2⟩ | ⟨h1, x, h2, h3⟩
    · left
      rw [h2]
      exact ⟨⟨b, List.mem_cons_self, h1⟩, rfl⟩
    · rw [h2]
      rcases all_cases l (fun b hb => h b (List.mem_cons_of_mem _ hb)) with ⟨⟨g, hg, h4⟩, h5⟩ | ⟨h4, y, h5, h6⟩
      · left
        refine ⟨⟨g, List.mem_cons_of_mem _ hg, h4⟩, ?_⟩
        show (checkAll l).map _ = _
        rw [h5]; rfl
      · right
        refine ⟨?_, x && y, ?_, ?_⟩
        · rintro ⟨g, hg, hg'⟩
          rcases List.mem_cons.1 hg with rfl | hg
          · exact h1 hg'
          · exact h4 ⟨g, hg, hg'⟩
        · show (checkAll l).map _ = _
          rw [h5]; rfl
        · rw [Bool.and_eq_true, h3, h6, List.forall_mem_cons]

theorem blocks_rows (u : UFile) : ∀ b ∈ u.blocks, b.1 ∈ allRows := by
  intro b hb
  unfold UFile.blocks at hb
  simp only [List.mem_cons, List.mem_flatMap, List.mem_append, List.mem_map] at hb
  unfold allRows
  rcases hb with rfl | rfl | ⟨a, -, rfl | ⟨c, -, rfl⟩ | ⟨c, -, rfl⟩⟩ <;> simp

theorem no_dump_syn : ∀ rows ∈ allRows, (∃ p, synOf rows "nri_dumpTime".toList = some p) → rows = outRows := by
  intro rows hr
  simp only [allRows, List.mem_cons, List.not_mem_nil, or_false] at hr
  rcases hr with rfl | rfl | rfl | rfl | rfl
  · rintro ⟨p, hp⟩; exact absurd hp (by rw [show synOf obsRows "nri_dumpTime".toList = none by decide +kernel]; simp)
  · exact fun _ => rfl
  · rintro ⟨p, hp⟩; exact absurd hp (by rw [show synOf anaRows "nri_dumpTime".toList = none by decide +kernel]; simp)
  · rintro ⟨p, hp⟩; exact absurd hp (by rw [show synOf beamRows "nri_dumpTime".toList = none by decide +kernel]; simp)
  · rintro ⟨p, hp⟩; exact absurd hp (by rw [show synOf pcRows "nri_dumpTime".toList = none by decide +kernel]; simp)

theorem rows_ne : obsRows ≠ outRows ∧ anaRows ≠ outRows ∧ beamRows ≠ outRows ∧ pcRows ≠ outRows := by
  have key : ∀ l : List Row, synOf l "nri_dumpTime".toList = none → l ≠ outRows := by
    rintro l h rfl
    exact absurd h (by decide +kernel)
  exact ⟨key _ (by decide +kernel), key _ (by decide +kernel), key _ (by decide +kernel), key _ (by decide +kernel)⟩

theorem gives_dump (u : UFile) : (∃ b ∈ u.blocks, GivesDump b.1 b.2) ↔ ∃ f ∈ u.out, f.key = "nri_dumpTime".toList ∧ f.modified = true := by
  constructor
  · rintro ⟨b, hb, f, hf, h1, h2, h3⟩
    rw [h1] at h3
    have h4 := no_dump_syn b.1 (blocks_rows u b hb) h3
    unfold UFile.blocks at hb
    simp only [List.mem_cons, List.mem_flatMap, List.mem_append, List.mem_map] at hb
    rcases hb with rfl | rfl | ⟨a, -, rfl | ⟨c, -, rfl⟩ | ⟨c, -, rfl⟩⟩
    · exact absurd h4 rows_ne.1
    · exact ⟨f, hf, h1, h2⟩
    · exact absurd h4 rows_ne.2.1
    · exact absurd h4 rows_ne.2.2.1
    · exact absurd h4 rows_ne.2.2.2
  · rintro ⟨f, hf, h1, h2⟩
    refine ⟨(outRows, u.out), by simp [UFile.blocks], f, hf, h1, h2, ?_⟩
    rw [h1]
    show ∃ p, synOf outRows "nri_dumpTime".toList = some p
    exact Option.isSome_iff_exists.1 (by decide +kernel)

/-- When the dump time of the imager is left out, the validation answers, and it answers `True` exactly if every property which has been given, in every block of the file, is matched by its pattern. -/
theorem validate_partial (u : UFile) (h : ∀ f ∈ u.out, f.key = "nri_dumpTime".toList → f.modified = false) :
    ∃ b, u.validate = .ok (u.numbered, b) ∧ (b = true ↔
      (∀ f ∈ u.numbered.obs, WellWritten obsRows f) ∧ (∀ f ∈ u.out, WellWritten outRows f) ∧
      ∀ a ∈ u.anas, (∀ f ∈ a.1, WellWritten anaRows f) ∧ (∀ n ∈ a.2.1, ∀ f ∈ n, WellWritten beamRows f) ∧ ∀ n ∈ a.2.2, ∀ f ∈ n, WellWritten pcRows f) := by
  unfold UFile.validate
  rcases all_cases u.numbered.blocks (blocks_rows _) with ⟨h1, -⟩ | ⟨-, x, h1, h2⟩
  · obtain ⟨f, hf, h3, h4⟩ := (gives_dump _).1 h1
    have := h f hf h3
    rw [h4] at this; cases this
  · refine ⟨x, by rw [h1]; rfl, h2.trans ?_⟩
    unfold UFile.blocks
    rw [List.forall_mem_cons, List.forall_mem_cons]
    refine and_congr Iff.rfl (and_congr Iff.rfl ?_)
    constructor
    · intro h a ha
      refine ⟨h (anaRows, a.1) (List.mem_flatMap.2 ⟨a, ha, List.mem_cons_self⟩), fun n hn => ?_, fun n hn => ?_⟩
      · exact h (beamRows, n) (List.mem_flatMap.2 ⟨a, ha, List.mem_cons_of_mem _ (List.mem_append_left _ (List.mem_map.2 ⟨n, hn, rfl⟩))⟩)
      · exact h (pcRows, n) (List.mem_flatMap.2 ⟨a, ha, List.mem_cons_of_mem _ (List.mem_append_right _ (List.mem_map.2 ⟨n, hn, rfl⟩))⟩)
    · intro h b hb
      obtain ⟨a, ha, hb⟩ := List.mem_flatMap.1 hb
      obtain ⟨h1, h2, h3⟩ := h a ha
      rcases List.mem_cons.1 hb with rfl | hb
      · exact h1
      · rcases List.mem_append.1 hb with hb | hb
        · obtain ⟨n, hn, rfl⟩ := List.mem_map.1 hb
          exact h2 n hn
        · obtain ⟨n, hn, rfl⟩ := List.mem_map.1 hb
          exact h3 n hn

/-- When it is given, whatever its value and whatever the rest of the file, the validation fails with an exception. -/
theorem dump_time_violated (u : UFile) (f : Field) (hf : f ∈ u.out) (hk : f.key = "nri_dumpTime".toList) (hm : f.modified = true) : u.validate = .error .exception := by
  unfold UFile.validate
  rcases all_cases u.numbered.blocks (blocks_rows _) with ⟨-, h1⟩ | ⟨h1, -⟩
  · rw [h1]; rfl
  · exact absurd ((gives_dump u.numbered).2 ⟨f, hf, hk, hm⟩) h1

/-- A new file, with nothing given. -/
def emptyFile : UFile := ⟨fresh obsRows, fresh outRows, []⟩

/-- A file where nothing but the dump time is given. -/
example : (⟨fresh obsRows, modify (fresh outRows) [("nri_dumpTime".toList, .text "1".toList)], []⟩ : UFile).validate = .error .exception :=
  dump_time_violated _ ⟨"nri_dumpTime".toList, "1".toList, true, false⟩ (by decide +kernel) rfl rfl

/-- The answer `True` does not tell that all that is written is well formed: the e-mail address written when none is given is matched by no pattern. -/
theorem placeholder_violated : (emptyFile.validate.map Prod.snd) = .ok true ∧
    ∃ p ∈ written emptyFile.numbered.obs, p.1 = "contactEmail".toList ∧ ¬Accepts obsRows p.1 p.2 := by
  constructor
  · obtain ⟨b, h1, h2⟩ := validate_partial emptyFile (by
      have : emptyFile.out.all (fun f => !decide (f.key = "nri_dumpTime".toList) || !f.modified) = true := by decide +kernel
      intro f hf hk
      have := List.all_eq_true.1 this f hf
      simpa [hk] using this)
    rw [h1]
    have : b = true := by
      rw [h2]
      have all_ok : ∀ (rows : List Row) (b : Block), b.all (fun f => !f.modified || (synOf rows f.key).all fun p => match compile p with | none => false | some q => fullmatch q.1 q.2 f.value) = true → ∀ f ∈ b, WellWritten rows f := by
        intro rows b h f hf hm p hp
        have := List.all_eq_true.1 h f hf
        rw [hm, hp] at this
        simp only [Bool.not_true, Bool.false_or, Option.all_some] at this
        unfold fullmatchText
        cases hc : compile p with
        | none => rw [hc] at this; cases this
        | some q => rw [hc] at this; exact congrArg Except.ok this
      refine ⟨all_ok _ _ (by decide +kernel), all_ok _ _ (by decide +kernel), ?_⟩
      intro a ha
      cases ha
    rw [this]; rfl
  · exact ⟨("contactEmail".toList, "contact_email".toList), by decide +kernel, rfl, by unfold Accepts; decide +kernel⟩

/-- The counts of beams written by the validation itself are always matched. -/
theorem counts_accepted (n : Nat) : Accepts obsRows "nrAnabeams".toList (natStr n) ∧ Accepts obsRows "nrBeams".toList (natStr n) ∧ Accepts obsRows "nrPhaseCenters".toList (natStr n) := by
  have key : ∀ k, (synOf obsRows k).bind compile = some (false, .cat (.rep 1 none (dig '0' '9')) .eps) → Accepts obsRows k (natStr n) := by
    intro k hk
    rw [accepts_of hk (by decide), cat_ends, rep_cls]
    refine ⟨List.length_pos_iff.2 (natStr_ne n), fun h e => (by cases e), fun c hc => ?_⟩
    rw [digit_cls]; exact natStr_digits n c hc
  exact ⟨key _ (by decide +kernel), key _ (by decide +kernel), key _ (by decide +kernel)⟩

/-! ## C100 -/

/-- Texts accepted for a duration: a whole number of seconds, minutes or hours. -/
theorem duration_accepted (t : Str) : Accepts anaRows "duration".toList t ↔ ∃ d u, t = d ++ [u] ∧ isDigits d = true ∧ (u = 's' ∨ u = 'm' ∨ u = 'h') := by
  have hp : (synOf anaRows "duration".toList).bind compile = some (false, .cat .bos (.cat (.rep 1 none (dig '0' '9')) (.cat (.cls false [('s', 's'), ('m', 'm'), ('h', 'h')]) (.cat .eos .eps)))) := by decide +kernel
  have hu : ∀ c, inCls false false [('s', 's'), ('m', 'm'), ('h', 'h')] c = true ↔ (c = 's' ∨ c = 'm' ∨ c = 'h') := by
    intro c
    have h1 := char_cls 's' c
    have h2 := char_cls 'm' c
    have h3 := char_cls 'h' c
    unfold inCls at *
    simp only [List.any_cons, List.any_nil, Bool.or_false, Bool.false_and, Bool.false_bne, Bool.or_eq_true] at *
    rw [h1, h2, h3]
  rw [accepts_of hp (by decide), cat_bos]
  constructor
  · rintro ⟨d, v, rfl, hd, hv⟩
    obtain ⟨c, w, rfl, hc, hw⟩ := cat_cls.1 hv
    have hw := at_end.1 hw
    obtain ⟨h1, -, h2⟩ := rep_cls.1 hd
    refine ⟨d, c, by rw [hw], ?_, (hu c).1 hc⟩
    unfold isDigits
    rw [Bool.and_eq_true, List.all_eq_true]
    refine ⟨?_, fun x hx => by rw [← digit_cls]; exact h2 x hx⟩
    cases d with
    | nil => simp at h1
    | cons => rfl
  · rintro ⟨d, u, rfl, hd, hu'⟩
    unfold isDigits at hd
    rw [Bool.and_eq_true, List.all_eq_true] at hd
    refine ⟨d, [u], rfl, rep_cls.2 ⟨?_, fun h e => (by cases e), fun c hc => by rw [digit_cls]; exact hd.2 c hc⟩, cat_cls.2 ⟨u, [], rfl, (hu u).2 hu', at_end.2 rfl⟩⟩
    cases d with
    | nil => simp at hd
    | cons => simp

/-- Every accepted duration is understood, as the number times its unit. -/
theorem duration_understood (t : Str) (h : Accepts anaRows "duration".toList t) : ∃ d u k, t = d ++ [u] ∧ unitSeconds u = some k ∧ getDuration t = .ok (num d * k) := by
  obtain ⟨d, u, rfl, hd, hu⟩ := (duration_accepted t).1 h
  unfold isDigits at hd
  rw [Bool.and_eq_true, List.all_eq_true] at hd
  have hnu : u.isDigit = false := by rcases hu with rfl | rfl | rfl <;> decide
  have hk : ∃ k, unitSeconds u = some k := by rcases hu with rfl | rfl | rfl <;> exact ⟨_, rfl⟩
  obtain ⟨k, hk⟩ := hk
  refine ⟨d, u, k, rfl, hk, ?_⟩
  have h1 : (d ++ [u]).takeWhile Char.isDigit = d := by
    rw [List.takeWhile_append_of_pos hd.2, List.takeWhile_cons, hnu]; simp
  have h2 : (d ++ [u]).dropWhile Char.isDigit = [u] := by
    rw [List.dropWhile_append_of_pos hd.2, List.dropWhile_cons, hnu]; simp
  unfold getDuration
  rw [h1, h2]
  simp only [List.head?_cons, Option.bind_some, hk]
  rw [if_neg]
  · rfl
  · rintro rfl; simp at hd

/-- A duration given as a time difference is accepted exactly when it does not round below zero. -/
theorem delta_accepted (q : ℚ) : Accepts anaRows "duration".toList (UVal.delta q).stored ↔ 0 ≤ roundEven q := by
  rw [duration_accepted]
  show (∃ d u, intStr (roundEven q) ++ ['s'] = d ++ [u] ∧ _) ↔ _
  constructor
  · rintro ⟨d, u, h1, h2, h3⟩
    have h4 := (List.append_inj' h1 rfl).1
    cases hn : roundEven q with
    | ofNat n => exact Int.natCast_nonneg n
    | negSucc n =>
      rw [hn] at h4
      rw [← h4] at h2
      exact absurd h2 (by simp [intStr, isDigits])
  · intro h
    obtain ⟨n, hn⟩ := Int.eq_ofNat_of_zero_le h
    rw [hn]
    exact ⟨natStr n, 's', rfl, isDigits_natStr n, Or.inl rfl⟩

example : 0 ≤ roundEven (3600 : ℚ) ∧ ¬(0 ≤ roundEven (-60 : ℚ)) := by decide +kernel

/-! Dates -/

/-- A number of two digits. -/
def two (n : Nat) : Str := [Nat.digitChar (n / 10), Nat.digitChar (n % 10)]

/-- Text of a date and time. -/
def stamp (y mo d h mi s : Nat) : Str := two (y / 100) ++ two (y % 100) ++ '-' :: two mo ++ '-' :: two d ++ 'T' :: two h ++ ':' :: two mi ++ ':' :: two s

theorem cat_lit {c : Char} {r : Re} {p : Option Char} {w rest : Str} : Reads false (.cat (lit c) r) p w rest ↔ ∃ v, w = c :: v ∧ Reads false r (some c) v rest := by
  rw [cat_cls]
  constructor
  · rintro ⟨x, v, rfl, hx, hv⟩
    rw [char_cls] at hx
    exact ⟨v, by rw [hx], by rw [← hx]; exact hv⟩
  · rintro ⟨v, rfl, hv⟩
    exact ⟨c, v, rfl, (char_cls _ _).2 rfl, hv⟩

/-- Two digits, then what follows. -/
theorem two_digits {a b c d : Nat} (ha : a < 10) (hb : b < 10) (hc : c < 10) (hd : d < 10) {r : Re} {p : Option Char} {w rest : Str} :
    Reads false (.cat (dig (Nat.digitChar a) (Nat.digitChar b)) (.cat (dig (Nat.digitChar c) (Nat.digitChar d)) r)) p w rest ↔
    ∃ n v, a ≤ n / 10 ∧ n / 10 ≤ b ∧ c ≤ n % 10 ∧ n % 10 ≤ d ∧ w = two n ++ v ∧ Reads false r (some (Nat.digitChar (n % 10))) v rest := by
  rw [one_digit ha hb]
  constructor
  · rintro ⟨k, v, h1, h2, rfl, hv⟩
    obtain ⟨m, u, h3, h4, rfl, hu⟩ := (one_digit hc hd).1 hv
    have e1 : (10 * k + m) / 10 = k := by omega
    have e2 : (10 * k + m) % 10 = m := by omega
    refine ⟨10 * k + m, u, by omega, by omega, by omega, by omega, ?_, by rw [e2]; exact hu⟩
    unfold two; rw [e1, e2]; rfl
  · rintro ⟨n, v, h1, h2, h3, h4, rfl, hv⟩
    exact ⟨n / 10, Nat.digitChar (n % 10) :: v, h1, h2, rfl, (one_digit hc hd).2 ⟨n % 10, v, h3, h4, rfl, hv⟩⟩

/-- What follows a number of the group. -/
theorem month_iff {k : Nat} {r : Re} {p : Option Char} {w rest : Str} :
    Reads false (.cat (.grp k (.alt (.cat (lit '0') (.cat (dig '1' '9') .eps)) (.cat (lit '1') (.cat (dig '0' '2') .eps)))) r) p w rest ↔
    ∃ n v, 1 ≤ n ∧ n ≤ 12 ∧ w = two n ++ v ∧ Reads false r (some (Nat.digitChar (n % 10))) v rest := by
  rw [cat_grp, cat_alt, cat_cat, cat_cat]
  have e : ∀ (a b : Re) (p : Option Char) (w rest : Str), Reads false (.cat a (.cat (.cat b .eps) r)) p w rest ↔ Reads false (.cat a (.cat b r)) p w rest := by
    intro a b p w rest
    constructor
    · rintro ⟨x, y, h1, h2, h3⟩
      rw [cat_cat] at h3
      obtain ⟨y1, y2, h4, h5, h6⟩ := h3
      rw [cat_eps] at h6
      exact ⟨x, y, h1, h2, y1, y2, h4, h5, h6⟩
    · rintro ⟨x, y, h1, h2, y1, y2, h4, h5, h6⟩
      refine ⟨x, y, h1, h2, ?_⟩
      rw [cat_cat]
      exact ⟨y1, y2, h4, h5, cat_eps.2 h6⟩
  rw [e, e, show lit '0' = dig (Nat.digitChar 0) (Nat.digitChar 0) from rfl, show lit '1' = dig (Nat.digitChar 1) (Nat.digitChar 1) from rfl,
    show dig '1' '9' = dig (Nat.digitChar 1) (Nat.digitChar 9) from rfl, show dig '0' '2' = dig (Nat.digitChar 0) (Nat.digitChar 2) from rfl,
    two_digits (by omega) (by omega) (by omega) (by omega), two_digits (by omega) (by omega) (by omega) (by omega)]
  constructor
  · rintro (⟨n, v, h1, h2, h3, h4, h5, h6⟩ | ⟨n, v, h1, h2, h3, h4, h5, h6⟩)
    · exact ⟨n, v, by omega, by omega, h5, h6⟩
    · exact ⟨n, v, by omega, by omega, h5, h6⟩
  · rintro ⟨n, v, h1, h2, h5, h6⟩
    by_cases h : n < 10
    · exact Or.inl ⟨n, v, by omega, by omega, by omega, by omega, h5, h6⟩
    · exact Or.inr ⟨n, v, by omega, by omega, by omega, by omega, h5, h6⟩

theorem cat_drop {r a b : Re} (p : Option Char) (w rest : Str) : Reads false (.cat a (.cat (.cat b .eps) r)) p w rest ↔ Reads false (.cat a (.cat b r)) p w rest := by
  constructor
  · rintro ⟨x, y, h1, h2, h3⟩
    rw [cat_cat] at h3
    obtain ⟨y1, y2, h4, h5, h6⟩ := h3
    rw [cat_eps] at h6
    exact ⟨x, y, h1, h2, y1, y2, h4, h5, h6⟩
  · rintro ⟨x, y, h1, h2, y1, y2, h4, h5, h6⟩
    refine ⟨x, y, h1, h2, ?_⟩
    rw [cat_cat]
    exact ⟨y1, y2, h4, h5, cat_eps.2 h6⟩

/-- The same for days. -/
theorem day_iff {k : Nat} {r : Re} {p : Option Char} {w rest : Str} :
    Reads false (.cat (.grp k (.alt (.cat (lit '0') (.cat (dig '1' '9') .eps)) (.alt (.cat (dig '1' '2') (.cat (dig '0' '9') .eps)) (.cat (lit '3') (.cat (dig '0' '1') .eps))))) r) p w rest ↔
    ∃ n v, 1 ≤ n ∧ n ≤ 31 ∧ w = two n ++ v ∧ Reads false r (some (Nat.digitChar (n % 10))) v rest := by
  rw [cat_grp, cat_alt, cat_alt, cat_cat, cat_cat, cat_cat, cat_drop, cat_drop, cat_drop, show lit '0' = dig (Nat.digitChar 0) (Nat.digitChar 0) from rfl,
    show lit '3' = dig (Nat.digitChar 3) (Nat.digitChar 3) from rfl,
    show dig '1' '9' = dig (Nat.digitChar 1) (Nat.digitChar 9) from rfl, show dig '1' '2' = dig (Nat.digitChar 1) (Nat.digitChar 2) from rfl,
    show dig '0' '9' = dig (Nat.digitChar 0) (Nat.digitChar 9) from rfl, show dig '0' '1' = dig (Nat.digitChar 0) (Nat.digitChar 1) from rfl,
    two_digits (by omega) (by omega) (by omega) (by omega), two_digits (by omega) (by omega) (by omega) (by omega), two_digits (by omega) (by omega) (by omega) (by omega)]
  constructor
  · rintro (⟨n, v, h1, h2, h3, h4, h5, h6⟩ | ⟨n, v, h1, h2, h3, h4, h5, h6⟩ | ⟨n, v, h1, h2, h3, h4, h5, h6⟩) <;> exact ⟨n, v, by omega, by omega, h5, h6⟩
  · rintro ⟨n, v, h1, h2, h5, h6⟩
    by_cases h : n < 10
    · exact Or.inl ⟨n, v, by omega, by omega, by omega, by omega, h5, h6⟩
    · by_cases h' : n < 30
      · exact Or.inr (Or.inl ⟨n, v, by omega, by omega, by omega, by omega, h5, h6⟩)
      · exact Or.inr (Or.inr ⟨n, v, by omega, by omega, by omega, by omega, h5, h6⟩)

/-- The same for hours. -/
theorem hour_iff {k : Nat} {r : Re} {p : Option Char} {w rest : Str} :
    Reads false (.cat (.grp k (.alt (.cat (lit '0') (.cat (dig '0' '9') .eps)) (.alt (.cat (lit '1') (.cat (dig '0' '9') .eps)) (.cat (lit '2') (.cat (dig '0' '4') .eps))))) r) p w rest ↔
    ∃ n v, n ≤ 24 ∧ w = two n ++ v ∧ Reads false r (some (Nat.digitChar (n % 10))) v rest := by
  rw [cat_grp, cat_alt, cat_alt, cat_cat, cat_cat, cat_cat, cat_drop, cat_drop, cat_drop, show lit '0' = dig (Nat.digitChar 0) (Nat.digitChar 0) from rfl,
    show lit '1' = dig (Nat.digitChar 1) (Nat.digitChar 1) from rfl, show lit '2' = dig (Nat.digitChar 2) (Nat.digitChar 2) from rfl,
    show dig '0' '9' = dig (Nat.digitChar 0) (Nat.digitChar 9) from rfl, show dig '0' '4' = dig (Nat.digitChar 0) (Nat.digitChar 4) from rfl,
    two_digits (by omega) (by omega) (by omega) (by omega), two_digits (by omega) (by omega) (by omega) (by omega), two_digits (by omega) (by omega) (by omega) (by omega)]
  constructor
  · rintro (⟨n, v, h1, h2, h3, h4, h5, h6⟩ | ⟨n, v, h1, h2, h3, h4, h5, h6⟩ | ⟨n, v, h1, h2, h3, h4, h5, h6⟩) <;> exact ⟨n, v, by omega, h5, h6⟩
  · rintro ⟨n, v, h1, h5, h6⟩
    by_cases h : n < 10
    · exact Or.inl ⟨n, v, by omega, by omega, by omega, by omega, h5, h6⟩
    · by_cases h' : n < 20
      · exact Or.inr (Or.inl ⟨n, v, by omega, by omega, by omega, by omega, h5, h6⟩)
      · exact Or.inr (Or.inr ⟨n, v, by omega, by omega, by omega, by omega, h5, h6⟩)

/-- Minutes and seconds. -/
theorem minute_iff {r : Re} {p : Option Char} {w rest : Str} : Reads false (.cat (dig '0' '5') (.cat (dig '0' '9') r)) p w rest ↔
    ∃ n v, n ≤ 59 ∧ w = two n ++ v ∧ Reads false r (some (Nat.digitChar (n % 10))) v rest := by
  rw [show dig '0' '5' = dig (Nat.digitChar 0) (Nat.digitChar 5) from rfl, show dig '0' '9' = dig (Nat.digitChar 0) (Nat.digitChar 9) from rfl,
    two_digits (by omega) (by omega) (by omega) (by omega)]
  constructor
  · rintro ⟨n, v, h1, h2, h3, h4, h5, h6⟩
    exact ⟨n, v, by omega, h5, h6⟩
  · rintro ⟨n, v, h1, h5, h6⟩
    exact ⟨n, v, by omega, by omega, by omega, by omega, h5, h6⟩

/-- Pattern of minutes, seconds and Z. -/
def minRe : Re := .cat (dig '0' '5') (.cat (dig '0' '9') (.cat (lit ':') (.cat (dig '0' '5') (.cat (dig '0' '9') (.cat (lit 'Z') (.cat .eos .eps))))))

/-- Pattern of the hours and what follows. -/
def clockRe : Re := .cat (.grp 3 (.alt (.cat (lit '0') (.cat (dig '0' '9') .eps)) (.alt (.cat (lit '1') (.cat (dig '0' '9') .eps)) (.cat (lit '2') (.cat (dig '0' '4') .eps))))) (.cat (lit ':') minRe)

/-- Pattern of the day and what follows. -/
def dayRe : Re := .cat (.grp 2 (.alt (.cat (lit '0') (.cat (dig '1' '9') .eps)) (.alt (.cat (dig '1' '2') (.cat (dig '0' '9') .eps)) (.cat (lit '3') (.cat (dig '0' '1') .eps))))) (.cat (lit 'T') clockRe)

/-- Pattern of the month and what follows. -/
def monthRe : Re := .cat (.grp 1 (.alt (.cat (lit '0') (.cat (dig '1' '9') .eps)) (.cat (lit '1') (.cat (dig '0' '2') .eps)))) (.cat (lit '-') dayRe)

/-- Pattern of a date. -/
def timeRe : Re := .cat .bos (.cat (lit '2') (.cat (lit '0') (.cat (dig '1' '2') (.cat (dig '0' '9') (.cat (lit '-') monthRe)))))

theorem minRe_iff {p : Option Char} {w : Str} : Reads false minRe p w [] ↔ ∃ mi s, mi ≤ 59 ∧ s ≤ 59 ∧ w = two mi ++ ':' :: two s ++ ['Z'] := by
  unfold minRe
  rw [minute_iff]
  constructor
  · rintro ⟨mi, v, h1, rfl, h⟩
    obtain ⟨v1, rfl, h'⟩ := cat_lit.1 h
    obtain ⟨s, v2, h2, rfl, h''⟩ := minute_iff.1 h'
    obtain ⟨v3, rfl, h3⟩ := cat_lit.1 h''
    exact ⟨mi, s, h1, h2, by rw [at_end.1 h3]; simp⟩
  · rintro ⟨mi, s, h1, h2, rfl⟩
    exact ⟨mi, ':' :: two s ++ ['Z'], h1, by simp, cat_lit.2 ⟨two s ++ ['Z'], rfl, minute_iff.2 ⟨s, ['Z'], h2, rfl, cat_lit.2 ⟨[], rfl, at_end.2 rfl⟩⟩⟩⟩

theorem clockRe_iff {p : Option Char} {w : Str} : Reads false clockRe p w [] ↔ ∃ h mi s, h ≤ 24 ∧ mi ≤ 59 ∧ s ≤ 59 ∧ w = two h ++ ':' :: two mi ++ ':' :: two s ++ ['Z'] := by
  unfold clockRe
  rw [hour_iff]
  constructor
  · rintro ⟨n, v, h1, rfl, h⟩
    obtain ⟨v1, rfl, h'⟩ := cat_lit.1 h
    obtain ⟨mi, s, h2, h3, rfl⟩ := minRe_iff.1 h'
    exact ⟨n, mi, s, h1, h2, h3, by simp⟩
  · rintro ⟨n, mi, s, h1, h2, h3, rfl⟩
    exact ⟨n, ':' :: (two mi ++ ':' :: two s ++ ['Z']), h1, by simp, cat_lit.2 ⟨_, rfl, minRe_iff.2 ⟨mi, s, h2, h3, rfl⟩⟩⟩

theorem dayRe_iff {p : Option Char} {w : Str} : Reads false dayRe p w [] ↔ ∃ d h mi s, 1 ≤ d ∧ d ≤ 31 ∧ h ≤ 24 ∧ mi ≤ 59 ∧ s ≤ 59 ∧
    w = two d ++ 'T' :: two h ++ ':' :: two mi ++ ':' :: two s ++ ['Z'] := by
  unfold dayRe
  rw [day_iff]
  constructor
  · rintro ⟨n, v, h0, h1, rfl, h⟩
    obtain ⟨v1, rfl, h'⟩ := cat_lit.1 h
    obtain ⟨hh, mi, s, h2, h3, h4, rfl⟩ := clockRe_iff.1 h'
    exact ⟨n, hh, mi, s, h0, h1, h2, h3, h4, by simp⟩
  · rintro ⟨n, hh, mi, s, h0, h1, h2, h3, h4, rfl⟩
    exact ⟨n, 'T' :: (two hh ++ ':' :: two mi ++ ':' :: two s ++ ['Z']), h0, h1, by simp, cat_lit.2 ⟨_, rfl, clockRe_iff.2 ⟨hh, mi, s, h2, h3, h4, rfl⟩⟩⟩

theorem monthRe_iff {p : Option Char} {w : Str} : Reads false monthRe p w [] ↔ ∃ mo d h mi s, 1 ≤ mo ∧ mo ≤ 12 ∧ 1 ≤ d ∧ d ≤ 31 ∧ h ≤ 24 ∧ mi ≤ 59 ∧ s ≤ 59 ∧
    w = two mo ++ '-' :: two d ++ 'T' :: two h ++ ':' :: two mi ++ ':' :: two s ++ ['Z'] := by
  unfold monthRe
  rw [month_iff]
  constructor
  · rintro ⟨n, v, h0, h1, rfl, h⟩
    obtain ⟨v1, rfl, h'⟩ := cat_lit.1 h
    obtain ⟨d, hh, mi, s, h2, h3, h4, h5, h6, rfl⟩ := dayRe_iff.1 h'
    exact ⟨n, d, hh, mi, s, h0, h1, h2, h3, h4, h5, h6, by simp⟩
  · rintro ⟨n, d, hh, mi, s, h0, h1, h2, h3, h4, h5, h6, rfl⟩
    exact ⟨n, '-' :: (two d ++ 'T' :: two hh ++ ':' :: two mi ++ ':' :: two s ++ ['Z']), h0, h1, by simp, cat_lit.2 ⟨_, rfl, dayRe_iff.2 ⟨d, hh, mi, s, h2, h3, h4, h5, h6, rfl⟩⟩⟩

theorem time_pattern : (synOf anaRows "startTime".toList).bind compile = some (false, timeRe) ∧ (synOf anaRows "transitDate".toList).bind compile = some (false, timeRe) := by
  constructor <;> decide +kernel

/-- The dates accepted for the start of an observation are exactly those of the years 2010 to 2029, with a month from 1 to 12, a day from 1 to 31, an hour from 0 to 24, minutes and seconds from 0 to 59, and a Z. -/
theorem start_accepted (t : Str) : Accepts anaRows "startTime".toList t ↔
    ∃ y mo d h mi s, 2010 ≤ y ∧ y ≤ 2029 ∧ 1 ≤ mo ∧ mo ≤ 12 ∧ 1 ≤ d ∧ d ≤ 31 ∧ h ≤ 24 ∧ mi ≤ 59 ∧ s ≤ 59 ∧ t = stamp y mo d h mi s ++ ['Z'] := by
  rw [accepts_of time_pattern.1 (by decide)]
  unfold timeRe
  rw [cat_bos, cat_lit]
  constructor
  · rintro ⟨w1, rfl, h⟩
    obtain ⟨w2, rfl, h'⟩ := cat_lit.1 h
    rw [show dig '1' '2' = dig (Nat.digitChar 1) (Nat.digitChar 2) from rfl, show dig '0' '9' = dig (Nat.digitChar 0) (Nat.digitChar 9) from rfl] at h'
    obtain ⟨y, w3, hy1, hy2, hy3, hy4, rfl, h3⟩ := (two_digits (by omega) (by omega) (by omega) (by omega)).1 h'
    obtain ⟨w4, rfl, h4⟩ := cat_lit.1 h3
    obtain ⟨mo, d, hh, mi, s, hm1, hm2, hd1, hd2, hh1, hmi, hs, rfl⟩ := monthRe_iff.1 h4
    refine ⟨2000 + y, mo, d, hh, mi, s, by omega, by omega, hm1, hm2, hd1, hd2, hh1, hmi, hs, ?_⟩
    have e1 : (2000 + y) / 100 = 20 := by omega
    have e2 : (2000 + y) % 100 = y := by omega
    unfold stamp
    rw [e1, e2, show two 20 = ['2', '0'] from rfl]
    simp
  · rintro ⟨y, mo, d, h, mi, s, hy1, hy2, hm1, hm2, hd1, hd2, hh1, hmi, hs, rfl⟩
    have e1 : y / 100 = 20 := by omega
    refine ⟨'0' :: (two (y % 100) ++ '-' :: (two mo ++ '-' :: two d ++ 'T' :: two h ++ ':' :: two mi ++ ':' :: two s ++ ['Z'])), ?_, cat_lit.2 ⟨_, rfl, ?_⟩⟩
    · unfold stamp
      rw [e1, show two 20 = ['2', '0'] from rfl]
      simp
    · rw [show dig '1' '2' = dig (Nat.digitChar 1) (Nat.digitChar 2) from rfl, show dig '0' '9' = dig (Nat.digitChar 0) (Nat.digitChar 9) from rfl]
      exact (two_digits (by omega) (by omega) (by omega) (by omega)).2 ⟨y % 100, _, by omega, by omega, by omega, by omega, rfl,
        cat_lit.2 ⟨_, rfl, monthRe_iff.2 ⟨mo, d, h, mi, s, hm1, hm2, hd1, hd2, hh1, hmi, hs, rfl⟩⟩⟩

/-- So a start time of 2030 or later is refused. -/
theorem start_refused_violated (y mo d h mi s : Nat) (h1 : 2030 ≤ y) (h2 : y ≤ 9999) : ¬Accepts anaRows "startTime".toList (UVal.time (stamp y mo d h mi s)).stored := by
  rw [start_accepted]
  rintro ⟨y', mo', d', h', mi', s', h3, h4, -, -, -, -, -, -, -, h5⟩
  have h6 : stamp y mo d h mi s = stamp y' mo' d' h' mi' s' := (List.append_inj' h5 rfl).1
  simp only [stamp, two, List.cons_append, List.nil_append, List.cons.injEq] at h6
  obtain ⟨a, b, c, e, -⟩ := h6
  have inj : ∀ i, i < 10 → ∀ j, j < 10 → Nat.digitChar i = Nat.digitChar j → i = j := by decide
  have := inj _ (by omega) _ (by omega) a
  have := inj _ (by omega) _ (by omega) b
  have := inj _ (by omega) _ (by omega) c
  have := inj _ (by omega) _ (by omega) e
  omega

/-- And the 31st of February at 24:59:59 is accepted. -/
theorem start_impossible_violated : Accepts anaRows "startTime".toList "2021-02-31T24:59:59Z".toList :=
  (start_accepted _).2 ⟨2021, 2, 31, 24, 59, 59, by decide +kernel⟩

example : Accepts anaRows "startTime".toList (UVal.time "2022-07-14T05:30:00".toList).stored :=
  (start_accepted _).2 ⟨2022, 7, 14, 5, 30, 0, by decide +kernel⟩

/-- Booleans are accepted where they are asked. -/
theorem bool_accepted (b : Bool) : Accepts outRows "sst_userfile".toList (UVal.bool b).stored ∧ Accepts outRows "bst_userfile".toList (UVal.bool b).stored ∧
    Accepts outRows "xst_userfile".toList (UVal.bool b).stored ∧ Accepts beamRows "useParentPointing".toList (UVal.bool b).stored ∧ Accepts pcRows "useParentPointing".toList (UVal.bool b).stored := by
  unfold Accepts
  cases b <;> exact ⟨by decide +kernel, by decide +kernel, by decide +kernel, by decide +kernel, by decide +kernel⟩

/-- No list is accepted for the receivers of the imager, which are read as a list. -/
theorem receivers_violated (s : Str) : ¬Accepts outRows "nri_receivers".toList ('[' :: s) := by
  obtain ⟨p, hs, hc⟩ := Option.bind_eq_some_iff.1 (show (synOf outRows "nri_receivers".toList).bind compile = some (true,
    .alt (.cat .bos (.cat (.grp 1 (.cat (lit 't') (.cat (lit 'r') (.cat (lit 'u') (.cat (lit 'e') .eps))))) .eps))
      (.cat (.grp 2 (.cat (lit 'f') (.cat (lit 'a') (.cat (lit 'l') (.cat (lit 's') (.cat (lit 'e') .eps)))))) (.cat .eos .eps))) by decide +kernel)
  unfold Accepts checkField
  simp only [hs, Option.elim_some, if_true, fullmatchText, hc, Except.ok.injEq]
  rw [fullmatch_iff _ _ (by decide), reads_alt, cat_bos, cat_grp, cat_grp, cat_cat, cat_cat, cat_cls, cat_cls]
  rintro (⟨c, v, h1, h2, -⟩ | ⟨c, v, h1, h2, -⟩)
  · injection h1 with h1
    rw [← h1] at h2
    exact absurd h2 (by decide)
  · injection h1 with h1
    rw [← h1] at h2
    exact absurd h2 (by decide)

/-- A list of numbers given for the mini-arrays is accepted exactly when it is not empty and has numbers of mini-arrays only. -/
theorem ma_numbers_accepted (l : List Nat) : Accepts anaRows "maList".toList (UVal.list (l.map natStr)).stored ↔ l ≠ [] ∧ ∀ n ∈ l, IsMA n := by
  rw [ma_list_accepted]
  have hnc : ∀ m : List Idx, ∀ s ∈ m.map Idx.text, ',' ∉ s := by
    intro m s hs
    obtain ⟨x, -, rfl⟩ := List.mem_map.1 hs
    exact notMem_text (by decide) (by decide) x
  constructor
  · rintro ⟨m, hm, ht, hall⟩
    have h1 : join ',' (l.map natStr) = join ',' (m.map Idx.text) := by
      have : '[' :: join ',' (l.map natStr) ++ [']'] = '[' :: join ',' (m.map Idx.text) ++ [']'] := ht
      simpa using this
    have hl : l ≠ [] := by
      rintro rfl
      have h2 := splitOn_join ',' (m.map Idx.text) (by simpa using hm) (hnc m)
      rw [← h1] at h2
      cases m with
      | nil => exact hm rfl
      | cons x m =>
        have h3 : ([] : Str) = x.text := by
          have : [([] : Str)] = (x :: m).map Idx.text := h2
          simpa using congrArg List.head? this
        cases x with
        | one n => exact natStr_ne n h3.symm
        | range a b => simp [Idx.text] at h3
    refine ⟨hl, ?_⟩
    have h2 : l.map natStr = m.map Idx.text := by
      rw [← splitOn_join ',' (m.map Idx.text) (by simpa using hm) (hnc m), ← h1, splitOn_join ',' (l.map natStr) (by simpa using hl)]
      intro s hs hc
      obtain ⟨n, -, rfl⟩ := List.mem_map.1 hs
      exact absurd (natStr_digits n _ hc) (by decide)
    intro n hn
    have : natStr n ∈ m.map Idx.text := by rw [← h2]; exact List.mem_map.2 ⟨n, hn, rfl⟩
    obtain ⟨x, hx, hxe⟩ := List.mem_map.1 this
    cases x with
    | one k =>
      have e : k = n := by
        have := congrArg (fun s => Nat.ofDigitChars 10 s 0) hxe
        simpa [Idx.text, ofDigits_natStr] using this
      rw [← e]
      exact hall _ hx
    | range a b =>
      exfalso
      have : '.' ∈ natStr n := by rw [← hxe]; simp [Idx.text]
      exact absurd (natStr_digits n _ this) (by decide)
  · rintro ⟨hl, hall⟩
    refine ⟨l.map Idx.one, by simpa using hl, ?_, ?_⟩
    · show '[' :: join ',' (l.map natStr) ++ [']'] = '[' :: join ',' ((l.map Idx.one).map Idx.text) ++ [']']
      rw [List.map_map]; rfl
    · intro x hx
      obtain ⟨n, hn, rfl⟩ := List.mem_map.1 hx
      exact hall n hn

theorem mem_setKey {kv : Str × UVal} {b : Block} {f : Field} (h : f ∈ setKey kv b) :
    ∃ g ∈ b, f.key = g.key ∧ (g.key = kv.1 → f.modified = true ∧ f.value = kv.2.stored) ∧ (g.key ≠ kv.1 → f = g) := by
  obtain ⟨g, hg, rfl⟩ := List.mem_map.1 h
  by_cases c : g.key = kv.1
  · rw [if_pos c]; exact ⟨g, hg, rfl, fun _ => ⟨rfl, rfl⟩, fun q => absurd c q⟩
  · rw [if_neg c]; exact ⟨g, hg, rfl, fun q => absurd q c, fun _ => rfl⟩

theorem three_keys {k1 k2 k3 : Str} (h1 : k1 ≠ k2) (h2 : k1 ≠ k3) (h3 : k2 ≠ k3) (v1 v2 v3 : UVal) (b : Block) (f : Field)
    (hf : f ∈ modify b [(k1, v1), (k2, v2), (k3, v3)]) :
    (f.key = k1 → f.modified = true ∧ f.value = v1.stored) ∧ (f.key = k2 → f.modified = true ∧ f.value = v2.stored) ∧
      (f.key = k3 → f.modified = true ∧ f.value = v3.stored) := by
  obtain ⟨g1, hg1, e1, p1, q1⟩ := mem_setKey (kv := (k3, v3)) (b := modify b [(k1, v1), (k2, v2)]) hf
  obtain ⟨g2, hg2, e2, p2, q2⟩ := mem_setKey (kv := (k2, v2)) (b := modify b [(k1, v1)]) hg1
  obtain ⟨g3, hg3, e3, p3, q3⟩ := mem_setKey (kv := (k1, v1)) (b := b) hg2
  refine ⟨fun h => ?_, fun h => ?_, fun h => ?_⟩
  · have a : g1.key = k1 := e1 ▸ h
    have c : g2.key = k1 := e2 ▸ a
    have d : g3.key = k1 := e3 ▸ c
    rw [q1 (a ▸ h2), q2 (c ▸ h1)]; exact p3 d
  · have a : g1.key = k2 := e1 ▸ h
    have c : g2.key = k2 := e2 ▸ a
    rw [q1 (a ▸ h3)]; exact p2 c
  · exact p1 (e1 ▸ h)

/-- **C98**: the numbers of beams written are those of the blocks of the file. -/
theorem numbered_counts (u : UFile) (f : Field) (hf : f ∈ u.numbered.obs) :
    (f.key = "nrAnabeams".toList → f.modified = true ∧ f.value = natStr u.anas.length) ∧
    (f.key = "nrBeams".toList → f.modified = true ∧ f.value = natStr (u.anas.flatMap fun a => a.2.1).length) ∧
    (f.key = "nrPhaseCenters".toList → f.modified = true ∧ f.value = natStr (u.anas.flatMap fun a => a.2.2).length) := by
  rw [List.length_flatMap, List.length_flatMap]
  exact three_keys (by decide) (by decide) (by decide) _ _ _ u.obs f hf

/-- The lines written for each kind of block when nothing is given: its required properties, with the values of the package. -/
theorem required_written :
    written (fresh obsRows) = [("contactName".toList, "contact_name".toList), ("name".toList, "observation_name".toList), ("contactEmail".toList, "contact_email".toList),
      ("topic".toList, "key_project_name".toList)] ∧
    written (fresh outRows) = [] ∧
    written (fresh anaRows) = [("target".toList, "analog_beam_name".toList), ("trackingType".toList, "tracking".toList), ("startTime".toList, "2021-01-01T00:00:00Z".toList),
      ("duration".toList, "60s".toList)] ∧
    written (fresh beamRows) = [("target".toList, "numerical_beam_name".toList), ("toDo".toList, "tbd".toList), ("useParentPointing".toList, "false".toList)] ∧
    written (fresh pcRows) = [("target".toList, "numerical_beam_name".toList), ("toDo".toList, "nickel".toList), ("useParentPointing".toList, "false".toList)] := by
  decide +kernel

end Verif.Parset
