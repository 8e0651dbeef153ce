import Verif.Parset.Json
import Verif.Parset.PropsReplay
import Verif.Parset.PropsAccepted
import Verif.Config.PropsText

/-!
# Export of parsets: properties C103 and C104
-/

namespace Verif.Parset

open Verif.Config (PV paramsOf modeOf pvFloat pvInt contains)

/-! ## C103 Version and topic -/

theorem mapE_pyInt : ∀ l : List Nat, mapE pyInt (l.map natStr) = .ok (l.map fun n : Nat => (n : Int))
  | [] => rfl
  | n :: l => by
    show (pyInt (natStr n)).bind (fun y => (mapE pyInt (l.map natStr)).map (y :: ·)) = _
    rw [pyInt_natStr, mapE_pyInt l]
    rfl

theorem notMem_joinDot {c : Char} (hc : c.isDigit = false) (hd : c ≠ '.') : ∀ l : List Nat, c ∉ join '.' (l.map natStr)
  | [] => by intro h; cases h
  | [n] => notMem_natStr hc n
  | n :: m :: l => by
    intro h
    have e : join '.' ((n :: m :: l).map natStr) = natStr n ++ '.' :: join '.' ((m :: l).map natStr) := rfl
    rw [e, List.mem_append, List.mem_cons] at h
    rcases h with h | h | h
    · exact notMem_natStr hc n h
    · exact hd h
    · exact notMem_joinDot hc hd (m :: l) h


theorem joinDot_chars : ∀ (l : List Nat) (c : Char), c ∈ join '.' (l.map natStr) → c.isDigit = true ∨ c = '.'
  | [], c, h => by cases h
  | [n], c, h => Or.inl (natStr_digits n c h)
  | n :: m :: l, c, h => by
    have e : join '.' ((n :: m :: l).map natStr) = natStr n ++ '.' :: join '.' ((m :: l).map natStr) := rfl
    rw [e, List.mem_append, List.mem_cons] at h
    rcases h with h | h | h
    · exact Or.inl (natStr_digits n c h)
    · exact Or.inr h
    · exact joinDot_chars (m :: l) c h

theorem lower_solid {s : Str} (h : ∀ c ∈ s, c.isDigit = true ∨ c = '.') : lower s = s := by
  unfold lower
  conv_rhs => rw [← List.map_id s]
  apply List.map_congr_left
  intro c hc
  rcases h c hc with hd | rfl
  · have h2 : ¬c.isUpper = true := by
      unfold Char.isUpper
      unfold Char.isDigit at hd
      simp only [ge_iff_le, Bool.and_eq_true, decide_eq_true_eq] at hd ⊢
      intro hu
      have h1 := hd.2
      have h3 := hu.1
      exact absurd (UInt32.le_trans h3 h1) (by decide)
    simp only [id]
    unfold Char.toLower
    unfold Char.isUpper at h2
    simp only [ge_iff_le, decide_eq_true_eq] at h2
    rw [dif_neg]
    exact h2
  · rfl

/-- The value read for a version of two numbers or more. -/
theorem version_stored (isTime : Str → Bool) (isFloat : IsFloat) (a b : Nat) (l : List Nat) :
    setItem isTime isFloat "parsetVersion".toList (join '.' ((a :: b :: l).map natStr)) = .ok (.str (join '.' ((a :: b :: l).map natStr))) := by
  have hch := joinDot_chars (a :: b :: l)
  have hdot : '.' ∈ join '.' ((a :: b :: l).map natStr) := by
    show '.' ∈ natStr a ++ '.' :: join '.' ((b :: l).map natStr)
    simp
  generalize join '.' ((a :: b :: l).map natStr) = s at hch hdot ⊢
  have hn : ∀ c : Char, c.isDigit = false → c ≠ '.' → c ∉ s := fun c h1 h2 h => by
    rcases hch c h with h3 | h3
    · rw [h1] at h3; cases h3
    · exact h2 h3
  have hcl : clean s = s := by
    unfold clean
    rw [List.filter_eq_self]
    intro c hc
    have h1 : c ≠ '\n' := fun e => hn '\n' (by decide) (by decide) (e ▸ hc)
    have h2 : c ≠ '"' := fun e => hn '"' (by decide) (by decide) (e ▸ hc)
    simp [h1, h2]
  have hlow := lower_solid hch
  unfold setItem
  rw [hcl]
  dsimp only
  rw [hlow, if_neg, if_neg, if_neg, if_neg (by decide), if_neg (by decide), if_neg, if_neg (hn ':' (by decide) (by decide))]
  · intro h
    unfold isDigits at h
    simp only [Bool.and_eq_true, List.all_eq_true] at h
    exact absurd (h.2 '.' hdot) (by decide)
  · intro h
    exact hn 'f' (by decide) (by decide) (h ▸ by decide)
  · intro h
    exact hn 't' (by decide) (by decide) (h ▸ by decide)
  · rintro ⟨h, -⟩
    exact hn '[' (by decide) (by decide) (List.mem_of_mem_head? (by rw [h]; rfl))

/-- **C103**: a version of two numbers or more in the file is read as these numbers. -/
theorem version_exact (isTime : Str → Bool) (isFloat : IsFloat) (obs : Props) (a b : Nat) (l : List Nat) :
    ∃ v, setItem isTime isFloat "parsetVersion".toList (join '.' ((a :: b :: l).map natStr)) = .ok v ∧
      versionOf (dictSet obs "parsetVersion".toList v) = .ok ((a :: b :: l).map fun n : Nat => (n : Int)) := by
  refine ⟨_, version_stored isTime isFloat a b l, ?_⟩
  unfold versionOf
  rw [dictGet_set, if_pos rfl]
  show (if join '.' ((a :: b :: l).map natStr) = [] then Except.ok [1, 0] else mapE pyInt (splitOn '.' (join '.' ((a :: b :: l).map natStr)))) = _
  rw [if_neg, splitOn_join '.' _ (by simp), mapE_pyInt]
  · intro s hs
    obtain ⟨n, -, rfl⟩ := List.mem_map.mp hs
    exact notMem_natStr (by decide) n
  · intro h
    have : natStr a ++ '.' :: join '.' ((b :: l).map natStr) = [] := h
    simp at this

/-- **C103**: files of version 1.0 or more are recent; without version a file is old. -/
theorem recent_exact (a b : Nat) (l : List Nat) : recent ((a :: b :: l).map fun n : Nat => (n : Int)) = true ↔ 1 ≤ a := by
  unfold recent
  show (!tupleLt ((a : Int) :: (b : Int) :: l.map fun n : Nat => (n : Int)) [1, 0]) = true ↔ _
  rw [tupleLt]
  by_cases h : (a : Int) = 1
  · rw [if_pos h, tupleLt]
    by_cases h2 : (b : Int) = 0
    · rw [if_pos h2]
      have : tupleLt (l.map fun n : Nat => (n : Int)) [] = false := by cases l <;> rfl
      rw [this]
      simp; omega
    · rw [if_neg h2]
      simp; omega
  · rw [if_neg h]
    simp; omega

/-- Without a version. -/
theorem version_missing (obs : Props) (h : dictGet obs "parsetVersion".toList = none) : versionOf obs = .ok [0] ∧ recent [0] = false := by
  refine ⟨?_, rfl⟩
  unfold versionOf
  rw [h]
  decide

/-- **C103** fails for a version of one number: it is read as a number, and nothing can be exported. -/
theorem version_number_violated (isTime : Str → Bool) (isFloat : IsFloat) (obs : Props) (n : Nat) :
    ∃ v, setItem isTime isFloat "parsetVersion".toList (natStr n) = .ok v ∧ versionOf (dictSet obs "parsetVersion".toList v) = .error .attributeError := by
  refine ⟨.int n, ?_, ?_⟩
  · have hd := natStr_digits n
    have hn : ∀ c : Char, c.isDigit = false → c ∉ natStr n := fun c h => notMem_natStr h n
    have hcl : clean (natStr n) = natStr n := by
      unfold clean
      rw [List.filter_eq_self]
      intro c hc
      have h1 : c ≠ '\n' := fun e => hn '\n' (by decide) (e ▸ hc)
      have h2 : c ≠ '"' := fun e => hn '"' (by decide) (e ▸ hc)
      simp [h1, h2]
    have hlow := lower_solid (s := natStr n) (fun c hc => Or.inl (hd c hc))
    unfold setItem
    rw [hcl]
    dsimp only
    rw [hlow, if_neg, if_neg, if_neg, if_neg (by decide), if_neg (by decide), if_pos (isDigits_natStr n), ofDigits_natStr]
    · intro h
      exact hn 'f' (by decide) (h ▸ by decide)
    · intro h
      exact hn 't' (by decide) (h ▸ by decide)
    · rintro ⟨h, -⟩
      exact hn '[' (by decide) (List.mem_of_mem_head? (by rw [h]; rfl))
  · unfold versionOf
    rw [dictGet_set, if_pos rfl]
    rfl

/-! ### Topic -/

/-- A capital is needed. -/
def Re.needsCap : Re → Bool
  | .cls false l => l.all fun p => decide ('A' ≤ p.1) && decide (p.2 ≤ 'Z')
  | .cat a b => a.needsCap || b.needsCap
  | .alt a b => a.needsCap && b.needsCap
  | .grp _ r => r.needsCap
  | _ => false

/-- The character is never read. -/
def Re.never (c : Char) : Re → Bool
  | .cls neg l => !inCls false neg l c
  | .cat a b => a.never c && b.never c
  | .alt a b => a.never c && b.never c
  | .rep _ _ r => r.never c
  | .grp _ r => r.never c
  | .back _ => false
  | _ => true

theorem needsCap_reads : ∀ (r : Re) (p : Option Char) (w rest : Str), r.needsCap = true → Reads false r p w rest → ∃ c ∈ w, 'A' ≤ c ∧ c ≤ 'Z'
  | .cls false l, p, w, rest, h, hr => by
    obtain ⟨c, rfl, hc⟩ := hr
    refine ⟨c, List.mem_singleton.mpr rfl, ?_⟩
    unfold inCls at hc
    simp only [Bool.false_and, Bool.or_false, Bool.false_bne, List.any_eq_true, Bool.and_eq_true, decide_eq_true_eq] at hc
    obtain ⟨q, hq, h1, h2⟩ := hc
    have h3 := List.all_eq_true.mp h q hq
    simp only [Bool.and_eq_true, decide_eq_true_eq] at h3
    exact ⟨Char.le_trans h3.1 h1, Char.le_trans h2 h3.2⟩
  | .cat a b, p, w, rest, h, hr => by
    obtain ⟨u, v, rfl, ha, hb⟩ := hr
    have h' : (a.needsCap || b.needsCap) = true := h
    rw [Bool.or_eq_true] at h'
    rcases h' with h' | h'
    · obtain ⟨c, hc, hh⟩ := needsCap_reads a _ _ _ h' ha
      exact ⟨c, List.mem_append_left _ hc, hh⟩
    · obtain ⟨c, hc, hh⟩ := needsCap_reads b _ _ _ h' hb
      exact ⟨c, List.mem_append_right _ hc, hh⟩
  | .alt a b, p, w, rest, h, hr => by
    have h' : (a.needsCap && b.needsCap) = true := h
    rw [Bool.and_eq_true] at h'
    rcases hr with hr | hr
    · exact needsCap_reads a _ _ _ h'.1 hr
    · exact needsCap_reads b _ _ _ h'.2 hr
  | .grp n r, p, w, rest, h, hr => needsCap_reads r p w rest h hr

theorem never_times {c : Char} {R : Option Char → Str → Str → Prop} (hR : ∀ p w rest, R p w rest → c ∉ w) : ∀ (n : Nat) (p : Option Char) (w rest : Str), Times R n p w rest → c ∉ w
  | 0, p, w, rest, h => by
    have : w = [] := h
    rw [this]; intro h; cases h
  | n + 1, p, w, rest, h => by
    obtain ⟨u, v, rfl, hu, hv⟩ := h
    rw [List.mem_append]
    rintro (h | h)
    · exact hR _ _ _ hu h
    · exact never_times hR n _ _ _ hv h

theorem never_reads {c : Char} : ∀ (r : Re) (p : Option Char) (w rest : Str), r.never c = true → Reads false r p w rest → c ∉ w
  | .eps, p, w, rest, _, hr => by
    have : w = [] := hr
    rw [this]; intro h; cases h
  | .cls neg l, p, w, rest, h, hr => by
    obtain ⟨d, rfl, hd⟩ := hr
    intro hc
    rw [List.mem_singleton] at hc
    subst hc
    have h' : (!inCls false neg l c) = true := h
    rw [hd] at h'; cases h'
  | .cat a b, p, w, rest, h, hr => by
    obtain ⟨u, v, rfl, ha, hb⟩ := hr
    have h' : (a.never c && b.never c) = true := h
    rw [Bool.and_eq_true] at h'
    rw [List.mem_append]
    rintro (hc | hc)
    · exact never_reads a _ _ _ h'.1 ha hc
    · exact never_reads b _ _ _ h'.2 hb hc
  | .alt a b, p, w, rest, h, hr => by
    have h' : (a.never c && b.never c) = true := h
    rw [Bool.and_eq_true] at h'
    rcases hr with hr | hr
    · exact never_reads a _ _ _ h'.1 hr
    · exact never_reads b _ _ _ h'.2 hr
  | .rep lo hi r, p, w, rest, h, hr => by
    obtain ⟨n, -, -, ht⟩ := hr
    exact never_times (fun p w rest => never_reads r p w rest h) n _ _ _ ht
  | .grp n r, p, w, rest, h, hr => never_reads r p w rest h hr
  | .bos, p, w, rest, _, hr => by rw [hr.1]; intro h; cases h
  | .eos, p, w, rest, _, hr => by rw [hr.1]; intro h; cases h
  | .edge, p, w, rest, _, hr => by rw [hr.1]; intro h; cases h
  | .look false r, p, w, rest, _, hr => by rw [hr.1]; intro h; cases h
  | .look true r, p, w, rest, _, hr => by rw [hr.1]; intro h; cases h

/-- One character. -/
def ch (c : Char) : Re := .cls false [(c, c)]

/-- An optional zero and a digit, or a one and a digit not above `d`. -/
def topicNumber (g : Nat) (d : Char) : Re :=
  .grp g (.alt (.cat (.rep 0 (some 1) (ch '0')) (.cat (.cls false [('0', '9')]) .eps)) (.cat (ch '1') (.cat (.cls false [('0', d)]) .eps)))

/-- The codes of the topics. -/
def topicCode : Re := .grp 1 (.cat (.grp 2 (.alt (.cat (ch 'E') (.cat (ch 'S') (.cat (topicNumber 3 '7') .eps)))
  (.alt (.cat (ch 'L') (.cat (ch 'T') (.cat (.look true (.cat (ch '0') (.cat (ch '8') .eps))) (.cat (topicNumber 4 '3') .eps))))
  (.alt (.cat (ch 'R') (.cat (ch 'P') (.cat (.rep 1 none (.cls false [('0', '9')])) (.cat (.cls false [('A', 'Z')]) .eps))))
  (.cat (ch 'S') (.cat (ch 'P') (.cat (.grp 5 (.alt (.cat (ch '1') (.cat (ch '6') .eps)) (.cat (ch '1') (.cat (ch '7') .eps)))) .eps))))))) .eps)

/-- The names of the topics. -/
def topicName : Re := .grp 6 (.cat (.rep 1 none (.cls false [('a', 'z'), ('A', 'Z'), ('0', '9'), ('_', '_')])) .eps)

/-- The pattern, read. -/
def topicRe : Re := .cat .bos (.cat topicCode (.cat (.cls false [(' ', ' ')]) (.cat topicName (.cat .eos .eps))))

theorem topic_pattern : compile topicPattern = some (false, topicRe) := by decide +kernel

theorem topic_plain : topicRe.plain = true := by decide +kernel

theorem topic_code : topicCode.needsCap = true ∧ topicCode.never ':' = true := by decide +kernel

/-- A text where the topic is found has a capital and no colon. -/
theorem topic_found {s : Str} (hn : '\n' ∉ s) (h : run false topicRe (.start s) ≠ []) : (∃ c ∈ s, 'A' ≤ c ∧ c ≤ 'Z') ∧ ':' ∉ s := by
  obtain ⟨t, ht⟩ := List.exists_mem_of_ne_nil _ h
  obtain ⟨w, hw, -, hr⟩ := (run_iff false topicRe topic_plain (.start s) t.prev t.rest).mp ⟨t, ht, rfl, rfl⟩
  have hw' : s = w ++ t.rest := hw
  obtain ⟨u1, v1, rfl, ⟨rfl, -⟩, u2, v2, rfl, hcode, u3, v3, rfl, ⟨d, rfl, hd⟩, u4, v4, rfl, hname, u5, v5, rfl, ⟨rfl, he⟩, h5⟩ := hr
  have h5' : v5 = [] := h5
  subst h5'
  have hrest : t.rest = [] := by
    rcases he with he | he
    · simpa using he
    · exfalso
      have : t.rest = ['\n'] := by simpa using he
      exact hn (by rw [hw', this]; simp)
  have hs : s = u2 ++ ([d] ++ u4) := by rw [hw', hrest]; simp
  constructor
  · obtain ⟨c, hc, hh⟩ := needsCap_reads topicCode _ _ _ topic_code.1 hcode
    exact ⟨c, by rw [hs]; exact List.mem_append_left _ hc, hh⟩
  · rw [hs]
    have h1 := never_reads topicCode _ _ _ topic_code.2 hcode
    have h2 := never_reads (c := ':') topicName _ _ _ (by decide) hname
    have h3 : ':' ≠ d := by
      rintro rfl
      exact absurd hd (by decide)
    simp only [List.mem_append, List.mem_singleton, not_or]
    exact ⟨h1, h3, h2⟩

theorem no_cap (s : Str) : ∀ c ∈ lower s, ¬('A' ≤ c ∧ c ≤ 'Z') := by
  intro c hc
  obtain ⟨d, -, rfl⟩ := List.mem_map.mp hc
  rintro ⟨h1, h2⟩
  have h3 := toLower_toLower d
  have h4 : d.toLower.toLower ≠ d.toLower := by
    generalize d.toLower = e at h1 h2
    intro h
    have hu : e.val ≥ 'A'.val ∧ e.val ≤ 'Z'.val := ⟨h1, h2⟩
    unfold Char.toLower at h
    rw [dif_pos hu] at h
    have := congrArg Char.val h
    dsimp only at this
    have e1 : e.val + ('a'.val - 'A'.val) = e.val := this
    simp at e1
  exact h4 h3

/-- A text read from a file is in lower case, or has a colon. -/
theorem stored_text {isTime : Str → Bool} {isFloat : IsFloat} {k t s : Str} (h1k : hasSub "angle".toList (lower k) = false) (h2k : hasSub "duration".toList (lower k) = false)
    (hv : setItem isTime isFloat k t = .ok (.str s)) : '\n' ∉ s ∧ (':' ∈ s ∨ s = lower (clean t)) := by
  have hcl := (clean_no (t := t)).1
  unfold setItem at hv
  dsimp only at hv
  by_cases h1 : (clean t).head? = some '[' ∧ (clean t).getLast? = some ']'
  · rw [if_pos h1] at hv
    cases hp : parseElems isTime (splitOn ',' (clean t).tail.dropLast) with
    | error e => rw [hp] at hv; cases hv
    | ok y => rw [hp] at hv; cases hv
  · rw [if_neg h1] at hv
    by_cases h2 : lower (clean t) = "true".toList
    · rw [if_pos h2] at hv; cases hv
    · rw [if_neg h2] at hv
      by_cases h3 : lower (clean t) = "false".toList
      · rw [if_pos h3] at hv; cases hv
      · rw [if_neg h3, if_neg (by rw [h1k]; exact Bool.false_ne_true), if_neg (by rw [h2k]; exact Bool.false_ne_true)] at hv
        by_cases h4 : isDigits (clean t) = true
        · rw [if_pos h4] at hv; cases hv
        · rw [if_neg h4] at hv
          by_cases h5 : ':' ∈ clean t
          · rw [if_pos h5] at hv
            by_cases h6 : isTime (strip (clean t)) = true
            · rw [if_pos h6] at hv; cases hv
            · rw [if_neg h6] at hv
              cases hv
              exact ⟨hcl, Or.inl h5⟩
          · rw [if_neg h5] at hv
            cases hv
            refine ⟨fun h => hcl (mem_lower (by decide) h), Or.inr rfl⟩

theorem decodeTopic_none {s : Str} (h : run false topicRe (.start s) = []) : decodeTopic s = debugTopic := by
  have e : decodeTopic s = (matchCaps false topicRe s).elim debugTopic fun c => ((capOf c 1).getD [], (capOf c 6).getD []) :=
    congrArg (fun o : Option (Bool × Re) => (o.bind fun q => matchCaps q.1 q.2 s).elim debugTopic fun c => ((capOf c 1).getD [], (capOf c 6).getD [])) topic_pattern
  have e2 : matchCaps false topicRe s = none := congrArg (fun l : List Pos => l.head?.map Pos.caps) h
  exact e.trans (congrArg (fun o : Option (List (Nat × Str)) => o.elim debugTopic fun c => ((capOf c 1).getD [], (capOf c 6).getD [])) e2)

/-- **C103** fails: whatever topic a file gives, the exported one is "LT00 DEBUG" (or nothing is exported): codes are looked for in capitals, in a text put in lower case. -/
theorem topic_lost_violated (isTime : Str → Bool) (isFloat : IsFloat) (obs : Props) (t : Str) (v : PVal) (hv : setItem isTime isFloat "topic".toList t = .ok v) :
    topicOf (dictSet obs "topic".toList v) = .ok debugTopic ∨ topicOf (dictSet obs "topic".toList v) = .error .typeError := by
  unfold topicOf
  rw [dictGet_set, if_pos rfl]
  show topicText v = _ ∨ topicText v = _
  cases v with
  | str s =>
    left
    show Except.ok (decodeTopic s) = Except.ok debugTopic
    have hs := stored_text (by decide) (by decide) hv
    have hrun : run false topicRe (.start s) = [] := by
      by_contra hne
      obtain ⟨⟨c, hc, hcap⟩, hcol⟩ := topic_found hs.1 hne
      rcases hs.2 with h | h
      · exact hcol h
      · rw [h] at hc
        exact no_cap _ c hc hcap
    exact congrArg Except.ok (decodeTopic_none hrun)
  | list l => right; rfl
  | bool b => right; rfl
  | angle s => right; rfl
  | int n => right; rfl
  | time s => right; rfl

/-- The topic in capitals, as it is in the file, has a code and a name. -/
example : decodeTopic "ES02 Exoplanets".toList = ("ES02".toList, "Exoplanets".toList) ∧ decodeTopic "LT08 OTHER".toList = debugTopic := by decide +kernel

/-! ## C103 Export -/

theorem bindE {α β : Type} {x : Except Err α} {f : α → Except Err β} {y : β} (h : x.bind f = .ok y) : ∃ a, x = .ok a ∧ f a = .ok y := by
  cases x with
  | error e => cases h
  | ok a => exact ⟨a, rfl, h⟩

theorem mapEx {α β : Type} {x : Except Err α} {f : α → β} {y : β} (h : x.map f = .ok y) : ∃ a, x = .ok a ∧ f a = y := by
  cases x with
  | error e => cases h
  | ok a => injection h with h; exact ⟨a, rfl, h⟩

theorem item_ok {d : Props} {k : Str} {v : PVal} (h : item d k = .ok v) : dictGet d k = some v := by
  unfold item at h
  cases hx : dictGet d k with
  | none => rw [hx] at h; cases h
  | some w => rw [hx] at h; injection h with h; rw [h]

theorem mapE_length {α β : Type} {f : α → Except Err β} : ∀ {l : List α} {r : List β}, mapE f l = .ok r → r.length = l.length
  | [], r, h => by injection h with h; rw [← h]; rfl
  | a :: l, r, h => by
    obtain ⟨y, -, h⟩ := bindE h
    obtain ⟨m, hm, rfl⟩ := mapEx h
    rw [List.length_cons, List.length_cons, mapE_length hm]

/-- What is known of an exported parset. -/
theorem toJson_steps {C : Type} {F : Str → Option ℚ} {center : Props → ℚ → Except Err C} {zenith : Str × ℚ → C} {isot : Str → Str} {p : PSet} {j : Json C}
    (h : toJson F center zenith isot p = .ok j) : ∃ v fovs, versionOf p.obs = .ok v ∧ topicOf p.obs = .ok j.topic ∧ mapE (fovOf F center isot) p.anas = .ok fovs ∧
      pointingsOf F center zenith isot p v fovs = .ok j.pointings ∧ j.fovs = fovs.map fun f => { f with mas := coreItems f.mas } := by
  unfold toJson at h
  obtain ⟨v, hv, h⟩ := bindE h
  obtain ⟨t0, -, h⟩ := bindE h
  obtain ⟨t0', -, h⟩ := bindE h
  obtain ⟨t1, -, h⟩ := bindE h
  obtain ⟨t1', -, h⟩ := bindE h
  obtain ⟨tp, htp, h⟩ := bindE h
  obtain ⟨fovs, hf, h⟩ := bindE h
  obtain ⟨ps, hps, rfl⟩ := mapEx h
  exact ⟨v, fovs, hv, htp, hf, hps, rfl⟩

/-- **C103** fails: the duration of an analog beam is read as a text that ends with "s", which is then refused as a number of seconds. No file with an analog beam that has
a duration can be exported, whatever the rest. -/
theorem export_violated {C : Type} {F : Str → Option ℚ} (hF : ∀ s, F (s ++ ['s']) = none) (center : Props → ℚ → Except Err C) (zenith : Str × ℚ → C) (isot : Str → Str)
    {isTime : Str → Bool} {isFloat : IsFloat} {lines : List Str} {p : PSet} (hr : readFile isTime isFloat lines = .ok p) {n : Nat} {a : Props} (ha : (n, a) ∈ p.anas)
    {s : Str} (hs : dictGet a "duration".toList = some (.str s)) : ∃ e, toJson F center zenith isot p = .error e := by
  cases hj : toJson F center zenith isot p with
  | error e => exact ⟨e, rfl⟩
  | ok j =>
    exfalso
    obtain ⟨v, fovs, -, -, hf, -, -⟩ := toJson_steps hj
    obtain ⟨i, hi⟩ := List.getElem?_of_mem ha
    obtain ⟨f, hf', -⟩ := mapE_inv hf i _ hi
    unfold fovOf at hf'
    obtain ⟨nm, -, hf'⟩ := bindE hf'
    obtain ⟨pl, hpl, -⟩ := bindE hf'
    unfold placeOf at hpl
    obtain ⟨d, hd, hpl⟩ := bindE hpl
    obtain ⟨q, hq, -⟩ := bindE hpl
    have hd' := item_ok hd
    have e : dictGet a "duration".toList = some d := hd'
    rw [hs] at e
    injection e with e
    subst e
    have hval := readFile_valid hr
    obtain ⟨w, hw⟩ : ∃ w, s = w ++ ['s'] := by
      obtain ⟨t, ht⟩ := (hval.anas.2 (n, a) ha).2 _ _ hs
      unfold setItem at ht
      dsimp only at ht
      by_cases h1 : (clean t).head? = some '[' ∧ (clean t).getLast? = some ']'
      · rw [if_pos h1] at ht
        obtain ⟨l, -, h⟩ := mapEx ht
        cases h
      · rw [if_neg h1] at ht
        by_cases h2 : lower (clean t) = "true".toList
        · rw [if_pos h2] at ht; cases ht
        · rw [if_neg h2] at ht
          by_cases h3 : lower (clean t) = "false".toList
          · rw [if_pos h3] at ht; cases ht
          · rw [if_neg h3, if_neg (by decide), if_pos (by decide)] at ht
            injection ht with ht
            injection ht with ht
            exact ⟨_, ht.symm⟩
    have h2 : secOf F (.str s) = .error .valueError := by
      show (F s).elim _ _ = _
      rw [hw, hF]
      rfl
    rw [h2] at hq
    cases hq

/-- The field of view of an analog beam. -/
theorem fov_ok {C : Type} {F : Str → Option ℚ} {center : Props → ℚ → Except Err C} {isot : Str → Str} {a : Nat × Props} {f : Fov C} (h : fovOf F center isot a = .ok f) :
    f.idx = a.1 ∧ dictGet a.2 "target".toList = some f.name ∧ dictGet a.2 "maList".toList = some (.list f.mas) ∧ dictGet a.2 "antList".toList = some (.list f.ants) ∧
      (∃ s, dictGet a.2 "startTime".toList = some (.time s) ∧ f.place.2.1 = isot s) ∧ ∃ v, dictGet a.2 "duration".toList = some v ∧ secOf F v = .ok f.place.2.2 := by
  unfold fovOf at h
  obtain ⟨name, hname, h⟩ := bindE h
  obtain ⟨pl, hpl, h⟩ := bindE h
  obtain ⟨mas, hmas, h⟩ := bindE h
  obtain ⟨ants, hants, h⟩ := bindE h
  obtain ⟨fi, -, h⟩ := bindE h
  obtain ⟨ti, -, h⟩ := bindE h
  obtain ⟨fs, -, rfl⟩ := mapEx h
  have hlist : ∀ {k : Str} {l : List Item}, listAt a.2 k = .ok l → dictGet a.2 k = some (.list l) := by
    intro k l hl
    unfold listAt at hl
    obtain ⟨v, hv, hl⟩ := bindE hl
    rw [item_ok hv]
    cases v with
    | list m => injection hl with hl; rw [hl]
    | bool b => cases hl
    | angle s => cases hl
    | int n => cases hl
    | time s => cases hl
    | str s => cases hl
  unfold placeOf at hpl
  obtain ⟨d, hd, hpl⟩ := bindE hpl
  obtain ⟨n, hn, hpl⟩ := bindE hpl
  obtain ⟨c, -, hpl⟩ := bindE hpl
  obtain ⟨t, ht, hpl⟩ := bindE hpl
  obtain ⟨s, hs, rfl⟩ := mapEx hpl
  refine ⟨rfl, item_ok hname, hlist hmas, hlist hants, ?_, d, item_ok hd, hn⟩
  rw [item_ok ht]
  cases t with
  | time w => injection hs with hs; exact ⟨w, rfl, hs.symm⟩
  | list m => cases hs
  | bool b => cases hs
  | angle s => cases hs
  | int n => cases hs
  | str s => cases hs

/-- **C103**: with any other reading of durations, what is exported has one field of view for each analog beam, in order, with its number, its target, its start, its duration,
its antennas and its core mini-arrays. -/
theorem export_fields_partial {C : Type} {F : Str → Option ℚ} {center : Props → ℚ → Except Err C} {zenith : Str × ℚ → C} {isot : Str → Str} {p : PSet} {j : Json C}
    (h : toJson F center zenith isot p = .ok j) : j.fovs.length = p.anas.length ∧ ∀ (i : Nat) (a : Nat × Props), p.anas[i]? = some a → ∃ f, j.fovs[i]? = some f ∧
      f.idx = a.1 ∧ dictGet a.2 "target".toList = some f.name ∧ (∃ l, dictGet a.2 "maList".toList = some (.list l) ∧ f.mas = coreItems l) ∧
      dictGet a.2 "antList".toList = some (.list f.ants) ∧ (∃ s, dictGet a.2 "startTime".toList = some (.time s) ∧ f.place.2.1 = isot s) ∧
      ∃ v, dictGet a.2 "duration".toList = some v ∧ secOf F v = .ok f.place.2.2 := by
  obtain ⟨v, fovs, -, -, hf, -, hj⟩ := toJson_steps h
  refine ⟨by rw [hj, List.length_map, mapE_length hf], fun i a ha => ?_⟩
  obtain ⟨f, h1, h2⟩ := mapE_inv hf i a ha
  obtain ⟨g1, g2, g3, g4, g5, g6⟩ := fov_ok h1
  exact ⟨{ f with mas := coreItems f.mas }, by rw [hj, List.getElem?_map, h2]; rfl, g1, g2, ⟨f.mas, g3, rfl⟩, g4, g5, g6⟩

theorem fovPos_ok {l : List Nat} {n i : Nat} (h : fovPos l n = .ok i) : l[i]? = some n := by
  unfold fovPos at h
  by_cases hm : n ∈ l
  · rw [if_pos hm] at h
    injection h with h
    rw [← h]
    exact List.getElem?_idxOf hm
  · rw [if_neg hm] at h; cases h

/-- A pointing. -/
theorem pointing_ok {C : Type} {F : Str → Option ℚ} {center : Props → ℚ → Except Err C} {isot : Str → Str} {fovs : List Nat} {out : Props} {v : List Int} {k : Nat} {d : Nat × Props}
    {q : Pointing C} (h : pointingOf F center isot fovs out v k d = .ok q) : q.idx = d.1 + k ∧ dictGet d.2 "target".toList = some q.name ∧
      (∃ b n, dictGet d.2 "noBeam".toList = some b ∧ beamNumber b = some n ∧ fovs[q.fov]? = some n) ∧
      ∃ td r, toDoOf d.2 = .ok td ∧ receiverOf F td d.2 out v = .ok r ∧ q.receiver = some r := by
  unfold pointingOf at h
  obtain ⟨name, hname, h⟩ := bindE h
  obtain ⟨pl, -, h⟩ := bindE h
  obtain ⟨td, htd, h⟩ := bindE h
  obtain ⟨r, hr, h⟩ := bindE h
  obtain ⟨nb, hnb, h⟩ := bindE h
  obtain ⟨i, hi, rfl⟩ := mapEx h
  refine ⟨rfl, item_ok hname, ?_, td, r, htd, hr, rfl⟩
  cases hb : beamNumber nb with
  | none => rw [hb] at hi; cases hi
  | some n =>
    rw [hb] at hi
    exact ⟨nb, n, item_ok hnb, hb, fovPos_ok hi⟩

/-- **C103**: with any other reading of durations, the pointings exported begin with one for each numerical beam, in order, with its number and its target, placed in the field of view
which has the number of its analog beam, with the receiver its task asks for. -/
theorem export_pointings_partial {C : Type} {F : Str → Option ℚ} {center : Props → ℚ → Except Err C} {zenith : Str × ℚ → C} {isot : Str → Str} {p : PSet} {j : Json C}
    (h : toJson F center zenith isot p = .ok j) : ∃ v, versionOf p.obs = .ok v ∧ ∀ (i : Nat) (d : Nat × Props), p.digis[i]? = some d → ∃ q, j.pointings[i]? = some q ∧
      q.idx = d.1 ∧ dictGet d.2 "target".toList = some q.name ∧ (∃ b n f, dictGet d.2 "noBeam".toList = some b ∧ beamNumber b = some n ∧ j.fovs[q.fov]? = some f ∧ f.idx = n) ∧
      ∃ td r, toDoOf d.2 = .ok td ∧ receiverOf F td d.2 p.out v = .ok r ∧ q.receiver = some r := by
  obtain ⟨v, fovs, hv, -, hf, hps, hj⟩ := toJson_steps h
  refine ⟨v, hv, fun i d hd => ?_⟩
  unfold pointingsOf at hps
  obtain ⟨a, ha, hps⟩ := bindE hps
  obtain ⟨b, -, hps⟩ := bindE hps
  obtain ⟨c, -, hps⟩ := bindE hps
  obtain ⟨e, -, hps⟩ := mapEx hps
  obtain ⟨q, h1, h2⟩ := mapE_inv ha i d hd
  obtain ⟨g1, g2, ⟨nb, n, g3, g4, g5⟩, g6⟩ := pointing_ok h1
  refine ⟨q, ?_, by rw [g1]; rfl, g2, ?_, g6⟩
  · rw [← hps, List.append_assoc, List.append_assoc, List.getElem?_append_left (by
      rw [List.getElem?_eq_some_iff] at h2; exact h2.1)]
    exact h2
  · rw [List.getElem?_map] at g5
    cases hq : fovs[q.fov]? with
    | none => rw [hq] at g5; cases g5
    | some f =>
      rw [hq] at g5
      injection g5 with g5
      exact ⟨nb, n, { f with mas := coreItems f.mas }, g3, g4, by rw [hj, List.getElem?_map, hq]; rfl, g5⟩

/-! ## C104 Receivers -/

/-- **C104** fails in old files with the imager: one more pointing is always added to the first field of view, even for files with a beam to do "tbd", which is one already (the
test looks for capitals in texts put in lower case); its name is that of the receiver, and its settings are not those of a receiver. -/
theorem old_nickel_violated {C : Type} {F : Str → Option ℚ} {center : Props → ℚ → Except Err C} {isot : Str → Str} {isTime : Str → Bool} {isFloat : IsFloat} {lines : List Str} {p : PSet}
    (hr : readFile isTime isFloat lines = .ok p) (hn : usesNickel p.out = .ok true) {n : Nat} {l : List (Pointing C)} (h : oldNickel F center isot p n = .ok l) :
    ∃ q, l = [q] ∧ q.name = .str "nickel".toList ∧ q.receiver = none ∧ q.fov = 0 := by
  unfold oldNickel at h
  rw [hn] at h
  replace h : ((mapE (fun d : Nat × Props => item d.2 "toDo".toList) p.digis).bind fun l => if PVal.str "TBD".toList ∈ l then Except.ok []
      else ((dictGet p.anas 0).elim (Except.error Err.keyError) (nickelPointing F center isot p.out n)).map fun x => [x]) = Except.ok l := h
  obtain ⟨m, hm, h⟩ := bindE h
  have hno : PVal.str "TBD".toList ∉ m := by
    intro hmem
    obtain ⟨i, hi⟩ := List.getElem?_of_mem hmem
    have hlen : i < p.digis.length := by
      rw [← mapE_length hm]
      exact (List.getElem?_eq_some_iff.mp hi).1
    obtain ⟨y, h1, h2⟩ := mapE_inv hm i p.digis[i] (List.getElem?_eq_getElem hlen)
    rw [hi] at h2
    injection h2 with h2
    subst h2
    have h3 := item_ok h1
    obtain ⟨t, ht⟩ := ((readFile_valid hr).digis.2 _ (List.getElem_mem hlen)).2 _ _ h3
    obtain ⟨-, h4 | h4⟩ := stored_text (by decide) (by decide) ht
    · exact absurd h4 (by decide)
    · exact no_cap (clean t) 'T' (by rw [← h4]; decide) (by decide)
  rw [if_neg hno] at h
  obtain ⟨q, hq, rfl⟩ := mapEx h
  refine ⟨q, rfl, ?_⟩
  cases ha : dictGet p.anas 0 with
  | none => rw [ha] at hq; cases hq
  | some a =>
    rw [ha] at hq
    change nickelPointing F center isot p.out n a = _ at hq
    unfold nickelPointing at hq
    obtain ⟨nm, -, hq⟩ := bindE hq
    obtain ⟨pl, -, hq⟩ := bindE hq
    obtain ⟨rc, -, rfl⟩ := mapEx hq
    exact ⟨rfl, rfl, rfl⟩

open Verif.Config (Opt Blanks NoBlank NoDashes tfText pulsarText tf_text_exact pulsar_text_exact)

/-- **C104**: the steps written for a time-frequency beam are those of its receiver. -/
theorem tf_receiver_exact (F : Str → Option ℚ) (d out : Props) (v : List Int) (mode tail : Str) (l : List (Opt × Str)) (hm : ':' ∉ mode ∧ '=' ∉ mode ∧ NoBlank mode) (htail : Blanks tail)
    (hl : ∀ o ∈ l, o.1.Fine ∧ Blanks o.2 ∧ o.2 ≠ []) (hnd : (l.map (fun o => o.1.key)).Nodup) (hdash : ¬ ['-', '-'] <:+: tfText mode l tail)
    (hlow : lower (tfText mode l tail) = tfText mode l tail) (hp : dictGet d "parameters".toList = some (.str (tfText mode l tail)))
    {a b g g' : Str} (ha : (Opt.val "dt".toList a, g) ∈ l) (hb : (Opt.val "df".toList b, g') ∈ l) {x y : ℚ} (hx : F a = some x) (hy : F b = some y)
    {f : List (ℚ × ℚ)} (hf : beamFreq d = .ok f) : receiverOf F "dynamicspectrum".toList d out v = .ok (.tf x y f) := by
  obtain ⟨-, h2, h3⟩ := tf_text_exact mode tail l hm htail hl hnd hdash ⟨_, _, _, ha⟩ hlow
  have hraw : Config.find (paramsOf false (tfText mode l tail)) "tf: rawrt".toList = none := h3 _ fun w g'' hw => by
    have : ':' ∉ "tf: rawrt".toList := (hl _ hw).1.2.2.1
    exact this (by decide)
  show tfSetting F d = _
  unfold tfSetting
  rw [hp]
  show noKey (tfOf F d (paramsOf false (tfText mode l tail))) = _
  unfold tfOf Config.floatAt
  rw [hraw, h2 _ _ _ ha, h2 _ _ _ hb]
  show noKey (((F a).elim (Except.error Err.valueError) Except.ok).bind fun dt => ((F b).elim (Except.error Err.valueError) Except.ok).bind fun df => (beamFreq d).map (.tf dt df)) = _
  rw [hx, hy, hf]
  rfl

/-- **C104**: without parameters, 5 ms and 6.1 kHz. -/
theorem tf_receiver_default (F : Str → Option ℚ) (d out : Props) (v : List Int) (hp : dictGet d "parameters".toList = none) {b : PVal} (hb : dictGet d "noBeam".toList = some b)
    {f : List (ℚ × ℚ)} (hf : beamFreq d = .ok f) : receiverOf F "dynamicspectrum".toList d out v = .ok (.tf 5 (61 / 10) f) := by
  show tfSetting F d = _
  unfold tfSetting item
  rw [hp, hb]
  show noKey ((beamFreq d).map (.tf 5 (61 / 10))) = _
  rw [hf]
  rfl

/-- **C104** fails for a time-frequency beam that gives only one of its steps: the receiver is empty, where a beam that gives none gets both by default. -/
theorem tf_receiver_violated (F : Str → Option ℚ) (d out : Props) (v : List Int) (mode tail : Str) (l : List (Opt × Str)) (hm : ':' ∉ mode ∧ '=' ∉ mode ∧ NoBlank mode) (htail : Blanks tail)
    (hl : ∀ o ∈ l, o.1.Fine ∧ Blanks o.2 ∧ o.2 ≠ []) (hnd : (l.map (fun o => o.1.key)).Nodup) (hdash : ¬ ['-', '-'] <:+: tfText mode l tail)
    (hlow : lower (tfText mode l tail) = tfText mode l tail) (hp : dictGet d "parameters".toList = some (.str (tfText mode l tail)))
    {a g : Str} (ha : (Opt.val "dt".toList a, g) ∈ l) (hb : ∀ w g, (Opt.val "df".toList w, g) ∉ l) {x : ℚ} (hx : F a = some x) :
    receiverOf F "dynamicspectrum".toList d out v = .ok .empty := by
  obtain ⟨-, h2, h3⟩ := tf_text_exact mode tail l hm htail hl hnd hdash ⟨_, _, _, ha⟩ hlow
  have hraw : Config.find (paramsOf false (tfText mode l tail)) "tf: rawrt".toList = none := h3 _ fun w g'' hw => by
    have : ':' ∉ "tf: rawrt".toList := (hl _ hw).1.2.2.1
    exact this (by decide)
  show tfSetting F d = _
  unfold tfSetting
  rw [hp]
  show noKey (tfOf F d (paramsOf false (tfText mode l tail))) = _
  unfold tfOf Config.floatAt
  rw [hraw, h2 _ _ _ ha, h3 _ hb]
  show noKey (((F a).elim (Except.error Err.valueError) Except.ok).bind fun _ => (Except.error Err.keyError : Except Err Receiver)) = _
  rw [hx]
  rfl

/-- **C104**: the receiver of a folded pulsar has the name written for the source, one polarisation with "onlyi" and four without. -/
theorem fold_receiver_exact (F : Str → Option ℚ) (d out : Props) (v : List Int) (gap : Str) (l : List (Opt × Str)) (hgap : Blanks gap)
    (hl : ∀ o ∈ l, o.1.Fine ∧ Blanks o.2 ∧ NoDashes o.1.body) (hnd : (l.map (fun o => o.1.key)).Nodup)
    (hlow : lower (pulsarText "fold".toList gap l) = pulsarText "fold".toList gap l) (hp : dictGet d "parameters".toList = some (.str (pulsarText "fold".toList gap l)))
    {a g : Str} (ha : (Opt.val "src".toList a, g) ∈ l) {f : List (ℚ × ℚ)} (hf : beamFreq d = .ok f) :
    ∃ w, strip w = a ∧ ((∃ g, (Opt.word "onlyi".toList, g) ∈ l) → receiverOf F "pulsar".toList d out v = .ok (.fold (Config.rstrip w) 1 f)) ∧
      ((∀ o ∈ l, o.1.key ≠ "onlyi".toList) → receiverOf F "pulsar".toList d out v = .ok (.fold (Config.rstrip w) 4 f)) := by
  obtain ⟨h1, h2, h3, h4⟩ := pulsar_text_exact "fold".toList gap l ⟨by decide, by decide, by rintro ⟨x, y, h⟩; have := congrArg (fun s : Str => '-' ∈ s) h; simp at this⟩ hgap hl hnd hlow
  obtain ⟨w, hw, hs⟩ := h2 _ _ _ ha
  have key : receiverOf F "pulsar".toList d out v = .ok (.fold (Config.rstrip w) (polarsOf (paramsOf true (pulsarText "fold".toList gap l))) f) := by
    show pulsarSetting d = _
    unfold pulsarSetting
    rw [hp]
    show pulsarMode d (modeOf (pulsarText "fold".toList gap l)) (paramsOf true (pulsarText "fold".toList gap l)) = _
    rw [h1]
    unfold pulsarMode
    rw [if_pos rfl]
    unfold srcOf
    rw [hw]
    show (beamFreq d).map _ = _
    rw [hf]
    rfl
  refine ⟨w, hs, ?_, ?_⟩
  · rintro ⟨g', hg⟩
    rw [key]
    unfold polarsOf
    rw [h3 _ _ hg]
    rfl
  · intro h
    rw [key]
    unfold polarsOf
    rw [h4 _ (by decide) h]
    rfl

/-- **C104** fails for single pulses without a number of samples to average: the whole export fails, where the estimate of the volume has a default. -/
theorem single_receiver_violated (F : Str → Option ℚ) (d out : Props) (v : List Int) (gap : Str) (l : List (Opt × Str)) (hgap : Blanks gap)
    (hl : ∀ o ∈ l, o.1.Fine ∧ Blanks o.2 ∧ NoDashes o.1.body) (hnd : (l.map (fun o => o.1.key)).Nodup)
    (hlow : lower (pulsarText "single".toList gap l) = pulsarText "single".toList gap l) (hp : dictGet d "parameters".toList = some (.str (pulsarText "single".toList gap l)))
    {a g : Str} (ha : (Opt.val "src".toList a, g) ∈ l) (hno : ∀ o ∈ l, o.1.key ≠ "dstime".toList) : receiverOf F "pulsar".toList d out v = .error .keyError := by
  obtain ⟨h1, h2, h3, h4⟩ := pulsar_text_exact "single".toList gap l ⟨by decide, by decide, by rintro ⟨x, y, h⟩; have := congrArg (fun s : Str => '-' ∈ s) h; simp at this⟩ hgap hl hnd hlow
  obtain ⟨w, hw, hs⟩ := h2 _ _ _ ha
  show pulsarSetting d = _
  unfold pulsarSetting
  rw [hp]
  show pulsarMode d (modeOf (pulsarText "single".toList gap l)) (paramsOf true (pulsarText "single".toList gap l)) = _
  rw [h1]
  unfold pulsarMode
  rw [if_neg (by decide), if_pos rfl]
  unfold srcOf
  rw [hw, h4 _ (by decide) hno]
  rfl

/-- **C104**: the imager of a recent file has the sub-bands of its phase center; that of an old file has those of the output. -/
theorem nickel_receiver_exact (F : Str → Option ℚ) (d out : Props) (v : List Int) {ch du : PVal} (hc : dictGet out "nri_channelization".toList = some ch)
    (hd : dictGet out "nri_dumpTime".toList = some du) {s : Str} (hp : dictGet d "parameters".toList = some (.str s)) {f g : List (ℚ × ℚ)} (hf : beamFreq d = .ok f)
    (hg : freqOf out "nri_subbandList".toList = .ok g) : receiverOf F "nickel".toList d out v = .ok (.nickel ch du (if recent v then f else g)) := by
  show nickelSetting d out v = _
  unfold nickelSetting item
  rw [hc, hd]
  show (if recent v = true then (centerParams d).bind fun _ => (beamFreq d).map (Receiver.nickel ch du) else (freqOf out "nri_subbandList".toList).map (Receiver.nickel ch du)) = _
  unfold centerParams
  rw [hp, hf, hg]
  by_cases h : recent v = true
  · rw [if_pos h, if_pos h]; rfl
  · rw [if_neg h, if_neg h]; rfl

/-- **C104**: beams with nothing to do, and those left for later in recent files, are those of the standard receiver. -/
theorem standard_receiver (F : Str → Option ℚ) (d out : Props) (v : List Int) {f : List (ℚ × ℚ)} (hf : beamFreq d = .ok f) :
    receiverOf F "none".toList d out v = .ok (.lanewba f) ∧ receiverOf F "waveform".toList d out v = .ok (.waveform f) ∧
      (recent v = true → ∀ u, usesNickel out = .ok u → receiverOf F "tbd".toList d out v = .ok (.lanewba f)) := by
  refine ⟨?_, ?_, ?_⟩
  · show defaultSetting d = _
    unfold defaultSetting
    rw [hf]; rfl
  · show waveformSetting d = _
    unfold waveformSetting
    rw [hf]; rfl
  · intro h u hu
    show tbdSetting d out v = _
    unfold tbdSetting
    rw [hu]
    show (if (u && !recent v) = true then nickelSetting d out v else defaultSetting d) = _
    rw [h, if_neg (by simp)]
    unfold defaultSetting
    rw [hf]; rfl

/-! ## Concrete files -/

/-- A file with an analog beam and a time-frequency beam. -/
def smallFile : List Str :=
  ["Observation.startTime=2024-01-01T00:00:00Z\n".toList, "Observation.stopTime=2024-01-01T01:00:00Z\n".toList, "Observation.topic=ES02 Exoplanets\n".toList,
   "Anabeam[0].target=src\n".toList, "Anabeam[0].startTime=2024-01-01T00:00:00Z\n".toList, "Anabeam[0].duration=3600s\n".toList, "Anabeam[0].maList=[0..3,101]\n".toList,
   "Anabeam[0].antList=[1..19]\n".toList, "Anabeam[0].filter=[1]\n".toList, "Anabeam[0].filterTime=[2024-01-01T00:00:00Z]\n".toList,
   "Beam[0].target=src\n".toList, "Beam[0].noBeam=0\n".toList, "Beam[0].startTime=2024-01-01T00:00:00Z\n".toList, "Beam[0].duration=3600s\n".toList, "Beam[0].toDo=dynamicspectrum\n".toList,
   "Beam[0].parameters=TF: DT=10 DF=3\n".toList, "Beam[0].subbandList=[100..102]\n".toList]

/-- It is read; it could be exported if the duration were read otherwise. -/
def smallJson : Except Err (Json Unit) := (readFile (fun s => s.head? = some '2') (fun _ => false) smallFile).bind fun p =>
  toJson (fun s => some s.length) (fun _ _ => .ok ()) (fun _ => ()) id p

example : smallJson.toOption.map (fun j => j.topic) = some debugTopic := by decide +kernel

example : smallJson.toOption.map (fun j => j.fovs.map fun f => (f.idx, f.mas)) = some [(0, [.int 0, .int 1, .int 2, .int 3])] := by decide +kernel

example : smallJson.toOption.map (fun j => j.pointings.map fun q => (q.idx, q.fov, q.receiver)) =
    some [(0, 0, some (.tf 2 1 [(100 * width - width / 2, 103 * width - width / 2)]))] := by decide +kernel

/-- The hypotheses of the failure hold of it. -/
example : ∃ p a, readFile (fun s => s.head? = some '2') (fun _ => false) smallFile = .ok p ∧ (0, a) ∈ p.anas ∧ dictGet a "duration".toList = some (.str "3600s".toList) := by
  refine ⟨_, _, rfl, List.mem_singleton.mpr rfl, ?_⟩
  decide +kernel

/-! ## C100 Names of targets -/

theorem target_pattern : (synOf anaRows "target".toList).bind compile = some (false, .cat .bos (.cat (.rep 0 none (.cls true [(' ', ' '), ('\t', '\r')])) (.cat .eos .eps))) := by
  decide +kernel

/-- **C100** fails for names with blanks: no name with a space, such as the one of the documentation, is accepted for a target. -/
theorem target_blank_violated (t : Str) (h : ' ' ∈ t) : ¬Accepts anaRows "target".toList t := by
  rw [accepts_of target_pattern (by decide)]
  intro hr
  exact never_reads (c := ' ') _ _ _ _ (by decide) hr h

/-- **C100**: names without spaces, tabulations and line ends are accepted. -/
theorem target_accepted (t : Str) (h : ∀ c ∈ t, c ≠ ' ' ∧ ¬('\t' ≤ c ∧ c ≤ '\r')) : Accepts anaRows "target".toList t := by
  rw [accepts_of target_pattern (by decide), cat_bos]
  refine ⟨t, [], (List.append_nil t).symm, rep_cls.mpr ⟨Nat.zero_le _, (fun _ h => by cases h), fun c hc => ?_⟩, at_end.mpr rfl⟩
  obtain ⟨h1, h2⟩ := h c hc
  unfold inCls
  have h3 : ¬(' ' ≤ c ∧ c ≤ ' ') := fun e => h1 (Char.le_antisymm e.2 e.1)
  simp only [List.any_cons, List.any_nil, Bool.or_false, Bool.false_and, Bool.true_bne, Bool.not_eq_true', Bool.or_eq_false_iff, Bool.and_eq_false_iff, decide_eq_false_iff_not]
  exact ⟨by by_cases h : ' ' ≤ c; exact Or.inr fun e => h3 ⟨h, e⟩; exact Or.inl h, by by_cases h : '\t' ≤ c; exact Or.inr fun e => h2 ⟨h, e⟩; exact Or.inl h⟩

example : ¬Accepts anaRows "target".toList "My fav target".toList := target_blank_violated _ (by decide)

/-- **C103**: a version of a single number is recent from 2 on; 1 alone is older than 1.0. -/
theorem recent_single (a : Nat) : recent [(a : Int)] = true ↔ 2 ≤ a := by
  show (!tupleLt [(a : Int)] [1, 0]) = true ↔ _
  rw [tupleLt]
  by_cases h : (a : Int) = 1
  · rw [if_pos h, tupleLt]
    constructor
    · intro q; cases q
    · intro q; omega
  · rw [if_neg h]
    simp only [Bool.not_eq_true', decide_eq_false_iff_not, not_lt]
    omega

/-- **C103**: the mini-arrays left in a field of view are those numbered up to 96, in order; elements which are not numbers stay. -/
theorem core_exact (l : List Item) : (coreItems l).Sublist l ∧ ∀ i ∈ l, (i ∈ coreItems l ↔ ∀ n, i = .int n → n ≤ 96) := by
  have hf : ∀ i : Item, (∀ n, i = Item.int n → n ≤ 96) ↔
      ((i.casesOn (fun n => decide (n ≤ 96)) (fun _ => true) (fun _ => true) : Bool) = true) := by
    intro i
    cases i with
    | int n => simp
    | time s => simp
    | str s => simp
  unfold coreItems
  by_cases h : l.any (fun i => i.casesOn (fun n => decide (96 < n)) (fun _ => false) (fun _ => false)) = true
  · rw [if_pos h]
    refine ⟨List.filter_sublist, fun i hi => ?_⟩
    rw [List.mem_filter, hf]
    exact ⟨fun e => e.2, fun e => ⟨hi, e⟩⟩
  · rw [if_neg h]
    refine ⟨List.Sublist.refl l, fun i hi => ⟨fun _ n hn => ?_, fun _ => hi⟩⟩
    subst hn
    by_contra hc
    refine h (List.any_eq_true.2 ⟨_, hi, ?_⟩)
    show decide (96 < n) = true
    exact decide_eq_true (by omega)

/-- **C103**: no remote mini-array is exported, whatever the receivers. -/
theorem remote_lost {C : Type} {F : Str → Option ℚ} {center : Props → ℚ → Except Err C} {zenith : Str × ℚ → C} {isot : Str → Str} {p : PSet} {j : Json C}
    (h : toJson F center zenith isot p = .ok j) : ∀ f ∈ j.fovs, ∀ n, Item.int n ∈ f.mas → n ≤ 96 := by
  obtain ⟨v, fovs, -, -, hf, -, hj⟩ := toJson_steps h
  intro f hfm n hn
  rw [hj] at hfm
  obtain ⟨g, -, rfl⟩ := List.mem_map.1 hfm
  have hs := core_exact g.mas
  exact ((hs.2 _ (hs.1.subset hn)).1 hn) n rfl

/-- A file with remote mini-arrays, for the imaging receiver. -/
def nickelFile : List Str :=
  ["Observation.startTime=2024-01-01T00:00:00Z\n".toList, "Observation.stopTime=2024-01-01T01:00:00Z\n".toList, "Observation.topic=ES02 Exoplanets\n".toList,
   "Anabeam[0].target=src\n".toList, "Anabeam[0].startTime=2024-01-01T00:00:00Z\n".toList, "Anabeam[0].duration=3600s\n".toList, "Anabeam[0].maList=[0..3,101]\n".toList,
   "Anabeam[0].antList=[1..19]\n".toList, "Anabeam[0].filter=[1]\n".toList, "Anabeam[0].filterTime=[2024-01-01T00:00:00Z]\n".toList,
   "Beam[0].target=src\n".toList, "Beam[0].noBeam=0\n".toList, "Beam[0].startTime=2024-01-01T00:00:00Z\n".toList, "Beam[0].duration=3600s\n".toList, "Beam[0].toDo=nickel\n".toList,
   "Beam[0].subbandList=[100..102]\n".toList, "Output.nri_channelization=64\n".toList, "Output.nri_dumpTime=1\n".toList, "Output.nri_subbandList=[100..102]\n".toList]

/-- The result for this file, if durations were read. -/
def nickelJson : Except Err (Json Unit) := (readFile (fun s => s.head? = some '2') (fun _ => false) nickelFile).bind fun p =>
  toJson (fun s => some s.length) (fun _ _ => .ok ()) (fun _ => ()) id p

/-- The pointing is that of an imaging receiver. -/
def isNickel : Option Receiver → Bool
  | some (.nickel ..) => true
  | _ => false

/-- **C103** fails for remote mini-arrays: they are to be removed when no pointing of the field uses the imaging receiver, but are
removed in any case; here the only pointing of the only field uses it. -/
theorem remote_nickel_violated : ∃ j, nickelJson = .ok j ∧ (j.pointings.map fun q => (q.fov, isNickel q.receiver)) = [(0, true)] ∧
    (j.fovs.map fun f => (f.idx, f.mas)) = [(0, [.int 0, .int 1, .int 2, .int 3])] := by
  have h : nickelJson.toOption.any (fun j => decide ((j.pointings.map fun q => (q.fov, isNickel q.receiver)) = [(0, true)] ∧
    (j.fovs.map fun f => (f.idx, f.mas)) = [(0, [.int 0, .int 1, .int 2, .int 3])])) = true := by decide +kernel
  generalize nickelJson = r at h
  cases r with
  | error e => cases h
  | ok j => exact ⟨j, rfl, of_decide_eq_true h⟩

end Verif.Parset
