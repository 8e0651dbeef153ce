import Verif.Config.FromParset
import Verif.Parset.PropsText
import Batteries.Data.Char.AsciiCasing
import Mathlib.Data.List.TakeWhile

/-!
# Text of the parameters of a digital beam: property C94
-/

namespace Verif.Config

open Verif.Parset (Str lower isBlank splitOn strip splitOn_none splitOn_append dropWhile_head pyInt natStr natStr_digits pyInt_natStr)

/-! ## C94 The parameters of a beam are read as they are written -/

/-- An option: a key with its value, or a word alone. -/
inductive Opt
  | val (k v : Str)
  | word (f : Str)

/-- Its text. -/
def Opt.body : Opt → Str
  | .val k v => k ++ '=' :: v
  | .word f => f

/-- Its name. -/
def Opt.key : Opt → Str
  | .val k _ => k
  | .word f => f

/-- A text made of blanks. -/
def Blanks (s : Str) : Prop := ∀ c ∈ s, isBlank c = true

/-- No blank inside. -/
def NoBlank (s : Str) : Prop := ∀ c ∈ s, isBlank c = false

/-- A well-written option: no blank, no separator within the names and values. -/
def Opt.Fine (o : Opt) : Prop := NoBlank o.body ∧ o.body ≠ [] ∧ ':' ∉ o.key ∧ '=' ∉ o.key ∧ ∀ k v, o = .val k v → '=' ∉ v

/-- No double dash inside, and no dash at the end, so that the text can be followed by a double dash. -/
def NoDashes (s : Str) : Prop := ¬ ['-', '-'] <:+: s ∧ s.getLast? ≠ some '-'

theorem noBlank_of {s : Str} (h : s.all (fun c => !isBlank c) = true) : NoBlank s := fun c hc => by
  have := List.all_eq_true.mp h c hc
  simpa using this

theorem blanks_of {s : Str} (h : s.all isBlank = true) : Blanks s := fun c hc => List.all_eq_true.mp h c hc

theorem splitDash_append : ∀ (a t : Str), NoDashes a → splitDash (a ++ '-' :: '-' :: t) = a :: splitDash t
  | [], t, _ => by
    show splitDash ('-' :: '-' :: t) = _
    rw [splitDash, if_pos ⟨rfl, rfl⟩]
  | [x], t, h => by
    have hx : x ≠ '-' := fun e => h.2 (by rw [e]; rfl)
    show splitDash (x :: '-' :: '-' :: t) = _
    rw [splitDash, if_neg (fun e => hx e.1), splitDash, if_pos ⟨rfl, rfl⟩]
    rfl
  | x :: y :: s, t, h => by
    have hxy : ¬ (x = '-' ∧ y = '-') := by
      rintro ⟨rfl, rfl⟩
      exact h.1 ⟨[], s, rfl⟩
    have hy : NoDashes (y :: s) := by
      refine ⟨fun e => h.1 ?_, ?_⟩
      · obtain ⟨p, q, e⟩ := e
        exact ⟨x :: p, q, by rw [← e]; rfl⟩
      · intro e
        apply h.2
        rw [List.getLast?_cons_cons]
        exact e
    have ih := splitDash_append (y :: s) t hy
    show splitDash (x :: y :: (s ++ '-' :: '-' :: t)) = _
    rw [splitDash, if_neg hxy]
    rw [List.cons_append] at ih
    rw [ih]
    rfl

theorem splitDash_none : ∀ a : Str, ¬ ['-', '-'] <:+: a → splitDash a = [a]
  | [], _ => rfl
  | [x], _ => rfl
  | x :: y :: s, h => by
    have hxy : ¬ (x = '-' ∧ y = '-') := by
      rintro ⟨rfl, rfl⟩
      exact h ⟨[], s, rfl⟩
    have ih := splitDash_none (y :: s) (fun e => h (by
      obtain ⟨p, q, e⟩ := e
      exact ⟨x :: p, q, by rw [← e]; rfl⟩))
    rw [splitDash, if_neg hxy, ih]
    rfl

theorem splitDash_chunks : ∀ (cs : List Str) (c : Str), (∀ s ∈ c :: cs, NoDashes s) → splitDash (c ++ cs.flatMap (fun s => '-' :: '-' :: s)) = c :: cs
  | [], c, h => by
    rw [List.flatMap_nil, List.append_nil]
    exact splitDash_none c (h c (by simp)).1
  | d :: cs, c, h => by
    rw [List.flatMap_cons]
    show splitDash (c ++ '-' :: '-' :: (d ++ cs.flatMap (fun s => '-' :: '-' :: s))) = _
    rw [splitDash_append c _ (h c (by simp)), splitDash_chunks cs d (fun s hs => h s (by simp [List.mem_cons.mp hs]))]

theorem find_some {d : List (Str × PV)} {k : Str} {v : PV} (h : (k, v) ∈ d) (hu : ∀ w, (k, w) ∈ d → w = v) : find d k = some v := by
  unfold find
  cases hf : d.reverse.find? (fun p => decide (p.1 = k)) with
  | none =>
    exfalso
    have := List.find?_eq_none.mp hf (k, v) (List.mem_reverse.mpr h)
    simp at this
  | some p =>
    obtain ⟨p1, p2⟩ := p
    have h1 := List.find?_some hf
    have h2 := List.mem_of_find?_eq_some hf
    have e : p1 = k := by simpa using h1
    subst e
    rw [Option.map_some, hu p2 (List.mem_reverse.mp h2)]

theorem find_none {d : List (Str × PV)} {k : Str} (h : ∀ w, (k, w) ∉ d) : find d k = none := by
  unfold find
  rw [Option.map_eq_none_iff, List.find?_eq_none]
  rintro ⟨a, b⟩ hp
  simp only [decide_eq_true_eq]
  rintro rfl
  exact h b (List.mem_reverse.mp hp)

theorem lower_lower (s : Str) : lower (lower s) = lower s := by
  unfold lower
  rw [List.map_map]
  refine List.map_congr_left fun c _ => ?_
  exact Char.toLower_toLower_eq_toLower c

theorem rstrip_blanks (s pad : Str) (hp : Blanks pad) (hs : ∀ c ∈ s.getLast?, isBlank c = false) : rstrip (s ++ pad) = s := by
  unfold rstrip
  rw [List.reverse_append]
  have h1 : ∀ (q r : Str), Blanks q → (q ++ r).dropWhile isBlank = r.dropWhile isBlank := by
    intro q
    induction q with
    | nil => intro r _; rfl
    | cons x q ih =>
      intro r h
      rw [List.cons_append, List.dropWhile_cons_of_pos (h x (by simp)), ih r (fun c hc => h c (by simp [hc]))]
  rw [h1 _ _ (fun c hc => hp c (List.mem_reverse.mp hc))]
  cases hr : s.reverse with
  | nil => rw [List.reverse_eq_nil_iff.mp hr]; rfl
  | cons x r =>
    have hx : s.getLast? = some x := by
      rw [List.getLast?_eq_head?_reverse, hr]; rfl
    have := hs x (by rw [hx]; rfl)
    rw [List.dropWhile_cons_of_neg (by rw [this]; simp), ← hr, List.reverse_reverse]

theorem strip_blanks (s pad : Str) (hp : Blanks pad) (hs : NoBlank s) : strip (s ++ pad) = s := by
  unfold strip
  cases s with
  | nil =>
    have : ∀ q : Str, Blanks q → q.dropWhile isBlank = [] := by
      intro q h
      rw [List.dropWhile_eq_nil_iff]
      exact h
    rw [List.nil_append, this pad hp]; rfl
  | cons x s =>
    rw [List.cons_append, List.dropWhile_cons_of_neg (by rw [hs x (by simp)]; simp)]
    have := rstrip_blanks (x :: s) pad hp (fun c hc => hs c (List.mem_of_getLast? hc))
    unfold rstrip at this
    exact this

theorem mem_valued {l : List Str} {k : Str} {w : PV} (h : (k, w) ∈ valued l) : ∃ p ∈ l, '=' ∈ p ∧ (splitOn '=' p).getD 0 [] = k ∧ w = .text ((splitOn '=' p).getD 1 []) := by
  unfold valued at h
  rw [List.mem_map] at h
  obtain ⟨p, hp, e⟩ := h
  rw [List.mem_filter] at hp
  injection e with e1 e2
  exact ⟨p, hp.1, by simpa using hp.2, e1, e2.symm⟩

theorem mem_flags {l : List Str} {k : Str} {w : PV} (h : (k, w) ∈ flags l) : ∃ p ∈ l, '=' ∉ p ∧ rstrip p = k ∧ w = .flag := by
  unfold flags at h
  rw [List.mem_map] at h
  obtain ⟨p, hp, e⟩ := h
  rw [List.mem_filter] at hp
  injection e with e1 e2
  exact ⟨p, hp.1, by simpa using hp.2, e1, e2.symm⟩

theorem split_val (k v : Str) (hk : '=' ∉ k) (hv : '=' ∉ v) : splitOn '=' (k ++ '=' :: v) = [k, v] := by
  rw [splitOn_append '=' k v hk, splitOn_none '=' v hv]

theorem notMem_blanks {c : Char} (h : isBlank c = false) {s : Str} (hs : Blanks s) : c ∉ s := fun hc => by
  have := hs c hc
  rw [h] at this
  cases this

/-- Text of the options of a pulsar beam: each option after a double dash, with blanks between them. -/
def pulsarText (mode gap : Str) (l : List (Opt × Str)) : Str := (mode ++ ':' :: gap) ++ (l.map (fun o => o.1.body ++ o.2)).flatMap (fun s => '-' :: '-' :: s)

/-- The options of a pulsar beam, in small letters, are found with their values; names that are not written are not found. -/
theorem pulsar_text_exact (mode gap : Str) (l : List (Opt × Str)) (hm : ':' ∉ mode ∧ '=' ∉ mode ∧ ¬ ['-', '-'] <:+: mode) (hgap : Blanks gap)
    (hl : ∀ o ∈ l, o.1.Fine ∧ Blanks o.2 ∧ NoDashes o.1.body) (hnd : (l.map (fun o => o.1.key)).Nodup) (hlow : lower (pulsarText mode gap l) = pulsarText mode gap l) :
    modeOf (pulsarText mode gap l) = mode
    ∧ (∀ k v pad, (Opt.val k v, pad) ∈ l → ∃ w, find (paramsOf true (pulsarText mode gap l)) k = some (.text w) ∧ strip w = v)
    ∧ (∀ f pad, (Opt.word f, pad) ∈ l → find (paramsOf true (pulsarText mode gap l)) f = some .flag)
    ∧ ∀ k, ':' ∉ k → (∀ o ∈ l, o.1.key ≠ k) → find (paramsOf true (pulsarText mode gap l)) k = none := by
  have hnb : ∀ c, isBlank c = true → c ≠ '-' := by rintro c h rfl; revert h; decide
  have nodash_pad : ∀ (s pad : Str), NoDashes s → Blanks pad → NoDashes (s ++ pad) := by
    intro s pad hs hp
    refine ⟨?_, ?_⟩
    · rintro ⟨a, b, e⟩
      rcases List.append_eq_append_iff.mp e with ⟨c, h1, h2⟩ | ⟨c, h1, h2⟩
      · exact hs.1 ⟨a, c, by rw [h1]⟩
      · rcases List.append_eq_append_iff.mp h1.symm with ⟨d, h3, h4⟩ | ⟨d, h3, h4⟩
        · have hx : '-' ∈ pad := by rw [h2, h4]; simp
          exact hnb '-' (hp '-' hx) rfl
        · rcases c with _ | ⟨x, c⟩
          · rw [List.append_nil] at h1
            exact hs.1 ⟨a, [], by rw [List.append_nil, h1]⟩
          · have hx : x ∈ pad := by rw [h2]; simp
            have hxd : x = '-' := by
              have : x ∈ ['-', '-'] := by rw [h4]; simp
              simpa using this
            exact hnb x (hp x hx) hxd
    · intro e
      rcases List.eq_nil_or_concat pad with rfl | ⟨q, c, rfl⟩
      · rw [List.append_nil] at e; exact hs.2 e
      · rw [List.concat_eq_append] at e hp
        simp at e
        exact hnb c (hp c (by simp)) e
  have hmode : NoDashes (mode ++ ':' :: gap) := by
    have h0 : NoDashes (mode ++ [':']) := by
      refine ⟨?_, by simp⟩
      rintro ⟨a, b, e⟩
      rcases List.eq_nil_or_concat b with rfl | ⟨q, c, rfl⟩
      · have := congrArg List.getLast? e
        simp at this
      · apply hm.2.2
        rw [List.concat_eq_append, ← List.append_assoc] at e
        exact ⟨a, q, List.append_inj_left' e rfl⟩
    have := nodash_pad _ gap h0 hgap
    rwa [List.append_assoc] at this
  have hsplit : splitDash (pulsarText mode gap l) = (mode ++ ':' :: gap) :: l.map (fun o => o.1.body ++ o.2) := by
    unfold pulsarText
    apply splitDash_chunks
    intro s hs
    rcases List.mem_cons.mp hs with rfl | hs
    · exact hmode
    · obtain ⟨o, ho, rfl⟩ := List.mem_map.mp hs
      exact nodash_pad _ _ (hl o ho).2.2 (hl o ho).2.1
  have hmeq : '=' ∉ mode ++ ':' :: gap := by
    rw [List.mem_append, List.mem_cons]
    rintro (h | h | h)
    · exact hm.2.1 h
    · revert h; decide
    · exact notMem_blanks (by decide) hgap h
  have hd : paramsOf true (pulsarText mode gap l) = valued (l.map (fun o => o.1.body ++ o.2))
      ++ flags ((mode ++ ':' :: gap) :: l.map (fun o => o.1.body ++ o.2)) := by
    unfold paramsOf
    rw [if_pos rfl, hlow, hsplit]
    congr 1
    unfold valued
    rw [List.filter_cons_of_neg (by simpa using hmeq)]
  -- what the two parts of the dictionary hold
  have key_eq : ∀ o ∈ l, ∀ k, (k = (splitOn '=' (o.1.body ++ o.2)).getD 0 [] ∧ '=' ∈ o.1.body ++ o.2 ↔ ∃ v, o.1 = .val k v) := by
    rintro ⟨o, pad⟩ ho k
    obtain ⟨⟨-, -, -, f3, f4⟩, hp, -⟩ := hl _ ho
    cases o with
    | val k' v =>
      have hv : '=' ∉ v ++ pad := by
        rw [List.mem_append]
        rintro (h | h)
        · exact f4 k' v rfl h
        · exact notMem_blanks (by decide) hp h
      show (k = (splitOn '=' ((k' ++ '=' :: v) ++ pad)).getD 0 [] ∧ _) ↔ _
      rw [List.append_assoc, List.cons_append, split_val k' (v ++ pad) f3 hv]
      constructor
      · rintro ⟨rfl, -⟩; exact ⟨v, rfl⟩
      · rintro ⟨w, e⟩
        injection e with e1 e2
        exact ⟨e1.symm, by simp [Opt.body]⟩
    | word f =>
      constructor
      · rintro ⟨-, h⟩
        exfalso
        rcases List.mem_append.mp h with h | h
        · exact f3 h
        · exact notMem_blanks (by decide) hp h
      · rintro ⟨v, e⟩; cases e
  have flag_eq : ∀ o ∈ l, ∀ k, ('=' ∉ o.1.body ++ o.2 ∧ rstrip (o.1.body ++ o.2) = k ↔ o.1 = .word k) := by
    rintro ⟨o, pad⟩ ho k
    obtain ⟨⟨f1, -, -, f3, f4⟩, hp, -⟩ := hl _ ho
    cases o with
    | val k' v =>
      constructor
      · rintro ⟨h, -⟩; exact absurd (by simp [Opt.body]) h
      · intro e; cases e
    | word f =>
      show ('=' ∉ f ++ pad ∧ rstrip (f ++ pad) = k) ↔ _
      rw [rstrip_blanks f pad hp (fun c hc => f1 c (List.mem_of_getLast? hc))]
      constructor
      · rintro ⟨-, rfl⟩; rfl
      · intro e
        injection e with e
        refine ⟨?_, e⟩
        rw [List.mem_append]
        rintro (h | h)
        · exact f3 h
        · exact notMem_blanks (by decide) hp h
  have hmkey : rstrip (mode ++ ':' :: gap) = mode ++ [':'] := by
    have := rstrip_blanks (mode ++ [':']) gap hgap (by simp; decide)
    rwa [List.append_assoc] at this
  have huniq : ∀ o ∈ l, ∀ o' ∈ l, o.1.key = o'.1.key → o = o' := fun o ho o' ho' e => List.inj_on_of_nodup_map hnd ho ho' e
  refine ⟨?_, ?_, ?_, ?_⟩
  · unfold modeOf
    rw [hlow]
    unfold pulsarText
    rw [List.append_assoc, List.cons_append, splitOn_append ':' mode _ hm.1]
    rfl
  · intro k v pad hmem
    obtain ⟨⟨f1, -, f2, f3, f4⟩, hp, -⟩ := hl _ hmem
    refine ⟨v ++ pad, ?_, ?_⟩
    · rw [hd]
      have hv : '=' ∉ v ++ pad := by
        rw [List.mem_append]
        rintro (h | h)
        · exact f4 k v rfl h
        · exact notMem_blanks (by decide) hp h
      apply find_some
      · rw [List.mem_append]
        left
        unfold valued
        rw [List.mem_map]
        refine ⟨(Opt.val k v).body ++ pad, ?_, ?_⟩
        · rw [List.mem_filter]
          exact ⟨List.mem_map.mpr ⟨_, hmem, rfl⟩, by simp [Opt.body]⟩
        · show ((splitOn '=' ((k ++ '=' :: v) ++ pad)).getD 0 [], PV.text ((splitOn '=' ((k ++ '=' :: v) ++ pad)).getD 1 [])) = _
          rw [List.append_assoc, List.cons_append, split_val k (v ++ pad) f3 hv]
          rfl
      · intro w hw
        rcases List.mem_append.mp hw with hw | hw
        · obtain ⟨p, hp', h1, h2, h3⟩ := mem_valued hw
          obtain ⟨o, ho, rfl⟩ := List.mem_map.mp hp'
          obtain ⟨v', e⟩ := (key_eq o ho k).mp ⟨h2.symm, h1⟩
          have := huniq o ho _ hmem (by rw [e]; rfl)
          subst this
          rw [h3]
          show PV.text ((splitOn '=' ((k ++ '=' :: v) ++ pad)).getD 1 []) = _
          rw [List.append_assoc, List.cons_append, split_val k (v ++ pad) f3 hv]
          rfl
        · exfalso
          obtain ⟨p, hp', h1, h2, -⟩ := mem_flags hw
          rcases List.mem_cons.mp hp' with rfl | hp'
          · rw [hmkey] at h2
            exact f2 (by rw [Opt.key, ← h2]; simp)
          · obtain ⟨o, ho, rfl⟩ := List.mem_map.mp hp'
            have e := (flag_eq o ho k).mp ⟨h1, h2⟩
            have := huniq o ho _ hmem (by rw [e]; rfl)
            subst this
            cases e
    · exact strip_blanks v pad hp (fun c hc => f1 c (by simp [Opt.body, hc]))
  · intro f pad hmem
    obtain ⟨⟨f1, -, f2, f3, f4⟩, hp, -⟩ := hl _ hmem
    rw [hd]
    apply find_some
    · rw [List.mem_append]
      right
      unfold flags
      rw [List.mem_map]
      obtain ⟨h1, h2⟩ := (flag_eq _ hmem f).mpr rfl
      refine ⟨f ++ pad, ?_, congrArg (fun x => (x, PV.flag)) h2⟩
      rw [List.mem_filter]
      exact ⟨List.mem_cons_of_mem _ (List.mem_map.mpr ⟨_, hmem, rfl⟩), decide_eq_true h1⟩
    · intro w hw
      rcases List.mem_append.mp hw with hw | hw
      · exfalso
        obtain ⟨p, hp', h1, h2, h3⟩ := mem_valued hw
        obtain ⟨o, ho, rfl⟩ := List.mem_map.mp hp'
        obtain ⟨v', e⟩ := (key_eq o ho f).mp ⟨h2.symm, h1⟩
        have := huniq o ho _ hmem (by rw [e]; rfl)
        subst this
        cases e
      · exact (mem_flags hw).choose_spec.2.2.2
  · intro k hk hno
    rw [hd]
    apply find_none
    intro w hw
    rcases List.mem_append.mp hw with hw | hw
    · obtain ⟨p, hp', h1, h2, h3⟩ := mem_valued hw
      obtain ⟨o, ho, rfl⟩ := List.mem_map.mp hp'
      obtain ⟨v', e⟩ := (key_eq o ho k).mp ⟨h2.symm, h1⟩
      exact hno o ho (by rw [e]; rfl)
    · obtain ⟨p, hp', h1, h2, -⟩ := mem_flags hw
      rcases List.mem_cons.mp hp' with rfl | hp'
      · rw [hmkey] at h2
        exact hk (by rw [← h2]; simp)
      · obtain ⟨o, ho, rfl⟩ := List.mem_map.mp hp'
        have e := (flag_eq o ho k).mp ⟨h1, h2⟩
        exact hno o ho (by rw [e]; rfl)

/-- Capital and small letters are not told apart. -/
theorem case_ignored (b : Bool) (s : Str) : paramsOf b s = paramsOf b (lower s) ∧ modeOf s = modeOf (lower s) := by
  unfold paramsOf modeOf
  rw [lower_lower]
  exact ⟨rfl, rfl⟩

example : ∃ l : List (Opt × Str), pulsarText "fold".toList " ".toList l = "fold: --tfold=10.737 --onlyi --src=j0944-1354".toList
    ∧ (∀ o ∈ l, o.1.Fine ∧ Blanks o.2 ∧ NoDashes o.1.body) ∧ (l.map (fun o => o.1.key)).Nodup
    ∧ lower (pulsarText "fold".toList " ".toList l) = pulsarText "fold".toList " ".toList l := by
  refine ⟨[(.val "tfold".toList "10.737".toList, " ".toList), (.word "onlyi".toList, " ".toList), (.val "src".toList "j0944-1354".toList, [])], by decide +kernel, ?_,
    by decide +kernel, by decide +kernel⟩
  intro o ho
  simp only [List.mem_cons, List.not_mem_nil, or_false] at ho
  rcases ho with rfl | rfl | rfl
  · refine ⟨⟨noBlank_of (by decide +kernel), by decide, by decide, by decide, ?_⟩, blanks_of (by decide +kernel), by unfold NoDashes; decide +kernel⟩
    intro k v e; injection e with e1 e2; subst e2; decide
  · refine ⟨⟨noBlank_of (by decide +kernel), by decide, by decide, by decide, ?_⟩, blanks_of (by decide +kernel), by unfold NoDashes; decide +kernel⟩
    intro k v e; cases e
  · refine ⟨⟨noBlank_of (by decide +kernel), by decide, by decide, by decide, ?_⟩, blanks_of (by decide +kernel), by unfold NoDashes; decide +kernel⟩
    intro k v e; injection e with e1 e2; subst e2; decide

theorem wordsFrom_append : ∀ (a w s : Str), NoBlank a → wordsFrom w (a ++ s) = wordsFrom (w ++ a) s
  | [], w, s, _ => by rw [List.nil_append, List.append_nil]
  | x :: a, w, s, h => by
    rw [List.cons_append, wordsFrom, if_neg (by rw [h x (by simp)]; simp), wordsFrom_append a _ s (fun c hc => h c (by simp [hc])), List.append_assoc]
    rfl

theorem wordsFrom_blanks : ∀ (g s : Str), Blanks g → wordsFrom [] (g ++ s) = wordsFrom [] s
  | [], s, _ => rfl
  | x :: g, s, h => by
    rw [List.cons_append, wordsFrom, if_pos (h x (by simp)), if_pos rfl, wordsFrom_blanks g s (fun c hc => h c (by simp [hc]))]

theorem wordsFrom_gap (w g s : Str) (hw : w ≠ []) (hg : Blanks g) (hne : g ≠ []) : wordsFrom w (g ++ s) = w :: wordsFrom [] s := by
  cases g with
  | nil => exact absurd rfl hne
  | cons x g =>
    rw [List.cons_append, wordsFrom, if_pos (hg x (by simp)), if_neg hw, wordsFrom_blanks g s (fun c hc => hg c (by simp [hc]))]

theorem words_text : ∀ (l : List (Str × Str)) (w : Str) (tail : Str), w ≠ [] → Blanks tail → (∀ o ∈ l, NoBlank o.1 ∧ o.1 ≠ [] ∧ Blanks o.2 ∧ o.2 ≠ []) →
    wordsFrom w (l.flatMap (fun o => o.2 ++ o.1) ++ tail) = w :: l.map Prod.fst
  | [], w, tail, hw, ht, _ => by
    rw [List.flatMap_nil, List.nil_append, List.map_nil]
    cases tail with
    | nil => rw [wordsFrom, if_neg hw]
    | cons x t =>
      have := wordsFrom_gap w (x :: t) [] hw ht (by simp)
      rw [List.append_nil] at this
      rw [this, wordsFrom, if_pos rfl]
  | o :: l, w, tail, hw, ht, h => by
    obtain ⟨h1, h2, h3, h4⟩ := h o (by simp)
    rw [List.flatMap_cons, List.append_assoc, List.append_assoc, wordsFrom_gap w o.2 _ hw h3 h4, wordsFrom_append o.1 [] _ h1, List.nil_append,
      words_text l o.1 tail h2 ht (fun p hp => h p (by simp [hp]))]
    rfl

/-- Text of the options of a time-frequency beam: words with blanks before them. -/
def tfText (mode : Str) (l : List (Opt × Str)) (tail : Str) : Str := (mode ++ [':']) ++ ((l.map (fun o => (o.1.body, o.2))).flatMap (fun o => o.2 ++ o.1) ++ tail)

/-- The values of a time-frequency beam, in small letters, are found; names that are not written are not found. -/
theorem tf_text_exact (mode tail : Str) (l : List (Opt × Str)) (hm : ':' ∉ mode ∧ '=' ∉ mode ∧ NoBlank mode) (htail : Blanks tail)
    (hl : ∀ o ∈ l, o.1.Fine ∧ Blanks o.2 ∧ o.2 ≠ []) (hnd : (l.map (fun o => o.1.key)).Nodup) (hdash : ¬ ['-', '-'] <:+: tfText mode l tail)
    (hval : ∃ k v g, (Opt.val k v, g) ∈ l) (hlow : lower (tfText mode l tail) = tfText mode l tail) :
    modeOf (tfText mode l tail) = mode
    ∧ (∀ k v g, (Opt.val k v, g) ∈ l → find (paramsOf false (tfText mode l tail)) k = some (.text v))
    ∧ ∀ k, (∀ v g, (Opt.val k v, g) ∉ l) → find (paramsOf false (tfText mode l tail)) k = none := by
  have hcolon : isBlank ':' = false := by decide
  have hwords : words (tfText mode l tail) = (mode ++ [':']) :: l.map (fun o => o.1.body) := by
    unfold words tfText
    have hmn : NoBlank (mode ++ [':']) := by
      intro c hc
      rcases List.mem_append.mp hc with h | h
      · exact hm.2.2 c h
      · rw [List.mem_singleton.mp h]; exact hcolon
    rw [wordsFrom_append _ [] _ hmn, List.nil_append, words_text _ _ tail (by simp) htail]
    · rw [List.map_map]; rfl
    · intro o ho
      obtain ⟨p, hp, rfl⟩ := List.mem_map.mp ho
      obtain ⟨⟨f1, f2, -⟩, h2, h3⟩ := hl p hp
      exact ⟨f1, f2, h2, h3⟩
  have heq : '=' ∈ tfText mode l tail := by
    obtain ⟨k, v, g, hv⟩ := hval
    unfold tfText
    rw [List.mem_append]; right
    rw [List.mem_append]; left
    rw [List.mem_flatMap]
    exact ⟨((Opt.val k v).body, g), List.mem_map.mpr ⟨_, hv, rfl⟩, by simp [Opt.body]⟩
  have hd : paramsOf false (tfText mode l tail) = valued (l.map (fun o => o.1.body)) := by
    unfold paramsOf
    rw [if_neg (by simp), hlow, hwords, splitDash_none _ hdash]
    have h1 : flags [tfText mode l tail] = [] := by
      unfold flags
      rw [List.filter_cons_of_neg (by simpa using heq)]
      rfl
    rw [h1, List.append_nil]
    unfold valued
    have : '=' ∉ mode ++ [':'] := by
      rw [List.mem_append, List.mem_singleton]
      rintro (h | h)
      · exact hm.2.1 h
      · revert h; decide
    rw [List.filter_cons_of_neg (by simpa using this)]
  have huniq : ∀ o ∈ l, ∀ o' ∈ l, o.1.key = o'.1.key → o = o' := fun o ho o' ho' e => List.inj_on_of_nodup_map hnd ho ho' e
  have inv : ∀ k w, (k, w) ∈ valued (l.map (fun o => o.1.body)) → ∃ v g, (Opt.val k v, g) ∈ l ∧ w = .text v := by
    intro k w hw
    obtain ⟨p, hp, h1, h2, h3⟩ := mem_valued hw
    obtain ⟨⟨o, g⟩, ho, rfl⟩ := List.mem_map.mp hp
    obtain ⟨⟨-, -, -, f3, f4⟩, -⟩ := hl _ ho
    cases o with
    | val k' v =>
      have e : splitOn '=' (Opt.val k' v).body = [k', v] := split_val k' v f3 (f4 k' v rfl)
      simp only at h2 h3
      rw [e] at h2 h3
      have hk : k' = k := h2
      subst hk
      exact ⟨v, g, ho, h3⟩
    | word f => exact absurd h1 f3
  refine ⟨?_, ?_, ?_⟩
  · unfold modeOf
    rw [hlow]
    unfold tfText
    rw [List.append_assoc, List.singleton_append, splitOn_append ':' mode _ hm.1]
    rfl
  · intro k v g hmem
    obtain ⟨⟨-, -, -, f3, f4⟩, -⟩ := hl _ hmem
    rw [hd]
    apply find_some
    · unfold valued
      rw [List.mem_map]
      refine ⟨(Opt.val k v).body, ?_, ?_⟩
      · rw [List.mem_filter]
        exact ⟨List.mem_map.mpr ⟨_, hmem, rfl⟩, by simp [Opt.body]⟩
      · have e : splitOn '=' (Opt.val k v).body = [k, v] := split_val k v f3 (f4 k v rfl)
        rw [e]; rfl
    · intro w hw
      obtain ⟨v', g', h1, rfl⟩ := inv k w hw
      have := huniq _ h1 _ hmem rfl
      injection this with e1 e2
      injection e1 with e3 e4
      rw [e4]
  · intro k hno
    rw [hd]
    apply find_none
    intro w hw
    obtain ⟨v, g, h1, -⟩ := inv k w hw
    exact hno v g h1

example : ∃ l : List (Opt × Str), tfText "tf".toList l [] = "tf: df=3.05 dt=10.0 hamm".toList
    ∧ (∀ o ∈ l, o.1.Fine ∧ Blanks o.2 ∧ o.2 ≠ []) ∧ (l.map (fun o => o.1.key)).Nodup ∧ ¬ ['-', '-'] <:+: tfText "tf".toList l []
    ∧ lower (tfText "tf".toList l []) = tfText "tf".toList l [] := by
  refine ⟨[(.val "df".toList "3.05".toList, " ".toList), (.val "dt".toList "10.0".toList, " ".toList), (.word "hamm".toList, " ".toList)], by decide +kernel, ?_,
    by decide +kernel, by decide +kernel, by decide +kernel⟩
  intro o ho
  simp only [List.mem_cons, List.not_mem_nil, or_false] at ho
  rcases ho with rfl | rfl | rfl
  · refine ⟨⟨noBlank_of (by decide +kernel), by decide, by decide, by decide, ?_⟩, blanks_of (by decide +kernel), by decide⟩
    intro k v e; injection e with e1 e2; subst e2; decide
  · refine ⟨⟨noBlank_of (by decide +kernel), by decide, by decide, by decide, ?_⟩, blanks_of (by decide +kernel), by decide⟩
    intro k v e; injection e with e1 e2; subst e2; decide
  · refine ⟨⟨noBlank_of (by decide +kernel), by decide, by decide, by decide, ?_⟩, blanks_of (by decide +kernel), by decide⟩
    intro k v e; cases e

/-- Without a blank after the colon the first value of a time-frequency beam is not found, and the beam cannot be built. -/
theorem glued_value_violated (F : Str → Option ℚ) (x : DBeam) :
    find (paramsOf false "TF:DT=10.0 DF=3.05".toList) "dt".toList = none ∧ tfBeam F x "TF:DT=10.0 DF=3.05".toList = .error .keyError := by
  have h : find (paramsOf false "TF:DT=10.0 DF=3.05".toList) "dt".toList = none := by decide +kernel
  refine ⟨h, ?_⟩
  unfold tfBeam floatAt
  rw [h]
  rfl

/-- The duration of a beam written as a whole number followed by s is that number of seconds. -/
theorem seconds_exact (n : Nat) : seconds (natStr n ++ ['s']) = .ok n := by
  unfold seconds
  have : (natStr n ++ ['s']).filter (fun c => decide (c ≠ 's')) = natStr n := by
    rw [List.filter_append]
    have h1 : (natStr n).filter (fun c => decide (c ≠ 's')) = natStr n := by
      rw [List.filter_eq_self]
      intro c hc
      have := natStr_digits n c hc
      refine decide_eq_true ?_
      rintro rfl
      exact absurd this (by decide)
    rw [h1]; simp
  rw [this, pyInt_natStr]

end Verif.Config
