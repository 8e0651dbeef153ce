import Verif.Parset.PropsValidate
import Verif.Parset.PropsReplay
import Verif.Parset.PropsJson

/-!
# C168: words and small numbers accepted for the properties of a parset

The patterns of many properties are a few words (parset_user_options.json). `Re.seqs` lists the sequences of characters of a pattern
without repetition; `fixed_accepted` says that these sequences are exactly what is accepted.
-/

namespace Verif.Parset

/-! ## Sequences of a pattern without repetition -/

/-- A sequence of classes of characters, possibly at the beginning or at the end of the text only. -/
structure Seq where
  start : Bool
  cs : List (Bool × List (Char × Char))
  stop : Bool
  deriving DecidableEq

/-- One sequence after the other. -/
def Seq.and (a b : Seq) : Seq := ⟨a.start || b.start, a.cs ++ b.cs, a.stop || b.stop⟩

/-- Nothing is read before the beginning or after the end. -/
def Seq.fit (a b : Seq) : Bool := (!a.stop || b.cs.isEmpty) && (!b.start || a.cs.isEmpty)

/-- The sequences of a pattern. -/
def Re.seqs : Re → List Seq
  | .eps => [⟨false, [], false⟩]
  | .cls neg l => [⟨false, [(neg, l)], false⟩]
  | .cat a b => a.seqs.flatMap fun x => b.seqs.map x.and
  | .alt a b => a.seqs ++ b.seqs
  | .grp _ r => r.seqs
  | .bos => [⟨true, [], false⟩]
  | .eos => [⟨false, [], true⟩]
  | _ => []

/-- A pattern without repetition, whose anchors are at its ends. -/
def Re.tame : Re → Bool
  | .cat a b => a.tame && b.tame && a.seqs.all fun x => b.seqs.all x.fit
  | .alt a b => a.tame && b.tame
  | .grp _ r => r.tame
  | .rep _ _ _ => false
  | .edge => false
  | .back _ => false
  | .look _ _ => false
  | _ => true

/-- The text has one character of each class, in the same order. -/
def Fits (ci : Bool) (cs : List (Bool × List (Char × Char))) (w : Str) : Prop := List.Forall₂ (fun k c => inCls ci k.1 k.2 c = true) cs w

/-- The sequence is read there. -/
def Seq.Here (ci : Bool) (x : Seq) (p : Option Char) (w rest : Str) : Prop :=
  (x.start = true → p = none) ∧ Fits ci x.cs w ∧ (x.stop = true → rest = [] ∨ rest = ['\n'])

theorem fits_append (ci : Bool) (a b : List (Bool × List (Char × Char))) (w : Str) :
    Fits ci (a ++ b) w ↔ ∃ u v, w = u ++ v ∧ Fits ci a u ∧ Fits ci b v := by
  unfold Fits
  constructor
  · intro h
    refine ⟨w.take a.length, w.drop a.length, (List.take_append_drop ..).symm, ?_, ?_⟩
    · have := List.forall₂_take a.length h
      rwa [List.take_left'] at this
      rfl
    · have := List.forall₂_drop a.length h
      rwa [List.drop_left'] at this
      rfl
  · rintro ⟨u, v, rfl, h1, h2⟩
    exact List.rel_append h1 h2

theorem fits_nil {ci : Bool} {w : Str} : Fits ci [] w ↔ w = [] := List.forall₂_nil_left_iff

theorem here_and {ci : Bool} {x y : Seq} (hf : x.fit y = true) (p : Option Char) (w rest : Str) :
    (x.and y).Here ci p w rest ↔ ∃ u v, w = u ++ v ∧ x.Here ci p u (v ++ rest) ∧ y.Here ci (lastOr p u) v rest := by
  have hf' : (x.stop = true → y.cs = []) ∧ (y.start = true → x.cs = []) := by
    unfold Seq.fit at hf
    rw [Bool.and_eq_true, Bool.or_eq_true, Bool.or_eq_true, List.isEmpty_iff, List.isEmpty_iff] at hf
    refine ⟨fun h => hf.1.resolve_left (by rw [h]; decide), fun h => hf.2.resolve_left (by rw [h]; decide)⟩
  constructor
  · rintro ⟨h1, h2, h3⟩
    obtain ⟨u, v, rfl, hu, hv⟩ := (fits_append ..).1 h2
    refine ⟨u, v, rfl, ⟨fun h => h1 (by show (x.start || y.start) = true; rw [h]; rfl), hu, fun h => ?_⟩, ?_, hv, fun h => h3 (by show (x.stop || y.stop) = true; rw [h, Bool.or_true])⟩
    · have hv' := hv
      rw [hf'.1 h, fits_nil] at hv'
      rw [hv']
      exact h3 (by show (x.stop || y.stop) = true; rw [h]; rfl)
    · intro h
      have hu' := hu
      rw [hf'.2 h, fits_nil] at hu'
      rw [hu', lastOr_nil]
      exact h1 (by show (x.start || y.start) = true; rw [h, Bool.or_true])
  · rintro ⟨u, v, rfl, ⟨a1, a2, a3⟩, b1, b2, b3⟩
    refine ⟨fun h => ?_, (fits_append ..).2 ⟨u, v, rfl, a2, b2⟩, fun h => ?_⟩
    · rcases Bool.or_eq_true _ _ ▸ (show (x.start || y.start) = true from h) with h | h
      · exact a1 h
      · have := b1 h
        rw [hf'.2 h, fits_nil] at a2
        rwa [a2, lastOr_nil] at this
    · rcases Bool.or_eq_true _ _ ▸ (show (x.stop || y.stop) = true from h) with h | h
      · have := a3 h
        rw [hf'.1 h, fits_nil] at b2
        rwa [b2] at this
      · exact b3 h

/-- The texts read are those of the sequences. -/
theorem seqs_iff (ci : Bool) : ∀ r : Re, r.tame = true → ∀ p w rest, Reads ci r p w rest ↔ ∃ x ∈ r.seqs, x.Here ci p w rest
  | .eps, _, p, w, rest => by
    show w = [] ↔ _
    constructor
    · rintro rfl
      exact ⟨_, List.mem_singleton.2 rfl, fun h => (by cases h), fits_nil.2 rfl, fun h => (by cases h)⟩
    · rintro ⟨x, hx, -, h, -⟩
      rw [List.mem_singleton.1 hx] at h
      exact fits_nil.1 h
  | .cls neg l, _, p, w, rest => by
    show (∃ c, w = [c] ∧ inCls ci neg l c = true) ↔ _
    constructor
    · rintro ⟨c, rfl, hc⟩
      exact ⟨_, List.mem_singleton.2 rfl, fun h => (by cases h), .cons hc .nil, fun h => (by cases h)⟩
    · rintro ⟨x, hx, -, h, -⟩
      rw [List.mem_singleton.1 hx] at h
      cases h with
      | cons h1 h2 =>
        cases h2
        exact ⟨_, rfl, h1⟩
  | .cat a b, h, p, w, rest => by
    have h : (a.tame && b.tame && a.seqs.all fun x => b.seqs.all x.fit) = true := h
    rw [Bool.and_eq_true, Bool.and_eq_true] at h
    obtain ⟨⟨ha, hb⟩, hf⟩ := h
    have hf : ∀ x ∈ a.seqs, ∀ y ∈ b.seqs, x.fit y = true := fun x hx y hy => List.all_eq_true.1 (List.all_eq_true.1 hf x hx) y hy
    rw [reads_cat]
    constructor
    · rintro ⟨u, v, rfl, h1, h2⟩
      obtain ⟨x, hx, hx'⟩ := (seqs_iff ci a ha _ _ _).1 h1
      obtain ⟨y, hy, hy'⟩ := (seqs_iff ci b hb _ _ _).1 h2
      exact ⟨x.and y, List.mem_flatMap.2 ⟨x, hx, List.mem_map.2 ⟨y, hy, rfl⟩⟩, (here_and (hf x hx y hy) ..).2 ⟨u, v, rfl, hx', hy'⟩⟩
    · rintro ⟨z, hz, h⟩
      obtain ⟨x, hx, hz⟩ := List.mem_flatMap.1 hz
      obtain ⟨y, hy, rfl⟩ := List.mem_map.1 hz
      obtain ⟨u, v, rfl, h1, h2⟩ := (here_and (hf x hx y hy) ..).1 h
      exact ⟨u, v, rfl, (seqs_iff ci a ha _ _ _).2 ⟨x, hx, h1⟩, (seqs_iff ci b hb _ _ _).2 ⟨y, hy, h2⟩⟩
  | .alt a b, h, p, w, rest => by
    have h : (a.tame && b.tame) = true := h
    rw [Bool.and_eq_true] at h
    rw [reads_alt, seqs_iff ci a h.1, seqs_iff ci b h.2]
    show _ ↔ ∃ x ∈ a.seqs ++ b.seqs, _
    constructor
    · rintro (⟨x, hx, h⟩ | ⟨x, hx, h⟩)
      · exact ⟨x, List.mem_append.2 (Or.inl hx), h⟩
      · exact ⟨x, List.mem_append.2 (Or.inr hx), h⟩
    · rintro ⟨x, hx, h⟩
      rcases List.mem_append.1 hx with hx | hx
      · exact Or.inl ⟨x, hx, h⟩
      · exact Or.inr ⟨x, hx, h⟩
  | .grp _ r, h, p, w, rest => by
    rw [reads_grp]
    exact seqs_iff ci r h p w rest
  | .bos, _, p, w, rest => by
    show (w = [] ∧ p = none) ↔ _
    constructor
    · rintro ⟨rfl, rfl⟩
      exact ⟨_, List.mem_singleton.2 rfl, fun _ => rfl, fits_nil.2 rfl, fun h => (by cases h)⟩
    · rintro ⟨x, hx, h1, h2, -⟩
      rw [List.mem_singleton.1 hx] at h1 h2
      exact ⟨fits_nil.1 h2, h1 rfl⟩
  | .eos, _, p, w, rest => by
    show (w = [] ∧ (rest = [] ∨ rest = ['\n'])) ↔ _
    constructor
    · rintro ⟨rfl, h⟩
      exact ⟨_, List.mem_singleton.2 rfl, fun h => (by cases h), fits_nil.2 rfl, fun _ => h⟩
    · rintro ⟨x, hx, -, h2, h3⟩
      rw [List.mem_singleton.1 hx] at h2 h3
      exact ⟨fits_nil.1 h2, h3 rfl⟩
  | .rep _ _ _, h, _, _, _ => by cases h
  | .edge, h, _, _, _ => by cases h
  | .back _, h, _, _, _ => by cases h
  | .look _ _, h, _, _, _ => by cases h

theorem tame_plain : ∀ r : Re, r.tame = true → r.plain = true
  | .eps, _ => rfl
  | .cls _ _, _ => rfl
  | .cat a b, h => by
    have h : (a.tame && b.tame && a.seqs.all fun x => b.seqs.all x.fit) = true := h
    rw [Bool.and_eq_true, Bool.and_eq_true] at h
    rw [Re.plain, tame_plain a h.1.1, tame_plain b h.1.2]; rfl
  | .alt a b, h => by
    have h : (a.tame && b.tame) = true := h
    rw [Bool.and_eq_true] at h
    rw [Re.plain, tame_plain a h.1, tame_plain b h.2]; rfl
  | .grp _ r, h => tame_plain r h
  | .bos, _ => rfl
  | .eos, _ => rfl

instance : DecidableEq (Option (Bool × List (List (Bool × List (Char × Char))))) :=
  have : DecidableEq (List (Bool × List (Char × Char))) := inferInstance
  have : DecidableEq (Bool × List (List (Bool × List (Char × Char)))) := inferInstance
  inferInstance

/-- The sequences of the pattern of a property, and whether capitals matter. -/
def fixedOfRow (rows : List Row) (k : Str) : Option (Bool × List (List (Bool × List (Char × Char)))) :=
  ((synOf rows k).bind compile).bind fun q => if q.2.tame then some (q.1, q.2.seqs.map Seq.cs) else none

theorem fixed_accepted {rows : List Row} {k : Str} {ci : Bool} {L : List (List (Bool × List (Char × Char)))} (h : fixedOfRow rows k = some (ci, L)) (t : Str) :
    Accepts rows k t ↔ ∃ cs ∈ L, Fits ci cs t := by
  obtain ⟨q, hq, h⟩ := Option.bind_eq_some_iff.1 h
  obtain ⟨p, hs, hc⟩ := Option.bind_eq_some_iff.1 hq
  by_cases ht : q.2.tame = true
  · rw [if_pos ht] at h
    injection h with h
    injection h with h1 h2
    unfold Accepts checkField
    simp only [hs, Option.elim_some, if_true, fullmatchText, hc, Except.ok.injEq]
    rw [fullmatch_iff _ _ (tame_plain _ ht), seqs_iff _ _ ht, ← h1, ← h2]
    constructor
    · rintro ⟨x, hx, -, h, -⟩
      exact ⟨x.cs, List.mem_map.2 ⟨x, hx, rfl⟩, h⟩
    · rintro ⟨cs, hcs, h⟩
      obtain ⟨x, hx, rfl⟩ := List.mem_map.1 hcs
      exact ⟨x, hx, fun _ => rfl, h, fun _ => Or.inl rfl⟩
  · rw [if_neg ht] at h; cases h

/-! ## Words -/

/-- The text is one of these words. -/
def OneOf (L : List String) (t : Str) : Prop := ∃ s ∈ L, t = s.toList

/-- The classes of the characters of a word. -/
def letters (s : Str) : List (Bool × List (Char × Char)) := s.map fun a => (false, [(a, a)])

theorem lower_val (c : Char) : c.toLower.toNat = if 65 ≤ c.toNat ∧ c.toNat ≤ 90 then c.toNat + 32 else c.toNat := by
  unfold Char.toLower
  by_cases h : c.val ≥ 'A'.val ∧ c.val ≤ 'Z'.val
  · have h' : 65 ≤ c.toNat ∧ c.toNat ≤ 90 := h
    rw [dif_pos h, if_pos h']
    show (c.val + 32).toNat = c.val.toNat + 32
    have h2 : c.val.toNat ≤ 90 := h'.2
    rw [UInt32.toNat_add]
    show (c.val.toNat + 32) % 4294967296 = _
    omega
  · have h' : ¬(65 ≤ c.toNat ∧ c.toNat ≤ 90) := h
    rw [dif_neg h, if_neg h']

theorem upper_val (c : Char) : c.toUpper.toNat = if 97 ≤ c.toNat ∧ c.toNat ≤ 122 then c.toNat - 32 else c.toNat := by
  unfold Char.toUpper
  by_cases h : 'a'.val ≤ c.val ∧ c.val ≤ 'z'.val
  · have h' : 97 ≤ c.toNat ∧ c.toNat ≤ 122 := h
    rw [dif_pos h, if_pos h']
    show (c.val + 4294967264).toNat = c.val.toNat - 32
    have h2 : c.val.toNat ≤ 122 := h'.2
    have h1 : 97 ≤ c.val.toNat := h'.1
    rw [UInt32.toNat_add]
    show (c.val.toNat + 4294967264) % 4294967296 = _
    omega
  · have h' : ¬(97 ≤ c.toNat ∧ c.toNat ≤ 122) := h
    rw [dif_neg h, if_neg h']

theorem any_case (a c : Char) : inCls true false [(a, a)] c = true ↔ c.toLower = a.toLower := by
  have one : ∀ x : Char, (a ≤ x ∧ x ≤ a) ↔ x = a := fun x => ⟨fun h => Char.le_antisymm h.2 h.1, by rintro rfl; exact ⟨Char.le_refl _, Char.le_refl _⟩⟩
  unfold inCls
  simp only [List.any_cons, List.any_nil, Bool.or_false, Bool.true_and, Bool.false_bne, Bool.or_eq_true, Bool.and_eq_true, decide_eq_true_eq]
  rw [one, one, one]
  simp only [← Char.toNat_inj, lower_val, upper_val]
  split_ifs <;> omega

theorem fits_letters_any (s t : Str) : Fits true (letters s) t ↔ t.map Char.toLower = s.map Char.toLower := by
  unfold Fits letters
  induction s generalizing t with
  | nil => cases t <;> simp
  | cons a s ih =>
    cases t with
    | nil => simp
    | cons c t => rw [List.map_cons, List.forall₂_cons, ih, any_case]; simp

theorem fits_letters (s t : Str) : Fits false (letters s) t ↔ t = s := by
  unfold Fits letters
  induction s generalizing t with
  | nil => cases t <;> simp
  | cons a s ih =>
    cases t with
    | nil => simp
    | cons c t => rw [List.map_cons, List.forall₂_cons, ih, char_cls]; simp

theorem words_any {rows : List Row} {k : Str} (L : List String) (h : fixedOfRow rows k = some (true, L.map fun s => letters s.toList)) (hl : L.all fun s => decide (lower s.toList = s.toList)) (t : Str) :
    Accepts rows k t ↔ OneOf L (lower t) := by
  rw [fixed_accepted h]
  constructor
  · rintro ⟨cs, hcs, hf⟩
    obtain ⟨s, hs, rfl⟩ := List.mem_map.1 hcs
    exact ⟨s, hs, ((fits_letters_any ..).1 hf).trans (of_decide_eq_true (List.all_eq_true.1 hl s hs))⟩
  · rintro ⟨s, hs, e⟩
    exact ⟨_, List.mem_map.2 ⟨s, hs, rfl⟩, (fits_letters_any ..).2 (e.trans (of_decide_eq_true (List.all_eq_true.1 hl s hs)).symm)⟩

theorem words_exact {rows : List Row} {k : Str} (L : List String) (h : fixedOfRow rows k = some (false, L.map fun s => letters s.toList)) (t : Str) :
    Accepts rows k t ↔ OneOf L t := by
  rw [fixed_accepted h]
  constructor
  · rintro ⟨cs, hcs, hf⟩
    obtain ⟨s, hs, rfl⟩ := List.mem_map.1 hcs
    exact ⟨s, hs, (fits_letters ..).1 hf⟩
  · rintro ⟨s, hs, e⟩
    exact ⟨_, List.mem_map.2 ⟨s, hs, rfl⟩, (fits_letters ..).2 e⟩

/-! ## C168: the properties -/

/-- **C168** The tracking types accepted, in small letters or in capitals. -/
theorem tracking_accepted (t : Str) : (Accepts anaRows "trackingType".toList t ↔ OneOf ["tracking", "pointingto"] (lower t))
    ∧ (Accepts beamRows "trackingType".toList t ↔ OneOf ["tracking", "pointingto"] (lower t))
    ∧ (Accepts pcRows "trackingType".toList t ↔ OneOf ["tracking", "pointingto"] (lower t)) :=
  ⟨words_any _ (by decide +kernel) (by decide +kernel) t, words_any _ (by decide +kernel) (by decide +kernel) t, words_any _ (by decide +kernel) (by decide +kernel) t⟩

/-- **C168** The direction types accepted for an analog beam. -/
theorem direction_accepted (t : Str) : Accepts anaRows "directionType".toList t ↔
    OneOf ["j2000", "azelgeo", "mercury", "venus", "mars", "jupiter", "saturn", "uranus", "neptune", "sun", "moon"] (lower t) :=
  words_any _ (by decide +kernel) (by decide +kernel) t

/-- **C168** The switches accepted. -/
theorem switch_accepted (t : Str) : (Accepts anaRows "beamSquint".toList t ↔ OneOf ["enable", "disable"] (lower t))
    ∧ (Accepts outRows "nri_correctbandPass".toList t ↔ OneOf ["enable", "disable"] (lower t))
    ∧ (Accepts obsRows "corAzel".toList t ↔ OneOf ["enable", "disable", "polys_2022", "grid"] (lower t))
    ∧ (Accepts anaRows "antState".toList t ↔ OneOf ["on", "off"] (lower t)) := by
  refine ⟨words_any _ (by decide +kernel) (by decide +kernel) t, words_any _ (by decide +kernel) (by decide +kernel) t, words_any _ (by decide +kernel) (by decide +kernel) t, ?_⟩
  have h : fixedOfRow anaRows "antState".toList = some (true, [letters "ON".toList, letters "OFF".toList]) := by decide +kernel
  rw [fixed_accepted h]
  constructor
  · rintro ⟨cs, hcs, hf⟩
    rcases List.mem_cons.1 hcs with rfl | hcs
    · exact ⟨"on", by decide, (fits_letters_any ..).1 hf⟩
    · rw [List.mem_singleton.1 hcs] at hf
      exact ⟨"off", by decide, (fits_letters_any ..).1 hf⟩
  · rintro ⟨s, hs, e⟩
    rcases List.mem_cons.1 hs with rfl | hs
    · exact ⟨_, by simp, (fits_letters_any "ON".toList t).2 e⟩
    · rw [List.mem_singleton.1 hs] at e
      exact ⟨letters "OFF".toList, by simp, (fits_letters_any "OFF".toList t).2 e⟩

/-- **C168** The flags accepted: in small letters or capitals for the files asked, in small letters only for the pointing of the parent. -/
theorem flag_accepted (t : Str) : (∀ k ∈ ["sst_userfile", "bst_userfile", "xst_userfile", "nri_receivers"], (Accepts outRows k.toList t ↔ OneOf ["true", "false"] (lower t)))
    ∧ (Accepts beamRows "useParentPointing".toList t ↔ OneOf ["true", "false"] t) ∧ (Accepts pcRows "useParentPointing".toList t ↔ OneOf ["true", "false"] t) := by
  refine ⟨fun k hk => words_any _ ?_ (by decide +kernel) t, words_exact _ (by decide +kernel) t, words_exact _ (by decide +kernel) t⟩
  simp only [List.mem_cons, List.not_mem_nil, or_false] at hk
  rcases hk with rfl | rfl | rfl | rfl <;> decide +kernel

/-- **C168** The tasks accepted, in small letters only: the imager for the phase centers, the other ones for the beams. -/
theorem task_accepted (t : Str) : (Accepts beamRows "toDo".toList t ↔ OneOf ["pulsar", "dynamicspectrum", "waveform", "none", "tbd"] t)
    ∧ (Accepts pcRows "toDo".toList t ↔ OneOf ["nickel"] t) :=
  ⟨words_exact _ (by decide +kernel) t, words_exact _ (by decide +kernel) t⟩

/-- **C168** The numbers of bits accepted. -/
theorem bits_accepted (t : Str) : (Accepts outRows "hd_bitMode".toList t ↔ OneOf ["8", "16"] t) ∧ (Accepts outRows "nri_bitMode".toList t ↔ OneOf ["4", "8", "16"] t) :=
  ⟨words_exact _ (by decide +kernel) t, words_exact _ (by decide +kernel) t⟩

theorem fits_one {ci : Bool} {k : Bool × List (Char × Char)} {w : Str} : Fits ci [k] w ↔ ∃ c, w = [c] ∧ inCls ci k.1 k.2 c = true := by
  constructor
  · intro h
    cases h with
    | cons h1 h2 => cases h2; exact ⟨_, rfl, h1⟩
  · rintro ⟨c, rfl, h⟩
    exact .cons h .nil

theorem fits_two {ci : Bool} {k l : Bool × List (Char × Char)} {w : Str} : Fits ci [k, l] w ↔ ∃ c d, w = [c, d] ∧ inCls ci k.1 k.2 c = true ∧ inCls ci l.1 l.2 d = true := by
  constructor
  · intro h
    cases h with
    | cons h1 h2 =>
      obtain ⟨d, rfl, h3⟩ := fits_one.1 h2
      exact ⟨_, d, rfl, h1, h3⟩
  · rintro ⟨c, d, rfl, h1, h2⟩
    exact .cons h1 (fits_one.2 ⟨d, rfl, h2⟩)

/-- **C168** The numbers of channels of the imager accepted are those from 1 to 64. -/
theorem channels_accepted (t : Str) : Accepts outRows "nri_channelization".toList t ↔ ∃ n, 1 ≤ n ∧ n ≤ 64 ∧ t = natStr n := by
  have h : fixedOfRow outRows "nri_channelization".toList = some (false, [[(false, [('1', '9')])], [(false, [('1', '5')]), (false, [('0', '9')])], [(false, [('6', '6')]), (false, [('0', '4')])]]) := by
    decide +kernel
  rw [fixed_accepted h]
  simp only [List.mem_cons, List.not_mem_nil, or_false]
  constructor
  · rintro ⟨cs, rfl | rfl | rfl, hf⟩
    · obtain ⟨c, rfl, hc⟩ := fits_one.1 hf
      obtain ⟨k, h1, h2, rfl⟩ := (range_cls 1 9 (by decide) (by decide) c).1 hc
      exact ⟨k, h1, by omega, (natStr_one k (by omega)).symm⟩
    · obtain ⟨c, d, rfl, hc, hd⟩ := fits_two.1 hf
      obtain ⟨a, h1, h2, rfl⟩ := (range_cls 1 5 (by decide) (by decide) c).1 hc
      obtain ⟨b, h3, h4, rfl⟩ := (range_cls 0 9 (by decide) (by decide) d).1 hd
      exact ⟨10 * a + b, by omega, by omega, (natStr_two a (by omega) b (by omega) h1).symm⟩
    · obtain ⟨c, d, rfl, hc, hd⟩ := fits_two.1 hf
      obtain ⟨a, h1, h2, rfl⟩ := (range_cls 6 6 (by decide) (by decide) c).1 hc
      obtain ⟨b, h3, h4, rfl⟩ := (range_cls 0 4 (by decide) (by decide) d).1 hd
      exact ⟨10 * a + b, by omega, by omega, (natStr_two a (by omega) b (by omega) (by omega)).symm⟩
  · rintro ⟨n, h1, h2, rfl⟩
    by_cases hn : n < 10
    · exact ⟨_, Or.inl rfl, fits_one.2 ⟨_, natStr_one n hn, (range_cls 1 9 (by decide) (by decide) _).2 ⟨n, h1, by omega, rfl⟩⟩⟩
    · have e : natStr n = [Nat.digitChar (n / 10), Nat.digitChar (n % 10)] := by
        have := natStr_two (n / 10) (by omega) (n % 10) (by omega) (by omega)
        rwa [show 10 * (n / 10) + n % 10 = n by omega] at this
      by_cases h6 : n / 10 ≤ 5
      · exact ⟨_, Or.inr (Or.inl rfl), fits_two.2 ⟨_, _, e, (range_cls 1 5 (by decide) (by decide) _).2 ⟨n / 10, by omega, h6, rfl⟩,
          (range_cls 0 9 (by decide) (by decide) _).2 ⟨n % 10, by omega, by omega, rfl⟩⟩⟩
      · exact ⟨_, Or.inr (Or.inr rfl), fits_two.2 ⟨_, _, e, (range_cls 6 6 (by decide) (by decide) _).2 ⟨n / 10, by omega, by omega, rfl⟩,
          (range_cls 0 4 (by decide) (by decide) _).2 ⟨n % 10, by omega, by omega, rfl⟩⟩⟩

/-- **C168** The frequencies accepted for the correction of the squint are 10, 20, … and 80 MHz. -/
theorem squint_frequency_accepted (t : Str) : Accepts anaRows "optFrq".toList t ↔ ∃ n, 1 ≤ n ∧ n ≤ 8 ∧ t = natStr (10 * n) := by
  have h : fixedOfRow anaRows "optFrq".toList = some (false, [[(false, [('1', '8')]), (false, [('0', '0')])]]) := by decide +kernel
  rw [fixed_accepted h]
  simp only [List.mem_singleton, exists_eq_left]
  rw [fits_two]
  constructor
  · rintro ⟨c, d, rfl, hc, hd⟩
    obtain ⟨a, h1, h2, rfl⟩ := (range_cls 1 8 (by decide) (by decide) c).1 hc
    rw [(char_cls '0' d).1 hd]
    exact ⟨a, h1, h2, (natStr_two a (by omega) 0 (by decide) h1).symm⟩
  · rintro ⟨n, h1, h2, rfl⟩
    exact ⟨_, _, natStr_two n (by omega) 0 (by decide) h1, (range_cls 1 8 (by decide) (by decide) _).2 ⟨n, h1, h2, rfl⟩, (char_cls '0' _).2 rfl⟩

/-! ## What is read -/

/-- No character of the words has to be removed, nor means a list or a time. -/
theorem word_chars {t : Str} {a : Char} (h : a ∉ lower t) (ha : a.toLower = a) : a ∉ t := fun hm => h (ha ▸ List.mem_map.2 ⟨a, hm, rfl⟩)

theorem word_read (isTime : Str → Bool) (isFloat : IsFloat) {k t : Str} (h1k : hasSub "angle".toList (lower k) = false) (h2k : hasSub "duration".toList (lower k) = false)
    (L : List String) (hL : L.all fun s => decide ('\n' ∉ s.toList ∧ '"' ∉ s.toList ∧ '[' ∉ s.toList ∧ ':' ∉ s.toList ∧ s.toList ≠ "true".toList ∧ s.toList ≠ "false".toList
      ∧ s.toList.any fun c => decide (97 ≤ c.toNat)))
    (h : OneOf L (lower t)) : setItem isTime isFloat k t = .ok (.str (lower t)) := by
  obtain ⟨s, hs, e⟩ := h
  obtain ⟨a1, a2, a3, a4, a5, a6, a7⟩ := of_decide_eq_true (List.all_eq_true.1 hL s hs)
  rw [← e] at a1 a2 a3 a4 a5 a6 a7
  have hc : clean t = t := clean_id (word_chars a1 rfl) (word_chars a2 rfl)
  unfold setItem
  simp only [hc]
  rw [if_neg, if_neg a5, if_neg a6, h1k, h2k, if_neg (by decide), if_neg (by decide), if_neg, if_neg (word_chars a4 rfl)]
  · intro hd
    obtain ⟨c, hcm, hcv⟩ := List.any_eq_true.1 a7
    obtain ⟨b, hb, rfl⟩ := List.mem_map.1 hcm
    unfold isDigits at hd
    rw [Bool.and_eq_true, List.all_eq_true] at hd
    have h9 := hd.2 b hb
    have hcv : 97 ≤ b.toLower.toNat := of_decide_eq_true hcv
    rw [lower_val] at hcv
    have h10 : b.toNat ≤ 57 := by
      unfold Char.isDigit at h9
      rw [Bool.and_eq_true, decide_eq_true_eq, decide_eq_true_eq] at h9
      exact h9.2
    split_ifs at hcv <;> omega
  · rintro ⟨h, -⟩
    exact word_chars a3 rfl (List.mem_of_mem_head? h)

/-- **C168** A tracking or direction type which is accepted is read as one of the words, in small letters, however it is written. -/
theorem tracking_read (isTime : Str → Bool) (isFloat : IsFloat) (t : Str) :
    (Accepts anaRows "trackingType".toList t → setItem isTime isFloat "trackingType".toList t = .ok (.str (lower t)) ∧ OneOf ["tracking", "pointingto"] (lower t))
    ∧ (Accepts anaRows "directionType".toList t → setItem isTime isFloat "directionType".toList t = .ok (.str (lower t))) := by
  refine ⟨fun h => ⟨?_, (tracking_accepted t).1.1 h⟩, fun h => ?_⟩
  · exact word_read isTime isFloat (by decide +kernel) (by decide +kernel) _ (by decide +kernel) ((tracking_accepted t).1.1 h)
  · exact word_read isTime isFloat (by decide +kernel) (by decide +kernel) _ (by decide +kernel) ((direction_accepted t).1 h)

/-- **C168** A flag which is accepted is read as what it says. -/
theorem flag_read (isTime : Str → Bool) (isFloat : IsFloat) (k t : Str) (h : OneOf ["true", "false"] (lower t)) :
    setItem isTime isFloat k t = .ok (.bool (decide (lower t = "true".toList))) := by
  obtain ⟨s, hs, e⟩ := h
  have a : '\n' ∉ lower t ∧ '"' ∉ lower t ∧ '[' ∉ lower t := by
    simp only [List.mem_cons, List.not_mem_nil, or_false] at hs
    rw [e]
    rcases hs with rfl | rfl <;> decide
  have hc : clean t = t := clean_id (word_chars a.1 rfl) (word_chars a.2.1 rfl)
  unfold setItem
  simp only [hc]
  rw [if_neg]
  · simp only [List.mem_cons, List.not_mem_nil, or_false] at hs
    rcases hs with rfl | rfl
    · rw [if_pos e, e]; rfl
    · rw [if_neg (by rw [e]; decide), if_pos e, e]; rfl
  · rintro ⟨h, -⟩
    exact word_chars a.2.2 rfl (List.mem_of_mem_head? h)

/-- **C168** The numbers of bits and of channels which are accepted are read as numbers. -/
theorem channels_read (isTime : Str → Bool) (isFloat : IsFloat) (t : Str) (h : Accepts outRows "nri_channelization".toList t) :
    ∃ n, 1 ≤ n ∧ n ≤ 64 ∧ setItem isTime isFloat "nri_channelization".toList t = .ok (.int n) := by
  obtain ⟨n, h1, h2, rfl⟩ := (channels_accepted t).1 h
  refine ⟨n, h1, h2, ?_⟩
  have hn : ∀ c : Char, c.isDigit = false → c ∉ natStr n := fun c hc hm => by rw [natStr_digits n c hm] at hc; cases hc
  have hd : isDigits (natStr n) = true := by
    unfold isDigits
    rw [Bool.and_eq_true, List.all_eq_true]
    refine ⟨?_, natStr_digits n⟩
    cases e : natStr n with
    | nil => exact absurd e (natStr_ne n)
    | cons => rfl
  have hl : ∀ s : String, s.toList.head?.any (fun c => c.isAlpha && c.toLower == c) = true → lower (natStr n) ≠ s.toList := by
    intro s hs e
    cases hx : natStr n with
    | nil => exact natStr_ne n hx
    | cons c l =>
      rw [hx] at e
      rw [← e] at hs
      have hc := natStr_digits n c (by rw [hx]; simp)
      have : ∀ k, k < 10 → (Nat.digitChar k).toLower.isAlpha = false := by decide
      obtain ⟨k, hk, rfl⟩ := (digit_iff c).1 hc
      have h3 : ((Nat.digitChar k).toLower.isAlpha && (Nat.digitChar k).toLower.toLower == (Nat.digitChar k).toLower) = true := hs
      rw [this k hk] at h3
      cases h3
  unfold setItem
  simp only [clean_id (hn _ (by decide)) (hn _ (by decide))]
  rw [if_neg, if_neg (hl "true" (by decide)), if_neg (hl "false" (by decide)), if_neg (by decide +kernel), if_neg (by decide +kernel), if_pos hd]
  · rw [show Nat.ofDigitChars 10 (natStr n) 0 = n from ofDigits_natStr n]
  · rintro ⟨h, -⟩
    exact hn _ (by decide) (List.mem_of_mem_head? h)

theorem chosen_task {α : Type} {s : String} (hs : s ∈ ["pulsar", "dynamicspectrum", "waveform", "none", "tbd", "nickel"]) (a b c d e f : Except Err α) :
    ∃ r, List.lookup s.toList [("none".toList, a), ("pulsar".toList, b), ("waveform".toList, c), ("dynamicspectrum".toList, d), ("tbd".toList, e), ("nickel".toList, f)] = some r
      ∧ (if s.toList = "none".toList then a else if s.toList = "pulsar".toList then b else if s.toList = "waveform".toList then c else if s.toList = "dynamicspectrum".toList then d
        else if s.toList = "tbd".toList then e else if s.toList = "nickel".toList then f else Except.error Err.keyError) = r := by
  simp only [List.mem_cons, List.not_mem_nil, or_false] at hs
  rcases hs with rfl | rfl | rfl | rfl | rfl | rfl <;> exact ⟨_, rfl, rfl⟩

/-- **C168** The settings of a beam whose task is accepted are those of this task: the export knows all of them (parset.py:550-557). -/
theorem task_known (F : Str → Option ℚ) (d out : Props) (v : List Int) (t : Str) (h : Accepts beamRows "toDo".toList t ∨ Accepts pcRows "toDo".toList t)
    (hd : dictGet d "toDo".toList = some (.str t)) :
    ∃ r, List.lookup t [("none".toList, defaultSetting d), ("pulsar".toList, pulsarSetting d), ("waveform".toList, waveformSetting d), ("dynamicspectrum".toList, tfSetting F d),
        ("tbd".toList, tbdSetting d out v), ("nickel".toList, nickelSetting d out v)] = some r
      ∧ (toDoOf d).bind (fun td => receiverOf F td d out v) = r := by
  have ht : OneOf ["pulsar", "dynamicspectrum", "waveform", "none", "tbd", "nickel"] t := by
    rcases h with h | h
    · obtain ⟨s, hs, e⟩ := (task_accepted t).1.1 h
      exact ⟨s, List.mem_append_left ["nickel"] hs, e⟩
    · obtain ⟨s, hs, e⟩ := (task_accepted t).2.1 h
      exact ⟨s, List.mem_append_right ["pulsar", "dynamicspectrum", "waveform", "none", "tbd"] hs, e⟩
  obtain ⟨s, hs, rfl⟩ := ht
  have e : toDoOf d = .ok (lower s.toList) := by unfold toDoOf; rw [hd]; rfl
  have hl : lower s.toList = s.toList := by
    have := List.all_eq_true.1 (show (["pulsar", "dynamicspectrum", "waveform", "none", "tbd", "nickel"].all fun s => decide (lower s.toList = s.toList)) = true by decide +kernel) s hs
    exact of_decide_eq_true this
  obtain ⟨r, h1, h2⟩ := chosen_task hs (defaultSetting d) (pulsarSetting d) (waveformSetting d) (tfSetting F d) (tbdSetting d out v) (nickelSetting d out v)
  refine ⟨r, h1, ?_⟩
  rw [e, hl, ← h2]
  generalize s.toList = w
  show receiverOf F w d out v = _
  unfold receiverOf
  with_reducible rfl

/-- **C168** fails for the directions of numerical beams and phase centers: any text is accepted. -/
theorem beam_direction_violated (t : Str) : Accepts beamRows "directionType".toList t ∧ Accepts pcRows "directionType".toList t := by
  unfold Accepts checkField
  rw [show synOf beamRows "directionType".toList = none by decide +kernel, show synOf pcRows "directionType".toList = none by decide +kernel]
  exact ⟨rfl, rfl⟩

/-- **C168** fails for the imager: its task, known by the export, is refused for a beam, where the former files have it; it is accepted for a phase center only. -/
theorem nickel_beam_violated (F : Str → Option ℚ) (d out : Props) (v : List Int) :
    ¬Accepts beamRows "toDo".toList "nickel".toList ∧ receiverOf F "nickel".toList d out v = nickelSetting d out v := by
  refine ⟨fun h => ?_, ?_⟩
  · obtain ⟨s, hs, e⟩ := (task_accepted _).1.1 h
    simp only [List.mem_cons, List.not_mem_nil, or_false] at hs
    rcases hs with rfl | rfl | rfl | rfl | rfl <;> exact absurd e (by decide)
  · unfold receiverOf
    rw [if_neg (by decide), if_neg (by decide), if_neg (by decide), if_neg (by decide), if_neg (by decide), if_pos rfl]

example : Accepts anaRows "trackingType".toList "PointingTo".toList := (tracking_accepted _).1.2 ⟨"pointingto", by decide, by decide⟩
example : ¬Accepts beamRows "toDo".toList "Pulsar".toList := fun h => by
  obtain ⟨s, hs, e⟩ := (task_accepted _).1.1 h
  simp only [List.mem_cons, List.not_mem_nil, or_false] at hs
  rcases hs with rfl | rfl | rfl | rfl | rfl <;> exact absurd e (by decide)
example : Accepts outRows "nri_channelization".toList "64".toList := (channels_accepted _).2 ⟨64, by decide, by decide, by decide +kernel⟩

end Verif.Parset
