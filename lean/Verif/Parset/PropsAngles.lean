import Verif.Parset.PropsOutLists
import Mathlib.Data.Nat.Digits.Defs

/-!
# C170: angles accepted by an observation request

Right ascensions, declinations, azimuths, elevations, offsets and hour angles (parset_user_options.json:138-480).
-/

namespace Verif.Parset

/-! ## What the texts should be -/

/-- Digits only, perhaps none. -/
def Digits (w : Str) : Prop := ∀ c ∈ w, c.isDigit = true

/-- Nothing, or a point followed by digits. -/
def Decimals (w : Str) : Prop := w = [] ∨ ∃ d, w = '.' :: d ∧ Digits d

/-- Nothing, a minus or a plus. -/
def Signed (w : Str) : Prop := w = [] ∨ w = ['-'] ∨ w = ['+']

/-- A number without sign, of `lo` to `hi` digits before the point. -/
def Decimal (lo : Nat) (hi : Option Nat) (w : Str) : Prop :=
  ∃ d f, w = d ++ f ∧ Digits d ∧ Decimals f ∧ lo ≤ d.length ∧ ∀ h, hi = some h → d.length ≤ h

/-- Three numbers of two digits between colons, the last one perhaps with decimals. -/
def Sexagesimal (w : Str) : Prop :=
  ∃ a b c f, w = a ++ ':' :: b ++ ':' :: c ++ f ∧ Digits a ∧ Digits b ∧ Digits c ∧ a.length = 2 ∧ b.length = 2 ∧ c.length = 2 ∧ Decimals f

/-! ## Parts of the patterns -/

def signRe (k : Nat) : Re := .grp k (.alt (.cat (lit '-') .eps) (.cat (lit '+') .eps))
def decRe (k : Nat) : Re := .rep 0 (some 1) (.grp k (.cat (lit '.') (.cat (.rep 0 none (dig '0' '9')) .eps)))

theorem cat_free {a b : Re} {A : Str → Prop} (ha : Free false a A) (p : Option Char) (w rest : Str) :
    Reads false (.cat a b) p w rest ↔ ∃ u v, w = u ++ v ∧ A u ∧ Reads false b (lastOr p u) v rest := by
  rw [reads_cat]
  constructor
  · rintro ⟨u, v, e, h1, h2⟩
    exact ⟨u, v, e, (ha _ _ _).1 h1, h2⟩
  · rintro ⟨u, v, e, h1, h2⟩
    exact ⟨u, v, e, (ha _ _ _).2 h1, h2⟩

theorem free_cat {a b : Re} {A B : Str → Prop} (ha : Free false a A) (hb : Free false b B) : Free false (.cat a b) fun w => ∃ u v, w = u ++ v ∧ A u ∧ B v := by
  intro p w rest
  rw [cat_free ha]
  constructor
  · rintro ⟨u, v, e, h1, h2⟩
    exact ⟨u, v, e, h1, (hb _ _ _).1 h2⟩
  · rintro ⟨u, v, e, h1, h2⟩
    exact ⟨u, v, e, h1, (hb _ _ _).2 h2⟩

theorem free_lit (c : Char) : Free false (lit c) fun w => w = [c] := by
  intro p w rest
  constructor
  · rintro ⟨d, rfl, hd⟩
    rw [(char_cls c d).1 hd]
  · rintro rfl
    exact ⟨c, rfl, (char_cls c c).2 rfl⟩

theorem free_end {a : Re} {A : Str → Prop} (ha : Free false a A) : Free false (.cat a .eps) A := by
  intro p w rest
  rw [cat_ends]
  exact ha _ _ _

theorem free_digits (lo : Nat) (hi : Option Nat) : Free false (.rep lo hi (dig '0' '9')) fun w => Digits w ∧ lo ≤ w.length ∧ ∀ h, hi = some h → w.length ≤ h := by
  intro p w rest
  unfold dig
  rw [rep_cls]
  constructor
  · rintro ⟨h1, h2, h3⟩
    exact ⟨fun c hc => (digit_cls c) ▸ h3 c hc, h1, h2⟩
  · rintro ⟨h1, h2, h3⟩
    exact ⟨h2, h3, fun c hc => (digit_cls c).symm ▸ h1 c hc⟩

theorem free_opt {a : Re} {A : Str → Prop} (ha : Free false a A) : Free false (.rep 0 (some 1) a) fun w => w = [] ∨ A w := by
  intro p w rest
  rw [rep_opt, ha p w rest]

theorem free_grp {a : Re} {A : Str → Prop} (k : Nat) (ha : Free false a A) : Free false (.grp k a) A := fun p w rest => ha p w rest

theorem free_alt {a b : Re} {A B : Str → Prop} (ha : Free false a A) (hb : Free false b B) : Free false (.alt a b) fun w => A w ∨ B w := by
  intro p w rest
  rw [reads_alt, ha, hb]

theorem free_iff {a : Re} {A B : Str → Prop} (ha : Free false a A) (h : ∀ w, A w ↔ B w) : Free false a B := fun p w rest => (ha p w rest).trans (h w)

theorem free_dec (k : Nat) : Free false (decRe k) Decimals := by
  refine free_iff (free_opt (free_grp k (free_cat (free_lit '.') (free_end (free_digits 0 none))))) fun w => ?_
  unfold Decimals
  constructor
  · rintro (h | ⟨u, v, rfl, rfl, h, -, -⟩)
    · exact Or.inl h
    · exact Or.inr ⟨v, rfl, h⟩
  · rintro (h | ⟨v, rfl, h⟩)
    · exact Or.inl h
    · exact Or.inr ⟨['.'], v, rfl, rfl, h, Nat.zero_le _, fun x e => by cases e⟩

theorem free_one_sign (k : Nat) : Free false (signRe k) fun w => w = ['-'] ∨ w = ['+'] := free_grp k (free_alt (free_end (free_lit '-')) (free_end (free_lit '+')))

theorem free_sign (k : Nat) : Free false (.rep 0 (some 1) (signRe k)) Signed := free_opt (free_one_sign k)

theorem free_signs (k : Nat) : Free false (.rep 0 none (signRe k)) fun w => ∀ c ∈ w, c = '-' ∨ c = '+' := by
  intro p w rest
  rw [rep_free (free_one_sign k)]
  constructor
  · rintro ⟨l, rfl, hl⟩ c hc
    obtain ⟨x, hx, hcx⟩ := List.mem_flatten.1 hc
    rcases hl x hx with rfl | rfl
    · exact Or.inl (List.mem_singleton.1 hcx)
    · exact Or.inr (List.mem_singleton.1 hcx)
  · intro h
    refine ⟨w.map fun c => [c], ?_, fun x hx => ?_⟩
    · clear h
      induction w with
      | nil => rfl
      | cons c w ih => simp only [List.map_cons, List.flatten_cons, ← ih, List.singleton_append]
    · obtain ⟨c, hc, rfl⟩ := List.mem_map.1 hx
      rcases h c hc with rfl | rfl
      · exact Or.inl rfl
      · exact Or.inr rfl

theorem free_decimal (lo : Nat) (hi : Option Nat) (k : Nat) : Free false (.cat (.rep lo hi (dig '0' '9')) (.cat (decRe k) .eps)) (Decimal lo hi) := by
  refine free_iff (free_cat (free_digits lo hi) (free_end (free_dec k))) fun w => ?_
  unfold Decimal
  constructor
  · rintro ⟨d, f, e, ⟨h1, h2, h3⟩, h4⟩
    exact ⟨d, f, e, h1, h4, h2, h3⟩
  · rintro ⟨d, f, e, h1, h4, h2, h3⟩
    exact ⟨d, f, e, ⟨h1, h2, h3⟩, h4⟩

theorem exactly_two {w : Str} : (Digits w ∧ 2 ≤ w.length ∧ ∀ h, some 2 = some h → w.length ≤ h) ↔ Digits w ∧ w.length = 2 := by
  constructor
  · rintro ⟨h1, h2, h3⟩
    exact ⟨h1, Nat.le_antisymm (h3 2 rfl) h2⟩
  · rintro ⟨h1, h2⟩
    refine ⟨h1, h2.ge, fun h e => ?_⟩
    injection e with e
    omega

def sexaRe (k : Nat) : Re :=
  .cat (.rep 2 (some 2) (dig '0' '9')) (.cat (lit ':') (.cat (.rep 2 (some 2) (dig '0' '9')) (.cat (lit ':') (.cat (.rep 2 (some 2) (dig '0' '9')) (.cat (decRe k) .eps)))))

theorem free_sexa (k : Nat) : Free false (sexaRe k) Sexagesimal := by
  have hd := free_iff (free_digits 2 (some 2)) fun w => exactly_two
  refine free_iff (free_cat hd (free_cat (free_lit ':') (free_cat hd (free_cat (free_lit ':') (free_cat hd (free_end (free_dec k))))))) fun w => ?_
  unfold Sexagesimal
  constructor
  · rintro ⟨a, _, rfl, ⟨ha, la⟩, _, _, rfl, rfl, b, _, rfl, ⟨hb, lb⟩, _, _, rfl, rfl, c, f, rfl, ⟨hc, lc⟩, hf⟩
    exact ⟨a, b, c, f, by simp, ha, hb, hc, la, lb, lc, hf⟩
  · rintro ⟨a, b, c, f, rfl, ha, hb, hc, la, lb, lc, hf⟩
    exact ⟨a, ':' :: (b ++ ':' :: (c ++ f)), by simp, ⟨ha, la⟩, [':'], b ++ ':' :: (c ++ f), rfl, rfl, b, ':' :: (c ++ f), rfl, ⟨hb, lb⟩, [':'], c ++ f, rfl, rfl, c, f, rfl, ⟨hc, lc⟩, hf⟩

/-! ## Right ascensions and declinations -/

def skyRe : Re := .cat .bos (.cat (lit '\'') (.cat (.rep 0 (some 1) (signRe 1))
  (.cat (.grp 2 (.alt (.cat (.grp 3 (.cat (.rep 1 none (dig '0' '9')) (.cat (decRe 4) .eps))) .eps) (.cat (.grp 5 (sexaRe 6)) .eps))) (.cat (lit '\'') (.cat .eos .eps)))))

/-- **C170** The right ascensions and declinations accepted: between quotes, a number or three numbers of two digits, with at most one sign. -/
theorem sky_accepted (t : Str) : ∀ rows ∈ [anaRows, beamRows, pcRows], ∀ k ∈ ["ra", "dec"], Accepts rows k.toList t ↔
    ∃ s w, t = '\'' :: s ++ w ++ ['\''] ∧ Signed s ∧ (Decimal 1 none w ∨ Sexagesimal w) := by
  have hp : ∀ rows ∈ [anaRows, beamRows, pcRows], ∀ k ∈ ["ra", "dec"], (synOf rows k.toList).bind compile = some (false, skyRe) := by
    intro rows hr k hk
    simp only [List.mem_cons, List.not_mem_nil, or_false] at hr hk
    rcases hr with rfl | rfl | rfl <;> rcases hk with rfl | rfl <;> decide +kernel
  intro rows hr k hk
  rw [accepts_of (hp rows hr k hk) (by decide)]
  unfold skyRe
  rw [cat_bos, cat_free (free_lit '\'')]
  have hb := free_grp 2 (free_alt (free_end (free_grp 3 (free_decimal 1 none 4))) (free_end (free_grp 5 (free_sexa 6))))
  constructor
  · rintro ⟨_, v, rfl, rfl, h⟩
    obtain ⟨s, v, rfl, hs, h⟩ := (cat_free (free_sign 1) _ _ _).1 h
    obtain ⟨w, v, rfl, hw, h⟩ := (cat_free hb _ _ _).1 h
    obtain ⟨_, v, rfl, rfl, h⟩ := (cat_free (free_lit '\'') _ _ _).1 h
    rw [at_end.1 h]
    exact ⟨s, w, by simp, hs, hw⟩
  · rintro ⟨s, w, rfl, hs, hw⟩
    exact ⟨['\''], s ++ (w ++ ['\'']), by simp, rfl, (cat_free (free_sign 1) _ _ _).2 ⟨s, w ++ ['\''], rfl, hs, (cat_free hb _ _ _).2 ⟨w, ['\''], rfl, hw,
      (cat_free (free_lit '\'') _ _ _).2 ⟨['\''], [], rfl, rfl, at_end.2 rfl⟩⟩⟩⟩

theorem digits_char {n : Nat} (h : n < 10) : (Nat.digitChar n).isDigit = true := by
  interval_cases n <;> decide

theorem two_all {n : Nat} (h : n < 100) : Digits (two n) := by
  intro c hc
  unfold two at hc
  rcases List.mem_cons.1 hc with rfl | hc
  · exact digits_char (by omega)
  · rw [List.mem_singleton.1 hc]
    exact digits_char (by omega)

/-- **C170** Every right ascension in hours and every declination in degrees, written with two digits for each part as the replays do (parset.py:1980-1983), is accepted. -/
theorem sky_written (h m s : Nat) (hh : h < 100) (hm : m < 60) (hs : s < 60) (f sg : Str) (hf : Decimals f) (hsg : Signed sg) :
    ∀ rows ∈ [anaRows, beamRows, pcRows], ∀ k ∈ ["ra", "dec"],
      Accepts rows k.toList ('\'' :: sg ++ (two h ++ ':' :: two m ++ ':' :: two s ++ f) ++ ['\'']) := by
  intro rows hr k hk
  exact (sky_accepted _ rows hr k hk).2 ⟨sg, _, rfl, hsg, Or.inr ⟨_, _, _, f, rfl, two_all hh, two_all (by omega), two_all (by omega), rfl, rfl, rfl, hf⟩⟩

theorem natStr_decimal (n : Nat) : Decimal 1 none (natStr n) :=
  ⟨natStr n, [], (List.append_nil _).symm, natStr_digits n, Or.inl rfl, List.length_pos_iff.2 (natStr_ne n), fun h e => by cases e⟩

/-- **C170** fails without bounds: any number is accepted as a declination or a right ascension, also below zero. -/
theorem sky_range_violated (n : Nat) (sg : Str) (hsg : Signed sg) : ∀ rows ∈ [anaRows, beamRows, pcRows], ∀ k ∈ ["ra", "dec"],
    Accepts rows k.toList ('\'' :: sg ++ natStr n ++ ['\'']) := by
  intro rows hr k hk
  exact (sky_accepted _ rows hr k hk).2 ⟨sg, _, rfl, hsg, Or.inl (natStr_decimal n)⟩

/-- **C170** fails for the parts of an angle: 99 minutes and 99 seconds are accepted. -/
theorem sky_parts_violated (h m s : Nat) (hh : h < 100) (hm : m < 100) (hs : s < 100) : ∀ rows ∈ [anaRows, beamRows, pcRows], ∀ k ∈ ["ra", "dec"],
    Accepts rows k.toList ('\'' :: (two h ++ ':' :: two m ++ ':' :: two s) ++ ['\'']) := by
  intro rows hr k hk
  exact (sky_accepted _ rows hr k hk).2 ⟨[], _, rfl, Or.inl rfl, Or.inr ⟨_, _, _, [], (List.append_nil _).symm, two_all hh, two_all hm, two_all hs, rfl, rfl, rfl, Or.inl rfl⟩⟩

/-- **C170** fails for numbers and texts without quotes: they are refused. -/
theorem sky_bare_violated (t : Str) (ht : t.head? ≠ some '\'') : ∀ rows ∈ [anaRows, beamRows, pcRows], ∀ k ∈ ["ra", "dec"], ¬Accepts rows k.toList t := by
  intro rows hr k hk h
  obtain ⟨s, w, rfl, -, -⟩ := (sky_accepted _ rows hr k hk).1 h
  exact ht rfl

/-! ## Azimuths, elevations and offsets -/

theorem plain_accepted {rows : List Row} {k : Str} {lo : Nat} {hi : Option Nat} {g : Nat}
    (hp : (synOf rows k).bind compile = some (false, .cat .bos (.cat (.rep lo hi (dig '0' '9')) (.cat (decRe g) (.cat .eos .eps))))) (t : Str) :
    Accepts rows k t ↔ Decimal lo hi t := by
  rw [accepts_of hp (by rfl), cat_bos, cat_free (free_digits lo hi)]
  unfold Decimal
  constructor
  · rintro ⟨d, v, rfl, ⟨h1, h2, h3⟩, h⟩
    obtain ⟨f, v, rfl, hf, h⟩ := (cat_free (free_dec g) _ _ _).1 h
    rw [at_end.1 h, List.append_nil]
    exact ⟨d, f, rfl, h1, hf, h2, h3⟩
  · rintro ⟨d, f, rfl, h1, hf, h2, h3⟩
    exact ⟨d, f, rfl, ⟨h1, h2, h3⟩, (cat_free (free_dec g) _ _ _).2 ⟨f, [], (List.append_nil _).symm, hf, at_end.2 rfl⟩⟩

theorem signed_accepted {rows : List Row} {k : Str} {lo : Nat} {hi : Option Nat} {g : Nat}
    (hp : (synOf rows k).bind compile = some (false, .cat .bos (.cat (.rep 0 (some 1) (signRe 1)) (.cat (.rep lo hi (dig '0' '9')) (.cat (decRe g) (.cat .eos .eps)))))) (t : Str) :
    Accepts rows k t ↔ ∃ s w, t = s ++ w ∧ Signed s ∧ Decimal lo hi w := by
  rw [accepts_of hp (by rfl), cat_bos, cat_free (free_sign 1)]
  unfold Decimal
  constructor
  · rintro ⟨s, v, rfl, hs, h⟩
    obtain ⟨d, v, rfl, ⟨h1, h2, h3⟩, h⟩ := (cat_free (free_digits lo hi) _ _ _).1 h
    obtain ⟨f, v, rfl, hf, h⟩ := (cat_free (free_dec g) _ _ _).1 h
    rw [at_end.1 h, List.append_nil]
    exact ⟨s, _, rfl, hs, d, f, rfl, h1, hf, h2, h3⟩
  · rintro ⟨s, _, rfl, hs, d, f, rfl, h1, hf, h2, h3⟩
    exact ⟨s, d ++ f, rfl, hs, (cat_free (free_digits lo hi) _ _ _).2 ⟨d, f, rfl, ⟨h1, h2, h3⟩, (cat_free (free_dec g) _ _ _).2 ⟨f, [], (List.append_nil _).symm, hf, at_end.2 rfl⟩⟩⟩

/-- **C170** The azimuths accepted: one to three digits, perhaps with decimals, and no sign. -/
theorem azimuth_accepted (t : Str) : (Accepts anaRows "azimuth".toList t ↔ Decimal 1 (some 3) t) ∧ (Accepts beamRows "azimuth".toList t ↔ Decimal 1 (some 3) t) :=
  ⟨plain_accepted (g := 1) (by decide +kernel) t, plain_accepted (g := 1) (by decide +kernel) t⟩

/-- **C170** The elevations accepted: one or two digits, perhaps with a sign and decimals; the same texts for the offsets in elevation. -/
theorem elevation_accepted (t : Str) : (Accepts anaRows "elevation".toList t ↔ ∃ s w, t = s ++ w ∧ Signed s ∧ Decimal 1 (some 2) w)
    ∧ (Accepts beamRows "elevation".toList t ↔ ∃ s w, t = s ++ w ∧ Signed s ∧ Decimal 1 (some 2) w)
    ∧ (Accepts beamRows "decal_el".toList t ↔ ∃ s w, t = s ++ w ∧ Signed s ∧ Decimal 1 (some 2) w) :=
  ⟨signed_accepted (g := 2) (by decide +kernel) t, signed_accepted (g := 2) (by decide +kernel) t, signed_accepted (g := 2) (by decide +kernel) t⟩

/-- **C170** The offsets in azimuth accepted. -/
theorem offset_accepted (t : Str) : Accepts beamRows "decal_az".toList t ↔ ∃ s w, t = s ++ w ∧ Signed s ∧ Decimal 1 (some 3) w := signed_accepted (g := 2) (by decide +kernel) t

theorem value_lt : ∀ (w : Str) (a : Nat), Digits w → Nat.ofDigitChars 10 w a < (a + 1) * 10 ^ w.length
  | [], a, _ => by simp [Nat.ofDigitChars]
  | c :: w, a, h => by
    have h1 := value_lt w (10 * a + (c.toNat - 48)) (fun x hx => h x (by simp [hx]))
    have h2 := h c (by simp)
    have h3 : c.toNat ≤ 57 := by
      unfold Char.isDigit at h2
      rw [Bool.and_eq_true, decide_eq_true_eq, decide_eq_true_eq] at h2
      exact h2.2
    have e : Nat.ofDigitChars 10 (c :: w) a = Nat.ofDigitChars 10 w (10 * a + (c.toNat - 48)) := rfl
    rw [e, List.length_cons, Nat.pow_succ]
    have h4 : 10 * a + (c.toNat - 48) + 1 ≤ 10 * (a + 1) := by omega
    calc Nat.ofDigitChars 10 w (10 * a + (c.toNat - 48)) < (10 * a + (c.toNat - 48) + 1) * 10 ^ w.length := h1
      _ ≤ 10 * (a + 1) * 10 ^ w.length := Nat.mul_le_mul_right _ h4
      _ = (a + 1) * (10 ^ w.length * 10) := by ring

theorem natStr_length {n k : Nat} (hk : 0 < k) : (natStr n).length ≤ k ↔ n < 10 ^ k := by
  constructor
  · intro h
    have := value_lt (natStr n) 0 (natStr_digits n)
    rw [ofDigits_natStr, Nat.zero_add, Nat.one_mul] at this
    exact lt_of_lt_of_le this (Nat.pow_le_pow_right (by decide) h)
  · exact Nat.toDigits_length 10 n k hk

theorem digits_point {d f : Str} (h : Digits (d ++ f)) (hf : Decimals f) : f = [] := by
  rcases hf with h1 | ⟨x, rfl, -⟩
  · exact h1
  · exact absurd (h '.' (by simp)) (by decide)

theorem whole_decimal (n k : Nat) (hk : 0 < k) : Decimal 1 (some k) (natStr n) ↔ n < 10 ^ k := by
  rw [← natStr_length hk]
  constructor
  · rintro ⟨d, f, e, -, hf, -, h2⟩
    have hd : Digits (d ++ f) := e ▸ natStr_digits n
    rw [digits_point hd hf, List.append_nil] at e
    rw [e]
    exact h2 k rfl
  · intro h
    refine ⟨natStr n, [], (List.append_nil _).symm, natStr_digits n, Or.inl rfl, List.length_pos_iff.2 (natStr_ne n), fun x e => ?_⟩
    injection e with e
    omega

/-- **C170** The whole numbers accepted as azimuths are those below 1000. -/
theorem azimuth_numbers (n : Nat) : Accepts anaRows "azimuth".toList (natStr n) ↔ n < 1000 := by
  rw [(azimuth_accepted _).1]
  exact whole_decimal n 3 (by decide)

/-- **C170** Every azimuth, with any decimals, is accepted. -/
theorem azimuth_partial (n : Nat) (h : n < 360) (f : Str) (hf : Digits f) : Accepts anaRows "azimuth".toList (natStr n ++ '.' :: f) := by
  refine (azimuth_accepted _).1.2 ⟨natStr n, '.' :: f, rfl, natStr_digits n, Or.inr ⟨f, rfl, hf⟩, List.length_pos_iff.2 (natStr_ne n), fun x e => ?_⟩
  injection e with e
  have := (natStr_length (n := n) (k := 3) (by decide)).2 (by omega)
  omega

/-- **C170** fails beyond a turn: the numbers up to 999 are accepted. -/
theorem azimuth_range_violated (n : Nat) (_ : 360 < n) (h : n < 1000) : Accepts anaRows "azimuth".toList (natStr n) := (azimuth_numbers n).2 h

theorem decimal_chars {lo : Nat} {hi : Option Nat} {w : Str} (h : Decimal lo hi w) : ∀ c ∈ w, c.isDigit = true ∨ c = '.' := by
  obtain ⟨d, f, rfl, hd, hf, -, -⟩ := h
  intro c hc
  rcases List.mem_append.1 hc with hc | hc
  · exact Or.inl (hd c hc)
  · rcases hf with rfl | ⟨x, rfl, hx⟩
    · cases hc
    · rcases List.mem_cons.1 hc with rfl | hc
      · exact Or.inr rfl
      · exact Or.inl (hx c hc)

/-- **C170** An azimuth below zero is refused, as is a number with an exponent, which is how Python writes a small one. -/
theorem azimuth_refused (t : Str) (c : Char) (hc : c ∈ t) (h1 : c.isDigit = false) (h2 : c ≠ '.') : ¬Accepts anaRows "azimuth".toList t := by
  intro h
  rcases decimal_chars ((azimuth_accepted t).1.1 h) c hc with h3 | h3
  · rw [h1] at h3; cases h3
  · exact h2 h3

/-- **C170** The whole numbers of degrees accepted as elevations are those from -99 to 99. -/
theorem elevation_numbers (n : Nat) (s : Str) (hs : Signed s) : Accepts anaRows "elevation".toList (s ++ natStr n) ↔ n < 100 := by
  have h100 : n < 100 ↔ Decimal 1 (some 2) (natStr n) := (whole_decimal n 2 (by decide)).symm
  rw [(elevation_accepted _).1, h100]
  constructor
  · rintro ⟨s', w, e, hs', hw⟩
    have hhead : ∀ (x y : Str), Signed x → (∀ c ∈ y.head?, c.isDigit = true ∨ c = '.') → y ≠ [] → (x ++ y).dropWhile (fun c => decide (c = '-' ∨ c = '+')) = y := by
      intro x y hx hy hne
      cases y with
      | nil => exact absurd rfl hne
      | cons c y =>
        have hcc : decide (c = '-' ∨ c = '+') = false := by
          rw [decide_eq_false_iff_not]
          rintro (rfl | rfl) <;> rcases hy _ rfl with h | h <;> exact absurd h (by decide)
        rcases hx with rfl | rfl | rfl
        · rw [List.nil_append, List.dropWhile_cons_of_neg (by rw [hcc]; decide)]
        · rw [List.singleton_append, List.dropWhile_cons_of_pos (by decide), List.dropWhile_cons_of_neg (by rw [hcc]; decide)]
        · rw [List.singleton_append, List.dropWhile_cons_of_pos (by decide), List.dropWhile_cons_of_neg (by rw [hcc]; decide)]
    have hwne : w ≠ [] := by
      obtain ⟨d, f, rfl, -, -, h1, -⟩ := hw
      intro h0
      rw [(List.append_eq_nil_iff.1 h0).1] at h1
      exact absurd h1 (by decide)
    have e1 := hhead s (natStr n) hs (fun c hc => Or.inl (natStr_digits n c (List.mem_of_mem_head? hc))) (natStr_ne n)
    rw [e, hhead s' w hs' (fun c hc => decimal_chars hw c (List.mem_of_mem_head? hc)) hwne] at e1
    rw [← e1]
    exact hw
  · intro h
    exact ⟨s, _, rfl, hs, h⟩

/-- **C170** fails for elevations above 90 degrees or below the horizon, which are accepted. -/
theorem elevation_range_violated (n : Nat) (h : n < 100) : Accepts anaRows "elevation".toList ('-' :: natStr n) ∧ Accepts anaRows "elevation".toList (natStr n) :=
  ⟨(elevation_numbers n ['-'] (Or.inr (Or.inl rfl))).2 h, (elevation_numbers n [] (Or.inl rfl)).2 h⟩

/-! ## Hour angles -/

def hourRe : Re := .cat .bos (.cat (.rep 0 none (signRe 1)) (.cat (.rep 1 none (dig '0' '9')) (.cat (decRe 2)
  (.cat (.grp 3 (.alt (.cat (lit 'h') .eps) (.alt (.cat (lit 'm') .eps) (.cat (lit 's') .eps)))) (.cat .eos .eps)))))

/-- **C170** The hour angles and delays after a transit accepted: any signs, a number and a unit. -/
theorem hour_accepted (t : Str) : ∀ rows ∈ [anaRows, beamRows, pcRows], ∀ k ∈ ["startHA", "stopHA", "decal_transit"], Accepts rows k.toList t ↔
    ∃ s w u, t = s ++ w ++ [u] ∧ (∀ c ∈ s, c = '-' ∨ c = '+') ∧ Decimal 1 none w ∧ (u = 'h' ∨ u = 'm' ∨ u = 's') := by
  have hp : ∀ rows ∈ [anaRows, beamRows, pcRows], ∀ k ∈ ["startHA", "stopHA", "decal_transit"], (synOf rows k.toList).bind compile = some (false, hourRe) := by
    intro rows hr k hk
    simp only [List.mem_cons, List.not_mem_nil, or_false] at hr hk
    rcases hr with rfl | rfl | rfl <;> rcases hk with rfl | rfl | rfl <;> decide +kernel
  intro rows hr k hk
  rw [accepts_of (hp rows hr k hk) (by decide)]
  unfold hourRe
  rw [cat_bos, cat_free (free_signs 1)]
  have hu := free_grp 3 (free_alt (free_end (free_lit 'h')) (free_alt (free_end (free_lit 'm')) (free_end (free_lit 's'))))
  constructor
  · rintro ⟨s, v, rfl, hs, h⟩
    obtain ⟨d, v, rfl, ⟨h1, h2, h3⟩, h⟩ := (cat_free (free_digits 1 none) _ _ _).1 h
    obtain ⟨f, v, rfl, hf, h⟩ := (cat_free (free_dec 2) _ _ _).1 h
    obtain ⟨u, v, rfl, hx, h⟩ := (cat_free hu _ _ _).1 h
    rw [at_end.1 h, List.append_nil]
    rcases hx with rfl | rfl | rfl
    · exact ⟨s, d ++ f, 'h', by simp, hs, ⟨d, f, rfl, h1, hf, h2, h3⟩, by simp⟩
    · exact ⟨s, d ++ f, 'm', by simp, hs, ⟨d, f, rfl, h1, hf, h2, h3⟩, by simp⟩
    · exact ⟨s, d ++ f, 's', by simp, hs, ⟨d, f, rfl, h1, hf, h2, h3⟩, by simp⟩
  · rintro ⟨s, _, u, rfl, hs, ⟨d, f, rfl, h1, hf, h2, h3⟩, hx⟩
    refine ⟨s, d ++ (f ++ [u]), by simp, hs, (cat_free (free_digits 1 none) _ _ _).2 ⟨d, f ++ [u], rfl, ⟨h1, h2, h3⟩, (cat_free (free_dec 2) _ _ _).2 ⟨f, [u], rfl, hf,
      (cat_free hu _ _ _).2 ⟨[u], [], rfl, ?_, at_end.2 rfl⟩⟩⟩⟩
    rcases hx with rfl | rfl | rfl
    · exact Or.inl rfl
    · exact Or.inr (Or.inl rfl)
    · exact Or.inr (Or.inr rfl)

/-- **C170** fails for signs: any number of them is accepted before an hour angle. -/
theorem hour_signs_violated (s : Str) (hs : ∀ c ∈ s, c = '-' ∨ c = '+') (n : Nat) : ∀ rows ∈ [anaRows, beamRows, pcRows], ∀ k ∈ ["startHA", "stopHA", "decal_transit"],
    Accepts rows k.toList (s ++ natStr n ++ ['h']) := by
  intro rows hr k hk
  exact (hour_accepted _ rows hr k hk).2 ⟨s, _, 'h', rfl, hs, natStr_decimal n, Or.inl rfl⟩

/-- **C170** fails for numbers without a unit, such as the value which is written for the delay after the transit when none is given: they are refused. -/
theorem hour_unit_violated (s : Str) (n : Nat) : (∀ rows ∈ [anaRows, beamRows, pcRows], ∀ k ∈ ["startHA", "stopHA", "decal_transit"], ¬Accepts rows k.toList (s ++ natStr n))
    ∧ ∀ rows ∈ [anaRows, beamRows, pcRows], ∃ r ∈ rows, r.key = "decal_transit".toList ∧ r.value = natStr 0 := by
  refine ⟨fun rows hr k hk h => ?_, ?_⟩
  · obtain ⟨x, w, u, e, -, -, hu⟩ := (hour_accepted _ rows hr k hk).1 h
    have hl := congrArg List.getLast? e
    rw [List.getLast?_append_of_ne_nil _ (natStr_ne n), List.getLast?_concat] at hl
    have hd := natStr_digits n u (List.mem_of_getLast? hl)
    rcases hu with rfl | rfl | rfl <;> exact absurd hd (by decide)
  · intro rows hr
    simp only [List.mem_cons, List.not_mem_nil, or_false] at hr
    have key : ∀ rows : List Row, (rows.any fun r => decide (r.key = "decal_transit".toList ∧ r.value = natStr 0)) = true → ∃ r ∈ rows, r.key = "decal_transit".toList ∧ r.value = natStr 0 := by
      intro rows h
      obtain ⟨r, h1, h2⟩ := List.any_eq_true.1 h
      exact ⟨r, h1, of_decide_eq_true h2⟩
    rcases hr with rfl | rfl | rfl <;> exact key _ (by decide +kernel)

example : Accepts anaRows "dec".toList ('\'' :: ['-'] ++ (two 7 ++ ':' :: two 30 ++ ':' :: two 5 ++ ".25".toList) ++ ['\'']) :=
  sky_written 7 30 5 (by decide) (by decide) (by decide) _ _ (Or.inr ⟨"25".toList, rfl, fun c hc => List.all_eq_true.1 (show "25".toList.all Char.isDigit = true by decide) c hc⟩)
    (Or.inr (Or.inl rfl)) anaRows (by simp) "dec" (by simp)

example : ('\'' :: ['-'] ++ (two 7 ++ ':' :: two 30 ++ ':' :: two 5 ++ ".25".toList) ++ ['\'']) = "'-07:30:05.25'".toList := by decide

end Verif.Parset
