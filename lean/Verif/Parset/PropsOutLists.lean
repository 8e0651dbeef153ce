import Verif.Parset.PropsWords
import Verif.Parset.PropsAntennas

/-!
# C169: lists accepted for the outputs of an observation

Lists of sub-bands of the cross-correlations, of sub-bands of the imager and of receivers (parset_user_options.json:55-137).
-/

namespace Verif.Parset

/-- Pattern of a list between brackets. -/
def bracketRe (A B : Re) : Re := .cat .bos (.cat (lit '[') (.cat A (.cat (.rep 0 none B) (.cat (lit ']') (.cat .eos .eps)))))

theorem times_free {ci : Bool} {B : Re} {L : Str → Prop} (hB : Free ci B L) : ∀ (n : Nat) (p : Option Char) (w rest : Str),
    Times (Reads ci B) n p w rest ↔ ∃ l : List Str, l.length = n ∧ w = l.flatten ∧ ∀ x ∈ l, L x
  | 0, p, w, rest => by
    constructor
    · intro h
      exact ⟨[], rfl, h, fun x hx => by cases hx⟩
    · rintro ⟨l, hl, rfl, -⟩
      rw [List.length_eq_zero_iff.1 hl]; rfl
  | n + 1, p, w, rest => by
    constructor
    · rintro ⟨u, v, rfl, hu, hv⟩
      obtain ⟨l, rfl, rfl, hl⟩ := (times_free hB n _ _ _).1 hv
      refine ⟨u :: l, rfl, rfl, fun x hx => ?_⟩
      rcases List.mem_cons.1 hx with rfl | hx
      · exact (hB _ _ _).1 hu
      · exact hl x hx
    · rintro ⟨l, hl, rfl, h⟩
      cases l with
      | nil => cases hl
      | cons u l =>
        exact ⟨u, l.flatten, rfl, (hB _ _ _).2 (h u (by simp)), (times_free hB n _ _ _).2 ⟨l, by simpa using hl, rfl, fun x hx => h x (by simp [hx])⟩⟩

theorem rep_free {ci : Bool} {B : Re} {L : Str → Prop} (hB : Free ci B L) (p : Option Char) (w rest : Str) :
    Reads ci (.rep 0 none B) p w rest ↔ ∃ l : List Str, w = l.flatten ∧ ∀ x ∈ l, L x := by
  constructor
  · rintro ⟨n, -, -, h⟩
    obtain ⟨l, -, h1, h2⟩ := (times_free hB n _ _ _).1 h
    exact ⟨l, h1, h2⟩
  · rintro ⟨l, h1, h2⟩
    exact ⟨l.length, Nat.zero_le _, fun h e => (by cases e), (times_free hB _ _ _ _).2 ⟨l, rfl, h1, h2⟩⟩

theorem join_flat (a : Str) : ∀ l : List Str, join ',' (a :: l) = a ++ (l.map fun x => ',' :: x).flatten
  | [] => by simp [join]
  | x :: l => by
    rw [join, join_flat x l]
    simp

theorem commas_split {P : Str → Prop} : ∀ l : List Str, (∀ x ∈ l, ∃ v, x = ',' :: v ∧ P v) → ∃ m : List Str, l = m.map (fun x => ',' :: x) ∧ ∀ x ∈ m, P x
  | [], _ => ⟨[], rfl, fun x hx => by cases hx⟩
  | y :: l, h => by
    obtain ⟨m, rfl, hm⟩ := commas_split l (fun x hx => h x (by simp [hx]))
    obtain ⟨v, rfl, hv⟩ := h y (by simp)
    exact ⟨v :: m, rfl, List.forall_mem_cons.2 ⟨hv, hm⟩⟩

/-- Texts of a list between brackets, whose elements are separated by commas. -/
theorem bracket_iff {A B : Re} {LA LB : Str → Prop} (hA : Free false A LA) (hB : Free false B fun w => ∃ v, w = ',' :: v ∧ LB v) (t : Str) :
    Reads false (bracketRe A B) none t [] ↔ ∃ a l, LA a ∧ (∀ x ∈ l, LB x) ∧ t = '[' :: join ',' (a :: l) ++ [']'] := by
  unfold bracketRe
  rw [cat_bos, cat_cls]
  constructor
  · rintro ⟨c, v, rfl, hc, u, v', rfl, hu, w, v'', rfl, hw, hv⟩
    obtain ⟨d, z, rfl, hd, hz⟩ := cat_cls.1 hv
    have hz := at_end.1 hz
    subst hz
    obtain ⟨l, rfl, hl⟩ := (rep_free hB _ _ _).1 hw
    have hl2 := commas_split l hl
    obtain ⟨m, rfl, hm⟩ := hl2
    refine ⟨u, m, (hA _ _ _).1 hu, hm, ?_⟩
    rw [(char_cls '[' c).1 hc, (char_cls ']' d).1 hd, join_flat]
    simp
  · rintro ⟨a, l, ha, hl, rfl⟩
    refine ⟨'[', _, rfl, (char_cls _ _).2 rfl, a, (l.map fun x => ',' :: x).flatten ++ [']'], by rw [join_flat]; simp, (hA _ _ _).2 ha,
      (l.map fun x => ',' :: x).flatten, [']'], rfl, (rep_free hB _ _ _).2 ⟨_, rfl, ?_⟩, cat_cls.2 ⟨']', [], rfl, (char_cls _ _).2 rfl, at_end.2 rfl⟩⟩
    intro x hx
    obtain ⟨v, hv, rfl⟩ := List.mem_map.1 hx
    exact ⟨v, rfl, hl v hv⟩

/-! ## Elements without repetition -/

/-- Texts of the sequences of classes. -/
def OneFits (M : List (List (Bool × List (Char × Char)))) (w : Str) : Prop := ∃ cs ∈ M, Fits false cs w

theorem free_seqs {r : Re} (ht : r.tame = true) (hf : r.seqs.all (fun x => !x.start && !x.stop) = true) : Free false r (OneFits (r.seqs.map Seq.cs)) := by
  intro p w rest
  rw [seqs_iff false r ht]
  constructor
  · rintro ⟨x, hx, -, h, -⟩
    exact ⟨x.cs, List.mem_map.2 ⟨x, hx, rfl⟩, h⟩
  · rintro ⟨cs, hcs, h⟩
    obtain ⟨x, hx, rfl⟩ := List.mem_map.1 hcs
    have := List.all_eq_true.1 hf x hx
    rw [Bool.and_eq_true, Bool.not_eq_true', Bool.not_eq_true'] at this
    exact ⟨x, hx, fun e => absurd e (by rw [this.1]; decide), h, fun e => absurd e (by rw [this.2]; decide)⟩

theorem free_comma {r : Re} {M : List (List (Bool × List (Char × Char)))} (ht : r.tame = true) (hf : r.seqs.all (fun x => !x.start && !x.stop) = true)
    (hM : r.seqs.map Seq.cs = M.map fun cs => (false, [(',', ',')]) :: cs) : Free false r fun w => ∃ v, w = ',' :: v ∧ OneFits M v := by
  intro p w rest
  rw [free_seqs ht hf p w rest, hM]
  constructor
  · rintro ⟨cs, hcs, h⟩
    obtain ⟨ds, hds, rfl⟩ := List.mem_map.1 hcs
    cases h with
    | cons h1 h2 => exact ⟨_, by rw [(char_cls _ _).1 h1], ds, hds, h2⟩
  · rintro ⟨v, rfl, ds, hds, h⟩
    exact ⟨_, List.mem_map.2 ⟨ds, hds, rfl⟩, .cons ((char_cls _ _).2 rfl) h⟩

theorem fits_three {k l m : Bool × List (Char × Char)} {w : Str} : Fits false [k, l, m] w ↔
    ∃ c d e, w = [c, d, e] ∧ inCls false k.1 k.2 c = true ∧ inCls false l.1 l.2 d = true ∧ inCls false m.1 m.2 e = true := by
  constructor
  · intro h
    cases h with
    | cons h1 h2 =>
      obtain ⟨d, e, rfl, h3, h4⟩ := fits_two.1 h2
      exact ⟨_, d, e, rfl, h1, h3, h4⟩
  · rintro ⟨c, d, e, rfl, h1, h2, h3⟩
    exact .cons h1 (fits_two.2 ⟨d, e, rfl, h2, h3⟩)

/-! ## Sub-bands of the cross-correlations -/

/-- One digit, or a 1 and a digit up to `b`. -/
def upToTeen (b : Char) : List (List (Bool × List (Char × Char))) := [[(false, [('0', '9')])], [(false, [('1', '1')]), (false, [('0', b)])]]

theorem teen_iff {b : Nat} (hb : b < 10) (w : Str) : OneFits (upToTeen (Nat.digitChar b)) w ↔ ∃ n, n ≤ 10 + b ∧ w = natStr n := by
  unfold OneFits upToTeen
  simp only [List.mem_cons, List.not_mem_nil, or_false]
  constructor
  · rintro ⟨cs, rfl | rfl, hf⟩
    · obtain ⟨c, rfl, hc⟩ := fits_one.1 hf
      obtain ⟨k, h1, h2, rfl⟩ := (range_cls 0 9 (by decide) (by decide) c).1 hc
      exact ⟨k, by omega, (natStr_one k (by omega)).symm⟩
    · obtain ⟨c, d, rfl, hc, hd⟩ := fits_two.1 hf
      obtain ⟨k, h1, h2, rfl⟩ := (range_cls 0 b (by decide) hb d).1 hd
      rw [(char_cls '1' c).1 hc]
      exact ⟨10 + k, by omega, (natStr_two 1 (by decide) k (by omega) (by decide)).symm⟩
  · rintro ⟨n, hn, rfl⟩
    by_cases h10 : n < 10
    · exact ⟨_, Or.inl rfl, fits_one.2 ⟨_, natStr_one n h10, (range_cls 0 9 (by decide) (by decide) _).2 ⟨n, by omega, by omega, rfl⟩⟩⟩
    · have e := natStr_two 1 (by decide) (n - 10) (by omega) (by decide)
      rw [show 10 * 1 + (n - 10) = n by omega] at e
      exact ⟨_, Or.inr rfl, fits_two.2 ⟨_, _, e, (char_cls '1' _).2 rfl, (range_cls 0 b (by decide) hb _).2 ⟨n - 10, by omega, by omega, rfl⟩⟩⟩

theorem xst_pattern : ∃ A B, (synOf outRows "xst_sbList".toList).bind compile = some (false, bracketRe A B) ∧ A.tame = true ∧ B.tame = true
    ∧ A.seqs.all (fun x => !x.start && !x.stop) = true ∧ B.seqs.all (fun x => !x.start && !x.stop) = true
    ∧ A.seqs.map Seq.cs = upToTeen '9' ∧ B.seqs.map Seq.cs = (upToTeen '5').map fun cs => (false, [(',', ',')]) :: cs :=
  ⟨.grp 1 (.alt (.cat (dig '0' '9') .eps) (.cat (lit '1') (.cat (dig '0' '9') .eps))),
    .grp 2 (.alt (.cat (lit ',') (.cat (dig '0' '9') .eps)) (.cat (lit ',') (.cat (lit '1') (.cat (dig '0' '5') .eps)))),
    by decide +kernel, by decide +kernel, by decide +kernel, by decide +kernel, by decide +kernel, by decide +kernel, by decide +kernel⟩

theorem bracket_plain {A B : Re} (hA : A.plain = true) (hB : B.plain = true) : (bracketRe A B).plain = true := by
  unfold bracketRe
  simp only [Re.plain, hA, hB, Bool.and_self]

/-- **C169** The lists of sub-bands accepted for the cross-correlations: numbers up to 15, up to 19 for the first one. -/
theorem xst_list_accepted (t : Str) : Accepts outRows "xst_sbList".toList t ↔
    ∃ (n : Nat) (l : List Nat), n ≤ 19 ∧ (∀ k ∈ l, k ≤ 15) ∧ t = '[' :: join ',' ((n :: l).map natStr) ++ [']'] := by
  obtain ⟨A, B, h1, h2, h3, h4, h5, h6, h7⟩ := xst_pattern
  have hA : Free false A (OneFits (upToTeen (Nat.digitChar 9))) := by
    have := free_seqs h2 h4
    rw [h6] at this
    exact this
  rw [accepts_of h1 (bracket_plain (tame_plain A h2) (tame_plain B h3)), bracket_iff hA (free_comma h3 h5 h7)]
  have hB : ∀ w, OneFits (upToTeen '5') w ↔ ∃ n, n ≤ 15 ∧ w = natStr n := fun w => teen_iff (b := 5) (by decide) w
  constructor
  · rintro ⟨a, l, ha, hl, rfl⟩
    obtain ⟨n, hn, rfl⟩ := (teen_iff (b := 9) (by decide) a).1 ha
    have : ∃ m : List Nat, l = m.map natStr ∧ ∀ k ∈ m, k ≤ 15 := by
      induction l with
      | nil => exact ⟨[], rfl, fun x hx => by cases hx⟩
      | cons y l ih =>
        obtain ⟨m, rfl, hm⟩ := ih (fun x hx => hl x (by simp [hx]))
        obtain ⟨k, hk, rfl⟩ := (hB y).1 (hl y (by simp))
        refine ⟨k :: m, rfl, fun x hx => ?_⟩
        rcases List.mem_cons.1 hx with rfl | hx
        · exact hk
        · exact hm x hx
    obtain ⟨m, rfl, hm⟩ := this
    exact ⟨n, m, hn, hm, rfl⟩
  · rintro ⟨n, l, hn, hl, rfl⟩
    refine ⟨natStr n, l.map natStr, (teen_iff (b := 9) (by decide) _).2 ⟨n, hn, rfl⟩, fun x hx => ?_, rfl⟩
    obtain ⟨k, hk, rfl⟩ := List.mem_map.1 hx
    exact (hB _).2 ⟨k, hl k hk, rfl⟩

theorem numbers_read (isTime : Str → Bool) (isFloat : IsFloat) (key : Str) (l : List Nat) (h0 : l ≠ []) :
    setItem isTime isFloat key ('[' :: join ',' (l.map natStr) ++ [']']) = .ok (.list (l.map fun k : Nat => Item.int k)) := by
  have e : (l.map natStr).map (fun w : Str => Item.int (num w)) = l.map fun k : Nat => Item.int k := by
    rw [List.map_map]
    apply List.map_congr_left
    intro k _
    rw [Function.comp_apply, show num (natStr k) = k from ofDigits_natStr k]
  have hne : l.map natStr ≠ [] := fun h => h0 (List.map_eq_nil_iff.1 h)
  rw [ant_read isTime isFloat key (l.map natStr) hne, e]
  intro w hw
  obtain ⟨k, -, rfl⟩ := List.mem_map.1 hw
  exact ⟨natStr_ne k, natStr_digits k⟩

/-- **C169** A list which is accepted is read as its numbers. -/
theorem xst_list_read (isTime : Str → Bool) (isFloat : IsFloat) (t : Str) (h : Accepts outRows "xst_sbList".toList t) :
    ∃ (n : Nat) (l : List Nat), n ≤ 19 ∧ (∀ k ∈ l, k ≤ 15) ∧ setItem isTime isFloat "xst_sbList".toList t = .ok (.list ((n :: l).map fun k : Nat => Item.int k)) := by
  obtain ⟨n, l, hn, hl, rfl⟩ := (xst_list_accepted t).1 h
  refine ⟨n, l, hn, hl, ?_⟩
  exact numbers_read isTime isFloat _ (n :: l) (List.cons_ne_nil _ _)

theorem numbers_inj {l m : List Nat} (hl : l ≠ []) (hm : m ≠ []) (h : '[' :: join ',' (l.map natStr) ++ [']'] = '[' :: join ',' (m.map natStr) ++ [']']) : l = m := by
  have hc : ∀ l : List Nat, ∀ w ∈ l.map natStr, ',' ∉ w := by
    intro l w hw hc
    obtain ⟨k, -, rfl⟩ := List.mem_map.1 hw
    exact absurd (natStr_digits k _ hc) (by decide)
  have := same_fields (by simpa using hl) (by simpa using hm) (hc l) (hc m) h
  exact List.map_injective_iff.2 (fun a b e => natStr_injective e) this

/-- **C169** fails for the cross-correlations, which have 16 sub-bands: a number from 16 to 19 is accepted when it comes first, and refused elsewhere. -/
theorem xst_first_violated (n : Nat) (h1 : 16 ≤ n) (h2 : n ≤ 19) (k : Nat) (hk : k ≤ 15) :
    Accepts outRows "xst_sbList".toList ('[' :: join ',' ([n, k].map natStr) ++ [']']) ∧ ¬Accepts outRows "xst_sbList".toList ('[' :: join ',' ([k, n].map natStr) ++ [']']) := by
  constructor
  · exact (xst_list_accepted _).2 ⟨n, [k], h2, by simpa using hk, rfl⟩
  · intro h
    obtain ⟨m, l, -, hl, e⟩ := (xst_list_accepted _).1 h
    have := numbers_inj (by simp) (by simp) e
    injection this with _ e2
    have := hl n (by rw [← e2]; simp)
    omega

/-! ## Sub-bands of the imager -/

/-- The numbers of the sub-bands of the imager, as classes of characters. -/
def imagerBands : List (List (Bool × List (Char × Char))) :=
  [[(false, [('0', '9')])], [(false, [('0', '9')]), (false, [('0', '9')])], [(false, [('0', '4')]), (false, [('0', '9')]), (false, [('0', '9')])],
   [(false, [('5', '5')]), (false, [('0', '0')]), (false, [('0', '9')])], [(false, [('5', '5')]), (false, [('1', '1')]), (false, [('0', '1')])]]

theorem imager_bands_iff (w : Str) : OneFits imagerBands w ↔ Sub w := by
  have d09 : ∀ c, inCls false false [('0', '9')] c = true ↔ c.isDigit = true := fun c => by rw [digit_cls]
  unfold OneFits imagerBands
  simp only [List.mem_cons, List.not_mem_nil, or_false]
  constructor
  · rintro ⟨cs, rfl | rfl | rfl | rfl | rfl, hf⟩
    · obtain ⟨c, rfl, hc⟩ := fits_one.1 hf
      exact (sub_short (by simp) (by simp)).2 (by intro x hx; rw [List.mem_singleton.1 hx]; exact (d09 c).1 hc)
    · obtain ⟨c, d, rfl, hc, hd⟩ := fits_two.1 hf
      refine (sub_short (by simp) (by simp)).2 ?_
      intro x hx
      simp only [List.mem_cons, List.not_mem_nil, or_false] at hx
      rcases hx with rfl | rfl
      · exact (d09 _).1 hc
      · exact (d09 _).1 hd
    · obtain ⟨c, d, e, rfl, hc, hd, he⟩ := fits_three.1 hf
      obtain ⟨i, -, h1, rfl⟩ := (range_cls 0 4 (by decide) (by decide) c).1 hc
      obtain ⟨j, -, h2, rfl⟩ := (range_cls 0 9 (by decide) (by decide) d).1 hd
      obtain ⟨k, -, h3, rfl⟩ := (range_cls 0 9 (by decide) (by decide) e).1 he
      exact (sub_three rfl).2 ⟨i, j, k, by omega, by omega, by omega, by omega, rfl⟩
    · obtain ⟨c, d, e, rfl, hc, hd, he⟩ := fits_three.1 hf
      obtain ⟨k, -, h3, rfl⟩ := (range_cls 0 9 (by decide) (by decide) e).1 he
      rw [(char_cls '5' c).1 hc, (char_cls '0' d).1 hd]
      exact (sub_three rfl).2 ⟨5, 0, k, by omega, by omega, by omega, by omega, rfl⟩
    · obtain ⟨c, d, e, rfl, hc, hd, he⟩ := fits_three.1 hf
      obtain ⟨k, -, h3, rfl⟩ := (range_cls 0 1 (by decide) (by decide) e).1 he
      rw [(char_cls '5' c).1 hc, (char_cls '1' d).1 hd]
      exact (sub_three rfl).2 ⟨5, 1, k, by omega, by omega, by omega, by omega, rfl⟩
  · intro h
    have h13 := h.2
    by_cases h3 : w.length = 3
    · obtain ⟨a, b, c, ha, hb, hc, hle, rfl⟩ := (sub_three h3).1 h
      by_cases h4 : a ≤ 4
      · exact ⟨_, Or.inr (Or.inr (Or.inl rfl)), fits_three.2 ⟨_, _, _, rfl, (range_cls 0 4 (by decide) (by decide) _).2 ⟨a, by omega, h4, rfl⟩,
          (range_cls 0 9 (by decide) (by decide) _).2 ⟨b, by omega, by omega, rfl⟩, (range_cls 0 9 (by decide) (by decide) _).2 ⟨c, by omega, by omega, rfl⟩⟩⟩
      · have : a = 5 := by omega
        subst this
        by_cases hb0 : b = 0
        · subst hb0
          exact ⟨_, Or.inr (Or.inr (Or.inr (Or.inl rfl))), fits_three.2 ⟨_, _, _, rfl, (char_cls '5' _).2 rfl, (char_cls '0' _).2 rfl,
            (range_cls 0 9 (by decide) (by decide) _).2 ⟨c, by omega, by omega, rfl⟩⟩⟩
        · have : b = 1 := by omega
          subst this
          exact ⟨_, Or.inr (Or.inr (Or.inr (Or.inr rfl))), fits_three.2 ⟨_, _, _, rfl, (char_cls '5' _).2 rfl, (char_cls '1' _).2 rfl,
            (range_cls 0 1 (by decide) (by decide) _).2 ⟨c, by omega, by omega, rfl⟩⟩⟩
    · match w, h with
      | [x], h => exact ⟨_, Or.inl rfl, fits_one.2 ⟨x, rfl, (d09 x).2 (h.1 x (by simp))⟩⟩
      | [x, y], h => exact ⟨_, Or.inr (Or.inl rfl), fits_two.2 ⟨x, y, rfl, (d09 x).2 (h.1 x (by simp)), (d09 y).2 (h.1 y (by simp))⟩⟩
      | [], h => exact absurd h.2.1 (by decide)
      | [_, _, _], _ => exact absurd rfl h3
      | _ :: _ :: _ :: _ :: _, h => exact absurd h.2.2.1 (by simp)

theorem imager_pattern : ∃ A B, (synOf outRows "nri_subbandList".toList).bind compile = some (false, bracketRe A B) ∧ A.tame = true ∧ B.tame = true
    ∧ A.seqs.all (fun x => !x.start && !x.stop) = true ∧ B.seqs.all (fun x => !x.start && !x.stop) = true
    ∧ A.seqs.map Seq.cs = imagerBands ∧ B.seqs.map Seq.cs = imagerBands.map fun cs => (false, [(',', ',')]) :: cs :=
  ⟨.grp 1 (.alt (.cat (dig '0' '9') .eps) (.alt (.cat (dig '0' '9') (.cat (dig '0' '9') .eps)) (.alt (.cat (dig '0' '4') (.cat (dig '0' '9') (.cat (dig '0' '9') .eps)))
      (.alt (.cat (lit '5') (.cat (lit '0') (.cat (dig '0' '9') .eps))) (.cat (lit '5') (.cat (lit '1') (.cat (dig '0' '1') .eps))))))),
    .grp 2 (.alt (.cat (lit ',') (.cat (dig '0' '9') .eps)) (.alt (.cat (lit ',') (.cat (dig '0' '9') (.cat (dig '0' '9') .eps)))
      (.alt (.cat (lit ',') (.cat (dig '0' '4') (.cat (dig '0' '9') (.cat (dig '0' '9') .eps))))
      (.alt (.cat (lit ',') (.cat (lit '5') (.cat (lit '0') (.cat (dig '0' '9') .eps)))) (.cat (lit ',') (.cat (lit '5') (.cat (lit '1') (.cat (dig '0' '1') .eps)))))))),
    by decide +kernel, by decide +kernel, by decide +kernel, by decide +kernel, by decide +kernel, by decide +kernel, by decide +kernel⟩

/-- **C169** The lists of sub-bands accepted for the imager: numbers of at most three digits, up to 511, and no range. -/
theorem imager_list_accepted (t : Str) : Accepts outRows "nri_subbandList".toList t ↔ ∃ l : List Str, l ≠ [] ∧ (∀ w ∈ l, Sub w) ∧ t = '[' :: join ',' l ++ [']'] := by
  obtain ⟨A, B, h1, h2, h3, h4, h5, h6, h7⟩ := imager_pattern
  have hA : Free false A (OneFits imagerBands) := by
    have := free_seqs h2 h4
    rw [h6] at this
    exact this
  rw [accepts_of h1 (bracket_plain (tame_plain A h2) (tame_plain B h3)), bracket_iff hA (free_comma h3 h5 h7)]
  constructor
  · rintro ⟨a, l, ha, hl, rfl⟩
    refine ⟨a :: l, by simp, fun w hw => ?_, rfl⟩
    rcases List.mem_cons.1 hw with rfl | hw
    · exact (imager_bands_iff _).1 ha
    · exact (imager_bands_iff _).1 (hl w hw)
  · rintro ⟨l, h0, hl, rfl⟩
    cases l with
    | nil => exact absurd rfl h0
    | cons a l => exact ⟨a, l, (imager_bands_iff _).2 (hl a (by simp)), fun x hx => (imager_bands_iff _).2 (hl x (by simp [hx])), rfl⟩

/-- **C169** A list which is accepted for the imager is read as sub-bands, from 0 to 511. -/
theorem imager_list_read (isTime : Str → Bool) (isFloat : IsFloat) (t : Str) (h : Accepts outRows "nri_subbandList".toList t) :
    ∃ l : List Nat, l ≠ [] ∧ (∀ k ∈ l, k ≤ 511) ∧ setItem isTime isFloat "nri_subbandList".toList t = .ok (.list (l.map fun k : Nat => Item.int k)) := by
  obtain ⟨l, h0, hl, rfl⟩ := (imager_list_accepted t).1 h
  refine ⟨l.map num, by simpa using h0, fun k hk => ?_, ?_⟩
  · obtain ⟨w, hw, rfl⟩ := List.mem_map.1 hk
    exact (hl w hw).2.2.2
  · rw [ant_read isTime isFloat _ l h0 (fun w hw => ⟨fun e => absurd (hl w hw).2.1 (by rw [e]; decide), (hl w hw).1⟩), List.map_map]
    rfl

/-- **C169** A list of numbers is accepted for the imager exactly if there is one at least and all are sub-bands. -/
theorem imager_numbers_accepted (l : List Nat) : Accepts outRows "nri_subbandList".toList (UVal.list (l.map natStr)).stored ↔ l ≠ [] ∧ ∀ n ∈ l, n ≤ 511 := by
  have hsub : ∀ n, Sub (natStr n) ↔ n ≤ 511 := by
    intro n
    constructor
    · intro h
      have := h.2.2.2
      rwa [ofDigits_natStr] at this
    · intro h
      refine ⟨natStr_digits n, List.length_pos_iff.2 (natStr_ne n), ?_, by rw [ofDigits_natStr]; exact h⟩
      have : ∀ n, n ≤ 511 → (natStr n).length ≤ 3 := by decide +kernel
      exact this n h
  rw [imager_list_accepted]
  show (∃ m : List Str, m ≠ [] ∧ (∀ w ∈ m, Sub w) ∧ '[' :: join ',' (l.map natStr) ++ [']'] = '[' :: join ',' m ++ [']']) ↔ _
  have hdig : ∀ n, ∀ c ∈ natStr n, c ≠ ',' := fun n c hc e => absurd (natStr_digits n c hc) (by rw [e]; decide)
  constructor
  · rintro ⟨m, h0, hm, e⟩
    have hl : l ≠ [] := by
      rintro rfl
      have e2 : join ',' ([] : List Str) = join ',' m := by simpa using e
      cases m with
      | nil => exact h0 rfl
      | cons a m =>
        rw [join_flat] at e2
        have e3 : ([] : Str) = a ++ (m.map fun x => ',' :: x).flatten := e2
        have ha : a = [] := (List.append_eq_nil_iff.1 e3.symm).1
        exact absurd (hm a (by simp)).2.1 (by rw [ha]; decide)
    have := same_fields (L := l.map natStr) (M := m) (by simpa using hl) h0
      (fun w hw hc => by obtain ⟨k, -, rfl⟩ := List.mem_map.1 hw; exact hdig k _ hc rfl) (fun w hw hc => absurd ((hm w hw).1 _ hc) (by decide)) e
    subst this
    exact ⟨hl, fun n hn => (hsub n).1 (hm _ (List.mem_map.2 ⟨n, hn, rfl⟩))⟩
  · rintro ⟨hl, h⟩
    refine ⟨l.map natStr, by simpa using hl, fun w hw => ?_, rfl⟩
    obtain ⟨n, hn, rfl⟩ := List.mem_map.1 hw
    exact (hsub n).2 (h n hn)

/-- **C169** fails for the imager: the same sub-band may come twice. -/
theorem imager_twice_violated (n : Nat) (h : n ≤ 511) : Accepts outRows "nri_subbandList".toList (UVal.list ([n, n].map natStr)).stored :=
  (imager_numbers_accepted [n, n]).2 ⟨by simp, by simpa using h⟩

/-- **C169** The lists of sub-bands from 0 to 15 are accepted for the cross-correlations. -/
theorem xst_numbers_partial (l : List Nat) (h0 : l ≠ []) (h : ∀ n ∈ l, n ≤ 15) : Accepts outRows "xst_sbList".toList (UVal.list (l.map natStr)).stored := by
  cases l with
  | nil => exact absurd rfl h0
  | cons n l => exact (xst_list_accepted _).2 ⟨n, l, (h n (by simp)).trans (by decide), fun k hk => h k (by simp [hk]), rfl⟩

/-- **C169** fails for ranges: accepted for the sub-bands of a beam, they are refused for those of the imager. -/
theorem imager_range_violated (a b : Nat) : ¬Accepts outRows "nri_subbandList".toList (Idx.textAll [.range a b]) := by
  intro h
  obtain ⟨l, h0, hl, e⟩ := (imager_list_accepted _).1 h
  have hm : '.' ∈ '[' :: join ',' l ++ [']'] := by
    rw [← e]
    show '.' ∈ '[' :: join ',' [Idx.text (.range a b)] ++ [']']
    simp [join, Idx.text]
  have hm2 : '.' ∈ join ',' l := by simpa using hm
  rcases join_chars ',' l '.' hm2 with h | ⟨s, hs, hc⟩
  · exact absurd h (by decide)
  · exact absurd ((hl s hs).1 _ hc) (by decide)

/-! ## Receivers -/

/-- A word of small letters. -/
def SmallWord (w : Str) : Prop := w ≠ [] ∧ ∀ c ∈ w, 'a' ≤ c ∧ c ≤ 'z'

theorem small_cls (c : Char) : inCls false false [('a', 'z')] c = true ↔ 'a' ≤ c ∧ c ≤ 'z' := by
  unfold inCls
  simp only [List.any_cons, List.any_nil, Bool.or_false, Bool.false_and, Bool.false_bne, Bool.and_eq_true, decide_eq_true_eq]

/-- **C169** The lists of receivers accepted: words of small letters, without blanks. -/
theorem receivers_accepted (t : Str) : Accepts outRows "hd_receivers".toList t ↔ ∃ l : List Str, l ≠ [] ∧ (∀ w ∈ l, SmallWord w) ∧ t = '[' :: join ',' l ++ [']'] := by
  have hp : (synOf outRows "hd_receivers".toList).bind compile = some (false, bracketRe (.rep 1 none (dig 'a' 'z')) (.grp 1 (.cat (lit ',') (.cat (.rep 1 none (dig 'a' 'z')) .eps)))) := by
    decide +kernel
  have hA : Free false (.rep 1 none (dig 'a' 'z')) SmallWord := by
    intro p w rest
    rw [rep_cls]
    unfold SmallWord
    constructor
    · rintro ⟨h1, -, h2⟩
      exact ⟨List.length_pos_iff.1 h1, fun c hc => (small_cls c).1 (h2 c hc)⟩
    · rintro ⟨h1, h2⟩
      exact ⟨List.length_pos_iff.2 h1, fun h e => (by cases e), fun c hc => (small_cls c).2 (h2 c hc)⟩
  have hB : Free false (.grp 1 (.cat (lit ',') (.cat (.rep 1 none (dig 'a' 'z')) .eps))) fun w => ∃ v, w = ',' :: v ∧ SmallWord v := by
    intro p w rest
    rw [reads_grp, cat_cls]
    constructor
    · rintro ⟨c, v, rfl, hc, hv⟩
      exact ⟨v, by rw [(char_cls _ _).1 hc], (hA _ _ _).1 (cat_ends.1 hv)⟩
    · rintro ⟨v, rfl, hv⟩
      exact ⟨',', v, rfl, (char_cls _ _).2 rfl, cat_ends.2 ((hA _ _ _).2 hv)⟩
  rw [accepts_of hp (by decide), bracket_iff hA hB]
  constructor
  · rintro ⟨a, l, ha, hl, rfl⟩
    exact ⟨a :: l, by simp, List.forall_mem_cons.2 ⟨ha, hl⟩, rfl⟩
  · rintro ⟨l, h0, hl, rfl⟩
    cases l with
    | nil => exact absurd rfl h0
    | cons a l => exact ⟨a, l, hl a (by simp), fun x hx => hl x (by simp [hx]), rfl⟩

/-- **C169** fails for receivers: any word of small letters is accepted. -/
theorem receivers_any_violated (w : Str) (h : SmallWord w) : Accepts outRows "hd_receivers".toList ('[' :: w ++ [']']) :=
  (receivers_accepted _).2 ⟨[w], by simp, by simpa using h, rfl⟩

/-- **C169** A list with a blank after a comma is refused. -/
theorem receivers_blank_refused (a b : Str) : ¬Accepts outRows "hd_receivers".toList ('[' :: a ++ ',' :: ' ' :: b ++ [']']) := by
  intro h
  obtain ⟨l, h0, hl, e⟩ := (receivers_accepted _).1 h
  have hm : ' ' ∈ '[' :: join ',' l ++ [']'] := by rw [← e]; simp
  have hm2 : ' ' ∈ join ',' l := by simpa using hm
  rcases join_chars ',' l ' ' hm2 with h | ⟨s, hs, hc⟩
  · exact absurd h (by decide)
  · exact absurd ((hl s hs).2 _ hc) (by decide)

example : Accepts outRows "hd_receivers".toList "[undysputed,nickel]".toList :=
  (receivers_accepted _).2 ⟨["undysputed".toList, "nickel".toList], by decide, by
    intro w hw
    simp only [List.mem_cons, List.not_mem_nil, or_false] at hw
    rcases hw with rfl | rfl
    · exact ⟨by decide, fun c hc => of_decide_eq_true (List.all_eq_true.1 (show ("undysputed".toList.all fun c => decide ('a' ≤ c ∧ c ≤ 'z')) = true by decide) c hc)⟩
    · exact ⟨by decide, fun c hc => of_decide_eq_true (List.all_eq_true.1 (show ("nickel".toList.all fun c => decide ('a' ≤ c ∧ c ≤ 'z')) = true by decide) c hc)⟩, by decide +kernel⟩

example : Accepts outRows "xst_sbList".toList (UVal.list ((List.range 16).map natStr)).stored := xst_numbers_partial _ (by decide) (by decide)

example : SmallWord "undisputed".toList ∧ "undisputed".toList ≠ "undysputed".toList :=
  ⟨⟨by decide, fun c hc => of_decide_eq_true (List.all_eq_true.1 (show ("undisputed".toList.all fun c => decide ('a' ≤ c ∧ c ≤ 'z')) = true by decide) c hc)⟩, by decide⟩

example : Accepts outRows "nri_subbandList".toList (UVal.list ([50, 51, 410].map natStr)).stored := (imager_numbers_accepted _).2 ⟨by decide, by decide⟩

end Verif.Parset
