import Verif.Contam.Props
import Verif.Contam.Sources

/-!
# C185: the sources of a contamination map are where their names say
-/

namespace Verif.Contam

/-! ## What names mean -/

/-- Where a source is: a body of the Solar System moves with time, `altaz:(azimuth, altitude)` is a place of the local sky, other names are resolved once. -/
inductive Located (L : Lib) : Txt → (Nat → Pos) → Prop
  | body (s b : Txt) : b ∈ bodies → s.map Char.toUpper = b → Located L s (L.body s)
  | place (p t a b : Txt) (x y : ℚ) : p.map Char.toLower = "altaz:".toList → (t.filter fun c => !(c == '(' || c == ')')) = a ++ ',' :: b → ',' ∉ a → ',' ∉ b →
      L.float a = some x → L.float b = some y → -90 ≤ y → y ≤ 90 → Located L (p ++ t) (L.fromLocal x y)
  | resolved (s : Txt) (c : Pos) : s.map Char.toUpper ∉ bodies → (∀ p t : Txt, s = p ++ t → p.map Char.toLower ≠ "altaz:".toList) → L.named s = some c →
      Located L s fun _ => c

/-! ## Helpers -/

theorem unbracket_eq (s : Txt) : unbracket s = s.filter fun c => !(c == '(' || c == ')') := by
  unfold unbracket
  rw [List.filter_filter]
  congr 1
  funext c
  by_cases h1 : c = '(' <;> by_cases h2 : c = ')' <;> simp [h1, h2]

theorem twoParts_ok (s a b : Txt) : twoParts s = .ok (a, b) ↔ s = a ++ ',' :: b ∧ ',' ∉ a ∧ ',' ∉ b := by
  have key : ∀ (s : Txt), s.count ',' = 1 →
      s = s.takeWhile (fun c => decide (c ≠ ',')) ++ ',' :: (s.dropWhile fun c => decide (c ≠ ',')).drop 1 ∧
        ',' ∉ s.takeWhile (fun c => decide (c ≠ ',')) ∧ ',' ∉ (s.dropWhile fun c => decide (c ≠ ',')).drop 1 := by
    intro s
    induction s with
    | nil => intro h; simp at h
    | cons c l ih =>
      intro h
      by_cases hc : c = ','
      · subst hc
        simp at h
        simp
        exact List.count_eq_zero.1 h
      · rw [List.count_cons_of_ne (fun e => hc e)] at h
        obtain ⟨h1, h2, h3⟩ := ih h
        simp only [List.takeWhile_cons, List.dropWhile_cons, decide_eq_true hc, if_pos, ne_eq]
        refine ⟨?_, ?_, h3⟩
        · rw [List.cons_append, ← h1]
        · simp only [List.mem_cons, not_or]
          exact ⟨fun e => hc e.symm, h2⟩
  have key2 : ∀ (a b : Txt), ',' ∉ a → (a ++ ',' :: b).takeWhile (fun c => decide (c ≠ ',')) = a ∧
      ((a ++ ',' :: b).dropWhile fun c => decide (c ≠ ',')).drop 1 = b := by
    intro a b
    induction a with
    | nil => intro _; simp
    | cons c l ih =>
      intro h
      rw [List.mem_cons, not_or] at h
      obtain ⟨h1, h2⟩ := ih h.2
      have hc : c ≠ ',' := fun e => h.1 e.symm
      simp only [List.cons_append, List.takeWhile_cons, List.dropWhile_cons, decide_eq_true hc, if_pos]
      exact ⟨by rw [h1], h2⟩
  unfold twoParts
  constructor
  · intro h
    by_cases hs : s.count ',' = 1
    · rw [if_pos hs] at h
      have e := Except.ok.inj h
      obtain ⟨h1, h2, h3⟩ := key s hs
      have ea : s.takeWhile (fun c => decide (c ≠ ',')) = a := congrArg Prod.fst e
      have eb : (s.dropWhile fun c => decide (c ≠ ',')).drop 1 = b := congrArg Prod.snd e
      rw [ea, eb] at h1
      rw [ea] at h2
      rw [eb] at h3
      exact ⟨h1, h2, h3⟩
    · rw [if_neg hs] at h
      exact (nomatch h)
  · rintro ⟨rfl, ha, hb⟩
    have hs : (a ++ ',' :: b).count ',' = 1 := by
      rw [List.count_append, List.count_cons_self, List.count_eq_zero.2 ha, List.count_eq_zero.2 hb]
    rw [if_pos hs, (key2 a b ha).1, (key2 a b ha).2]

theorem readNum_ok (L : Lib) (s : Txt) (x : ℚ) : readNum L s = .ok x ↔ L.float s = some x := by
  unfold readNum
  cases L.float s with
  | none => exact ⟨fun h => (nomatch h), fun h => (nomatch h)⟩
  | some v => exact ⟨fun h => congrArg some (Except.ok.inj h), fun h => congrArg Except.ok (Option.some.inj h)⟩

theorem latitude_ok (y z : ℚ) : latitude y = .ok z ↔ z = y ∧ -90 ≤ y ∧ y ≤ 90 := by
  unfold latitude
  split_ifs with h
  · exact ⟨fun e => ⟨(Except.ok.inj e).symm, h⟩, fun e => congrArg Except.ok e.1.symm⟩
  · exact ⟨fun e => (nomatch e), fun e => absurd e.2 h⟩

theorem prefix_iff (s : Txt) : "altaz:".toList.isPrefixOf (s.map Char.toLower) = true ↔ ∃ p t : Txt, s = p ++ t ∧ p.map Char.toLower = "altaz:".toList := by
  rw [List.isPrefixOf_iff_prefix]
  constructor
  · rintro ⟨r, hr⟩
    obtain ⟨p, t, e1, e2, _⟩ := List.map_eq_append_iff.1 hr.symm
    exact ⟨p, t, e1, e2⟩
  · rintro ⟨p, t, rfl, hp⟩
    exact ⟨t.map Char.toLower, by rw [List.map_append, hp]⟩

theorem colon_lower {c : Char} (h : c.toLower = ':') : c = ':' := by
  unfold Char.toLower at h
  split at h
  · rename_i hc
    exfalso
    have h1 := UInt32.le_iff_toNat_le.mp hc.1
    have e1 : 'A'.val.toNat = 65 := rfl
    have e3 : (c.val + ('a'.val - 'A'.val)).toNat = c.val.toNat + 32 := by
      rw [UInt32.toNat_add]
      have : ('a'.val - 'A'.val).toNat = 32 := rfl
      have h2 := UInt32.le_iff_toNat_le.mp hc.2
      have e2 : 'Z'.val.toNat = 90 := rfl
      rw [this]; omega
    have e4 : (c.val + ('a'.val - 'A'.val)).toNat = 58 := by
      have := congrArg (fun d : Char => d.val.toNat) h
      exact this
    omega
  · exact h

theorem prefix_not_body (p t : Txt) (hp : p.map Char.toLower = "altaz:".toList) : (p ++ t).map Char.toUpper ∉ bodies := by
  intro h
  have hm : (':' : Char) ∈ p.map Char.toLower := by rw [hp]; decide
  obtain ⟨c, hc, ec⟩ := List.mem_map.1 hm
  have ec := colon_lower ec
  subst ec
  have hm : (':' : Char) ∈ (p ++ t).map Char.toUpper := List.mem_map.2 ⟨':', List.mem_append_left _ hc, by decide⟩
  have hb : ∀ w ∈ bodies, (':' : Char) ∉ w := by decide
  exact hb _ h hm

theorem localPos_ok (L : Lib) (p t : Txt) (hp : p.map Char.toLower = "altaz:".toList) (q : Nat → Pos) :
    localPos L (p ++ t) = .ok q ↔ ∃ (a b : Txt) (x y : ℚ), (t.filter fun c => !(c == '(' || c == ')')) = a ++ ',' :: b ∧ ',' ∉ a ∧ ',' ∉ b ∧
      L.float a = some x ∧ L.float b = some y ∧ -90 ≤ y ∧ y ≤ 90 ∧ q = L.fromLocal x y := by
  have hlen : p.length = 6 := by
    have := congrArg List.length hp
    simpa using this
  have hd : (p ++ t).drop 6 = t := by rw [← hlen, List.drop_left]
  unfold localPos
  rw [hd, unbracket_eq]
  constructor
  · intro h
    obtain ⟨⟨a, b⟩, h1, h⟩ := bindC h
    obtain ⟨x, h2, h⟩ := bindC h
    obtain ⟨y, h3, h⟩ := bindC h
    obtain ⟨z, h4, h5⟩ := mapC h
    obtain ⟨e, ha, hb⟩ := (twoParts_ok _ _ _).1 h1
    obtain ⟨rfl, hlo, hhi⟩ := (latitude_ok _ _).1 h4
    exact ⟨a, b, x, z, e, ha, hb, (readNum_ok _ _ _).1 h2, (readNum_ok _ _ _).1 h3, hlo, hhi, h5.symm⟩
  · rintro ⟨a, b, x, y, e, ha, hb, hx, hy, hlo, hhi, rfl⟩
    rw [(twoParts_ok _ _ _).2 ⟨e, ha, hb⟩]
    show ((readNum L a).bind _) = _
    rw [(readNum_ok _ _ _).2 hx]
    show ((readNum L b).bind _) = _
    rw [(readNum_ok _ _ _).2 hy]
    show ((latitude y).map _) = _
    rw [(latitude_ok _ _).2 ⟨rfl, hlo, hhi⟩]
    rfl

theorem localPos_err (L : Lib) (s : Txt) : (∃ q, localPos L s = .ok q) ∨ localPos L s = .error .valueError := by
  unfold localPos
  cases h1 : twoParts (unbracket (s.drop 6)) with
  | error e =>
    unfold twoParts at h1
    split_ifs at h1
    exact Or.inr (congrArg Except.error (Except.error.inj h1).symm)
  | ok p =>
    have rn : ∀ w : Txt, (∃ x, readNum L w = .ok x) ∨ readNum L w = .error .valueError := by
      intro w
      unfold readNum
      cases L.float w with
      | none => exact Or.inr rfl
      | some x => exact Or.inl ⟨x, rfl⟩
    show (∃ q, ((readNum L p.1).bind _) = .ok q) ∨ ((readNum L p.1).bind _) = _
    rcases rn p.1 with ⟨x, hx⟩ | hx
    · rw [hx]
      show (∃ q, ((readNum L p.2).bind _) = .ok q) ∨ ((readNum L p.2).bind _) = _
      rcases rn p.2 with ⟨y, hy⟩ | hy
      · rw [hy]
        show (∃ q, ((latitude y).map _) = .ok q) ∨ ((latitude y).map _) = _
        by_cases hy : -90 ≤ y ∧ y ≤ 90
        · rw [show latitude y = .ok y from if_pos hy]
          exact Or.inl ⟨_, rfl⟩
        · rw [show latitude y = .error .valueError from if_neg hy]
          exact Or.inr rfl
      · rw [hy]
        exact Or.inr rfl
    · rw [hx]
      exact Or.inr rfl

theorem sourcePos_ok (L : Lib) (s : Txt) (q : Nat → Pos) : sourcePos L s = .ok q ↔ Located L s q := by
  unfold sourcePos
  by_cases hb : s.map Char.toUpper ∈ bodies
  · rw [if_pos hb]
    constructor
    · intro h
      have e := Except.ok.inj h
      subst e
      exact .body s _ hb rfl
    · intro h
      cases h with
      | body _ b _ _ => rfl
      | place p t _ _ _ _ hp _ => exact absurd hb (prefix_not_body p t hp)
      | resolved _ _ h1 _ _ => exact absurd hb h1
  · rw [if_neg hb]
    by_cases hp : "altaz:".toList.isPrefixOf (s.map Char.toLower) = true
    · rw [if_pos hp]
      obtain ⟨p, t, rfl, hp'⟩ := (prefix_iff _).1 hp
      clear hp
      rename' hp' => hp
      rw [localPos_ok L p t hp]
      constructor
      · rintro ⟨a, b, x, y, e, ha, hb, hx, hy, hlo, hhi, rfl⟩
        exact .place p t a b x y hp e ha hb hx hy hlo hhi
      · intro h
        generalize hs : p ++ t = s at h hb
        cases h with
        | body _ b h1 h2 => exact absurd (h2 ▸ h1) hb
        | place p' t' a b x y hp' e ha hbb hx hy hlo hhi =>
          have hl : p.length = p'.length := by
            have h1 := congrArg List.length hp
            have h2 := congrArg List.length hp'
            rw [List.length_map] at h1 h2
            exact h1.trans h2.symm
          obtain ⟨rfl, rfl⟩ := List.append_inj hs hl
          exact ⟨a, b, x, y, e, ha, hbb, hx, hy, hlo, hhi, rfl⟩
        | resolved _ _ _ h2 _ => exact absurd hp (h2 p t hs.symm)
    · rw [if_neg hp]
      have hn : ∀ p t : Txt, s = p ++ t → p.map Char.toLower ≠ "altaz:".toList := fun p t e h => hp ((prefix_iff s).2 ⟨p, t, e, h⟩)
      constructor
      · intro h
        cases hv : L.named s with
        | none => rw [hv] at h; exact (nomatch h)
        | some c =>
          rw [hv] at h
          have e := Except.ok.inj h
          subst e
          exact .resolved s c hb hn hv
      · intro h
        cases h with
        | body _ b h1 h2 => exact absurd (h2 ▸ h1) hb
        | place p t _ _ _ _ hp' _ => exact absurd hp' (hn p t rfl)
        | resolved _ c _ _ hv => rw [hv]; rfl

/-! ## Theorems -/

/-- **C185**: positions are found exactly when every source has a place, and they are the places of the sources, in their order. -/
theorem positions_exact (L : Lib) : ∀ (names : List Txt) (ps : List (Nat → Pos)), skyCoords L names = .ok ps ↔ List.Forall₂ (Located L) names ps
  | [], ps => by
    rw [List.forall₂_nil_left_iff]
    exact ⟨fun h => (Except.ok.inj h).symm, fun h => congrArg Except.ok h.symm⟩
  | s :: l, ps => by
    show ((sourcePos L s).bind fun p => (skyCoords L l).map fun r => p :: r) = .ok ps ↔ _
    constructor
    · intro h
      obtain ⟨p, h1, h⟩ := bindC h
      obtain ⟨r, h2, rfl⟩ := mapC h
      exact .cons ((sourcePos_ok L s p).1 h1) ((positions_exact L l r).1 h2)
    · intro h
      cases h with
      | cons h1 h2 =>
        rw [(sourcePos_ok L s _).2 h1]
        show ((skyCoords L l).map _) = _
        rw [(positions_exact L l _).2 h2]
        rfl

/-- **C185**: a name has one place at most. -/
theorem located_unique (L : Lib) (s : Txt) (p q : Nat → Pos) (hp : Located L s p) (hq : Located L s q) : p = q :=
  Except.ok.inj (((sourcePos_ok L s p).2 hp).symm.trans ((sourcePos_ok L s q).2 hq))

/-- **C185**: the first source without a place stops everything: with `ValueError` for a place of the local sky, with the exception of the resolution for a name. -/
theorem refused_exact (L : Lib) (l r : List Txt) (ps : List (Nat → Pos)) (s : Txt) (hl : List.Forall₂ (Located L) l ps) (hs : ∀ q, ¬Located L s q) :
    ∃ e, skyCoords L (l ++ s :: r) = .error e ∧ (e = .valueError ↔ ∃ p t : Txt, s = p ++ t ∧ p.map Char.toLower = "altaz:".toList) ∧
      (e = .valueError ∨ e = .exception) := by
  have hb : s.map Char.toUpper ∉ bodies := fun h => hs _ (.body s _ h rfl)
  have e0 : ∃ e, sourcePos L s = .error e ∧ (e = .valueError ↔ ∃ p t : Txt, s = p ++ t ∧ p.map Char.toLower = "altaz:".toList) ∧
      (e = .valueError ∨ e = .exception) := by
    have hne : ∀ q, sourcePos L s ≠ .ok q := fun q h => hs q ((sourcePos_ok L s q).1 h)
    unfold sourcePos at hne ⊢
    rw [if_neg hb] at hne ⊢
    by_cases hp : "altaz:".toList.isPrefixOf (s.map Char.toLower) = true
    · rw [if_pos hp] at hne ⊢
      refine ⟨.valueError, ?_, ⟨fun _ => (prefix_iff s).1 hp, fun _ => rfl⟩, Or.inl rfl⟩
      rcases localPos_err L s with ⟨q, h⟩ | h
      · exact absurd h (hne q)
      · exact h
    · rw [if_neg hp] at hne ⊢
      cases hv : L.named s with
      | none => exact ⟨.exception, rfl, ⟨fun h => (nomatch h), fun h => absurd ((prefix_iff s).2 h) hp⟩, Or.inr rfl⟩
      | some c => rw [hv] at hne; exact absurd rfl (hne _)
  obtain ⟨e, e0, he⟩ := e0
  refine ⟨e, ?_, he⟩
  induction hl with
  | nil =>
    show ((sourcePos L s).bind _) = _
    rw [e0]
    rfl
  | cons h1 _ ih =>
    rw [List.cons_append]
    show ((sourcePos L _).bind fun p => (skyCoords L _).map fun r => p :: r) = _
    rw [(sourcePos_ok L _ _).2 h1, ih]
    rfl

/-- **C185**: a source which is neither a body of the Solar System nor a place of the local sky does not move. -/
theorem named_still (L : Lib) (s : Txt) (q : Nat → Pos) (h : Located L s q) (hb : s.map Char.toUpper ∉ bodies)
    (hp : ∀ p t : Txt, s = p ++ t → p.map Char.toLower ≠ "altaz:".toList) (t u : Nat) : q t = q u := by
  cases h with
  | body _ b h1 h2 => exact absurd (h2 ▸ h1) hb
  | place p t _ _ _ _ hp' _ => exact absurd hp' (hp p t rfl)
  | resolved _ c _ _ _ => rfl

/-- **C185**: from names to the map: the number of sources in the lobes at a frequency and a time is that of the names whose place at this time is in the lobes. -/
theorem names_counted (L : Lib) (cellOf : Pos → Nat) (b : Beam) (rel : ℚ) (names : List Txt) (ps : List (Nat → Pos)) (h : List.Forall₂ (Located L) names ps)
    (hT : b.setup.time ≠ []) (hn : b.setup.nPix ≠ 0) :
    ∃ b' out, computeMoc b rel = .ok b' ∧ (namesInLobes L cellOf b' names).2 = .ok out ∧ out.time = b.setup.time ∧ out.freq = b.setup.freq ∧
      ∀ f t, out.value f t =
        some (((List.range names.length).filter fun i => (ps[i]?).any fun q => decide (cellOf (q t) ∈ lobeCells b rel f t)).length : ℚ) := by
  obtain ⟨b', out, h1, h2, h3, h4, h5⟩ := sources_counted b rel (ps.map fun (p : Nat → Pos) => fun (t : Nat) => cellOf (p t)) hT hn
  refine ⟨b', out, h1, ?_, h3, h4, fun f t => ?_⟩
  · unfold namesInLobes
    rw [(positions_exact L names ps).2 h]
    exact h2
  · rw [h5 f t, List.length_map, h.length_eq]
    congr 2
    congr 1
    apply List.filter_congr
    intro i hi
    have hi := List.mem_range.1 hi
    rw [List.getD_eq_getElem?_getD, List.getElem?_map, List.getElem?_eq_getElem hi]
    rfl

/-- **C185**: from names to weights: the fraction of the thresholds for which some name has its place in the lobes. -/
theorem names_weighted (L : Lib) (cellOf : Pos → Nat) (b : Beam) (names : List Txt) (ps : List (Nat → Pos)) (h : List.Forall₂ (Located L) names ps)
    (thrs : List ℚ) (ht : thrs ≠ []) (hT : b.setup.time ≠ []) (hn : b.setup.nPix ≠ 0) :
    ∃ b' out, weightsOfNames L cellOf b names thrs = .ok (b', out) ∧ out.time = b.setup.time ∧ out.freq = b.setup.freq ∧ ∀ f t, ∃ w, out.value f t = some w ∧
      w * thrs.length = ((thrs.filter fun r => ps.any fun q => decide (cellOf (q t) ∈ lobeCells b r f t)).length : ℚ) := by
  obtain ⟨b', out, h1, h2, h3, h4⟩ := weights_exact b (ps.map fun (p : Nat → Pos) => fun (t : Nat) => cellOf (p t)) thrs ht hT hn
  refine ⟨b', out, ?_, h2, h3, fun f t => ?_⟩
  · unfold weightsOfNames
    rw [(positions_exact L names ps).2 h]
    exact h1
  · obtain ⟨w, e1, e2, _⟩ := h4 f t
    refine ⟨w, e1, e2.trans ?_⟩
    simp only [List.any_map]
    rfl

/-- **C185**: the Sun, the Moon and the seven other planets, in any mixture of cases, are bodies of the Solar System. -/
theorem bodies_exact (L : Lib) (s : Txt) (h : s.map Char.toUpper ∈ ["SUN".toList, "MOON".toList, "MERCURY".toList, "VENUS".toList, "MARS".toList, "JUPITER".toList,
    "SATURN".toList, "URANUS".toList, "NEPTUNE".toList]) : skyCoords L [s] = .ok [L.body s] :=
  (positions_exact L _ _).2 (.cons (.body s _ h rfl) .nil)

/-- **C185**: a refused name leaves the lobes and what is shown as they were. -/
theorem names_refused (L : Lib) (cellOf : Pos → Nat) (b : Beam) (names : List Txt) (e : Err) (h : skyCoords L names = .error e) (thrs : List ℚ) :
    namesInLobes L cellOf b names = (b, .error e) ∧ weightsOfNames L cellOf b names thrs = .error e := by
  unfold namesInLobes weightsOfNames
  rw [h]
  exact ⟨rfl, rfl⟩

/-! ## Cases -/

/-- Other packages, for the examples. -/
def exLib : Lib := ⟨fun _ t => (10 + t, 5), fun az alt t => (az + 15 * t, alt), fun s => if s = "Cyg X-3".toList then some (308, 41) else none,
  fun s => if s = "180".toList then some 180 else if s = "45".toList then some 45 else if s = "95".toList then some 95 else none⟩

example : List.Forall₂ (Located exLib) ["sUn".toList, "AltAz:(180,45)".toList, "altaz:18(0,4)5".toList, "Cyg X-3".toList]
    [exLib.body "sUn".toList, exLib.fromLocal 180 45, exLib.fromLocal 180 45, fun _ => (308, 41)] :=
  .cons (.body _ "SUN".toList (by decide) (by decide))
    (.cons (.place "AltAz:".toList "(180,45)".toList "180".toList "45".toList 180 45 (by decide) (by decide) (by decide) (by decide) (by decide) (by decide)
      (by norm_num) (by norm_num))
    (.cons (.place "altaz:".toList "18(0,4)5".toList "180".toList "45".toList 180 45 (by decide) (by decide) (by decide) (by decide) (by decide) (by decide)
      (by norm_num) (by norm_num))
    (.cons (.resolved _ (308, 41) (by decide) (fun p t e h => absurd ((prefix_iff _).2 ⟨p, t, e, h⟩) (by decide)) (by decide)) .nil)))

example : sourcePos exLib "altaz:(180,95)".toList = .error .valueError := by
  rcases localPos_err exLib "altaz:(180,95)".toList with ⟨q, h⟩ | h
  · exfalso
    obtain ⟨a, b, x, y, e, ha, hb, _, hy, _, hhi, _⟩ := (localPos_ok exLib "altaz:".toList "(180,95)".toList (by decide) q).1 h
    have e2 := (twoParts_ok _ a b).2 ⟨e, ha, hb⟩
    have e3 := (twoParts_ok ("(180,95)".toList.filter fun c => !(c == '(' || c == ')')) "180".toList "95".toList).2 (by decide)
    have e4 := Except.ok.inj (e2.symm.trans e3)
    have e5 : b = "95".toList := congrArg Prod.snd e4
    subst e5
    have e6 : exLib.float "95".toList = some 95 := by decide
    rw [e6] at hy
    have := Option.some.inj hy
    subst this
    norm_num at hhi
  · exact h

end Verif.Contam
