import Verif.Parset.Load
import Verif.Parset.PropsStored

/-!
# Values copied from a parset file to a user parset and read again (property C101)
-/

namespace Verif.Parset

/-- What is known of times: `isTime` tells which texts are times and `isot` writes a time (year-month-dayThours:minutes:seconds, without zone). -/
structure IsoLike (isTime : Str → Bool) (isot : Str → Str) : Prop where
  chars : ∀ s, isTime s = true → ∀ c ∈ isot s, c.isDigit = true ∨ c = '-' ∨ c = ':' ∨ c = 'T'
  colon : ∀ s, isTime s = true → ':' ∈ isot s
  again : ∀ s, isTime s = true → isTime (isot s) = true ∧ isot (isot s) = isot s
  zulu : ∀ s, isTime s = true → isTime (isot s ++ ['Z']) = true ∧ isot (isot s ++ ['Z']) = isot s

/-- Equal elements of lists: times are compared by what is written for them, to the second. -/
def Item.Same (isot : Str → Str) : Item → Item → Prop
  | .time s, .time t => isot s = isot t
  | x, y => x = y

/-- Equal values: times are compared by what is written for them, to the second. -/
def PVal.Same (isot : Str → Str) : PVal → PVal → Prop
  | .time s, .time t => isot s = isot t
  | .list l, .list m => List.Forall₂ (Item.Same isot) l m
  | x, y => x = y

theorem item_same_refl (isot : Str → Str) (x : Item) : x.Same isot x := by cases x <;> rfl

theorem same_refl (isot : Str → Str) (v : PVal) : v.Same isot v := by
  cases v with
  | list l => show List.Forall₂ _ l l; exact List.forall₂_same.mpr fun x _ => item_same_refl isot x
  | _ => rfl

/-! ## Text lemmas -/

theorem clean_clean (t : Str) : clean (clean t) = clean t := by
  unfold clean; rw [List.filter_filter]; congr 1; funext c; rw [Bool.and_self]

theorem clean_no {t : Str} : '\n' ∉ clean t ∧ '"' ∉ clean t := by
  unfold clean; constructor <;> · intro h; have := (List.mem_filter.mp h).2; revert this; decide

/-- Only the text without line ends and quotes counts. -/
theorem setItem_clean (isTime : Str → Bool) (isFloat : IsFloat) (k t : Str) : setItem isTime isFloat k (clean t) = setItem isTime isFloat k t := by
  unfold setItem; simp only [clean_clean]

theorem toLower_other {c x : Char} (hx : ¬('a'.val ≤ x.val ∧ x.val ≤ 'z'.val)) (h : c.toLower = x) : c = x := by
  unfold Char.toLower at h
  split at h
  · rename_i hc
    exfalso; apply hx
    subst h
    have h1 := UInt32.le_iff_toNat_le.mp hc.1
    have h2 := UInt32.le_iff_toNat_le.mp hc.2
    simp only [UInt32.le_iff_toNat_le]
    have h3 : (65 : UInt32).toNat = 65 := rfl
    have h4 : (90 : UInt32).toNat = 90 := rfl
    have h5 : 'a'.val.toNat = 97 := rfl
    have h6 : 'z'.val.toNat = 122 := rfl
    have e1 : 'A'.val.toNat = 65 := rfl
    have e2 : 'Z'.val.toNat = 90 := rfl
    have e3 : (c.val + ('a'.val - 'A'.val)).toNat = c.val.toNat + 32 := by
      rw [UInt32.toNat_add]
      have : ('a'.val - 'A'.val).toNat = 32 := rfl
      rw [this]; omega
    rw [e3]; omega
  · exact h

theorem toLower_toLower (c : Char) : c.toLower.toLower = c.toLower := by
  by_cases h : 'a'.val ≤ c.toLower.val ∧ c.toLower.val ≤ 'z'.val
  · generalize c.toLower = d at *
    unfold Char.toLower
    rw [dif_neg]
    rintro ⟨-, h2⟩
    have := UInt32.le_iff_toNat_le.mp h.1
    have h2 := UInt32.le_iff_toNat_le.mp h2
    have e1 : 'a'.val.toNat = 97 := rfl
    have e2 : 'Z'.val.toNat = 90 := rfl
    omega
  · have := toLower_other h rfl
    rw [← this, ← this]

theorem lower_twice (s : Str) : lower (lower s) = lower s := by
  unfold lower; rw [List.map_map]; apply List.map_congr_left; intro c _; exact toLower_toLower c

theorem mem_lower {x : Char} (hx : ¬('a'.val ≤ x.val ∧ x.val ≤ 'z'.val)) {s : Str} (h : x ∈ lower s) : x ∈ s := by
  obtain ⟨c, hc, e⟩ := List.mem_map.mp h
  rw [← toLower_other hx e]; exact hc

theorem splitOn_notMem (c : Char) : ∀ (s : Str), ∀ w ∈ splitOn c s, c ∉ w
  | [], w, h => by rw [List.mem_singleton.mp h]; simp
  | x :: s, w, h => by
    unfold splitOn at h
    by_cases hx : x = c
    · rw [if_pos hx] at h
      rcases List.mem_cons.mp h with h | h
      · rw [h]; simp
      · exact splitOn_notMem c s w h
    · rw [if_neg hx] at h
      have ih := splitOn_notMem c s
      cases hs : splitOn c s with
      | nil => rw [hs] at h; cases h
      | cons y l =>
        rw [hs] at h ih
        rcases List.mem_cons.mp h with h | h
        · rw [h]; intro hm
          rcases List.mem_cons.mp hm with hm | hm
          · exact hx hm.symm
          · exact ih y List.mem_cons_self hm
        · exact ih w (List.mem_cons_of_mem _ h)

theorem splitOn_sub (c : Char) : ∀ (s : Str), ∀ w ∈ splitOn c s, ∀ x ∈ w, x ∈ s
  | [], w, h, x, hx => by rw [List.mem_singleton.mp h] at hx; cases hx
  | y :: s, w, h, x, hx => by
    unfold splitOn at h
    by_cases hy : y = c
    · rw [if_pos hy] at h
      rcases List.mem_cons.mp h with h | h
      · rw [h] at hx; cases hx
      · exact List.mem_cons_of_mem _ (splitOn_sub c s w h x hx)
    · rw [if_neg hy] at h
      have ih := splitOn_sub c s
      cases hs : splitOn c s with
      | nil => rw [hs] at h; cases h
      | cons z l =>
        rw [hs] at h ih
        rcases List.mem_cons.mp h with h | h
        · rw [h] at hx
          rcases List.mem_cons.mp hx with hm | hm
          · rw [hm]; exact List.mem_cons_self
          · exact List.mem_cons_of_mem _ (ih z List.mem_cons_self x hm)
        · exact List.mem_cons_of_mem _ (ih w (List.mem_cons_of_mem _ h) x hx)

theorem strip_solid {s : Str} (h : ∀ c ∈ s, isBlank c = false) : strip s = s := by
  unfold strip
  rw [dropWhile_head h, dropWhile_head (fun c hc => h c (List.mem_reverse.mp hc)), List.reverse_reverse]

theorem iso_solid {c : Char} (h : c.isDigit = true ∨ c = '-' ∨ c = ':' ∨ c = 'T') :
    isBlank c = false ∧ c ≠ ',' ∧ c ≠ '"' ∧ c ≠ '\n' ∧ c ≠ '.' := by
  rcases h with h | rfl | rfl | rfl
  · refine ⟨digit_not_blank h, ?_, ?_, ?_, ?_⟩ <;> · rintro rfl; revert h; decide
  · decide
  · decide
  · decide

/-! ## Lists -/

theorem elems_inv (isTime : Str → Bool) : ∀ (l : List Str) (r : List Item), parseElems isTime l = .ok r →
    ∀ x ∈ r, ∃ w ∈ l, ∃ y, parseElem isTime w = .ok y ∧ x ∈ y
  | [], r, h, x, hx => by cases h; cases hx
  | s :: l, r, h, x, hx => by
    unfold parseElems at h
    cases hs : parseElem isTime s with
    | error e => rw [hs] at h; cases h
    | ok y =>
      cases hl : parseElems isTime l with
      | error e => rw [hs, hl] at h; cases h
      | ok z =>
        rw [hs, hl] at h
        have h : y ++ z = r := by injection h
        subst h
        rcases List.mem_append.mp hx with hx | hx
        · exact ⟨s, List.mem_cons_self, y, hs, hx⟩
        · obtain ⟨w, hw, q⟩ := elems_inv isTime l z hl x hx
          exact ⟨w, List.mem_cons_of_mem _ hw, q⟩

/-- What is written for an element of a list read from a file is read as this element. -/
theorem item_reread {isTime : Str → Bool} {isot : Str → Str} (hi : IsoLike isTime isot) {w : Str} (hw : ',' ∉ w ∧ '\n' ∉ w ∧ '"' ∉ w) {y : List Item}
    (h : parseElem isTime w = .ok y) {x : Item} (hx : x ∈ y) (hneg : ∀ n, x = .int n → 0 ≤ n) :
    (∃ x', parseElem isTime (x.text isot) = .ok [x'] ∧ x.Same isot x') ∧ ',' ∉ x.text isot ∧ '\n' ∉ x.text isot ∧ '"' ∉ x.text isot := by
  have hint : ∀ n : Nat, (∃ x', parseElem isTime ((Item.int n).text isot) = .ok [x'] ∧ (Item.int n).Same isot x') ∧ ',' ∉ (Item.int n).text isot ∧
      '\n' ∉ (Item.int n).text isot ∧ '"' ∉ (Item.int n).text isot := by
    intro n
    show (∃ x', parseElem isTime (natStr n) = .ok [x'] ∧ _) ∧ ',' ∉ natStr n ∧ '\n' ∉ natStr n ∧ '"' ∉ natStr n
    refine ⟨⟨.int n, ?_, rfl⟩, notMem_natStr (by decide) n, notMem_natStr (by decide) n, notMem_natStr (by decide) n⟩
    unfold parseElem
    rw [if_neg (by rw [hasDots_none _ (notMem_natStr (by decide) n)]; simp), if_neg (notMem_natStr (by decide) n), if_pos (isDigits_natStr n), ofDigits_natStr]
  have hstr : parseElem isTime w = .ok [.str w] → (∃ x', parseElem isTime ((Item.str w).text isot) = .ok [x'] ∧ (Item.str w).Same isot x') ∧ ',' ∉ (Item.str w).text isot ∧
      '\n' ∉ (Item.str w).text isot ∧ '"' ∉ (Item.str w).text isot := fun e => ⟨⟨.str w, e, rfl⟩, hw⟩
  have h0 := h
  unfold parseElem at h
  by_cases h1 : hasDots w = true
  · rw [if_pos h1] at h
    have : ∃ n, x = .int n := by
      unfold parseRange at h
      split at h
      · rename_i a b _
        cases ha : pyInt a with
        | error e => rw [ha] at h; cases h
        | ok p =>
          cases hb : pyInt b with
          | error e => rw [ha, hb] at h; cases h
          | ok q =>
            rw [ha, hb] at h
            have h : (pyRange p q).map Item.int = y := by injection h
            rw [← h] at hx
            obtain ⟨n, -, rfl⟩ := List.mem_map.mp hx
            exact ⟨n, rfl⟩
      · cases h
    obtain ⟨n, rfl⟩ := this
    obtain ⟨m, rfl⟩ := Int.eq_ofNat_of_zero_le (hneg n rfl)
    exact hint m
  · rw [if_neg h1] at h
    by_cases h2 : ':' ∈ w
    · rw [if_pos h2] at h
      have h : [if isTime (strip w) then Item.time (strip w) else Item.str w] = y := by injection h
      by_cases h3 : isTime (strip w) = true
      · rw [if_pos h3] at h
        rw [← h] at hx
        rw [List.mem_singleton.mp hx]
        show (∃ x', parseElem isTime (isot (strip w)) = .ok [x'] ∧ _) ∧ ',' ∉ isot (strip w) ∧ '\n' ∉ isot (strip w) ∧ '"' ∉ isot (strip w)
        have hc := fun c hc => iso_solid (hi.chars _ h3 c hc)
        refine ⟨⟨.time (isot (strip w)), ?_, ?_⟩, fun hm => (hc _ hm).2.1 rfl, fun hm => (hc _ hm).2.2.2.1 rfl, fun hm => (hc _ hm).2.2.1 rfl⟩
        · unfold parseElem
          rw [if_neg (by rw [hasDots_none _ (fun hm => (hc _ hm).2.2.2.2 rfl)]; simp), if_pos (hi.colon _ h3), strip_solid (fun c hm => (hc c hm).1), if_pos (hi.again _ h3).1]
        · exact (hi.again _ h3).2.symm
      · rw [if_neg h3] at h
        rw [← h] at hx
        rw [List.mem_singleton.mp hx]
        apply hstr
        rw [h0, ← h]
    · rw [if_neg h2] at h
      by_cases h3 : isDigits w = true
      · rw [if_pos h3] at h
        have h : [Item.int (Nat.ofDigitChars 10 w 0)] = y := by injection h
        rw [← h] at hx
        rw [List.mem_singleton.mp hx]
        exact hint _
      · rw [if_neg h3] at h
        have h : [Item.str w] = y := by injection h
        rw [← h] at hx
        rw [List.mem_singleton.mp hx]
        apply hstr
        rw [h0, ← h]

theorem elems_same {isTime : Str → Bool} {isot : Str → Str} : ∀ (r : List Item), (∀ x ∈ r, ∃ x', parseElem isTime (x.text isot) = .ok [x'] ∧ x.Same isot x') →
    ∃ r', parseElems isTime (r.map (Item.text isot)) = .ok r' ∧ List.Forall₂ (Item.Same isot) r r'
  | [], _ => ⟨[], rfl, List.Forall₂.nil⟩
  | x :: r, h => by
    obtain ⟨x', hx, hs⟩ := h x List.mem_cons_self
    obtain ⟨r', hr, hf⟩ := elems_same r (fun y hy => h y (List.mem_cons_of_mem _ hy))
    refine ⟨x' :: r', ?_, List.Forall₂.cons hs hf⟩
    show (parseElem isTime (x.text isot)).bind _ = _
    rw [hx, hr]; rfl

theorem list_shape {v : Str} (h1 : v.head? = some '[') (h2 : v.getLast? = some ']') : v = '[' :: v.tail.dropLast ++ [']'] := by
  cases v with
  | nil => cases h1
  | cons c t =>
    have hc : c = '[' := by simpa using h1
    subst hc
    cases ht : t with
    | nil => subst ht; revert h2; decide
    | cons d s =>
      subst ht
      have : (d :: s).getLast? = some ']' := by simpa using h2
      have e : (d :: s).getLast (by simp) = ']' := by rw [List.getLast?_eq_some_getLast (by simp)] at this; injection this
      show '[' :: (d :: s) = '[' :: ((d :: s).dropLast ++ [']'])
      rw [← e, List.dropLast_append_getLast]

/-! ## Single values -/

theorem reread_str {isTime : Str → Bool} {isFloat : IsFloat} {k w : Str} (hcl : clean w = w) (hl : ¬(w.head? = some '[' ∧ w.getLast? = some ']'))
    (ht : lower w ≠ "true".toList) (hf : lower w ≠ "false".toList) (hk : hasSub "angle".toList (lower k) = false) (hd : hasSub "duration".toList (lower k) = false)
    (hn : isDigits w = false) (hc : ':' ∉ w) : setItem isTime isFloat k w = .ok (.str (lower w)) := by
  unfold setItem
  simp only [hcl]
  rw [if_neg hl, if_neg ht, if_neg hf, if_neg (by rw [hk]; simp), if_neg (by rw [hd]; simp), if_neg (by rw [hn]; simp), if_neg hc]

theorem lower_digits {w : Str} (h : isDigits (lower w) = true) : isDigits w = true := by
  unfold isDigits at h ⊢
  simp only [Bool.and_eq_true, Bool.not_eq_true', List.all_eq_true] at h ⊢
  constructor
  · have := h.1; unfold lower at this; simpa using this
  · intro c hc
    have hd := h.2 _ (List.mem_map_of_mem (f := Char.toLower) hc)
    have : c = c.toLower := by
      apply toLower_other _ rfl
      rintro ⟨h1, -⟩
      unfold Char.isDigit at hd
      simp only [Bool.and_eq_true, decide_eq_true_eq, ge_iff_le] at hd
      have a := UInt32.le_iff_toNat_le.mp h1
      have b := UInt32.le_iff_toNat_le.mp hd.2
      have e1 : 'a'.val.toNat = 97 := rfl
      have e2 : '9'.val.toNat = 57 := rfl
      omega
    rw [this]; exact hd

theorem rstripS_idem (w : Str) : rstripS (rstripS w ++ ['s']) = rstripS w := by
  unfold rstripS
  rw [List.reverse_append]
  show (('s' :: _).dropWhile _).reverse = _
  rw [List.dropWhile_cons_of_pos (by decide), List.reverse_reverse]
  congr 1
  cases h : w.reverse.dropWhile (· = 's') with
  | nil => rfl
  | cons c t =>
    have : ¬(decide (c = 's')) = true := by
      have := List.head_dropWhile_not (fun c => decide (c = 's')) (l := w.reverse) (by rw [h]; simp)
      simp only [h, List.head_cons] at this
      simpa using this
    exact List.dropWhile_cons_of_neg (p := fun x => decide (x = 's')) this

theorem rstripS_sub {w : Str} {c : Char} (h : c ∈ rstripS w) : c ∈ w := by
  unfold rstripS at h
  rw [List.mem_reverse] at h
  exact List.mem_reverse.mp ((List.dropWhile_sublist _).subset h)

/-- **C101**: any value read from a parset file and written for a property of the same name is read again as the same value (times to the second), except angles, lists with
negative numbers and empty lists. -/
theorem reread_exact {isTime : Str → Bool} {isot : Str → Str} (hi : IsoLike isTime isot) (isFloat : IsFloat) {k t : Str} {v : PVal}
    (h : setItem isTime isFloat k t = .ok v) (hk : hasSub "angle".toList (lower k) = false) (hne : v ≠ .list [])
    (hneg : ∀ l, v = .list l → ∀ n, Item.int n ∈ l → 0 ≤ n) : ∃ v', setItem isTime isFloat k (v.toU isot).stored = .ok v' ∧ v.Same isot v' := by
  obtain ⟨hn1, hn2⟩ := @clean_no t
  have hcc := clean_clean t
  have h0 := h
  unfold setItem at h
  simp only at h
  generalize hw : clean t = w at *
  by_cases h1 : w.head? = some '[' ∧ w.getLast? = some ']'
  · rw [if_pos h1] at h
    cases hr : parseElems isTime (splitOn ',' w.tail.dropLast) with
    | error e => rw [hr] at h; cases h
    | ok r =>
      rw [hr] at h
      have h : PVal.list r = v := by injection h
      subst h
      have hsub : ∀ c ∈ w.tail.dropLast, c ∈ w := fun c hc => List.mem_of_mem_tail (List.mem_of_mem_dropLast hc)
      have key : ∀ x ∈ r, (∃ x', parseElem isTime (x.text isot) = .ok [x'] ∧ x.Same isot x') ∧ ',' ∉ x.text isot ∧ '\n' ∉ x.text isot ∧ '"' ∉ x.text isot := by
        intro x hx
        obtain ⟨p, hp, y, hy, hxy⟩ := elems_inv isTime _ r hr x hx
        have hs := splitOn_sub ',' _ p hp
        exact item_reread hi ⟨splitOn_notMem ',' _ p hp, fun hm => hn1 (hsub _ (hs _ hm)), fun hm => hn2 (hsub _ (hs _ hm))⟩ hy hxy (fun n e => hneg r rfl n (e ▸ hx))
      obtain ⟨r', hr', hf⟩ := elems_same r (fun x hx => (key x hx).1)
      refine ⟨.list r', ?_, hf⟩
      have hrne : r ≠ [] := fun e => hne (by rw [e])
      show setItem isTime isFloat k ('[' :: join ',' (r.map (Item.text isot)) ++ [']']) = _
      rw [setItem_list, splitOn_join _ _ (by simpa using hrne), hr']
      · rfl
      · intro s hs; obtain ⟨x, hx, rfl⟩ := List.mem_map.mp hs; exact (key x hx).2.1
      · intro hm
        rcases join_chars ',' _ _ hm with e | ⟨s, hs, hm⟩
        · revert e; decide
        · obtain ⟨x, hx, rfl⟩ := List.mem_map.mp hs; exact (key x hx).2.2.1 hm
      · intro hm
        rcases join_chars ',' _ _ hm with e | ⟨s, hs, hm⟩
        · revert e; decide
        · obtain ⟨x, hx, rfl⟩ := List.mem_map.mp hs; exact (key x hx).2.2.2 hm
  rw [if_neg h1] at h
  by_cases h2 : lower w = "true".toList
  · rw [if_pos h2] at h
    have h : PVal.bool true = v := by injection h
    subst h
    exact ⟨.bool true, rfl, rfl⟩
  rw [if_neg h2] at h
  by_cases h3 : lower w = "false".toList
  · rw [if_pos h3] at h
    have h : PVal.bool false = v := by injection h
    subst h
    exact ⟨.bool false, rfl, rfl⟩
  rw [if_neg h3, if_neg (by rw [hk]; simp)] at h
  have hwl : lower "true".toList = "true".toList := by decide
  have hwf : lower "false".toList = "false".toList := by decide
  by_cases h4 : hasSub "duration".toList (lower k) = true
  · rw [if_pos h4] at h
    have h : PVal.str (rstripS w ++ ['s']) = v := by injection h
    subst h
    refine ⟨_, ?_, same_refl _ _⟩
    show setItem isTime isFloat k (rstripS w ++ ['s']) = _
    have hcl : clean (rstripS w ++ ['s']) = rstripS w ++ ['s'] := by
      apply clean_id
      · intro hm
        rcases List.mem_append.mp hm with hm | hm
        · exact hn1 (rstripS_sub hm)
        · revert hm; decide
      · intro hm
        rcases List.mem_append.mp hm with hm | hm
        · exact hn2 (rstripS_sub hm)
        · revert hm; decide
    have hlast : ∀ s : Str, s.getLast? ≠ some 's' → lower (rstripS w ++ ['s']) ≠ s := by
      rintro s hs rfl
      apply hs
      unfold lower
      rw [List.map_append, List.map_singleton, List.getLast?_concat]
      rfl
    unfold setItem
    simp only [hcl]
    rw [if_neg (by rw [List.getLast?_concat]; rintro ⟨-, h⟩; revert h; decide), if_neg (hlast _ (by decide)), if_neg (hlast _ (by decide)), if_neg (by rw [hk]; simp),
      if_pos h4, rstripS_idem]
  rw [if_neg h4] at h
  have hd : hasSub "duration".toList (lower k) = false := by simpa using h4
  by_cases h5 : isDigits w = true
  · rw [if_pos h5] at h
    have h : PVal.int (Nat.ofDigitChars 10 w 0) = v := by injection h
    subst h
    refine ⟨_, ?_, same_refl _ _⟩
    show setItem isTime isFloat k (natStr (Nat.ofDigitChars 10 w 0)) = _
    generalize Nat.ofDigitChars 10 w 0 = n
    have hnd : ∀ c ∈ natStr n, c.isDigit = true := natStr_digits n
    have hlow : ∀ s : Str, (∃ c ∈ s, c.isDigit = false ∧ ('a'.val ≤ c.val ∧ c.val ≤ 'z'.val)) → lower (natStr n) ≠ s := by
      rintro s ⟨c, hc, -, hb⟩ rfl
      obtain ⟨x, hx, e⟩ := List.mem_map.mp hc
      have hdx := hnd x hx
      have : x.toLower = x := by
        unfold Char.toLower
        rw [dif_neg]
        rintro ⟨h1, -⟩
        unfold Char.isDigit at hdx
        simp only [Bool.and_eq_true, decide_eq_true_eq, ge_iff_le] at hdx
        have a := UInt32.le_iff_toNat_le.mp h1
        have b := UInt32.le_iff_toNat_le.mp hdx.2
        have e1 : 'A'.val.toNat = 65 := rfl
        have e2 : '9'.val.toNat = 57 := rfl
        omega
      rw [this] at e
      subst e
      unfold Char.isDigit at hdx
      simp only [Bool.and_eq_true, decide_eq_true_eq, ge_iff_le] at hdx
      have a := UInt32.le_iff_toNat_le.mp hb.1
      have b := UInt32.le_iff_toNat_le.mp hdx.2
      have e1 : 'a'.val.toNat = 97 := rfl
      have e2 : '9'.val.toNat = 57 := rfl
      omega
    have hcl : clean (natStr n) = natStr n := clean_id (notMem_natStr (by decide) n) (notMem_natStr (by decide) n)
    unfold setItem
    simp only [hcl]
    rw [if_neg (by rintro ⟨e, -⟩; exact notMem_natStr (by decide) n (List.mem_of_mem_head? e)), if_neg (hlow _ ⟨'t', by decide, by decide, by decide⟩),
      if_neg (hlow _ ⟨'f', by decide, by decide, by decide⟩), if_neg (by rw [hk]; simp), if_neg h4, if_pos (isDigits_natStr n), ofDigits_natStr]
  rw [if_neg h5] at h
  by_cases h6 : ':' ∈ w
  · rw [if_pos h6] at h
    by_cases h7 : isTime (strip w) = true
    · rw [if_pos h7] at h
      have h : PVal.time (strip w) = v := by injection h
      subst h
      have hc := fun c hc => iso_solid (hi.chars _ h7 c hc)
      refine ⟨.time (isot (strip w) ++ ['Z']), ?_, (hi.zulu _ h7).2.symm⟩
      show setItem isTime isFloat k (UVal.time (isot (strip w))).stored = _
      exact stored_time isTime isFloat k _ hk hd (hi.colon _ h7) (fun hm => (hc _ hm).2.2.1 rfl) (fun hm => (hc _ hm).2.2.2.1 rfl)
        (fun c hm => (hc c (List.mem_of_mem_head? hm)).1) (hi.zulu _ h7).1
    · rw [if_neg h7] at h
      have h : PVal.str w = v := by injection h
      subst h
      refine ⟨_, ?_, same_refl _ _⟩
      show setItem isTime isFloat k w = _
      rw [← setItem_clean, hw] at h0; exact h0
  · rw [if_neg h6] at h
    have h : PVal.str (lower w) = v := by injection h
    subst h
    refine ⟨_, ?_, same_refl _ _⟩
    show setItem isTime isFloat k (lower w) = _
    rw [reread_str _ _ (by rw [lower_twice]; exact h2) (by rw [lower_twice]; exact h3) hk hd, lower_twice]
    · by_contra hb
      exact h5 (lower_digits (by simpa using hb))
    · exact fun hm => h6 (mem_lower (by decide) hm)
    · exact clean_id (fun hm => hn1 (mem_lower (by decide) hm)) (fun hm => hn2 (mem_lower (by decide) hm))
    · rintro ⟨a, b⟩
      apply h1
      unfold lower at a b
      rw [List.head?_map] at a
      rw [List.getLast?_map] at b
      obtain ⟨x, hx, ex⟩ := Option.map_eq_some_iff.mp a
      obtain ⟨y, hy, ey⟩ := Option.map_eq_some_iff.mp b
      rw [hx, hy, toLower_other (by decide) ex, toLower_other (by decide) ey]
      exact ⟨rfl, rfl⟩

end Verif.Parset
