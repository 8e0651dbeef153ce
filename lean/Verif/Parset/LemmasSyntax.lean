import Verif.Parset.LemmasRegex
import Verif.Parset.PropsText

/-!
# Unfolding the patterns of the package
-/

namespace Verif.Parset

variable {ci : Bool} {p : Option Char} {w rest : Str}

theorem reads_cat {a b : Re} : Reads ci (.cat a b) p w rest ↔ ∃ u v, w = u ++ v ∧ Reads ci a p u (v ++ rest) ∧ Reads ci b (lastOr p u) v rest := Iff.rfl

theorem reads_alt {a b : Re} : Reads ci (.alt a b) p w rest ↔ Reads ci a p w rest ∨ Reads ci b p w rest := Iff.rfl

theorem reads_grp {a : Re} {n : Nat} : Reads ci (.grp n a) p w rest ↔ Reads ci a p w rest := Iff.rfl

theorem cat_cls {neg : Bool} {l : List (Char × Char)} {b : Re} :
    Reads ci (.cat (.cls neg l) b) p w rest ↔ ∃ c v, w = c :: v ∧ inCls ci neg l c = true ∧ Reads ci b (some c) v rest := by
  constructor
  · rintro ⟨u, v, rfl, ⟨c, rfl, hc⟩, hb⟩
    exact ⟨c, v, rfl, hc, hb⟩
  · rintro ⟨c, v, rfl, hc, hb⟩
    exact ⟨[c], v, rfl, ⟨c, rfl, hc⟩, hb⟩

theorem cat_empty {a b : Re} (h : ∀ u r, Reads ci a p u r → u = []) : Reads ci (.cat a b) p w rest ↔ Reads ci a p [] (w ++ rest) ∧ Reads ci b p w rest := by
  constructor
  · rintro ⟨u, v, rfl, ha, hb⟩
    have := h _ _ ha
    subst this
    exact ⟨ha, hb⟩
  · rintro ⟨ha, hb⟩
    exact ⟨[], w, rfl, ha, hb⟩

theorem cat_bos {b : Re} : Reads ci (.cat .bos b) none w rest ↔ Reads ci b none w rest := by
  rw [cat_empty (a := .bos) (fun u r h => h.1)]
  exact ⟨fun h => h.2, fun h => ⟨⟨rfl, rfl⟩, h⟩⟩

theorem cat_eps {b : Re} : Reads ci (.cat .eps b) p w rest ↔ Reads ci b p w rest := by
  rw [cat_empty (a := .eps) (fun u r h => h)]
  exact ⟨fun h => h.2, fun h => ⟨rfl, h⟩⟩

theorem cat_ends {a : Re} : Reads ci (.cat a .eps) p w rest ↔ Reads ci a p w rest := by
  constructor
  · rintro ⟨u, v, rfl, ha, hb⟩
    have : v = [] := hb
    subst this
    rw [List.append_nil]; exact ha
  · intro h
    exact ⟨w, [], (List.append_nil w).symm, h, rfl⟩

theorem at_end : Reads ci (.cat .eos .eps) p w [] ↔ w = [] := by
  rw [cat_ends]
  exact ⟨fun h => h.1, fun h => ⟨h, Or.inl rfl⟩⟩

theorem cat_grp {a b : Re} {n : Nat} : Reads ci (.cat (.grp n a) b) p w rest ↔ Reads ci (.cat a b) p w rest := Iff.rfl

theorem cat_alt {a b c : Re} : Reads ci (.cat (.alt a b) c) p w rest ↔ Reads ci (.cat a c) p w rest ∨ Reads ci (.cat b c) p w rest := by
  constructor
  · rintro ⟨u, v, h, ha | hb, hc⟩
    · exact Or.inl ⟨u, v, h, ha, hc⟩
    · exact Or.inr ⟨u, v, h, hb, hc⟩
  · rintro (⟨u, v, h, ha, hc⟩ | ⟨u, v, h, ha, hc⟩)
    · exact ⟨u, v, h, Or.inl ha, hc⟩
    · exact ⟨u, v, h, Or.inr ha, hc⟩

theorem cat_cat {a b c : Re} : Reads ci (.cat (.cat a b) c) p w rest ↔ Reads ci (.cat a (.cat b c)) p w rest := by
  constructor
  · rintro ⟨u, v, rfl, ⟨x, y, rfl, hx, hy⟩, hc⟩
    exact ⟨x, y ++ v, List.append_assoc .., by rw [List.append_assoc]; exact hx, y, v, rfl, hy, by rw [lastOr_append]; exact hc⟩
  · rintro ⟨x, z, rfl, hx, y, v, rfl, hy, hc⟩
    exact ⟨x ++ y, v, (List.append_assoc ..).symm, ⟨x, y, rfl, by rw [← List.append_assoc]; exact hx, hy⟩, by rw [← lastOr_append]; exact hc⟩

/-- Characters of a class, one after the other. -/
theorem times_cls {neg : Bool} {l : List (Char × Char)} : ∀ (n : Nat) (p : Option Char) (w rest : Str),
    Times (Reads ci (.cls neg l)) n p w rest ↔ w.length = n ∧ ∀ c ∈ w, inCls ci neg l c = true
  | 0, p, w, rest => by
    constructor
    · intro h
      have : w = [] := h
      subst this
      exact ⟨rfl, fun c hc => by cases hc⟩
    · rintro ⟨h, -⟩
      exact List.length_eq_zero_iff.1 h
  | n + 1, p, w, rest => by
    constructor
    · rintro ⟨u, v, rfl, ⟨c, rfl, hc⟩, hv⟩
      have := (times_cls n _ v rest).1 hv
      refine ⟨by simp [this.1], fun x hx => ?_⟩
      rw [List.mem_append, List.mem_singleton] at hx
      rcases hx with rfl | hx
      · exact hc
      · exact this.2 x hx
    · rintro ⟨h1, h2⟩
      cases w with
      | nil => simp at h1
      | cons c w =>
        exact ⟨[c], w, rfl, ⟨c, rfl, h2 c (by simp)⟩, (times_cls n _ w rest).2 ⟨by simpa using h1, fun x hx => h2 x (by simp [hx])⟩⟩

theorem rep_cls {neg : Bool} {l : List (Char × Char)} {lo : Nat} {hi : Option Nat} :
    Reads ci (.rep lo hi (.cls neg l)) p w rest ↔ lo ≤ w.length ∧ (∀ h, hi = some h → w.length ≤ h) ∧ ∀ c ∈ w, inCls ci neg l c = true := by
  constructor
  · rintro ⟨n, h1, h2, h3⟩
    obtain ⟨rfl, h4⟩ := (times_cls _ _ _ _).1 h3
    exact ⟨h1, h2, h4⟩
  · rintro ⟨h1, h2, h3⟩
    exact ⟨w.length, h1, h2, (times_cls _ _ _ _).2 ⟨rfl, h3⟩⟩

/-- An optional part. -/
theorem rep_opt {a : Re} : Reads ci (.rep 0 (some 1) a) p w rest ↔ w = [] ∨ Reads ci a p w rest := by
  constructor
  · rintro ⟨n, -, h2, h3⟩
    have : n ≤ 1 := h2 1 rfl
    interval_cases n
    · exact Or.inl h3
    · obtain ⟨u, v, rfl, hu, hv⟩ := h3
      have : v = [] := hv
      subst this
      right
      rw [List.append_nil]; exact hu
  · rintro (h | h)
    · exact ⟨0, Nat.le_refl _, fun _ _ => Nat.zero_le _, h⟩
    · refine ⟨1, Nat.zero_le _, ?_, w, [], (List.append_nil w).symm, h, rfl⟩
      rintro x e
      injection e with e
      omega

/-- A text whose match does not depend on what is around. -/
def Free (ci : Bool) (r : Re) (L : Str → Prop) : Prop := ∀ p w rest, Reads ci r p w rest ↔ L w

theorem digit_cls (c : Char) : inCls false false [('0', '9')] c = c.isDigit := by
  unfold inCls Char.isDigit
  simp only [List.any_cons, List.any_nil, Bool.or_false, Bool.false_and, Bool.false_bne]
  rfl

/-- One given character. -/
theorem char_cls (a c : Char) : inCls false false [(a, a)] c = true ↔ c = a := by
  unfold inCls
  simp only [List.any_cons, List.any_nil, Bool.or_false, Bool.false_and, Bool.false_bne, Bool.and_eq_true, decide_eq_true_eq]
  constructor
  · rintro ⟨h1, h2⟩
    exact Char.le_antisymm h2 h1
  · rintro rfl
    exact ⟨Char.le_refl _, Char.le_refl _⟩

/-- A digit between two others. -/
theorem range_cls (a b : Nat) (ha : a < 10) (hb : b < 10) (c : Char) :
    inCls false false [(Nat.digitChar a, Nat.digitChar b)] c = true ↔ ∃ k, a ≤ k ∧ k ≤ b ∧ c = Nat.digitChar k := by
  unfold inCls
  simp only [List.any_cons, List.any_nil, Bool.or_false, Bool.false_and, Bool.false_bne, Bool.and_eq_true, decide_eq_true_eq]
  have val : ∀ k, k < 10 → (Nat.digitChar k).toNat = 48 + k := by decide
  have le : ∀ x y : Char, x ≤ y ↔ x.toNat ≤ y.toNat := fun x y => Iff.rfl
  rw [le, le, val a ha, val b hb]
  constructor
  · rintro ⟨h1, h2⟩
    refine ⟨c.toNat - 48, by omega, by omega, ?_⟩
    apply Char.toNat_inj.1
    rw [val _ (by omega)]; omega
  · rintro ⟨k, h1, h2, rfl⟩
    rw [val k (by omega)]; omega

/-- A pattern without anchors, edges, looks or references. -/
def Re.simple : Re → Bool
  | .eps => true
  | .cls _ _ => true
  | .cat a b => a.simple && b.simple
  | .alt a b => a.simple && b.simple
  | .rep _ _ r => r.simple
  | .grp _ r => r.simple
  | _ => false

/-- What such a pattern matches does not depend on what is around. -/
theorem simple_free : ∀ r : Re, r.simple = true → ∀ p w rest p' rest', Reads ci r p w rest → Reads ci r p' w rest'
  | .eps, _, _, _, _, _, _, h => h
  | .cls _ _, _, _, _, _, _, _, h => h
  | .cat a b, hs, p, w, rest, p', rest', h => by
    rw [Re.simple, Bool.and_eq_true] at hs
    obtain ⟨u, v, e, ha, hb⟩ := h
    exact ⟨u, v, e, simple_free a hs.1 _ _ _ _ _ ha, simple_free b hs.2 _ _ _ _ _ hb⟩
  | .alt a b, hs, p, w, rest, p', rest', h => by
    rw [Re.simple, Bool.and_eq_true] at hs
    exact h.imp (simple_free a hs.1 _ _ _ _ _) (simple_free b hs.2 _ _ _ _ _)
  | .rep lo hi r, hs, p, w, rest, p', rest', h => by
    obtain ⟨n, h1, h2, h3⟩ := h
    refine ⟨n, h1, h2, ?_⟩
    have : ∀ (n : Nat) (p : Option Char) (w rest : Str) (p' : Option Char) (rest' : Str), Times (Reads ci r) n p w rest → Times (Reads ci r) n p' w rest' := by
      intro n
      induction n with
      | zero => intro p w rest p' rest' h; exact h
      | succ n ih =>
        rintro p w rest p' rest' ⟨u, v, e, hu, hv⟩
        exact ⟨u, v, e, simple_free r hs _ _ _ _ _ hu, ih _ _ _ _ _ hv⟩
    exact this n _ _ _ _ _ h3
  | .grp _ r, hs, p, w, rest, p', rest', h => simple_free r hs p w rest p' rest' h

theorem free_of_simple (r : Re) (h : r.simple = true) : Free ci r (fun w => Reads ci r none w []) :=
  fun p w rest => ⟨simple_free r h p w rest none [], simple_free r h none w [] p rest⟩

end Verif.Parset
