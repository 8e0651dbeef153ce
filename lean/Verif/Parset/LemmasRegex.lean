import Verif.Parset.Regex

/-!
# What a pattern matches, independently of the search

`Reads ci r p w rest`: the pattern `r` matches the text `w` when `p` is the character before it and `rest` the text after it. `run_iff`: the search finds exactly these texts, for
patterns without references to groups.
-/

namespace Verif.Parset

/-- `n` texts one after the other. -/
def Times (R : Option Char → Str → Str → Prop) : Nat → Option Char → Str → Str → Prop
  | 0, _, w, _ => w = []
  | n + 1, p, w, rest => ∃ u v, w = u ++ v ∧ R p u (v ++ rest) ∧ Times R n (lastOr p u) v rest

/-- What a pattern matches. -/
def Reads (ci : Bool) : Re → Option Char → Str → Str → Prop
  | .eps, _, w, _ => w = []
  | .cls neg l, _, w, _ => ∃ c, w = [c] ∧ inCls ci neg l c = true
  | .cat a b, p, w, rest => ∃ u v, w = u ++ v ∧ Reads ci a p u (v ++ rest) ∧ Reads ci b (lastOr p u) v rest
  | .alt a b, p, w, rest => Reads ci a p w rest ∨ Reads ci b p w rest
  | .rep lo hi r, p, w, rest => ∃ n, lo ≤ n ∧ (∀ h, hi = some h → n ≤ h) ∧ Times (Reads ci r) n p w rest
  | .grp _ r, p, w, rest => Reads ci r p w rest
  | .bos, p, w, _ => w = [] ∧ p = none
  | .eos, _, w, rest => w = [] ∧ (rest = [] ∨ rest = ['\n'])
  | .edge, p, w, rest => w = [] ∧ wordAt p ≠ wordAt rest.head?
  | .back _, _, _, _ => False
  | .look false r, p, w, rest => w = [] ∧ ∃ u v, rest = u ++ v ∧ Reads ci r p u v
  | .look true r, p, w, rest => w = [] ∧ ¬ ∃ u v, rest = u ++ v ∧ Reads ci r p u v

/-- No reference to a group. -/
def Re.plain : Re → Bool
  | .cat a b => a.plain && b.plain
  | .alt a b => a.plain && b.plain
  | .rep _ _ r => r.plain
  | .grp _ r => r.plain
  | .look _ r => r.plain
  | .back _ => false
  | _ => true

/-- The search ends there. -/
def Ends (f : Pos → List Pos) (s : Pos) (q : Option Char) (rest : Str) : Prop := ∃ t ∈ f s, t.rest = rest ∧ t.prev = q

/-- The search `f` finds the texts of `R`. -/
def Finds (f : Pos → List Pos) (R : Option Char → Str → Str → Prop) : Prop :=
  ∀ s q rest, Ends f s q rest ↔ ∃ w, s.rest = w ++ rest ∧ q = lastOr s.prev w ∧ R s.prev w rest

theorem lastOr_nil (p : Option Char) : lastOr p [] = p := rfl

theorem lastOr_append (p : Option Char) (u v : Str) : lastOr (lastOr p u) v = lastOr p (u ++ v) := by
  unfold lastOr
  cases v using List.reverseRecOn with
  | nil => simp
  | append_singleton v c => rw [← List.append_assoc]; simp

theorem iter_sound {f : Pos → List Pos} {R : Option Char → Str → Str → Prop} (hf : Finds f R) : ∀ (k lo : Nat) (hi : Option Nat) (s t : Pos), t ∈ iter f k lo hi s →
    ∃ n w, lo ≤ n ∧ (∀ h, hi = some h → n ≤ h) ∧ s.rest = w ++ t.rest ∧ t.prev = lastOr s.prev w ∧ Times R n s.prev w t.rest
  | 0, lo, hi, s, t, h => by
    unfold iter at h
    by_cases h0 : lo = 0
    · rw [if_pos h0, List.mem_singleton] at h
      exact ⟨0, [], by omega, fun _ _ => Nat.zero_le _, by rw [h]; rfl, by rw [h]; rfl, rfl⟩
    · rw [if_neg h0] at h; cases h
  | k + 1, lo, hi, s, t, h => by
    rw [iter, List.mem_append] at h
    rcases h with h | h
    · by_cases hh : hi = some 0
      · rw [if_pos hh] at h; cases h
      · rw [if_neg hh, List.mem_flatMap] at h
        obtain ⟨x, hx, h⟩ := h
        by_cases hz : lo = 0 ∧ x.rest.length = s.rest.length
        · rw [if_pos hz] at h; cases h
        · rw [if_neg hz] at h
          obtain ⟨n, w, h1, h2, h3, h4, h5⟩ := iter_sound hf k _ _ x t h
          obtain ⟨u, e1, e2, e3⟩ := (hf s x.prev x.rest).1 ⟨x, hx, rfl, rfl⟩
          refine ⟨n + 1, u ++ w, by omega, ?_, by rw [e1, h3, List.append_assoc], by rw [h4, e2, lastOr_append], u, w, rfl, h3 ▸ e3, e2 ▸ h5⟩
          intro m hm
          have := h2 (m - 1) (by rw [hm]; rfl)
          have : m ≠ 0 := fun e => hh (by rw [hm, e])
          omega
    · by_cases h0 : lo = 0
      · rw [if_pos h0, List.mem_singleton] at h
        exact ⟨0, [], by omega, fun _ _ => Nat.zero_le _, by rw [h]; rfl, by rw [h]; rfl, rfl⟩
      · rw [if_neg h0] at h; cases h

theorem iter_complete {f : Pos → List Pos} {R : Option Char → Str → Str → Prop} (hf : Finds f R) : ∀ (n k lo : Nat) (hi : Option Nat) (s : Pos) (w rest : Str),
    lo + s.rest.length ≤ k → lo ≤ n → (∀ h, hi = some h → n ≤ h) → s.rest = w ++ rest → Times R n s.prev w rest → Ends (iter f k lo hi) s (lastOr s.prev w) rest
  | 0, k, lo, hi, s, w, rest, _, hlo, _, hs, ht => by
    have h0 : lo = 0 := by omega
    have hw : w = [] := ht
    rw [hw] at hs ⊢
    refine ⟨s, ?_, hs, rfl⟩
    cases k with
    | zero => unfold iter; rw [if_pos h0]; simp
    | succ k => rw [iter, if_pos h0]; simp
  | n + 1, k, lo, hi, s, w, rest, hk, hlo, hhi, hs, ht => by
    obtain ⟨u, v, rfl, hu, hv⟩ := ht
    by_cases hz : lo = 0 ∧ u = []
    · obtain ⟨h0, rfl⟩ := hz
      exact iter_complete hf n k lo hi s v rest hk (by omega) (fun h e => by have := hhi h e; omega) hs hv
    · rw [List.append_assoc] at hs
      obtain ⟨x, hx, ex, ep⟩ := (hf s (lastOr s.prev u) (v ++ rest)).2 ⟨u, hs, rfl, hu⟩
      have hul : u.length + x.rest.length = s.rest.length := by rw [hs, ex]; simp
      have hne : lo ≠ 0 ∨ 0 < u.length := by
        by_cases h0 : lo = 0
        · right
          exact List.length_pos_iff.2 (fun e => hz ⟨h0, e⟩)
        · exact Or.inl h0
      obtain ⟨k, rfl⟩ : ∃ j, k = j + 1 := ⟨k - 1, by omega⟩
      have ih := iter_complete hf n k (lo - 1) (hi.map (· - 1)) x v rest (by omega) (by omega) (by
        intro h e
        cases hi with
        | none => cases e
        | some m =>
          have e' : m - 1 = h := by simpa using e
          have := hhi m rfl
          omega) ex (ep ▸ hv)
      obtain ⟨t, ht1, ht2, ht3⟩ := ih
      refine ⟨t, ?_, ht2, by rw [ht3, ep, lastOr_append]⟩
      rw [iter, List.mem_append]
      left
      rw [if_neg (fun e => by have := hhi 0 e; omega), List.mem_flatMap]
      exact ⟨x, hx, by rw [if_neg (by omega)]; exact ht1⟩

/-- The search finds exactly the texts the pattern matches. -/
theorem run_iff (ci : Bool) : ∀ r : Re, r.plain = true → Finds (run ci r) (Reads ci r)
  | .eps, _, s, q, rest => by
    constructor
    · rintro ⟨t, ht, rfl, rfl⟩
      rw [run, List.mem_singleton] at ht
      exact ⟨[], by rw [ht]; rfl, by rw [ht]; rfl, rfl⟩
    · rintro ⟨w, h1, rfl, rfl⟩
      exact ⟨s, by rw [run]; simp, h1, rfl⟩
  | .cls neg l, _, s, q, rest => by
    constructor
    · rintro ⟨t, ht, rfl, rfl⟩
      rw [run, stepCls] at ht
      cases hs : s.rest with
      | nil => rw [hs] at ht; exact absurd ht (by simp)
      | cons c z =>
        by_cases hc : inCls ci neg l c = true
        · rw [hs, if_pos (by simpa using hc), List.mem_singleton] at ht
          refine ⟨[c], ?_, by rw [ht]; rfl, c, rfl, hc⟩
          rw [ht]; show _ = [c] ++ s.rest.drop 1; rw [hs]; rfl
        · rw [hs, if_neg (by simpa using hc)] at ht; cases ht
    · rintro ⟨w, h1, rfl, c, rfl, hc⟩
      refine ⟨s.after [c], ?_, ?_, rfl⟩
      · rw [run, stepCls, h1, if_pos (by simpa using hc)]
        simp
      · show s.rest.drop 1 = rest
        rw [h1]; rfl
  | .cat a b, h, s, q, rest => by
    rw [Re.plain, Bool.and_eq_true] at h
    have ha := run_iff ci a h.1
    have hb := run_iff ci b h.2
    constructor
    · rintro ⟨t, ht, rfl, rfl⟩
      rw [run, List.mem_flatMap] at ht
      obtain ⟨x, hx, ht⟩ := ht
      obtain ⟨u, e1, e2, e3⟩ := (ha s x.prev x.rest).1 ⟨x, hx, rfl, rfl⟩
      obtain ⟨v, f1, f2, f3⟩ := (hb x t.prev t.rest).1 ⟨t, ht, rfl, rfl⟩
      exact ⟨u ++ v, by rw [e1, f1, List.append_assoc], by rw [f2, e2, lastOr_append], u, v, rfl, f1 ▸ e3, e2 ▸ f3⟩
    · rintro ⟨w, h1, rfl, u, v, rfl, hu, hv⟩
      rw [List.append_assoc] at h1
      obtain ⟨x, hx, ex, ep⟩ := (ha s _ _).2 ⟨u, h1, rfl, hu⟩
      obtain ⟨t, ht, et, eq⟩ := (hb x _ _).2 ⟨v, ex, rfl, ep ▸ hv⟩
      exact ⟨t, by rw [run, List.mem_flatMap]; exact ⟨x, hx, ht⟩, et, by rw [eq, ep, lastOr_append]⟩
  | .alt a b, h, s, q, rest => by
    rw [Re.plain, Bool.and_eq_true] at h
    have ha := run_iff ci a h.1 s q rest
    have hb := run_iff ci b h.2 s q rest
    have : Ends (run ci (.alt a b)) s q rest ↔ Ends (run ci a) s q rest ∨ Ends (run ci b) s q rest := by
      constructor
      · rintro ⟨t, ht, e⟩
        rw [run, List.mem_append] at ht
        exact ht.imp (fun h => ⟨t, h, e⟩) (fun h => ⟨t, h, e⟩)
      · rintro (⟨t, ht, e⟩ | ⟨t, ht, e⟩)
        · exact ⟨t, by rw [run, List.mem_append]; exact Or.inl ht, e⟩
        · exact ⟨t, by rw [run, List.mem_append]; exact Or.inr ht, e⟩
    rw [this, ha, hb]
    constructor
    · rintro (⟨w, h1, h2, h3⟩ | ⟨w, h1, h2, h3⟩)
      · exact ⟨w, h1, h2, Or.inl h3⟩
      · exact ⟨w, h1, h2, Or.inr h3⟩
    · rintro ⟨w, h1, h2, h3 | h3⟩
      · exact Or.inl ⟨w, h1, h2, h3⟩
      · exact Or.inr ⟨w, h1, h2, h3⟩
  | .rep lo hi r, h, s, q, rest => by
    have hr := run_iff ci r h
    constructor
    · rintro ⟨t, ht, rfl, rfl⟩
      rw [run] at ht
      obtain ⟨n, w, h1, h2, h3, h4, h5⟩ := iter_sound hr _ _ _ s t ht
      exact ⟨w, h3, h4, n, h1, h2, h5⟩
    · rintro ⟨w, h1, rfl, n, h2, h3, h4⟩
      obtain ⟨t, ht, e⟩ := iter_complete hr n (lo + s.rest.length + 1) lo hi s w rest (by omega) h2 h3 h1 h4
      exact ⟨t, by rw [run]; exact ht, e⟩
  | .grp n r, h, s, q, rest => by
    have hr := run_iff ci r h s q rest
    have : Ends (run ci (.grp n r)) s q rest ↔ Ends (run ci r) s q rest := by
      constructor
      · rintro ⟨t, ht, e1, e2⟩
        rw [run, List.mem_map] at ht
        obtain ⟨x, hx, rfl⟩ := ht
        exact ⟨x, hx, e1, e2⟩
      · rintro ⟨t, ht, e1, e2⟩
        exact ⟨{ t with caps := (n, s.read t) :: t.caps }, by rw [run, List.mem_map]; exact ⟨t, ht, rfl⟩, e1, e2⟩
    rw [this, hr]
    rfl
  | .bos, _, s, q, rest => by
    constructor
    · rintro ⟨t, ht, rfl, rfl⟩
      rw [run] at ht
      by_cases hp : s.prev = none
      · rw [if_pos hp, List.mem_singleton] at ht
        exact ⟨[], by rw [ht]; rfl, by rw [ht]; rfl, rfl, hp⟩
      · rw [if_neg hp] at ht; cases ht
    · rintro ⟨w, h1, rfl, rfl, hp⟩
      exact ⟨s, by rw [run, if_pos hp]; simp, h1, rfl⟩
  | .eos, _, s, q, rest => by
    constructor
    · rintro ⟨t, ht, rfl, rfl⟩
      rw [run] at ht
      by_cases hp : s.rest = [] ∨ s.rest = ['\n']
      · rw [if_pos hp, List.mem_singleton] at ht
        exact ⟨[], by rw [ht]; rfl, by rw [ht]; rfl, rfl, ht ▸ hp⟩
      · rw [if_neg hp] at ht; cases ht
    · rintro ⟨w, h1, rfl, rfl, hp⟩
      exact ⟨s, by rw [run, if_pos (by rw [h1]; exact hp)]; simp, h1, rfl⟩
  | .edge, _, s, q, rest => by
    constructor
    · rintro ⟨t, ht, rfl, rfl⟩
      rw [run] at ht
      by_cases hp : wordAt s.prev = wordAt s.rest.head?
      · rw [if_neg (by simp [hp])] at ht; cases ht
      · rw [if_pos (by simpa using hp), List.mem_singleton] at ht
        exact ⟨[], by rw [ht]; rfl, by rw [ht]; rfl, rfl, ht ▸ hp⟩
    · rintro ⟨w, h1, rfl, rfl, hp⟩
      exact ⟨s, by rw [run, if_pos (by rw [h1]; simpa using hp)]; simp, h1, rfl⟩
  | .back _, h, _, _, _ => by cases h
  | .look neg r, h, s, q, rest => by
    have hr := run_iff ci r h
    have key : (run ci r s).isEmpty = false ↔ ∃ u v, s.rest = u ++ v ∧ Reads ci r s.prev u v := by
      constructor
      · intro e
        cases hl : run ci r s with
        | nil => rw [hl] at e; cases e
        | cons x l =>
          obtain ⟨u, e1, -, e3⟩ := (hr s x.prev x.rest).1 ⟨x, by rw [hl]; simp, rfl, rfl⟩
          exact ⟨u, x.rest, e1, e3⟩
      · rintro ⟨u, v, e1, e2⟩
        obtain ⟨t, ht, -⟩ := (hr s _ v).2 ⟨u, e1, rfl, e2⟩
        cases hl : run ci r s with
        | nil => rw [hl] at ht; cases ht
        | cons x l => rfl
    cases neg with
    | false =>
      constructor
      · rintro ⟨t, ht, rfl, rfl⟩
        rw [run] at ht
        by_cases hp : (run ci r s).isEmpty = false
        · rw [if_pos hp, if_neg (by simp), List.mem_singleton] at ht
          refine ⟨[], by rw [ht]; rfl, by rw [ht]; rfl, rfl, ?_⟩
          rw [ht]; exact key.1 hp
        · rw [if_neg hp] at ht; cases ht
      · rintro ⟨w, h1, rfl, rfl, hp⟩
        have h1' : s.rest = rest := h1
        exact ⟨{ s with caps := ((run ci r s).head?.map Pos.caps).getD s.caps }, by rw [run, if_pos (key.2 (h1' ▸ hp)), if_neg (by simp), List.mem_singleton], h1, rfl⟩
    | true =>
      constructor
      · rintro ⟨t, ht, rfl, rfl⟩
        rw [run] at ht
        by_cases hp : (run ci r s).isEmpty = true
        · rw [if_pos hp, if_pos rfl, List.mem_singleton] at ht
          refine ⟨[], by rw [ht]; rfl, by rw [ht]; rfl, rfl, ?_⟩
          rw [ht]; intro h; have := key.2 h; rw [hp] at this; cases this
        · rw [if_neg hp] at ht; cases ht
      · rintro ⟨w, h1, rfl, rfl, hp⟩
        have h1' : s.rest = rest := h1
        have : (run ci r s).isEmpty = true := by
          cases e : (run ci r s).isEmpty with
          | true => rfl
          | false => exact absurd (key.1 e) (h1' ▸ hp)
        exact ⟨s, by rw [run, if_pos this, if_pos rfl, List.mem_singleton], h1, rfl⟩

/-- A whole text is matched. -/
theorem fullmatch_iff (ci : Bool) (r : Re) (h : r.plain = true) (t : Str) : fullmatch ci r t = true ↔ Reads ci r none t [] := by
  unfold fullmatch
  rw [List.any_eq_true]
  constructor
  · rintro ⟨x, hx, he⟩
    obtain ⟨w, e1, -, e3⟩ := (run_iff ci r h (.start t) x.prev x.rest).1 ⟨x, hx, rfl, rfl⟩
    have hr : x.rest = [] := List.isEmpty_iff.1 he
    rw [hr] at e1 e3
    have : t = w := by rw [List.append_nil] at e1; exact e1
    rw [this]; exact e3
  · intro hR
    obtain ⟨x, hx, he, -⟩ := (run_iff ci r h (.start t) _ []).2 ⟨t, (List.append_nil t).symm, rfl, hR⟩
    exact ⟨x, hx, by rw [he]; rfl⟩

end Verif.Parset
