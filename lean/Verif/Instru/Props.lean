import Verif.Instru.Model
import Mathlib.Tactic.Ring
import Mathlib.Tactic.FieldSimp
import Mathlib.Algebra.BigOperators.Group.List.Basic

/-!
# Arrays of antennas: properties C34, C35, C37, C38, C39 and C40
-/

namespace Verif.Instru

/-! ## C34 Sub-bands -/

theorem sbWidth_pos : (0 : ℚ) < sbWidth := by unfold sbWidth; norm_num

/-- Frequency `f` belongs to sub-band `k`: the bands are centred on multiples of the width. -/
def InBand (k : Int) (f : ℚ) : Prop := (k : ℚ) * sbWidth - sbWidth / 2 ≤ f ∧ f < (k : ℚ) * sbWidth + sbWidth / 2

theorem floor_inBand (f : ℚ) (k : Int) : ⌊f / sbWidth + 1 / 2⌋ = k ↔ InBand k f := by
  have hw := sbWidth_pos
  rw [Int.floor_eq_iff]
  unfold InBand
  constructor
  · rintro ⟨h1, h2⟩
    have e : f = f / sbWidth * sbWidth := by field_simp
    constructor
    · have : ((k : ℚ) - 1 / 2) * sbWidth ≤ f / sbWidth * sbWidth := mul_le_mul_of_nonneg_right (by linarith) hw.le
      rw [← e] at this; linarith
    · have : f / sbWidth * sbWidth < ((k : ℚ) + 1 / 2) * sbWidth := mul_lt_mul_of_pos_right (by linarith) hw
      rw [← e] at this; linarith
  · rintro ⟨h1, h2⟩
    constructor
    · have : (k : ℚ) - 1 / 2 ≤ f / sbWidth := by rw [le_div_iff₀ hw]; linarith
      linarith
    · have : f / sbWidth < (k : ℚ) + 1 / 2 := by rw [div_lt_iff₀ hw]; linarith
      linarith

/-- Each frequency is given the one sub-band that contains it; the call fails exactly when the list is empty or some frequency is outside of 0 to 100 MHz. -/
theorem freq2sb_exact (fs : List ℚ) :
    (∀ ks, freq2sb fs = .ok ks ↔ (fs ≠ [] ∧ (∀ f ∈ fs, 0 ≤ f ∧ f ≤ 100)) ∧ List.Forall₂ (fun k f => InBand k f) ks fs)
    ∧ ((∃ e, freq2sb fs = .error e) ↔ fs = [] ∨ ∃ f ∈ fs, f < 0 ∨ 100 < f) := by
  have hall : ∀ ks : List Int, fs.map (fun f => ⌊f / sbWidth + 1 / 2⌋) = ks ↔ List.Forall₂ (fun k f => InBand k f) ks fs := by
    intro ks
    induction fs generalizing ks with
    | nil => cases ks <;> simp
    | cons f fs ih =>
      cases ks with
      | nil => simp
      | cons k ks => rw [List.map_cons, List.cons.injEq, List.forall₂_cons, ih, floor_inBand]
  have hbad : (fs.any fun f => decide (f < 0) || decide (100 < f)) = true ↔ ∃ f ∈ fs, f < 0 ∨ 100 < f := by
    rw [List.any_eq_true]; simp
  unfold freq2sb
  by_cases h0 : fs = []
  · subst h0; simp
  · rw [if_neg h0]
    by_cases hb : ∃ f ∈ fs, f < 0 ∨ 100 < f
    · rw [if_pos (hbad.mpr hb)]
      refine ⟨fun ks => ⟨fun h => (by cases h), fun h => ?_⟩, ⟨fun _ => Or.inr hb, fun _ => ⟨_, rfl⟩⟩⟩
      obtain ⟨f, hf, hlt⟩ := hb
      have := h.1.2 f hf
      rcases hlt with h | h <;> linarith
    · rw [if_neg (fun h => hb (hbad.mp h))]
      refine ⟨fun ks => ?_, ⟨?_, ?_⟩⟩
      · rw [Except.ok.injEq, hall]
        constructor
        · intro h
          refine ⟨⟨h0, fun f hf => ?_⟩, h⟩
          by_contra hc
          exact hb ⟨f, hf, by by_contra hn; push Not at hn; exact hc ⟨hn.1, hn.2⟩⟩
        · exact fun h => h.2
      · rintro ⟨e, he⟩; cases he
      · rintro (h | h)
        · exact absurd h h0
        · exact absurd h hb

/-- Converting sub-bands to frequencies and back returns the sub-bands, except for sub-band 0. -/
theorem sb_round_trip_partial (ks : List Int) (h0 : ks ≠ []) (h : ∀ k ∈ ks, 1 ≤ k ∧ k ≤ 511) : (sb2freq ks).bind freq2sb = .ok ks := by
  unfold sb2freq
  rw [if_neg h0, if_neg]
  · show freq2sb _ = _
    rw [((freq2sb_exact _).1 ks)]
    have hw := sbWidth_pos
    refine ⟨⟨by simpa using h0, ?_⟩, ?_⟩
    · intro f hf
      obtain ⟨k, hk, rfl⟩ := List.mem_map.mp hf
      obtain ⟨h1, h2⟩ := h k hk
      have h1' : (1 : ℚ) ≤ k := by exact_mod_cast h1
      have h2' : (k : ℚ) ≤ 511 := by exact_mod_cast h2
      unfold sbWidth
      constructor <;> linarith
    · rw [List.forall₂_map_right_iff]
      have : ∀ l : List Int, List.Forall₂ (fun k j : Int => InBand k ((j : ℚ) * sbWidth - sbWidth / 2)) l l := by
        intro l
        induction l with
        | nil => exact .nil
        | cons k l ih => exact .cons ⟨le_refl _, by linarith⟩ ih
      exact this ks
  · rw [Bool.not_eq_true, List.any_eq_false]
    intro k hk
    have := h k hk
    simp only [Bool.or_eq_true, decide_eq_true_eq, not_or]
    omega

example : (sb2freq [1, 256, 511]).bind freq2sb = .ok [1, 256, 511] := sb_round_trip_partial _ (by simp) (by decide)

/-- **C34** (violated): any list with sub-band 0, which starts below 0 MHz, is refused by `freq2sb` on the way back. -/
theorem sb_zero_violated (ks : List Int) (h : ∀ k ∈ ks, 0 ≤ k ∧ k ≤ 511) (h0 : 0 ∈ ks) : (sb2freq ks).bind freq2sb = .error .valueError := by
  unfold sb2freq
  rw [if_neg (List.ne_nil_of_mem h0), if_neg]
  · show freq2sb _ = _
    unfold freq2sb
    rw [if_neg (by simpa using List.ne_nil_of_mem h0), if_pos]
    rw [List.any_eq_true]
    refine ⟨_, List.mem_map.2 ⟨0, h0, rfl⟩, ?_⟩
    decide +kernel
  · rw [Bool.not_eq_true, List.any_eq_false]
    intro k hk
    have := h k hk
    simp only [Bool.or_eq_true, decide_eq_true_eq, not_or]
    omega

example : ∀ k ∈ ([0, 200] : List Int), 0 ≤ k ∧ k ≤ 511 := by decide

/-- The documented start of sub-band `k` is `k` times the width; the value returned is half a width lower. -/
theorem sb_start_violated (k : Int) (h : 0 ≤ k ∧ k ≤ 511) : ∃ f, sb2freq [k] = .ok [f] ∧ f = (k : ℚ) * sbWidth - sbWidth / 2 ∧ f ≠ (k : ℚ) * sbWidth := by
  refine ⟨(k : ℚ) * sbWidth - sbWidth / 2, ?_, rfl, ?_⟩
  · unfold sb2freq
    rw [if_neg (by simp), if_neg]
    · rfl
    · rw [Bool.not_eq_true, List.any_eq_false]
      intro x hx
      have := List.mem_singleton.mp hx
      simp only [Bool.or_eq_true, decide_eq_true_eq, not_or]
      omega
  · have := sbWidth_pos
    intro e; linarith

/-- Sub-bands are between 0 and 512; 512 only occurs in the upper half band. -/
theorem sb_range (f : ℚ) (k : Int) (h : freq2sb [f] = .ok [k]) : 0 ≤ k ∧ k ≤ 512 ∧ (k = 512 ↔ 100 - sbWidth / 2 ≤ f) := by
  obtain ⟨⟨-, hr⟩, hb⟩ := ((freq2sb_exact [f]).1 [k]).mp h
  rw [List.forall₂_cons] at hb
  obtain ⟨⟨h1, h2⟩, -⟩ := hb
  obtain ⟨h3, h4⟩ := hr f (by simp)
  unfold sbWidth at *
  have a1 : (-1 : ℚ) < k := by linarith
  have a2 : (k : ℚ) < 513 := by linarith
  have b1 : (-1 : Int) < k := by exact_mod_cast a1
  have b2 : k < (513 : Int) := by exact_mod_cast a2
  refine ⟨by omega, by omega, ⟨?_, ?_⟩⟩
  · rintro rfl; push_cast at h1; linarith
  · intro h
    have : (511 : ℚ) < k := by linarith
    have : (511 : Int) < k := by exact_mod_cast this
    omega

/-- **C34** (violated): all frequencies of the upper half of the last band, up to 100 MHz, are given sub-band 512, which `sb2freq` refuses in any list. -/
theorem sb_512_violated (f : ℚ) (h1 : 100 - sbWidth / 2 ≤ f) (h2 : f ≤ 100) : freq2sb [f] = .ok [512] ∧ ∀ ks, 512 ∈ ks → sb2freq ks = .error .valueError := by
  constructor
  · rw [(freq2sb_exact [f]).1 [512]]
    refine ⟨⟨by simp, fun g hg => ?_⟩, .cons ⟨?_, ?_⟩ .nil⟩
    · rw [List.mem_singleton.1 hg]
      unfold sbWidth at h1
      exact ⟨by linarith, h2⟩
    · unfold sbWidth at *
      push_cast
      linarith
    · unfold sbWidth at *
      push_cast
      linarith
  · intro ks hk
    unfold sb2freq
    rw [if_neg (List.ne_nil_of_mem hk), if_pos]
    rw [List.any_eq_true]
    exact ⟨512, hk, by decide⟩

example : freq2sb [100] = .ok [512] := (sb_512_violated 100 (by norm_num [sbWidth]) le_rfl).1

/-! ## Masks -/

theorem pickFrom_filter {α : Type} (m : Nat → Bool) (p : α → Bool) : ∀ (l : List α) (k : Nat), (∀ i x, l[i]? = some x → m (k + i) = p x) → pickFrom m k l = l.filter p
  | [], _, _ => rfl
  | x :: l, k, h => by
    have h0 : m k = p x := by simpa using h 0 x rfl
    have ih := pickFrom_filter m p l (k + 1) (fun i y hy => by
      have := h (i + 1) y (by simpa using hy)
      rw [show k + 1 + i = k + (i + 1) by omega]; exact this)
    rw [pickFrom, ih, h0]
    by_cases hp : p x
    · rw [if_pos hp, List.filter_cons_of_pos hp]
    · rw [if_neg hp, List.filter_cons_of_neg hp]

theorem pickFrom_zip {α β : Type} (m : Nat → Bool) : ∀ (a : List α) (b : List β) (k : Nat), a.length = b.length → pickFrom m k (a.zip b) = (pickFrom m k a).zip (pickFrom m k b)
  | [], b, k, h => by cases b <;> simp [pickFrom]
  | x :: a, [], k, h => by simp at h
  | x :: a, y :: b, k, h => by
    have ih := pickFrom_zip m a b (k + 1) (by simpa using h)
    rw [List.zip_cons_cons, pickFrom, pickFrom, pickFrom]
    by_cases hm : m k
    · rw [if_pos hm, if_pos hm, if_pos hm, List.zip_cons_cons, ih]
    · rw [if_neg hm, if_neg hm, if_neg hm, ih]

theorem pickFrom_length {α β : Type} (m : Nat → Bool) : ∀ (a : List α) (b : List β) (k : Nat), a.length = b.length → (pickFrom m k a).length = (pickFrom m k b).length
  | [], b, k, h => by cases b <;> simp_all [pickFrom]
  | x :: a, [], k, h => by simp at h
  | x :: a, y :: b, k, h => by
    have ih := pickFrom_length m a b (k + 1) (by simpa using h)
    rw [pickFrom, pickFrom]
    by_cases hm : m k
    · rw [if_pos hm, if_pos hm, List.length_cons, List.length_cons, ih]
    · rw [if_neg hm, if_neg hm, ih]

theorem pickFrom_sublist {α : Type} (m : Nat → Bool) : ∀ (a : List α) (k : Nat), (pickFrom m k a).Sublist a
  | [], _ => List.Sublist.refl _
  | x :: a, k => by
    rw [pickFrom]
    split
    · exact (pickFrom_sublist m a (k + 1)).cons_cons x
    · exact (pickFrom_sublist m a (k + 1)).cons x

theorem mem_pickFrom {α : Type} (m : Nat → Bool) (x : α) : ∀ (a : List α) (k : Nat), x ∈ pickFrom m k a ↔ ∃ i, a[i]? = some x ∧ m (k + i) = true
  | [], k => by simp [pickFrom]
  | y :: a, k => by
    have ih := mem_pickFrom m x a (k + 1)
    have hsplit : (∃ i, (y :: a)[i]? = some x ∧ m (k + i) = true) ↔ (y = x ∧ m k = true) ∨ ∃ i, a[i]? = some x ∧ m (k + 1 + i) = true := by
      constructor
      · rintro ⟨i, h1, h2⟩
        cases i with
        | zero => left; exact ⟨by simpa using h1, by simpa using h2⟩
        | succ i => right; exact ⟨i, by simpa using h1, by rw [show k + 1 + i = k + (i + 1) by omega]; exact h2⟩
      · rintro (⟨h1, h2⟩ | ⟨i, h1, h2⟩)
        · exact ⟨0, by simp [h1], by simpa using h2⟩
        · exact ⟨i + 1, by simpa using h1, by rw [show k + (i + 1) = k + 1 + i by omega]; exact h2⟩
    rw [hsplit, pickFrom, ← ih]
    by_cases hm : m k
    · rw [if_pos hm, List.mem_cons]; simp [hm, eq_comm]
    · rw [if_neg hm]; simp [hm]

/-! ## C35 Algebra of arrays -/

variable {P Gn : Type}

/-- An antenna with all that is attached to it. -/
abbrev Ant (P Gn : Type) := String × P × Gn × ℚ × ℚ

/-- The antennas of an array. -/
def Interf.rows (s : Interf P Gn) : List (Ant P Gn) := s.names.zip (s.pos.zip (s.gains.zip (s.weights.zip s.delays)))

/-- A correct array: one name, position, gain, weight and delay for each antenna, different names, weights between 0 and 1. -/
structure Interf.Ok (s : Interf P Gn) : Prop where
  names : s.names.length = s.size
  gains : s.gains.length = s.size
  weights : s.weights.length = s.size
  delays : s.delays.length = s.size
  nodup : s.names.Nodup
  range : ∀ w ∈ s.weights, 0 ≤ w ∧ w ≤ 1

theorem rows_names {s : Interf P Gn} (h : s.Ok) : s.rows.map Prod.fst = s.names := by
  unfold Interf.rows
  rw [List.map_fst_zip]
  have := h.names; have := h.gains; have := h.weights; have := h.delays
  unfold Interf.size at *
  simp only [List.length_zip]; omega

theorem assemble_ok {n : List String} {p : List P} {g : List Gn} {w d : List ℚ} {r : Interf P Gn} (h : assemble n p g w d = .ok r) :
    r = ⟨n, p, g, w, d⟩ ∧ w.length = p.length ∧ w ≠ [] ∧ (∀ x ∈ w, 0 ≤ x ∧ x ≤ 1) ∧ d.length = p.length := by
  unfold assemble at h
  cases hw : checkWeights p.length w with
  | error e => rw [hw] at h; cases h
  | ok u =>
    rw [hw] at h
    change (checkDelays p.length d).map _ = _ at h
    cases hd : checkDelays p.length d with
    | error e => rw [hd] at h; cases h
    | ok v =>
      rw [hd] at h
      injection h with h
      unfold checkWeights at hw
      split at hw
      · cases hw
      · rename_i h1
        split at hw
        · cases hw
        · rename_i h2
          split at hw
          · cases hw
          · rename_i h3
            unfold checkDelays at hd
            split at hd
            · cases hd
            · rename_i h4
              refine ⟨h.symm, by omega, h2, fun x hx => ?_, by omega⟩
              rw [Bool.not_eq_true, List.any_eq_false] at h3
              have := h3 x hx
              simp only [Bool.or_eq_true, decide_eq_true_eq, not_or, not_lt] at this
              exact this

theorem assemble_succeeds {n : List String} {p : List P} {g : List Gn} {w d : List ℚ} (hw : w.length = p.length) (h0 : w ≠ []) (hr : ∀ x ∈ w, 0 ≤ x ∧ x ≤ 1) (hd : d.length = p.length) :
    assemble n p g w d = .ok ⟨n, p, g, w, d⟩ := by
  unfold assemble checkWeights checkDelays
  rw [if_neg (by omega), if_neg h0, if_neg, if_neg (by omega)]
  · rfl
  · rw [Bool.not_eq_true, List.any_eq_false]
    intro x hx
    have := hr x hx
    simp only [Bool.or_eq_true, decide_eq_true_eq, not_or, not_lt]
    exact this

/-- Restricting an array with a mask restricts the list of antennas, each one whole. -/
theorem mask_rows {s r : Interf P Gn} (h : s.Ok) (m : Nat → Bool) (hr : s.mask m = .ok r) : r.rows = pickFrom m 0 s.rows ∧ r.Ok := by
  obtain ⟨rfl, h1, h2, h3, h4⟩ := assemble_ok hr
  have hn := h.names; have hg := h.gains; have hw := h.weights; have hd := h.delays
  unfold Interf.size at hn hg hw hd
  constructor
  · unfold Interf.rows pick
    simp only
    rw [pickFrom_zip m s.names _ 0 (by simp only [List.length_zip]; omega), pickFrom_zip m s.pos _ 0 (by simp only [List.length_zip]; omega),
      pickFrom_zip m s.gains _ 0 (by simp only [List.length_zip]; omega), pickFrom_zip m s.weights _ 0 (by omega)]
  · exact ⟨pickFrom_length m _ _ 0 hn, pickFrom_length m _ _ 0 hg, h1, h4, h.nodup.sublist (pickFrom_sublist m _ 0), h3⟩

theorem mask_succeeds {s : Interf P Gn} (h : s.Ok) (m : Nat → Bool) : (∃ r, s.mask m = .ok r) ↔ ∃ i, i < s.size ∧ m i = true := by
  have hw := h.weights; have hd := h.delays
  unfold Interf.size at hw hd
  have key : pickFrom m 0 s.weights ≠ [] ↔ ∃ i, i < s.size ∧ m i = true := by
    constructor
    · intro hne
      obtain ⟨x, hx⟩ := List.exists_mem_of_ne_nil _ hne
      obtain ⟨i, hi, hm⟩ := (mem_pickFrom m x s.weights 0).mp hx
      obtain ⟨hlt, -⟩ := List.getElem?_eq_some_iff.mp hi
      exact ⟨i, by unfold Interf.size; omega, by simpa using hm⟩
    · rintro ⟨i, hi, hm⟩
      have hlt : i < s.weights.length := by unfold Interf.size at hi; omega
      exact List.ne_nil_of_mem ((mem_pickFrom m s.weights[i] s.weights 0).mpr ⟨i, List.getElem?_eq_getElem hlt, by simpa using hm⟩)
  constructor
  · rintro ⟨r, hr⟩
    exact key.mp (assemble_ok hr).2.2.1
  · intro hi
    refine ⟨_, assemble_succeeds (pickFrom_length m _ _ 0 hw) (key.mpr hi) ?_ (pickFrom_length m _ _ 0 hd)⟩
    intro x hx
    exact h.range x ((pickFrom_sublist m _ 0).subset hx)

theorem pick_nameIn {s : Interf P Gn} (h : s.Ok) (q : String → Bool) (m : Nat → Bool) (hm : ∀ i x, s.names[i]? = some x → m i = q x) :
    pickFrom m 0 s.rows = s.rows.filter fun a => q a.1 := by
  refine pickFrom_filter m (fun a : Ant P Gn => q a.1) s.rows 0 (fun i a hi => ?_)
  rw [Nat.zero_add]
  apply hm
  rw [← rows_names h, List.getElem?_map, hi]; rfl

/-- Selection by names: the antennas of these names, whole, in the order of the array. -/
theorem select_names_exact {s r : Interf P Gn} (h : s.Ok) (l : List String) (hr : s.selectNames l = .ok r) :
    r.rows = s.rows.filter (fun a => decide (a.1 ∈ l)) ∧ r.Ok ∧ (∀ x, x ∈ r.names ↔ x ∈ l) := by
  unfold Interf.selectNames at hr
  split at hr
  · cases hr
  · split at hr
    · cases hr
    · split at hr
      · cases hr
      · rename_i h3
        obtain ⟨h4, h5⟩ := mask_rows h _ hr
        rw [pick_nameIn h (fun x => decide (x ∈ l)) (nameIn s l) (fun i x hx => by unfold nameIn; rw [hx]; rfl)] at h4
        refine ⟨h4, h5, fun x => ?_⟩
        rw [← rows_names h5, h4, List.mem_map]
        constructor
        · rintro ⟨a, ha, rfl⟩
          simpa using (List.mem_filter.mp ha).2
        · intro hx
          have hmem : x ∈ s.names := by
            rw [Bool.not_eq_true, List.any_eq_false] at h3
            simpa using h3 x hx
          rw [← rows_names h] at hmem
          obtain ⟨a, ha, rfl⟩ := List.mem_map.mp hmem
          exact ⟨a, List.mem_filter.mpr ⟨ha, by simpa using hx⟩, rfl⟩

/-- It succeeds exactly for non-empty lists of different names of the array. -/
theorem select_names_succeeds {s : Interf P Gn} (h : s.Ok) (l : List String) : (∃ r, s.selectNames l = .ok r) ↔ l ≠ [] ∧ l.Nodup ∧ ∀ x ∈ l, x ∈ s.names := by
  unfold Interf.selectNames
  by_cases h1 : l = []
  · rw [if_pos h1]; simp [h1]
  · rw [if_neg h1]
    by_cases h2 : l.Nodup
    · rw [if_neg (not_not.mpr h2)]
      by_cases h3 : ∀ x ∈ l, x ∈ s.names
      · rw [if_neg]
        · rw [mask_succeeds h]
          refine ⟨fun _ => ⟨h1, h2, h3⟩, fun _ => ?_⟩
          obtain ⟨x, hx⟩ := List.exists_mem_of_ne_nil _ h1
          obtain ⟨i, hi⟩ := List.mem_iff_getElem?.mp (h3 x hx)
          obtain ⟨hlt, -⟩ := List.getElem?_eq_some_iff.mp hi
          have := h.names
          refine ⟨i, by omega, ?_⟩
          unfold nameIn; rw [hi]; simpa using hx
        · rw [Bool.not_eq_true, List.any_eq_false]
          intro x hx; simpa using h3 x hx
      · rw [if_pos]
        · constructor
          · rintro ⟨r, hr⟩; cases hr
          · exact fun hh => absurd hh.2.2 h3
        · push Not at h3
          obtain ⟨x, hx, hn⟩ := h3
          exact List.any_eq_true.mpr ⟨x, hx, by simpa using hn⟩
    · rw [if_pos h2]
      constructor
      · rintro ⟨r, hr⟩; cases hr
      · exact fun hh => absurd hh.2.1 h2

/-- Selection by non-negative positions: the antennas at these positions, in the order of the array. -/
theorem select_idx_exact {s r : Interf P Gn} (h : s.Ok) (l : List Int) (hr : s.selectIdx l = .ok r) :
    r.Ok ∧ ∀ a, a ∈ r.rows ↔ ∃ i : Nat, (i : Int) ∈ l ∧ s.rows[i]? = some a := by
  unfold Interf.selectIdx at hr
  split at hr
  · cases hr
  · split at hr
    · cases hr
    · split at hr
      · cases hr
      · obtain ⟨h4, h5⟩ := mask_rows h _ hr
        refine ⟨h5, fun a => ?_⟩
        rw [h4, mem_pickFrom]
        constructor
        · rintro ⟨i, h1, h2⟩; exact ⟨i, by simpa using h2, h1⟩
        · rintro ⟨i, h1, h2⟩; exact ⟨i, h2, by simpa using h1⟩

/-- It succeeds exactly for lists of different numbers below the size of which at least one is a position. -/
theorem select_idx_succeeds {s : Interf P Gn} (h : s.Ok) (l : List Int) :
    (∃ r, s.selectIdx l = .ok r) ↔ l.Nodup ∧ (∀ x ∈ l, x < s.size) ∧ ∃ x ∈ l, 0 ≤ x := by
  unfold Interf.selectIdx
  by_cases h1 : l = []
  · rw [if_pos h1]; simp [h1]
  · rw [if_neg h1]
    by_cases h2 : l.Nodup
    · rw [if_neg (not_not.mpr h2)]
      by_cases h3 : ∀ x ∈ l, x < s.size
      · rw [if_neg]
        · rw [mask_succeeds h]
          constructor
          · rintro ⟨i, -, hi⟩
            exact ⟨h2, h3, i, by simpa using hi, by omega⟩
          · rintro ⟨-, -, x, hx, h0⟩
            have := h3 x hx
            refine ⟨x.toNat, by omega, ?_⟩
            rw [decide_eq_true_eq, Int.toNat_of_nonneg h0]
            exact hx
        · rw [Bool.not_eq_true, List.any_eq_false]
          intro x hx
          have := h3 x hx
          simp only [decide_eq_true_eq]
          omega
      · rw [if_pos]
        · constructor
          · rintro ⟨r, hr⟩; cases hr
          · exact fun hh => absurd hh.2.1 h3
        · push Not at h3
          obtain ⟨x, hx, hn⟩ := h3
          exact List.any_eq_true.mpr ⟨x, hx, by simpa using hn⟩
    · rw [if_pos h2]
      constructor
      · rintro ⟨r, hr⟩; cases hr
      · exact fun hh => absurd hh.1 h2

/-- Selection by a slice with an end: the antennas from the start, zero if there is none, to the end, excluded. -/
theorem select_slice_exact {s r : Interf P Gn} (h : s.Ok) (a : Option Int) (b : Int) (hr : s.selectSlice a (some b) = .ok r) :
    r.Ok ∧ ∀ x, x ∈ r.rows ↔ ∃ i : Nat, a.getD 0 ≤ i ∧ (i : Int) < b ∧ s.rows[i]? = some x := by
  obtain ⟨h1, h2⟩ := select_idx_exact h _ hr
  refine ⟨h1, fun x => ?_⟩
  rw [h2]
  refine exists_congr fun i => ?_
  have : (i : Int) ∈ sliceIdx a (some b) ↔ a.getD 0 ≤ i ∧ (i : Int) < b := by
    unfold sliceIdx
    simp only [List.mem_map, List.mem_range]
    constructor
    · rintro ⟨k, hk, e⟩; omega
    · rintro ⟨h3, h4⟩; exact ⟨(i - a.getD 0).toNat, by omega, by omega⟩
  rw [this, and_assoc]

/-- Union: the antennas of the first array, then those of the second one with other names. -/
theorem add_exact {s o r : Interf P Gn} (h : s.Ok) (ho : o.Ok) (hr : s.add o = .ok r) :
    r.rows = s.rows ++ o.rows.filter (fun a => !decide (a.1 ∈ s.names)) ∧ r.Ok ∧ (∀ x, x ∈ r.names ↔ x ∈ s.names ∨ x ∈ o.names) := by
  unfold Interf.add at hr
  obtain ⟨rfl, h1, h2, h3, h4⟩ := assemble_ok hr
  have hn := h.names; have hg := h.gains; have hw := h.weights; have hd := h.delays
  have hn' := ho.names; have hg' := ho.gains; have hw' := ho.weights; have hd' := ho.delays
  unfold Interf.size at hn hg hw hd hn' hg' hw' hd'
  have hm : pickFrom (fun i => !nameIn o s.names i) 0 o.rows = o.rows.filter fun a => !decide (a.1 ∈ s.names) :=
    pick_nameIn ho (fun x => !decide (x ∈ s.names)) _ (fun i x hx => by unfold nameIn; rw [hx]; rfl)
  have hnames : pickFrom (fun i => !nameIn o s.names i) 0 o.names = o.names.filter fun x => !decide (x ∈ s.names) :=
    pickFrom_filter _ _ _ 0 (fun i x hx => by rw [Nat.zero_add]; unfold nameIn; rw [hx]; rfl)
  have hrows : Interf.rows ⟨s.names ++ pick (fun i => !nameIn o s.names i) o.names, s.pos ++ pick (fun i => !nameIn o s.names i) o.pos,
      s.gains ++ pick (fun i => !nameIn o s.names i) o.gains, s.weights ++ pick (fun i => !nameIn o s.names i) o.weights,
      s.delays ++ pick (fun i => !nameIn o s.names i) o.delays⟩ = s.rows ++ o.rows.filter (fun a => !decide (a.1 ∈ s.names)) := by
    rw [← hm]
    unfold Interf.rows pick
    simp only
    rw [pickFrom_zip _ o.names _ 0 (by simp only [List.length_zip]; omega), pickFrom_zip _ o.pos _ 0 (by simp only [List.length_zip]; omega),
      pickFrom_zip _ o.gains _ 0 (by simp only [List.length_zip]; omega), pickFrom_zip _ o.weights _ 0 (by omega)]
    rw [List.zip_append (by simp only [hw, hd]), List.zip_append (by simp only [List.length_zip]; omega),
      List.zip_append (by simp only [List.length_zip]; omega), List.zip_append (by simp only [List.length_zip]; omega)]
  refine ⟨hrows, ?_, ?_⟩
  · refine ⟨?_, ?_, h1, h4, ?_, h3⟩
    · show (s.names ++ pickFrom _ 0 o.names).length = (s.pos ++ pickFrom _ 0 o.pos).length
      rw [List.length_append, List.length_append, hn, pickFrom_length _ _ _ 0 hn']
    · show (s.gains ++ pickFrom _ 0 o.gains).length = (s.pos ++ pickFrom _ 0 o.pos).length
      rw [List.length_append, List.length_append, hg, pickFrom_length _ _ _ 0 hg']
    · show (s.names ++ pickFrom _ 0 o.names).Nodup
      rw [hnames, List.nodup_append]
      refine ⟨h.nodup, ho.nodup.filter _, ?_⟩
      intro a ha b hb heq
      have := (List.mem_filter.mp hb).2
      subst heq
      simp [ha] at this
  · intro x
    show x ∈ s.names ++ pickFrom _ 0 o.names ↔ _
    rw [hnames, List.mem_append, List.mem_filter]
    constructor
    · rintro (h | h)
      · exact Or.inl h
      · exact Or.inr h.1
    · rintro (h | h)
      · exact Or.inl h
      · by_cases hx : x ∈ s.names
        · exact Or.inl hx
        · exact Or.inr ⟨h, by simp [hx]⟩

/-- The union of two correct arrays, the first one not empty, always exists. -/
theorem add_succeeds {s o : Interf P Gn} (h : s.Ok) (ho : o.Ok) (h0 : 0 < s.size) : ∃ r, s.add o = .ok r := by
  have hw := h.weights; have hd := h.delays
  have hw' := ho.weights; have hd' := ho.delays
  unfold Interf.size at hw hd hw' hd' h0
  refine ⟨_, assemble_succeeds ?_ ?_ ?_ ?_⟩
  · unfold pick; rw [List.length_append, List.length_append, hw, pickFrom_length _ _ _ 0 hw']
  · intro he
    have := congrArg List.length he
    rw [List.length_append, List.length_nil] at this
    omega
  · intro x hx
    rcases List.mem_append.mp hx with hx | hx
    · exact h.range x hx
    · exact ho.range x ((pickFrom_sublist _ _ 0).subset hx)
  · unfold pick; rw [List.length_append, List.length_append, hd, pickFrom_length _ _ _ 0 hd']

/-- Difference: the antennas whose name is not in the other array. -/
theorem sub_exact {s o r : Interf P Gn} (h : s.Ok) (hr : s.sub o = .ok r) :
    r.rows = s.rows.filter (fun a => !decide (a.1 ∈ o.names)) ∧ r.Ok ∧ (∀ x, x ∈ r.names ↔ x ∈ s.names ∧ x ∉ o.names) := by
  obtain ⟨h4, h5⟩ := mask_rows h _ hr
  rw [pick_nameIn h (fun x => !decide (x ∈ o.names)) _ (fun i x hx => by unfold nameIn; rw [hx]; rfl)] at h4
  refine ⟨h4, h5, fun x => ?_⟩
  rw [← rows_names h5, h4, ← rows_names h, List.mem_map, List.mem_map]
  constructor
  · rintro ⟨a, ha, rfl⟩
    obtain ⟨h1, h2⟩ := List.mem_filter.mp ha
    exact ⟨⟨a, h1, rfl⟩, by simpa using h2⟩
  · rintro ⟨⟨a, ha, rfl⟩, hn⟩
    exact ⟨a, List.mem_filter.mpr ⟨ha, by simpa using hn⟩, rfl⟩

/-- It exists exactly when something is left. -/
theorem sub_succeeds {s o : Interf P Gn} (h : s.Ok) : (∃ r, s.sub o = .ok r) ↔ ∃ x ∈ s.names, x ∉ o.names := by
  unfold Interf.sub
  rw [mask_succeeds h]
  have hn := h.names
  constructor
  · rintro ⟨i, hi, hm⟩
    have hlt : i < s.names.length := by omega
    refine ⟨s.names[i], List.getElem_mem hlt, ?_⟩
    unfold nameIn at hm
    rw [List.getElem?_eq_getElem hlt] at hm
    simpa using hm
  · rintro ⟨x, hx, hnx⟩
    obtain ⟨i, hi⟩ := List.mem_iff_getElem?.mp hx
    obtain ⟨hlt, -⟩ := List.getElem?_eq_some_iff.mp hi
    refine ⟨i, by omega, ?_⟩
    unfold nameIn; rw [hi]; simpa using hnx

/-- Chains of operations. -/
inductive Expr (P Gn : Type)
  | leaf (s : Interf P Gn)
  | names (e : Expr P Gn) (l : List String)
  | idx (e : Expr P Gn) (l : List Int)
  | slice (e : Expr P Gn) (a b : Option Int)
  | add (e f : Expr P Gn)
  | sub (e f : Expr P Gn)

/-- What Python computes. -/
def Expr.eval : Expr P Gn → Except Err (Interf P Gn)
  | .leaf s => .ok s
  | .names e l => e.eval.bind fun s => s.selectNames l
  | .idx e l => e.eval.bind fun s => s.selectIdx l
  | .slice e a b => e.eval.bind fun s => s.selectSlice a b
  | .add e f => e.eval.bind fun s => f.eval.bind fun o => s.add o
  | .sub e f => e.eval.bind fun s => f.eval.bind fun o => s.sub o

/-- The arrays a chain starts from. -/
def Expr.leaves : Expr P Gn → List (Interf P Gn)
  | .leaf s => [s]
  | .names e _ | .idx e _ | .slice e _ _ => e.leaves
  | .add e f | .sub e f => e.leaves ++ f.leaves

theorem bind_ok {α β : Type} {x : Except Err α} {f : α → Except Err β} {r : β} (h : x.bind f = .ok r) : ∃ a, x = .ok a ∧ f a = .ok r := by
  cases x with
  | error e => cases h
  | ok a => exact ⟨a, rfl, h⟩

/-- Whatever the chain of selections, unions and differences, the result is a correct array whose antennas are, with all their attributes, antennas of the arrays it started from. -/
theorem chain_exact : ∀ (e : Expr P Gn) (r : Interf P Gn), (∀ s ∈ e.leaves, s.Ok) → e.eval = .ok r → r.Ok ∧ ∀ a ∈ r.rows, ∃ s ∈ e.leaves, a ∈ s.rows
  | .leaf s, r, h, hr => by
    have e : s = r := by simpa [Expr.eval] using hr
    subst e
    exact ⟨h s (by simp [Expr.leaves]), fun a ha => ⟨s, by simp [Expr.leaves], ha⟩⟩
  | .names e l, r, h, hr => by
    obtain ⟨s, hs, hr⟩ := bind_ok hr
    obtain ⟨h1, h2⟩ := chain_exact e s h hs
    obtain ⟨h3, h4, -⟩ := select_names_exact h1 l hr
    exact ⟨h4, fun a ha => h2 a (by rw [h3] at ha; exact (List.mem_filter.mp ha).1)⟩
  | .idx e l, r, h, hr => by
    obtain ⟨s, hs, hr⟩ := bind_ok hr
    obtain ⟨h1, h2⟩ := chain_exact e s h hs
    obtain ⟨h3, h4⟩ := select_idx_exact h1 l hr
    refine ⟨h3, fun a ha => h2 a ?_⟩
    obtain ⟨i, -, hi⟩ := (h4 a).mp ha
    exact List.mem_of_getElem? hi
  | .slice e x y, r, h, hr => by
    obtain ⟨s, hs, hr⟩ := bind_ok hr
    obtain ⟨h1, h2⟩ := chain_exact e s h hs
    obtain ⟨h3, h4⟩ := select_idx_exact h1 _ hr
    refine ⟨h3, fun a ha => h2 a ?_⟩
    obtain ⟨i, -, hi⟩ := (h4 a).mp ha
    exact List.mem_of_getElem? hi
  | .add e f, r, h, hr => by
    obtain ⟨s, hs, hr⟩ := bind_ok hr
    obtain ⟨o, ho, hr⟩ := bind_ok hr
    obtain ⟨h1, h2⟩ := chain_exact e s (fun x hx => h x (List.mem_append_left _ hx)) hs
    obtain ⟨h3, h4⟩ := chain_exact f o (fun x hx => h x (List.mem_append_right _ hx)) ho
    obtain ⟨h5, h6, -⟩ := add_exact h1 h3 hr
    refine ⟨h6, fun a ha => ?_⟩
    rw [h5] at ha
    rcases List.mem_append.mp ha with ha | ha
    · obtain ⟨x, hx, hh⟩ := h2 a ha
      exact ⟨x, List.mem_append_left _ hx, hh⟩
    · obtain ⟨x, hx, hh⟩ := h4 a (List.mem_filter.mp ha).1
      exact ⟨x, List.mem_append_right _ hx, hh⟩
  | .sub e f, r, h, hr => by
    obtain ⟨s, hs, hr⟩ := bind_ok hr
    obtain ⟨o, ho, hr⟩ := bind_ok hr
    obtain ⟨h1, h2⟩ := chain_exact e s (fun x hx => h x (List.mem_append_left _ hx)) hs
    obtain ⟨h5, h6, -⟩ := sub_exact h1 hr
    refine ⟨h6, fun a ha => ?_⟩
    rw [h5] at ha
    obtain ⟨x, hx, hh⟩ := h2 a (List.mem_filter.mp ha).1
    exact ⟨x, List.mem_append_left _ hx, hh⟩

/-- Three antennas. -/
def demo : Interf Nat Nat := Interf.new ["A", "B", "C"] [10, 20, 30] [1, 2, 3]

theorem demo_ok : demo.Ok := ⟨rfl, rfl, rfl, rfl, by decide, by decide +kernel⟩

example : (demo.selectNames ["C", "A"]).map Interf.rows = .ok [("A", 10, 1, 1, 0), ("C", 30, 3, 1, 0)] := by decide +kernel

example : ((demo.selectNames ["C"]).bind fun c => demo.sub c).map Interf.names = .ok ["A", "B"] := by decide +kernel

example : (demo.selectSlice (some 1) (some 3)).map Interf.names = .ok ["B", "C"] := by decide +kernel

/-- Invalid requests: duplicates, unknown names, positions beyond the end, nothing. -/
theorem select_errors : (demo.selectNames ["A", "A"]).toOption.isNone ∧ (demo.selectNames ["Z"]).toOption.isNone ∧ (demo.selectIdx [3]).toOption.isNone
    ∧ (demo.selectIdx []).toOption.isNone := by decide +kernel

/-- **C35** (violated): negative positions, which count from the end everywhere else, are accepted and select nothing. -/
theorem negative_index_violated {s : Interf P Gn} (l : List Int) (j : Int) (hl : l ≠ []) (hj : j < 0) (hn : j ∉ l) :
    s.selectIdx (l ++ [j]) = s.selectIdx l := by
  have hd : (l ++ [j]).Nodup ↔ l.Nodup := by
    rw [List.nodup_append]
    constructor
    · exact fun h => h.1
    · refine fun h => ⟨h, List.nodup_singleton _, fun a ha b hb e => ?_⟩
      rw [List.mem_singleton] at hb
      exact hn (hb ▸ e ▸ ha)
  have ha : ((l ++ [j]).any fun x => decide ((s.size : Int) ≤ x)) = l.any fun x => decide ((s.size : Int) ≤ x) := by
    rw [List.any_append]
    have : ([j].any fun x => decide ((s.size : Int) ≤ x)) = false := by
      rw [List.any_eq_false]
      intro x hx
      rw [List.mem_singleton] at hx
      rw [decide_eq_true_iff]
      omega
    rw [this, Bool.or_false]
  have hm : (fun i : Nat => decide ((i : Int) ∈ l ++ [j])) = fun i : Nat => decide ((i : Int) ∈ l) := by
    funext i
    rw [decide_eq_decide, List.mem_append, List.mem_singleton]
    constructor
    · rintro (h | h)
      · exact h
      · omega
    · exact Or.inl
  unfold Interf.selectIdx
  rw [if_neg (by simp), if_neg hl, ha, hm]
  by_cases h : l.Nodup
  · rw [if_neg (not_not.2 (hd.2 h)), if_neg (not_not.2 h)]
  · rw [if_pos (fun h' => h (hd.1 h')), if_pos h]

example : (demo.selectIdx [0, -1]).map Interf.names = .ok ["A"] := by decide +kernel

/-- **C35** (violated): a slice without an end selects the antennas before its start instead of those from its start. -/
theorem open_slice_violated {s : Interf P Gn} (h : s.Ok) (a : Nat) (h0 : 0 < a) (ha : a ≤ s.size) :
    ∃ r, s.selectSlice (some a) none = .ok r ∧ ∀ x, x ∈ r.rows ↔ ∃ i : Nat, i < a ∧ s.rows[i]? = some x := by
  have hm : ∀ x : Int, x ∈ sliceIdx (some (a : Int)) none ↔ 0 ≤ x ∧ x < a := by
    intro x
    show x ∈ (List.range ((a : Int)).toNat).map (fun i : Nat => (i : Int)) ↔ _
    rw [List.mem_map]
    constructor
    · rintro ⟨i, hi, rfl⟩
      rw [List.mem_range] at hi
      omega
    · exact fun hx => ⟨x.toNat, List.mem_range.2 (by omega), by omega⟩
  have hd : (sliceIdx (some (a : Int)) none).Nodup := by
    show ((List.range ((a : Int)).toNat).map (fun i : Nat => (i : Int))).Nodup
    exact List.nodup_range.map fun i j e => Int.ofNat.inj e
  obtain ⟨r, hr⟩ := (select_idx_succeeds h _).2 ⟨hd, fun x hx => by have := (hm x).1 hx; omega, 0, (hm 0).2 (by omega), le_refl _⟩
  refine ⟨r, hr, fun x => ?_⟩
  rw [(select_idx_exact h _ hr).2]
  refine exists_congr fun i => ?_
  rw [hm]
  constructor
  · exact fun h => ⟨by omega, h.2⟩
  · exact fun h => ⟨by omega, h.2⟩

example : (demo.selectSlice (some 2) none).map Interf.names = .ok ["A", "B"] := by decide +kernel

/-- The full slice cannot be taken. -/
theorem full_slice_violated {s : Interf P Gn} : s.selectSlice none none = .error .valueError := rfl

/-- Removing everything raises rather than giving an empty array. -/
theorem remove_all_violated {s : Interf P Gn} (h : s.Ok) : ¬ ∃ r, s.sub s = .ok r := by
  rw [sub_succeeds h]
  rintro ⟨x, hx, hn⟩; exact hn hx

/-! ## C70 Weights and delays -/

/-- Right sizes, weights between 0 and 1. -/
def Steering.Ok (s : Steering) : Prop := s.weights.length = s.size ∧ s.delays.length = s.size ∧ ∀ x ∈ s.weights, ∃ v, x = some v ∧ 0 ≤ v ∧ v ≤ 1

/-- No NaN in the values given. -/
def Assign.Finite : Assign → Prop
  | .weights (some w) => ∀ x ∈ w, x ≠ none
  | _ => True

/-- What should be refused: a wrong number of values, no value, a value outside of `[0, 1]`. -/
def Assign.Invalid (n : Nat) : Assign → Prop
  | .weights (some w) => w.length ≠ n ∨ w = [] ∨ ∃ v, some v ∈ w ∧ (v < 0 ∨ 1 < v)
  | .delays (some d) => d.length ≠ n
  | _ => False

theorem outOfRange_iff {w : List (Option ℚ)} (h : ∀ x ∈ w, x ≠ none) : outOfRange w = true ↔ ∃ v, some v ∈ w ∧ (v < 0 ∨ 1 < v) := by
  have h0 : (w.any Option.isNone) = false := by
    rw [List.any_eq_false]
    intro x hx hn
    exact h x hx (Option.isNone_iff_eq_none.mp hn)
  unfold outOfRange
  rw [h0, Bool.not_false, Bool.true_and, List.any_eq_true]
  constructor
  · rintro ⟨x, hx, hv⟩
    cases x with
    | none => cases hv
    | some v => exact ⟨v, hx, by simpa using hv⟩
  · rintro ⟨v, hv, hr⟩
    exact ⟨some v, hv, by simpa using hr⟩

/-- An assignment fails exactly when it is invalid, and then changes nothing; otherwise the attribute takes the value given and the other one is unchanged. -/
theorem assign_exact (s : Steering) (a : Assign) (hf : a.Finite) :
    ((∃ e, (s.set a).2 = some e) ↔ a.Invalid s.size) ∧ (a.Invalid s.size → (s.set a).1 = s) ∧
    (¬ a.Invalid s.size → (∀ w, a = .weights (some w) → (s.set a).1 = { s with weights := w }) ∧ (∀ d, a = .delays (some d) → (s.set a).1 = { s with delays := d })) := by
  cases a with
  | weights w =>
    cases w with
    | none => simp [Steering.set, Assign.Invalid]
    | some w =>
      have ho := outOfRange_iff (w := w) hf
      show ((∃ e, (if w.length ≠ s.size then (s, some Err.valueError) else if w = [] then (s, some .valueError) else if outOfRange w then (s, some .valueError) else ({ s with weights := w }, none)).2 = some e) ↔ _) ∧
        (_ → (if w.length ≠ s.size then (s, some Err.valueError) else if w = [] then (s, some .valueError) else if outOfRange w then (s, some .valueError) else ({ s with weights := w }, none)).1 = s) ∧
        (_ → (∀ w', Assign.weights (some w) = .weights (some w') → (if w.length ≠ s.size then (s, some Err.valueError) else if w = [] then (s, some .valueError) else if outOfRange w then (s, some .valueError) else ({ s with weights := w }, none)).1 = _) ∧ _)
      unfold Assign.Invalid
      by_cases h1 : w.length ≠ s.size
      · rw [if_pos h1]; exact ⟨⟨fun _ => Or.inl h1, fun _ => ⟨_, rfl⟩⟩, fun _ => rfl, fun h => absurd (Or.inl h1) h⟩
      · rw [if_neg h1]
        by_cases h2 : w = []
        · rw [if_pos h2]; exact ⟨⟨fun _ => Or.inr (Or.inl h2), fun _ => ⟨_, rfl⟩⟩, fun _ => rfl, fun h => absurd (Or.inr (Or.inl h2)) h⟩
        · rw [if_neg h2]
          by_cases h3 : outOfRange w = true
          · rw [if_pos h3]
            exact ⟨⟨fun _ => Or.inr (Or.inr (ho.mp h3)), fun _ => ⟨_, rfl⟩⟩, fun _ => rfl, fun h => absurd (Or.inr (Or.inr (ho.mp h3))) h⟩
          · rw [if_neg h3]
            have hn : ¬ (w.length ≠ s.size ∨ w = [] ∨ ∃ v, some v ∈ w ∧ (v < 0 ∨ 1 < v)) := by
              rintro (h | h | h)
              · exact h1 h
              · exact h2 h
              · exact h3 (ho.mpr h)
            refine ⟨⟨fun h => ?_, fun h => absurd h hn⟩, fun h => absurd h hn, fun _ => ⟨fun w' hw => ?_, fun d hd => ?_⟩⟩
            · obtain ⟨e, he⟩ := h; cases he
            · injection hw with hw; injection hw with hw; rw [hw]
            · cases hd
  | delays d =>
    cases d with
    | none => simp [Steering.set, Assign.Invalid]
    | some d =>
      unfold Assign.Invalid
      by_cases h1 : d.length ≠ s.size
      · have e : s.set (.delays (some d)) = (s, some .valueError) := if_pos h1
        rw [e]; exact ⟨⟨fun _ => h1, fun _ => ⟨_, rfl⟩⟩, fun _ => rfl, fun h => absurd h1 h⟩
      · have e : s.set (.delays (some d)) = ({ s with delays := d }, none) := if_neg h1
        rw [e]
        refine ⟨⟨fun h => ?_, fun h => absurd h h1⟩, fun h => absurd h h1, fun _ => ⟨fun w hw => ?_, fun d' hd => ?_⟩⟩
        · obtain ⟨e, he⟩ := h; cases he
        · cases hw
        · injection hd with hd; injection hd with hd; rw [hd]

/-- After any history of assignments, sizes are right and weights are between 0 and 1. -/
theorem steering_always_ok_partial (s : Steering) (h : s.Ok) (as : List Assign) (hf : ∀ a ∈ as, a.Finite) : (as.foldl (fun s a => (s.set a).1) s).Ok := by
  induction as generalizing s with
  | nil => exact h
  | cons a as ih =>
    refine ih _ ?_ (fun b hb => hf b (List.mem_cons_of_mem _ hb))
    have ha := hf a (List.mem_cons_self ..)
    show (s.set a).1.Ok
    obtain ⟨-, h2, h3⟩ := assign_exact s a ha
    by_cases hi : a.Invalid s.size
    · rw [h2 hi]; exact h
    · obtain ⟨h4, h5⟩ := h3 hi
      cases a with
      | weights w =>
        cases w with
        | none => exact ⟨List.length_replicate .., h.2.1, fun x hx => ⟨1, (List.mem_replicate.mp hx).2, by norm_num, by norm_num⟩⟩
        | some w =>
          rw [h4 w rfl]
          unfold Assign.Invalid at hi
          push Not at hi
          refine ⟨hi.1, h.2.1, fun x hx => ?_⟩
          obtain ⟨v, rfl⟩ := Option.ne_none_iff_exists'.mp (ha x hx)
          exact ⟨v, rfl, hi.2.2 v hx⟩
      | delays d =>
        cases d with
        | none => exact ⟨h.1, List.length_replicate .., h.2.2⟩
        | some d =>
          rw [h5 d rfl]
          unfold Assign.Invalid at hi
          push Not at hi
          exact ⟨h.1, hi, h.2.2⟩

/-- **C70** (violated): a NaN hides any other value: with one of them, weights outside of `[0, 1]` are accepted. -/
theorem nan_weight_violated (s : Steering) (w : List (Option ℚ)) (hl : w.length = s.size) (hn : none ∈ w) :
    s.set (.weights (some w)) = ({ s with weights := w }, none) := by
  have ho : outOfRange w = false := by
    unfold outOfRange
    rw [List.any_eq_true.2 ⟨none, hn, rfl⟩]
    rfl
  show (if w.length ≠ s.size then (s, some Err.valueError) else if w = [] then (s, some Err.valueError)
    else if outOfRange w then (s, some Err.valueError) else ({ s with weights := w }, none)) = _
  rw [if_neg (not_not.2 hl), if_neg (List.ne_nil_of_mem hn), ho]
  rfl

example : ((⟨2, [some 1, some 1], [0, 0]⟩ : Steering).set (.weights (some [none, some 7]))).1.weights = [none, some 7] := by decide +kernel

example : ((⟨2, [some 1, some 1], [0, 0]⟩ : Steering).set (.weights (some [some (1/2), some 0]))).1.weights = [some (1/2), some 0] := by decide +kernel

/-! ## C37 Baselines -/

/-- Each pair of antennas `i ≥ j` occurs exactly once, with the vector from `i` to `j`. -/
theorem baselines_exact [AddCommGroup P] (pos : Nat → P) (n : Nat) :
    ((flatten pos n).map Prod.fst).Nodup ∧ (∀ i j v, ((i, j), v) ∈ flatten pos n ↔ j ≤ i ∧ i < n ∧ v = pos j - pos i) := by
  have hmem : ∀ i j v, ((i, j), v) ∈ flatten pos n ↔ j ≤ i ∧ i < n ∧ v = pos j - pos i := by
    intro i j v
    unfold flatten
    rw [List.mem_flatMap]
    constructor
    · rintro ⟨a, ha, h⟩
      obtain ⟨b, hb, he⟩ := List.mem_map.mp h
      simp only [Prod.mk.injEq] at he
      obtain ⟨⟨rfl, rfl⟩, rfl⟩ := he
      have := List.mem_range.mp ha
      have := List.mem_range.mp hb
      exact ⟨by omega, by omega, rfl⟩
    · rintro ⟨h1, h2, rfl⟩
      exact ⟨i, List.mem_range.mpr h2, List.mem_map.mpr ⟨j, List.mem_range.mpr (by omega), rfl⟩⟩
  refine ⟨?_, hmem⟩
  have e : (flatten pos n).map Prod.fst = (List.range n).flatMap fun i => (List.range (i + 1)).map fun j => (i, j) := by
    unfold flatten
    rw [List.map_flatMap]
    congr 1
    funext i
    rw [List.map_map]; rfl
  rw [e, List.nodup_flatMap]
  refine ⟨fun i _ => (List.nodup_range).map (fun a b h => by simpa using h), ?_⟩
  refine List.Pairwise.imp ?_ List.nodup_range
  intro a b hab
  simp only [Function.onFun]
  rw [List.disjoint_left]
  rintro ⟨x, y⟩ h1 h2
  obtain ⟨j, -, hj⟩ := List.mem_map.mp h1
  obtain ⟨k, -, hk⟩ := List.mem_map.mp h2
  simp only [Prod.mk.injEq] at hj hk
  exact hab (by omega)

/-- There are `n (n + 1) / 2` of them. -/
theorem baselines_count [AddCommGroup P] (pos : Nat → P) : ∀ n, 2 * (flatten pos n).length = n * (n + 1)
  | 0 => rfl
  | n + 1 => by
    have ih := baselines_count pos n
    have e : flatten pos (n + 1) = flatten pos n ++ (List.range (n + 1)).map fun j => ((n, j), bsl pos n j) := by
      unfold flatten
      rw [List.range_succ, List.flatMap_append, List.flatMap_singleton, ← List.range_succ]
    rw [e, List.length_append, List.length_map, List.length_range, Nat.mul_add, ih]; ring

/-- Baselines are antisymmetric, close on triangles, and do not depend on the origin of positions. -/
theorem baselines_algebra [AddCommGroup P] (pos : Nat → P) (i j k : Nat) (c : P) :
    bsl pos i j = - bsl pos j i ∧ bsl pos i i = 0 ∧ bsl pos i j + bsl pos j k = bsl pos i k ∧ bsl (fun x => pos x + c) i j = bsl pos i j := by
  unfold bsl
  refine ⟨by abel, by abel, by abel, add_sub_add_right_eq_sub _ _ _⟩

/-! ## C38 Grouping by rotation -/

theorem sum_range_indicator (F : Nat → ℚ) : ∀ (n a : Nat), a < n → ((List.range n).map fun r => if r = a then F r else 0).sum = F a
  | 0, _, h => absurd h (by omega)
  | n + 1, a, h => by
    rw [List.range_succ, List.map_append, List.sum_append]
    simp only [List.map_cons, List.map_nil, List.sum_cons, List.sum_nil, add_zero]
    by_cases hn : n = a
    · subst hn
      rw [if_pos rfl]
      have : ((List.range n).map fun r => if r = n then F r else 0).sum = 0 := by
        apply List.sum_eq_zero
        intro x hx
        obtain ⟨r, hr, rfl⟩ := List.mem_map.mp hx
        have := List.mem_range.mp hr
        rw [if_neg (by omega)]
      rw [this, zero_add]
    · rw [if_neg hn, add_zero]
      exact sum_range_indicator F n a (by omega)

theorem sum_counts (F : Nat → ℚ) (n : Nat) : ∀ (L : List Int), (∀ x ∈ L, 0 ≤ x ∧ x < n) →
    ((List.range n).map fun r : Nat => F r * (L.count (r : Int) : ℚ)).sum = (L.map fun x => F x.toNat).sum
  | [], _ => by simp
  | a :: L, h => by
    have ih := sum_counts F n L (fun x hx => h x (List.mem_cons_of_mem _ hx))
    obtain ⟨h0, h1⟩ := h a (by simp)
    have e : ((List.range n).map fun r : Nat => F r * ((a :: L).count (r : Int) : ℚ)) = (List.range n).map fun r : Nat => F r * (L.count (r : Int) : ℚ) + (if r = a.toNat then F r else 0) := by
      apply List.map_congr_left
      intro r _
      rw [List.count_cons]
      by_cases hr : r = a.toNat
      · have : (a == (r : Int)) = true := by rw [beq_iff_eq]; omega
        rw [if_pos this, if_pos hr]; push_cast; ring
      · have : ¬ (a == (r : Int)) = true := by rw [beq_iff_eq]; omega
        rw [if_neg this, if_neg hr]; push_cast; ring
    rw [e, List.sum_map_add, ih, sum_range_indicator F n a.toNat (by omega), List.map_cons, List.sum_cons]
    ring

theorem filter_sum (F : Nat → ℚ) (q : Nat → Bool) (h : ∀ r, q r = false → F r = 0) : ∀ l : List Nat, ((l.filter q).map F).sum = (l.map F).sum
  | [] => rfl
  | x :: l => by
    by_cases hq : q x
    · rw [List.filter_cons_of_pos hq, List.map_cons, List.map_cons, List.sum_cons, List.sum_cons, filter_sum F q h l]
    · rw [List.filter_cons_of_neg hq, List.map_cons, List.sum_cons, filter_sum F q h l, h x (by simpa using hq), zero_add]

/-- Remainders of rotations. -/
def mods (rots : List Int) : List Int := rots.map (· % 60)

theorem mods_range (rots : List Int) : ∀ x ∈ mods rots, 0 ≤ x ∧ x < (60 : Nat) := by
  intro x hx
  obtain ⟨r, -, rfl⟩ := List.mem_map.mp hx
  exact ⟨Int.emod_nonneg _ (by decide), by have := Int.emod_lt_of_pos r (show (0 : Int) < 60 by decide); simpa using this⟩

theorem groups_sum (F : Nat → ℚ) (rots : List Int) : ((groups rots).map fun g => F g.1.toNat * (g.2.2 : ℚ)).sum = ((mods rots).map fun x => F x.toNat).sum := by
  have e : (groups rots).map (fun g => F g.1.toNat * (g.2.2 : ℚ))
      = ((List.range 60).filter fun r : Nat => decide ((r : Int) ∈ mods rots)).map fun r : Nat => F r * ((mods rots).count (r : Int) : ℚ) := by
    unfold groups mods; rw [List.map_map]; rfl
  rw [e, filter_sum (fun r : Nat => F r * ((mods rots).count (r : Int) : ℚ)), sum_counts F 60 (mods rots) (mods_range rots)]
  intro r hr
  have : (r : Int) ∉ mods rots := by simpa using hr
  show F r * ((mods rots).count (r : Int) : ℚ) = 0
  rw [List.count_eq_zero.mpr this]; simp

/-- The multiplicities add up to the number of mini-arrays. -/
theorem groups_total (rots : List Int) : ((groups rots).map fun g => (g.2.2 : ℚ)).sum = rots.length := by
  have := groups_sum (fun _ => 1) rots
  simp only [one_mul] at this
  rw [this]
  have e : ∀ l : List Int, (l.map fun _ => (1 : ℚ)).sum = l.length := by
    intro l; rw [List.map_const', List.sum_replicate]; simp
  rw [e]; simp [mods]

theorem groups_index (rots : List Int) : ∀ g ∈ groups rots, ∃ h : g.2.1 < rots.length, rots[g.2.1] % 60 = g.1 := by
  intro g hg
  obtain ⟨r, hr, rfl⟩ := List.mem_map.mp hg
  have hmem : (r : Int) ∈ mods rots := by simpa [mods] using (List.mem_filter.mp hr).2
  have hlt : (mods rots).idxOf (r : Int) < (mods rots).length := List.idxOf_lt_length_iff.mpr hmem
  have hget : (mods rots)[(mods rots).idxOf (r : Int)] = (r : Int) := List.getElem_idxOf hlt
  have hl : (mods rots).length = rots.length := by simp [mods]
  refine ⟨by show (mods rots).idxOf (r : Int) < _; omega, ?_⟩
  have h2 : (mods rots)[(mods rots).idxOf (r : Int)] = rots[(mods rots).idxOf (r : Int)]'(by omega) % 60 := by
    simp only [mods, List.getElem_map]
  rw [hget] at h2
  exact h2.symm

theorem gainSum_stable {Pt : Type} (point : Nat → Pt → Pt) (gain : Nat → Pt → ℚ) (hst : ∀ i j p, point i (point j p) = point i p) (p : Pt) :
    ∀ (l : List (Int × Nat × Nat)) (q : Pt), (q = p ∨ ∃ j, q = point j p) → (gainSum point gain l q).1 = (l.map fun g => gain g.2.1 (point g.2.1 p) * g.2.2).sum
  | [], _, _ => rfl
  | g :: l, q, h => by
    have hq : point g.2.1 q = point g.2.1 p := by
      rcases h with rfl | ⟨j, rfl⟩
      · rfl
      · exact hst _ _ _
    rw [gainSum]
    show gain g.2.1 (point g.2.1 q) * g.2.2 + (gainSum point gain l (point g.2.1 q)).1 = _
    rw [hq, gainSum_stable point gain hst p l _ (Or.inr ⟨_, rfl⟩), List.map_cons, List.sum_cons]

/-- When the gain and analog pointing of a mini-array only depend on its rotation modulo 60 degrees, and the analog direction computed by one mini-array does not influence that of the
next one, the grouped mean is the mean over all mini-arrays. -/
theorem grouping_exact_partial {Pt : Type} (point : Nat → Pt → Pt) (gain : Nat → Pt → ℚ) (rots : List Int) (p : Pt)
    (hst : ∀ i j p, point i (point j p) = point i p) (F : Nat → ℚ)
    (hF : ∀ (i : Nat) (h : i < rots.length), gain i (point i p) = F (rots[i] % 60).toNat) :
    (meanGain point gain rots p).1 = ((List.range rots.length).map fun i => gain i (point i p)).sum / rots.length := by
  unfold meanGain
  simp only
  rw [gainSum_stable point gain hst p _ p (Or.inl rfl), groups_total]
  congr 1
  have e1 : ((groups rots).map fun g => gain g.2.1 (point g.2.1 p) * (g.2.2 : ℚ)) = (groups rots).map fun g => F g.1.toNat * (g.2.2 : ℚ) := by
    apply List.map_congr_left
    intro g hg
    obtain ⟨hlt, he⟩ := groups_index rots g hg
    rw [hF g.2.1 hlt, he]
  rw [e1, groups_sum]
  congr 1
  unfold mods
  rw [List.map_map]
  apply List.ext_getElem
  · simp
  · intro i h1 h2
    simp only [List.length_map, List.length_range] at h2
    simp only [List.getElem_map, List.getElem_range, Function.comp]
    rw [hF i h2]

/-- With a single group the grouped mean is always the mean: no analog direction is computed from another one. -/
theorem grouping_one_rotation_partial {Pt : Type} (point : Nat → Pt → Pt) (gain : Nat → Pt → ℚ) (rots : List Int) (p : Pt) (r : Nat) (hr : r < 60) (h0 : rots ≠ [])
    (hrot : ∀ x ∈ rots, x % 60 = r) (c : ℚ) (hF : ∀ i, i < rots.length → gain i (point i p) = c) :
    (meanGain point gain rots p).1 = c := by
  have hmods : mods rots = List.replicate rots.length (r : Int) := by
    apply List.eq_replicate_iff.mpr
    refine ⟨by simp [mods], ?_⟩
    intro x hx
    obtain ⟨y, hy, rfl⟩ := List.mem_map.mp hx
    exact hrot y hy
  have hlen : 0 < rots.length := List.length_pos_iff.mpr h0
  have hg : groups rots = [((r : Int), 0, rots.length)] := by
    unfold groups
    change ((List.range 60).filter fun k : Nat => decide ((k : Int) ∈ mods rots)).map (fun k : Nat => ((k : Int), (mods rots).idxOf (k : Int), (mods rots).count (k : Int))) = _
    rw [hmods]
    have hf : ((List.range 60).filter fun k : Nat => decide ((k : Int) ∈ List.replicate rots.length (r : Int))) = (List.range 60).filter fun k => decide (k = r) := by
      apply List.filter_congr
      intro k _
      simp only [List.mem_replicate, decide_eq_decide]
      omega
    rw [hf]
    have : (List.range 60).filter (fun k => decide (k = r)) = [r] := by
      have key : ∀ (n a : Nat), a < n → (List.range n).filter (fun k => decide (k = a)) = [a] := by
        intro n
        induction n with
        | zero => intro a h; omega
        | succ n ih =>
          intro a h
          rw [List.range_succ, List.filter_append]
          by_cases hn : n = a
          · subst hn
            have : (List.range n).filter (fun k => decide (k = n)) = [] := by
              rw [List.filter_eq_nil_iff]
              intro k hk
              have := List.mem_range.mp hk
              simp; omega
            rw [this]; simp
          · rw [ih a (by omega)]; simp [hn]
      exact key 60 r hr
    rw [this]
    simp only [List.map_cons, List.map_nil]
    have hpos : (List.replicate rots.length (r : Int)).idxOf (r : Int) = 0 := by
      obtain ⟨m, hm⟩ : ∃ m, rots.length = m + 1 := ⟨rots.length - 1, by omega⟩
      rw [hm, List.replicate_succ, List.idxOf_cons_self]
    rw [hpos, List.count_replicate_self]
  unfold meanGain
  rw [hg]
  simp only [gainSum, List.map_cons, List.map_nil, List.sum_cons, List.sum_nil, add_zero]
  rw [hF 0 hlen]
  have : (rots.length : ℚ) ≠ 0 := by positivity
  field_simp

/-- Otherwise the analog direction of the second group starts from that of the first one: two mini-arrays that round the pointing to multiples of 10 and 6. -/
theorem grouping_violated :
    let point : Nat → ℚ → ℚ := fun i p => if i = 0 then 10 * ⌊p / 10 + 1 / 2⌋ else 6 * ⌊p / 6 + 1 / 2⌋
    let gain : Nat → ℚ → ℚ := fun _ p => p
    (meanGain point gain [0, 30] 16).1 = 19 ∧ (gain 0 (point 0 16) + gain 1 (point 1 16)) / 2 = 19 ∧
    (meanGain point gain [0, 30] 14).1 = 11 ∧ (gain 0 (point 0 14) + gain 1 (point 1 14)) / 2 = 11 ∧
    (meanGain point gain [0, 30] 8).1 = 11 ∧ (gain 0 (point 0 8) + gain 1 (point 1 8)) / 2 = 8 := by decide +kernel

/-- Computing the beam changes the pointing object, so that a second computation with the same arguments gives another result. -/
theorem beam_repeat_violated :
    let point : Nat → ℚ → ℚ := fun _ p => 10 * ⌊p / 10 + 1 / 2⌋
    let b1 := nenufarBeam (fun p => p) point (fun _ _ => 1) [0] 8
    b1.1 = 8 ∧ (nenufarBeam (fun p => p) point (fun _ _ => 1) [0] b1.2).1 = 10 := by decide +kernel

example : groups [10, 70, 0, 130, 60] = [(0, 2, 2), (10, 0, 3)] := by decide +kernel

/-- The mini-arrays with one of the given rotations modulo 60 degrees. -/
theorem rotated_like_exact (table : List (Nat × Int)) (rots : List Int) (h : ∀ r ∈ rots, r % 10 = 0) (l : List Nat) (hl : rotatedLike table rots = .ok l) (i : Nat) :
    i ∈ l ↔ ∃ a, (i, a) ∈ table ∧ ∃ r ∈ rots, (a - r) % 60 = 0 := by
  unfold rotatedLike at hl
  rw [if_pos (List.all_eq_true.mpr (fun r hr => by simpa using h r hr))] at hl
  injection hl with hl
  rw [← hl, List.mem_map]
  constructor
  · rintro ⟨⟨i', a⟩, hp, rfl⟩
    obtain ⟨h1, h2⟩ := List.mem_filter.mp hp
    have h2' : a % 60 ∈ rots.map (· % 60) := by simpa using h2
    obtain ⟨r, hr, he⟩ := List.mem_map.mp h2'
    exact ⟨a, h1, r, hr, by omega⟩
  · rintro ⟨a, ha, r, hr, he⟩
    refine ⟨(i, a), List.mem_filter.mpr ⟨ha, ?_⟩, rfl⟩
    have : a % 60 ∈ rots.map (· % 60) := List.mem_map.mpr ⟨r, hr, by omega⟩
    simpa using this

/-- Other values are refused. -/
theorem rotated_like_error (table : List (Nat × Int)) (rots : List Int) (r : Int) (hr : r ∈ rots) (h : r % 10 ≠ 0) : rotatedLike table rots = .error .valueError := by
  unfold rotatedLike
  rw [if_neg]
  intro ha
  have := List.all_eq_true.mp ha r hr
  exact h (by simpa using this)

/-! ## C39 Analog orders -/

theorem step1_fix (x : Nat) : step1 (fixRight x) = step1 x := by
  unfold step1 fixRight
  by_cases h : x = 64
  · subst h; decide
  · rw [if_neg h]

theorem step2_fix (x : Nat) : step2 (fixRight x) = step2 x := by
  unfold step2 fixRight
  by_cases h : x = 64
  · subst h; decide
  · rw [if_neg h]

theorem argminGrid_min (sep : Nat → Nat → ℚ) (r c : Nat) (hr : r < 128) (hc : c < 128) : sep (argminGrid sep).1 (argminGrid sep).2 ≤ sep r c := by
  have h := argmax_max (fun k => - sep (k / 128) (k % 128)) (n := 16384) (j := r * 128 + c) (by omega)
  have e1 : (r * 128 + c) / 128 = r := by omega
  have e2 : (r * 128 + c) % 128 = c := by omega
  rw [e1, e2] at h
  unfold argminGrid
  linarith

theorem argminGrid_lt (sep : Nat → Nat → ℚ) : (argminGrid sep).1 < 128 ∧ (argminGrid sep).2 < 128 := by
  have h := argmax_lt (fun k => - sep (k / 128) (k % 128)) (n := 16384) (by omega)
  unfold argminGrid
  simp only
  constructor <;> omega

/-- The direction of the order computed by `mini_array_pointing_order` is a closest one of the grid. -/
theorem tools_order_closest (sep : Int → Int → ℚ) (r c : Nat) (hr : r < 128) (hc : c < 128) :
    sep (toolsSteps (toolsOrder sep)).1 (toolsSteps (toolsOrder sep)).2 ≤ sep (step1 c) (step2 r) := by
  unfold toolsSteps toolsOrder
  simp only
  rw [step1_fix, step2_fix]
  exact argminGrid_min (fun r c => sep (step1 c) (step2 r)) r c hr hc

/-- The order it computes is in the range of orders, and never 64. -/
theorem tools_order_range (sep : Int → Int → ℚ) : (toolsOrder sep).1 < 128 ∧ (toolsOrder sep).2 < 128 ∧ (toolsOrder sep).1 ≠ 64 ∧ (toolsOrder sep).2 ≠ 64 := by
  obtain ⟨h1, h2⟩ := argminGrid_lt fun r c => sep (step1 c) (step2 r)
  unfold toolsOrder fixRight
  refine ⟨?_, ?_, ?_, ?_⟩ <;> (simp only; split <;> omega)

/-- An order is found again from its own direction: for any separation that vanishes only on that direction. -/
theorem tools_order_round_trip (sep : Int → Int → ℚ) (x y : Nat) (hx : x < 128) (hy : y < 128) (hx' : x ≠ 64) (hy' : y ≠ 64)
    (hsep : ∀ a b, 0 ≤ sep a b ∧ (sep a b = 0 ↔ a = step1 x ∧ b = step2 y)) : toolsOrder sep = (y, x) := by
  have h := tools_order_closest sep y x hy hx
  rw [((hsep (step1 x) (step2 y)).2).mpr ⟨rfl, rfl⟩] at h
  have h0 := (hsep (toolsSteps (toolsOrder sep)).1 (toolsSteps (toolsOrder sep)).2)
  have he := h0.2.mp (le_antisymm h h0.1)
  obtain ⟨r1, r2, r3, r4⟩ := tools_order_range sep
  generalize toolsOrder sep = o at *
  obtain ⟨o1, o2⟩ := o
  unfold toolsSteps at he
  simp only at *
  obtain ⟨e1, e2⟩ := he
  unfold step1 at e1
  unfold step2 at e2
  have : o2 = x := by split at e1 <;> split at e1 <;> omega
  have : o1 = y := by split at e2 <;> split at e2 <;> omega
  subst_vars; rfl

/-- The beam simulation's own order is one step off when the closest direction is in the second half of an axis: its direction is not the closest one. -/
theorem ma_order_violated (sep : Int → Int → ℚ) (x y : Nat) (hx : 65 ≤ x) (hx' : x < 128) (hy : y < 128)
    (hsep : ∀ a b, 0 ≤ sep a b ∧ (sep a b = 0 ↔ a = step1 x ∧ b = step2 y)) : 0 < sep (maSteps (maOrder sep)).1 (maSteps (maOrder sep)).2 := by
  have h := argminGrid_min (fun r c => sep (step1 r) (step2 c)) x y hx' hy
  rw [((hsep (step1 x) (step2 y)).2).mpr ⟨rfl, rfl⟩] at h
  have h0 := hsep (step1 (argminGrid fun r c => sep (step1 r) (step2 c)).1) (step2 (argminGrid fun r c => sep (step1 r) (step2 c)).2)
  have he := h0.2.mp (le_antisymm h h0.1)
  have h1 := hsep (maSteps (maOrder sep)).1 (maSteps (maOrder sep)).2
  rcases lt_or_eq_of_le h1.1 with hlt | heq
  · exact hlt
  · exfalso
    have hz := h1.2.mp heq.symm
    unfold maSteps maOrder at hz
    simp only at hz
    generalize argminGrid (fun r c => sep (step1 r) (step2 c)) = o at *
    obtain ⟨e1, -⟩ := he
    obtain ⟨e2, -⟩ := hz
    unfold step1 at e1 e2
    unfold fixWrong at e2
    split at e1 <;> split at e1 <;> split at e2 <;> (try split at e2) <;> omega

/-- It is right when the closest direction is in the first half of both axes. -/
theorem ma_order_closest_partial (sep : Int → Int → ℚ) (h1 : (argminGrid fun r c => sep (step1 r) (step2 c)).1 ≤ 64) (h2 : (argminGrid fun r c => sep (step1 r) (step2 c)).2 ≤ 64)
    (r c : Nat) (hr : r < 128) (hc : c < 128) : sep (maSteps (maOrder sep)).1 (maSteps (maOrder sep)).2 ≤ sep (step1 r) (step2 c) := by
  have h := argminGrid_min (fun r c => sep (step1 r) (step2 c)) r c hr hc
  unfold maSteps maOrder
  simp only at *
  generalize argminGrid (fun r c => sep (step1 r) (step2 c)) = o at *
  have e1 : step1 (fixWrong o.1) = step1 o.1 := by
    unfold step1 fixWrong
    split_ifs <;> omega
  have e2 : step2 (fixWrong o.2) = step2 o.2 := by
    unfold step2 fixWrong
    split_ifs <;> omega
  rw [e1, e2]; exact h

example : (fun a b : Int => ((a - step1 100) ^ 2 + (b - step2 3) ^ 2 : ℚ)) (step1 100) (step2 3) = 0 := by norm_num

/-- Equivalent antennas have the same representative, and only the nineteen antennas have one. -/
theorem unique_index_exact (a : Nat) : (∃ r, uniqueIndex a = .ok r) ↔ 1 ≤ a ∧ a ≤ 19 := by
  by_cases h : a < 20
  · interval_cases a <;> simp [uniqueIndex, antennaGroups]
  · constructor
    · rintro ⟨r, hr⟩
      exfalso
      unfold uniqueIndex at hr
      have : (antennaGroups.find? fun g => decide (a ∈ g)) = none := by
        rw [List.find?_eq_none]
        intro g hg
        simp only [antennaGroups, List.mem_cons, List.not_mem_nil, or_false] at hg
        rcases hg with rfl | rfl | rfl | rfl <;> simp <;> omega
      rw [this] at hr; cases hr
    · intro h'; omega

theorem unique_index_least (a b r s : Nat) (ha : uniqueIndex a = .ok r) (hb : uniqueIndex b = .ok s) : (r = s ↔ ∃ g ∈ antennaGroups, a ∈ g ∧ b ∈ g) ∧ r ≤ a := by
  have h1 := (unique_index_exact a).mp ⟨r, ha⟩
  have h2 := (unique_index_exact b).mp ⟨s, hb⟩
  have key : ((List.range 20).all fun a => (List.range 20).all fun b => decide (a = 0) || decide (b = 0) ||
      (((uniqueIndex a).toOption == (uniqueIndex b).toOption) == (antennaGroups.any fun g => decide (a ∈ g) && decide (b ∈ g)) && (uniqueIndex a).toOption.any (· ≤ a))) = true := by
    decide +kernel
  have kk := List.all_eq_true.mp (List.all_eq_true.mp key a (List.mem_range.mpr (by omega))) b (List.mem_range.mpr (by omega))
  have ka : decide (a = 0) = false := by simp; omega
  have kb : decide (b = 0) = false := by simp; omega
  rw [ka, kb, Bool.false_or, Bool.false_or, Bool.and_eq_true] at kk
  obtain ⟨k1, k2⟩ := kk
  rw [ha, hb] at k1
  rw [ha] at k2
  change ((some r == some s) == _) = true at k1
  change decide (r ≤ a) = true at k2
  refine ⟨?_, by simpa using k2⟩
  have k1' := beq_iff_eq.mp k1
  rw [← Option.some.injEq, ← beq_iff_eq, k1', List.any_eq_true]
  simp

/-! ## C40 Sub-arrays -/

theorem inSub_iff (n : Nat) (hn : 0 < n) (v : Nat → ℚ) (i k : Nat) : inSub n v i k = true ↔ ⌊v k * n⌋ = (i : Int) := by
  have hq : (0 : ℚ) < n := by exact_mod_cast hn
  unfold inSub edge
  rw [Bool.and_eq_true, decide_eq_true_eq, decide_eq_true_eq, Int.floor_eq_iff, div_le_iff₀ hq, lt_div_iff₀ hq]
  push_cast
  rfl

theorem filter_one (n : Nat) (a : Nat) (h : a < n) (q : Nat → Bool) (hq : ∀ i, q i = true ↔ i = a) : (List.range n).filter q = [a] := by
  have e : (List.range n).filter q = (List.range n).filter fun k => decide (k = a) := by
    apply List.filter_congr
    intro k _
    by_cases hk : k = a
    · rw [(hq k).mpr hk]; simp [hk]
    · have : q k = false := by by_contra hc; exact hk ((hq k).mp (by simpa using hc))
      rw [this]; simp [hk]
  rw [e]
  induction n with
  | zero => omega
  | succ n ih =>
    rw [List.range_succ, List.filter_append]
    by_cases hn : n = a
    · subst hn
      have : (List.range n).filter (fun k => decide (k = n)) = [] := by
        rw [List.filter_eq_nil_iff]
        intro k hk
        have := List.mem_range.mp hk
        simp; omega
      rw [this]; simp
    · have e' : (List.range n).filter q = (List.range n).filter fun k => decide (k = a) := by
        apply List.filter_congr
        intro k _
        by_cases hk : k = a
        · rw [(hq k).mpr hk]; simp [hk]
        · have : q k = false := by by_contra hc; exact hk ((hq k).mp (by simpa using hc))
          rw [this]; simp [hk]
      rw [ih (by omega) e']; simp [hn]

/-- For whatever values drawn in `[0, 1)`, `n ≥ 2` groups are returned; every mini-array is in exactly one of them. -/
theorem subarrays_partition (names : List String) (hd : names.Nodup) (v : Nat → ℚ) (hv : ∀ k, 0 ≤ v k ∧ v k < 1) (n : Int) (hn : 2 ≤ n) (remote : Bool) :
    ∃ l, subarrays names v n remote = .ok l ∧ l.length = n.toNat ∧ l.Pairwise List.Disjoint ∧ (∀ x, x ∈ l.flatten ↔ x ∈ names.take (if remote then 102 else 96)) := by
  have hk : 0 < n.toNat := by omega
  have hq : (0 : ℚ) < (n.toNat : ℚ) := by exact_mod_cast hk
  have hfl : ∀ j, ∃ a, a < n.toNat ∧ ∀ i, inSub n.toNat v i j = true ↔ i = a := by
    intro j
    obtain ⟨h0, h1⟩ := hv j
    have f0 : 0 ≤ ⌊v j * n.toNat⌋ := Int.floor_nonneg.mpr (mul_nonneg h0 hq.le)
    have f1 : ⌊v j * n.toNat⌋ < n.toNat := by
      rw [Int.floor_lt]
      have : v j * n.toNat < 1 * n.toNat := mul_lt_mul_of_pos_right h1 hq
      push_cast
      linarith
    refine ⟨⌊v j * n.toNat⌋.toNat, by omega, fun i => ?_⟩
    rw [inSub_iff _ hk]
    omega
  unfold subarrays
  rw [if_neg (by omega)]
  simp only
  rw [if_pos]
  · refine ⟨_, rfl, by simp, ?_, ?_⟩
    · rw [List.pairwise_map]
      refine List.Pairwise.imp ?_ List.nodup_range
      intro a b hab
      rw [List.disjoint_left]
      intro x h1 h2
      obtain ⟨i, hi, m1⟩ := (mem_pickFrom _ x _ 0).mp h1
      obtain ⟨j, hj, m2⟩ := (mem_pickFrom _ x _ 0).mp h2
      have hnd : (names.take (if remote then 102 else 96)).Nodup := hd.sublist (List.take_sublist _ _)
      have hij : i = j := by
        obtain ⟨hli, -⟩ := List.getElem?_eq_some_iff.mp hi
        exact (List.getElem?_inj hli hnd).mp (hi.trans hj.symm)
      subst hij
      obtain ⟨c, -, hc⟩ := hfl (0 + i)
      exact hab (((hc a).mp m1).trans ((hc b).mp m2).symm)
    · intro x
      rw [List.mem_flatten]
      constructor
      · rintro ⟨l, hl, hx⟩
        obtain ⟨i, -, rfl⟩ := List.mem_map.mp hl
        exact (pickFrom_sublist _ _ 0).subset hx
      · intro hx
        obtain ⟨j, hj⟩ := List.mem_iff_getElem?.mp hx
        obtain ⟨c, hlt, hc⟩ := hfl j
        refine ⟨_, List.mem_map.mpr ⟨c, List.mem_range.mpr hlt, rfl⟩, ?_⟩
        exact (mem_pickFrom _ x _ 0).mpr ⟨j, hj, by rw [Nat.zero_add]; exact (hc c).mpr rfl⟩
  · rw [List.all_eq_true]
    intro j _
    obtain ⟨a, hlt, ha⟩ := hfl j
    rw [filter_one _ a hlt _ ha]; rfl

/-- A single group, or none, is refused. -/
theorem subarrays_error (names : List String) (v : Nat → ℚ) (n : Int) (hn : n < 2) (remote : Bool) : subarrays names v n remote = .error .valueError := by
  unfold subarrays; rw [if_pos hn]

example : subarrays ["A", "B", "C"] (fun k => if k = 1 then 1 / 2 else 1 / 5) 2 false = .ok [["A", "C"], ["B"]] := by decide +kernel

end Verif.Instru
