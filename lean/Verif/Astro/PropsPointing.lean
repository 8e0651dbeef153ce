import Verif.Astro.Pointing
import Mathlib.Tactic.Linarith
import Mathlib.Tactic.Ring
import Mathlib.Tactic.Push
import Mathlib.Data.List.GetD

/-!
# Pointings (property C64)
-/

namespace Verif.Astro

/-- Interval number `i` of a pointing holds `t`. -/
def Pointing.Active {D : Type} (p : Pointing D) (t : ℚ) (i : Nat) : Prop :=
  i < p.time.length ∧ p.time.getD i 0 ≤ t ∧ t < p.time.getD i 0 + p.durOf i

theorem mem_hits {D : Type} {p : Pointing D} {t : ℚ} {i : Nat} : i ∈ p.hits t ↔ p.Active t i := by
  unfold Pointing.hits Pointing.Active
  rw [List.mem_filter, List.mem_range, Bool.and_eq_true, decide_eq_true_iff, decide_eq_true_iff]

theorem hits_sorted {D : Type} (p : Pointing D) (t : ℚ) : (p.hits t).Pairwise (· < ·) :=
  List.Pairwise.filter _ List.pairwise_lt_range

/-- **C64**: the direction is that of the last interval which holds the time, and the zenith when none does. -/
theorem lookup_exact {D : Type} (p : Pointing D) (t : ℚ) (hl : p.dirList.length = p.time.length) :
    ((∀ i, ¬ p.Active t i) → p.at t = .ok none) ∧
    (∀ i, p.Active t i → (∀ j, i < j → ¬ p.Active t j) → p.at t = .ok p.dirList[i]?) := by
  constructor
  · intro h
    have e : p.hits t = [] := by
      rw [List.eq_nil_iff_forall_not_mem]
      intro i hi
      exact h i (mem_hits.mp hi)
    unfold Pointing.at
    rw [e]
    rfl
  · intro i hi hmax
    have hm := mem_hits.mpr hi
    have e : (p.hits t).getLast? = some i := by
      obtain ⟨l, hlast⟩ : ∃ j, (p.hits t).getLast? = some j := by
        cases hq : (p.hits t).getLast? with
        | none => rw [List.getLast?_eq_none_iff] at hq; rw [hq] at hm; cases hm
        | some j => exact ⟨j, rfl⟩
      obtain ⟨ys, hys⟩ := List.getLast?_eq_some_iff.mp hlast
      have hs := hits_sorted p t
      rw [hys] at hs hm
      have hact : p.Active t l := mem_hits.mp (by rw [hys]; exact List.mem_append_right _ (List.mem_cons_self ..))
      rcases List.mem_append.mp hm with hm | hm
      · have := (List.pairwise_append.mp hs).2.2 i hm l (List.mem_cons_self ..)
        exact absurd hact (hmax l this)
      · rw [hlast, List.mem_singleton.mp hm]
    unfold Pointing.at
    rw [e]
    show (if p.dirList.length = p.time.length then _ else _) = _
    rw [if_pos hl]

/-- **C64**: a single direction is used at every programmed time. -/
theorem lookup_single {D : Type} (d : D) (time dur : List ℚ) (t : ℚ) (i : Nat)
    (h : (⟨.one d, time, dur⟩ : Pointing D).Active t i) : (⟨.one d, time, dur⟩ : Pointing D).at t = .ok (some d) := by
  have hm := mem_hits.mpr h
  unfold Pointing.at
  cases hq : (Pointing.hits ⟨.one d, time, dur⟩ t).getLast? with
  | none => rw [List.getLast?_eq_none_iff] at hq; rw [hq] at hm; cases hm
  | some j =>
    show (if (Pointing.dirList ⟨.one d, time, dur⟩).length = time.length then _ else _) = _
    have e : Pointing.dirList ⟨.one d, time, dur⟩ = List.replicate time.length d := rfl
    have hj : j < time.length := (mem_hits.mp (List.mem_of_getLast? hq)).1
    rw [e, if_pos (List.length_replicate ..), List.getElem?_replicate, if_pos hj]

/-- **C64**: durations which do not match the times are refused; one second is the default. -/
theorem durations_checked {D : Type} (dirs : Dirs D) (time d : List ℚ) :
    (mkPointing dirs time (some d) = .error .indexError ↔ d.length ≠ 1 ∧ d.length ≠ time.length) ∧
    mkPointing dirs time none = .ok ⟨dirs, time, [1]⟩ := by
  constructor
  · unfold mkPointing
    show (if (decide (d.length ≠ 1) && decide (d.length ≠ time.length)) = true then _ else _) = _ ↔ _
    split_ifs with h
    · rw [Bool.and_eq_true, decide_eq_true_iff, decide_eq_true_iff] at h
      exact ⟨fun _ => h, fun _ => rfl⟩
    · rw [Bool.and_eq_true, decide_eq_true_iff, decide_eq_true_iff] at h
      exact ⟨fun h' => (by cases h'), fun h' => absurd h' h⟩
  · rfl

/-! ## Pointings made of consecutive rows -/

theorem diffs_length (l : List ℚ) : (diffs l).length = l.length - 1 := by
  induction l with
  | nil => rfl
  | cons a l ih =>
    cases l with
    | nil => rfl
    | cons b l => rw [diffs, List.length_cons, ih]; simp

theorem diffs_getD (l : List ℚ) (i : Nat) (h : i + 1 < l.length) : (diffs l).getD i 0 = l.getD (i + 1) 0 - l.getD i 0 := by
  induction l generalizing i with
  | nil => simp at h
  | cons a l ih =>
    cases l with
    | nil => simp at h
    | cons b l =>
      cases i with
      | zero => rfl
      | succ i =>
        have := ih i (by simpa using h)
        rw [diffs, List.getD_cons_succ, this]
        rfl

theorem sorted_getD {l : List ℚ} (h : l.Pairwise (· < ·)) {i j : Nat} (hij : i < j) (hj : j < l.length) : l.getD i 0 < l.getD j 0 := by
  rw [List.getD_eq_getElem _ _ (by omega), List.getD_eq_getElem _ _ hj]
  exact List.pairwise_iff_getElem.mp h i j _ hj hij

theorem durOf_eq {D : Type} (p : Pointing D) (h : p.dur.length = p.time.length) (i : Nat) (hi : i < p.time.length) : p.durOf i = p.dur.getD i 0 := by
  unfold Pointing.durOf
  split_ifs with h1
  · have : i = 0 := by omega
    subst this
    cases hd : p.dur with
    | nil => rw [hd] at h1; simp at h1
    | cons a l => rfl
  · rfl

theorem getD_dropLast (l : List ℚ) (i : Nat) (h : i + 1 < l.length) : l.dropLast.getD i 0 = l.getD i 0 := by
  rw [List.getD_eq_getElem _ _ (by rw [List.length_dropLast]; omega), List.getD_eq_getElem _ _ (by omega), List.getElem_dropLast]

theorem closedRows_ok {D : Type} (rows : List (ℚ × D)) :
    closedRows rows = .ok ⟨.many (rows.map Prod.snd).dropLast, (rows.map Prod.fst).dropLast, diffs (rows.map Prod.fst)⟩ := by
  unfold closedRows mkPointing
  rw [if_neg]
  · rfl
  · show ¬ ((decide ((diffs (rows.map Prod.fst)).length ≠ 1) && decide ((diffs (rows.map Prod.fst)).length ≠ (rows.map Prod.fst).dropLast.length)) = true)
    rw [diffs_length, List.length_dropLast]
    simp

theorem closedRows_active {D : Type} (rows : List (ℚ × D)) (t : ℚ) (i : Nat) :
    (⟨.many (rows.map Prod.snd).dropLast, (rows.map Prod.fst).dropLast, diffs (rows.map Prod.fst)⟩ : Pointing D).Active t i ↔
      i + 1 < rows.length ∧ (rows.map Prod.fst).getD i 0 ≤ t ∧ t < (rows.map Prod.fst).getD (i + 1) 0 := by
  have key : ∀ i, i + 1 < rows.length →
      (⟨.many (rows.map Prod.snd).dropLast, (rows.map Prod.fst).dropLast, diffs (rows.map Prod.fst)⟩ : Pointing D).durOf i
        = (rows.map Prod.fst).getD (i + 1) 0 - (rows.map Prod.fst).getD i 0 := by
    intro i hi
    rw [durOf_eq _ (by show (diffs _).length = _; rw [diffs_length, List.length_dropLast]) i
      (by show i < (List.map _ _).dropLast.length; rw [List.length_dropLast, List.length_map]; omega)]
    exact diffs_getD _ i (by rw [List.length_map]; exact hi)
  unfold Pointing.Active
  dsimp only
  rw [List.length_dropLast, List.length_map]
  constructor
  · rintro ⟨h1, h2, h3⟩
    have h4 : i + 1 < rows.length := by omega
    rw [key i h4] at h3
    rw [getD_dropLast _ _ (by rw [List.length_map]; exact h4)] at h2 h3
    exact ⟨h4, h2, by linarith⟩
  · rintro ⟨h1, h2, h3⟩
    rw [key i h1, getD_dropLast _ _ (by rw [List.length_map]; exact h1)]
    exact ⟨by omega, h2, by linarith⟩

/-- Lookup in a pointing made of consecutive rows. -/
theorem closedRows_at {D : Type} (rows : List (ℚ × D)) (hs : (rows.map Prod.fst).Pairwise (· < ·)) (t : ℚ) :
    ∃ p, closedRows rows = .ok p ∧
      (∀ i, i + 1 < rows.length → (rows.map Prod.fst).getD i 0 ≤ t → t < (rows.map Prod.fst).getD (i + 1) 0 →
        p.at t = .ok (rows.map Prod.snd)[i]?) ∧
      ((∀ i, i + 1 < rows.length → ¬ ((rows.map Prod.fst).getD i 0 ≤ t ∧ t < (rows.map Prod.fst).getD (i + 1) 0)) → p.at t = .ok none) := by
  refine ⟨_, closedRows_ok rows, ?_, ?_⟩
  · intro i hi h1 h2
    rw [(lookup_exact _ t (by show (List.map _ _).dropLast.length = (List.map _ _).dropLast.length; simp)).2 i
      ((closedRows_active rows t i).mpr ⟨hi, h1, h2⟩)]
    · show Except.ok (rows.map Prod.snd).dropLast[i]? = _
      rw [List.getElem?_dropLast, if_pos (by rw [List.length_map]; omega)]
    · intro j hj hact
      obtain ⟨h3, h4, -⟩ := (closedRows_active rows t j).mp hact
      have h5 : (rows.map Prod.fst).getD (i + 1) 0 ≤ (rows.map Prod.fst).getD j 0 := by
        rcases Nat.lt_or_ge (i + 1) j with h | h
        · exact (sorted_getD hs h (by rw [List.length_map]; omega)).le
        · have : j = i + 1 := by omega
          rw [this]
      linarith
  · intro h
    refine (lookup_exact _ t (by show (List.map _ _).dropLast.length = (List.map _ _).dropLast.length; simp)).1 fun i hi => ?_
    obtain ⟨h3, h4, h5⟩ := (closedRows_active rows t i).mp hi
    exact h i h3 ⟨h4, h5⟩

/-- **C64**: the pointing of an analog beam read from a file of two or more rows: each direction holds until the next one, without hole,
from the first to the last time, and the zenith is used outside. -/
theorem file_analog {D : Type} (zenith : D) (rows : List (ℚ × Nat × D)) (beam : Nat) (h2 : 2 ≤ (beamRows rows beam).length)
    (hs : ((beamRows rows beam).map Prod.fst).Pairwise (· < ·)) (t : ℚ) :
    ∃ p, fromAltazA zenith rows beam = .ok p ∧
      (∀ i, i + 1 < (beamRows rows beam).length → ((beamRows rows beam).map Prod.fst).getD i 0 ≤ t →
        t < ((beamRows rows beam).map Prod.fst).getD (i + 1) 0 → p.at t = .ok ((beamRows rows beam).map Prod.snd)[i]?) ∧
      ((t < ((beamRows rows beam).map Prod.fst).getD 0 0 ∨ ((beamRows rows beam).map Prod.fst).getD ((beamRows rows beam).length - 1) 0 ≤ t) →
        p.at t = .ok none) := by
  have hpad : padRows zenith (beamRows rows beam) = beamRows rows beam := by
    generalize beamRows rows beam = l at h2
    match l, h2 with
    | a :: b :: l, _ => rfl
  have hne : (beamRows rows beam).isEmpty = false := by
    generalize beamRows rows beam = l at h2
    match l, h2 with
    | a :: b :: l, _ => rfl
  obtain ⟨p, hp, h3, h4⟩ := closedRows_at (beamRows rows beam) hs t
  refine ⟨p, ?_, h3, ?_⟩
  · unfold fromAltazA
    rw [hne, if_neg (by simp), hpad, hp]
  · intro h
    apply h4
    intro i hi hin
    rcases h with h | h
    · have : ((beamRows rows beam).map Prod.fst).getD 0 0 ≤ ((beamRows rows beam).map Prod.fst).getD i 0 := by
        rcases Nat.eq_zero_or_pos i with rfl | hpos
        · exact le_refl _
        · exact (sorted_getD hs hpos (by rw [List.length_map]; omega)).le
      linarith [hin.1]
    · have : ((beamRows rows beam).map Prod.fst).getD (i + 1) 0 ≤ ((beamRows rows beam).map Prod.fst).getD ((beamRows rows beam).length - 1) 0 := by
        rcases Nat.lt_or_ge (i + 1) ((beamRows rows beam).length - 1) with hlt | hge
        · exact (sorted_getD hs hlt (by rw [List.length_map]; omega)).le
        · have : i + 1 = (beamRows rows beam).length - 1 := by omega
          rw [this]
      linarith [hin.2]

/-- **C64**: a single row lasts one second. -/
theorem file_analog_single {D : Type} (zenith d : D) (rows : List (ℚ × Nat × D)) (beam : Nat) (t0 : ℚ)
    (h : beamRows rows beam = [(t0, d)]) (t : ℚ) :
    ∃ p, fromAltazA zenith rows beam = .ok p ∧ (t0 ≤ t → t < t0 + 1 → p.at t = .ok (some d)) ∧ ((t < t0 ∨ t0 + 1 ≤ t) → p.at t = .ok none) := by
  obtain ⟨p, hp, h3, h4⟩ := closedRows_at [(t0, d), (t0 + 1, zenith)] (by simp) t
  refine ⟨p, ?_, ?_, ?_⟩
  · unfold fromAltazA
    rw [h]
    exact hp
  · intro h5 h6
    exact h3 0 (by simp) h5 h6
  · intro h5
    apply h4
    intro i hi
    have : i = 0 := by simp at hi; omega
    subst this
    rintro ⟨h7, h8⟩
    change t0 ≤ t at h7
    change t < t0 + 1 at h8
    rcases h5 with h5 | h5 <;> linarith

/-- **C64**: a beam absent from the file is refused. -/
theorem file_absent {D : Type} (zenith : D) (rows : List (ℚ × Nat × D)) (beam : Nat) (h : ∀ r ∈ rows, r.2.1 ≠ beam) :
    fromAltazA zenith rows beam = .error .valueError ∧ fromAltazB rows beam = .error .valueError := by
  have e : beamRows rows beam = [] := by
    unfold beamRows
    rw [List.map_eq_nil_iff, List.filter_eq_nil_iff]
    intro r hr
    simp [h r hr]
  unfold fromAltazA fromAltazB
  rw [e]
  exact ⟨rfl, rfl⟩

/-! ## Digital beams -/

theorem insert_ok (x : ℚ) (l : List ℚ) (h : l ≠ []) : insertBeforeLast x l = .ok (l.dropLast ++ [x, l.getLast h]) := by
  unfold insertBeforeLast
  rw [List.getLast?_eq_some_getLast h]

/-- Durations of a digital beam: right ones up to the last but one, ten seconds for this one, and its own duration for the last row. -/
theorem digital_durations (times : List ℚ) (h2 : 2 ≤ times.length) :
    ∃ d, insertBeforeLast 10 (diffs times) = .ok d ∧ d.length = times.length ∧
      (∀ i, i + 2 < times.length → d.getD i 0 = times.getD (i + 1) 0 - times.getD i 0) ∧ d.getD (times.length - 2) 0 = 10 ∧
      d.getD (times.length - 1) 0 = times.getD (times.length - 1) 0 - times.getD (times.length - 2) 0 := by
  have hl := diffs_length times
  have hne : diffs times ≠ [] := by
    intro h; rw [h] at hl; simp at hl; omega
  refine ⟨_, insert_ok 10 _ hne, ?_, ?_, ?_, ?_⟩
  · rw [List.length_append, List.length_dropLast, hl]; simp; omega
  · intro i hi
    rw [List.getD_append _ _ _ _ (by rw [List.length_dropLast, hl]; omega), getD_dropLast _ _ (by rw [hl]; omega),
      diffs_getD _ _ (by omega)]
  · rw [List.getD_append_right _ _ _ _ (by rw [List.length_dropLast, hl]; omega), List.length_dropLast, hl]
    have : times.length - 2 - (times.length - 1 - 1) = 0 := by omega
    rw [this]; rfl
  · rw [List.getD_append_right _ _ _ _ (by rw [List.length_dropLast, hl]; omega), List.length_dropLast, hl]
    have : times.length - 1 - (times.length - 1 - 1) = 1 := by omega
    rw [this]
    show (diffs times).getLast hne = _
    rw [List.getLast_eq_getElem, ← List.getD_eq_getElem (d := 0), diffs_getD]
    · congr 2 <;> omega
    · rw [hl]; omega

/-- **C64** (partial): digital beams of three or more rows: each direction but the last two holds until the next one. -/
theorem file_digital_partial {D : Type} (rows : List (ℚ × Nat × D)) (beam : Nat) (h2 : 2 ≤ (beamRows rows beam).length)
    (hs : ((beamRows rows beam).map Prod.fst).Pairwise (· < ·)) (t : ℚ) :
    ∃ p, fromAltazB rows beam = .ok p ∧
      (∀ i, i + 2 < (beamRows rows beam).length → ((beamRows rows beam).map Prod.fst).getD i 0 ≤ t →
        t < ((beamRows rows beam).map Prod.fst).getD (i + 1) 0 → p.at t = .ok ((beamRows rows beam).map Prod.snd)[i]?) ∧
      (((beamRows rows beam).map Prod.fst).getD ((beamRows rows beam).length - 2) 0 + 10 ≤ t →
        t < ((beamRows rows beam).map Prod.fst).getD ((beamRows rows beam).length - 1) 0 → p.at t = .ok none) := by
  have hne : (beamRows rows beam).isEmpty = false := by
    generalize beamRows rows beam = l at h2
    match l, h2 with
    | a :: b :: l, _ => rfl
  unfold fromAltazB
  rw [hne, if_neg (by simp)]
  generalize beamRows rows beam = l at *
  have hlen : (l.map Prod.fst).length = l.length := List.length_map ..
  obtain ⟨d, hd, hdl, hd1, hd2, hd3⟩ := digital_durations (l.map Prod.fst) (by rw [hlen]; exact h2)
  rw [hlen] at hdl hd1 hd2 hd3
  rw [hd]
  have hmk : mkPointing (.many (l.map Prod.snd)) (l.map Prod.fst) (some d) = .ok (⟨.many (l.map Prod.snd), l.map Prod.fst, d⟩ : Pointing D) := by
    unfold mkPointing
    rw [if_neg]
    · rfl
    · show ¬ ((decide (d.length ≠ 1) && decide (d.length ≠ (l.map Prod.fst).length)) = true)
      rw [hdl, hlen]; simp
  refine ⟨⟨.many (l.map Prod.snd), l.map Prod.fst, d⟩, hmk, ?_, ?_⟩
  · intro i hi h3 h4
    have hdur : ∀ j, j < l.length → (⟨.many (l.map Prod.snd), l.map Prod.fst, d⟩ : Pointing D).durOf j = d.getD j 0 := fun j hj =>
      durOf_eq _ (by show d.length = (l.map Prod.fst).length; rw [hdl, hlen]) j (by show j < (l.map Prod.fst).length; rw [hlen]; exact hj)
    refine (lookup_exact _ t (by show (l.map Prod.snd).length = (l.map Prod.fst).length; simp)).2 i ⟨?_, h3, ?_⟩ ?_
    · show i < (l.map Prod.fst).length; rw [hlen]; omega
    · rw [hdur i (by omega), hd1 i hi]
      show t < (l.map Prod.fst).getD i 0 + _
      linarith
    · rintro j hj ⟨h5, h6, -⟩
      change j < (l.map Prod.fst).length at h5
      change (l.map Prod.fst).getD j 0 ≤ t at h6
      rw [hlen] at h5
      have h7 : (l.map Prod.fst).getD (i + 1) 0 ≤ (l.map Prod.fst).getD j 0 := by
        rcases Nat.lt_or_ge (i + 1) j with h | h
        · exact (sorted_getD hs h (by rw [hlen]; exact h5)).le
        · have : j = i + 1 := by omega
          rw [this]
      linarith
  · intro h3 h4
    have hdur : ∀ j, j < l.length → (⟨.many (l.map Prod.snd), l.map Prod.fst, d⟩ : Pointing D).durOf j = d.getD j 0 := fun j hj =>
      durOf_eq _ (by show d.length = (l.map Prod.fst).length; rw [hdl, hlen]) j (by show j < (l.map Prod.fst).length; rw [hlen]; exact hj)
    refine (lookup_exact _ t (by show (l.map Prod.snd).length = (l.map Prod.fst).length; simp)).1 fun j hj => ?_
    obtain ⟨h5, h6, h7⟩ := hj
    change j < (l.map Prod.fst).length at h5
    change (l.map Prod.fst).getD j 0 ≤ t at h6
    rw [hlen] at h5
    rw [hdur j h5] at h7
    change t < (l.map Prod.fst).getD j 0 + _ at h7
    rcases Nat.lt_or_ge (j + 2) l.length with h8 | h8
    · rw [hd1 j h8] at h7
      have h9 : (l.map Prod.fst).getD (j + 1) 0 ≤ (l.map Prod.fst).getD (l.length - 2) 0 := by
        rcases Nat.lt_or_ge (j + 1) (l.length - 2) with h | h
        · exact (sorted_getD hs h (by rw [hlen]; omega)).le
        · have : j + 1 = l.length - 2 := by omega
          rw [this]
      linarith
    · rcases Nat.lt_or_ge (j + 1) l.length with h9 | h9
      · have : j = l.length - 2 := by omega
        rw [this, hd2] at h7
        linarith
      · have : j = l.length - 1 := by omega
        rw [this] at h6
        linarith

/-- **C64** (violated): whatever the digital beam, the direction before the last only holds for ten seconds, and the last one holds for as
long as there is between the two. -/
theorem file_digital_violated {D : Type} (rows : List (ℚ × Nat × D)) (beam : Nat) (h2 : 2 ≤ (beamRows rows beam).length)
    (hs : ((beamRows rows beam).map Prod.fst).Pairwise (· < ·)) (t1 t2 : ℚ)
    (e1 : ((beamRows rows beam).map Prod.fst).getD ((beamRows rows beam).length - 2) 0 = t1)
    (e2 : ((beamRows rows beam).map Prod.fst).getD ((beamRows rows beam).length - 1) 0 = t2) :
    ∃ p, fromAltazB rows beam = .ok p ∧ (∀ t, t1 + 10 ≤ t → t < t2 → p.at t = .ok none) ∧
      (∀ t, t2 ≤ t → t < t2 + (t2 - t1) → p.at t = .ok ((beamRows rows beam).map Prod.snd).getLast?) := by
  have hne : (beamRows rows beam).isEmpty = false := by
    generalize beamRows rows beam = l at h2
    match l, h2 with
    | a :: b :: l, _ => rfl
  obtain ⟨p, hp, -⟩ := file_digital_partial rows beam h2 hs 0
  refine ⟨p, hp, fun t h3 h4 => ?_, fun t h3 h4 => ?_⟩
  · obtain ⟨q, hq, -, h5⟩ := file_digital_partial rows beam h2 hs t
    rw [hp] at hq
    injection hq with hq
    subst hq
    exact h5 (by rw [e1]; exact h3) (by rw [e2]; exact h4)
  · unfold fromAltazB at hp
    rw [hne, if_neg (by simp)] at hp
    generalize beamRows rows beam = l at *
    have hlen : (l.map Prod.fst).length = l.length := List.length_map ..
    obtain ⟨d, hd, hdl, hd1, hd2, hd3⟩ := digital_durations (l.map Prod.fst) (by rw [hlen]; exact h2)
    rw [hlen] at hdl hd1 hd2 hd3
    have hmk : mkPointing (.many (l.map Prod.snd)) (l.map Prod.fst) (some d)
        = .ok (⟨.many (l.map Prod.snd), l.map Prod.fst, d⟩ : Pointing D) := by
      unfold mkPointing
      rw [if_neg]
      · rfl
      · show ¬ ((decide (d.length ≠ 1) && decide (d.length ≠ (l.map Prod.fst).length)) = true)
        rw [hdl, hlen]; simp
    rw [hd] at hp
    change mkPointing _ _ (some d) = _ at hp
    rw [hmk] at hp
    injection hp with hp
    subst hp
    have hdur : ∀ j, j < l.length → (⟨.many (l.map Prod.snd), l.map Prod.fst, d⟩ : Pointing D).durOf j = d.getD j 0 := fun j hj =>
      durOf_eq _ (by show d.length = (l.map Prod.fst).length; rw [hdl, hlen]) j (by show j < (l.map Prod.fst).length; rw [hlen]; exact hj)
    have hk := (lookup_exact (⟨.many (l.map Prod.snd), l.map Prod.fst, d⟩ : Pointing D) t
      (by show (l.map Prod.snd).length = (l.map Prod.fst).length; simp)).2 (l.length - 1)
    rw [List.getLast?_eq_getElem?, List.length_map]
    refine hk ⟨?_, ?_, ?_⟩ ?_
    · show l.length - 1 < (l.map Prod.fst).length; rw [hlen]; omega
    · show (l.map Prod.fst).getD (l.length - 1) 0 ≤ t; rw [e2]; exact h3
    · rw [hdur _ (by omega), hd3]
      show t < (l.map Prod.fst).getD (l.length - 1) 0 + _
      rw [e1, e2]; exact h4
    · rintro j hj ⟨h5, -, -⟩
      change j < (l.map Prod.fst).length at h5
      rw [hlen] at h5
      omega

example : 2 ≤ (beamRows [((0 : ℚ), 0, 7), (100, 0, 8), (200, 0, 9)] 0).length ∧
    ((beamRows [((0 : ℚ), 0, 7), (100, 0, 8), (200, 0, 9)] 0).map Prod.fst).Pairwise (· < ·) := by decide +kernel

/-- A digital beam with a single row cannot be read. -/
theorem file_digital_single_violated {D : Type} (rows : List (ℚ × Nat × D)) (beam : Nat) (r : ℚ × D) (h : beamRows rows beam = [r]) :
    fromAltazB rows beam = .error .indexError := by
  unfold fromAltazB
  rw [h]
  rfl

/-- The last direction of an analog beam with two or more rows is never used. -/
theorem file_analog_last_violated {D : Type} (zenith : D) (rows : List (ℚ × Nat × D)) (beam : Nat) (h2 : 2 ≤ (beamRows rows beam).length)
    (hs : ((beamRows rows beam).map Prod.fst).Pairwise (· < ·)) (hd : ((beamRows rows beam).map Prod.snd).Nodup) :
    ∃ p, fromAltazA zenith rows beam = .ok p ∧ ∀ t, p.at t ≠ .ok ((beamRows rows beam).map Prod.snd).getLast? := by
  obtain ⟨p, hp, -⟩ := file_analog zenith rows beam h2 hs 0
  refine ⟨p, hp, fun t heq => ?_⟩
  obtain ⟨q, hq, h3, h4⟩ := file_analog zenith rows beam h2 hs t
  rw [hp] at hq
  injection hq with hq
  subst hq
  have hlast : ((beamRows rows beam).map Prod.snd).getLast? = ((beamRows rows beam).map Prod.snd)[(beamRows rows beam).length - 1]? := by
    rw [List.getLast?_eq_getElem?, List.length_map]
  have hsome : ((beamRows rows beam).map Prod.snd)[(beamRows rows beam).length - 1]? ≠ none := by
    rw [Ne, List.getElem?_eq_none_iff, List.length_map]; omega
  by_cases hin : ∃ i, i + 1 < (beamRows rows beam).length ∧ ((beamRows rows beam).map Prod.fst).getD i 0 ≤ t ∧
      t < ((beamRows rows beam).map Prod.fst).getD (i + 1) 0
  · obtain ⟨i, h5, h6, h7⟩ := hin
    rw [h3 i h5 h6 h7, hlast] at heq
    injection heq with heq
    have := (List.nodup_iff_getElem?_ne_getElem?.mp hd) i ((beamRows rows beam).length - 1) (by omega) (by rw [List.length_map]; omega)
    exact this heq
  · have hnone : p.at t = .ok none := by
      obtain ⟨q, hq, -, h8⟩ := closedRows_at (beamRows rows beam) hs t
      have hpad : padRows zenith (beamRows rows beam) = beamRows rows beam := by
        generalize beamRows rows beam = l at h2
        match l, h2 with
        | a :: b :: l, _ => rfl
      have hne : (beamRows rows beam).isEmpty = false := by
        generalize beamRows rows beam = l at h2
        match l, h2 with
        | a :: b :: l, _ => rfl
      unfold fromAltazA at hp
      rw [hne, if_neg (by simp), hpad, hq] at hp
      injection hp with hp
      subst hp
      exact h8 fun i hi hh => hin ⟨i, hi, hh⟩
    rw [hnone, hlast] at heq
    injection heq with heq
    exact hsome heq.symm

/-! ## Beams of statistics files -/

/-- **C64**: up to `max_points` directions, the pointing of a statistics file follows its own times. -/
theorem bst_pointing (time az el : List ℚ) (last : ℚ) (maxPoints : Nat) (h2 : 2 ≤ time.length) (hm : time.length ≤ maxPoints) :
    fromBst time az el last maxPoints = closedRows (time.zip (az.zip el)) := by
  unfold fromBst bstTrack
  rw [if_neg (by omega), if_neg (by omega)]

/-- With more directions the azimuths are interpolated through the south when the source crosses the north. -/
theorem bst_north_violated :
    ∃ p, fromBst [0, 1, 2, 3] [350, 350, 10, 10] [60, 60, 60, 60] 3 3 = .ok p ∧ p.at (3 / 2) = .ok (some (180, 60)) := by
  have e : bstTrack [0, 1, 2, 3] [350, 350, 10, 10] [60, 60, 60, 60] 3 3 = ([0, 3 / 2, 3], [350, 180, 10], [60, 60, 60]) := by
    decide +kernel
  unfold fromBst
  rw [e]
  obtain ⟨p, hp, h1, -⟩ := closedRows_at ([(0 : ℚ), 3 / 2, 3].zip ([(350 : ℚ), 180, 10].zip [(60 : ℚ), 60, 60])) (by decide +kernel) (3 / 2)
  refine ⟨p, hp, h1 1 (by decide) ?_ ?_⟩
  · show (3 / 2 : ℚ) ≤ 3 / 2
    norm_num
  · show (3 / 2 : ℚ) < 3
    norm_num

/-! ## Transits -/

theorem transitSteps_odd (duration dt : ℚ) : transitSteps duration dt % 2 = 1 := by
  unfold transitSteps
  dsimp only
  split_ifs with h <;> omega

/-- **C64**: around a transit the direction is held, without hole, from half the number of steps before to half of it after. -/
theorem transit_held {D : Type} (t0 : ℚ) (ts : List ℚ) (dir : D) (duration dt t : ℚ) (hdt : 0 < dt) (m : Nat) (hm : transitSteps duration dt = 2 * m + 1) :
    ∃ p, targetTransit (t0 :: ts) dir duration dt = .ok p ∧
      (t0 - (m : ℚ) * dt ≤ t → t < t0 + ((m : ℚ) + 1) * dt → p.at t = .ok (some dir)) ∧
      ((t < t0 - (m : ℚ) * dt ∨ t0 + ((m : ℚ) + 1) * dt ≤ t) → p.at t = .ok none) := by
  set p : Pointing D := ⟨.many (List.replicate (2 * m + 1) dir),
    (List.range (2 * m + 1)).map fun k : Nat => t0 + ((k : ℚ) - (((2 * m + 1 : Nat) : ℚ) - 1) / 2) * dt, [dt]⟩ with hp
  have hlen : p.time.length = 2 * m + 1 := by rw [hp]; simp
  have htime : ∀ k, k < 2 * m + 1 → p.time.getD k 0 = t0 + ((k : ℚ) - m) * dt := by
    intro k hk
    rw [List.getD_eq_getElem _ _ (by rw [hlen]; exact hk)]
    show ((List.range (2 * m + 1)).map fun k : Nat => t0 + ((k : ℚ) - (((2 * m + 1 : Nat) : ℚ) - 1) / 2) * dt)[k]'_ = _
    simp only [List.getElem_map, List.getElem_range]
    push_cast
    ring
  have hdur : ∀ k, p.durOf k = dt := fun k => rfl
  have hdirs : p.dirList = List.replicate (2 * m + 1) dir := rfl
  have hl : p.dirList.length = p.time.length := by rw [hdirs, hlen, List.length_replicate]
  refine ⟨p, ?_, ?_, ?_⟩
  · unfold targetTransit
    dsimp only
    rw [hm]
    rfl
  · intro h1 h2
    -- a rank which holds t
    have hact : ∃ k, p.Active t k := by
      have hx : 0 ≤ (t - (t0 - (m : ℚ) * dt)) / dt := div_nonneg (by linarith) hdt.le
      have f1 := Int.floor_le ((t - (t0 - (m : ℚ) * dt)) / dt)
      have f2 := Int.lt_floor_add_one ((t - (t0 - (m : ℚ) * dt)) / dt)
      obtain ⟨k, hk⟩ := Int.eq_ofNat_of_zero_le (Int.floor_nonneg.mpr hx)
      rw [hk] at f1 f2
      rw [le_div_iff₀ hdt] at f1
      rw [div_lt_iff₀ hdt] at f2
      have f1' : (k : ℚ) * dt ≤ t - (t0 - (m : ℚ) * dt) := by exact_mod_cast f1
      have f2' : t - (t0 - (m : ℚ) * dt) < ((k : ℚ) + 1) * dt := by exact_mod_cast f2
      have hk2 : k < 2 * m + 1 := by
        by_contra hge
        push Not at hge
        have : ((2 * m + 1 : Nat) : ℚ) * dt ≤ (k : ℚ) * dt := mul_le_mul_of_nonneg_right (by exact_mod_cast hge) hdt.le
        push_cast at this
        linarith
      refine ⟨k, by rw [hlen]; exact hk2, ?_, ?_⟩
      · rw [htime k hk2]; linarith
      · rw [htime k hk2, hdur]; linarith
    obtain ⟨k, hk⟩ := hact
    have hmem := mem_hits.mpr hk
    unfold Pointing.at
    cases hq : (p.hits t).getLast? with
    | none => rw [List.getLast?_eq_none_iff] at hq; rw [hq] at hmem; cases hmem
    | some j =>
      have hj : j < p.time.length := (mem_hits.mp (List.mem_of_getLast? hq)).1
      show (if p.dirList.length = p.time.length then _ else _) = _
      rw [if_pos hl, hdirs, List.getElem?_replicate, if_pos (by rw [hlen] at hj; exact hj)]
  · intro h
    refine (lookup_exact p t hl).1 fun k hk => ?_
    obtain ⟨h1, h2, h3⟩ := hk
    rw [hlen] at h1
    rw [htime k h1] at h2 h3
    rw [hdur] at h3
    have h4 : (0 : ℚ) ≤ (k : ℚ) * dt := mul_nonneg (Nat.cast_nonneg _) hdt.le
    have h5 : ((k : ℚ) + 1) * dt ≤ ((2 * m + 1 : Nat) : ℚ) * dt := mul_le_mul_of_nonneg_right (by exact_mod_cast h1) hdt.le
    push_cast at h5
    rcases h with h | h <;> linarith

/-- A target which does not cross the azimuth is refused. -/
theorem transit_none {D : Type} (dir : D) (duration dt : ℚ) : targetTransit [] dir duration dt = .error .valueError := rfl

/-- Three rows of an analog beam among those of another beam. -/
example : beamRows [((0 : ℚ), 0, 'a'), (0, 1, 'x'), (100, 0, 'b'), (200, 0, 'c')] 0 = [(0, 'a'), (100, 'b'), (200, 'c')] := by decide +kernel

end Verif.Astro
