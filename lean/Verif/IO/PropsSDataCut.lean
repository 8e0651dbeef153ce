import Verif.IO.SDataCut
import Verif.IO.PropsSlices

/-!
# C165: parts and median profiles of a data set

A part of a data set taken with slices holds the values of the times, frequencies and polarisations that
the slices name, under these labels; joining the parts gives the data set back. A median profile keeps the
labels of the axis that is left.
-/

namespace Verif.IO

open Verif.TF (median)

/-! ## Slices -/

theorem count_iff (lo hi st : Int) (h : 0 < st) (k : Nat) :
    k < ((hi - lo + st - 1) / st).toNat ↔ lo + k * st < hi := by
  have e : (k : Int) < (hi - lo + st - 1) / st ↔ lo + k * st < hi := by
    rw [← Int.add_one_le_iff, Int.le_ediv_iff_mul_le h, Int.add_mul, Int.one_mul]
    constructor <;> intro <;> omega
  constructor
  · intro hk
    exact e.1 (by omega)
  · intro hk
    have := e.2 hk
    omega

theorem count_down (f l st : Int) (h : st < 0) (k : Nat) :
    k < ((f - l - st - 1) / (-st)).toNat ↔ l < f + k * st := by
  have e : f - l - st - 1 = f - l + -st - 1 := by omega
  rw [e, count_iff l f (-st) (by omega), Int.mul_neg]
  constructor <;> intro <;> omega

theorem clipUp_eq (n : Nat) (x : Int) : clipUp n x = (pyBound n x : Int) := by
  unfold clipUp pyBound
  split_ifs with h
  · omega
  · omega

/-- The first item of a slice with a positive step: the given start, counted from the end if negative
and clipped to the axis. -/
def lowEnd (n : Nat) (s : PySlice) : Nat := (s.start.map (pyBound n)).getD 0

/-- Where a slice with a positive step stops. -/
def highEnd (n : Nat) (s : PySlice) : Nat := (s.stop.map (pyBound n)).getD n

theorem first_up (s : PySlice) (n : Nat) (h : 0 < s.stride) : s.first n = (lowEnd n s : Int) := by
  unfold PySlice.first lowEnd
  rw [if_pos h]
  cases s.start with
  | none => rfl
  | some x => exact clipUp_eq n x

theorem last_up (s : PySlice) (n : Nat) (h : 0 < s.stride) : s.last n = (highEnd n s : Int) := by
  unfold PySlice.last highEnd
  rw [if_pos h]
  cases s.stop with
  | none => rfl
  | some x => exact clipUp_eq n x

theorem highEnd_le (n : Nat) (s : PySlice) : highEnd n s ≤ n := by
  unfold highEnd
  cases s.stop with
  | none => exact le_rfl
  | some x => exact pyBound_le n x

/-- C165, items of a slice with a positive step: in increasing order, exactly those from the start on
which are before the stop and a whole number of steps away from the start. -/
theorem slice_up (s : PySlice) (n : Nat) (h : 0 < s.stride) :
    ∃ r : List Nat, s.ranks n = .ok r ∧ r.Pairwise (· < ·)
      ∧ ∀ i : Nat, i ∈ r ↔ lowEnd n s ≤ i ∧ i < highEnd n s ∧ s.stride ∣ (i : Int) - lowEnd n s := by
  refine ⟨_, if_neg (by omega), ?_, ?_⟩
  · rw [List.pairwise_map]
    refine List.Pairwise.imp ?_ List.pairwise_lt_range
    intro a b hab
    rw [first_up s n h]
    have h1 : (0 : Int) ≤ a * s.stride := Int.mul_nonneg (by omega) (by omega)
    have h2 : (a : Int) * s.stride < b * s.stride := Int.mul_lt_mul_of_pos_right (by omega) h
    omega
  · intro i
    have hc : ∀ k : Nat, k < s.count n ↔ (lowEnd n s : Int) + k * s.stride < highEnd n s := by
      intro k
      unfold PySlice.count
      rw [if_pos h, count_iff _ _ _ h, first_up s n h, last_up s n h]
    rw [List.mem_map, first_up s n h]
    constructor
    · rintro ⟨k, hk, rfl⟩
      have hk' := (hc k).1 (List.mem_range.1 hk)
      have h1 : (0 : Int) ≤ k * s.stride := Int.mul_nonneg (by omega) (by omega)
      refine ⟨by omega, by omega, ⟨k, ?_⟩⟩
      rw [Int.mul_comm s.stride]
      omega
    · rintro ⟨h1, h2, q, hq⟩
      have hq0 : 0 ≤ q := by
        by_contra hn
        have := Int.mul_lt_mul_of_pos_left (show q < 0 by omega) h
        rw [Int.mul_zero] at this
        omega
      have e : (q.toNat : Int) * s.stride = i - lowEnd n s := by
        rw [Int.toNat_of_nonneg hq0, Int.mul_comm]
        exact hq.symm
      exact ⟨q.toNat, List.mem_range.2 ((hc _).2 (by omega)), by omega⟩

/-- C165, items of a slice with a negative step: in decreasing order, exactly those from the start down
which are after the stop and a whole number of steps away from the start. The start and the stop are
counted from the end if negative, and by default they are the last item and the one before the first. -/
theorem slice_down (s : PySlice) (n : Nat) (h : s.stride < 0) :
    ∃ (r : List Nat) (f l : Int), s.ranks n = .ok r ∧ r.Pairwise (· > ·)
      ∧ (∀ i : Nat, i ∈ r ↔ (i : Int) ≤ f ∧ l < i ∧ s.stride ∣ f - i)
      ∧ (s.start = none → f = n - 1) ∧ (s.stop = none → l = -1)
      ∧ (∀ x : Int, s.start = some x → 0 ≤ x → f = min x (n - 1)) ∧ (∀ x : Int, s.stop = some x → 0 ≤ x → l = min x (n - 1))
      ∧ (∀ x : Int, s.start = some x → x < 0 → f = max (n + x) (-1)) ∧ (∀ x : Int, s.stop = some x → x < 0 → l = max (n + x) (-1)) := by
  have hs : ¬ 0 < s.stride := by omega
  have ef : s.first n = (s.start.map (clipDown n)).getD (n - 1) := if_neg hs
  have el : s.last n = (s.stop.map (clipDown n)).getD (-1) := if_neg hs
  have up : ∀ x : Int, 0 ≤ x → clipDown n x = min x (n - 1) := fun x hx => if_neg (by omega)
  have dn : ∀ x : Int, x < 0 → clipDown n x = max (n + x) (-1) := fun x hx => by
    unfold clipDown
    rw [if_pos hx, Int.add_comm]
  have hl : -1 ≤ s.last n := by
    rw [el]
    cases hst : s.stop with
    | none => exact le_rfl
    | some x =>
      show -1 ≤ clipDown n x
      unfold clipDown
      split_ifs <;> omega
  refine ⟨_, s.first n, s.last n, if_neg (by omega), ?_, ?_, ?_, ?_, ?_, ?_, ?_, ?_⟩
  · rw [List.pairwise_map]
    have hmem : ∀ k ∈ List.range (s.count n), s.last n < s.first n + k * s.stride := by
      intro k hk
      have := List.mem_range.1 hk
      unfold PySlice.count at this
      rw [if_neg hs] at this
      exact (count_down _ _ _ h k).1 this
    have hp : (List.range (s.count n)).Pairwise fun a b : Nat => a < b := List.pairwise_lt_range
    refine (List.Pairwise.and_mem.1 hp).imp ?_
    rintro a b ⟨ha, hb, hab⟩
    have h1 := hmem b hb
    have h2 : (b : Int) * s.stride < a * s.stride := Int.mul_lt_mul_of_neg_right (by omega) h
    show (s.first n + b * s.stride).toNat < (s.first n + a * s.stride).toNat
    omega
  · intro i
    have hc : ∀ k : Nat, k < s.count n ↔ s.last n < s.first n + k * s.stride := by
      intro k
      unfold PySlice.count
      rw [if_neg hs]
      exact count_down _ _ _ h k
    rw [List.mem_map]
    constructor
    · rintro ⟨k, hk, rfl⟩
      have hk' := (hc k).1 (List.mem_range.1 hk)
      have h1 : (k : Int) * s.stride ≤ 0 := Int.mul_nonpos_of_nonneg_of_nonpos (by omega) (by omega)
      refine ⟨by omega, by omega, ⟨-k, ?_⟩⟩
      rw [Int.mul_neg, Int.mul_comm s.stride]
      omega
    · rintro ⟨h1, h2, q, hq⟩
      have hq0 : q ≤ 0 := by
        by_contra hn
        have := Int.mul_lt_mul_of_neg_left (show 0 < q by omega) h
        rw [Int.mul_zero] at this
        omega
      have e : ((-q).toNat : Int) * s.stride = i - s.first n := by
        rw [Int.toNat_of_nonneg (by omega), Int.neg_mul, Int.mul_comm]
        omega
      exact ⟨(-q).toNat, List.mem_range.2 ((hc _).2 (by omega)), by omega⟩
  · intro h0; rw [ef, h0]; rfl
  · intro h0; rw [el, h0]; rfl
  · intro x hx h0; rw [ef, hx]; exact up x h0
  · intro x hx h0; rw [el, hx]; exact up x h0
  · intro x hx h0; rw [ef, hx]; exact dn x h0
  · intro x hx h0; rw [el, hx]; exact dn x h0

/-- Items of a slice are items of the axis. -/
theorem ranks_lt {s : PySlice} {n : Nat} {r : List Nat} (h : s.ranks n = .ok r) : ∀ i ∈ r, i < n := by
  intro i hi
  rcases lt_trichotomy s.stride 0 with hs | hs | hs
  · obtain ⟨r', f, l, e, -, m, s0, -, s1, -, s2, -⟩ := slice_down s n hs
    rw [e] at h
    cases h
    have := (m i).1 hi
    cases hst : s.start with
    | none => have := s0 hst; omega
    | some x =>
      rcases lt_or_ge x 0 with hx | hx
      · have := s2 x hst hx; omega
      · have := s1 x hst hx; omega
  · unfold PySlice.ranks at h
    rw [if_pos hs] at h
    cases h
  · obtain ⟨r', e, -, m⟩ := slice_up s n hs
    rw [e] at h
    cases h
    exact lt_of_lt_of_le ((m i).1 hi).2.1 (highEnd_le n s)

/-- Only a step of 0 is refused. -/
theorem ranks_ok (s : PySlice) (n : Nat) (h : s.stride ≠ 0) : ∃ r : List Nat, s.ranks n = .ok r := ⟨_, if_neg h⟩

theorem takeRanks_get {α : Type} (l : List α) (r : List Nat) (h : ∀ i ∈ r, i < l.length) (x : Nat) :
    (takeRanks l r)[x]? = r[x]?.bind fun i : Nat => l[i]? := by
  induction r generalizing x with
  | nil => rfl
  | cons a r ih =>
    have ha : l[a]? = some (l[a]'(h a List.mem_cons_self)) := List.getElem?_eq_getElem _
    have e : takeRanks l (a :: r) = l[a]'(h a List.mem_cons_self) :: takeRanks l r := by
      unfold takeRanks
      rw [List.filterMap_cons_some ha]
    rw [e]
    cases x with
    | zero => exact ha.symm
    | succ x =>
      rw [List.getElem?_cons_succ, List.getElem?_cons_succ]
      exact ih (fun i hi => h i (List.mem_cons_of_mem _ hi)) x

theorem takeRanks_length {α : Type} (l : List α) (r : List Nat) (h : ∀ i ∈ r, i < l.length) :
    (takeRanks l r).length = r.length := by
  induction r with
  | nil => rfl
  | cons a r ih =>
    have ha : l[a]? = some (l[a]'(h a List.mem_cons_self)) := List.getElem?_eq_getElem _
    unfold takeRanks at ih ⊢
    rw [List.filterMap_cons_some ha, List.length_cons, List.length_cons, ih fun i hi => h i (List.mem_cons_of_mem _ hi)]

theorem mem_takeRanks {α : Type} {l : List α} {r : List Nat} {x : α} (h : x ∈ takeRanks l r) : x ∈ l := by
  unfold takeRanks at h
  rw [List.mem_filterMap] at h
  obtain ⟨i, -, hi⟩ := h
  exact List.mem_of_getElem? hi

/-! ## Parts of a data set -/

/-- The value at a rank of time, frequency and polarisation. -/
def SData.cell (s : SData) (t f p : Nat) : Option ℚ :=
  ((s.data[t]?).bind fun row : List (List ℚ) => row[f]?).bind fun c : List ℚ => c[p]?

theorem part_eq (s : SData) (w : s.WF) (a b c : PySlice) (i j k : List Nat) (hi : a.ranks s.time.length = .ok i)
    (hj : b.ranks s.freq.length = .ok j) (hk : c.ranks s.polar.length = .ok k) :
    s.part a b c = .ok ⟨takeRanks s.time i, takeRanks s.freq j, takeRanks s.polar k,
      (takeRanks s.data i).map fun row : List (List ℚ) => (takeRanks row j).map fun cell : List ℚ => takeRanks cell k⟩ := by
  have t := w.table
  have li := ranks_lt hi
  have lj := ranks_lt hj
  have lk := ranks_lt hk
  unfold SData.part
  rw [hi, ok_bind, hj, ok_bind, hk, ok_bind]
  apply mkSData_of
  · refine ⟨?_, ?_⟩
    · rw [List.length_map, takeRanks_length _ _ (by rw [t.1.1]; exact li), takeRanks_length _ _ li]
    · intro r hr
      obtain ⟨row, hrow, rfl⟩ := List.mem_map.1 hr
      have hm := mem_takeRanks hrow
      rw [List.length_map, takeRanks_length _ _ (by rw [t.1.2 row hm]; exact lj), takeRanks_length _ _ lj]
  · intro r hr c' hc
    obtain ⟨row, hrow, rfl⟩ := List.mem_map.1 hr
    obtain ⟨cell, hcell, rfl⟩ := List.mem_map.1 hc
    have hm := t.2 row (mem_takeRanks hrow) cell (mem_takeRanks hcell)
    rw [takeRanks_length _ _ (by rw [hm]; exact lk), takeRanks_length _ _ lk]

/-- C165, parts: the slices name ranks of times, frequencies and polarisations (see `slice_up` and
`slice_down`); the part is a data set with exactly these labels, and each of its values is the one which
the data set has under the same three labels. -/
theorem part_exact (s : SData) (w : s.WF) (a b c : PySlice) (i j k : List Nat)
    (hi : a.ranks s.time.length = .ok i) (hj : b.ranks s.freq.length = .ok j) (hk : c.ranks s.polar.length = .ok k) :
    ∃ q : SData, s.item (.tuple [some a, some b, some c]) = .ok q ∧ q.WF
      ∧ (q.time.length = i.length ∧ ∀ x : Nat, q.time[x]? = i[x]?.bind fun m : Nat => s.time[m]?)
      ∧ (q.freq.length = j.length ∧ ∀ x : Nat, q.freq[x]? = j[x]?.bind fun m : Nat => s.freq[m]?)
      ∧ (q.polar.length = k.length ∧ ∀ x : Nat, q.polar[x]? = k[x]?.bind fun m : Nat => s.polar[m]?)
      ∧ ∀ (x y z m n o : Nat), i[x]? = some m → j[y]? = some n → k[z]? = some o → q.cell x y z = s.cell m n o := by
  have t := w.table
  have li := ranks_lt hi
  have lj := ranks_lt hj
  have lk := ranks_lt hk
  have e := part_eq s w a b c i j k hi hj hk
  refine ⟨_, e, ?_, ⟨takeRanks_length _ _ li, takeRanks_get _ _ li⟩, ⟨takeRanks_length _ _ lj, takeRanks_get _ _ lj⟩,
    ⟨takeRanks_length _ _ lk, takeRanks_get _ _ lk⟩, ?_⟩
  · unfold SData.part at e
    rw [hi, ok_bind, hj, ok_bind, hk, ok_bind] at e
    exact e
  · intro x y z m n o hx hy hz
    have hm : m < s.time.length := li m (List.mem_of_getElem? hx)
    have hn : n < s.freq.length := lj n (List.mem_of_getElem? hy)
    have hd : m < s.data.length := by rw [t.1.1]; exact hm
    have r1 : s.data[m]? = some s.data[m] := List.getElem?_eq_getElem hd
    have w1 := t.1.2 _ (List.getElem_mem hd)
    have hf : n < s.data[m].length := by rw [w1]; exact hn
    have r2 : s.data[m][n]? = some s.data[m][n] := List.getElem?_eq_getElem hf
    have w2 := t.2 _ (List.getElem_mem hd) _ (List.getElem_mem hf)
    show (((List.map _ (takeRanks s.data i))[x]?).bind fun row : List (List ℚ) => row[y]?).bind (fun c : List ℚ => c[z]?)
      = ((s.data[m]?).bind fun row : List (List ℚ) => row[n]?).bind fun c : List ℚ => c[o]?
    rw [List.getElem?_map, takeRanks_get _ _ (by rw [t.1.1]; exact li), hx]
    show ((Option.map _ (s.data[m]?)).bind fun row : List (List ℚ) => row[y]?).bind (fun c : List ℚ => c[z]?) = _
    rw [r1]
    show ((List.map _ (takeRanks s.data[m] j))[y]?).bind (fun c : List ℚ => c[z]?) = (s.data[m][n]?).bind fun c : List ℚ => c[o]?
    rw [List.getElem?_map, takeRanks_get _ _ (by rw [w1]; exact lj), hy]
    show (Option.map _ (s.data[m][n]?)).bind (fun c : List ℚ => c[z]?) = _
    rw [r2]
    show (takeRanks s.data[m][n] k)[z]? = s.data[m][n][o]?
    rw [takeRanks_get _ _ (by rw [w2]; exact lk), hz]
    rfl

/-- C165, refusals: anything but three slices, and slices with a step of 0. -/
theorem part_refused (s : SData) :
    s.item .other = .error .indexError
      ∧ (∀ l : List (Option PySlice), l.length ≠ 3 ∨ none ∈ l → s.item (.tuple l) = .error .indexError)
      ∧ (∀ a b c : PySlice, a.stride = 0 ∨ b.stride = 0 ∨ c.stride = 0 → s.item (.tuple [some a, some b, some c]) = .error .valueError) := by
  refine ⟨rfl, ?_, ?_⟩
  · intro l hl
    have : (CutArg.tuple l).slices = none := by
      unfold CutArg.slices
      split
      · rename_i a b c heq
        injection heq with heq
        subst heq
        rcases hl with h | h
        · exact absurd rfl h
        · simp at h
      · rfl
    unfold SData.item
    rw [this]
    rfl
  · intro a b c h
    show s.part a b c = _
    have z : ∀ (x : PySlice) (n : Nat), x.stride = 0 → x.ranks n = .error .valueError := fun x n hx => if_pos hx
    unfold SData.part
    by_cases ha : a.stride = 0
    · rw [z a _ ha]; rfl
    · obtain ⟨i, hi⟩ := ranks_ok a s.time.length ha
      rw [hi, ok_bind]
      by_cases hb : b.stride = 0
      · rw [z b _ hb]; rfl
      · obtain ⟨j, hj⟩ := ranks_ok b s.freq.length hb
        rw [hj, ok_bind]
        have hc : c.stride = 0 := by tauto
        rw [z c _ hc]
        rfl

/-! ## Cutting and joining -/

/-- `:`. -/
def whole : PySlice := ⟨none, none, none⟩

/-- `:k`. -/
def upTo (k : Nat) : PySlice := ⟨none, some k, none⟩

/-- `k:`. -/
def startingAt (k : Nat) : PySlice := ⟨some k, none, none⟩

/-- `::-1`. -/
def backwards : PySlice := ⟨none, none, some (-1)⟩

theorem ranks_one (s : PySlice) (n : Nat) (h : s.stride = 1) :
    s.ranks n = .ok ((List.range (highEnd n s - lowEnd n s)).map fun k : Nat => lowEnd n s + k) := by
  have hp : 0 < s.stride := by omega
  have hc : s.count n = highEnd n s - lowEnd n s := by
    unfold PySlice.count
    rw [if_pos hp, first_up s n hp, last_up s n hp, h]
    omega
  unfold PySlice.ranks
  rw [if_neg (by omega), hc, first_up s n hp, h]
  congr 1
  apply List.map_congr_left
  intro k _
  omega

theorem ranks_whole (n : Nat) : whole.ranks n = .ok (List.range n) := by
  rw [ranks_one whole n rfl]
  show Except.ok ((List.range (n - 0)).map fun k : Nat => 0 + k) = _
  simp

theorem ranks_upTo (n k : Nat) (h : k ≤ n) : (upTo k).ranks n = .ok (List.range k) := by
  rw [ranks_one (upTo k) n rfl]
  show Except.ok ((List.range (pyBound n k - 0)).map fun k : Nat => 0 + k) = _
  rw [pyBound_nat, min_eq_left h]
  simp

theorem ranks_from (n k : Nat) (h : k ≤ n) : (startingAt k).ranks n = .ok ((List.range (n - k)).map fun i : Nat => k + i) := by
  rw [ranks_one (startingAt k) n rfl]
  show Except.ok ((List.range (n - pyBound n k)).map fun i : Nat => pyBound n k + i) = _
  rw [pyBound_nat, min_eq_left h]

theorem takeRanks_from {α : Type} (l : List α) (k m : Nat) (h : k + m = l.length) :
    takeRanks l ((List.range m).map fun i : Nat => k + i) = l.drop k := by
  have lt : ∀ i ∈ (List.range m).map fun i : Nat => k + i, i < l.length := by
    intro i hi
    obtain ⟨x, hx, rfl⟩ := List.mem_map.1 hi
    have := List.mem_range.1 hx
    omega
  apply List.ext_getElem?
  intro x
  rw [takeRanks_get _ _ lt, List.getElem?_map, List.getElem?_drop]
  rcases lt_or_ge x m with hx | hx
  · rw [List.getElem?_range hx]
    rfl
  · rw [List.getElem?_eq_none (by rw [List.length_range]; exact hx), List.getElem?_eq_none (show l.length ≤ k + x by omega)]
    rfl

theorem takeRanks_upTo {α : Type} (l : List α) (k : Nat) (h : k ≤ l.length) : takeRanks l (List.range k) = l.take k := by
  have lt : ∀ i ∈ List.range k, i < l.length := fun i hi => lt_of_lt_of_le (List.mem_range.1 hi) h
  apply List.ext_getElem?
  intro x
  rw [takeRanks_get _ _ lt, List.getElem?_take]
  rcases lt_or_ge x k with hx | hx
  · rw [List.getElem?_range hx, if_pos hx]
    rfl
  · rw [List.getElem?_eq_none (by rw [List.length_range]; exact hx), if_neg (Nat.not_lt.2 hx)]
    rfl

theorem takeRanks_whole {α : Type} (l : List α) (n : Nat) (h : n = l.length) : takeRanks l (List.range n) = l := by
  subst h
  rw [takeRanks_upTo l _ le_rfl, List.take_length]

theorem cells_whole (s : SData) (w : s.WF) (rows : List (List (List ℚ))) (h : ∀ r ∈ rows, r ∈ s.data) :
    (rows.map fun row : List (List ℚ) => (takeRanks row (List.range s.freq.length)).map fun cell : List ℚ =>
      takeRanks cell (List.range s.polar.length)) = rows := by
  have t := w.table
  conv_rhs => rw [← List.map_id rows]
  apply List.map_congr_left
  intro row hr
  rw [takeRanks_whole row _ (t.1.2 row (h row hr)).symm]
  conv_rhs => rw [id, ← List.map_id row]
  apply List.map_congr_left
  intro cell hc
  rw [takeRanks_whole cell _ (t.2 row (h row hr) cell hc).symm]
  rfl

/-- C165: the part for three times `:` is the data set. -/
theorem part_whole (s : SData) (w : s.WF) : s.part whole whole whole = .ok s := by
  have t := w.table
  rw [part_eq s w _ _ _ _ _ _ (ranks_whole _) (ranks_whole _) (ranks_whole _), takeRanks_whole _ _ rfl, takeRanks_whole _ _ rfl,
    takeRanks_whole _ _ rfl, takeRanks_whole s.data _ t.1.1.symm, cells_whole s w _ fun r hr => hr]

theorem part_early (s : SData) (w : s.WF) (k : Nat) (h : k ≤ s.time.length) :
    s.part (upTo k) whole whole = .ok ⟨s.time.take k, s.freq, s.polar, s.data.take k⟩ := by
  have t := w.table
  rw [part_eq s w _ _ _ _ _ _ (ranks_upTo _ k h) (ranks_whole _) (ranks_whole _), takeRanks_upTo _ _ h, takeRanks_whole _ _ rfl,
    takeRanks_whole _ _ rfl, takeRanks_upTo s.data _ (by rw [t.1.1]; exact h), cells_whole s w _ fun r hr => List.mem_of_mem_take hr]

theorem part_late (s : SData) (w : s.WF) (k : Nat) (h : k ≤ s.time.length) :
    s.part (startingAt k) whole whole = .ok ⟨s.time.drop k, s.freq, s.polar, s.data.drop k⟩ := by
  have t := w.table
  rw [part_eq s w _ _ _ _ _ _ (ranks_from _ k h) (ranks_whole _) (ranks_whole _), takeRanks_from _ k _ (by omega), takeRanks_whole _ _ rfl,
    takeRanks_whole _ _ rfl, takeRanks_from s.data k _ (by rw [t.1.1]; omega), cells_whole s w _ fun r hr => List.mem_of_mem_drop hr]

/-- C165, cutting and joining in time: with increasing times, the data before a time and the data from it
on joined together are the data set. -/
theorem cut_join_time (s : SData) (w : s.WF) (hs : s.time.Pairwise (· < ·)) (k : Nat) (h0 : 0 < k) (h1 : k < s.time.length) :
    ((s.part (upTo k) whole whole).bind fun a => (s.part (startingAt k) whole whole).bind fun b => sdataOr a b) = .ok s := by
  have t := w.table
  rw [part_early s w k h1.le, ok_bind, part_late s w k h1.le, ok_bind]
  unfold sdataOr
  have before : allBefore (s.time.take k) (s.time.drop k) = true := by
    unfold allBefore
    rw [List.all_eq_true]
    intro x hx
    rw [List.all_eq_true]
    intro y hy
    rw [decide_eq_true_iff]
    have hs' := hs
    rw [← List.take_append_drop k s.time, List.pairwise_append] at hs'
    exact hs'.2.2 x hx y hy
  dsimp only
  rw [if_neg (by simp), eqAll_refl, ok_bind, if_neg (by simp), if_neg (by
    intro h
    rcases h with h | h
    · have := congrArg List.length h
      rw [List.length_take, List.length_nil] at this
      omega
    · have := congrArg List.length h
      rw [List.length_drop, List.length_nil] at this
      omega), before, if_pos rfl, List.take_append_drop, List.take_append_drop]
  exact w

/-- C165, violated: joined in the other order the times are exchanged and the values are not. -/
theorem cut_join_violated (s : SData) (w : s.WF) (hs : s.time.Pairwise (· < ·)) (k : Nat) (h0 : 0 < k) (h1 : k < s.time.length) :
    ∃ q : SData, ((s.part (startingAt k) whole whole).bind fun a => (s.part (upTo k) whole whole).bind fun b => sdataOr a b) = .ok q
      ∧ q.time = s.time.drop k ++ s.time.take k ∧ q.data = s.data ∧ q.time ≠ s.time := by
  have t := w.table
  rw [part_early s w k h1.le, part_late s w k h1.le, ok_bind, ok_bind]
  have hs' := hs
  rw [← List.take_append_drop k s.time, List.pairwise_append] at hs'
  have ne1 : s.time.take k ≠ [] := by
    intro h
    have := congrArg List.length h
    rw [List.length_take, List.length_nil] at this
    omega
  have ne2 : s.time.drop k ≠ [] := by
    intro h
    have := congrArg List.length h
    rw [List.length_drop, List.length_nil] at this
    omega
  obtain ⟨x, hx⟩ := List.exists_mem_of_ne_nil _ ne1
  obtain ⟨y, hy⟩ := List.exists_mem_of_ne_nil _ ne2
  have hxy := hs'.2.2 x hx y hy
  have before : allBefore (s.time.drop k) (s.time.take k) = false := by
    rw [Bool.eq_false_iff]
    intro h
    unfold allBefore at h
    rw [List.all_eq_true] at h
    have := List.all_eq_true.1 (h y hy) x hx
    rw [decide_eq_true_iff] at this
    exact absurd hxy (not_lt.2 this.le)
  unfold sdataOr
  dsimp only
  rw [if_neg (by simp), eqAll_refl, ok_bind, if_neg (by simp), if_neg (by simp [ne1, ne2]), before, if_neg (by decide), List.take_append_drop,
    mkSData_of]
  · refine ⟨_, rfl, rfl, rfl, ?_⟩
    show s.time.drop k ++ s.time.take k ≠ s.time
    intro h
    have hh := hs
    rw [← h, List.pairwise_append] at hh
    exact absurd hxy (not_lt.2 (hh.2.2 y hy x hx).le)
  · refine ⟨?_, t.1.2⟩
    rw [List.length_append, List.length_take, List.length_drop, t.1.1]
    omega
  · exact t.2

theorem part_low (s : SData) (w : s.WF) (k : Nat) (h : k ≤ s.freq.length) :
    s.part whole (upTo k) whole = .ok ⟨s.time, s.freq.take k, s.polar, s.data.map fun row : List (List ℚ) => row.take k⟩ := by
  have t := w.table
  rw [part_eq s w _ _ _ _ _ _ (ranks_whole _) (ranks_upTo _ k h) (ranks_whole _), takeRanks_upTo _ _ h, takeRanks_whole _ _ rfl,
    takeRanks_whole _ _ rfl, takeRanks_whole s.data _ t.1.1.symm]
  congr 2
  apply List.map_congr_left
  intro row hr
  rw [takeRanks_upTo row k (by rw [t.1.2 row hr]; exact h)]
  conv_rhs => rw [← List.map_id (row.take k)]
  apply List.map_congr_left
  intro cell hc
  rw [takeRanks_whole cell _ (t.2 row hr cell (List.mem_of_mem_take hc)).symm]
  rfl

theorem part_high (s : SData) (w : s.WF) (k : Nat) (h : k ≤ s.freq.length) :
    s.part whole (startingAt k) whole = .ok ⟨s.time, s.freq.drop k, s.polar, s.data.map fun row : List (List ℚ) => row.drop k⟩ := by
  have t := w.table
  rw [part_eq s w _ _ _ _ _ _ (ranks_whole _) (ranks_from _ k h) (ranks_whole _), takeRanks_from _ k _ (by omega), takeRanks_whole _ _ rfl,
    takeRanks_whole _ _ rfl, takeRanks_whole s.data _ t.1.1.symm]
  congr 2
  apply List.map_congr_left
  intro row hr
  rw [takeRanks_from row k _ (by rw [t.1.2 row hr]; omega)]
  conv_rhs => rw [← List.map_id (row.drop k)]
  apply List.map_congr_left
  intro cell hc
  rw [takeRanks_whole cell _ (t.2 row hr cell (List.mem_of_mem_drop hc)).symm]
  rfl

theorem glue_rows (k : Nat) (d : List (List (List ℚ))) :
    List.zipWith (· ++ ·) (d.map fun row : List (List ℚ) => row.take k) (d.map fun row : List (List ℚ) => row.drop k) = d := by
  induction d with
  | nil => rfl
  | cons a d ih =>
    rw [List.map_cons, List.map_cons, List.zipWith_cons_cons, ih, List.take_append_drop]

/-- C165, cutting and joining in frequency: with increasing frequencies and two or more times which do not
decrease at first, the low and the high frequencies joined together, in any order, are the data set. -/
theorem cut_join_freq (s : SData) (w : s.WF) (hf : s.freq.Pairwise (· < ·)) (h2 : 2 ≤ s.time.length)
    (hinc : s.time.getD 0 0 ≤ s.time.getD 1 0) (k : Nat) (h0 : 0 < k) (h1 : k < s.freq.length) :
    ((s.part whole (upTo k) whole).bind fun a => (s.part whole (startingAt k) whole).bind fun b => sdataAnd a b) = .ok s
      ∧ ((s.part whole (startingAt k) whole).bind fun a => (s.part whole (upTo k) whole).bind fun b => sdataAnd a b) = .ok s := by
  have t := w.table
  rw [part_low s w k h1.le, part_high s w k h1.le, ok_bind, ok_bind, ok_bind, ok_bind]
  have hs' := hf
  rw [← List.take_append_drop k s.freq, List.pairwise_append] at hs'
  have ne1 : s.freq.take k ≠ [] := by
    intro h
    have := congrArg List.length h
    rw [List.length_take, List.length_nil] at this
    omega
  have ne2 : s.freq.drop k ≠ [] := by
    intro h
    have := congrArg List.length h
    rw [List.length_drop, List.length_nil] at this
    omega
  obtain ⟨x, hx⟩ := List.exists_mem_of_ne_nil _ ne1
  obtain ⟨y, hy⟩ := List.exists_mem_of_ne_nil _ ne2
  have hxy := hs'.2.2 x hx y hy
  have b1 : allBefore (s.freq.take k) (s.freq.drop k) = true := by
    unfold allBefore
    rw [List.all_eq_true]
    intro x hx
    rw [List.all_eq_true]
    intro y hy
    rw [decide_eq_true_iff]
    exact hs'.2.2 x hx y hy
  have b2 : allBefore (s.freq.drop k) (s.freq.take k) = false := by
    rw [Bool.eq_false_iff]
    intro h
    unfold allBefore at h
    rw [List.all_eq_true] at h
    have := List.all_eq_true.1 (h y hy) x hx
    rw [decide_eq_true_iff] at this
    exact absurd hxy (not_lt.2 this.le)
  have hst : hstack3 (s.data.map fun row : List (List ℚ) => row.take k) (s.data.map fun row : List (List ℚ) => row.drop k) = .ok s.data := by
    unfold hstack3
    rw [if_pos (by rw [List.length_map, List.length_map]), glue_rows]
  constructor
  · unfold sdataAnd
    dsimp only
    rw [if_neg (by simp), closeTimes_refl _ h2 hinc, ok_bind, if_neg (by simp), if_neg (by simp [ne1, ne2]), b1, if_pos rfl, hst, ok_bind,
      List.take_append_drop]
    exact w
  · unfold sdataAnd
    dsimp only
    rw [if_neg (by simp), closeTimes_refl _ h2 hinc, ok_bind, if_neg (by simp), if_neg (by simp [ne1, ne2]), b2, if_neg (by decide), hst, ok_bind,
      List.take_append_drop]
    exact w

/-! ## Median profiles -/

/-- At least half of the values are not above `m`, and at least half are not below. -/
def IsMedian (l : List ℚ) (m : ℚ) : Prop :=
  l.length ≤ 2 * (l.countP fun x => decide (x ≤ m)) ∧ l.length ≤ 2 * (l.countP fun x => decide (m ≤ x))

theorem median_is (l : List ℚ) (h : l ≠ []) : ∃ m : ℚ, median l = some m ∧ IsMedian l m := by
  unfold median
  rw [if_neg h]
  have hn : 0 < l.length := List.length_pos_iff.2 h
  have hp : (l.insertionSort (· ≤ ·)).Perm l := List.perm_insertionSort _ _
  have hsrt : (l.insertionSort (· ≤ ·)).Pairwise (· ≤ ·) := List.pairwise_insertionSort _ _
  generalize l.insertionSort (· ≤ ·) = s at hp hsrt
  have hl : s.length = l.length := hp.length_eq
  refine ⟨_, rfl, ?_⟩
  have i1 : (l.length - 1) / 2 < s.length := by omega
  have i2 : l.length / 2 < s.length := by omega
  have g1 : s.getD ((l.length - 1) / 2) 0 = s[(l.length - 1) / 2] := by
    rw [List.getD_eq_getElem?_getD, List.getElem?_eq_getElem i1]; rfl
  have g2 : s.getD (l.length / 2) 0 = s[l.length / 2] := by
    rw [List.getD_eq_getElem?_getD, List.getElem?_eq_getElem i2]; rfl
  rw [g1, g2]
  have mono : ∀ (a b : Nat) (ha : a < s.length) (hb : b < s.length), a ≤ b → s[a] ≤ s[b] := by
    intro a b ha hb hab
    rcases Nat.lt_or_eq_of_le hab with h | h
    · exact List.pairwise_iff_getElem.1 hsrt a b ha hb h
    · subst h; exact le_rfl
  have h12 := mono _ _ i1 i2 (by omega)
  constructor
  · rw [← hp.countP_eq]
    have : (l.length - 1) / 2 + 1 ≤ s.countP fun x => decide (x ≤ (s[(l.length - 1) / 2] + s[l.length / 2]) / 2) := by
      have c1 : (s.take ((l.length - 1) / 2 + 1)).countP (fun x => decide (x ≤ (s[(l.length - 1) / 2] + s[l.length / 2]) / 2))
          = (s.take ((l.length - 1) / 2 + 1)).length := by
        rw [List.countP_eq_length]
        intro x hx
        obtain ⟨a, ha, rfl⟩ := List.mem_iff_getElem.1 hx
        rw [List.length_take] at ha
        rw [List.getElem_take, decide_eq_true_iff]
        have := mono a _ (by omega) i1 (by omega)
        linarith
      have c2 := (List.take_sublist ((l.length - 1) / 2 + 1) s).countP_le (p := fun x => decide (x ≤ (s[(l.length - 1) / 2] + s[l.length / 2]) / 2))
      rw [c1, List.length_take] at c2
      omega
    omega
  · rw [← hp.countP_eq]
    have : l.length - l.length / 2 ≤ s.countP fun x => decide ((s[(l.length - 1) / 2] + s[l.length / 2]) / 2 ≤ x) := by
      have c1 : (s.drop (l.length / 2)).countP (fun x => decide ((s[(l.length - 1) / 2] + s[l.length / 2]) / 2 ≤ x))
          = (s.drop (l.length / 2)).length := by
        rw [List.countP_eq_length]
        intro x hx
        obtain ⟨a, ha, rfl⟩ := List.mem_iff_getElem.1 hx
        rw [List.length_drop] at ha
        rw [List.getElem_drop, decide_eq_true_iff]
        have := mono _ (l.length / 2 + a) i2 (by omega) (by omega)
        linarith
      have c2 := (List.drop_sublist (l.length / 2) s).countP_le (p := fun x => decide ((s[(l.length - 1) / 2] + s[l.length / 2]) / 2 ≤ x))
      rw [c1, List.length_drop] at c2
      omega
    omega

theorem cell_table (L : List Nat) (nf np : Nat) (g : Nat → Nat → Nat → ℚ) (t f p m : Nat) (ht : L[t]? = some m) (hf : f < nf) (hp : p < np) :
    (((L.map fun t : Nat => (List.range nf).map fun f : Nat => (List.range np).map fun p : Nat => g t f p)[t]?).bind
      fun row : List (List ℚ) => row[f]?).bind (fun c : List ℚ => c[p]?) = some (g m f p) := by
  rw [List.getElem?_map, ht]
  show (((List.range nf).map fun f : Nat => (List.range np).map fun p : Nat => g m f p)[f]?).bind (fun c : List ℚ => c[p]?) = _
  rw [List.getElem?_map, List.getElem?_range hf]
  show ((List.range np).map fun p : Nat => g m f p)[p]? = _
  rw [List.getElem?_map, List.getElem?_range hp]
  rfl

/-- The values of a data set for one channel and one polarisation are those of its cells. -/
theorem column_cells (s : SData) (w : s.WF) (f p : Nat) (hf : f < s.freq.length) (hp : p < s.polar.length) :
    (s.column f p).length = s.time.length ∧ ∀ t : Nat, t < s.time.length → (s.column f p)[t]? = s.cell t f p := by
  have tb := w.table
  unfold SData.column
  refine ⟨by rw [List.length_map, tb.1.1], fun t ht => ?_⟩
  have hd : t < s.data.length := by rw [tb.1.1]; exact ht
  have hr : f < s.data[t].length := by rw [tb.1.2 _ (List.getElem_mem hd)]; exact hf
  have hc : p < s.data[t][f].length := by rw [tb.2 _ (List.getElem_mem hd) _ (List.getElem_mem hr)]; exact hp
  unfold SData.cell
  rw [List.getElem?_map, List.getElem?_eq_getElem hd]
  show some ((s.data[t].getD f []).getD p 0) = (s.data[t][f]?).bind fun c : List ℚ => c[p]?
  have e1 : s.data[t].getD f [] = s.data[t][f] := by
    rw [List.getD_eq_getElem?_getD, List.getElem?_eq_getElem hr]
    rfl
  rw [e1, List.getElem?_eq_getElem hr]
  show some ((s.data[t][f]).getD p 0) = s.data[t][f][p]?
  rw [List.getD_eq_getElem?_getD, List.getElem?_eq_getElem hc]
  rfl

/-- The same for one spectrum and one polarisation. -/
theorem spectrum_cells (s : SData) (w : s.WF) (t p : Nat) (ht : t < s.data.length) (hp : p < s.polar.length) :
    (spectrumOf s.data[t] p).length = s.freq.length ∧ ∀ f : Nat, f < s.freq.length → (spectrumOf s.data[t] p)[f]? = s.cell t f p := by
  have tb := w.table
  unfold spectrumOf
  refine ⟨by rw [List.length_map, tb.1.2 _ (List.getElem_mem ht)], fun f hf => ?_⟩
  have hr : f < s.data[t].length := by rw [tb.1.2 _ (List.getElem_mem ht)]; exact hf
  have hc : p < s.data[t][f].length := by rw [tb.2 _ (List.getElem_mem ht) _ (List.getElem_mem hr)]; exact hp
  unfold SData.cell
  rw [List.getElem?_map, List.getElem?_eq_getElem hr, List.getElem?_eq_getElem ht]
  show some (s.data[t][f].getD p 0) = (s.data[t][f]?).bind fun c : List ℚ => c[p]?
  rw [List.getElem?_eq_getElem hr]
  show some ((s.data[t][f]).getD p 0) = s.data[t][f][p]?
  rw [List.getD_eq_getElem?_getD, List.getElem?_eq_getElem hc]
  rfl

/-- C165, the median spectrum: the frequencies and the polarisations are kept, there is one time, which is
the middle of the first and the last one to within the rounding of the text, and each value is a median of
the values of the same frequency and polarisation. -/
theorem median_spectrum_partial (isot : ℚ → ℚ) (eps : ℚ) (he : ∀ t : ℚ, |isot t - t| ≤ eps) (s : SData) (t0 t1 : ℚ)
    (h0 : s.time.head? = some t0) (h1 : s.time.getLast? = some t1) (w : s.WF) :
    ∃ (q : SData) (t : ℚ), s.medianF isot = .ok q ∧ q.WF ∧ q.freq = s.freq ∧ q.polar = s.polar ∧ q.time = [t]
      ∧ |t - (t0 + t1) / 2| ≤ eps
      ∧ ∀ f p : Nat, f < s.freq.length → p < s.polar.length → ∃ (m : ℚ) (l : List ℚ), q.cell 0 f p = some m
          ∧ l.length = s.time.length ∧ (∀ t : Nat, t < s.time.length → l[t]? = s.cell t f p) ∧ IsMedian l m := by
  have tb := w.table
  have hne : s.time ≠ [] := by
    intro h
    rw [h] at h0
    cases h0
  have e : s.medianF isot = .ok ⟨[isot s.midTime], s.freq, s.polar, [(List.range s.freq.length).map fun f : Nat =>
      (List.range s.polar.length).map fun p : Nat => (median (s.column f p)).getD 0]⟩ := by
    unfold SData.medianF
    rw [if_neg hne]
    apply mkSData_of
    · refine ⟨rfl, ?_⟩
      intro r hr
      rw [List.mem_singleton] at hr
      subst hr
      rw [List.length_map, List.length_range]
    · intro r hr c hc
      rw [List.mem_singleton] at hr
      subst hr
      obtain ⟨f, -, rfl⟩ := List.mem_map.1 hc
      rw [List.length_map, List.length_range]
  have hm : s.midTime = (t0 + t1) / 2 := by
    unfold SData.midTime
    rw [List.headD_eq_head?_getD, List.getLastD_eq_getLast?, h0, h1]
    show t0 + (t1 - t0) / 2 = _
    ring
  refine ⟨_, isot s.midTime, e, ?_, rfl, rfl, rfl, ?_, ?_⟩
  · unfold SData.medianF at e
    rw [if_neg hne] at e
    exact e
  · rw [← hm]; exact he _
  · intro f p hf hp
    have hc : s.column f p ≠ [] := by
      intro h
      unfold SData.column at h
      rw [List.map_eq_nil_iff] at h
      have := tb.1.1
      rw [h] at this
      exact hne (List.length_eq_zero_iff.1 this.symm)
    obtain ⟨m, em, im⟩ := median_is _ hc
    refine ⟨m, _, ?_, (column_cells s w f p hf hp).1, (column_cells s w f p hf hp).2, im⟩
    have := cell_table [0] s.freq.length s.polar.length (fun _ f p => (median (s.column f p)).getD 0) 0 f p 0 rfl hf hp
    show (((([0] : List Nat).map fun _ : Nat => (List.range s.freq.length).map fun f : Nat => (List.range s.polar.length).map fun p : Nat =>
      (median (s.column f p)).getD 0)[0]?).bind fun row : List (List ℚ) => row[f]?).bind (fun c : List ℚ => c[p]?) = _
    rw [this, em]
    rfl

/-- C165, violated for the time of the median spectrum: data of one spectrum at a time which is not the
one read back from its text get another time, and cannot be compared with their own median spectrum any
more. -/
theorem median_time_violated (isot : ℚ → ℚ) (op : ℚ → ℚ → ℚ) (s : SData) (t : ℚ) (ht : s.time = [t]) (hi : isot t ≠ t) :
    ∃ q : SData, s.medianF isot = .ok q ∧ q.time ≠ s.time ∧ sdataOp op s q = .error .valueError := by
  have hmid : s.midTime = t := by
    unfold SData.midTime
    rw [ht]
    show t + (t - t) / 2 = t
    ring
  have e : s.medianF isot = .ok ⟨[isot t], s.freq, s.polar, [(List.range s.freq.length).map fun f : Nat =>
      (List.range s.polar.length).map fun p : Nat => (median (s.column f p)).getD 0]⟩ := by
    unfold SData.medianF
    rw [if_neg (by rw [ht]; exact List.cons_ne_nil _ _), hmid]
    apply mkSData_of
    · refine ⟨rfl, ?_⟩
      intro r hr
      rw [List.mem_singleton] at hr
      subst hr
      rw [List.length_map, List.length_range]
    · intro r hr c hc
      rw [List.mem_singleton] at hr
      subst hr
      obtain ⟨f, -, rfl⟩ := List.mem_map.1 hc
      rw [List.length_map, List.length_range]
  refine ⟨_, e, ?_, ?_⟩
  · show [isot t] ≠ s.time
    rw [ht]
    intro h
    exact hi (List.cons.inj h).1
  · unfold sdataOp
    rw [if_pos]
    unfold conform
    dsimp only
    rw [ht, if_neg (by simp), if_pos (by simp [Ne.symm hi])]
    rfl

/-- C165, the median curve: the times and the polarisations are kept, there is one frequency, the mean of
all of them, and each value is a median of the values of the same time and polarisation. -/
theorem median_curve (s : SData) (w : s.WF) (hf : s.freq ≠ []) :
    ∃ (q : SData) (f : ℚ), s.medianT = .ok q ∧ q.WF ∧ q.time = s.time ∧ q.polar = s.polar ∧ q.freq = [f]
      ∧ f * s.freq.length = s.freq.sum
      ∧ ∀ t p : Nat, t < s.time.length → p < s.polar.length →
          ∃ (m : ℚ) (l : List ℚ), q.cell t 0 p = some m
            ∧ l.length = s.freq.length ∧ (∀ f : Nat, f < s.freq.length → l[f]? = s.cell t f p) ∧ IsMedian l m := by
  have tb := w.table
  have hl : (s.freq.length : ℚ) ≠ 0 := by
    intro h
    exact hf (List.length_eq_zero_iff.1 (by exact_mod_cast h))
  have e : s.medianT = .ok ⟨s.time, [s.freq.sum / s.freq.length], s.polar, s.data.map fun row : List (List ℚ) =>
      [(List.range s.polar.length).map fun p : Nat => (median (spectrumOf row p)).getD 0]⟩ := by
    unfold SData.medianT
    apply mkSData_of
    · refine ⟨by rw [List.length_map, tb.1.1], ?_⟩
      intro r hr
      obtain ⟨row, -, rfl⟩ := List.mem_map.1 hr
      rfl
    · intro r hr c hc
      obtain ⟨row, -, rfl⟩ := List.mem_map.1 hr
      rw [List.mem_singleton] at hc
      subst hc
      rw [List.length_map, List.length_range]
  refine ⟨_, _, e, ?_, rfl, rfl, rfl, div_mul_cancel₀ _ hl, ?_⟩
  · exact e
  · intro t p ht hp
    have hd : t < s.data.length := by rw [tb.1.1]; exact ht
    have r1 : s.data[t]? = some s.data[t] := List.getElem?_eq_getElem hd
    have hc : spectrumOf s.data[t] p ≠ [] := by
      intro h
      unfold spectrumOf at h
      rw [List.map_eq_nil_iff] at h
      have := tb.1.2 _ (List.getElem_mem hd)
      rw [h] at this
      exact hf (List.length_eq_zero_iff.1 this.symm)
    obtain ⟨m, em, im⟩ := median_is _ hc
    refine ⟨m, _, ?_, (spectrum_cells s w t p hd hp).1, (spectrum_cells s w t p hd hp).2, im⟩
    show (((s.data.map fun row : List (List ℚ) => [(List.range s.polar.length).map fun p : Nat => (median (spectrumOf row p)).getD 0])[t]?).bind
      fun row : List (List ℚ) => row[0]?).bind (fun c : List ℚ => c[p]?) = _
    rw [List.getElem?_map, r1]
    show ((List.range s.polar.length).map fun p : Nat => (median (spectrumOf s.data[t] p)).getD 0)[p]? = _
    rw [List.getElem?_map, List.getElem?_range hp]
    show some ((median (spectrumOf s.data[t] p)).getD 0) = some m
    rw [em]
    rfl

/-- C165, without any time there is no median spectrum. -/
theorem median_refused (isot : ℚ → ℚ) (s : SData) (h : s.time = []) : s.medianF isot = .error .indexError := if_pos h

/-! ## Concrete cases -/

/-- Three times, two frequencies, one polarisation. -/
def cutDemo : SData := ⟨[0, 1, 2], [10, 20], [['N', 'W']], [[[1], [2]], [[3], [4]], [[5], [7]]]⟩

theorem cutDemo_wf : cutDemo.WF := rfl

example : (cutDemo.item (.tuple [some ⟨none, none, some (-2)⟩, some ⟨some (-1), none, none⟩, some whole])).toOption
    = some ⟨[2, 0], [20], [['N', 'W']], [[[7]], [[2]]]⟩ := by decide +kernel

example : ((cutDemo.part (upTo 1) whole whole).bind fun a => (cutDemo.part (startingAt 1) whole whole).bind fun b => sdataOr a b) = .ok cutDemo :=
  cut_join_time cutDemo cutDemo_wf (by decide +kernel) 1 (by decide) (by decide)

example : (cutDemo.medianF id).toOption = some ⟨[1], [10, 20], [['N', 'W']], [[[3], [4]]]⟩ := by decide +kernel

example : cutDemo.medianT.toOption = some ⟨[0, 1, 2], [15], [['N', 'W']], [[[3 / 2]], [[7 / 2]], [[6]]]⟩ := by decide +kernel

end Verif.IO
