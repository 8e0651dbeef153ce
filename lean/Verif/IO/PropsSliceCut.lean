import Verif.IO.SliceCut
import Verif.IO.PropsSDataCut

/-!
# Parts of slices, and slices as data sets (property C195)
-/

namespace Verif.IO

/-! ## Specification -/

/-- The value of a table at a rank of time and frequency. -/
def Val.at : Val → Nat → Nat → Option ℚ
  | .two rows, t, f => (rows[t]?).bind fun row : List ℚ => row[f]?
  | .one _, _, _ => none

/-! ## Parts -/

theorem head_width {s : Slice} {rows : List (List ℚ)} (t : Table s.time s.freq rows) (h : rows ≠ []) :
    (rows.headD []).length = s.freq.length := by
  cases rows with
  | nil => exact absurd rfl h
  | cons r rs => exact t.2 r List.mem_cons_self

theorem slice_part_eq (s : Slice) (rows : List (List ℚ)) (hv : s.value = .two rows) (w : s.WF) (a b : PySlice) (i j : List Nat)
    (hi : a.ranks s.time.length = .ok i) (hj : b.ranks s.freq.length = .ok j) :
    s.item (.tuple [some a, some b]) = .ok { s with
      time := takeRanks s.time i, freq := takeRanks s.freq j,
      value := .two ((takeRanks rows i).map fun row : List ℚ => takeRanks row j) } := by
  have t : Table s.time s.freq rows := by unfold Slice.WF at w; rw [hv] at w; exact w
  show s.part a b = _
  unfold Slice.part
  rw [hi, ok_bind, hj, ok_bind, hv]
  show Except.map _ ((a.ranks rows.length).bind _) = _
  rw [t.1, hi, ok_bind]
  by_cases hr : rows = []
  · have hb : b.stride ≠ 0 := by
      intro h0
      rw [PySlice.ranks, if_pos h0] at hj
      cases hj
    obtain ⟨j', hj'⟩ := ranks_ok b (rows.headD []).length hb
    rw [hj', hr]
    have : takeRanks ([] : List (List ℚ)) i = [] := by
      apply List.eq_nil_iff_forall_not_mem.2
      intro x hx
      exact absurd (mem_takeRanks hx) List.not_mem_nil
    rw [this]
    rfl
  · rw [head_width t hr, hj]
    rfl

/-- C195, parts of a table: the slices name ranks of times and frequencies (see `slice_up` and `slice_down`); the part follows its axes,
has exactly these labels, and each of its values is the one which the table has under the same labels. The polarisation and the pointing
times are those of the table. -/
theorem slice_part_exact (s : Slice) (rows : List (List ℚ)) (hv : s.value = .two rows) (w : s.WF) (a b : PySlice) (i j : List Nat)
    (hi : a.ranks s.time.length = .ok i) (hj : b.ranks s.freq.length = .ok j) :
    ∃ q : Slice, s.item (.tuple [some a, some b]) = .ok q ∧ q.WF
      ∧ (q.time.length = i.length ∧ ∀ x : Nat, q.time[x]? = i[x]?.bind fun m : Nat => s.time[m]?)
      ∧ (q.freq.length = j.length ∧ ∀ x : Nat, q.freq[x]? = j[x]?.bind fun m : Nat => s.freq[m]?)
      ∧ (∀ x y m n : Nat, i[x]? = some m → j[y]? = some n → q.value.at x y = s.value.at m n)
      ∧ q.pol = s.pol ∧ q.ana = s.ana ∧ q.digi = s.digi := by
  have t : Table s.time s.freq rows := by unfold Slice.WF at w; rw [hv] at w; exact w
  have li := ranks_lt hi
  have lj := ranks_lt hj
  have lr : ∀ m ∈ i, m < rows.length := by rw [t.1]; exact li
  refine ⟨_, slice_part_eq s rows hv w a b i j hi hj, ?_, ⟨takeRanks_length _ _ li, takeRanks_get _ _ li⟩,
    ⟨takeRanks_length _ _ lj, takeRanks_get _ _ lj⟩, ?_, rfl, rfl, rfl⟩
  · refine ⟨?_, ?_⟩
    · rw [List.length_map, takeRanks_length _ _ lr, takeRanks_length _ _ li]
    · intro r hr
      obtain ⟨row, hrow, rfl⟩ := List.mem_map.1 hr
      rw [takeRanks_length _ _ (by rw [t.2 row (mem_takeRanks hrow)]; exact lj), takeRanks_length _ _ lj]
  · intro x y m n hx hy
    have hm : m < rows.length := lr m (List.mem_of_getElem? hx)
    have r1 : rows[m]? = some rows[m] := List.getElem?_eq_getElem hm
    have w1 := t.2 _ (List.getElem_mem hm)
    rw [hv]
    show ((List.map _ (takeRanks rows i))[x]?).bind (fun row : List ℚ => row[y]?) = (rows[m]?).bind fun row : List ℚ => row[n]?
    rw [List.getElem?_map, takeRanks_get _ _ lr, hx]
    show (Option.map _ (rows[m]?)).bind (fun row : List ℚ => row[y]?) = _
    rw [r1]
    show (takeRanks rows[m] j)[y]? = rows[m][n]?
    rw [takeRanks_get _ _ (by rw [w1]; exact lj), hy]
    rfl

/-- C195, refusals: anything but two slices, and slices with a step of 0. -/
theorem slice_part_refused (s : Slice) :
    s.item .other = .error .indexError
      ∧ (∀ l : List (Option PySlice), l.length ≠ 2 ∨ none ∈ l → s.item (.tuple l) = .error .indexError)
      ∧ ∀ a b : PySlice, a.stride = 0 ∨ b.stride = 0 → s.item (.tuple [some a, some b]) = .error .valueError := by
  refine ⟨rfl, ?_, ?_⟩
  · intro l hl
    have : (CutArg.tuple l).pair = none := by
      unfold CutArg.pair
      split
      · rename_i a b heq
        injection heq with heq
        subst heq
        rcases hl with h | h
        · exact absurd rfl h
        · simp at h
      · rfl
    unfold Slice.item
    rw [this]
    rfl
  · intro a b h
    show s.part a b = _
    have z : ∀ (x : PySlice) (n : Nat), x.stride = 0 → x.ranks n = .error .valueError := fun x n hx => if_pos hx
    unfold Slice.part
    by_cases ha : a.stride = 0
    · rw [z a _ ha]; rfl
    · obtain ⟨i, hi⟩ := ranks_ok a s.time.length ha
      rw [hi, ok_bind, z b _ (h.resolve_left ha)]
      rfl

/-- C195, violated: no part of a light curve or of a spectrum can be taken, not even the whole of it: the values have one axis and two
slices are asked for. -/
theorem slice_part_curve_violated (s : Slice) (l : List ℚ) (hv : s.value = .one l) (a b : PySlice) :
    ∃ e : Err, s.item (.tuple [some a, some b]) = .error e ∧ (a.stride ≠ 0 → b.stride ≠ 0 → e = .indexError) := by
  by_cases h : a.stride = 0 ∨ b.stride = 0
  · exact ⟨_, (slice_part_refused s).2.2 a b h, fun h1 h2 => absurd h (by tauto)⟩
  · push Not at h
    obtain ⟨i, hi⟩ := ranks_ok a s.time.length h.1
    obtain ⟨j, hj⟩ := ranks_ok b s.freq.length h.2
    refine ⟨.indexError, ?_, fun _ _ => rfl⟩
    show s.part a b = _
    unfold Slice.part
    rw [hi, ok_bind, hj, ok_bind, hv]
    rfl

/-- C195, violated: a part still lists the pointings which begin after it (or which ended before it). -/
theorem slice_part_pointings_violated (s : Slice) (rows : List (List ℚ)) (hv : s.value = .two rows) (w : s.WF) (k : Nat)
    (hk : k ≤ s.time.length) (p : ℚ) (hp : p ∈ s.ana) (hl : ∀ t ∈ s.time.take k, t < p) :
    ∃ q : Slice, s.item (.tuple [some (upTo k), some whole]) = .ok q ∧ q.time = s.time.take k ∧ p ∈ q.ana ∧ ∀ t ∈ q.time, t < p := by
  refine ⟨_, slice_part_eq s rows hv w _ _ _ _ (ranks_upTo _ k hk) (ranks_whole _), takeRanks_upTo _ _ hk, hp, ?_⟩
  show ∀ t ∈ takeRanks s.time (List.range k), t < p
  rw [takeRanks_upTo _ _ hk]
  exact hl

/-! ## Cutting and joining -/

theorem pairwise_cut {l : List ℚ} (h : l.Pairwise (· < ·)) (k : Nat) : allBefore (l.take k) (l.drop k) = true := by
  unfold allBefore
  rw [List.all_eq_true]
  intro x hx
  rw [List.all_eq_true]
  intro y hy
  rw [decide_eq_true_iff]
  rw [← List.take_append_drop k l, List.pairwise_append] at h
  exact h.2.2 x hx y hy

theorem map_whole (rows : List (List ℚ)) (n : Nat) (h : ∀ r ∈ rows, r.length = n) :
    (rows.map fun row : List ℚ => takeRanks row (List.range n)) = rows := by
  conv_rhs => rw [← List.map_id rows]
  apply List.map_congr_left
  intro r hr
  exact takeRanks_whole r _ (h r hr).symm

/-- The two parts of a table cut in frequency. -/
theorem cut_freq (s : Slice) (rows : List (List ℚ)) (hv : s.value = .two rows) (w : s.WF) (k : Nat) (hk : k ≤ s.freq.length) :
    s.item (.tuple [some whole, some (upTo k)]) = .ok { s with
        freq := s.freq.take k, value := .two (rows.map fun row : List ℚ => row.take k) }
      ∧ s.item (.tuple [some whole, some (startingAt k)]) = .ok { s with
        freq := s.freq.drop k, value := .two (rows.map fun row : List ℚ => row.drop k) } := by
  have t : Table s.time s.freq rows := by unfold Slice.WF at w; rw [hv] at w; exact w
  have e1 : takeRanks rows (List.range s.time.length) = rows := takeRanks_whole rows _ t.1.symm
  constructor
  · rw [slice_part_eq s rows hv w _ _ _ _ (ranks_whole _) (ranks_upTo _ k hk), takeRanks_whole s.time _ rfl, takeRanks_upTo _ _ hk, e1]
    congr 3
    apply List.map_congr_left
    intro r hr
    exact takeRanks_upTo r k (by rw [t.2 r hr]; exact hk)
  · rw [slice_part_eq s rows hv w _ _ _ _ (ranks_whole _) (ranks_from _ k hk), takeRanks_whole s.time _ rfl, takeRanks_from s.freq k _ (by omega), e1]
    congr 3
    apply List.map_congr_left
    intro r hr
    exact takeRanks_from r k _ (by rw [t.2 r hr]; omega)

theorem zip_cut (rows : List (List ℚ)) (k : Nat) :
    List.zipWith (· ++ ·) (rows.map fun row : List ℚ => row.take k) (rows.map fun row : List ℚ => row.drop k) = rows := by
  induction rows with
  | nil => rfl
  | cons r rs ih =>
    simp only [List.map_cons, List.zipWith_cons_cons, List.take_append_drop]
    rw [ih]

/-- C195: a table cut in two at any of its frequencies is given back when its parts are joined, in either order. -/
theorem cut_join (s : Slice) (rows : List (List ℚ)) (hv : s.value = .two rows) (w : s.WF) (hf : s.freq.Pairwise (· < ·))
    (k : Nat) (h0 : 0 < k) (hk : k < s.freq.length) :
    ∃ l r : Slice, s.item (.tuple [some whole, some (upTo k)]) = .ok l ∧ s.item (.tuple [some whole, some (startingAt k)]) = .ok r
      ∧ sliceAnd l r = .ok s ∧ sliceAnd r l = .ok s := by
  have c := cut_freq s rows hv w k hk.le
  have n1 : s.freq.take k ≠ [] := by
    intro h
    have := congrArg List.length h
    rw [List.length_take, List.length_nil] at this
    omega
  have n2 : s.freq.drop k ≠ [] := by
    intro h
    have := congrArg List.length h
    simp at this
    omega
  have es : s = { s with freq := s.freq, value := .two rows } := by rw [← hv]
  have b2 : ¬ allBefore (s.freq.drop k) (s.freq.take k) = true := by
    intro h
    obtain ⟨x, hx⟩ := List.exists_mem_of_ne_nil _ n1
    obtain ⟨y, hy⟩ := List.exists_mem_of_ne_nil _ n2
    have h1 := pairwise_cut hf k
    unfold allBefore at h h1
    rw [List.all_eq_true] at h h1
    have a1 := List.all_eq_true.1 (h y hy) x hx
    have a2 := List.all_eq_true.1 (h1 x hx) y hy
    rw [decide_eq_true_iff] at a1 a2
    exact absurd a1 (not_lt.2 a2.le)
  refine ⟨_, _, c.1, c.2, ?_, ?_⟩
  · unfold sliceAnd
    rw [eqAll_refl, ok_bind, if_neg (by simp), if_neg (by simp only [n1, n2, or_self, not_false_iff]), if_pos (pairwise_cut hf k)]
    show Except.map _ (hstack (.two _) (.two _)) = _
    rw [hstack_two, if_pos (by simp), zip_cut]
    show Except.ok _ = _
    rw [List.take_append_drop]
    exact congrArg Except.ok es.symm
  · unfold sliceAnd
    rw [eqAll_refl, ok_bind, if_neg (by simp), if_neg (by simp only [n1, n2, or_self, not_false_iff]), if_neg b2]
    show Except.map _ (hstack (.two _) (.two _)) = _
    rw [hstack_two, if_pos (by simp), zip_cut]
    show Except.ok _ = _
    rw [List.take_append_drop]
    exact congrArg Except.ok es.symm

/-- The two parts of a table cut in time. -/
theorem cut_time (s : Slice) (rows : List (List ℚ)) (hv : s.value = .two rows) (w : s.WF) (k : Nat) (hk : k ≤ s.time.length) :
    s.item (.tuple [some (upTo k), some whole]) = .ok { s with time := s.time.take k, value := .two (rows.take k) }
      ∧ s.item (.tuple [some (startingAt k), some whole]) = .ok { s with time := s.time.drop k, value := .two (rows.drop k) } := by
  have t : Table s.time s.freq rows := by unfold Slice.WF at w; rw [hv] at w; exact w
  constructor
  · rw [slice_part_eq s rows hv w _ _ _ _ (ranks_upTo _ k hk) (ranks_whole _), takeRanks_whole s.freq _ rfl, takeRanks_upTo _ _ hk,
      takeRanks_upTo _ _ (by rw [t.1]; exact hk), map_whole _ _ fun r hr => t.2 r (List.mem_of_mem_take hr)]
  · rw [slice_part_eq s rows hv w _ _ _ _ (ranks_from _ k hk) (ranks_whole _), takeRanks_whole s.freq _ rfl, takeRanks_from s.time k _ (by omega),
      takeRanks_from rows k _ (by rw [t.1]; omega), map_whole _ _ fun r hr => t.2 r (List.mem_of_mem_drop hr)]

/-- C195, violated: a table cut in two at any of its times is never given back when its parts are joined in time; unless the cut is in
the middle, they cannot be joined at all. -/
theorem cut_join_time_violated (s : Slice) (rows : List (List ℚ)) (hv : s.value = .two rows) (w : s.WF)
    (k : Nat) (hk : k ≤ s.time.length) :
    ∃ l r : Slice, s.item (.tuple [some (upTo k), some whole]) = .ok l ∧ s.item (.tuple [some (startingAt k), some whole]) = .ok r
      ∧ sliceOr l r ≠ .ok s ∧ sliceOr r l ≠ .ok s
      ∧ (2 * k ≠ s.time.length → sliceOr l r = .error .valueError ∧ sliceOr r l = .error .valueError) := by
  have t : Table s.time s.freq rows := by unfold Slice.WF at w; rw [hv] at w; exact w
  have c := cut_time s rows hv w k hk
  have wl : Slice.WF { s with time := s.time.take k, value := .two (rows.take k) } :=
    ⟨by simp [t.1], fun r hr => t.2 r (List.mem_of_mem_take hr)⟩
  have wr : Slice.WF { s with time := s.time.drop k, value := .two (rows.drop k) } :=
    ⟨by simp [t.1], fun r hr => t.2 r (List.mem_of_mem_drop hr)⟩
  refine ⟨_, _, c.1, c.2, ?_, ?_, ?_⟩
  · intro h
    exact or_tables_violated _ _ _ _ rfl rfl wl wr s h w
  · intro h
    exact or_tables_violated _ _ _ _ rfl rfl wr wl s h w
  · intro hm
    have hl : (rows.take k).length ≠ (rows.drop k).length := by
      rw [List.length_take, List.length_drop, t.1]
      omega
    have n1 : hstack (.two (rows.take k)) (.two (rows.drop k)) = .error .valueError := by rw [hstack_two, if_neg hl]
    have n2 : hstack (.two (rows.drop k)) (.two (rows.take k)) = .error .valueError := by rw [hstack_two, if_neg hl.symm]
    constructor
    · unfold sliceOr
      rw [eqAll_refl, ok_bind, if_neg (by simp)]
      simp only [n1, n2]
      split_ifs <;> rfl
    · unfold sliceOr
      rw [eqAll_refl, ok_bind, if_neg (by simp)]
      simp only [n1, n2]
      split_ifs <;> rfl

/-! ## Slices as data sets -/

/-- C195: a table becomes a data set of one polarisation with the same axes and values. -/
theorem slice_sdata (s : Slice) (rows : List (List ℚ)) (hv : s.value = .two rows) (w : s.WF) :
    ∃ d : SData, s.toSData = .ok d ∧ d.WF ∧ d.time = s.time ∧ d.freq = s.freq ∧ d.polar = [s.pol]
      ∧ ∀ t f : Nat, d.cell t f 0 = s.value.at t f := by
  have t : Table s.time s.freq rows := by unfold Slice.WF at w; rw [hv] at w; exact w
  have e : s.toSData = .ok ⟨s.time, s.freq, [s.pol], rows.map fun row : List ℚ => row.map fun v : ℚ => [v]⟩ := by
    unfold Slice.toSData
    rw [hv]
    apply mkSData_of
    · refine ⟨by rw [List.length_map, t.1], ?_⟩
      intro r hr
      obtain ⟨row, hrow, rfl⟩ := List.mem_map.1 hr
      rw [List.length_map, t.2 row hrow]
    · intro r hr c hc
      obtain ⟨row, hrow, rfl⟩ := List.mem_map.1 hr
      obtain ⟨v, hv', rfl⟩ := List.mem_map.1 hc
      rfl
  refine ⟨_, e, ?_, rfl, rfl, rfl, ?_⟩
  · unfold Slice.toSData at e
    rw [hv] at e
    exact e
  · intro a b
    rw [hv]
    show (((List.map _ rows)[a]?).bind fun row : List (List ℚ) => row[b]?).bind (fun c : List ℚ => c[0]?)
      = (rows[a]?).bind fun row : List ℚ => row[b]?
    rw [List.getElem?_map]
    cases rows[a]? with
    | none => rfl
    | some row =>
      show ((List.map _ row)[b]?).bind (fun c : List ℚ => c[0]?) = row[b]?
      rw [List.getElem?_map]
      cases row[b]? with
      | none => rfl
      | some v => rfl

/-- C195, violated: no light curve and no spectrum can be made a data set. -/
theorem slice_sdata_curve_violated (s : Slice) (l : List ℚ) (hv : s.value = .one l) : s.toSData = .error .valueError := by
  unfold Slice.toSData
  rw [hv]

theorem map_takeRanks {α β : Type} (f : α → β) (l : List α) (r : List Nat) : takeRanks (l.map f) r = (takeRanks l r).map f := by
  unfold takeRanks
  rw [List.map_filterMap]
  congr 1
  funext i
  rw [List.getElem?_map]

/-- C195: taking a part and making a data set can be done in either order. -/
theorem slice_part_sdata (s : Slice) (rows : List (List ℚ)) (hv : s.value = .two rows) (w : s.WF) (a b : PySlice) :
    ((s.item (.tuple [some a, some b])).bind Slice.toSData) = s.toSData.bind fun d => d.item (.tuple [some a, some b, some whole]) := by
  obtain ⟨d, hd, wd, dt, df, dp, -⟩ := slice_sdata s rows hv w
  have dd : d.data = rows.map fun row : List ℚ => row.map fun v : ℚ => [v] := by
    unfold Slice.toSData at hd
    rw [hv] at hd
    dsimp only at hd
    unfold mkSData at hd
    split at hd
    · injection hd with hd
      rw [← hd]
    · cases hd
  rw [hd, ok_bind]
  by_cases h : a.stride = 0 ∨ b.stride = 0
  · rw [(slice_part_refused s).2.2 a b h, (part_refused d).2.2 a b whole (h.imp_right Or.inl)]
    rfl
  · push Not at h
    obtain ⟨i, hi⟩ := ranks_ok a s.time.length h.1
    obtain ⟨j, hj⟩ := ranks_ok b s.freq.length h.2
    obtain ⟨q, hq, wq, -⟩ := slice_part_exact s rows hv w a b i j hi hj
    have e := slice_part_eq s rows hv w a b i j hi hj
    rw [e] at hq
    injection hq with hq
    rw [← hq] at wq
    obtain ⟨d', hd', wd', -⟩ := slice_sdata _ _ rfl wq
    rw [e, ok_bind]
    have e2 : d.item (.tuple [some a, some b, some whole]) = d.part a b whole := rfl
    rw [e2, part_eq d wd a b whole i j (List.range 1) (by rw [dt]; exact hi) (by rw [df]; exact hj) (by rw [dp]; exact ranks_whole 1),
      dt, df, dp, dd]
    have e3 : takeRanks [s.pol] (List.range 1) = [s.pol] := takeRanks_whole [s.pol] _ rfl
    have e4 : ((takeRanks (rows.map fun row : List ℚ => row.map fun v : ℚ => [v]) i).map fun row : List (List ℚ) =>
          (takeRanks row j).map fun cell : List ℚ => takeRanks cell (List.range 1))
        = ((takeRanks rows i).map fun row : List ℚ => takeRanks row j).map fun row : List ℚ => row.map fun v : ℚ => [v] := by
      rw [map_takeRanks, List.map_map, List.map_map]
      apply List.map_congr_left
      intro row _
      show (takeRanks (row.map fun v : ℚ => [v]) j).map _ = _
      rw [map_takeRanks, List.map_map]
      apply List.map_congr_left
      intro v _
      exact takeRanks_whole [v] _ rfl
    rw [e3, e4]
    have g : ∀ (x : SData), Slice.toSData { s with time := takeRanks s.time i, freq := takeRanks s.freq j, value := .two ((takeRanks rows i).map fun row : List ℚ => takeRanks row j) } = .ok x →
        x = ⟨takeRanks s.time i, takeRanks s.freq j, [s.pol], ((takeRanks rows i).map fun row : List ℚ => takeRanks row j).map fun row : List ℚ => row.map fun v : ℚ => [v]⟩ := by
      intro x hx
      unfold Slice.toSData at hx
      dsimp only at hx
      unfold mkSData at hx
      split at hx
      · injection hx with hx
        exact hx.symm
      · cases hx
    rw [hd', g d' hd']

/-! ## Hypotheses can be met -/

/-- A table of three times and two frequencies, with a pointing that begins at the last time. -/
def tableEx : Slice := ⟨[0, 1, 2], [20, 30], .two [[1, 2], [3, 4], [5, 6]], [0, 2], [0], "NW".toList⟩

theorem tableEx_wf : tableEx.WF := by
  refine ⟨rfl, ?_⟩
  intro r hr
  simp only [List.mem_cons, List.not_mem_nil, or_false] at hr
  rcases hr with h | h | h <;> rw [h] <;> rfl

/-- Its times in the reverse order, and its second frequency. -/
example : tableEx.item (.tuple [some ⟨none, none, some (-1)⟩, some (startingAt 1)])
    = .ok ⟨[2, 1, 0], [30], .two [[6], [4], [2]], [0, 2], [0], "NW".toList⟩ := by
  rw [slice_part_eq tableEx _ rfl tableEx_wf _ _ [2, 1, 0] [1] (by rfl) (by rfl)]
  rfl

example : tableEx.freq.Pairwise (· < ·) ∧ (1 : Nat) < tableEx.freq.length ∧ 2 * 1 ≠ tableEx.time.length
    ∧ (2 : ℚ) ∈ tableEx.ana ∧ ∀ t ∈ tableEx.time.take 1, t < (2 : ℚ) := by
  refine ⟨by simp [tableEx]; norm_num, by decide, by decide, by simp [tableEx], by simp [tableEx]⟩

/-- A spectrum at one time follows its axes. -/
example : Slice.WF ⟨[0], [20, 30], .one [1, 2], [], [], []⟩ := Or.inr ⟨rfl, rfl⟩

end Verif.IO
