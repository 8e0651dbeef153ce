import Verif.IO.XstSelect
import Mathlib.Data.List.GetD
import Mathlib.Algebra.BigOperators.Group.List.Basic

/-!
# Theorems about the axes of the slices of cross-correlations
-/

namespace Verif.IO

/-! ## Specification -/

/-- Positions of the items of a list which are kept. -/
def kept (l : List ℚ) (p : ℚ → Bool) : List Nat := (List.range l.length).filter fun i => p (l.getD i 0)

/-- The axes of a slice are those of its values: one time and one frequency for each of them, and the value `(i, j)` was recorded at the time `i` and the frequency `j`
of the axes (`freqAt` is the frequency of a place of the file). -/
def AxesOk (time : List ℚ) (freqAt : Nat → Nat → ℚ) (s : XSlice) : Prop :=
  s.time.length = s.nt ∧ s.freq.length = s.nf ∧
    ∀ i j : Nat, i < s.nt → j < s.nf → ∃ t k : Nat, s.src i j = some (t, k) ∧ time[t]? = s.time[i]? ∧ s.freq[j]? = some (freqAt t k)

/-! ## Helpers -/

theorem range_items (l : List ℚ) : (List.range l.length).map (fun i => l.getD i 0) = l := by
  apply List.ext_getElem
  · simp
  · intro i h1 h2
    simp [List.getElem?_eq_getElem h2]

theorem kept_items (p : ℚ → Bool) (l : List ℚ) : (kept l p).map (fun i => l.getD i 0) = l.filter p := by
  have h : (List.filter p ((List.range l.length).map (fun i => l.getD i 0))) = l.filter p := by rw [range_items]
  rw [← h, List.filter_map]
  rfl

theorem kept_length (p : ℚ → Bool) (l : List ℚ) : (kept l p).length = (l.filter p).length := by
  rw [← kept_items, List.length_map]

theorem kept_get (p : ℚ → Bool) (l : List ℚ) (i t : Nat) (h : (kept l p)[i]? = some t) : l[t]? = (l.filter p)[i]? := by
  rw [← kept_items, List.getElem?_map, h]
  have hm : t ∈ kept l p := List.mem_of_getElem? h
  have ht : t < l.length := List.mem_range.1 (List.mem_filter.1 hm).1
  simp [List.getD_eq_getElem _ _ ht, List.getElem?_eq_getElem ht]

theorem flatMap_filter {α β : Type} (p : α → Bool) (f : α → List β) : ∀ l : List α, (l.filter p).flatMap f = l.flatMap fun x => if p x then f x else []
  | [] => rfl
  | x :: l => by
    have ih := flatMap_filter p f l
    by_cases h : p x
    · rw [List.filter_cons_of_pos h, List.flatMap_cons, List.flatMap_cons, ih, if_pos h]
    · rw [List.filter_cons_of_neg h, List.flatMap_cons, ih, if_neg h, List.nil_append]

theorem cells_uniform (time row : List ℚ) (tsel fsel : ℚ → Bool) :
    maskCells time.length row.length (bothMask time (fun _ => row) tsel fsel) = (kept time tsel).flatMap fun t => (kept row fsel).map fun k => (t, k) := by
  unfold kept maskCells
  rw [flatMap_filter]
  congr 1
  funext t
  by_cases h : tsel (time.getD t 0)
  · rw [if_pos h]
    congr 1
    apply List.filter_congr
    intro k _
    unfold bothMask
    rw [h, Bool.true_and]
  · rw [if_neg h]
    have : (List.filter (fun k => bothMask time (fun _ => row) tsel fsel t k) (List.range row.length)) = [] := by
      rw [List.filter_eq_nil_iff]
      intro k _
      unfold bothMask
      simp only [Bool.not_eq_true] at h
      rw [h, Bool.false_and]
      exact Bool.false_ne_true
    rw [this]
    rfl

theorem product_length {α β : Type} (l : List α) (m : List β) : (l.flatMap fun t => m.map fun k => (t, k)).length = l.length * m.length := by
  induction l with
  | nil => simp
  | cons x l ih => rw [List.flatMap_cons, List.length_append, ih, List.length_map, List.length_cons]; ring

theorem product_get {α β : Type} (m : List β) : ∀ (l : List α) (i j : Nat) (t : α) (k : β), l[i]? = some t → m[j]? = some k →
    (l.flatMap fun t => m.map fun k => (t, k))[i * m.length + j]? = some (t, k)
  | [], i, j, t, k, h, _ => by simp at h
  | x :: l, i, j, t, k, h, hk => by
    have hj : j < m.length := (List.getElem?_eq_some_iff.1 hk).1
    rw [List.flatMap_cons]
    cases i with
    | zero =>
      rw [Nat.zero_mul, Nat.zero_add, List.getElem?_append_left (by simpa using hj), List.getElem?_map, hk]
      simp at h
      simp [h]
    | succ i =>
      have e : (i + 1) * m.length + j = m.length + (i * m.length + j) := by ring
      rw [e, List.getElem?_append_right (by simp), List.length_map, Nat.add_sub_cancel_left]
      exact product_get m l i j t k (by simpa using h) hk

theorem any_kept (row : List ℚ) (fsel : ℚ → Bool) : ((List.range row.length).any fun k => fsel (row.getD k 0)) = true ↔ kept row fsel ≠ [] := by
  unfold kept
  rw [List.any_eq_true, ne_eq, List.filter_eq_nil_iff]
  push Not
  rfl

theorem times_uniform (time row : List ℚ) (tsel fsel : ℚ → Bool) (h : kept row fsel ≠ []) :
    maskTimes time.length row.length (bothMask time (fun _ => row) tsel fsel) = (kept time tsel).length := by
  unfold maskTimes
  congr 1
  unfold kept
  apply List.filter_congr
  intro t _
  unfold bothMask
  have := (any_kept row fsel).2 h
  cases ht : tsel (time.getD t 0)
  · simp
  · simpa using this

theorem freqs_uniform (time row : List ℚ) (tsel fsel : ℚ → Bool) (h : kept time tsel ≠ []) :
    maskFreqs time.length row.length (bothMask time (fun _ => row) tsel fsel) = (kept row fsel).length := by
  unfold maskFreqs
  congr 1
  unfold kept
  apply List.filter_congr
  intro k _
  unfold bothMask
  have := (any_kept time tsel).2 h
  cases hk : fsel (row.getD k 0)
  · rw [List.any_eq_false]
    intro t _
    show ¬(tsel (time.getD t 0) && fsel (row.getD k 0)) = true
    rw [hk, Bool.and_false]
    exact Bool.false_ne_true
  · simp only [hk, Bool.and_true]
    exact this

/-- What a selection gives when the frequencies of the times are the same: all the values, in order. -/
theorem uniform_slice (time row freqs : List ℚ) (tsel fsel : ℚ → Bool) (ht : time.filter tsel ≠ []) (hf : row.filter fsel ≠ []) :
    ∃ s : XSlice, sliceOf time row.length tsel (bothMask time (fun _ => row) tsel fsel) freqs = .ok s ∧ s.time = time.filter tsel ∧ s.freq = freqs ∧
      s.nt = (time.filter tsel).length ∧ s.nf = (row.filter fsel).length ∧
      ∀ i j : Nat, i < s.nt → j < s.nf → ∃ t k : Nat, s.src i j = some (t, k) ∧ time[t]? = (time.filter tsel)[i]? ∧ row[k]? = (row.filter fsel)[j]? := by
  have kt : kept time tsel ≠ [] := by
    intro h; apply ht; rw [← kept_items, h]; rfl
  have kf : kept row fsel ≠ [] := by
    intro h; apply hf; rw [← kept_items, h]; rfl
  have e1 := times_uniform time row tsel fsel kf
  have e2 := freqs_uniform time row tsel fsel kt
  have e3 := cells_uniform time row tsel fsel
  refine ⟨⟨time.filter tsel, freqs, (kept time tsel).length, (kept row fsel).length,
    fun i j => ((kept time tsel).flatMap fun t => (kept row fsel).map fun k => (t, k))[i * (kept row fsel).length + j]?⟩, ?_, rfl, rfl, kept_length _ _, kept_length _ _, ?_⟩
  · unfold sliceOf
    rw [e1, e2, e3, product_length, if_pos rfl]
  · intro i j hi hj
    have hi' : i < (kept time tsel).length := hi
    have hj' : j < (kept row fsel).length := hj
    have gi := List.getElem?_eq_getElem hi'
    have gj := List.getElem?_eq_getElem hj'
    exact ⟨_, _, product_get _ _ i j _ _ gi gj, kept_get _ _ _ _ gi, kept_get _ _ _ _ gj⟩

theorem flatten_filter (p : ℚ → Bool) (n : Nat) (row : List ℚ) : ((List.replicate n row).flatten.filter p).length = n * (row.filter p).length := by
  induction n with
  | zero => simp
  | succ n ih => rw [List.replicate_succ, List.flatten_cons, List.filter_append, List.length_append, ih]; ring

theorem table_uniform (time row : List ℚ) (w : Nat) (tsel fsel : ℚ → Bool) (freqs : List ℚ) :
    sliceOf time w tsel (bothMask time (fun t => (List.replicate time.length row).getD t []) tsel fsel) freqs =
      sliceOf time w tsel (bothMask time (fun _ => row) tsel fsel) freqs := by
  have h : ∀ t < time.length, ∀ k, bothMask time (fun t => (List.replicate time.length row).getD t []) tsel fsel t k = bothMask time (fun _ => row) tsel fsel t k := by
    intro t ht k
    unfold bothMask
    have e : (List.replicate time.length row).getD t [] = row := by rw [List.getD_eq_getElem _ _ (by simpa using ht), List.getElem_replicate]
    show (tsel (time.getD t 0) && fsel (((List.replicate time.length row).getD t []).getD k 0)) = _
    rw [e]
  have c1 : maskCells time.length w (bothMask time (fun t => (List.replicate time.length row).getD t []) tsel fsel) =
      maskCells time.length w (bothMask time (fun _ => row) tsel fsel) := by
    unfold maskCells
    rw [List.flatMap_def, List.flatMap_def]
    congr 1
    apply List.map_congr_left
    intro t ht
    congr 1
    apply List.filter_congr
    intro k _
    exact h t (List.mem_range.1 ht) k
  have c2 : maskTimes time.length w (bothMask time (fun t => (List.replicate time.length row).getD t []) tsel fsel) =
      maskTimes time.length w (bothMask time (fun _ => row) tsel fsel) := by
    unfold maskTimes
    congr 1
    apply List.filter_congr
    intro t ht
    congr 1
    funext k
    exact h t (List.mem_range.1 ht) k
  have c3 : maskFreqs time.length w (bothMask time (fun t => (List.replicate time.length row).getD t []) tsel fsel) =
      maskFreqs time.length w (bothMask time (fun _ => row) tsel fsel) := by
    unfold maskFreqs
    congr 1
    apply List.filter_congr
    intro k _
    rw [Bool.eq_iff_iff, List.any_eq_true, List.any_eq_true]
    constructor
    · rintro ⟨t, ht, e⟩
      exact ⟨t, ht, by rw [← h t (List.mem_range.1 ht) k]; exact e⟩
    · rintro ⟨t, ht, e⟩
      exact ⟨t, ht, by rw [h t (List.mem_range.1 ht) k]; exact e⟩
  unfold sliceOf
  rw [c1, c2, c3]

/-! ## Theorems -/

/-- Files of the NenuFAR-TV: whatever is selected, if there is something, the slice has the selected times and frequencies, and each value is what was recorded at its
time and frequency. -/
theorem tv_slice_axes (time freqs : List ℚ) (tsel fsel : ℚ → Bool) (ht : time.filter tsel ≠ []) (hf : freqs.filter fsel ≠ []) :
    ∃ s : XSlice, tvGet time freqs tsel fsel = .ok s ∧ s.time = time.filter tsel ∧ s.freq = freqs.filter fsel ∧ AxesOk time (fun _ k => freqs.getD k 0) s := by
  obtain ⟨s, h, h1, h2, h3, h4, h5⟩ := uniform_slice time freqs (freqs.filter fsel) tsel fsel ht hf
  refine ⟨s, h, h1, h2, by rw [h1, h3], by rw [h2, h4], ?_⟩
  intro i j hi hj
  obtain ⟨t, k, e1, e2, e3⟩ := h5 i j hi hj
  refine ⟨t, k, e1, by rw [h1]; exact e2, ?_⟩
  rw [h2, ← e3]
  have hj' : j < (freqs.filter fsel).length := by rw [← h4]; exact hj
  rw [List.getElem?_eq_getElem hj'] at e3
  obtain ⟨hk, _⟩ := List.getElem?_eq_some_iff.1 e3
  rw [List.getElem?_eq_getElem hk]
  congr 1
  exact (List.getD_eq_getElem _ _ hk).symm

/-- Files of cross-correlations which hold one time: the slice has the selected frequencies, and each value is what was recorded at its frequency. -/
theorem xst_one_time (t0 : ℚ) (row : List ℚ) (tsel fsel : ℚ → Bool) (ht : tsel t0 = true) (hf : row.filter fsel ≠ []) :
    ∃ s : XSlice, xstGet [t0] [row] row.length tsel fsel = .ok s ∧ s.time = [t0] ∧ s.freq = row.filter fsel ∧ AxesOk [t0] (fun _ k => row.getD k 0) s := by
  have e0 : xstGet [t0] [row] row.length tsel fsel = tvGet [t0] row tsel fsel := by
    unfold xstGet tvGet
    have := table_uniform [t0] row row.length tsel fsel (row.filter fsel)
    rw [List.flatten_singleton]
    exact this
  obtain ⟨s, h, h1, h2, h3⟩ := tv_slice_axes [t0] row tsel fsel (by simp [ht]) hf
  exact ⟨s, e0.trans h, by rw [h1]; simp [ht], h2, h3⟩

/-- Files of several times whose sub-bands are always the same: the values are right — the selected times and frequencies, in order — but the axis of the frequencies is
repeated once for each time of the file, selected or not. -/
theorem xst_values (time row : List ℚ) (tsel fsel : ℚ → Bool) (ht : time.filter tsel ≠ []) (hf : row.filter fsel ≠ []) :
    ∃ s : XSlice, xstGet time (List.replicate time.length row) row.length tsel fsel = .ok s ∧ s.time = time.filter tsel ∧
      s.nt = (time.filter tsel).length ∧ s.nf = (row.filter fsel).length ∧ s.freq = (List.replicate time.length row).flatten.filter fsel ∧
      s.freq.length = time.length * s.nf ∧
      ∀ i j : Nat, i < s.nt → j < s.nf → ∃ t k : Nat, s.src i j = some (t, k) ∧ time[t]? = (time.filter tsel)[i]? ∧ row[k]? = (row.filter fsel)[j]? := by
  obtain ⟨s, h, h1, h2, h3, h4, h5⟩ := uniform_slice time row ((List.replicate time.length row).flatten.filter fsel) tsel fsel ht hf
  refine ⟨s, ?_, h1, h3, h4, h2, ?_, h5⟩
  · unfold xstGet
    rw [table_uniform]
    exact h
  · rw [h2, h4, flatten_filter]

/-- So, for every file of two times or more with the same sub-bands, and every selection which keeps something, the axes of the slice are not those of its values. -/
theorem xst_axes_violated (time row : List ℚ) (tsel fsel : ℚ → Bool) (hn : 2 ≤ time.length) (ht : time.filter tsel ≠ []) (hf : row.filter fsel ≠ []) :
    ∃ s : XSlice, xstGet time (List.replicate time.length row) row.length tsel fsel = .ok s ∧ ∀ freqAt : Nat → Nat → ℚ, ¬ AxesOk time freqAt s := by
  obtain ⟨s, h, _, _, h4, _, h6, _⟩ := xst_values time row tsel fsel ht hf
  refine ⟨s, h, ?_⟩
  rintro freqAt ⟨_, hl, _⟩
  have hp : 0 < s.nf := by rw [h4]; exact List.length_pos_iff.2 hf
  rw [h6] at hl
  nlinarith

/-- The image of such a slice, with or without a phase centre, and its beamforming, raise an error as soon as two frequencies are selected. -/
theorem xst_image_violated (time row : List ℚ) (tsel fsel : ℚ → Bool) (hn : 2 ≤ time.length) (ht : time.filter tsel ≠ []) (hf : 2 ≤ (row.filter fsel).length) :
    ∃ s : XSlice, xstGet time (List.replicate time.length row) row.length tsel fsel = .ok s ∧
      imageFreqs s = .error .valueError ∧ imageFreqsAt s = .error .valueError ∧ beamformFreqs s = .error .valueError := by
  obtain ⟨s, h, _, _, h4, _, h6, _⟩ := xst_values time row tsel fsel ht (List.length_pos_iff.1 (by omega))
  have hp : 2 ≤ s.nf := by rw [h4]; exact hf
  have hne : s.nf ≠ s.freq.length := by rw [h6]; intro e; nlinarith
  have h1 : s.freq.length ≠ 1 := by rw [h6]; intro e; nlinarith
  have e : joined s.nf s.freq.length = .error .valueError := by
    unfold joined
    rw [if_neg (by rintro (e | e); exact hne e; exact h1 e), if_neg (by omega)]
  refine ⟨s, h, e, ?_, ?_⟩
  · unfold imageFreqsAt
    rw [e]
    rfl
  · unfold beamformFreqs
    rw [if_neg (by rintro (e | e); exact hne e; omega)]

/-- One frequency is selected: the image is the mean over equal terms, one for each time of the file, and the beamformed data are repeated as many times. -/
theorem xst_single_frequency (time row : List ℚ) (tsel fsel : ℚ → Bool) (ht : time.filter tsel ≠ []) (hf : (row.filter fsel).length = 1) :
    ∃ s : XSlice, xstGet time (List.replicate time.length row) row.length tsel fsel = .ok s ∧
      imageFreqs s = .ok time.length ∧ beamformFreqs s = .ok time.length ∧ s.freq = List.replicate time.length ((row.filter fsel).headD 0) := by
  obtain ⟨s, h, _, _, h4, h5, h6, _⟩ := xst_values time row tsel fsel ht (List.length_pos_iff.1 (by omega))
  have h1 : s.nf = 1 := by rw [h4, hf]
  have hl : s.freq.length = time.length := by rw [h6, h1, Nat.mul_one]
  refine ⟨s, h, ?_, ?_, ?_⟩
  · show joined s.nf s.freq.length = _
    rw [h1, hl]
    unfold joined
    by_cases e : 1 = time.length ∨ time.length = 1
    · rw [if_pos e]
      congr 1
      omega
    · rw [if_neg e, if_pos rfl]
  · unfold beamformFreqs
    rw [if_pos (Or.inr h1), hl]
  · rw [h5]
    obtain ⟨x, hx⟩ := List.length_eq_one_iff.1 hf
    have : ∀ n : Nat, (List.replicate n row).flatten.filter fsel = List.replicate n x := by
      intro n
      induction n with
      | zero => rfl
      | succ n ih => rw [List.replicate_succ, List.flatten_cons, List.filter_append, ih, hx]; rfl
    rw [this, hx]
    rfl

/-- Sub-bands which change with time: values of different frequencies are put in the same column, or the selection is refused. -/
theorem xst_moving_violated :
    ((xstGet [0, 1] [[50, 60], [60, 70]] 2 (fun _ => true) (fun x => decide (x = 60))).toOption.map fun s => (s.nt, s.nf)) = none ∧
    ((xstGet [0, 1] [[50, 60], [60, 70]] 2 (fun _ => true) (fun _ => true)).toOption.map fun s => (s.src 0 0, s.src 1 0)) = some (some (0, 0), some (1, 0)) := by
  decide +kernel

/-- `rephase` uses the frequencies of the first time of the file; for files of the NenuFAR-TV it always raises an error. -/
theorem rephase_axis_violated (table : List (List ℚ)) (row freqs : List ℚ) : rephaseAxis (row :: table) = .ok row ∧ rephaseAxisTv freqs = .error .indexError := ⟨rfl, rfl⟩

/-- Non-trivial cases: three times and four sub-bands. -/
example : ((xstGet [0, 1, 2] (List.replicate 3 [50, 51, 52, 53]) 4 (fun t => decide (1 ≤ t)) (fun x => decide (51 < x))).toOption.map fun s => (s.time, s.nt, s.nf, s.freq.length)) =
    some ([1, 2], 2, 2, 6) := by decide +kernel
example : ((tvGet [0, 1, 2] [50, 51, 52, 53] (fun t => decide (1 ≤ t)) (fun x => decide (51 < x))).toOption.map fun s => (s.time ++ s.freq, s.nt, s.nf, s.src 1 0)) =
    some ([1, 2, 52, 53], 2, 2, some (2, 2)) := by decide +kernel

end Verif.IO
