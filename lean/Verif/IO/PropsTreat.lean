import Verif.IO.Treat
import Verif.IO.PropsSlices
import Verif.TF.PropsFlatten
import Verif.TF.PropsShift

/-!
# C115, C116: averages of slices, flattening, cleaning, pointing switches and backgrounds
-/

namespace Verif.IO

open Verif.TF (nanmean nanmedian median nanmean_some nanmean_none nanmedian_some median_scale)

/-! ## Averages -/

/-- An axis of `n` values from `x0`, `step` apart. -/
def Regular (x : List ℚ) (n : Nat) (x0 step : ℚ) : Prop := x.length = n ∧ ∀ i, i < n → x.getD i 0 = x0 + step * i

/-- The values are those of a table of `n` by `m`, without the dimensions of one sample. -/
def Reads (n m : Nat) (g : Nat → Nat → Option ℚ) (a : Arr) : Prop :=
  (n = 1 ∧ m = 1 ∧ ∃ x, a = .zero x ∧ x = g 0 0) ∨
  (n = 1 ∧ m ≠ 1 ∧ ∃ f, a = .one m f ∧ ∀ j, j < m → f j = g 0 j) ∨
  (n ≠ 1 ∧ m = 1 ∧ ∃ f, a = .one n f ∧ ∀ i, i < n → f i = g i 0) ∨
  (n ≠ 1 ∧ m ≠ 1 ∧ ∃ f, a = .two n m f ∧ ∀ i, i < n → ∀ j, j < m → f i j = g i j)

theorem squeeze_reads (n m : Nat) (f : Nat → Nat → Option ℚ) : Reads n m f (squeeze n m f) := by
  unfold squeeze Reads
  by_cases hn : n = 1 <;> by_cases hm : m = 1
  · rw [if_pos hn, if_pos hm]; exact Or.inl ⟨hn, hm, _, rfl, rfl⟩
  · rw [if_pos hn, if_neg hm]; exact Or.inr (Or.inl ⟨hn, hm, _, rfl, fun j _ => rfl⟩)
  · rw [if_neg hn, if_pos hm]; exact Or.inr (Or.inr (Or.inl ⟨hn, hm, _, rfl, fun i _ => rfl⟩))
  · rw [if_neg hn, if_neg hm]; exact Or.inr (Or.inr (Or.inr ⟨hn, hm, _, rfl, fun i _ j _ => rfl⟩))

theorem reads_congr {n m : Nat} {g g' : Nat → Nat → Option ℚ} {a : Arr} (h : Reads n m g a) (hg : ∀ i, i < n → ∀ j, j < m → g i j = g' i j) : Reads n m g' a := by
  rcases h with ⟨h1, h2, x, h3, h4⟩ | ⟨h1, h2, f, h3, h4⟩ | ⟨h1, h2, f, h3, h4⟩ | ⟨h1, h2, f, h3, h4⟩
  · exact Or.inl ⟨h1, h2, x, h3, by rw [h4, hg 0 (by omega) 0 (by omega)]⟩
  · exact Or.inr (Or.inl ⟨h1, h2, f, h3, fun j hj => by rw [h4 j hj, hg 0 (by omega) j hj]⟩)
  · exact Or.inr (Or.inr (Or.inl ⟨h1, h2, f, h3, fun i hi => by rw [h4 i hi, hg i hi 0 (by omega)]⟩))
  · exact Or.inr (Or.inr (Or.inr ⟨h1, h2, f, h3, fun i hi j hj => by rw [h4 i hi j hj, hg i hi j hj]⟩))

/-- The number of samples of a bin: the largest which fits in the width, up to the size of the axis. -/
def IsBin (n : Nat) (step width : ℚ) (w : Nat) : Prop :=
  0 < w ∧ w ≤ n ∧ step * w ≤ width ∧ (w = n ∨ width < step * (w + 1))

theorem bins_of {n : Nat} {step width : ℚ} (hs : 0 < step) {w : Nat} (h : IsBin n step width w) :
    sliceBins n (width / step) = .ok (some (w, n / w)) := by
  obtain ⟨h0, h1, h2, h3⟩ := h
  have hle : (w : Int) ≤ ⌊width / step⌋ := by
    rw [Int.le_floor, le_div_iff₀ hs]
    push_cast
    linarith
  unfold sliceBins
  by_cases hc : (n : Int) < ⌊width / step⌋
  · rw [if_pos hc, if_neg (by omega)]
    rcases h3 with rfl | h3
    · rfl
    · exfalso
      have h4 := Int.floor_le (width / step)
      rw [le_div_iff₀ hs] at h4
      have h5 : ((w : ℚ) + 1) ≤ (⌊width / step⌋ : ℚ) := by
        have : (w : Int) + 1 ≤ ⌊width / step⌋ := by omega
        exact_mod_cast this
      have := mul_le_mul_of_nonneg_right h5 hs.le
      nlinarith
  · rw [if_neg hc]
    have he : ⌊width / step⌋ = (w : Int) := by
      refine le_antisymm ?_ hle
      rcases h3 with rfl | h3
      · omega
      · have : ⌊width / step⌋ < (w : Int) + 1 := by
          rw [Int.floor_lt, div_lt_iff₀ hs]
          push_cast
          linarith
        omega
    rw [he, if_neg (by omega), Int.toNat_natCast]

theorem timeBins_of {x : List ℚ} {n : Nat} {x0 step : ℚ} (hx : Regular x n x0 step) (hn : 2 ≤ n) (hs : 0 < step) {width : ℚ} {w : Nat} (hw : IsBin n step width w) :
    timeBins x (some width) = .ok (some (w, n / w)) := by
  have e : x.getD 1 0 - x.getD 0 0 = step := by
    rw [hx.2 1 (by omega), hx.2 0 (by omega)]; push_cast; ring
  unfold timeBins
  dsimp only [Option.elim]
  rw [hx.1, if_neg (by omega), e, if_neg (ne_of_gt hs)]
  exact bins_of hs hw

theorem freqBins_of {x : List ℚ} {n : Nat} {x0 step : ℚ} (hx : Regular x n x0 step) (hn : 2 ≤ n) (hs : 0 < step) {width : ℚ} {w : Nat} (hw : IsBin n step width w) :
    freqBins x (some width) = .ok (some (w, n / w)) := by
  have e : x.getD 1 0 - x.getD 0 0 = step := by
    rw [hx.2 1 (by omega), hx.2 0 (by omega)]; push_cast; ring
  have ev : evenly x = true := by
    unfold evenly
    rw [Bool.and_eq_true, decide_eq_true_iff, List.all_eq_true]
    refine ⟨by rw [hx.1]; exact hn, fun i hi => decide_eq_true ?_⟩
    rw [List.mem_range, hx.1] at hi
    rw [e, hx.2 (i + 1) (by omega), hx.2 i (by omega)]
    push_cast; ring
  unfold freqBins
  dsimp only [Option.elim]
  rw [ev, if_neg (by intro h; cases h), hx.1, e, if_neg (ne_of_gt hs)]
  exact bins_of hs hw

theorem sum_sumTo (f : Nat → ℚ) (n : Nat) : ((List.range n).map f).sum = sumTo f n := by
  induction n with
  | zero => rfl
  | succ n ih => rw [List.range_succ, List.map_append, List.sum_append, ih]; simp [sumTo]

theorem sumTo_index (a b : ℚ) (n : Nat) : sumTo (fun k => a + b * k) n = n * (a + b * (((n : ℚ) - 1) / 2)) := by
  induction n with
  | zero => simp [sumTo]
  | succ n ih => simp only [sumTo]; rw [ih]; push_cast; ring

theorem in_bin {n w i k : Nat} (hi : i < n / w) (hk : k < w) : i * w + k < n := by
  have h1 : (i + 1) * w ≤ n / w * w := Nat.mul_le_mul_right w hi
  have h2 := Nat.div_mul_le_self n w
  have h3 : (i + 1) * w = i * w + w := by ring
  omega

theorem binAxis_of {x : List ℚ} {n : Nat} {x0 step : ℚ} (hx : Regular x n x0 step) {w : Nat} (hw : 0 < w) :
    binAxis x (some (w, n / w)) = (List.range (n / w)).map fun i : Nat => x0 + step * ((i : ℚ) * w + ((w : ℚ) - 1) / 2) := by
  unfold binAxis
  refine List.map_congr_left fun i hi => ?_
  rw [List.mem_range] at hi
  have hw0 : (w : ℚ) ≠ 0 := by exact_mod_cast hw.ne'
  unfold binOf
  rw [sum_sumTo, sumTo_congr (g := fun k => (x0 + step * ((i : ℚ) * w)) + step * k) (by
    intro k hk
    show x.getD (i * w + k) 0 = _
    rw [hx.2 _ (in_bin hi hk)]; push_cast; ring), sumTo_index]
  dsimp only
  field_simp
  ring

theorem bin_mean (g : Nat → ℚ) (w i : Nat) (hw : 0 < w) : nanmean (binOf w (fun k => some (g k)) i) = some (sumTo (fun k => g (i * w + k)) w / w) := by
  have : binOf w (fun k => some (g k)) i = ((List.range w).map fun k => g (i * w + k)).map some := by
    unfold binOf
    rw [List.map_map]; rfl
  rw [this, nanmean_some _ (by intro h; rw [List.map_eq_nil_iff, List.range_eq_nil] at h; omega), sum_sumTo, List.length_map, List.length_range]

/-- The average of a table over the bins, when there are no missing values. -/
theorem rebin_unfold (m : Method) (s : Binned) (nt nf : Nat) (v : Nat → Nat → Option ℚ) (hv : s.value = .two nt nf v) (fn : List (Option ℚ) → Option ℚ)
    (hm : m.fn = .ok fn) (dt df : Option ℚ) (bt bf : Option (Nat × Nat)) (ht : timeBins s.time dt = .ok bt) (hf : freqBins s.freq df = .ok bf) :
    rebinSlice m s dt df = .ok ⟨binAxis s.time bt, binAxis s.freq bf,
      squeeze (binCount nt bt) (binCount nf bf) fun i j => binValues fn bf (fun k => binValues fn bt (fun t => v t k) i) j⟩ := by
  unfold rebinSlice
  rw [hm]
  show Arr.casesOn (motive := fun _ => Except Err Binned) s.value _ _ _ = _
  rw [hv]
  dsimp only
  rw [ht, hf]
  rfl

/-- **C115**: on regular axes, averaging without missing values gives for each bin the mean of all its values, and the centre of the bin as time and frequency. -/
theorem rebin_mean_exact (s : Binned) (nt nf : Nat) (g : Nat → Nat → ℚ) (hv : s.value = .two nt nf fun i j => some (g i j)) (t0 st f0 sf : ℚ)
    (ht : Regular s.time nt t0 st) (hf : Regular s.freq nf f0 sf) (hnt : 2 ≤ nt) (hnf : 2 ≤ nf) (hst : 0 < st) (hsf : 0 < sf) (dt df : ℚ) (wt wf : Nat)
    (hwt : IsBin nt st dt wt) (hwf : IsBin nf sf df wf) :
    ∃ r, rebinSlice .mean s (some dt) (some df) = .ok r ∧
      r.time = ((List.range (nt / wt)).map fun i : Nat => t0 + st * ((i : ℚ) * wt + ((wt : ℚ) - 1) / 2)) ∧
      r.freq = ((List.range (nf / wf)).map fun j : Nat => f0 + sf * ((j : ℚ) * wf + ((wf : ℚ) - 1) / 2)) ∧
      Reads (nt / wt) (nf / wf) (fun i j => some (sumTo (fun b => sumTo (fun a => g (i * wt + a) (j * wf + b)) wt) wf / (wt * wf))) r.value := by
  refine ⟨_, rebin_unfold .mean s nt nf _ hv nanmean rfl _ _ _ _ (timeBins_of ht hnt hst hwt) (freqBins_of hf hnf hsf hwf),
    binAxis_of ht hwt.1, binAxis_of hf hwf.1, ?_⟩
  refine reads_congr (squeeze_reads _ _ _) fun i _ j _ => ?_
  have e1 : ∀ k, binValues nanmean (some (wt, nt / wt)) (fun t => some (g t k)) i = some (sumTo (fun a => g (i * wt + a) k) wt / wt) :=
    fun k => bin_mean (fun t => g t k) wt i hwt.1
  have e2 : (fun k => binValues nanmean (some (wt, nt / wt)) (fun t => some (g t k)) i) = fun k => some (sumTo (fun a => g (i * wt + a) k) wt / wt) := funext e1
  show binValues nanmean (some (wf, nf / wf)) (fun k => binValues nanmean (some (wt, nt / wt)) (fun t => some (g t k)) i) j = _
  rw [e2]
  refine Eq.trans (bin_mean (fun k => sumTo (fun a => g (i * wt + a) k) wt / wt) wf j hwf.1) ?_
  congr 1
  have key : ∀ n, sumTo (fun k => sumTo (fun a => g (i * wt + a) (j * wf + k)) wt / wt) n = sumTo (fun k => sumTo (fun a => g (i * wt + a) (j * wf + k)) wt) n / wt := by
    intro n
    induction n with
    | zero => simp [sumTo]
    | succ n ih => simp only [sumTo]; rw [ih]; ring
  rw [key, div_div]

example : IsBin 7 2 5 2 ∧ IsBin 7 2 100 7 ∧ Regular [0, 2, 4] 3 0 2 :=
  ⟨⟨by norm_num, by norm_num, by norm_num, Or.inr (by norm_num)⟩, ⟨by norm_num, by norm_num, by norm_num, Or.inl rfl⟩, rfl, by
    intro i hi; interval_cases i <;> norm_num⟩

/-! ### Missing values, both methods -/

theorem median_mem_bounds {l : List ℚ} {x lo hi : ℚ} (h : median l = some x) (hl : ∀ y ∈ l, lo ≤ y ∧ y ≤ hi) : lo ≤ x ∧ x ≤ hi := by
  unfold Verif.TF.median at h
  by_cases hn : l = []
  · rw [if_pos hn] at h; cases h
  rw [if_neg hn] at h
  injection h with h
  have hlen : 0 < l.length := List.length_pos_iff.2 hn
  have key : ∀ i, i < l.length → lo ≤ (l.insertionSort (· ≤ ·)).getD i 0 ∧ (l.insertionSort (· ≤ ·)).getD i 0 ≤ hi := by
    intro i hi'
    have hi2 : i < (l.insertionSort (· ≤ ·)).length := by rw [List.length_insertionSort]; exact hi'
    rw [List.getD_eq_getElem _ _ hi2]
    exact hl _ ((List.perm_insertionSort (· ≤ ·) l).mem_iff.1 (List.getElem_mem hi2))
  have h1 := key ((l.length - 1) / 2) (by omega)
  have h2 := key (l.length / 2) (by omega)
  constructor <;> linarith

theorem sum_bounds {lo hi : ℚ} : ∀ l : List ℚ, (∀ y ∈ l, lo ≤ y ∧ y ≤ hi) → lo * l.length ≤ l.sum ∧ l.sum ≤ hi * l.length
  | [], _ => by simp
  | y :: l, h => by
    have h1 := h y List.mem_cons_self
    have h2 := sum_bounds l fun z hz => h z (List.mem_cons_of_mem _ hz)
    rw [List.sum_cons, List.length_cons]
    push_cast
    constructor <;> linarith

theorem mean_bounds {l : List (Option ℚ)} {x lo hi : ℚ} (h : nanmean l = some x) (hl : ∀ y, some y ∈ l → lo ≤ y ∧ y ≤ hi) : lo ≤ x ∧ x ≤ hi := by
  unfold Verif.TF.nanmean at h
  by_cases hn : l.filterMap id = []
  · rw [if_pos hn] at h; cases h
  rw [if_neg hn] at h
  injection h with h
  have hb := sum_bounds (l.filterMap id) (lo := lo) (hi := hi) (by
    intro y hy
    obtain ⟨a, ha, e⟩ := List.mem_filterMap.1 hy
    exact hl y (by rw [← e]; exact ha))
  have hlen : (0 : ℚ) < (l.filterMap id).length := by exact_mod_cast List.length_pos_iff.2 hn
  rw [← h, le_div_iff₀ hlen, div_le_iff₀ hlen]
  exact hb

theorem median_bounds {l : List (Option ℚ)} {x lo hi : ℚ} (h : nanmedian l = some x) (hl : ∀ y, some y ∈ l → lo ≤ y ∧ y ≤ hi) : lo ≤ x ∧ x ≤ hi := by
  refine median_mem_bounds h fun y hy => ?_
  obtain ⟨a, ha, e⟩ := List.mem_filterMap.1 hy
  exact hl y (by rw [← e]; exact ha)

theorem nanmedian_none (l : List (Option ℚ)) : nanmedian l = none ↔ ∀ x ∈ l, x = none := by
  unfold Verif.TF.nanmedian Verif.TF.median
  constructor
  · intro h x hx
    by_cases hc : l.filterMap id = []
    · cases x with
      | none => rfl
      | some v =>
        have : v ∈ l.filterMap id := List.mem_filterMap.2 ⟨some v, hx, rfl⟩
        rw [hc] at this; cases this
    · rw [if_neg hc] at h; cases h
  · intro h
    rw [if_pos]
    rw [List.filterMap_eq_nil_iff]
    intro x hx
    exact h x hx

theorem method_bounds {m : Method} {fn : List (Option ℚ) → Option ℚ} (hm : m.fn = .ok fn) {l : List (Option ℚ)} {x lo hi : ℚ} (h : fn l = some x)
    (hl : ∀ y, some y ∈ l → lo ≤ y ∧ y ≤ hi) : lo ≤ x ∧ x ≤ hi := by
  cases m with
  | mean => injection hm with hm; subst hm; exact mean_bounds h hl
  | median => injection hm with hm; subst hm; exact median_bounds h hl
  | unknown => cases hm

theorem method_none {m : Method} {fn : List (Option ℚ) → Option ℚ} (hm : m.fn = .ok fn) (l : List (Option ℚ)) : fn l = none ↔ ∀ x ∈ l, x = none := by
  cases m with
  | mean => injection hm with hm; subst hm; exact nanmean_none l
  | median => injection hm with hm; subst hm; exact nanmedian_none l
  | unknown => cases hm

theorem mem_bin {α : Type} {w i : Nat} {x : Nat → α} {a : α} : a ∈ binOf w x i ↔ ∃ k, k < w ∧ x (i * w + k) = a := by
  unfold binOf
  rw [List.mem_map]
  exact ⟨fun ⟨k, hk, e⟩ => ⟨k, List.mem_range.1 hk, e⟩, fun ⟨k, hk, e⟩ => ⟨k, List.mem_range.2 hk, e⟩⟩

/-- **C115**: with any missing values and both methods, the value of a bin is missing exactly when all its values are, and lies between its smallest and largest values. -/
theorem rebin_missing (m : Method) (hm : m ≠ .unknown) (s : Binned) (nt nf : Nat) (v : Nat → Nat → Option ℚ) (hv : s.value = .two nt nf v) (t0 st f0 sf : ℚ)
    (ht : Regular s.time nt t0 st) (hf : Regular s.freq nf f0 sf) (hnt : 2 ≤ nt) (hnf : 2 ≤ nf) (hst : 0 < st) (hsf : 0 < sf) (dt df : ℚ) (wt wf : Nat)
    (hwt : IsBin nt st dt wt) (hwf : IsBin nf sf df wf) :
    ∃ r g, rebinSlice m s (some dt) (some df) = .ok r ∧ Reads (nt / wt) (nf / wf) g r.value ∧
      (∀ i j, g i j = none ↔ ∀ a, a < wt → ∀ b, b < wf → v (i * wt + a) (j * wf + b) = none) ∧
      ∀ i j x lo hi, g i j = some x → (∀ a, a < wt → ∀ b, b < wf → ∀ y, v (i * wt + a) (j * wf + b) = some y → lo ≤ y ∧ y ≤ hi) → lo ≤ x ∧ x ≤ hi := by
  obtain ⟨fn, hfn⟩ : ∃ fn, m.fn = .ok fn := by
    cases m with
    | mean => exact ⟨_, rfl⟩
    | median => exact ⟨_, rfl⟩
    | unknown => exact absurd rfl hm
  refine ⟨_, fun i j => fn (binOf wf (fun k => fn (binOf wt (fun t => v t k) i)) j),
    rebin_unfold m s nt nf _ hv fn hfn _ _ _ _ (timeBins_of ht hnt hst hwt) (freqBins_of hf hnf hsf hwf), squeeze_reads _ _ _, ?_, ?_⟩
  · intro i j
    rw [method_none hfn]
    constructor
    · intro h a ha b hb
      have := h _ (mem_bin.2 ⟨b, hb, rfl⟩)
      exact (method_none hfn _).1 this _ (mem_bin.2 ⟨a, ha, rfl⟩)
    · intro h x hx
      obtain ⟨b, hb, rfl⟩ := mem_bin.1 hx
      rw [method_none hfn]
      intro y hy
      obtain ⟨a, ha, rfl⟩ := mem_bin.1 hy
      exact h a ha b hb
  · intro i j x lo hi hx hb
    refine method_bounds hfn hx fun y hy => ?_
    obtain ⟨b, hbw, e⟩ := mem_bin.1 hy
    refine method_bounds hfn e fun z hz => ?_
    obtain ⟨a, ha, e'⟩ := mem_bin.1 hz
    exact hb a ha b hbw z e'

/-- **C115**, violated: with missing values the mean of a bin is not the mean of its values, and the median is never that of the values of the bin but a median of medians. -/
theorem rebin_bins_violated :
    (∃ v : Nat → Nat → Option ℚ, ∃ r x, rebinSlice .mean ⟨[0, 1], [50, 51], .two 2 2 v⟩ (some 2) (some 2) = .ok r ∧ r.value = .zero (some x) ∧
      x ≠ 3 ∧ nanmean [v 0 0, v 0 1, v 1 0, v 1 1] = some 3) ∧
    (∃ v : Nat → Nat → Option ℚ, ∃ r, rebinSlice .median ⟨[0, 1, 2], [50, 51, 52], .two 3 3 v⟩ (some 3) (some 3) = .ok r ∧ r.value = .zero (some 1) ∧
      nanmedian [v 0 0, v 0 1, v 0 2, v 1 0, v 1 1, v 1 2, v 2 0, v 2 1, v 2 2] = some 9) := by
  constructor
  · refine ⟨fun t f => if f = 1 then (if t = 0 then none else some 6) else (if t = 0 then some 1 else some 2), ?_⟩
    have ht : timeBins [0, 1] (some 2) = .ok (some (2, 1)) := by decide +kernel
    have hf : freqBins [50, 51] (some 2) = .ok (some (2, 1)) := by decide +kernel
    refine ⟨_, 15 / 4, rebin_unfold .mean ⟨[0, 1], [50, 51], .two 2 2 _⟩ 2 2 _ rfl nanmean rfl _ _ _ _ ht hf, ?_, by norm_num, by decide +kernel⟩
    exact congrArg Arr.zero (by decide +kernel)
  · refine ⟨fun t f => if f = 2 ∨ t = 2 then some 9 else some 1, ?_⟩
    have ht : timeBins [0, 1, 2] (some 3) = .ok (some (3, 1)) := by decide +kernel
    have hf : freqBins [50, 51, 52] (some 3) = .ok (some (3, 1)) := by decide +kernel
    refine ⟨_, rebin_unfold .median ⟨[0, 1, 2], [50, 51, 52], .two 3 3 _⟩ 3 3 _ rfl nanmedian rfl _ _ _ _ ht hf, ?_, by decide +kernel⟩
    exact congrArg Arr.zero (by decide +kernel)

/-- **C115**, violated: a slice which is averaged down to one value cannot be averaged again, whatever is asked. -/
theorem rebin_again_violated (s : Binned) (nt nf : Nat) (v : Nat → Nat → Option ℚ) (hv : s.value = .two nt nf v) (t0 st f0 sf : ℚ)
    (ht : Regular s.time nt t0 st) (hf : Regular s.freq nf f0 sf) (hnt : 2 ≤ nt) (hnf : 2 ≤ nf) (hst : 0 < st) (hsf : 0 < sf) (dt df : ℚ)
    (hdt : st * nt ≤ dt) (hdf : sf * nf ≤ df) (m : Method) (hm : m ≠ .unknown) :
    ∃ r, rebinSlice m s (some dt) (some df) = .ok r ∧ ∀ m' dt' df', rebinSlice m' r dt' df' = .error .valueError := by
  obtain ⟨r, g, h1, h2, _⟩ := rebin_missing m hm s nt nf v hv t0 st f0 sf ht hf hnt hnf hst hsf dt df nt nf
    ⟨by omega, le_refl _, hdt, Or.inl rfl⟩ ⟨by omega, le_refl _, hdf, Or.inl rfl⟩
  rw [Nat.div_self (by omega), Nat.div_self (by omega)] at h2
  refine ⟨r, h1, fun m' dt' df' => ?_⟩
  rcases h2 with ⟨_, _, x, h, _⟩ | ⟨_, h, _⟩ | ⟨h, _⟩ | ⟨h, _⟩
  · unfold rebinSlice
    cases m' with
    | unknown => rfl
    | mean => show Arr.casesOn (motive := fun _ => Except Err Binned) r.value _ _ _ = _; rw [h]
    | median => show Arr.casesOn (motive := fun _ => Except Err Binned) r.value _ _ _ = _; rw [h]
  · exact absurd rfl h
  · exact absurd rfl h
  · exact absurd rfl h

/-- **C115**, violated: with a gap in the times, samples of a bin can be further apart than the width which is asked for; a gap in the frequencies is refused. -/
theorem rebin_gap_violated (v : Nat → Nat → Option ℚ) (gap : ℚ) :
    (∃ r, rebinSlice .mean ⟨[0, 1, 2, 2 + gap], [50, 51], .two 4 2 v⟩ (some 2) none = .ok r ∧ r.time = [1 / 2, 2 + gap / 2]) ∧
    (gap ≠ 1 → rebinSlice .mean ⟨[0, 1], [50, 51, 51 + gap], .two 2 3 v⟩ none (some 2) = .error .exception) := by
  constructor
  · have ht : timeBins [0, 1, 2, 2 + gap] (some 2) = .ok (some (2, 2)) := by
      have : sliceBins 4 2 = .ok (some (2, 2)) := by decide +kernel
      refine Eq.trans ?_ this
      unfold timeBins
      dsimp only [Option.elim]
      rw [if_neg (by simp), if_neg (by simp)]
      norm_num
    refine ⟨_, rebin_unfold .mean ⟨[0, 1, 2, 2 + gap], [50, 51], .two 4 2 v⟩ 4 2 _ rfl nanmean rfl _ _ _ none ht rfl, ?_⟩
    show [((0 : ℚ) + (1 + 0)) / (2 : Nat), (2 + ((2 + gap) + 0)) / (2 : Nat)] = _
    congr 1
    · norm_num
    · congr 1; push_cast; ring
  · intro hg
    have hf : freqBins [50, 51, 51 + gap] (some 2) = .error .exception := by
      unfold freqBins
      dsimp only [Option.elim]
      rw [if_pos]
      unfold evenly
      have : decide (([50, 51, 51 + gap] : List ℚ).getD (1 + 1) 0 - ([50, 51, 51 + gap] : List ℚ).getD 1 0
          = ([50, 51, 51 + gap] : List ℚ).getD 1 0 - ([50, 51, 51 + gap] : List ℚ).getD 0 0) = false := by
        refine decide_eq_false ?_
        show ¬ ((51 + gap) - 51 = (51 : ℚ) - 50)
        intro h; apply hg; linarith
      rw [Bool.and_eq_false_iff]
      right
      rw [List.all_eq_false]
      exact ⟨1, by simp, by rw [this]; simp⟩
    unfold rebinSlice
    dsimp only [Method.fn, Except.bind]
    rw [hf]
    rfl

/-- **C115**: a profile is averaged along its only axis, frequency or time; the other width is not looked at. -/
theorem rebin_profile (s : Binned) (n : Nat) (g : Nat → ℚ) (hv : s.value = .one n fun i => some (g i)) (x0 step : ℚ) (hn : 2 ≤ n) (hs : 0 < step) (d : ℚ) (w : Nat)
    (hw : IsBin n step d w) :
    (Regular s.freq n x0 step → ∀ dt, ∃ f, rebinSlice .mean s dt (some d) = .ok ⟨s.time,
      (List.range (n / w)).map fun i : Nat => x0 + step * ((i : ℚ) * w + ((w : ℚ) - 1) / 2), .one (n / w) f⟩ ∧ ∀ i, f i = some (sumTo (fun k => g (i * w + k)) w / w)) ∧
    (Regular s.time n x0 step → s.freq.length ≠ n → ∀ df, ∃ f, rebinSlice .mean s (some d) df = .ok ⟨
      (List.range (n / w)).map fun i : Nat => x0 + step * ((i : ℚ) * w + ((w : ℚ) - 1) / 2), s.freq, .one (n / w) f⟩ ∧ ∀ i, f i = some (sumTo (fun k => g (i * w + k)) w / w)) := by
  constructor
  · intro hx dt
    refine ⟨binValues nanmean (some (w, n / w)) fun i => some (g i), ?_, fun i => bin_mean g w i hw.1⟩
    unfold rebinSlice
    dsimp only [Method.fn, Except.bind]
    rw [hv]
    dsimp only
    rw [if_pos hx.1.symm, freqBins_of hx hn hs hw, ← binAxis_of hx hw.1]
    rfl
  · intro hx hf df
    refine ⟨binValues nanmean (some (w, n / w)) fun i => some (g i), ?_, fun i => bin_mean g w i hw.1⟩
    unfold rebinSlice
    dsimp only [Method.fn, Except.bind]
    rw [hv]
    dsimp only
    rw [if_neg (fun e => hf e.symm), if_pos hx.1.symm, timeBins_of hx hn hs hw, ← binAxis_of hx hw.1]
    rfl

theorem bins_fine {n : Nat} {step width : ℚ} (hs : 0 < step) (h0 : 0 ≤ width) (h1 : width < step) : sliceBins n (width / step) = .ok none := by
  have hfl : ⌊width / step⌋ = 0 := by
    rw [Int.floor_eq_iff]
    push_cast
    exact ⟨div_nonneg h0 hs.le, by rw [zero_add, div_lt_one hs]; exact h1⟩
  unfold sliceBins
  rw [hfl, if_neg (by omega)]
  rfl

/-- **C115**: averages over less than a sample, or without widths, change nothing; an unknown method is refused. -/
theorem rebin_fine (m : Method) (hm : m ≠ .unknown) (s : Binned) (nt nf : Nat) (v : Nat → Nat → Option ℚ) (hv : s.value = .two nt nf v) (t0 st f0 sf : ℚ)
    (ht : Regular s.time nt t0 st) (hf : Regular s.freq nf f0 sf) (hnt : 2 ≤ nt) (hnf : 2 ≤ nf) (hst : 0 < st) (hsf : 0 < sf) (dt df : Option ℚ)
    (hdt : ∀ d, dt = some d → 0 ≤ d ∧ d < st) (hdf : ∀ d, df = some d → 0 ≤ d ∧ d < sf) :
    (∃ r, rebinSlice m s dt df = .ok r ∧ r.time = s.time ∧ r.freq = s.freq ∧ Reads nt nf v r.value) ∧ rebinSlice .unknown s dt df = .error .valueError := by
  refine ⟨?_, rfl⟩
  obtain ⟨fn, hfn⟩ : ∃ fn, m.fn = .ok fn := by
    cases m with
    | mean => exact ⟨_, rfl⟩
    | median => exact ⟨_, rfl⟩
    | unknown => exact absurd rfl hm
  have et : s.time.getD 1 0 - s.time.getD 0 0 = st := by
    rw [ht.2 1 (by omega), ht.2 0 (by omega)]; push_cast; ring
  have ef : s.freq.getD 1 0 - s.freq.getD 0 0 = sf := by
    rw [hf.2 1 (by omega), hf.2 0 (by omega)]; push_cast; ring
  have bt : timeBins s.time dt = .ok none := by
    cases dt with
    | none => rfl
    | some d =>
      unfold timeBins
      dsimp only [Option.elim]
      rw [ht.1, if_neg (by omega), et, if_neg (ne_of_gt hst)]
      exact bins_fine hst (hdt d rfl).1 (hdt d rfl).2
  have ev : evenly s.freq = true := by
    unfold evenly
    rw [Bool.and_eq_true, decide_eq_true_iff, List.all_eq_true]
    refine ⟨by rw [hf.1]; exact hnf, fun i hi => decide_eq_true ?_⟩
    rw [List.mem_range, hf.1] at hi
    rw [ef, hf.2 (i + 1) (by omega), hf.2 i (by omega)]
    push_cast; ring
  have bf : freqBins s.freq df = .ok none := by
    cases df with
    | none => rfl
    | some d =>
      unfold freqBins
      dsimp only [Option.elim]
      rw [ev, if_neg (by intro h; cases h), hf.1, ef, if_neg (ne_of_gt hsf)]
      exact bins_fine hsf (hdf d rfl).1 (hdf d rfl).2
  exact ⟨_, rebin_unfold m s nt nf v hv fn hfn dt df none none bt bf, rfl, rfl, squeeze_reads _ _ _⟩

/-! ## Flattening and cleaning -/

theorem nanmedian_scale (k : ℚ) (hk : 0 < k) (l : List (Option ℚ)) : nanmedian (l.map fun x => x.map (· * k)) = (nanmedian l).map (· * k) := by
  unfold Verif.TF.nanmedian
  have : (l.map fun x => x.map (· * k)).filterMap id = (l.filterMap id).map (· * k) := by
    rw [List.filterMap_map, List.map_filterMap]
    rfl
  rw [this]
  exact median_scale k hk _

theorem nanDiv_map (x : Option ℚ) {m : ℚ} (hm : 0 < m) : nanDiv x (some m) = x.map (· * (1 / m)) := by
  cases x with
  | none => rfl
  | some a =>
    show (if m = 0 then none else some (a / m)) = some (a * (1 / m))
    rw [if_neg hm.ne', mul_one_div]

/-- **C116**: once flattened, every channel whose median is positive has a median of one; so has every time. -/
theorem flatten_one (v : Nat → Nat → Option ℚ) :
    (∀ nt f m, nanmedian ((List.range nt).map fun t => v t f) = some m → 0 < m → nanmedian ((List.range nt).map fun t => flattenFreq nt v t f) = some 1) ∧
    (∀ nf t m, nanmedian ((List.range nf).map fun f => v t f) = some m → 0 < m → nanmedian ((List.range nf).map fun f => flattenTime nf v t f) = some 1) := by
  constructor
  · intro nt f m hm h0
    have : ((List.range nt).map fun t => flattenFreq nt v t f) = ((List.range nt).map fun t => v t f).map fun x => x.map (· * (1 / m)) := by
      rw [List.map_map]
      refine List.map_congr_left fun t _ => ?_
      unfold flattenFreq medFreq
      rw [hm]
      exact nanDiv_map _ h0
    rw [this, nanmedian_scale _ (by positivity), hm]
    exact congrArg some (mul_one_div_cancel h0.ne')
  · intro nf t m hm h0
    have : ((List.range nf).map fun f => flattenTime nf v t f) = ((List.range nf).map fun f => v t f).map fun x => x.map (· * (1 / m)) := by
      rw [List.map_map]
      refine List.map_congr_left fun t _ => ?_
      unfold flattenTime medTime
      rw [hm]
      exact nanDiv_map _ h0
    rw [this, nanmedian_scale _ (by positivity), hm]
    exact congrArg some (mul_one_div_cancel h0.ne')

/-- **C116**: flattening does not depend on the gain of each channel, nor on the gain at each time for the other one. -/
theorem flatten_gain (v : Nat → Nat → Option ℚ) (gain : Nat → ℚ) (hg : ∀ i, 0 < gain i) :
    (∀ nt t f, flattenFreq nt (fun t f => (v t f).map (· * gain f)) t f = flattenFreq nt v t f) ∧
    (∀ nf t f, flattenTime nf (fun t f => (v t f).map (· * gain t)) t f = flattenTime nf v t f) := by
  have key : ∀ (x m : Option ℚ) (k : ℚ), 0 < k → nanDiv (x.map (· * k)) (m.map (· * k)) = nanDiv x m := by
    intro x m k hk
    cases x with
    | none => rfl
    | some a =>
      cases m with
      | none => rfl
      | some b =>
        show (if b * k = 0 then none else some (a * k / (b * k))) = if b = 0 then none else some (a / b)
        by_cases hb : b = 0
        · rw [if_pos hb, if_pos (by rw [hb, zero_mul])]
        · rw [if_neg hb, if_neg (mul_ne_zero hb hk.ne'), mul_div_mul_right _ _ hk.ne']
  constructor
  · intro nt t f
    have : medFreq nt (fun t f => (v t f).map (· * gain f)) f = (medFreq nt v f).map (· * gain f) := by
      unfold medFreq
      rw [← nanmedian_scale _ (hg f), List.map_map]
      rfl
    unfold flattenFreq
    rw [this]
    exact key _ _ _ (hg f)
  · intro nf t f
    have : medTime nf (fun t f => (v t f).map (· * gain t)) t = (medTime nf v t).map (· * gain t) := by
      unfold medTime
      rw [← nanmedian_scale _ (hg t), List.map_map]
      rfl
    unfold flattenTime
    rw [this]
    exact key _ _ _ (hg t)

theorem above_iff (x med : Option ℚ) (d : ℚ) : above x med d = true ↔ ∃ a b, x = some a ∧ med = some b ∧ b + d ≤ a := by
  unfold above
  cases x with
  | none => exact ⟨(fun h => by cases h), (fun ⟨_, _, h, _⟩ => by cases h)⟩
  | some a =>
    cases med with
    | none => exact ⟨(fun h => by cases h), (fun ⟨_, _, _, h, _⟩ => by cases h)⟩
    | some b =>
      constructor
      · intro h; exact ⟨a, b, rfl, rfl, of_decide_eq_true h⟩
      · rintro ⟨_, _, h1, h2, h3⟩
        cases h1; cases h2
        exact decide_eq_true h3

/-- **C116**: cleaning keeps exactly the values below both thresholds, unchanged. -/
theorem clean_exact (nt nf : Nat) (v : Nat → Nat → Option ℚ) (sd tSigma fSigma : ℚ) (t f : Nat) (ht : t < nt) (hf : f < nf) (x : ℚ) :
    cleanRfi nt nf v sd tSigma fSigma t f = some x ↔ v t f = some x ∧
      ∃ a b, nanmedian ((List.range nt).map fun t => v t f) = some a ∧ nanmedian ((List.range nf).map fun f => v t f) = some b ∧ x < a + sd * fSigma ∧ x < b + sd * tSigma := by
  have hA : ∀ y, v t f = some y → ∃ a, medFreq nt v f = some a := by
    intro y hy
    cases h : medFreq nt v f with
    | some a => exact ⟨a, rfl⟩
    | none =>
      have := (nanmedian_none _).1 h (v t f) (List.mem_map.2 ⟨t, List.mem_range.2 ht, rfl⟩)
      rw [hy] at this; cases this
  have hB : ∀ y, v t f = some y → ∃ a, medTime nf v t = some a := by
    intro y hy
    cases h : medTime nf v t with
    | some a => exact ⟨a, rfl⟩
    | none =>
      have := (nanmedian_none _).1 h (v t f) (List.mem_map.2 ⟨f, List.mem_range.2 hf, rfl⟩)
      rw [hy] at this; cases this
  unfold cleanRfi
  constructor
  · intro h
    by_cases h1 : above (v t f) (medFreq nt v f) (sd * fSigma) = true
    · rw [if_pos h1] at h; cases h
    rw [if_neg h1] at h
    by_cases h2 : above (v t f) (medTime nf v t) (sd * tSigma) = true
    · rw [if_pos h2] at h; cases h
    rw [if_neg h2] at h
    obtain ⟨a, ha⟩ := hA x h
    obtain ⟨b, hb⟩ := hB x h
    refine ⟨h, a, b, ha, hb, ?_, ?_⟩
    · by_contra hc
      exact h1 ((above_iff _ _ _).2 ⟨x, a, h, ha, not_lt.1 hc⟩)
    · by_contra hc
      exact h2 ((above_iff _ _ _).2 ⟨x, b, h, hb, not_lt.1 hc⟩)
  · rintro ⟨h, a, b, ha, hb, h1, h2⟩
    rw [if_neg, if_neg, h]
    · intro h3
      obtain ⟨y, m, hy, hm, h4⟩ := (above_iff _ _ _).1 h3
      rw [h] at hy; cases hy
      change nanmedian _ = _ at hm
      rw [hb] at hm; cases hm
      linarith
    · intro h3
      obtain ⟨y, m, hy, hm, h4⟩ := (above_iff _ _ _).1 h3
      rw [h] at hy; cases hy
      change nanmedian _ = _ at hm
      rw [ha] at hm; cases hm
      linarith

/-- The standard deviation of a table without missing values. -/
def IsStd (nt nf : Nat) (g : Nat → Nat → ℚ) (sd : ℚ) : Prop :=
  0 ≤ sd ∧ sd ^ 2 * (nt * nf) = sumTo (fun t => sumTo (fun f => (g t f - sumTo (fun a => sumTo (fun b => g a b) nf) nt / (nt * nf)) ^ 2) nf) nt

theorem sumTo_const (c : ℚ) (n : Nat) : sumTo (fun _ => c) n = n * c := by
  induction n with
  | zero => simp [sumTo]
  | succ n ih => simp only [sumTo]; rw [ih]; push_cast; ring

/-- **C116**, violated: cleaning data which are all the same removes everything, for any number of deviations. -/
theorem clean_constant_violated (nt nf : Nat) (c sd tSigma fSigma : ℚ) (hsd : IsStd nt nf (fun _ _ => c) sd) (t f : Nat) (ht : t < nt) (hf : f < nf) :
    cleanRfi nt nf (fun _ _ => some c) sd tSigma fSigma t f = none := by
  have hnt : (0 : ℚ) < nt := by exact_mod_cast (by omega : 0 < nt)
  have hnf : (0 : ℚ) < nf := by exact_mod_cast (by omega : 0 < nf)
  have h0 : sd = 0 := by
    have h := hsd.2
    simp only [sumTo_const] at h
    have e : (nt : ℚ) * (nf * c) / (nt * nf) = c := by field_simp
    rw [e, sub_self] at h
    have h' : sd ^ 2 * (nt * nf) = 0 := by rw [h]; ring
    rcases mul_eq_zero.1 h' with h' | h'
    · exact pow_eq_zero_iff (two_ne_zero) |>.1 h'
    · exact absurd h' (mul_pos hnt hnf).ne'
  cases h : cleanRfi nt nf (fun _ _ => some c) sd tSigma fSigma t f with
  | none => rfl
  | some x =>
    obtain ⟨h1, a, b, ha, _, h2, _⟩ := (clean_exact nt nf _ sd tSigma fSigma t f ht hf x).1 h
    injection h1 with h1
    have hb := median_bounds (lo := c) (hi := c) ha (by
      intro y hy
      obtain ⟨_, _, e⟩ := List.mem_map.1 hy
      injection e with e
      rw [e]; exact ⟨le_refl _, le_refl _⟩)
    rw [h0, zero_mul] at h2
    linarith

example : IsStd 1 2 (fun _ f => if f = 0 then 0 else 2) 1 := by
  constructor
  · norm_num
  · simp [sumTo]; norm_num

/-! ## Pointing switches -/

theorem fold_before (model : Nat → Nat → Nat → ℚ) : ∀ (l : List Nat) (c : Nat → ℚ) (t : Nat), l.Pairwise (· < ·) → (∀ x ∈ l, t < x) →
    (l.zip l.tail).foldl (fun corr p => switchStep model p.1 p.2 corr) c t = c t
  | [], _, _, _, _ => rfl
  | [_], _, _, _, _ => rfl
  | x :: y :: l, c, t, hp, ht => by
    show ((y :: l).zip (y :: l).tail).foldl (fun corr p => switchStep model p.1 p.2 corr) (switchStep model x y c) t = c t
    rw [fold_before model (y :: l) _ t (List.pairwise_cons.1 hp).2 fun z hz => ht z (List.mem_cons_of_mem _ hz)]
    unfold switchStep
    rw [if_neg (by have := ht x List.mem_cons_self; omega)]

theorem fold_in (model : Nat → Nat → Nat → ℚ) {a b t : Nat} (h1 : a ≤ t) (h2 : t < b) : ∀ (l : List Nat) (c : Nat → ℚ), l.Pairwise (· < ·) → a ∈ l → b ∈ l →
    (∀ x ∈ l, ¬ (a < x ∧ x < b)) → (l.zip l.tail).foldl (fun corr p => switchStep model p.1 p.2 corr) c t = c t * model a b (1 + (t - a))
  | [], _, _, h, _, _ => by cases h
  | [x], _, _, ha, hb, _ => by
    rw [List.mem_singleton] at ha hb
    omega
  | x :: y :: l, c, hp, ha, hb, hn => by
    show ((y :: l).zip (y :: l).tail).foldl (fun corr p => switchStep model p.1 p.2 corr) (switchStep model x y c) t = _
    obtain ⟨hx, hp'⟩ := List.pairwise_cons.1 hp
    rcases List.mem_cons.1 ha with rfl | ha'
    · have hb' : b ∈ y :: l := by
        rcases List.mem_cons.1 hb with rfl | h
        · omega
        · exact h
      have hby : b = y := by
        rcases List.mem_cons.1 hb' with h | h
        · exact h
        · exact absurd ⟨hx y List.mem_cons_self, (List.pairwise_cons.1 hp').1 b h⟩ (hn y (List.mem_cons_of_mem _ List.mem_cons_self))
      subst hby
      rw [fold_before model _ _ t hp' (by
        intro z hz
        rcases List.mem_cons.1 hz with rfl | hz
        · exact h2
        · exact lt_trans h2 ((List.pairwise_cons.1 hp').1 z hz))]
      unfold switchStep
      rw [if_pos ⟨h1, h2⟩]
    · have hay : y ≤ a := by
        rcases List.mem_cons.1 ha' with h | h
        · exact h.ge
        · exact ((List.pairwise_cons.1 hp').1 a h).le
      have hb' : b ∈ y :: l := by
        rcases List.mem_cons.1 hb with h | h
        · have := hx a ha'; omega
        · exact h
      rw [fold_in model h1 h2 (y :: l) _ hp' ha' hb' fun z hz => hn z (List.mem_cons_of_mem _ hz)]
      unfold switchStep
      rw [if_neg (by omega)]

theorem limits_mem (n : Nat) (peaks : List Nat) (x : Nat) : x ∈ switchLimits n peaks ↔ x = 0 ∨ (∃ p ∈ peaks, x = p + 1) ∨ x = n := by
  unfold switchLimits
  rw [(List.perm_insertionSort _ _).mem_iff, List.mem_dedup, List.mem_cons, List.mem_append, List.mem_map, List.mem_singleton]
  constructor
  · rintro (h | ⟨p, hp, e⟩ | h)
    · exact Or.inl h
    · exact Or.inr (Or.inl ⟨p, hp, e.symm⟩)
    · exact Or.inr (Or.inr h)
  · rintro (h | ⟨p, hp, e⟩ | h)
    · exact Or.inl h
    · exact Or.inr (Or.inl ⟨p, hp, e.symm⟩)
    · exact Or.inr (Or.inr h)

theorem limits_sorted (n : Nat) (peaks : List Nat) : (switchLimits n peaks).Pairwise (· < ·) := by
  unfold switchLimits
  have h1 := List.pairwise_insertionSort (· ≤ ·) (0 :: (peaks.map (· + 1) ++ [n])).dedup
  have h2 : ((0 :: (peaks.map (· + 1) ++ [n])).dedup.insertionSort (· ≤ ·)).Nodup :=
    (List.perm_insertionSort _ _).nodup_iff.2 (List.nodup_dedup _)
  exact (h1.and h2).imp fun h => lt_of_le_of_ne h.1 h.2

theorem exists_top : ∀ l : List Nat, l ≠ [] → ∃ a ∈ l, ∀ x ∈ l, x ≤ a
  | [], h => absurd rfl h
  | [y], _ => ⟨y, List.mem_cons_self, fun x hx => by rw [List.mem_singleton] at hx; omega⟩
  | y :: z :: l, _ => by
    obtain ⟨a, ha, h⟩ := exists_top (z :: l) (by simp)
    rcases Nat.le_total y a with hy | hy
    · exact ⟨a, List.mem_cons_of_mem _ ha, fun x hx => by
        rcases List.mem_cons.1 hx with rfl | hx
        · exact hy
        · exact h x hx⟩
    · exact ⟨y, List.mem_cons_self, fun x hx => by
        rcases List.mem_cons.1 hx with rfl | hx
        · exact Nat.le_refl _
        · exact Nat.le_trans (h x hx) hy⟩

theorem exists_bottom : ∀ l : List Nat, l ≠ [] → ∃ a ∈ l, ∀ x ∈ l, a ≤ x
  | [], h => absurd rfl h
  | [y], _ => ⟨y, List.mem_cons_self, fun x hx => by rw [List.mem_singleton] at hx; omega⟩
  | y :: z :: l, _ => by
    obtain ⟨a, ha, h⟩ := exists_bottom (z :: l) (by simp)
    rcases Nat.le_total a y with hy | hy
    · exact ⟨a, List.mem_cons_of_mem _ ha, fun x hx => by
        rcases List.mem_cons.1 hx with rfl | hx
        · exact hy
        · exact h x hx⟩
    · exact ⟨y, List.mem_cons_self, fun x hx => by
        rcases List.mem_cons.1 hx with rfl | hx
        · exact Nat.le_refl _
        · exact Nat.le_trans hy (h x hx)⟩

/-- A pointing: the samples from `a` to `b`, between two switches, each at the sample after a peak. -/
def IsPointing (n : Nat) (peaks : List Nat) (a b : Nat) : Prop :=
  (a = 0 ∨ ∃ p ∈ peaks, a = p + 1) ∧ (b = n ∨ ∃ p ∈ peaks, b = p + 1) ∧ a < b ∧ ∀ p ∈ peaks, ¬ (a < p + 1 ∧ p + 1 < b)

/-- **C116**: every sample belongs to a pointing, and is divided once, by the model which is fitted to that pointing. -/
theorem switch_exact (n : Nat) (dt pointing : ℚ) (margin : Int) (peaks : List Nat) (hp : ∀ p ∈ peaks, p < n) (model : Nat → Nat → Nat → ℚ)
    (v out : Nat → Nat → Option ℚ) (h : clearSwitch n dt pointing margin peaks model v = .ok out) (t : Nat) (ht : t < n) :
    ∃ a b, IsPointing n peaks a b ∧ a ≤ t ∧ t < b ∧ ∀ f, out t f = nanDiv (v t f) (some (model a b (1 + (t - a)))) := by
  have hL : ∀ x ∈ switchLimits n peaks, x ≤ n := by
    intro x hx
    rcases (limits_mem n peaks x).1 hx with rfl | ⟨p, hpp, rfl⟩ | rfl
    · omega
    · exact hp p hpp
    · omega
  have hout : ∀ f, out t f = nanDiv (v t f) (some (switchCorr model (switchLimits n peaks) t)) := by
    unfold clearSwitch at h
    by_cases hn : n < 2
    · rw [if_pos hn] at h; cases h
    · rw [if_neg hn] at h
      cases hd : peakDistance pointing dt margin with
      | error e => rw [hd] at h; cases h
      | ok d =>
        rw [hd] at h
        injection h with h
        subst h
        exact fun f => rfl
  let lo := (switchLimits n peaks).filter fun x => decide (x ≤ t)
  let hi := (switchLimits n peaks).filter fun x => decide (t < x)
  have h0 : 0 ∈ lo := List.mem_filter.2 ⟨(limits_mem _ _ _).2 (Or.inl rfl), decide_eq_true (Nat.zero_le _)⟩
  have hn : n ∈ hi := List.mem_filter.2 ⟨(limits_mem _ _ _).2 (Or.inr (Or.inr rfl)), decide_eq_true ht⟩
  obtain ⟨a, ha, hamax⟩ : ∃ a ∈ lo, ∀ x ∈ lo, x ≤ a := by
    exact exists_top lo (List.ne_nil_of_mem h0)
  obtain ⟨b, hb, hbmin⟩ : ∃ b ∈ hi, ∀ x ∈ hi, b ≤ x := by
    exact exists_bottom hi (List.ne_nil_of_mem hn)
  have ha' := List.mem_filter.1 ha
  have hb' := List.mem_filter.1 hb
  have hat : a ≤ t := of_decide_eq_true ha'.2
  have hbt : t < b := of_decide_eq_true hb'.2
  have hno : ∀ x ∈ switchLimits n peaks, ¬ (a < x ∧ x < b) := by
    rintro x hx ⟨h1, h2⟩
    by_cases hxt : x ≤ t
    · exact absurd (hamax x (List.mem_filter.2 ⟨hx, decide_eq_true hxt⟩)) (by omega)
    · exact absurd (hbmin x (List.mem_filter.2 ⟨hx, decide_eq_true (by omega)⟩)) (by omega)
  refine ⟨a, b, ⟨?_, ?_, by omega, fun p hpp => hno _ ((limits_mem _ _ _).2 (Or.inr (Or.inl ⟨p, hpp, rfl⟩)))⟩, hat, hbt, fun f => ?_⟩
  · rcases (limits_mem n peaks a).1 ha'.1 with h | h | h
    · exact Or.inl h
    · exact Or.inr h
    · omega
  · rcases (limits_mem n peaks b).1 hb'.1 with h | h | h
    · omega
    · exact Or.inr h
    · exact Or.inl h
  · rw [hout f]
    unfold switchCorr
    rw [fold_in model hat hbt _ _ (limits_sorted n peaks) ha'.1 hb'.1 hno, one_mul]

/-- **C116**: and that pointing is the only one which contains the sample. -/
theorem pointing_unique {n : Nat} {peaks : List Nat} (hp : ∀ p ∈ peaks, p < n) {a b a' b' t : Nat} (h : IsPointing n peaks a b) (h' : IsPointing n peaks a' b') (h1 : a ≤ t) (h2 : t < b)
    (h1' : a' ≤ t) (h2' : t < b') : a = a' ∧ b = b' := by
  obtain ⟨ha, hb, _, hn⟩ := h
  obtain ⟨ha', hb', _, hn'⟩ := h'
  have bn : b ≤ n := by
    rcases hb with h | ⟨p, hpp, h⟩
    · omega
    · have := hp p hpp; omega
  have bn' : b' ≤ n := by
    rcases hb' with h | ⟨p, hpp, h⟩
    · omega
    · have := hp p hpp; omega
  constructor
  · rcases lt_trichotomy a a' with hlt | h | hlt
    · rcases ha' with h | ⟨p, hpp, h⟩
      · omega
      · exact absurd ⟨by omega, by omega⟩ (hn p hpp)
    · exact h
    · rcases ha with h | ⟨p, hpp, h⟩
      · omega
      · exact absurd ⟨by omega, by omega⟩ (hn' p hpp)
  · rcases lt_trichotomy b b' with hlt | h | hlt
    · rcases hb with h | ⟨p, hpp, h⟩
      · omega
      · exact absurd ⟨by omega, by omega⟩ (hn' p hpp)
    · exact h
    · rcases hb' with h | ⟨p, hpp, h⟩
      · omega
      · exact absurd ⟨by omega, by omega⟩ (hn p hpp)

example : IsPointing 10 [3, 6] 4 7 := ⟨Or.inr ⟨3, by simp, rfl⟩, Or.inr ⟨6, by simp, rfl⟩, by omega, by simp⟩

theorem round_le_two {x : ℚ} : roundEven x ≤ 2 ↔ x ≤ 5 / 2 := by
  have f1 := Int.floor_le x
  have f2 := Int.lt_floor_add_one x
  unfold roundEven
  have key : ∀ k : ℤ, (k ≤ 2 → (k : ℚ) ≤ 2) ∧ (2 < k → (3 : ℚ) ≤ k) ∧ (k ≤ 1 → (k : ℚ) ≤ 1) ∧ (1 < k → (2 : ℚ) ≤ k) := fun k =>
    ⟨fun h => by exact_mod_cast h, fun h => by exact_mod_cast h, fun h => by exact_mod_cast h, fun h => by exact_mod_cast h⟩
  obtain ⟨k1, k2, k3, k4⟩ := key ⌊x⌋
  split_ifs with h1 h2 h3
  · constructor
    · intro h; have := k1 h; linarith
    · intro h; by_contra hc; have := k2 (by omega); linarith
  · constructor
    · intro h; have := k3 (by omega); linarith
    · intro h; by_contra hc; have := k4 (by omega); linarith
  · constructor
    · intro h; have := k1 h; linarith
    · intro h; by_contra hc; have := k2 (by omega); linarith
  · have e : x - ⌊x⌋ = 1 / 2 := le_antisymm (not_lt.1 h2) (not_lt.1 h1)
    constructor
    · intro h; have := k3 (by omega); linarith
    · intro h
      by_contra hc
      have h5 := k4 (by omega)
      have : (⌊x⌋ : ℚ) ≤ 2 := by linarith
      have : ⌊x⌋ ≤ 2 := by exact_mod_cast this
      omega

/-- **C116**, violated: with the default duration of a pointing, six minutes, and the default margin, correcting the switches fails for all the data which have
samples of 144 seconds or longer, and only for them. -/
theorem switch_step_violated (n : Nat) (hn : 2 ≤ n) (dt : ℚ) (hdt : 0 < dt) (peaks : List Nat) (model : Nat → Nat → Nat → ℚ) (v : Nat → Nat → Option ℚ) :
    clearSwitch n dt 360 2 peaks model v = .error .valueError ↔ 144 ≤ dt := by
  have e : roundEven (360 / dt) - 2 < 1 ↔ 144 ≤ dt := by
    rw [show (roundEven (360 / dt) - 2 < 1 ↔ roundEven (360 / dt) ≤ 2) by constructor <;> intro h <;> omega, round_le_two, div_le_iff₀ hdt]
    constructor <;> intro h <;> linarith
  unfold clearSwitch peakDistance
  rw [if_neg (by omega), if_neg hdt.ne']
  by_cases h : roundEven (360 / dt) - 2 < 1
  · rw [if_pos h]
    exact ⟨fun _ => e.1 h, fun _ => rfl⟩
  · rw [if_neg h]
    exact ⟨(fun hc => by cases hc), fun hc => absurd (e.2 hc) h⟩

/-! ## Background -/

theorem profMax_fold : ∀ (l : List (Option ℚ)) (a : ℚ), ∃ M, l.foldl (fun a b => a.elim b fun x => some (b.elim x fun y => max x y)) (some a) = some M ∧
    a ≤ M ∧ (∀ y, some y ∈ l → y ≤ M) ∧ (M = a ∨ some M ∈ l)
  | [], a => ⟨a, rfl, le_refl _, (fun y h => by cases h), Or.inl rfl⟩
  | none :: l, a => by
    obtain ⟨M, h1, h2, h3, h4⟩ := profMax_fold l a
    refine ⟨M, h1, h2, fun y hy => ?_, h4.imp id (List.mem_cons_of_mem _)⟩
    rcases List.mem_cons.1 hy with h | h
    · cases h
    · exact h3 y h
  | some b :: l, a => by
    obtain ⟨M, h1, h2, h3, h4⟩ := profMax_fold l (max a b)
    refine ⟨M, h1, le_trans (le_max_left _ _) h2, fun y hy => ?_, ?_⟩
    · rcases List.mem_cons.1 hy with h | h
      · injection h with h; subst h; exact le_trans (le_max_right _ _) h2
      · exact h3 y h
    · rcases h4 with h | h
      · rcases max_choice a b with hm | hm
        · exact Or.inl (by rw [h, hm])
        · exact Or.inr (by rw [h, hm]; exact List.mem_cons_self)
      · exact Or.inr (List.mem_cons_of_mem _ h)

theorem profMax_spec {nt np : Nat} {prof : Nat → Nat → Option ℚ} {t p : Nat} (ht : t < nt) (hp : p < np) (h : ∀ t p, t < nt → p < np → ∃ x, prof t p = some x) :
    ∃ M, profMax nt np prof = some M ∧ (∀ t p, t < nt → p < np → ∀ x, prof t p = some x → x ≤ M) ∧ ∃ t' p', t' < nt ∧ p' < np ∧ prof t' p' = some M := by
  unfold profMax
  have hm : ∀ x, x ∈ ((List.range nt).flatMap fun t => (List.range np).map fun p => prof t p) ↔ ∃ t p, t < nt ∧ p < np ∧ prof t p = x := by
    intro x
    rw [List.mem_flatMap]
    constructor
    · rintro ⟨t, ht, hx⟩
      obtain ⟨p, hp, e⟩ := List.mem_map.1 hx
      exact ⟨t, p, List.mem_range.1 ht, List.mem_range.1 hp, e⟩
    · rintro ⟨t, p, ht, hp, e⟩
      exact ⟨t, List.mem_range.2 ht, List.mem_map.2 ⟨p, List.mem_range.2 hp, e⟩⟩
  generalize ((List.range nt).flatMap fun t => (List.range np).map fun p => prof t p) = l at hm
  cases l with
  | nil => exact absurd ((hm (prof t p)).2 ⟨t, p, ht, hp, rfl⟩) (by simp)
  | cons y l =>
    obtain ⟨t0, p0, ht0, hp0, e0⟩ := (hm y).1 List.mem_cons_self
    obtain ⟨a, ha⟩ := h t0 p0 ht0 hp0
    rw [ha] at e0
    subst e0
    obtain ⟨M, h1, h2, h3, h4⟩ := profMax_fold l a
    refine ⟨M, h1, fun t p ht hp x hx => ?_, ?_⟩
    · rcases List.mem_cons.1 ((hm (some x)).2 ⟨t, p, ht, hp, hx⟩) with h | h
      · injection h with h; subst h; exact h2
      · exact h3 x h
    · have hM : some M ∈ some a :: l := by
        rcases h4 with h | h
        · rw [h]; exact List.mem_cons_self
        · exact List.mem_cons_of_mem _ h
      obtain ⟨t, p, ht, hp, e⟩ := (hm (some M)).1 hM
      exact ⟨t, p, ht, hp, e⟩

theorem median_pos {n : Nat} (hn : 0 < n) {g : Nat → ℚ} (hg : ∀ i, 0 < g i) : ∃ m, 0 < m ∧ nanmedian ((List.range n).map fun i => some (g i)) = some m := by
  have e : ((List.range n).map fun i => some (g i)) = ((List.range n).map g).map some := by rw [List.map_map]; rfl
  cases h : nanmedian ((List.range n).map fun i => some (g i)) with
  | none =>
    have := (nanmedian_none _).1 h (some (g 0)) (List.mem_map.2 ⟨0, List.mem_range.2 hn, rfl⟩)
    cases this
  | some m =>
    refine ⟨m, ?_, rfl⟩
    -- the smallest of the values is below the median
    obtain ⟨lo, hlo, hmin⟩ : ∃ lo : ℚ, 0 < lo ∧ ∀ i, i < n → lo ≤ g i := by
      clear h e
      induction n with
      | zero => omega
      | succ n ih =>
        rcases Nat.eq_zero_or_pos n with rfl | h0
        · exact ⟨g 0, hg 0, fun i hi => by rw [show i = 0 by omega]⟩
        · obtain ⟨lo, h1, h2⟩ := ih h0
          refine ⟨min lo (g n), lt_min h1 (hg n), fun i hi => ?_⟩
          rcases Nat.lt_succ_iff_lt_or_eq.1 hi with h | rfl
          · exact le_trans (min_le_left _ _) (h2 i h)
          · exact min_le_right _ _
    have hmed : ∀ (l : List ℚ) (x : ℚ), median l = some x → (∀ y ∈ l, lo ≤ y) → lo ≤ x := by
      intro l x hx hl
      have hhi : ∀ l : List ℚ, ∃ hi : ℚ, ∀ y ∈ l, y ≤ hi := by
        intro l
        induction l with
        | nil => exact ⟨0, fun y hy => by cases hy⟩
        | cons z l ih =>
          obtain ⟨hi, h⟩ := ih
          refine ⟨max z hi, fun y hy => ?_⟩
          rcases List.mem_cons.1 hy with rfl | hy
          · exact le_max_left _ _
          · exact le_trans (h y hy) (le_max_right _ _)
      obtain ⟨hi, hhi⟩ := hhi l
      exact (median_mem_bounds hx fun y hy => ⟨hl y hy, hhi y hy⟩).1
    rw [e, nanmedian_some] at h
    refine lt_of_lt_of_le hlo (hmed _ m h fun y hy => ?_)
    obtain ⟨i, hi, rfl⟩ := List.mem_map.1 hy
    exact hmin i (List.mem_range.1 hi)

/-- The number which is left, by the medians of the profile and of the spectrum. -/
theorem background_gains (nt nf np : Nat) (a b : Nat → Nat → ℚ) (ha : ∀ t p, 0 < a t p) (hb : ∀ f p, 0 < b f p) (hnt : 0 < nt) (hnf : 0 < nf) (hnp : 0 < np) :
    ∃ (bg : Cube) (M : ℚ) (mA mB : Nat → ℚ), background nt nf np (fun t f p => some (a t p * b f p)) = .ok (some bg) ∧ 0 < M ∧
      (∀ p, 0 < mA p ∧ nanmedian ((List.range nt).map fun t => some (a t p)) = some (mA p)) ∧
      (∀ p, 0 < mB p ∧ nanmedian ((List.range nf).map fun f => some (b f p)) = some (mB p)) ∧
      ∀ p, p < np → ∀ t f, nanDiv (some (a t p * b f p)) (bg t f p) = some (M / (mA p * mB p)) := by
  have hA : ∀ p, ∃ m, 0 < m ∧ nanmedian ((List.range nt).map fun t => some (a t p)) = some m := fun p => median_pos hnt fun t => ha t p
  have hB : ∀ p, ∃ m, 0 < m ∧ nanmedian ((List.range nf).map fun f => some (b f p)) = some m := fun p => median_pos hnf fun f => hb f p
  choose mA hA0 hA using hA
  choose mB hB0 hB using hB
  have eF : ∀ f p, medFreq nt (fun t f => some (a t p * b f p)) f = some (mA p * b f p) := by
    intro f p
    unfold medFreq
    have : ((List.range nt).map fun t => some (a t p * b f p)) = ((List.range nt).map fun t => some (a t p)).map fun x => x.map (· * b f p) := by
      rw [List.map_map]; rfl
    rw [this, nanmedian_scale _ (hb f p), hA]
    rfl
  have eT : ∀ t p, medTime nf (fun t f => some (a t p * b f p)) t = some (mB p * a t p) := by
    intro t p
    unfold medTime
    have : ((List.range nf).map fun f => some (a t p * b f p)) = ((List.range nf).map fun f => some (b f p)).map fun x => x.map (· * a t p) := by
      rw [List.map_map]
      refine List.map_congr_left fun f _ => ?_
      show some (a t p * b f p) = some (b f p * a t p)
      rw [mul_comm]
    rw [this, nanmedian_scale _ (ha t p), hB]
    rfl
  obtain ⟨M, hM, hM1, _⟩ := profMax_spec (prof := fun t p => medTime nf (fun t f => some (a t p * b f p)) t) hnt hnp (fun t p _ _ => ⟨_, eT t p⟩)
  have hM0 : 0 < M := lt_of_lt_of_le (mul_pos (hB0 0) (ha 0 0)) (hM1 0 0 hnt hnp _ (eT 0 0))
  unfold background
  rw [if_neg (by rw [List.any_eq_true]; rintro ⟨t, _, h⟩; simp at h)]
  refine ⟨_, M, mA, mB, rfl, hM0, fun p => ⟨hA0 p, hA p⟩, fun p => ⟨hB0 p, hB p⟩, fun p hp t f => ?_⟩
  have e : (nanDiv (medTime nf (fun t f => some (a t p * b f p)) t) (profMax nt np fun t p => medTime nf (fun t f => some (a t p * b f p)) t)) = some (mB p * a t p / M) := by
    rw [hM, eT]
    exact if_neg hM0.ne'
  show nanDiv (some (a t p * b f p)) ((medFreq nt (fun t f => some (a t p * b f p)) f).bind fun s =>
      (nanDiv (medTime nf (fun t f => some (a t p * b f p)) t) (profMax nt np fun t p => medTime nf (fun t f => some (a t p * b f p)) t)).map fun q => s * q) = _
  rw [e, eF]
  have h1 := ha t p
  have h2 := hb f p
  have h3 := hA0 p
  have h4 := hB0 p
  show (if mA p * b f p * (mB p * a t p / M) = 0 then none else some (a t p * b f p / (mA p * b f p * (mB p * a t p / M)))) = _
  rw [if_neg (by positivity)]
  congr 1
  field_simp

/-- **C116**, in part: when every polarisation is a time profile times a spectrum, dividing by the background leaves one number for each polarisation. What is missing: that this
number is one, or the same for all the polarisations, which does not hold. -/
theorem background_partial (nt nf np : Nat) (a b : Nat → Nat → ℚ) (ha : ∀ t p, 0 < a t p) (hb : ∀ f p, 0 < b f p) (hnt : 0 < nt) (hnf : 0 < nf) (hnp : 0 < np) :
    ∃ (bg : Cube) (k : Nat → ℚ), background nt nf np (fun t f p => some (a t p * b f p)) = .ok (some bg) ∧
      ∀ p, p < np → 0 < k p ∧ ∀ t f, nanDiv (some (a t p * b f p)) (bg t f p) = some (k p) := by
  obtain ⟨bg, M, mA, mB, h1, h2, h3, h4, h5⟩ := background_gains nt nf np a b ha hb hnt hnf hnp
  exact ⟨bg, fun p => M / (mA p * mB p), h1, fun p hp => ⟨div_pos h2 (mul_pos (h3 p).1 (h4 p).1), h5 p hp⟩⟩

/-- **C116**, violated: two polarisations which are the same up to any gain `g` are not the same once divided by the background: the gain is found again, upside down. -/
theorem background_violated (nt nf np : Nat) (a b : Nat → Nat → ℚ) (ha : ∀ t p, 0 < a t p) (hb : ∀ f p, 0 < b f p) (hnt : 0 < nt) (hnf : 0 < nf)
    (p q : Nat) (hp : p < np) (hq : q < np) (g : ℚ) (hg : 0 < g) (hg1 : g ≠ 1) (hA : ∀ t, a t q = a t p * g) (hB : ∀ f, b f q = b f p) :
    ∃ (bg : Cube) (x : ℚ), background nt nf np (fun t f p => some (a t p * b f p)) = .ok (some bg) ∧ g * x ≠ x ∧
      ∀ t f, nanDiv (some (a t p * b f p)) (bg t f p) = some (g * x) ∧ nanDiv (some (a t q * b f q)) (bg t f q) = some x := by
  obtain ⟨bg, M, mA, mB, h1, h2, h3, h4, h5⟩ := background_gains nt nf np a b ha hb hnt hnf (by omega)
  have e1 : mA q = mA p * g := by
    have e : ((List.range nt).map fun t => some (a t q)) = ((List.range nt).map fun t => some (a t p)).map fun x => x.map (· * g) := by
      rw [List.map_map]
      exact List.map_congr_left fun t _ => by rw [hA t]; rfl
    have h := (h3 q).2
    rw [e, nanmedian_scale _ hg, (h3 p).2] at h
    injection h with h
    exact h.symm
  have e2 : mB q = mB p := by
    have e : ((List.range nf).map fun f => some (b f q)) = (List.range nf).map fun f => some (b f p) := List.map_congr_left fun f _ => by rw [hB f]
    have h := (h4 q).2
    rw [e, (h4 p).2] at h
    injection h with h
    exact h.symm
  have p1 := (h3 p).1
  have p2 := (h4 p).1
  have hx : 0 < M / (mA q * mB q) := div_pos h2 (mul_pos (h3 q).1 (h4 q).1)
  refine ⟨bg, M / (mA q * mB q), h1, fun h => hg1 (mul_right_cancel₀ hx.ne' (h.trans (one_mul _).symm)), fun t f => ⟨?_, h5 q hq t f⟩⟩
  rw [h5 p hp t f, e1, e2]
  congr 1
  field_simp

/-- Its hypotheses: one sample in two polarisations, the second one twice the first. -/
example : ∃ bg, background 1 1 2 (fun _ _ p => if p = 0 then some 1 else some 2) = .ok (some bg) ∧
    nanDiv (some 1) (bg 0 0 0) = some 2 ∧ nanDiv (some 2) (bg 0 0 1) = some 1 :=
  ⟨_, by unfold background; exact if_neg (by decide +kernel), by decide +kernel, by decide +kernel⟩

/-- **C116**, violated: with several polarisations, one missing value in the first channel makes the background fail, whatever the rest of the data. -/
theorem background_missing_violated (nt nf np : Nat) (d : Cube) (t : Nat) (ht : t < nt) (h : d t 0 0 = none) (hp : np ≠ 1) : background nt nf np d = .error .indexError := by
  unfold background
  rw [if_pos (List.any_eq_true.2 ⟨t, List.mem_range.2 ht, decide_eq_true h⟩), if_neg hp]

/-- **C116**: once divided by the background along the frequencies, each channel whose median is positive has a median of one. -/
theorem fbackground_one (nt : Nat) (d : Cube) (f p : Nat) (m : ℚ) (hm : nanmedian ((List.range nt).map fun t => d t f p) = some m) (h0 : 0 < m) :
    nanmedian ((List.range nt).map fun t => nanDiv (d t f p) (fBackground nt d t f p)) = some 1 :=
  (flatten_one fun t f => d t f p).1 nt f m hm h0

/-- **C116**: with a number every value is changed by it; with an array, each by the value at the same place, and arrays of another shape are refused. -/
theorem other_exact (op : ℚ → ℚ → Option ℚ) (nt nf np : Nat) (d : Cube) (o : Other) (out : Cube) :
    withOther op nt nf np d o = .ok out ↔
      ∃ w : Nat → Nat → Nat → ℚ, ((∃ q, o = .number q ∧ w = fun _ _ _ => q) ∨ o = .array nt nf np w) ∧ out = fun t f p => (d t f p).bind fun x => op x (w t f p) := by
  cases o with
  | number q =>
    constructor
    · intro h
      replace h : (Except.ok (fun t f p => (d t f p).bind fun x => op x q) : Except Err Cube) = .ok out := h
      injection h with h
      exact ⟨fun _ _ _ => q, Or.inl ⟨q, rfl, rfl⟩, h.symm⟩
    · rintro ⟨w, ⟨q', h, rfl⟩ | h, rfl⟩
      · injection h with h; subst h; rfl
      · cases h
  | array a b c v =>
    constructor
    · intro h
      replace h : (if a = nt ∧ b = nf ∧ c = np then (Except.ok fun t f p => (d t f p).bind fun x => op x (v t f p) : Except Err Cube) else .error .valueError) = .ok out := h
      by_cases hc : a = nt ∧ b = nf ∧ c = np
      · rw [if_pos hc] at h
        injection h with h
        obtain ⟨rfl, rfl, rfl⟩ := hc
        exact ⟨v, Or.inr rfl, h.symm⟩
      · rw [if_neg hc] at h; cases h
    · rintro ⟨w, ⟨q', h, _⟩ | h, rfl⟩
      · cases h
      · injection h with h1 h2 h3 h4
        subst h1; subst h2; subst h3; subst h4
        exact if_pos ⟨rfl, rfl, rfl⟩
  | something =>
    constructor
    · intro h; cases h
    · rintro ⟨w, ⟨q', h, _⟩ | h, _⟩ <;> cases h

end Verif.IO
