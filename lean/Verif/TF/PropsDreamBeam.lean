import Verif.TF.DreamBeam
import Verif.TF.PropsShift
import Verif.TF.PropsStokes
import Mathlib.Tactic.FieldSimp

/-!
# Properties of the correction with computed Jones matrices
-/

namespace Verif.TF

/-! ## Matrices -/

/-- Correcting with the inverse of a matrix undoes the matrix. -/
theorem jones_undone (j d : M2) (h : j.det ≠ 0) : applyJones j.inv (applyJones j d) = d := by
  have hs : star j.d00 * star j.d11 - star j.d01 * star j.d10 ≠ 0 := by
    intro h0
    apply h
    have := congrArg star h0
    rw [star_sub, star_mul', star_mul', star_star, star_star, star_star, star_star, star_zero] at this
    exact this
  have hd : star j.det = star j.d00 * star j.d11 - star j.d01 * star j.d10 := by
    unfold M2.det
    rw [star_sub, star_mul', star_mul']
  have hu : (j.d00 * j.d11 - j.d01 * j.d10) * j.det⁻¹ = 1 := mul_inv_cancel₀ h
  have hv : (star j.d00 * star j.d11 - star j.d01 * star j.d10) * (star j.det)⁻¹ = 1 := by
    rw [hd]
    exact mul_inv_cancel₀ hs
  unfold applyJones M2.mul M2.inv
  simp only [star_div₀, star_neg]
  simp only [div_eq_mul_inv]
  generalize (star j.det)⁻¹ = v at *
  generalize (j.det)⁻¹ = w at *
  generalize star j.d00 = a at *
  generalize star j.d01 = b at *
  generalize star j.d10 = c at *
  generalize star j.d11 = e at *
  ext <;> dsimp only
  · linear_combination d.d00 * ((a * e - b * c) * v) * hu + d.d00 * hv
  · linear_combination d.d01 * ((a * e - b * c) * v) * hu + d.d01 * hv
  · linear_combination d.d10 * ((a * e - b * c) * v) * hu + d.d10 * hv
  · linear_combination d.d11 * ((a * e - b * c) * v) * hu + d.d11 * hv

/-! ## First ranks -/

theorem firstTrue_of {α : Type} (p : α → Bool) (l : List α) (k : Nat) (hk : k < l.length) (h0 : ∀ i : Nat, ∀ hi : i < l.length, i < k → p l[i] = false)
    (h1 : p l[k] = true) : firstTrue p l = k := by
  unfold firstTrue
  rw [if_pos (List.any_eq_true.2 ⟨l[k], List.getElem_mem hk, h1⟩), List.findIdx_eq hk]
  exact ⟨h1, fun j hj => by rw [h0 j (by omega) hj]⟩

theorem firstTrue_none {α : Type} (p : α → Bool) (l : List α) (h : ∀ i : Nat, ∀ hi : i < l.length, p l[i] = false) : firstTrue p l = 0 := by
  unfold firstTrue
  split_ifs with ha
  · obtain ⟨x, hx, hp⟩ := List.any_eq_true.1 ha
    obtain ⟨i, hi, rfl⟩ := List.getElem_of_mem hx
    rw [h i hi] at hp
    cases hp
  · rfl

/-! ## Specification -/

/-- A usual observation: samples at a constant interval, whole sub-bands, and some of each. -/
structure Usual (x : DreamCall) : Prop where
  some_time : 0 < x.n
  some_freq : 0 < x.nf
  channels : 0 < x.nch
  whole : x.nf % x.nch = 0
  positive : 0 < x.dt
  regular : ∀ k : Nat, x.time k = x.time 0 + k * x.dt

/-- The sub-bands are those of ranks `k0`, `k0 + 1`, … in the list of frequencies of the matrices: the channel which begins each of them is
above the frequency before and not above its own. -/
structure OnGrid (x : DreamCall) (k0 : Nat) : Prop where
  sorted : x.dbFreq.Pairwise (· < ·)
  positive : 0 < k0
  within : k0 + x.nf / x.nch ≤ x.dbFreq.length
  above : ∀ j : Nat, j < x.nf / x.nch → x.dbFreq.getD (k0 + j - 1) 0 < x.freq (j * x.nch)
  upto : ∀ j : Nat, j < x.nf / x.nch → x.freq (j * x.nch) ≤ x.dbFreq.getD (k0 + j) 0

/-! ## Ranks which are used -/

theorem subbands_pos (x : DreamCall) (h : Usual x) : 0 < x.nf / x.nch := by
  have h1 := Nat.div_add_mod x.nf x.nch
  have h2 := h.whole
  have h3 := h.some_freq
  rcases Nat.eq_zero_or_pos (x.nf / x.nch) with h0 | h0
  · rw [h0, h2] at h1
    omega
  · exact h0

theorem cols_start (l : List ℚ) (hs : l.Pairwise (· < ·)) (f : ℚ) (k : Nat) (h0 : 0 < k) (hk : k < l.length) (h1 : l.getD (k - 1) 0 < f) (h2 : f ≤ l.getD k 0) :
    firstTrue (fun g => decide (f ≤ g)) l = k := by
  rw [List.getD_eq_getElem _ _ (by omega)] at h1
  rw [List.getD_eq_getElem _ _ hk] at h2
  refine firstTrue_of _ l k hk (fun i hi hik => ?_) (decide_eq_true h2)
  refine decide_eq_false (not_le.2 ?_)
  rcases Nat.lt_or_ge i (k - 1) with h | h
  · exact lt_trans (List.pairwise_iff_getElem.1 hs i (k - 1) hi (by omega) h) h1
  · have : i = k - 1 := by omega
    subst this
    exact h1

theorem cols_stop (l : List ℚ) (hs : l.Pairwise (· < ·)) (f : ℚ) (k : Nat) (h0 : 0 < k) (hk : k < l.length) (h1 : l.getD (k - 1) 0 < f) (h2 : f ≤ l.getD k 0) :
    firstTrue (fun g => decide (g < f)) l.reverse = l.length - k := by
  rw [List.getD_eq_getElem _ _ (by omega)] at h1
  rw [List.getD_eq_getElem _ _ hk] at h2
  refine firstTrue_of _ l.reverse (l.length - k) (by rw [List.length_reverse]; omega) (fun i hi hik => ?_) ?_
  · rw [List.getElem_reverse]
    rw [List.length_reverse] at hi
    refine decide_eq_false (not_lt.2 (le_trans h2 ?_))
    rcases Nat.lt_or_ge k (l.length - 1 - i) with h | h
    · exact le_of_lt (List.pairwise_iff_getElem.1 hs k (l.length - 1 - i) hk (by omega) h)
    · have : l.length - 1 - i = k := by omega
      exact le_of_eq (by congr 1; exact this.symm)
  · rw [List.getElem_reverse]
    refine decide_eq_true ?_
    have : l[l.length - 1 - (l.length - k)]'(by omega) = l[k - 1]'(by omega) := by congr 1; omega
    rw [this]
    exact h1

/-- The columns which are used when the first and the last sub-bands begin at the ranks `k0` and `k1`. -/
theorem cols_between (x : DreamCall) (grp : Nat × Nat × Nat) (db : List ℚ) (k0 k1 : Nat) (hs : x.dbFreq.Pairwise (· < ·)) (h0 : 0 < k0) (h1 : 0 < k1)
    (hk0 : k0 < x.dbFreq.length) (hk1 : k1 < x.dbFreq.length)
    (ha : x.dbFreq.getD (k0 - 1) 0 < x.freq 0 ∧ x.freq 0 ≤ x.dbFreq.getD k0 0)
    (hb : x.dbFreq.getD (k1 - 1) 0 < x.freq ((x.nf / x.nch - 1) * x.nch) ∧ x.freq ((x.nf / x.nch - 1) * x.nch) ≤ x.dbFreq.getD k1 0) :
    (dreamRanks x grp db).col0 = k0 ∧ (dreamRanks x grp db).cols = k1 + 1 - k0 := by
  have e0 := cols_start x.dbFreq hs _ k0 h0 hk0 ha.1 ha.2
  have e1 := cols_stop x.dbFreq hs _ k1 h1 hk1 hb.1 hb.2
  refine ⟨e0, ?_⟩
  show min x.dbFreq.length (x.dbFreq.length - _ + 1) - _ = _
  rw [e0, e1]
  omega

theorem cols_grid (x : DreamCall) (hx : Usual x) (k0 : Nat) (hg : OnGrid x k0) (grp : Nat × Nat × Nat) (db : List ℚ) :
    (dreamRanks x grp db).col0 = k0 ∧ (dreamRanks x grp db).cols = x.nf / x.nch := by
  have hp := subbands_pos x hx
  have hw := hg.within
  have h0 := hg.positive
  have a0 := hg.above 0 hp
  have a1 := hg.upto 0 hp
  rw [Nat.zero_mul] at a0 a1
  have b0 := hg.above (x.nf / x.nch - 1) (by omega)
  have b1 := hg.upto (x.nf / x.nch - 1) (by omega)
  have := cols_between x grp db k0 (k0 + (x.nf / x.nch - 1)) hg.sorted h0 (by omega) (by omega) (by omega) ⟨a0, a1⟩ ⟨b0, b1⟩
  exact ⟨this.1, by rw [this.2]; omega⟩

/-! ## Times of the matrices -/

/-- Whole seconds of the step, without its days: what divides the duration. -/
def wholeSec (step : ℚ) : Int := Astro.secondsOf (micro step)

theorem micro_near (x : ℚ) : |(micro x : ℚ) - x * 1000000| ≤ 1 / 2 := rint_near _

theorem micro_int (x : ℚ) (k : Int) (h : x = (k : ℚ) / 1000000) : micro x = k := by
  unfold micro
  rw [h, div_mul_cancel₀ _ (by norm_num)]
  exact rint_int k

/-- A step above one second and below one day has some whole seconds. -/
theorem sec_pos (step : ℚ) (h1 : 1 < step) (h2 : step < 86399) : 1 ≤ wholeSec step ∧ wholeSec step * 1000000 ≤ micro step ∧ micro step < (wholeSec step + 1) * 1000000 := by
  have h := abs_le.1 (micro_near step)
  have ha : (999999 : Int) < micro step := by
    have : ((999999 : Int) : ℚ) < (micro step : ℚ) := by push_cast; linarith [h.1]
    exact_mod_cast this
  have hb : micro step < 86400000000 := by
    have : (micro step : ℚ) < ((86400000000 : Int) : ℚ) := by push_cast; linarith [h.2]
    exact_mod_cast this
  unfold wholeSec Astro.secondsOf
  omega

/-- Number of the matrices, less one. -/
def lastRank (step dur : ℚ) : Nat := (micro dur / (wholeSec step * 1000000)).toNat

theorem dream_times (t0 step dur : ℚ) (h1 : 1 < step) (h2 : step < 86399) (hd : 0 ≤ dur) :
    dreamTimes t0 step dur = .ok ((List.range (lastRank step dur + 1)).map fun i : Nat => ((micro t0 + (i : Int) * micro step : Int) : ℚ) / 1000000) := by
  obtain ⟨hp, -, -⟩ := sec_pos step h1 h2
  have hm : 0 ≤ micro dur := by
    have h := (abs_le.1 (micro_near dur)).1
    have : ((-1 : Int) : ℚ) < (micro dur : ℚ) := by push_cast; linarith
    have : (-1 : Int) < micro dur := by exact_mod_cast this
    omega
  unfold dreamTimes
  rw [if_neg (not_le.2 h1)]
  unfold Astro.matrixCount
  rw [if_neg (show ¬ Astro.secondsOf (micro step) = 0 by have := hp; unfold wholeSec at this; omega)]
  show Except.ok ((List.range (Int.tdiv (micro dur) (Astro.secondsOf (micro step) * 1000000) + 1).toNat).map _) = _
  unfold lastRank
  have e : Int.tdiv (micro dur) (Astro.secondsOf (micro step) * 1000000) = micro dur / (wholeSec step * 1000000) := Int.tdiv_eq_ediv_of_nonneg hm
  have hq : 0 ≤ micro dur / (wholeSec step * 1000000) := Int.ediv_nonneg hm (by omega)
  rw [e, show (micro dur / (wholeSec step * 1000000) + 1).toNat = (micro dur / (wholeSec step * 1000000)).toNat + 1 by omega]

/-- There is at least one matrix for each group, when the step is not below its whole seconds. -/
theorem rank_enough (step dt : ℚ) (m n : Nat) (g : Nat) (hs : step = g * dt) (h1 : 1 < step) (h2 : step < 86399) (hf : (wholeSec step : ℚ) ≤ step) (hdt : 0 < dt)
    (hm : 0 < m) (hn : m * g ≤ n) (hg : 0 < g) : m ≤ lastRank step ((n - 1 : Nat) * dt) + 1 := by
  obtain ⟨hp, -, -⟩ := sec_pos step h1 h2
  have hn1 : 1 ≤ n := le_trans (Nat.mul_pos hm hg) hn
  have hdur : ((m - 1 : Nat) : ℚ) * step ≤ (n - 1 : Nat) * dt := by
    rw [hs, ← mul_assoc]
    refine mul_le_mul_of_nonneg_right ?_ hdt.le
    have : (m - 1) * g ≤ n - 1 := by
      have : (m - 1) * g + g ≤ n := by
        rw [← Nat.succ_mul]
        have : (m - 1).succ = m := by omega
        rw [this]
        exact hn
      omega
    exact_mod_cast this
  have hlow := (abs_le.1 (micro_near ((n - 1 : Nat) * dt))).1
  have hw : ((m - 1 : Nat) : ℚ) * (wholeSec step : ℚ) ≤ (n - 1 : Nat) * dt := le_trans (mul_le_mul_of_nonneg_left hf (Nat.cast_nonneg _)) hdur
  have hi : ((m - 1 : Nat) : Int) * (wholeSec step * 1000000) ≤ micro ((n - 1 : Nat) * dt) := by
    have : ((((m - 1 : Nat) : Int) * (wholeSec step * 1000000) - 1 : Int) : ℚ) < (micro ((n - 1 : Nat) * dt) : ℚ) := by
      push_cast
      linarith
    have : ((m - 1 : Nat) : Int) * (wholeSec step * 1000000) - 1 < micro ((n - 1 : Nat) * dt) := by exact_mod_cast this
    omega
  unfold lastRank
  have := (Int.le_ediv_iff_mul_le (show 0 < wholeSec step * 1000000 by omega)).2 hi
  omega

/-! ## Groups -/

theorem along_lt (k i : Nat) (h : i < k) : along k i = i := by
  unfold along
  split_ifs with h1
  · omega
  · rfl

/-- The step between the matrices. -/
def stepOf (x : DreamCall) (g : Nat) : ℚ := g * x.dt

/-- Duration from the first to the last sample. -/
def durOf (x : DreamCall) : ℚ := (x.n - 1 : Nat) * x.dt

/-- The times of the matrices. -/
def timesOf (x : DreamCall) (g : Nat) : List ℚ :=
  (List.range (lastRank (stepOf x g) (durOf x) + 1)).map fun i : Nat => ((micro (x.time 0) + (i : Int) * micro (stepOf x g) : Int) : ℚ) / 1000000

theorem plan_ok (x : DreamCall) (hx : Usual x) (m g r : Nat) (hg : timeGroups x.n x.dt x.calib = .ok (m, g, r)) (h1 : 1 < stepOf x g) (h2 : stepOf x g < 86399) :
    dreamPlan x = .ok (dreamRanks x (m, g, r) (timesOf x g)) := by
  have hsub : subbandsOk x.nf x.nch = .ok () := by
    unfold subbandsOk
    rw [if_neg (by have := hx.channels; omega), if_neg (by rw [hx.whole]; simp)]
  have hdur : x.time (x.n - 1) - x.time 0 = durOf x := by
    rw [hx.regular (x.n - 1)]
    unfold durOf
    ring
  have hnn : 0 ≤ durOf x := mul_nonneg (Nat.cast_nonneg _) hx.positive.le
  unfold dreamPlan
  rw [hsub, hg]
  show (if x.n = 0 then _ else (dreamTimes (x.time 0) (stepOf x g) (x.time (x.n - 1) - x.time 0)).bind _) = _
  rw [if_neg (by have := hx.some_time; omega), hdur, dream_times _ _ _ h1 h2 hnn]
  show (if x.nf = 0 then _ else _) = _
  rw [if_neg (by have := hx.some_freq; omega)]
  rfl

theorem times_length (x : DreamCall) (g : Nat) : (timesOf x g).length = lastRank (stepOf x g) (durOf x) + 1 := by
  unfold timesOf
  rw [List.length_map, List.length_range]

theorem times_get (x : DreamCall) (g i : Nat) (h : i < (timesOf x g).length) :
    (timesOf x g)[i] = ((micro (x.time 0) + (i : Int) * micro (stepOf x g) : Int) : ℚ) / 1000000 := by
  have h' := h
  rw [times_length] at h'
  have e : (timesOf x g)[i]? = some (((micro (x.time 0) + (i : Int) * micro (stepOf x g) : Int) : ℚ) / 1000000) := by
    unfold timesOf
    rw [List.getElem?_map, List.getElem?_range h']
    rfl
  rw [List.getElem?_eq_getElem h] at e
  exact Option.some.inj e

/-- The first matrix is used when its time, in whole microseconds, is not before the first sample. -/
theorem rows_first (x : DreamCall) (m g r : Nat) (ht : x.time 0 ≤ (micro (x.time 0) : ℚ) / 1000000) (hm : m ≤ lastRank (stepOf x g) (durOf x) + 1) :
    (dreamRanks x (m, g, r) (timesOf x g)).row0 = 0 ∧ (dreamRanks x (m, g, r) (timesOf x g)).rows = m := by
  have hl := times_length x g
  have e : firstTrue (fun t => decide (x.time 0 ≤ t)) (timesOf x g) = 0 := by
    refine firstTrue_of _ _ 0 (by omega) (fun i hi h => by omega) (decide_eq_true ?_)
    rw [times_get]
    simpa using ht
  refine ⟨e, ?_⟩
  show min (timesOf x g).length (firstTrue (fun t => decide (x.time 0 ≤ t)) (timesOf x g) + m) - firstTrue (fun t => decide (x.time 0 ≤ t)) (timesOf x g) = m
  rw [e, hl]
  omega

/-- Otherwise the second one. -/
theorem rows_second (x : DreamCall) (m g r : Nat) (ht : (micro (x.time 0) : ℚ) / 1000000 < x.time 0) (h1 : 1 < stepOf x g)
    (hl : 0 < lastRank (stepOf x g) (durOf x)) :
    (dreamRanks x (m, g, r) (timesOf x g)).row0 = 1 ∧
      (dreamRanks x (m, g, r) (timesOf x g)).rows = min (lastRank (stepOf x g) (durOf x)) m := by
  have hlen := times_length x g
  have e : firstTrue (fun t => decide (x.time 0 ≤ t)) (timesOf x g) = 1 := by
    refine firstTrue_of _ _ 1 (by omega) (fun i hi h => decide_eq_false (not_le.2 ?_)) (decide_eq_true ?_)
    · have : i = 0 := by omega
      subst this
      rw [times_get]
      simpa using ht
    · rw [times_get]
      have ha := (abs_le.1 (micro_near (x.time 0))).1
      have hb := (abs_le.1 (micro_near (stepOf x g))).1
      push_cast
      rw [le_div_iff₀ (by norm_num)]
      linarith
  refine ⟨e, ?_⟩
  show min (timesOf x g).length (firstTrue (fun t => decide (x.time 0 ≤ t)) (timesOf x g) + m) - firstTrue (fun t => decide (x.time 0 ≤ t)) (timesOf x g) = _
  rw [e, hlen]
  omega

theorem apply_ok (x : DreamCall) (J : Nat → Nat → M2) (p : DreamPlan) (data : Nat → Nat → M2)
    (hi : ∀ i j : Nat, i < p.rows → j < p.cols → (J (p.row0 + i) (p.col0 + j)).det ≠ 0)
    (hr : p.rows = p.groups ∨ p.rows = 1) (hc : p.cols = x.nf / x.nch) :
    ∃ out, dreamApply x J p data = .ok out ∧
      (∀ t c : Nat, t < x.n - p.left → out t c = applyJones (J (p.row0 + along p.rows (t / p.size)) (p.col0 + along p.cols (c / x.nch))).inv (data t c)) ∧
      (∀ t c : Nat, ¬ t < x.n - p.left → out t c = applyJones (leftMatrix J p (c / x.nch)) (data t c)) := by
  unfold dreamApply
  rw [if_neg (by rintro ⟨i, j, h1, h2, h⟩; exact hi i j h1 h2 h), if_pos ⟨hr, Or.inl hc⟩]
  refine ⟨_, rfl, fun t c ht => ?_, fun t c ht => ?_⟩
  · show applyJones (if _ then _ else _) _ = _
    rw [if_pos ht]
  · show applyJones (if _ then _ else _) _ = _
    rw [if_neg ht]

/-- The group of a sample. -/
theorem group_of (n m g r t : Nat) (h : m * g + r = n) (ht : t < m * g) : t < n - r ∧ t / g < m := by
  refine ⟨by omega, ?_⟩
  exact Nat.div_lt_of_lt_mul (by rw [Nat.mul_comm]; exact ht)

theorem band_of (x : DreamCall) (hx : Usual x) (c : Nat) (hc : c < x.nf) : c / x.nch < x.nf / x.nch := by
  refine Nat.div_lt_of_lt_mul ?_
  have h1 := Nat.div_add_mod x.nf x.nch
  have h2 := hx.whole
  omega

/-- A setting in which the matrices of the groups are found: the step is above one second, below a day and not below its whole seconds. -/
structure Setting (x : DreamCall) (m g r : Nat) : Prop where
  usual : Usual x
  groups : timeGroups x.n x.dt x.calib = .ok (m, g, r)
  above : 1 < stepOf x g
  below : stepOf x g < 86399
  seconds : (wholeSec (stepOf x g) : ℚ) ≤ stepOf x g

theorem setting_rows (x : DreamCall) (m g r : Nat) (h : Setting x m g r) : m ≤ lastRank (stepOf x g) (durOf x) + 1 := by
  obtain ⟨hcov, hrg, hm⟩ := time_groups_cover x.n x.dt x.calib m g r h.groups h.usual.some_time
  exact rank_enough (stepOf x g) x.dt m x.n g rfl h.above h.below h.seconds h.usual.positive hm (by omega) (by omega)

/-- All that is done when the first sample is on the clock of the matrices. -/
theorem on_time (x : DreamCall) (m g r k0 : Nat) (h : Setting x m g r) (hgrid : OnGrid x k0) (ht : x.time 0 ≤ (micro (x.time 0) : ℚ) / 1000000)
    (J : Nat → Nat → M2) (hi : ∀ i j : Nat, i < m → j < x.nf / x.nch → (J i (k0 + j)).det ≠ 0) (data : Nat → Nat → M2) :
    ∃ out, dreamCorrect x J data = .ok out ∧
      (∀ t c : Nat, t < m * g → c < x.nf → out t c = applyJones (J (t / g) (k0 + c / x.nch)).inv (data t c)) ∧
      (∀ t c : Nat, m * g ≤ t → t < x.n → c < x.nf → out t c = applyJones (leftMatrix J (dreamRanks x (m, g, r) (timesOf x g)) (c / x.nch)) (data t c)) := by
  have hx := h.usual
  obtain ⟨hcov, hrg, hm⟩ := time_groups_cover x.n x.dt x.calib m g r h.groups hx.some_time
  obtain ⟨hr0, hrows⟩ := rows_first x m g r ht (setting_rows x m g r h)
  obtain ⟨hc0, hcols⟩ := cols_grid x hx k0 hgrid (m, g, r) (timesOf x g)
  obtain ⟨out, ho, hgo, hlo⟩ := apply_ok x J (dreamRanks x (m, g, r) (timesOf x g)) data
    (fun i j h1 h2 => by
      rw [hr0, hc0, Nat.zero_add]
      rw [hrows] at h1
      rw [hcols] at h2
      exact hi i j h1 h2) (Or.inl hrows) hcols
  refine ⟨out, ?_, fun t c htc hc => ?_, fun t c htc htn hc => ?_⟩
  · unfold dreamCorrect
    rw [plan_ok x hx m g r h.groups h.above h.below]
    exact ho
  · obtain ⟨ha, hb⟩ := group_of x.n m g r t hcov htc
    rw [hgo t c ha, hr0, hc0, hrows, hcols, along_lt _ _ (band_of x hx c hc), Nat.zero_add]
    show applyJones (J (along m (t / g)) (k0 + c / x.nch)).inv (data t c) = _
    rw [along_lt _ _ hb]
  · exact hlo t c (by show ¬ t < x.n - r; omega)

/-- **C163** Correction of the groups: when the first sample is not after its time in whole microseconds and the sub-bands follow each other on the
frequencies of the matrices, data which went through the matrix of their group and sub-band come back exact.
(`_partial`: for the samples of the groups only, and under these conditions.) -/
theorem dream_groups_partial (x : DreamCall) (m g r k0 : Nat) (h : Setting x m g r) (hgrid : OnGrid x k0) (ht : x.time 0 ≤ (micro (x.time 0) : ℚ) / 1000000)
    (J : Nat → Nat → M2) (hi : ∀ i j : Nat, i < m → j < x.nf / x.nch → (J i (k0 + j)).det ≠ 0) (data sky : Nat → Nat → M2)
    (hd : ∀ t c : Nat, t < m * g → c < x.nf → data t c = applyJones (J (t / g) (k0 + c / x.nch)) (sky t c)) :
    ∃ out, dreamCorrect x J data = .ok out ∧ ∀ t c : Nat, t < m * g → c < x.nf → out t c = sky t c := by
  obtain ⟨hcov, hrg, hm⟩ := time_groups_cover x.n x.dt x.calib m g r h.groups h.usual.some_time
  obtain ⟨out, ho, hgo, -⟩ := on_time x m g r k0 h hgrid ht J hi data
  refine ⟨out, ho, fun t c htc hc => ?_⟩
  obtain ⟨-, hb⟩ := group_of x.n m g r t hcov htc
  rw [hgo t c htc hc, hd t c htc hc]
  exact jones_undone _ _ (hi _ _ hb (band_of x h.usual c hc))

/-! ## Samples left over -/

theorem left_matrix (x : DreamCall) (m g r k0 : Nat) (hx : Usual x) (hgrid : OnGrid x k0) (J : Nat → Nat → M2) (c : Nat) (hc : c < x.nf) :
    ((∀ j : Nat, j < x.nf / x.nch → (J (lastRank (stepOf x g) (durOf x)) (k0 + j)).det ≠ 0) →
      leftMatrix J (dreamRanks x (m, g, r) (timesOf x g)) (c / x.nch) = (J (lastRank (stepOf x g) (durOf x)) (k0 + c / x.nch)).inv) ∧
    (∀ j : Nat, j < x.nf / x.nch → (J (lastRank (stepOf x g) (durOf x)) (k0 + j)).det = 0 →
      leftMatrix J (dreamRanks x (m, g, r) (timesOf x g)) (c / x.nch) = M2.one) := by
  obtain ⟨hc0, hcols⟩ := cols_grid x hx k0 hgrid (m, g, r) (timesOf x g)
  have hl : (dreamRanks x (m, g, r) (timesOf x g)).last = lastRank (stepOf x g) (durOf x) := by
    show (timesOf x g).length - 1 = _
    rw [times_length]
    rfl
  unfold leftMatrix
  rw [hc0, hcols, hl]
  refine ⟨fun h => ?_, fun j hj h => ?_⟩
  · rw [if_neg (by rintro ⟨i, hi, h0⟩; exact h i hi h0), along_lt _ _ (band_of x hx c hc)]
  · rw [if_pos ⟨j, hj, h⟩]

/-- With a step of whole seconds, the number of steps in the duration is that of the groups if samples are left over, and one less if none is. -/
theorem rank_whole (x : DreamCall) (m g r : Nat) (h : Setting x m g r) (s : Int) (hs : stepOf x g = s) (hdt : 1 / 1000000 ≤ x.dt) :
    lastRank (stepOf x g) (durOf x) = if r = 0 then m - 1 else m := by
  obtain ⟨hcov, hrg, hm⟩ := time_groups_cover x.n x.dt x.calib m g r h.groups h.usual.some_time
  have h1 := h.above
  have h2 := h.below
  rw [hs] at h1 h2
  have h1' : 1 < s := by exact_mod_cast h1
  have h2' : s < 86399 := by exact_mod_cast h2
  have hmic : micro (stepOf x g) = s * 1000000 := micro_int _ _ (by rw [hs]; push_cast; ring)
  have hw : wholeSec (stepOf x g) = s := by
    unfold wholeSec Astro.secondsOf
    rw [hmic]
    omega
  have hgs : (g : ℚ) * x.dt = s := hs
  have hnear := abs_le.1 (micro_near (durOf x))
  have hdurle : durOf x + x.dt ≤ (m + 1) * (s : ℚ) - (if r = 0 then (s : ℚ) else x.dt) := by
    unfold durOf
    have e : ((x.n - 1 : Nat) : ℚ) = m * g + r - 1 := by
      have := h.usual.some_time
      rw [Nat.cast_sub (by omega), ← hcov]
      push_cast
      ring
    rw [e]
    split_ifs with h0
    · subst h0
      push_cast
      nlinarith
    · have : (r : ℚ) + 1 ≤ g := by exact_mod_cast hrg
      have : ((r : ℚ) + 1) * x.dt ≤ g * x.dt := mul_le_mul_of_nonneg_right this h.usual.positive.le
      nlinarith
  have hdurge : ((if r = 0 then m - 1 else m : Nat) : ℚ) * s ≤ durOf x := by
    unfold durOf
    rw [← hgs, ← mul_assoc]
    refine mul_le_mul_of_nonneg_right ?_ h.usual.positive.le
    have : (if r = 0 then m - 1 else m) * g ≤ x.n - 1 := by
      split_ifs with h0
      · have : (m - 1) * g + g = m * g := by
          rw [← Nat.succ_mul]
          congr 1
          omega
        omega
      · omega
    exact_mod_cast this
  unfold lastRank
  rw [hw]
  generalize durOf x = d at *
  have hlo : (((if r = 0 then m - 1 else m : Nat) : Int) * (s * 1000000) - 1 : Int) < micro d := by
    have : (((((if r = 0 then m - 1 else m : Nat) : Int) * (s * 1000000) - 1 : Int)) : ℚ) < (micro d : ℚ) := by
      push_cast
      push_cast at hdurge
      linarith [hnear.1]
    exact_mod_cast this
  have hhi : micro d < (((if r = 0 then m - 1 else m : Nat) : Int) + 1) * (s * 1000000) := by
    have : (micro d : ℚ) < ((((if r = 0 then m - 1 else m : Nat) : Int) + 1) * (s * 1000000) : Int) := by
      split_ifs at hdurle ⊢ with h0
      · have : ((m - 1 : Nat) : ℚ) = m - 1 := by rw [Nat.cast_sub (by omega)]; norm_num
        push_cast
        rw [this]
        nlinarith [hnear.2]
      · push_cast
        nlinarith [hnear.2]
    exact_mod_cast this
  have hq : micro d / (s * 1000000) = ((if r = 0 then m - 1 else m : Nat) : Int) := by
    refine le_antisymm (Int.lt_add_one_iff.1 ((Int.ediv_lt_iff_lt_mul (by omega)).2 hhi)) ((Int.le_ediv_iff_mul_le (by omega)).2 (by omega))
  rw [hq]
  exact Int.toNat_natCast _

/-- **C163** With a step of whole seconds, the samples left over come back exact too if they went through the matrix of the group which they begin. -/
theorem dream_left_partial (x : DreamCall) (m g r k0 : Nat) (h : Setting x m g r) (hgrid : OnGrid x k0) (ht : x.time 0 ≤ (micro (x.time 0) : ℚ) / 1000000)
    (s : Int) (hs : stepOf x g = s) (hdt : 1 / 1000000 ≤ x.dt)
    (J : Nat → Nat → M2) (hi : ∀ i j : Nat, i ≤ m → j < x.nf / x.nch → (J i (k0 + j)).det ≠ 0) (data sky : Nat → Nat → M2)
    (hd : ∀ t c : Nat, t < x.n → c < x.nf → data t c = applyJones (J (t / g) (k0 + c / x.nch)) (sky t c)) :
    ∃ out, dreamCorrect x J data = .ok out ∧ ∀ t c : Nat, t < x.n → c < x.nf → out t c = sky t c := by
  obtain ⟨hcov, hrg, hm⟩ := time_groups_cover x.n x.dt x.calib m g r h.groups h.usual.some_time
  obtain ⟨out, ho, hgo, hlo⟩ := on_time x m g r k0 h hgrid ht J (fun i j h1 h2 => hi i j (by omega) h2) data
  refine ⟨out, ho, fun t c htc hc => ?_⟩
  have hb := band_of x h.usual c hc
  rcases Nat.lt_or_ge t (m * g) with h1 | h1
  · obtain ⟨-, hb'⟩ := group_of x.n m g r t hcov h1
    rw [hgo t c h1 hc, hd t c htc hc]
    exact jones_undone _ _ (hi _ _ (by omega) hb)
  · have hr : r ≠ 0 := by omega
    have hL : lastRank (stepOf x g) (durOf x) = m := by rw [rank_whole x m g r h s hs hdt, if_neg hr]
    have htg : t / g = m := by
      refine Nat.div_eq_of_lt_le h1 ?_
      rw [Nat.succ_mul]
      omega
    have := (left_matrix x m g r k0 h.usual hgrid J c hc).1 (fun j hj => by rw [hL]; exact hi m j (le_refl _) hj)
    rw [hlo t c h1 htc hc, this, hL, hd t c htc hc, htg]
    exact jones_undone _ _ (hi _ _ (le_refl _) hb)

/-- **C163** With a step which is not of whole seconds, the matrix of the samples left over is computed for a time after the last sample, by as many steps as one wants
for a long enough observation. -/
theorem dream_late_violated (x : DreamCall) (m g r k0 K : Nat) (h : Setting x m g r) (hgrid : OnGrid x k0) (ht : x.time 0 ≤ (micro (x.time 0) : ℚ) / 1000000)
    (hlong : (K + 2) * ((wholeSec (stepOf x g) : ℚ) * stepOf x g) ≤ durOf x * (stepOf x g - wholeSec (stepOf x g)))
    (J : Nat → Nat → M2) (hi : ∀ i j : Nat, (J i j).det ≠ 0) (data : Nat → Nat → M2) :
    ∃ (out : Nat → Nat → M2) (L : Nat), dreamCorrect x J data = .ok out ∧ durOf x + K * stepOf x g ≤ (L : ℚ) * stepOf x g ∧
      ∀ t c : Nat, m * g ≤ t → t < x.n → c < x.nf → out t c = applyJones (J L (k0 + c / x.nch)).inv (data t c) := by
  obtain ⟨out, ho, -, hlo⟩ := on_time x m g r k0 h hgrid ht J (fun i j _ _ => hi i _) data
  refine ⟨out, lastRank (stepOf x g) (durOf x), ho, ?_, fun t c h1 h2 hc => ?_⟩
  · obtain ⟨hp, -, -⟩ := sec_pos _ h.above h.below
    have hd0 : 0 ≤ durOf x := mul_nonneg (Nat.cast_nonneg _) h.usual.positive.le
    have hnear := (abs_le.1 (micro_near (durOf x))).1
    have hs := h.above
    generalize stepOf x g = st at *
    generalize durOf x = d at *
    have hL : (micro d : ℚ) < ((lastRank st d : ℚ) + 1) * (wholeSec st * 1000000) := by
      have h1 : micro d < (micro d / (wholeSec st * 1000000) + 1) * (wholeSec st * 1000000) := Int.lt_ediv_add_one_mul_self _ (by omega)
      have h2 : micro d / (wholeSec st * 1000000) ≤ (lastRank st d : Int) := Int.self_le_toNat _
      have h3 : micro d < ((lastRank st d : Int) + 1) * (wholeSec st * 1000000) :=
        lt_of_lt_of_le h1 (mul_le_mul_of_nonneg_right (by omega) (by omega))
      exact_mod_cast h3
    have hp' : (1 : ℚ) ≤ (wholeSec st : ℚ) := by exact_mod_cast hp
    generalize (wholeSec st : ℚ) = w at *
    generalize (lastRank st d : ℚ) = L at *
    have hd : d < (L + 2) * w := by nlinarith
    have e1 : d * st < (L + 2) * w * st := mul_lt_mul_of_pos_right hd (by linarith)
    have e2 : (d + K * st) * w ≤ L * st * w := by nlinarith
    exact le_of_mul_le_mul_right e2 (by linarith)
  · rw [hlo t c h1 h2 hc, (left_matrix x m g r k0 h.usual hgrid J c hc).1 fun j _ => hi _ _]

/-- **C163** One matrix of the last time without an inverse leaves all the samples left over uncorrected, in all sub-bands. -/
theorem dream_singular_violated (x : DreamCall) (m g r k0 : Nat) (h : Setting x m g r) (hgrid : OnGrid x k0) (ht : x.time 0 ≤ (micro (x.time 0) : ℚ) / 1000000)
    (J : Nat → Nat → M2) (hi : ∀ i j : Nat, i < m → j < x.nf / x.nch → (J i (k0 + j)).det ≠ 0) (data : Nat → Nat → M2)
    (j : Nat) (hj : j < x.nf / x.nch) (hz : (J (lastRank (stepOf x g) (durOf x)) (k0 + j)).det = 0) :
    ∃ out, dreamCorrect x J data = .ok out ∧ ∀ t c : Nat, m * g ≤ t → t < x.n → c < x.nf → out t c = data t c := by
  obtain ⟨out, ho, -, hlo⟩ := on_time x m g r k0 h hgrid ht J hi data
  refine ⟨out, ho, fun t c h1 h2 hc => ?_⟩
  rw [hlo t c h1 h2 hc, (left_matrix x m g r k0 h.usual hgrid J c hc).2 j hj hz]
  unfold applyJones M2.mul M2.one
  ext <;> simp

/-- **C163** A matrix without an inverse among those of the groups and sub-bands is refused with a linear algebra error, whatever the data. -/
theorem dream_singular_refused (x : DreamCall) (m g r k0 : Nat) (h : Setting x m g r) (hgrid : OnGrid x k0) (ht : x.time 0 ≤ (micro (x.time 0) : ℚ) / 1000000)
    (J : Nat → Nat → M2) (i j : Nat) (hi : i < m) (hj : j < x.nf / x.nch) (hz : (J i (k0 + j)).det = 0) (data : Nat → Nat → M2) :
    dreamCorrect x J data = .error .exception := by
  obtain ⟨hr0, hrows⟩ := rows_first x m g r ht (setting_rows x m g r h)
  obtain ⟨hc0, hcols⟩ := cols_grid x h.usual k0 hgrid (m, g, r) (timesOf x g)
  unfold dreamCorrect
  rw [plan_ok x h.usual m g r h.groups h.above h.below]
  show dreamApply x J _ data = _
  unfold dreamApply
  rw [if_pos]
  refine ⟨i, j, ?_, ?_, ?_⟩
  · rw [hrows]; exact hi
  · rw [hcols]; exact hj
  · rw [hr0, hc0, Nat.zero_add]; exact hz

/-! ## Start between two microseconds -/

/-- **C163** When the time of the first sample is rounded down to microseconds, each group is corrected with the matrix of the next group, if there is one more. -/
theorem dream_shift_violated (x : DreamCall) (m g r k0 : Nat) (h : Setting x m g r) (hgrid : OnGrid x k0) (ht : (micro (x.time 0) : ℚ) / 1000000 < x.time 0)
    (hm : m ≤ lastRank (stepOf x g) (durOf x)) (J : Nat → Nat → M2) (hi : ∀ i j : Nat, (J i j).det ≠ 0) (data : Nat → Nat → M2) :
    ∃ out, dreamCorrect x J data = .ok out ∧
      ∀ t c : Nat, t < m * g → c < x.nf → out t c = applyJones (J (t / g + 1) (k0 + c / x.nch)).inv (data t c) := by
  have hx := h.usual
  obtain ⟨hcov, hrg, hm0⟩ := time_groups_cover x.n x.dt x.calib m g r h.groups hx.some_time
  obtain ⟨hr0, hrows⟩ := rows_second x m g r ht h.above (by omega)
  rw [Nat.min_eq_right hm] at hrows
  obtain ⟨hc0, hcols⟩ := cols_grid x hx k0 hgrid (m, g, r) (timesOf x g)
  obtain ⟨out, ho, hgo, -⟩ := apply_ok x J (dreamRanks x (m, g, r) (timesOf x g)) data (fun i j _ _ => hi _ _) (Or.inl hrows) hcols
  refine ⟨out, ?_, fun t c htc hc => ?_⟩
  · unfold dreamCorrect
    rw [plan_ok x hx m g r h.groups h.above h.below]
    exact ho
  · obtain ⟨ha, hb⟩ := group_of x.n m g r t hcov htc
    rw [hgo t c ha, hr0, hc0, hrows, hcols, along_lt _ _ (band_of x hx c hc)]
    show applyJones (J (1 + along m (t / g)) (k0 + c / x.nch)).inv (data t c) = _
    rw [along_lt _ _ hb, Nat.add_comm]

/-- **C163** With a step of whole seconds and no sample left over there is none more: three groups or more are refused. -/
theorem dream_start_refused_violated (x : DreamCall) (m g : Nat) (h : Setting x m g 0) (ht : (micro (x.time 0) : ℚ) / 1000000 < x.time 0)
    (s : Int) (hs : stepOf x g = s) (hdt : 1 / 1000000 ≤ x.dt) (hm : 3 ≤ m) (J : Nat → Nat → M2) (hi : ∀ i j : Nat, (J i j).det ≠ 0) (data : Nat → Nat → M2) :
    dreamCorrect x J data = .error .valueError := by
  have hL := rank_whole x m g 0 h s hs hdt
  rw [if_pos rfl] at hL
  obtain ⟨hr0, hrows⟩ := rows_second x m g 0 ht h.above (by omega)
  rw [hL] at hrows
  unfold dreamCorrect
  rw [plan_ok x h.usual m g 0 h.groups h.above h.below]
  show dreamApply x J _ data = _
  unfold dreamApply
  rw [if_neg (by rintro ⟨i, j, -, -, h⟩; exact hi _ _ h), if_neg]
  rintro ⟨h1 | h1, -⟩
  · have : min (m - 1) m = m := hrows.symm.trans h1
    omega
  · omega

/-! ## Refusals -/

/-- **C163** Sub-bands which do not follow each other are refused: there are more frequencies between the first and the last than sub-bands. -/
theorem dream_gap_violated (x : DreamCall) (m g r k0 k1 : Nat) (h : Setting x m g r) (hsort : x.dbFreq.Pairwise (· < ·)) (h0 : 0 < k0)
    (h01 : k0 + x.nf / x.nch ≤ k1) (hk1 : k1 < x.dbFreq.length)
    (ha : x.dbFreq.getD (k0 - 1) 0 < x.freq 0 ∧ x.freq 0 ≤ x.dbFreq.getD k0 0)
    (hb : x.dbFreq.getD (k1 - 1) 0 < x.freq ((x.nf / x.nch - 1) * x.nch) ∧ x.freq ((x.nf / x.nch - 1) * x.nch) ≤ x.dbFreq.getD k1 0)
    (J : Nat → Nat → M2) (hi : ∀ i j : Nat, (J i j).det ≠ 0) (data : Nat → Nat → M2) : dreamCorrect x J data = .error .valueError := by
  have hp := subbands_pos x h.usual
  obtain ⟨-, hcols⟩ := cols_between x (m, g, r) (timesOf x g) k0 k1 hsort h0 (by omega) (by omega) hk1 ha hb
  unfold dreamCorrect
  rw [plan_ok x h.usual m g r h.groups h.above h.below]
  show dreamApply x J _ data = _
  unfold dreamApply
  rw [if_neg (by rintro ⟨i, j, -, -, h⟩; exact hi _ _ h), if_neg]
  rintro ⟨-, h1 | h1⟩ <;> omega

/-- **C163** Steps of a second or less are refused, and so is any observation which does not last more than a second. -/
theorem dream_short_refused (x : DreamCall) (hx : Usual x) (m g r : Nat) (hg : timeGroups x.n x.dt x.calib = .ok (m, g, r)) (J : Nat → Nat → M2) (data : Nat → Nat → M2)
    (h1 : stepOf x g ≤ 1 ∨ x.n * x.dt ≤ 1) : dreamCorrect x J data = .error .valueError := by
  obtain ⟨hcov, hrg, hm⟩ := time_groups_cover x.n x.dt x.calib m g r hg hx.some_time
  have hs : stepOf x g ≤ 1 := by
    rcases h1 with h1 | h1
    · exact h1
    · refine le_trans (mul_le_mul_of_nonneg_right ?_ hx.positive.le) h1
      have : g ≤ x.n := by nlinarith
      exact_mod_cast this
  have hsub : subbandsOk x.nf x.nch = .ok () := by
    unfold subbandsOk
    rw [if_neg (by have := hx.channels; omega), if_neg (by rw [hx.whole]; simp)]
  unfold dreamCorrect dreamPlan
  rw [hsub, hg]
  show Except.bind (if x.n = 0 then _ else (dreamTimes (x.time 0) (stepOf x g) _).bind _) _ = _
  rw [if_neg (by have := hx.some_time; omega)]
  unfold dreamTimes
  rw [if_pos hs]
  rfl

/-- **C163** Steps of whole days are a division by zero. -/
theorem dream_days_violated (x : DreamCall) (hx : Usual x) (m g r : Nat) (hg : timeGroups x.n x.dt x.calib = .ok (m, g, r)) (J : Nat → Nat → M2) (data : Nat → Nat → M2)
    (d : Nat) (hd : 0 < d) (hs : stepOf x g = d * 86400) : dreamCorrect x J data = .error .zeroDivision := by
  have hsub : subbandsOk x.nf x.nch = .ok () := by
    unfold subbandsOk
    rw [if_neg (by have := hx.channels; omega), if_neg (by rw [hx.whole]; simp)]
  have h1 : ¬ stepOf x g ≤ 1 := by
    rw [hs]
    have : (1 : ℚ) ≤ d := by exact_mod_cast hd
    linarith
  have hmic : micro (stepOf x g) = (d : Int) * 86400000000 := micro_int _ _ (by rw [hs]; push_cast; ring)
  unfold dreamCorrect dreamPlan
  rw [hsub, hg]
  show Except.bind (if x.n = 0 then _ else (dreamTimes (x.time 0) (stepOf x g) _).bind _) _ = _
  rw [if_neg (by have := hx.some_time; omega)]
  unfold dreamTimes Astro.matrixCount
  rw [if_neg h1, hmic, if_pos (by unfold Astro.secondsOf; omega)]
  rfl

/-! ## Cases -/

/-- Half-second samples from a start in microseconds, two sub-bands of two channels on a grid of five frequencies. -/
def demoDream (n : Nat) (calib t0 : ℚ) : DreamCall where
  n := n
  nf := 4
  nch := 2
  dt := 1 / 2
  calib := calib
  time := fun k => t0 + k * (1 / 2)
  freq := fun i => 10 + i
  dbFreq := [8, 10, 12, 14, 16]

theorem demo_usual (n : Nat) (calib t0 : ℚ) (h : 0 < n) : Usual (demoDream n calib t0) :=
  ⟨h, show 0 < 4 by decide, show 0 < 2 by decide, show 4 % 2 = 0 by decide, by norm_num [demoDream], fun k => by simp [demoDream]⟩

theorem demo_grid (n : Nat) (calib t0 : ℚ) : OnGrid (demoDream n calib t0) 1 where
  sorted := by
    show ([8, 10, 12, 14, 16] : List ℚ).Pairwise (· < ·)
    decide +kernel
  positive := by decide
  within := show 1 + 4 / 2 ≤ 5 by decide
  above := fun j hj => by
    have : j < 4 / 2 := hj
    have : j < 2 := by omega
    interval_cases j <;> norm_num [demoDream]
  upto := fun j hj => by
    have : j < 4 / 2 := hj
    have : j < 2 := by omega
    interval_cases j <;> norm_num [demoDream]

theorem demo_groups (n : Nat) (k : Nat) (t0 : ℚ) (h : k ≤ n) (hk : 0 < k) :
    timeGroups (demoDream n (k / 2) t0).n (demoDream n (k / 2) t0).dt (demoDream n (k / 2) t0).calib = .ok (n / k, k, n % k) := by
  have e : ((k : ℚ) / 2) / (1 / 2) = ((k : Int) : ℚ) := by push_cast; ring
  show timeGroups n (1 / 2) (k / 2) = _
  unfold timeGroups
  have h0 : n / k ≠ 0 := by
    have := Nat.div_pos h hk
    omega
  simp only [e, rint_int, Int.toNat_natCast]
  rw [if_neg (by omega), if_neg h0]

theorem demo_setting (n k : Nat) (t0 : ℚ) (h : k ≤ n) (hk : 2 < k) (hk2 : k < 100000) : Setting (demoDream n (k / 2) t0) (n / k) k (n % k) where
  usual := demo_usual n _ t0 (by omega)
  groups := demo_groups n k t0 h (by omega)
  above := by
    show (1 : ℚ) < k * (1 / 2)
    have : (2 : ℚ) < k := by exact_mod_cast hk
    linarith
  below := by
    show (k : ℚ) * (1 / 2) < 86399
    have : (k : ℚ) < 100000 := by exact_mod_cast hk2
    linarith
  seconds := by
    show (wholeSec (k * (1 / 2)) : ℚ) ≤ k * (1 / 2)
    have e : micro ((k : ℚ) * (1 / 2)) = (k : Int) * 500000 := micro_int _ _ (by push_cast; ring)
    have : wholeSec ((k : ℚ) * (1 / 2)) * 2 ≤ (k : Int) := by
      unfold wholeSec Astro.secondsOf
      rw [e]
      omega
    have : ((wholeSec ((k : ℚ) * (1 / 2)) * 2 : Int) : ℚ) ≤ ((k : Int) : ℚ) := by exact_mod_cast this
    push_cast at this
    linarith

/-- Groups of two seconds, and one sample left over. -/
example (J : Nat → Nat → M2) (hi : ∀ i j : Nat, (J i j).det ≠ 0) (sky : Nat → Nat → M2) :
    ∃ out, dreamCorrect (demoDream 13 (4 / 2) 100) J (fun t c => applyJones (J (t / 4) (1 + c / 2)) (sky t c)) = .ok out ∧
      ∀ t c : Nat, t < 13 → c < 4 → out t c = sky t c :=
  dream_left_partial (demoDream 13 ((4 : Nat) / 2) 100) 3 4 1 1 (demo_setting 13 4 100 (by norm_num) (by norm_num) (by norm_num)) (demo_grid _ _ _)
    (by
      have : micro ((demoDream 13 ((4 : Nat) / 2) 100).time 0) = 100000000 := micro_int _ _ (by norm_num [demoDream])
      rw [this]
      norm_num [demoDream])
    2 (by norm_num [stepOf, demoDream]) (by norm_num [demoDream]) J (fun i j _ _ => hi _ _) _ sky (fun t c _ _ => rfl)

/-- Groups of two and a half seconds: for two hundred samples the matrix of the samples left over is three steps late at least. -/
example : (((3 : Nat) : ℚ) + 2) * ((wholeSec (stepOf (demoDream 203 ((5 : Nat) / 2) 100) 5) : ℚ) * stepOf (demoDream 203 ((5 : Nat) / 2) 100) 5)
    ≤ durOf (demoDream 203 ((5 : Nat) / 2) 100) * (stepOf (demoDream 203 ((5 : Nat) / 2) 100) 5 - wholeSec (stepOf (demoDream 203 ((5 : Nat) / 2) 100) 5)) := by
  have e : micro (stepOf (demoDream 203 ((5 : Nat) / 2) 100) 5) = 2500000 := micro_int _ _ (by norm_num [stepOf, demoDream])
  have : wholeSec (stepOf (demoDream 203 ((5 : Nat) / 2) 100) 5) = 2 := by
    unfold wholeSec Astro.secondsOf
    rw [e]
    rfl
  rw [this]
  norm_num [stepOf, durOf, demoDream]

/-- A start at four tenths of a microsecond is rounded down: three groups of two seconds are refused. -/
example (J : Nat → Nat → M2) (hi : ∀ i j : Nat, (J i j).det ≠ 0) (data : Nat → Nat → M2) :
    dreamCorrect (demoDream 12 ((4 : Nat) / 2) (100 + 4 / 10000000)) J data = .error .valueError :=
  dream_start_refused_violated (demoDream 12 ((4 : Nat) / 2) (100 + 4 / 10000000)) 3 4
    (demo_setting 12 4 (100 + 4 / 10000000) (by norm_num) (by norm_num) (by norm_num))
    (by
      have h := abs_le.1 (micro_near ((demoDream 12 ((4 : Nat) / 2) (100 + 4 / 10000000)).time 0))
      have e : (demoDream 12 ((4 : Nat) / 2) (100 + 4 / 10000000)).time 0 = 100 + 4 / 10000000 := by norm_num [demoDream]
      rw [e] at h ⊢
      have : micro (100 + 4 / 10000000) < 100000001 := by
        have : (micro (100 + 4 / 10000000) : ℚ) < ((100000001 : Int) : ℚ) := by push_cast; linarith [h.2]
        exact_mod_cast this
      have : micro (100 + 4 / 10000000) ≤ 100000000 := by omega
      have : (micro (100 + 4 / 10000000) : ℚ) ≤ ((100000000 : Int) : ℚ) := by exact_mod_cast this
      push_cast at this
      linarith)
    2 (by norm_num [stepOf, demoDream]) (by norm_num [demoDream]) (le_refl _) J hi data

end Verif.TF
