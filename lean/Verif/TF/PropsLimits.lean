import Verif.TF.Limits
import Verif.TF.PropsBlocks
import Mathlib.Tactic.Linarith
import Mathlib.Tactic.FieldSimp
import Mathlib.Tactic.IntervalCases
import Mathlib.Data.List.GetD

/-!
Limits in time and frequency of a file of spectra, against the axes of its data.
-/

namespace Verif.TF

open Verif

/-! ## Specification -/

/-- `x` is the lowest value taken by `f` below `n`. -/
def LowestOf (f : Nat → ℚ) (n : Nat) (x : ℚ) : Prop := (∃ i < n, f i = x) ∧ ∀ i < n, x ≤ f i

/-- `x` is the highest value taken by `f` below `n`. -/
def HighestOf (f : Nat → ℚ) (n : Nat) (x : ℚ) : Prop := (∃ i < n, f i = x) ∧ ∀ i < n, f i ≤ x

/-- The sub-bands of each beam are recorded by increasing number. -/
def Ascending (chan : List Int) (beams : List Nat) : Prop :=
  ∀ i j : Nat, i ≤ j → j < chan.length → beams[i]? = beams[j]? → chan.getD i 0 ≤ chan.getD j 0

/-! ## Lemmas -/

theorem bandWidth_pos : 0 < bandWidth := by unfold bandWidth; norm_num

theorem laneWidth_eq : laneWidth = bandWidth := by unfold laneWidth bandWidth; norm_num

theorem subStart_mono {chan : List Int} {i j : Nat} (h : chan.getD i 0 ≤ chan.getD j 0) : subStart chan i ≤ subStart chan j := by
  unfold subStart
  have : ((chan.getD i 0 : Int) : ℚ) ≤ ((chan.getD j 0 : Int) : ℚ) := by exact_mod_cast h
  exact mul_le_mul_of_nonneg_right this bandWidth_pos.le

/-- First and last sub-bands of a recorded beam. -/
theorem edges_some (beams : List Nat) (nc : Nat) (b : Nat) (hb : b ∈ beams) :
    ∃ i j, beamEdges beams nc b = some (i * nc, (j + 1) * nc - 1) ∧ beams[i]? = some b ∧ beams[j]? = some b ∧
      ∀ k : Nat, beams[k]? = some b → i ≤ k ∧ k ≤ j := by
  obtain ⟨k, hk⟩ := List.getElem?_of_mem hb
  have hne : beamWhere beams b ≠ [] := List.ne_nil_of_mem (mem_beamWhere.2 hk)
  have h1 := List.head?_eq_some_head hne
  have h2 := List.getLast?_eq_some_getLast hne
  refine ⟨(beamWhere beams b).head hne, (beamWhere beams b).getLast hne, ?_, mem_beamWhere.1 (List.head_mem hne),
    mem_beamWhere.1 (List.getLast_mem hne), ?_⟩
  · unfold beamEdges; rw [h1, h2]; rfl
  · intro k hk
    have hm := mem_beamWhere.2 hk
    exact ⟨head_le (beamWhere_sorted _ _) h1 hm, le_last (beamWhere_sorted _ _) h2 hm⟩

theorem mem_freqMins {chan : List Int} {beams : List Nat} {nc : Nat} (h0 : 0 < nc) {x : ℚ} (hx : x ∈ freqMins chan beams nc) :
    ∃ i < beams.length, subStart chan i = x := by
  unfold freqMins at hx
  obtain ⟨e, he, rfl⟩ := List.mem_map.1 hx
  obtain ⟨b, hb, hbe⟩ := List.mem_filterMap.1 he
  obtain ⟨i, j, h1, h2, _, _⟩ := edges_some beams nc b (List.mem_dedup.1 hb)
  rw [h1] at hbe
  have := Option.some.inj hbe
  subst this
  refine ⟨i, (List.getElem?_eq_some_iff.1 h2).1, ?_⟩
  show _ = subStart chan (i * nc / nc)
  rw [Nat.mul_div_cancel _ h0]

theorem mem_freqMaxs {chan : List Int} {beams : List Nat} {nc : Nat} (h0 : 0 < nc) {x : ℚ} (hx : x ∈ freqMaxs chan beams nc) :
    ∃ i < beams.length, subStart chan i = x := by
  unfold freqMaxs at hx
  obtain ⟨e, he, rfl⟩ := List.mem_map.1 hx
  obtain ⟨b, hb, hbe⟩ := List.mem_filterMap.1 he
  obtain ⟨i, j, h1, _, h2, _⟩ := edges_some beams nc b (List.mem_dedup.1 hb)
  rw [h1] at hbe
  have := Option.some.inj hbe
  subst this
  refine ⟨j, (List.getElem?_eq_some_iff.1 h2).1, ?_⟩
  show _ = subStart chan (((j + 1) * nc - 1 + 1) / nc - 1)
  have hp : 0 < (j + 1) * nc := Nat.mul_pos (by omega) h0
  rw [Nat.sub_add_cancel hp, Nat.mul_div_cancel _ h0, Nat.add_sub_cancel]

theorem freqMins_le {chan : List Int} {beams : List Nat} {nc : Nat} (h0 : 0 < nc) (hl : beams.length = chan.length)
    (ha : Ascending chan beams) (k : Nat) (hk : k < beams.length) :
    ∃ x ∈ freqMins chan beams nc, x ≤ subStart chan k := by
  have hb : beams[k] ∈ beams := List.getElem_mem hk
  obtain ⟨i, j, h1, h2, h3, h4⟩ := edges_some beams nc _ hb
  have hkk : beams[k]? = some beams[k] := List.getElem?_eq_getElem hk
  refine ⟨subStart chan (i * nc / nc), ?_, ?_⟩
  · unfold freqMins
    exact List.mem_map.2 ⟨_, List.mem_filterMap.2 ⟨_, List.mem_dedup.2 hb, h1⟩, rfl⟩
  · rw [Nat.mul_div_cancel _ h0]
    exact subStart_mono (ha i k (h4 k hkk).1 (by omega) (by rw [h2, hkk]))

theorem le_freqMaxs {chan : List Int} {beams : List Nat} {nc : Nat} (h0 : 0 < nc) (hl : beams.length = chan.length)
    (ha : Ascending chan beams) (k : Nat) (hk : k < beams.length) :
    ∃ x ∈ freqMaxs chan beams nc, subStart chan k ≤ x := by
  have hb : beams[k] ∈ beams := List.getElem_mem hk
  obtain ⟨i, j, h1, h2, h3, h4⟩ := edges_some beams nc _ hb
  have hkk : beams[k]? = some beams[k] := List.getElem?_eq_getElem hk
  have hj : j < beams.length := (List.getElem?_eq_some_iff.1 h3).1
  refine ⟨subStart chan (((j + 1) * nc - 1 + 1) / nc - 1), ?_, ?_⟩
  · unfold freqMaxs
    exact List.mem_map.2 ⟨_, List.mem_filterMap.2 ⟨_, List.mem_dedup.2 hb, h1⟩, rfl⟩
  · have hp : 0 < (j + 1) * nc := Nat.mul_pos (by omega) h0
    rw [Nat.sub_add_cancel hp, Nat.mul_div_cancel _ h0, Nat.add_sub_cancel]
    exact subStart_mono (ha k j (h4 k hkk).2 (by omega) (by rw [h3, hkk]))

/-! ## Frequencies of `Spectra` -/

/-- **The announced limits are the lowest start of a sub-band and the highest start, plus the width of a sub-band**, when the sub-bands
of each beam are recorded by increasing number. -/
theorem frequency_limits_partial (chan : List Int) (beams : List Nat) (nc : Nat) (h0 : 0 < nc) (hl : beams.length = chan.length)
    (hn : chan ≠ []) (ha : Ascending chan beams) :
    ∃ lo hi, frequencyMin chan beams nc = .ok lo ∧ frequencyMax chan beams nc = .ok (hi + bandWidth) ∧
      LowestOf (fun i => (chan.getD i 0 : ℚ) * (390625 / 2)) chan.length lo ∧
      HighestOf (fun i => (chan.getD i 0 : ℚ) * (390625 / 2)) chan.length hi := by
  have hpos : 0 < beams.length := by rw [hl]; exact List.length_pos_of_ne_nil hn
  obtain ⟨x, hx, _⟩ := freqMins_le h0 hl ha 0 hpos
  obtain ⟨y, hy, _⟩ := le_freqMaxs h0 hl ha 0 hpos
  obtain ⟨lo, hlo⟩ := Option.isSome_iff_exists.1 (List.isSome_min?_of_mem hx)
  obtain ⟨hi, hhi⟩ := Option.isSome_iff_exists.1 (List.isSome_max?_of_mem hy)
  have mlo := List.min?_eq_some_iff.1 hlo
  have mhi := List.max?_eq_some_iff.1 hhi
  refine ⟨lo, hi, by unfold frequencyMin; rw [hlo]; rfl, by unfold frequencyMax; rw [hhi]; rfl, ⟨?_, ?_⟩, ⟨?_, ?_⟩⟩
  · obtain ⟨i, hi1, e⟩ := mem_freqMins h0 mlo.1
    exact ⟨i, by omega, e⟩
  · intro k hk
    obtain ⟨z, hz, hzk⟩ := freqMins_le (nc := nc) h0 hl ha k (by omega)
    exact le_trans (mlo.2 z hz) hzk
  · obtain ⟨i, hi1, e⟩ := mem_freqMaxs h0 mhi.1
    exact ⟨i, by omega, e⟩
  · intro k hk
    obtain ⟨z, hz, hzk⟩ := le_freqMaxs (nc := nc) h0 hl ha k (by omega)
    exact le_trans hzk (mhi.2 z hz)

/-- Frequencies of an axis made of sub-bands of `nc` channels, centred on their starts. -/
theorem axis_limits (start : Nat → ℚ) (w : ℚ) (hw : 0 < w) (ns nc : Nat) (h0 : 0 < nc) (lo hi : ℚ)
    (hlo : LowestOf start ns lo) (hhi : HighestOf start ns hi) :
    LowestOf (specFreq start nc (w / nc)) (ns * nc) (lo - w / 2) ∧
      HighestOf (specFreq start nc (w / nc)) (ns * nc) (hi + w / 2 - w / nc) := by
  have hnc : (0 : ℚ) < nc := by exact_mod_cast h0
  have hstep : 0 < w / nc := div_pos hw hnc
  have hhalf : (nc : ℚ) / 2 * (w / nc) = w / 2 := by field_simp
  have hdiv : ∀ k, k < ns * nc → k / nc < ns := fun k hk => (Nat.div_lt_iff_lt_mul h0).2 hk
  refine ⟨⟨?_, ?_⟩, ⟨?_, ?_⟩⟩
  · obtain ⟨i, hi1, e⟩ := hlo.1
    refine ⟨i * nc, Nat.mul_lt_mul_of_pos_right hi1 h0, ?_⟩
    unfold specFreq
    rw [Nat.mul_mod_left, Nat.mul_div_cancel _ h0, e]
    have : ((0 : Nat) : ℚ) - (nc : ℚ) / 2 = -((nc : ℚ) / 2) := by push_cast; ring
    rw [this, neg_mul, hhalf]; ring
  · intro k hk
    unfold specFreq
    have h1 := hlo.2 _ (hdiv k hk)
    have h2 : (0 : ℚ) ≤ ((k % nc : Nat) : ℚ) * (w / nc) := by positivity
    rw [sub_mul, hhalf]; linarith
  · obtain ⟨i, hi1, e⟩ := hhi.1
    refine ⟨i * nc + (nc - 1), ?_, ?_⟩
    · have : (i + 1) * nc ≤ ns * nc := Nat.mul_le_mul_right _ hi1
      rw [Nat.succ_mul] at this; omega
    · unfold specFreq
      have hm : (i * nc + (nc - 1)) % nc = nc - 1 := by
        rw [Nat.mul_comm, Nat.mul_add_mod]; exact Nat.mod_eq_of_lt (by omega)
      have hd : (i * nc + (nc - 1)) / nc = i := by
        rw [Nat.mul_comm, Nat.mul_add_div h0, Nat.div_eq_of_lt (by omega)]; omega
      rw [hm, hd, e, Nat.cast_sub (by omega), sub_mul, sub_mul, hhalf]
      have : (nc : ℚ) * (w / nc) = w := by field_simp
      rw [this]; push_cast; ring
  · intro k hk
    unfold specFreq
    have h1 := hhi.2 _ (hdiv k hk)
    have h3 : ((k % nc : Nat) : ℚ) ≤ (nc : ℚ) - 1 := by
      have : k % nc + 1 ≤ nc := Nat.mod_lt k h0
      have : ((k % nc + 1 : Nat) : ℚ) ≤ (nc : ℚ) := by exact_mod_cast this
      push_cast at this; push_cast; linarith
    have h2 : ((k % nc : Nat) : ℚ) * (w / nc) ≤ ((nc : ℚ) - 1) * (w / nc) := mul_le_mul_of_nonneg_right h3 hstep.le
    have : (nc : ℚ) * (w / nc) = w := by field_simp
    rw [sub_mul, hhalf]
    rw [sub_mul, this] at h2
    linarith

/-- **The announced limits are not those of the data**: the lowest frequency of the data is half a sub-band under `frequency_min`, and
the highest one is half a sub-band and a channel under `frequency_max`. -/
theorem frequency_offset_violated (chan : List Int) (beams : List Nat) (nc : Nat) (h0 : 0 < nc) (hl : beams.length = chan.length)
    (hn : chan ≠ []) (ha : Ascending chan beams) :
    ∃ lo hi, frequencyMin chan beams nc = .ok lo ∧ frequencyMax chan beams nc = .ok hi ∧
      LowestOf (specFreq (subStart chan) nc (bandWidth / nc)) (chan.length * nc) (lo - bandWidth / 2) ∧
      HighestOf (specFreq (subStart chan) nc (bandWidth / nc)) (chan.length * nc) (hi - bandWidth / 2 - bandWidth / nc) := by
  obtain ⟨lo, hi, h1, h2, h3, h4⟩ := frequency_limits_partial chan beams nc h0 hl hn ha
  have := axis_limits (subStart chan) bandWidth bandWidth_pos chan.length nc h0 lo hi h3 h4
  refine ⟨lo, hi + bandWidth, h1, h2, this.1, ?_⟩
  rw [show hi + bandWidth - bandWidth / 2 - bandWidth / nc = hi + bandWidth / 2 - bandWidth / nc by ring]
  exact this.2

/-- **Sub-bands recorded in another order**: with two sub-bands in one beam, the announced lowest frequency is the start of the first one and the
announced highest one is the end of the second one, even if the first one is the higher. -/
theorem frequency_order_violated (a b : Int) (nc : Nat) (h0 : 0 < nc) :
    frequencyMin [a, b] [0, 0] nc = .ok (a * bandWidth) ∧ frequencyMax [a, b] [0, 0] nc = .ok ((b + 1) * bandWidth) := by
  have hd : ([0, 0] : List Nat).dedup = [0] := by decide
  have hw : beamWhere [0, 0] 0 = [0, 1] := by decide
  have he : beamEdges [0, 0] nc 0 = some (0 * nc, (1 + 1) * nc - 1) := by unfold beamEdges; rw [hw]; rfl
  have hp : 0 < (1 + 1) * nc := Nat.mul_pos (by omega) h0
  constructor
  · unfold frequencyMin freqMins
    rw [hd, List.filterMap_cons_some he]
    show Except.ok (subStart [a, b] (0 * nc / nc)) = _
    rw [Nat.mul_div_cancel _ h0]
    unfold subStart
    rfl
  · unfold frequencyMax freqMaxs
    rw [hd, List.filterMap_cons_some he]
    show Except.ok (subStart [a, b] (((1 + 1) * nc - 1 + 1) / nc - 1) + bandWidth) = _
    rw [Nat.sub_add_cancel hp, Nat.mul_div_cancel _ h0]
    unfold subStart
    congr 1
    norm_num
    ring

/-- Nothing recorded: no limits. -/
theorem frequency_none (chan : List Int) (nc : Nat) :
    frequencyMin chan [] nc = .error .valueError ∧ frequencyMax chan [] nc = .error .valueError := ⟨rfl, rfl⟩

/-! ## Times of `Spectra` -/

/-- **The limits in time**: when no block starts before the previous one, `time_min` is the first time of the data, and `time_max` is
the end of its last sample. -/
theorem time_limits_partial (start : Nat → ℚ) (n nt : Nat) (dt : ℚ) (hn : 0 < n) (ht : 0 < nt) (hdt : 0 ≤ dt)
    (hm : ∀ i j, i ≤ j → j < n → start i ≤ start j) :
    LowestOf (specTime start nt dt) (n * nt) (timeMin start) ∧
      HighestOf (specTime start nt dt) (n * nt) (timeMax start n nt dt - dt) := by
  have hdiv : ∀ k, k < n * nt → k / nt < n := fun k hk => (Nat.div_lt_iff_lt_mul ht).2 hk
  refine ⟨⟨⟨0, Nat.mul_pos hn ht, ?_⟩, ?_⟩, ⟨⟨(n - 1) * nt + (nt - 1), ?_, ?_⟩, ?_⟩⟩
  · unfold specTime timeMin; simp
  · intro k hk
    unfold specTime timeMin
    have h1 := hm 0 (k / nt) (Nat.zero_le _) (hdiv k hk)
    have h2 : (0 : ℚ) ≤ ((k % nt : Nat) : ℚ) * dt := by positivity
    linarith
  · have : (n - 1 + 1) * nt = n * nt := by rw [Nat.sub_add_cancel hn]
    rw [Nat.succ_mul] at this; omega
  · unfold specTime timeMax
    have hmod : ((n - 1) * nt + (nt - 1)) % nt = nt - 1 := by
      rw [Nat.mul_comm, Nat.mul_add_mod]; exact Nat.mod_eq_of_lt (by omega)
    have hd : ((n - 1) * nt + (nt - 1)) / nt = n - 1 := by
      rw [Nat.mul_comm, Nat.mul_add_div ht, Nat.div_eq_of_lt (by omega)]; omega
    rw [hmod, hd, Nat.cast_sub (by omega)]; push_cast; ring
  · intro k hk
    unfold specTime timeMax
    have h1 := hm (k / nt) (n - 1) (by have := hdiv k hk; omega) (by omega)
    have h3 : ((k % nt : Nat) : ℚ) ≤ (nt : ℚ) - 1 := by
      have : k % nt + 1 ≤ nt := Nat.mod_lt k ht
      have : ((k % nt + 1 : Nat) : ℚ) ≤ (nt : ℚ) := by exact_mod_cast this
      push_cast at this; push_cast; linarith
    have h2 : ((k % nt : Nat) : ℚ) * dt ≤ ((nt : ℚ) - 1) * dt := mul_le_mul_of_nonneg_right h3 hdt
    linarith

/-! ## Lanes -/

theorem lane_axis (chan : List Int) (nc : Nat) (h0 : 0 < nc) :
    laneFreq chan nc = specFreq (subStart chan) nc (bandWidth / nc) := by
  funext k
  have hnc : (0 : ℚ) < nc := by exact_mod_cast h0
  unfold laneFreq specFreq subStart
  rw [laneWidth_eq, div_mul_cancel₀ _ hnc.ne']

theorem min_lowest (chan : List Int) (c : Int) (h : chan.min? = some c) : LowestOf (subStart chan) chan.length (c * bandWidth) := by
  have hm := List.min?_eq_some_iff.1 h
  constructor
  · obtain ⟨i, hi, e⟩ := List.getElem_of_mem hm.1
    exact ⟨i, hi, by unfold subStart; rw [List.getD_eq_getElem _ _ hi, e]⟩
  · intro i hi
    unfold subStart
    rw [List.getD_eq_getElem _ _ hi]
    have := hm.2 _ (List.getElem_mem hi)
    exact mul_le_mul_of_nonneg_right (by exact_mod_cast this) bandWidth_pos.le

theorem max_highest (chan : List Int) (c : Int) (h : chan.max? = some c) : HighestOf (subStart chan) chan.length (c * bandWidth) := by
  have hm := List.max?_eq_some_iff.1 h
  constructor
  · obtain ⟨i, hi, e⟩ := List.getElem_of_mem hm.1
    exact ⟨i, hi, by unfold subStart; rw [List.getD_eq_getElem _ _ hi, e]⟩
  · intro i hi
    unfold subStart
    rw [List.getD_eq_getElem _ _ hi]
    have := hm.2 _ (List.getElem_mem hi)
    exact mul_le_mul_of_nonneg_right (by exact_mod_cast this) bandWidth_pos.le

/-- A lane without sub-band has no limits. -/
theorem lane_none : laneMin [] = .error .valueError ∧ laneMax [] = .error .valueError := ⟨rfl, rfl⟩

/-- **The limits of a lane are those of its data**, whatever the order of its sub-bands: `fmin` is the lowest frequency of the data, and
`fmax` is one channel over the highest. -/
theorem lane_limits (chan : List Int) (nc : Nat) (h0 : 0 < nc) (hn : chan ≠ []) :
    ∃ lo hi, laneMin chan = .ok lo ∧ laneMax chan = .ok hi ∧ LowestOf (laneFreq chan nc) (chan.length * nc) lo ∧
      HighestOf (laneFreq chan nc) (chan.length * nc) (hi - bandWidth / nc) := by
  obtain ⟨x, hx⟩ := List.exists_mem_of_ne_nil chan hn
  obtain ⟨a, ha⟩ := Option.isSome_iff_exists.1 (List.isSome_min?_of_mem hx)
  obtain ⟨b, hb⟩ := Option.isSome_iff_exists.1 (List.isSome_max?_of_mem hx)
  have := axis_limits (subStart chan) bandWidth bandWidth_pos chan.length nc h0 _ _ (min_lowest chan a ha) (max_highest chan b hb)
  refine ⟨laneWidth * ((a : ℚ) - 1 / 2), laneWidth * ((b : ℚ) + 1 / 2), by unfold laneMin; rw [ha]; rfl,
    by unfold laneMax; rw [hb]; rfl, ?_, ?_⟩
  · rw [lane_axis chan nc h0, laneWidth_eq, show bandWidth * ((a : ℚ) - 1 / 2) = a * bandWidth - bandWidth / 2 by ring]
    exact this.1
  · rw [lane_axis chan nc h0, laneWidth_eq,
      show bandWidth * ((b : ℚ) + 1 / 2) - bandWidth / nc = b * bandWidth + bandWidth / 2 - bandWidth / nc by ring]
    exact this.2

/-- **The two readers end a file at different times**: on regular blocks, the end of a lane is the start of its last sample, and the one
of `Spectra` is its end. -/
theorem ends_differ (stamp seq dt : ℚ) (n nt : Nat) (hn : 0 < n) (ht : 0 < nt) :
    timeMin (regularStart (stamp + seq / (390625 / 2)) nt dt) = laneStart stamp seq dt ∧
    timeMax (regularStart (stamp + seq / (390625 / 2)) nt dt) n nt dt = laneEnd stamp seq dt n nt + dt := by
  constructor
  · unfold timeMin regularStart laneStart laneTime; simp
  · unfold timeMax regularStart laneEnd laneTime
    have h1 : 1 ≤ n * nt := Nat.mul_pos hn ht
    rw [Nat.cast_sub h1, Nat.cast_sub (show 1 ≤ n from hn)]
    push_cast; ring

/-- **A gap in a lane is not seen**: sample `j` of block `i` is given its time if, and only if, block `i` starts when the previous ones,
laid end to end, stop. -/
theorem lane_gap_violated (stamp seq dt s : ℚ) (nt i j : Nat) :
    laneTime stamp seq dt (i * nt + j) = s + j * dt ↔ s = stamp + seq / (390625 / 2) + i * nt * dt := by
  unfold laneTime
  push_cast
  constructor
  · intro h; linarith
  · intro h; rw [h]; ring

/-! ## Non-vacuity -/

example : Ascending [200, 201, 100, 101] [0, 0, 1, 1] := by
  intro i j hij hj hb
  simp at hj
  have hi : i < 4 := by omega
  interval_cases j <;> interval_cases i <;> simp_all

example : ∃ lo hi, frequencyMin [200, 201, 100, 101] [0, 0, 1, 1] 4 = .ok lo ∧ frequencyMax [200, 201, 100, 101] [0, 0, 1, 1] 4 = .ok hi :=
  let ⟨lo, hi, h1, h2, _⟩ := frequency_offset_violated [200, 201, 100, 101] [0, 0, 1, 1] 4 (by norm_num) rfl (by simp) (by
    intro i j hij hj hb
    simp at hj
    have hi : i < 4 := by omega
    interval_cases j <;> interval_cases i <;> simp_all)
  ⟨lo, hi, h1, h2⟩

example : ∀ i j, i ≤ j → j < 3 → regularStart 5 2 1 i ≤ regularStart 5 2 1 j := by
  intro i j hij _
  unfold regularStart
  have : (i : ℚ) ≤ j := by exact_mod_cast hij
  push_cast; linarith

end Verif.TF
