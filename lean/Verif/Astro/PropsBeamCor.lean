import Verif.Astro.BeamCor
import Verif.Astro.PropsPointing
import Mathlib.Tactic.Linarith
import Mathlib.Tactic.Ring
import Mathlib.Tactic.NormNum

/-!
# C121: times of the projection matrices, and factor of the pointing correction
-/

namespace Verif.Astro

/-! ## Times of the Jones matrices -/

/-- **C121** (steps of a whole number of seconds, below a day): the matrices are computed at all multiples of the step up to the
duration, and nowhere else. -/
theorem projection_partial (s dur : Int) (h1 : 1 < s) (h2 : s < 86400) (hd : 0 ≤ dur) :
    ∃ l, projectionTimes (s * 1000000) dur = .ok l ∧ l.Pairwise (· < ·) ∧
      ∀ x, x ∈ l ↔ ∃ k : Nat, x = k * (s * 1000000) ∧ x ≤ dur := by
  have hs : secondsOf (s * 1000000) = s := by unfold secondsOf; omega
  have e : projectionTimes (s * 1000000) dur
      = .ok ((List.range (Int.tdiv dur (s * 1000000) + 1).toNat).map fun i : Nat => (i : Int) * (s * 1000000)) := by
    unfold projectionTimes matrixCount
    rw [if_neg (by omega), hs, if_neg (by omega)]
    rfl
  refine ⟨_, e, ?_, ?_⟩
  · rw [List.pairwise_map]
    refine List.pairwise_lt_range.imp ?_
    intro a b hab
    exact Int.mul_lt_mul_of_pos_right (by exact_mod_cast hab) (by omega)
  · intro x
    rw [List.mem_map, Int.tdiv_eq_ediv_of_nonneg hd]
    have hp : 0 < s * 1000000 := by omega
    have key : ∀ k : Nat, k < (dur / (s * 1000000) + 1).toNat ↔ (k : Int) * (s * 1000000) ≤ dur := by
      intro k
      rw [← Int.le_ediv_iff_mul_le hp]
      omega
    constructor
    · rintro ⟨k, hk, rfl⟩
      exact ⟨k, rfl, (key k).1 (List.mem_range.1 hk)⟩
    · rintro ⟨k, rfl, hk⟩
      exact ⟨k, List.mem_range.2 ((key k).2 hk), rfl⟩

/-- **C121** (violated): for every step with a fraction of a second, all durations long enough get matrices after their end. -/
theorem projection_fraction_violated (step dur : Int) (h1 : 1000000 < step) (h2 : step < 86400000000) (hf : step % 1000000 ≠ 0)
    (hd : step * step ≤ dur) : ∃ l, projectionTimes step dur = .ok l ∧ ∃ x ∈ l, dur < x := by
  have hs : secondsOf step = step / 1000000 := by unfold secondsOf; omega
  generalize hm : step / 1000000 = m at hs
  have hm1 : 1 ≤ m := by omega
  have hr : m * 1000000 + 1 ≤ step := by omega
  have e : projectionTimes step dur
      = .ok ((List.range (Int.tdiv dur (m * 1000000) + 1).toNat).map fun i : Nat => (i : Int) * step) := by
    unfold projectionTimes matrixCount
    rw [if_neg (by omega), hs, if_neg (by omega)]
    rfl
  have hd0 : 0 ≤ dur := le_trans (by positivity) hd
  refine ⟨_, e, ?_⟩
  rw [Int.tdiv_eq_ediv_of_nonneg hd0]
  generalize hA : m * 1000000 = A at hr
  have hA0 : 0 < A := by omega
  generalize hk : dur / A = k
  have k1 : k * A ≤ dur := by rw [← hk]; exact Int.ediv_mul_le _ (by omega)
  have k2 : dur < (k + 1) * A := by rw [← hk]; exact Int.lt_ediv_add_one_mul_self _ hA0
  have k3 : A ≤ k := by
    rw [← hk, Int.le_ediv_iff_mul_le hA0]
    nlinarith
  refine ⟨k * step, List.mem_map.2 ⟨k.toNat, List.mem_range.2 (by omega), by rw [Int.toNat_of_nonneg (by omega)]⟩, ?_⟩
  nlinarith

/-- **C121**: steps of one second or less are refused, as is the step of exactly one second, which the message allows. -/
theorem projection_second_violated (dur : Int) :
    (∀ step, step ≤ 1000000 → projectionTimes step dur = .error .valueError) ∧ projectionTimes 1000000 dur = .error .valueError :=
  ⟨fun _ h => if_pos h, if_pos (le_refl _)⟩

/-- **C121** (violated): a step of any number of whole days stops on a division by zero; a step of a day and `s` seconds is taken
as `s` seconds in the number of matrices. -/
theorem projection_days_violated (dur : Int) :
    (∀ d : Int, 0 < d → projectionTimes (d * 86400000000) dur = .error .zeroDivision) ∧
    ∀ s : Int, 1 ≤ s → s < 86400 → 0 ≤ dur →
      ∃ l, projectionTimes (86400000000 + s * 1000000) dur = .ok l ∧ (l.length : Int) = dur / (s * 1000000) + 1 := by
  constructor
  · intro d hd
    have hs : secondsOf (d * 86400000000) = 0 := by unfold secondsOf; omega
    unfold projectionTimes matrixCount
    rw [if_neg (by omega), hs, if_pos rfl]
    rfl
  · intro s h1 h2 hd
    have hs : secondsOf (86400000000 + s * 1000000) = s := by unfold secondsOf; omega
    have e : projectionTimes (86400000000 + s * 1000000) dur
        = .ok ((List.range (Int.tdiv dur (s * 1000000) + 1).toNat).map fun i : Nat => (i : Int) * (86400000000 + s * 1000000)) := by
      unfold projectionTimes matrixCount
      rw [if_neg (by omega), hs, if_neg (by omega)]
      rfl
    refine ⟨_, e, ?_⟩
    rw [List.length_map, List.length_range, Int.tdiv_eq_ediv_of_nonneg hd]
    have : 0 ≤ dur / (s * 1000000) := Int.ediv_nonneg hd (by omega)
    omega

/-- **C121**: matrices are written exactly when the name ends with `.hdf5` and there is one matrix per frequency and time, in this order. -/
theorem hdf5_checked (times freqs cell : List Nat) (hc : cell.length = 2) (lead : List Nat) (name : String) :
    (hdf5Check times freqs (lead ++ cell) name = .ok () ↔ (∃ stem : List Char, name.toList = stem ++ ".hdf5".toList) ∧ lead = freqs ++ times) ∧
    ((¬∃ stem : List Char, name.toList = stem ++ ".hdf5".toList) → hdf5Check times freqs (lead ++ cell) name = .error .valueError) := by
  have hl : (lead ++ cell).take ((lead ++ cell).length - 2) = lead := by
    rw [List.length_append, hc, Nat.add_sub_cancel, List.take_left]
  have hs : List.isSuffixOf ".hdf5".toList name.toList = true ↔ ∃ stem : List Char, name.toList = stem ++ ".hdf5".toList := by
    rw [List.isSuffixOf_iff_suffix]
    exact ⟨fun ⟨a, b⟩ => ⟨a, b.symm⟩, fun ⟨a, b⟩ => ⟨a, b.symm⟩⟩
  unfold hdf5Check
  rw [hl, ← hs]
  cases List.isSuffixOf ".hdf5".toList name.toList with
  | false => exact ⟨⟨fun h => (by rw [if_pos rfl] at h; cases h), fun h => absurd h.1 (by decide)⟩, fun _ => if_pos rfl⟩
  | true =>
    rw [if_neg (by decide)]
    refine ⟨⟨fun h => ⟨rfl, ?_⟩, fun h => if_neg (not_not_intro h.2)⟩, fun h => absurd rfl h⟩
    by_contra hn
    rw [if_pos hn] at h
    cases h

/-! ## Pointing which took place -/

theorem getD_snoc (l : List ℚ) (x : ℚ) (i : Nat) : (l ++ [x]).getD i 0 = if i < l.length then l.getD i 0 else if i = l.length then x else 0 := by
  split_ifs with h1 h2
  · exact List.getD_append _ _ _ _ h1
  · rw [List.getD_append_right _ _ _ _ (by omega), h2, Nat.sub_self]; rfl
  · rw [List.getD_append_right _ _ _ _ (by omega), List.getD_eq_default]
    simp; omega

/-- End of the interval `i` of the pointing which took place: the next time, or a day after the last one. -/
def endOf (time : List ℚ) (i : Nat) : ℚ := if i + 1 < time.length then time.getD (i + 1) 0 else time.getD i 0 + 86400

theorem mk_rows {D : Type} (time : List ℚ) (ds : List D) (hl : ds.length = time.length) (ht : time ≠ []) (d : D) :
    mkPointing (.many ds) time (some (diffs (time ++ [time.getLastD 0 + 86400]))) =
      closedRows (time.zip ds ++ [(time.getLastD 0 + 86400, d)]) := by
  unfold closedRows
  rw [List.map_append, List.map_append, List.map_fst_zip (by omega), List.map_snd_zip (by omega)]
  simp

theorem real_at {D : Type} (time : List ℚ) (ds : List D) (hl : ds.length = time.length) (hs : time.Pairwise (· < ·)) (ht : time ≠ []) (t : ℚ) :
    ∃ r, mkPointing (.many ds) time (some (diffs (time ++ [time.getLastD 0 + 86400]))) = .ok r ∧
      (∀ i (h : i < ds.length), time.getD i 0 ≤ t → t < endOf time i → r.at t = .ok (some ds[i])) ∧
      ((t < time.getD 0 0 ∨ time.getLastD 0 + 86400 ≤ t) → r.at t = .ok none) := by
  have hn : 0 < time.length := List.length_pos_iff.2 ht
  have hlast : time.getLastD 0 = time.getD (time.length - 1) 0 := by
    rw [List.getLastD_eq_getLast?, List.getD_eq_getElem?_getD, List.getLast?_eq_getElem?]
  have hle : ∀ i, i < time.length → time.getD i 0 ≤ time.getLastD 0 := by
    intro i hi
    rw [hlast]
    rcases Nat.lt_or_ge i (time.length - 1) with h | h
    · exact (sorted_getD hs h (by omega)).le
    · rw [show i = time.length - 1 by omega]
  have e1 : (time.zip ds ++ [(time.getLastD 0 + 86400, ds[0]'(by omega))]).map Prod.fst = time ++ [time.getLastD 0 + 86400] := by
    rw [List.map_append, List.map_fst_zip (by omega)]; rfl
  have e2 : (time.zip ds ++ [(time.getLastD 0 + 86400, ds[0]'(by omega))]).map Prod.snd = ds ++ [ds[0]'(by omega)] := by
    rw [List.map_append, List.map_snd_zip (by omega)]; rfl
  have e3 : (time.zip ds ++ [(time.getLastD 0 + 86400, ds[0]'(by omega))]).length = time.length + 1 := by
    simp [hl]
  rw [mk_rows time ds hl ht (ds[0]'(by omega))]
  obtain ⟨r, hr, h1, h2⟩ := closedRows_at (time.zip ds ++ [(time.getLastD 0 + 86400, ds[0]'(by omega))]) (by
    rw [e1, List.pairwise_append]
    refine ⟨hs, List.pairwise_singleton _ _, ?_⟩
    intro a ha b hb
    rw [List.mem_singleton] at hb
    obtain ⟨i, hi, rfl⟩ := List.getElem_of_mem ha
    have := hle i hi
    rw [List.getD_eq_getElem _ _ hi] at this
    rw [hb]
    linarith) t
  have hend : ∀ i, i < time.length → (time ++ [time.getLastD 0 + 86400]).getD (i + 1) 0 = endOf time i := by
    intro i hi
    rw [getD_snoc]
    unfold endOf
    split_ifs with h3 h4
    · rfl
    · rw [hlast, show time.length - 1 = i by omega]
    · omega
  rw [e1, e3] at h1 h2
  refine ⟨r, hr, ?_, ?_⟩
  · intro i hi h3 h4
    rw [h1 i (by omega) (by rw [getD_snoc, if_pos (by omega)]; exact h3) (by rw [hend i (by omega)]; exact h4), e2,
      List.getElem?_append_left hi, List.getElem?_eq_getElem hi]
  · intro h
    refine h2 fun i hi hc => ?_
    rw [hend i (by omega), getD_snoc, if_pos (by omega)] at hc
    have g0 : time.getD 0 0 ≤ time.getD i 0 := by
      rcases Nat.eq_zero_or_pos i with h | h
      · rw [h]
      · exact (sorted_getD hs h (by omega)).le
    have g1 : endOf time i ≤ time.getLastD 0 + 86400 := by
      unfold endOf
      split_ifs with h5
      · have := hle _ h5
        linarith
      · have := hle i (by omega)
        linarith
    rcases h with h | h
    · linarith [hc.1]
    · linarith [hc.2]

/-- A digital pointing the factor can be computed for: its times increase, and either each has its own direction, or its
horizontal coordinates come from a file. -/
structure Usable {D H : Type} (p : Pointing D) (custom : Option (List H)) : Prop where
  sorted : p.time.Pairwise (· < ·)
  some_time : p.time ≠ []
  dirs : ∃ ds, p.dirs = .many ds ∧ ds.length = p.time.length
  own : custom = none → 2 ≤ p.time.length
  file : ∀ l, custom = some l → l.length = p.time.length

/-- Horizontal order number `i` of a pointing: that of the file, or that of its direction at its time. -/
def orderOf {D H : Type} (conv : ℚ → D → H) (p : Pointing D) (custom : Option (List H)) (i : Nat) : Option H :=
  custom.elim ((p.dirs.list[i]?).map (conv (p.time.getD i 0))) fun l => l[i]?

theorem orders_ok {D H : Type} (conv : ℚ → D → H) (p : Pointing D) (custom : Option (List H)) (hu : Usable p custom) :
    ∃ l, orders conv p custom = .ok (false, l) ∧ l.length = p.time.length ∧ ∀ i, l[i]? = orderOf conv p custom i := by
  obtain ⟨ds, hd, hl⟩ := hu.dirs
  cases custom with
  | some l => exact ⟨l, rfl, hu.file l rfl, fun _ => rfl⟩
  | none =>
    have h2 := hu.own rfl
    refine ⟨List.zipWith conv p.time ds, ?_, ?_, ?_⟩
    · show (if p.dirs.count = 1 then Except.ok _ else if p.dirs.count = p.time.length then Except.ok _ else Except.error _) = _
      rw [hd]
      have hc : (Dirs.many ds).count = p.time.length := hl
      rw [if_neg (by omega), if_pos hc]
      rfl
    · rw [List.length_zipWith, hl, Nat.min_self]
    · intro i
      show _ = (p.dirs.list[i]?).map (conv (p.time.getD i 0))
      rw [hd, List.getElem?_zipWith]
      show _ = (ds[i]?).map _
      by_cases hi : i < p.time.length
      · rw [List.getElem?_eq_getElem hi, List.getElem?_eq_getElem (by omega), List.getD_eq_getElem _ _ hi]; rfl
      · rw [List.getElem?_eq_none (by omega), List.getElem?_eq_none (by omega)]; rfl

/-- **C121**: the array is taken to follow each order, corrected and turned, from its time to the next one, the last order for
a day, and the zenith before the first and after that day. -/
theorem real_pointing_exact {D H : Type} (conv : ℚ → D → H) (back : ℚ → H → D) (turn : H → H) (p : Pointing D) (custom : Option (List H))
    (hu : Usable p custom) (t : ℚ) :
    ∃ r, realPointing conv back turn p custom = .ok r ∧
      (∀ i, i < p.time.length → p.time.getD i 0 ≤ t → t < endOf p.time i →
        ∃ o, orderOf conv p custom i = some o ∧ r.at t = .ok (some (back (p.time.getD i 0) (turn o)))) ∧
      ((t < p.time.getD 0 0 ∨ p.time.getLastD 0 + 86400 ≤ t) → r.at t = .ok none) := by
  obtain ⟨l, hl, hn, hi⟩ := orders_ok conv p custom hu
  obtain ⟨r, hr, h1, h2⟩ := real_at p.time (List.zipWith back p.time (l.map turn)) (by simp [hn]) hu.sorted hu.some_time t
  refine ⟨r, ?_, ?_, h2⟩
  · unfold realPointing
    rw [hl]
    show (if p.time = [] then Except.error Err.indexError else if (false : Bool) = true then Except.error Err.valueError else _) = _
    rw [if_neg hu.some_time, if_neg (by decide)]
    exact hr
  · intro i hi' h3 h4
    refine ⟨l[i]'(by omega), ?_, ?_⟩
    · rw [← hi, List.getElem?_eq_getElem]
    · rw [h1 i (by simp [hn]; exact hi') h3 h4]
      simp only [List.getElem_zipWith, List.getElem_map, List.getD_eq_getElem _ _ hi']

/-! ## Factor -/

theorem factor_ok {D H F P : Type} (conv : ℚ → D → H) (back : ℚ → H → D) (turn : H → H) (gain : Option D → Option D → ℚ → F → P → ℝ)
    (p : Pointing D) (custom : Option (List H)) (times : List ℚ) (fs : List F) (ps : List P) (r : Pointing D)
    (hr : realPointing conv back turn p custom = .ok r) :
    ∃ m, factor conv back turn gain p custom times fs ps = .ok m ∧ m.length = times.length ∧
      ∀ i (h : i < times.length) (h' : i < m.length), m[i].length = fs.length ∧
        ∀ j (hj : j < fs.length) (hj' : j < m[i].length), m[i][j].length = ps.length ∧
          ∀ k (hk : k < ps.length) (hk' : k < m[i][j].length), m[i][j][k] =
            gain (dirAt r times[i]) (dirAt r times[i]) times[i] fs[j] ps[k] / gain (dirAt r times[i]) (dirAt p times[i]) times[i] fs[j] ps[k] := by
  refine ⟨_, by unfold factor; rw [hr]; rfl, by simp, ?_⟩
  intro i h h'
  simp only [List.getElem_map, List.getElem_range, List.length_map]
  refine ⟨trivial, fun j hj _ => ⟨trivial, fun k hk _ => ?_⟩⟩
  simp only [beamValue, List.getD_eq_getElem _ _ h]

theorem dirAt_ok {D : Type} {p : Pointing D} {t : ℚ} {d : Option D} (h : p.at t = .ok d) : dirAt p t = d := by
  unfold dirAt
  rw [h]
  rfl

/-- **C121** (times at which the digital pointing is defined, and its intervals do not overlap): one factor per time, frequency and
polarisation, in this order. It is the gain towards the direction really pointed at, over the gain towards the direction desired,
for the array pointed at the former; it is 1 when the correction and the rotation leave the order as it is. -/
theorem factor_partial {D H F P : Type} (conv : ℚ → D → H) (back : ℚ → H → D) (turn : H → H) (gain : Option D → Option D → ℚ → F → P → ℝ)
    (p : Pointing D) (custom : Option (List H)) (hu : Usable p custom) (hover : ∀ i, i + 1 < p.time.length → p.time.getD i 0 + p.durOf i ≤ p.time.getD (i + 1) 0)
    (hlong : ∀ i, p.durOf i ≤ 86400) (times : List ℚ) (fs : List F) (ps : List P) :
    ∃ m, factor conv back turn gain p custom times fs ps = .ok m ∧ m.length = times.length ∧
      ∀ i (h : i < times.length) (h' : i < m.length), m[i].length = fs.length ∧
        ∀ j (hj : j < fs.length) (hj' : j < m[i].length), m[i][j].length = ps.length ∧
          ∀ k (hk : k < ps.length) (hk' : k < m[i][j].length), ∀ n, p.Active times[i] n →
            ∃ d o, p.dirs.list[n]? = some d ∧ orderOf conv p custom n = some o ∧
              m[i][j][k] = gain (some (back (p.time.getD n 0) (turn o))) (some (back (p.time.getD n 0) (turn o))) times[i] fs[j] ps[k]
                / gain (some (back (p.time.getD n 0) (turn o))) (some d) times[i] fs[j] ps[k] ∧
              (back (p.time.getD n 0) (turn o) = d → gain (some d) (some d) times[i] fs[j] ps[k] ≠ 0 → m[i][j][k] = 1) := by
  obtain ⟨r, hr, -⟩ := real_pointing_exact conv back turn p custom hu 0
  obtain ⟨m, hm, hl, hv⟩ := factor_ok conv back turn gain p custom times fs ps r hr
  refine ⟨m, hm, hl, fun i h h' => ⟨(hv i h h').1, fun j hj hj' => ⟨((hv i h h').2 j hj hj').1, fun k hk hk' n hn => ?_⟩⟩⟩
  have hval := ((hv i h h').2 j hj hj').2 k hk hk'
  generalize times[i] = t at hn hval
  obtain ⟨ds, hd, hdl⟩ := hu.dirs
  obtain ⟨r', hr', h1, -⟩ := real_pointing_exact conv back turn p custom hu t
  rw [hr] at hr'
  cases hr'
  obtain ⟨g1, g2, g3⟩ := hn
  have hend : t < endOf p.time n := by
    unfold endOf
    split_ifs with h5
    · exact lt_of_lt_of_le g3 (hover n h5)
    · have := hlong n
      linarith
  obtain ⟨o, ho, hro⟩ := h1 n g1 g2 hend
  have hdl' : p.dirList = ds := by
    unfold Pointing.dirList
    rw [hd]
  have hpd : p.at t = .ok (some (ds[n]'(by omega))) := by
    rw [(lookup_exact p t (by rw [hdl']; exact hdl)).2 n ⟨g1, g2, g3⟩ ?_, hdl', List.getElem?_eq_getElem]
    rintro a ha ⟨b1, b2, -⟩
    have : p.time.getD (n + 1) 0 ≤ p.time.getD a 0 := by
      rcases Nat.lt_or_ge (n + 1) a with h | h
      · exact (sorted_getD hu.sorted h b1).le
      · rw [show a = n + 1 by omega]
    have := hover n (by omega)
    linarith
  rw [dirAt_ok hro, dirAt_ok hpd] at hval
  refine ⟨ds[n]'(by omega), o, ?_, ho, hval, ?_⟩
  · rw [hd]
    exact List.getElem?_eq_getElem _
  · intro e hne
    rw [hval, e, div_self hne]

/-- **C121** (violated): when the digital pointing has a hole, or once it is over and for a day, the direction desired is taken to be
the zenith, while the array is taken to follow the last order: the factor has nothing to do with the target. An array with
the same gain in all directions but the zenith, which needs no correction, gets the factor 2. -/
theorem factor_hole_violated {D H : Type} (conv : ℚ → D → H) (back : ℚ → H → D) (turn : H → H) (p : Pointing D) (custom : Option (List H))
    (hu : Usable p custom) (t : ℚ) (n : Nat) (hn : n < p.time.length) (h0 : p.time.getD n 0 ≤ t) (h1 : t < endOf p.time n)
    (hh : ∀ i, ¬p.Active t i) :
    ∃ gain : Option D → Option D → ℚ → Unit → Unit → ℝ, (∀ a b : D, ∀ s, gain (some a) (some b) s () () = 1) ∧
      factor conv back turn gain p custom [t] [()] [()] = .ok [[[2]]] := by
  refine ⟨fun _ b _ _ _ => b.elim (1 / 2) fun _ => 1, fun _ _ _ => rfl, ?_⟩
  obtain ⟨r, hr, h2, -⟩ := real_pointing_exact conv back turn p custom hu t
  obtain ⟨o, -, hro⟩ := h2 n hn h0 h1
  obtain ⟨ds, hd, hdl⟩ := hu.dirs
  have hdl' : p.dirList = ds := by
    unfold Pointing.dirList
    rw [hd]
  have hpd := (lookup_exact p t (by rw [hdl']; exact hdl)).1 hh
  unfold factor
  rw [hr]
  show Except.ok [[[beamValue _ (dirAt r) (dirAt r) [t] 0 () () 0 / beamValue _ (dirAt r) (dirAt p) [t] 0 () () 0]]] = _
  unfold beamValue
  rw [show [t].getD 0 0 = t from rfl, dirAt_ok hro, dirAt_ok hpd]
  show Except.ok [[[(1 : ℝ) / (1 / 2)]]] = _
  norm_num

/-- **C121** (violated): this happens with every file of a digital beam, as in the example of the documentation: from ten seconds after
its last but one row to its last row. -/
theorem factor_file_violated {D H : Type} (conv : ℚ → D → H) (back : ℚ → H → D) (turn : H → H) (rows : List (ℚ × Nat × D)) (beam : Nat)
    (h2 : 2 ≤ (beamRows rows beam).length) (hs : ((beamRows rows beam).map Prod.fst).Pairwise (· < ·)) (l : List H)
    (hl : l.length = (beamRows rows beam).length) (t : ℚ)
    (h0 : ((beamRows rows beam).map Prod.fst).getD ((beamRows rows beam).length - 2) 0 + 10 ≤ t)
    (h1 : t < ((beamRows rows beam).map Prod.fst).getD ((beamRows rows beam).length - 1) 0) :
    ∃ p, fromAltazB rows beam = .ok p ∧
      ∃ gain : Option D → Option D → ℚ → Unit → Unit → ℝ, (∀ a b : D, ∀ s, gain (some a) (some b) s () () = 1) ∧
        factor conv back turn gain p (some l) [t] [()] [()] = .ok [[[2]]] := by
  obtain ⟨p, hp, -, hz⟩ := file_digital_partial rows beam h2 hs t
  have hpt : p.time = (beamRows rows beam).map Prod.fst ∧ p.dirs = .many ((beamRows rows beam).map Prod.snd) := by
    have hp' := hp
    unfold fromAltazB at hp'
    split at hp'
    · cases hp'
    · cases hi : insertBeforeLast 10 (diffs ((beamRows rows beam).map Prod.fst)) with
      | error e => rw [hi] at hp'; cases hp'
      | ok d =>
        rw [hi] at hp'
        change mkPointing _ _ _ = _ at hp'
        unfold mkPointing at hp'
        split at hp'
        · cases hp'
        · cases hp'
          exact ⟨rfl, rfl⟩
  have hlen : p.time.length = (beamRows rows beam).length := by rw [hpt.1, List.length_map]
  have hu : Usable p (some l) :=
    { sorted := by rw [hpt.1]; exact hs
      some_time := by
        intro e
        rw [e] at hlen
        simp at hlen
        omega
      dirs := ⟨_, hpt.2, by rw [hlen, List.length_map]⟩
      own := fun h => by cases h
      file := fun l' h => by cases h; rw [hl, hlen] }
  refine ⟨p, hp, factor_hole_violated conv back turn p (some l) hu t ((beamRows rows beam).length - 2) (by omega) ?_ ?_ ?_⟩
  · rw [hpt.1]; linarith
  · unfold endOf
    rw [if_pos (by omega), hpt.1, show (beamRows rows beam).length - 2 + 1 = (beamRows rows beam).length - 1 by omega]
    exact h1
  · intro i hi
    have hne := hz h0 h1
    have hm := mem_hits.2 hi
    unfold Pointing.at at hne
    cases hg : (p.hits t).getLast? with
    | none => rw [List.getLast?_eq_none_iff] at hg; rw [hg] at hm; cases hm
    | some j =>
      rw [hg] at hne
      have hj := mem_hits.1 (List.mem_of_getLast? hg)
      have hdl : p.dirList = (beamRows rows beam).map Prod.snd := by
        unfold Pointing.dirList
        rw [hpt.2]
      change (if p.dirList.length = p.time.length then Except.ok p.dirList[j]? else Except.error Err.indexError) = _ at hne
      rw [if_pos (by rw [hdl, hlen, List.length_map]), hdl, List.getElem?_eq_getElem (by rw [List.length_map, ← hlen]; exact hj.1)] at hne
      cases hne

/-- **C121** (violated): a pointing with one coordinate, whatever its times, is refused. -/
theorem factor_single_violated {D H F P : Type} (conv : ℚ → D → H) (back : ℚ → H → D) (turn : H → H)
    (gain : Option D → Option D → ℚ → F → P → ℝ) (p : Pointing D) (d : D) (hd : p.dirs = .one d ∨ p.dirs = .many [d]) (ht : p.time ≠ [])
    (times : List ℚ) (fs : List F) (ps : List P) : factor conv back turn gain p none times fs ps = .error .valueError := by
  have h1 : p.dirs.count = 1 := by rcases hd with h | h <;> rw [h] <;> rfl
  unfold factor realPointing orders
  show Except.map _ (Except.bind (if p.dirs.count = 1 then Except.ok _ else _) _) = _
  rw [if_pos h1]
  show Except.map _ (if p.time = [] then Except.error Err.indexError else if (true : Bool) = true then Except.error Err.valueError else _) = _
  rw [if_neg ht, if_pos rfl]
  rfl

/-! ## The hypotheses can be met -/

/-- One and a half second over an hour: the last matrix is half an hour late. -/
example : ∃ l, projectionTimes 1500000 3600000000 = .ok l ∧ (5400000000 : Int) ∈ l :=
  ⟨_, rfl, List.mem_map.2 ⟨3600, List.mem_range.2 (by decide), by decide⟩⟩

example : hdf5Check [3] [2] [2, 3, 2, 2] "jones.hdf5" = .ok () := by decide

/-- Three orders, the second one with a hole after it. -/
def holed : Pointing Nat := ⟨.many [5, 6, 7], [0, 10, 60], [10, 10, 10]⟩

example : Usable holed (none : Option (List Nat)) :=
  { sorted := by simp [holed]; norm_num
    some_time := by simp [holed]
    dirs := ⟨_, rfl, rfl⟩
    own := fun _ => by decide
    file := fun _ h => by cases h }

example : (∀ i, i + 1 < holed.time.length → holed.time.getD i 0 + holed.durOf i ≤ holed.time.getD (i + 1) 0) ∧ ∀ i, holed.durOf i ≤ 86400 := by
  constructor
  · intro i hi
    have : i + 1 < 3 := hi
    obtain rfl | rfl : i = 0 ∨ i = 1 := by omega
    · simp [holed, Pointing.durOf]
    · simp [holed, Pointing.durOf]; norm_num
  · intro i
    unfold Pointing.durOf holed
    rcases i with _ | _ | _ | i <;> simp <;> norm_num

example : (0 + 1 < 3 ∧ (10 : ℚ) ≤ 30 ∧ 30 < endOf holed.time 1) ∧ holed.Active 5 0 := by
  refine ⟨⟨by decide, by norm_num, ?_⟩, ?_⟩
  · simp [endOf, holed]; norm_num
  · refine ⟨by decide, ?_, ?_⟩ <;> simp [holed, Pointing.durOf] <;> norm_num

end Verif.Astro
