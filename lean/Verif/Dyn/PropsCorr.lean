import Verif.Dyn.Model
import Mathlib.Tactic.Linarith
import Mathlib.Tactic.Ring
import Mathlib.Tactic.NormNum
import Mathlib.Tactic.Push
import Mathlib.Data.List.GetD

/-!
# Corrections of the older reader: polarisation, jumps and median band-pass (C91 to C93)
-/

namespace Verif.Dyn

/-! ## C91: correction of the polarisation -/

theorem firstTrue_eq {p : Nat → Bool} {n q : Nat} (hq : q < n) (hp : p q = true) (hb : ∀ i, i < q → p i = false) : firstTrue p n = q := by
  unfold firstTrue
  have h1 := argmax_max (fun k => if p k then (1 : ℚ) else 0) hq
  simp only [hp, if_true] at h1
  have hm : p (argmax (fun k => if p k then (1 : ℚ) else 0) n) = true := by
    by_contra h
    rw [if_neg h] at h1
    norm_num at h1
  rcases Nat.lt_trichotomy (argmax (fun k => if p k then (1 : ℚ) else 0) n) q with h | h | h
  · have := hb _ h
    rw [hm] at this
    cases this
  · exact h
  · have := argmax_first (fun k => if p k then (1 : ℚ) else 0) h
    simp only [hp, hm, if_true] at this
    exact absurd this (lt_irrefl _)

theorem firstTrue_none {p : Nat → Bool} {n : Nat} (hb : ∀ i, i < n → p i = false) : firstTrue p n = 0 := by
  rcases Nat.eq_zero_or_pos (firstTrue p n) with h | h
  · exact h
  · have hn : 0 < n := by
      rcases Nat.eq_zero_or_pos n with h0 | h0
      · rw [h0] at h
        cases h
      · exact h0
    have := argmax_first (fun k => if p k then (1 : ℚ) else 0) h
    have hl : argmax (fun k => if p k then (1 : ℚ) else 0) n < n := argmax_lt _ hn
    rw [hb _ hn, hb _ hl] at this
    exact absurd this (lt_irrefl _)

theorem tailLen_pos {n k : Nat} (hk : 0 < k) (h : k ≤ n) : tailLen n k = k := by
  unfold tailLen pyBound
  rw [if_pos (by omega)]
  omega

theorem tailLen_zero (n : Nat) : tailLen n 0 = n := by
  unfold tailLen pyBound
  rw [if_neg (by omega)]
  omega

/-- Entries kept on a regular axis of step `D`, from `q`, the first one which is not before the data, for `m` blocks of the same step. -/
theorem jonesSlice_regular {j : Nat → ℚ} {n q m : Nat} {T D : ℚ} (hD : 0 < D) (hj : ∀ k, j (k + 1) = j k + D) (hq : T ≤ j q) (hq' : j q < T + D)
    (hm : 2 ≤ q + m) (h1 : 0 < m) (hn : q + m ≤ n) : jonesSlice j n T (T + ((m - 1 : Nat) : ℚ) * D) = (q, q + m) := by
  have hs : ∀ a b : Nat, j (a + b) = j a + (b : ℚ) * D := by
    intro a b
    induction b with
    | zero => simp
    | succ b ih =>
      rw [← Nat.add_assoc, hj, ih]
      push_cast
      ring
  have hmono : ∀ a b : Nat, a < b → j a + D ≤ j b := by
    intro a b hab
    obtain ⟨c, rfl⟩ := Nat.exists_eq_add_of_lt hab
    rw [show a + c + 1 = a + (c + 1) by omega, hs]
    push_cast
    have : 0 ≤ (c : ℚ) * D := mul_nonneg (by positivity) hD.le
    linarith
  unfold jonesSlice
  rw [firstTrue_eq (q := q) (by omega) (by rw [decide_eq_true_iff]; exact hq)]
  · rw [firstTrue_eq (q := n + 1 - (q + m)) (by omega)]
    · congr 1
      omega
    · rw [decide_eq_true_iff, show n - 1 - (n + 1 - (q + m)) = q + m - 2 by omega]
      rcases Nat.lt_or_ge m 2 with h | h
      · have hm1 : m = 1 := by omega
        rw [hm1, show q + 1 - 2 = q - 1 by omega]
        have := hmono (q - 1) q (by omega)
        simp only [Nat.sub_self, Nat.cast_zero, zero_mul, add_zero]
        linarith
      · rw [show q + m - 2 = q + (m - 2) by omega, hs]
        have e : ((m - 1 : Nat) : ℚ) = ((m - 2 : Nat) : ℚ) + 1 := by
          rw [show m - 1 = (m - 2) + 1 by omega]
          push_cast
          ring
        rw [e, add_mul, one_mul]
        linarith
    · intro i hi
      rw [decide_eq_false_iff_not, not_lt]
      have hge : q + (m - 1) ≤ n - 1 - i := by omega
      have h2 := hs q (m - 1)
      have h3 : j (q + (m - 1)) ≤ j (n - 1 - i) := by
        rcases Nat.lt_or_ge (q + (m - 1)) (n - 1 - i) with h | h
        · have := hmono _ _ h
          linarith
        · rw [show n - 1 - i = q + (m - 1) by omega]
      linarith
  · intro i hi
    rw [decide_eq_false_iff_not, not_le]
    have := hmono i q hi
    linarith

/-- **C91.** Matrices are given every `steps` spectra, and the data, which start at or after the first matrix, have a last block which is
not complete; matrix `q` is the first one which is not before the data. Then each complete block is treated with the first matrix which
is not before its own first spectrum. -/
theorem pol_blocks_partial (nt steps nj q : Nat) (time jt : Nat → ℚ) (dt : ℚ) (hdt : 0 < dt) (ht : ∀ k, time (k + 1) = time k + dt)
    (hj : ∀ k, jt (k + 1) = jt k + steps * dt) (hs : 0 < steps) (hr : nt % steps ≠ 0) (hb : 0 < nt / steps)
    (hq : time 0 ≤ jt q) (hq' : jt q < time 0 + steps * dt) (h2 : 2 ≤ q + nt / steps) (hn : q + nt / steps ≤ nj) :
    ∃ f, polTimes nt steps time nj jt = .ok f ∧ ∀ k, k < nt / steps * steps →
      f k < nj ∧ 0 ≤ jt (f k) - time (k / steps * steps) ∧ jt (f k) - time (k / steps * steps) < steps * dt := by
  have hD : (0 : ℚ) < steps * dt := mul_pos (by exact_mod_cast hs) hdt
  have htm : ∀ a : Nat, time a = time 0 + (a : ℚ) * dt := by
    intro a
    induction a with
    | zero => simp
    | succ a ih =>
      rw [ht, ih]
      push_cast
      ring
  have hjm : ∀ a b : Nat, jt (a + b) = jt a + (b : ℚ) * (steps * dt) := by
    intro a b
    induction b with
    | zero => simp
    | succ b ih =>
      rw [← Nat.add_assoc, hj, ih]
      push_cast
      ring
  have hlt : nt % steps < steps := Nat.mod_lt _ hs
  have hle : nt % steps ≤ nt := Nat.mod_le _ _
  have hsl : jonesSlice jt nj (time 0) (time ((nt / steps - 1) * steps)) = (q, q + nt / steps) := by
    rw [htm ((nt / steps - 1) * steps)]
    have := jonesSlice_regular (n := nj) hD hj hq hq' h2 hb hn
    rw [← this]
    congr 1
    push_cast
    ring
  unfold polTimes
  rw [if_neg (by omega), if_neg (by rw [tailLen_pos (by omega) hle]; simp), if_neg (by omega)]
  simp only [hsl]
  rw [if_pos (by unfold broadcast; rw [if_pos (by omega), Nat.add_sub_cancel_left])]
  refine ⟨_, rfl, fun k hk => ?_⟩
  have hkb : k / steps < nt / steps := (Nat.div_lt_iff_lt_mul hs).mpr hk
  have hf : (if k < nt / steps * steps then (if q + nt / steps - q = 1 then q else q + k / steps) else nj - 1) = q + k / steps := by
    rw [if_pos hk]
    split_ifs with h
    · have h1' : nt / steps = 1 := by omega
      have : k / steps = 0 := by rw [h1'] at hkb; exact Nat.lt_one_iff.mp hkb
      rw [this, Nat.add_zero]
    · rfl
  show _ ∧ 0 ≤ jt (if k < nt / steps * steps then (if q + nt / steps - q = 1 then q else q + k / steps) else nj - 1) - _ ∧
    jt (if k < nt / steps * steps then (if q + nt / steps - q = 1 then q else q + k / steps) else nj - 1) - _ < _
  rw [hf]
  refine ⟨?_, ?_, ?_⟩
  · omega
  · rw [hjm, htm]
    push_cast
    linarith
  · rw [hjm, htm]
    push_cast
    linarith

/-- **C91, violated.** When the number of spectra is a multiple of the number of spectra per matrix, the data cannot be treated. -/
theorem pol_multiple_violated (nt steps nj : Nat) (time jt : Nat → ℚ) (hs : 0 < steps) (hn : 0 < nt) (hd : steps ∣ nt) :
    polTimes nt steps time nj jt = .error .valueError := by
  have : nt % steps = 0 := Nat.mod_eq_zero_of_dvd hd
  unfold polTimes
  rw [if_neg (by omega), this, tailLen_zero, if_pos (by omega)]

/-- **C91, violated.** The spectra after the last complete block are treated with the last matrix of the whole observation, whatever
their time. -/
theorem pol_leftover_violated (nt steps nj : Nat) (time jt : Nat → ℚ) (f : Nat → Nat) (h : polTimes nt steps time nj jt = .ok f) (k : Nat)
    (hk : nt / steps * steps ≤ k) : f k = nj - 1 := by
  unfold polTimes at h
  split_ifs at h with h1 h2 h3
  simp only at h
  by_cases hb : broadcast ((jonesSlice jt nj (time 0) (time ((nt / steps - 1) * steps))).2 -
      (jonesSlice jt nj (time 0) (time ((nt / steps - 1) * steps))).1) (nt / steps) = some (nt / steps)
  · rw [if_pos hb] at h
    cases h
    exact if_neg (by omega)
  · rw [if_neg hb] at h
    cases h

/-- **C91, violated.** Data which start with the observation and last less than two blocks cannot be treated. -/
theorem pol_short_violated (nt steps nj : Nat) (time jt : Nat → ℚ) (hs : 0 < steps) (h1 : nt / steps = 1) (hr : nt % steps ≠ 0) (hj : 2 ≤ nj)
    (h0 : jt 0 = time 0) (hinc : ∀ k, jt 0 ≤ jt k) : polTimes nt steps time nj jt = .error .valueError := by
  have hlt : nt % steps < steps := Nat.mod_lt _ hs
  have hle : nt % steps ≤ nt := Nat.mod_le _ _
  have hsl : jonesSlice jt nj (time 0) (time ((nt / steps - 1) * steps)) = (0, nj) := by
    rw [h1]
    simp only [Nat.sub_self, Nat.zero_mul]
    unfold jonesSlice
    rw [firstTrue_eq (q := 0) (by omega) (by rw [decide_eq_true_iff, h0]) (by intro i hi; omega)]
    rw [firstTrue_none (by intro i _; rw [decide_eq_false_iff_not, not_lt, ← h0]; exact hinc _)]
    congr 1
    omega
  unfold polTimes
  rw [if_neg (by omega), if_neg (by rw [tailLen_pos (by omega) hle]; simp), if_neg (by omega)]
  simp only [hsl]
  rw [h1, if_neg]
  unfold broadcast
  rw [if_neg (by omega), if_neg (by omega), if_pos rfl]
  simp only [Option.some.injEq]
  omega

/-- Hypotheses of `pol_blocks_partial`: 23 spectra, a matrix every 5, data from the seventh spectrum of the observation on; and those of
`pol_short_violated`. -/
example : ∃ (time jt : Nat → ℚ), (∀ k, time (k + 1) = time k + 1) ∧ (∀ k, jt (k + 1) = jt k + (5 : Nat) * 1) ∧ 23 % 5 ≠ 0 ∧ 0 < 23 / 5 ∧
    time 0 ≤ jt 2 ∧ jt 2 < time 0 + (5 : Nat) * 1 ∧ 2 ≤ 2 + 23 / 5 ∧ 2 + 23 / 5 ≤ 10 ∧ 8 / 5 = 1 ∧ 8 % 5 ≠ 0 := by
  refine ⟨fun k => 7 + k, fun k => 5 * k, ?_, ?_, by decide, by decide, by norm_num, by norm_num, by decide, by decide, by decide, by decide⟩
  · intro k
    push_cast
    ring
  · intro k
    push_cast
    ring

/-! ## C92: jumps -/

theorem edge_zero (n per jumps first : Nat) : (jumpEdges n per jumps first).getD 0 0 = 0 := rfl

theorem edges_length (n per jumps first : Nat) : (jumpEdges n per jumps first).length = jumps + 2 := by simp [jumpEdges]

theorem edge_mid (n per jumps first i : Nat) (h : i < jumps) : (jumpEdges n per jumps first).getD (i + 1) 0 = first + i * per := by
  unfold jumpEdges
  rw [List.cons_append, List.getD_cons_succ, List.getD_append _ _ _ _ (by simpa using h), List.getD_eq_getElem _ _ (by simpa using h)]
  simp

theorem edge_last (n per jumps first : Nat) : (jumpEdges n per jumps first).getD (jumps + 1) 0 = n - 1 := by
  unfold jumpEdges
  rw [List.cons_append, List.getD_cons_succ, List.getD_append_right _ _ _ _ (by simp)]
  simp

/-- The edges are in order. -/
theorem edge_le (n per jumps first i : Nat) (hi : i < jumps + 1) (hn : first + (jumps - 1) * per ≤ n - 1) :
    (jumpEdges n per jumps first).getD i 0 ≤ (jumpEdges n per jumps first).getD (i + 1) 0 := by
  cases i with
  | zero => rw [edge_zero]; omega
  | succ i =>
    rw [edge_mid _ _ _ _ _ (by omega)]
    rcases Nat.lt_or_ge (i + 1) jumps with h | h
    · rw [edge_mid _ _ _ _ _ h, Nat.add_mul]
      omega
    · have e : i + 1 = jumps := by omega
      rw [e, edge_last]
      rw [show i = jumps - 1 by omega]
      exact hn

/-- **C92.** Every spectrum is divided by a fit. -/
theorem jump_covered_partial (n per jumps first k : Nat) (hk : k < n) : fitsOf (jumpEdges n per jumps first) k ≠ [] := by
  intro hf
  have key : ∀ i, i < jumps + 1 → (jumpEdges n per jumps first).getD i 0 ≤ k → (jumpEdges n per jumps first).getD (i + 1) 0 < k := by
    intro i hi h
    by_contra hc
    push Not at hc
    have : i ∈ fitsOf (jumpEdges n per jumps first) k := by
      unfold fitsOf
      rw [List.mem_filter, List.mem_range, edges_length, decide_eq_true_iff]
      exact ⟨by omega, h, hc⟩
    rw [hf] at this
    cases this
  have all : ∀ i, i ≤ jumps + 1 → (jumpEdges n per jumps first).getD i 0 ≤ k := by
    intro i
    induction i with
    | zero => intro _; rw [edge_zero]; omega
    | succ i ih =>
      intro hi
      exact (key i (by omega) (ih (by omega))).le
  have := key jumps (by omega) (all jumps (by omega))
  rw [edge_last] at this
  omega

/-- **C92.** A spectrum which is not on a jump is divided by one fit only. -/
theorem jump_once_partial (n per jumps first k : Nat) (hn : first + (jumps - 1) * per ≤ n - 1)
    (hj : ∀ i, i < jumps → k ≠ first + i * per) (i j : Nat)
    (hi : i ∈ fitsOf (jumpEdges n per jumps first) k) (hjj : j ∈ fitsOf (jumpEdges n per jumps first) k) : i = j := by
  have mono : ∀ a b, a ≤ b → b ≤ jumps + 1 → (jumpEdges n per jumps first).getD a 0 ≤ (jumpEdges n per jumps first).getD b 0 := by
    intro a b hab
    induction hab with
    | refl => intro _; exact le_rfl
    | step hab ih =>
      intro hb
      exact (ih (by omega)).trans (edge_le _ _ _ _ _ (by omega) hn)
  have one : ∀ i j, i ∈ fitsOf (jumpEdges n per jumps first) k → j ∈ fitsOf (jumpEdges n per jumps first) k → ¬ i < j := by
    intro i j hi hj' hlt
    unfold fitsOf at hi hj'
    rw [List.mem_filter, List.mem_range, edges_length, decide_eq_true_iff] at hi hj'
    have h1 := mono (i + 1) j hlt (by omega)
    have h2 : (jumpEdges n per jumps first).getD (i + 1) 0 = k := by omega
    rw [edge_mid _ _ _ _ _ (by omega)] at h2
    exact hj i (by omega) h2.symm
  have := one i j hi hjj
  have := one j i hjj hi
  omega

/-- **C92, violated.** A spectrum on a jump is divided by the fits of both sides. -/
theorem jump_twice_violated (n per jumps first i : Nat) (hi : i < jumps) (hn : first + (jumps - 1) * per ≤ n - 1) :
    i ∈ fitsOf (jumpEdges n per jumps first) (first + i * per) ∧ i + 1 ∈ fitsOf (jumpEdges n per jumps first) (first + i * per) := by
  have e := edge_mid n per jumps first i hi
  unfold fitsOf
  rw [List.mem_filter, List.mem_filter, List.mem_range, List.mem_range, edges_length, decide_eq_true_iff, decide_eq_true_iff, e]
  have h1 := edge_le n per jumps first i (by omega) hn
  have h2 := edge_le n per jumps first (i + 1) (by omega) hn
  rw [e] at h1 h2
  exact ⟨⟨by omega, h1, le_rfl⟩, ⟨by omega, le_rfl, h2⟩⟩

/-- **C92, violated.** When more spectra are left after the last whole six minutes than there are before the first jump, the last jump is not an edge: two sides of it are
fitted together. -/
theorem jump_missed_violated (per q r first : Nat) (hr : r ≤ per) (hf : first + 1 < r) :
    perJump (360 / (per : ℚ)) = per ∧ nJumps (q * per + r) (360 / (per : ℚ)) = q ∧ first + q * per < q * per + r - 1 ∧
      first + q * per ∉ (jumpEdges (q * per + r) per q first).tail := by
  have hp : (0 : ℚ) < per := by exact_mod_cast (by omega : 0 < per)
  refine ⟨?_, ?_, by omega, ?_⟩
  · unfold perJump
    rw [show (360 : ℚ) / (360 / (per : ℚ)) = ((per : ℤ) : ℚ) by push_cast; field_simp, Int.floor_intCast]
    omega
  · unfold nJumps
    have e : ⌈((q * per + r : Nat) : ℚ) * (360 / (per : ℚ)) / 360⌉ = (q : ℤ) + 1 := by
      rw [show ((q * per + r : Nat) : ℚ) * (360 / (per : ℚ)) / 360 = q + r / per by push_cast; field_simp]
      rw [Int.ceil_eq_iff]
      have h1 : (0 : ℚ) < r := by exact_mod_cast (by omega : 0 < r)
      have h2 : (r : ℚ) / per ≤ 1 := by rw [div_le_one hp]; exact_mod_cast hr
      have h3 : (0 : ℚ) < r / per := div_pos h1 hp
      push_cast
      constructor <;> linarith
    rw [e]
    omega
  · show first + q * per ∉ ((List.range q).map fun k => first + k * per) ++ [q * per + r - 1]
    rw [List.mem_append, not_or]
    constructor
    · intro h
      obtain ⟨k, hk, e⟩ := List.mem_map.1 h
      have hk := List.mem_range.1 hk
      have : k * per = q * per := by omega
      have := Nat.eq_of_mul_eq_mul_right (by omega) this
      omega
    · intro h
      have := List.mem_singleton.1 h
      omega

example : jumpEdges 15 10 1 1 = [0, 1, 14] := by decide

example : 3 + (2 - 1) * 10 ≤ 25 - 1 ∧ (∀ i, i < 2 → 7 ≠ 3 + i * 10) ∧ fitsOf (jumpEdges 25 10 2 3) 7 = [1] ∧
    fitsOf (jumpEdges 25 10 2 3) 13 = [1, 2] := by decide

/-! ## C93: median band-pass -/

/-- **C93.** With one polarisation, the median correction accepts whole sub-bands. -/
theorem median_one_partial (nf nChan : Nat) (hc : 0 < nChan) (hd : nChan ∣ nf) : medianBandpass nf 1 nChan = .ok () := by
  unfold medianBandpass
  rw [if_neg (by omega), Nat.mul_one, if_neg]
  rw [Nat.mul_one, Nat.div_mul_cancel hd]
  simp

/-- **C93, violated.** With two polarisations or more it fails. -/
theorem median_several_violated (nf np nChan : Nat) (hc : 0 < nChan) (hd : nChan ∣ nf) (hn : 0 < nf) (hp : 2 ≤ np) :
    medianBandpass nf np nChan = .error .valueError := by
  unfold medianBandpass
  rw [if_neg (by omega), if_pos]
  rw [Nat.div_mul_cancel (Dvd.dvd.mul_right hd np)]
  have : 0 < nf * np := Nat.mul_pos hn (by omega)
  have : nf * np * 2 ≤ nf * np * np := Nat.mul_le_mul_left _ hp
  omega

example : (0 : Nat) < 16 ∧ 16 ∣ 48 ∧ 2 ≤ 2 := by decide

end Verif.Dyn
