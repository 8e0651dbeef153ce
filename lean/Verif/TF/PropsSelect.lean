import Verif.TF.Select
import Verif.TF.PropsShift

/-!
# Selection of raw data and bad blocks (properties C51 and C52)
-/

namespace Verif.TF

/-! ## Specification -/

/-- Blocks of duration `D`, in order, possibly with gaps between them. -/
def Blocks (s : Nat → ℚ) (n : Nat) (D : ℚ) : Prop := ∀ j, j + 1 < n → s j + D ≤ s (j + 1)

/-- Time of row `r` of the data. -/
def rowTime (s : Nat → ℚ) (nt : Nat) (dt : ℚ) (r : Nat) : ℚ := s (r / nt) + ((r % nt : Nat) : ℚ) * dt

theorem Blocks.mono {s : Nat → ℚ} {n : Nat} {D : ℚ} (h : Blocks s n D) (hD : 0 ≤ D) :
    ∀ {i j : Nat}, i < j → j < n → s i + D ≤ s j := by
  intro i j hij
  induction j with
  | zero => omega
  | succ j ih =>
    intro hj
    rcases Nat.lt_succ_iff_lt_or_eq.mp hij with hlt | rfl
    · have h1 := ih hlt (by omega)
      have h2 := h j hj
      linarith
    · exact h i hj

/-- **C51**: blocks which last between one and two seconds: the block found for a time is the one which contains it. -/
theorem near_block_partial (s : Nat → ℚ) (n : Nat) (D t : ℚ) (hb : Blocks s n D) (h1 : 1 ≤ D) (h2 : D ≤ 2) (i : Nat) (hi : i < n)
    (hlo : s i ≤ t) (hhi : t < s i + D) : nearIdx s n t = i := by
  have hv : ⌈s i - t⌉ ≤ 0 := Int.ceil_le.mpr (by push_cast; linarith)
  have hv' : -1 ≤ ⌈s i - t⌉ := by
    have : -2 < ⌈s i - t⌉ := Int.lt_ceil.mpr (by push_cast; linarith)
    omega
  have before : ∀ j, j < i → ⌈s j - t⌉ < ⌈s i - t⌉ := by
    intro j hj
    have hs := hb.mono (by linarith) hj hi
    have : ⌈s j - t⌉ ≤ ⌈s i - t⌉ - 1 := by
      apply Int.ceil_le.mpr
      have := Int.le_ceil (s i - t)
      push_cast; linarith
    omega
  have after : ∀ j, i < j → j < n → 1 ≤ ⌈s j - t⌉ := by
    intro j hj hjn
    have hs := hb.mono (by linarith) hj hjn
    have : 0 < ⌈s j - t⌉ := Int.lt_ceil.mpr (by push_cast; linarith)
    omega
  have habs : ∀ j, |((⌈s j - t⌉ : Int) : ℚ)| = ((|⌈s j - t⌉| : Int) : ℚ) := fun j => by push_cast; rfl
  unfold nearIdx
  have hmax := argmax_max (fun i => -|((⌈s i - t⌉ : Int) : ℚ)|) hi
  have hlt := argmax_lt (fun i => -|((⌈s i - t⌉ : Int) : ℚ)|) (show 0 < n by omega)
  have hfirst := fun j => argmax_first (fun i => -|((⌈s i - t⌉ : Int) : ℚ)|) (n := n) (j := j)
  generalize argmax (fun i => -|((⌈s i - t⌉ : Int) : ℚ)|) n = a at hmax hlt hfirst
  rcases lt_trichotomy a i with h | h | h
  · exfalso
    have hb := before a h
    rw [habs, habs] at hmax
    have hm : (|⌈s a - t⌉| : Int) ≤ |⌈s i - t⌉| := by
      have : ((|⌈s a - t⌉| : Int) : ℚ) ≤ ((|⌈s i - t⌉| : Int) : ℚ) := by linarith
      exact_mod_cast this
    rw [abs_of_neg (by omega : ⌈s a - t⌉ < 0), abs_of_nonpos hv] at hm
    omega
  · exact h
  · exfalso
    have ha := after a h hlt
    have hf := hfirst i h
    rw [habs, habs] at hf
    have hm : (|⌈s a - t⌉| : Int) < |⌈s i - t⌉| := by
      have : ((|⌈s a - t⌉| : Int) : ℚ) < ((|⌈s i - t⌉| : Int) : ℚ) := by linarith
      exact_mod_cast this
    rw [abs_of_pos (by omega : 0 < ⌈s a - t⌉), abs_of_nonpos hv] at hm
    omega

theorem inBlock_lt (start : ℚ) (nt : Nat) (dt t : ℚ) (h : 0 < nt) : inBlock start nt dt t < nt := by
  unfold inBlock; omega

/-- The sample found in a block is not after the first one at or after the requested time. -/
theorem inBlock_le (start : ℚ) (nt : Nat) (dt t : ℚ) (hdt : 0 < dt) (k : Nat) (hk : t ≤ start + (k : ℚ) * dt) :
    inBlock start nt dt t ≤ k := by
  have h1 : (t - start) / dt ≤ k := by rw [div_le_iff₀ hdt]; linarith
  have h2 : rint ((t - start) / dt) ≤ k := by
    have h3 := Int.floor_le ((t - start) / dt)
    have hx : (((⌊(t - start) / dt⌋ : Int)) : ℚ) ≤ k := le_trans h3 h1
    have hx' : ⌊(t - start) / dt⌋ ≤ (k : Int) := by exact_mod_cast hx
    unfold rint
    rcases lt_or_eq_of_le hx' with hlt | heq
    · split_ifs <;> omega
    · have hk : (t - start) / dt - (⌊(t - start) / dt⌋ : ℚ) ≤ 0 := by
        rw [heq]; push_cast; linarith
      rw [if_pos (by linarith)]; omega
  unfold inBlock
  omega

/-- The sample found in a block is not before the last one at or before the requested time. -/
theorem le_inBlock (start : ℚ) (nt : Nat) (dt t : ℚ) (hdt : 0 < dt) (k : Nat) (hn : k < nt) (hk : start + (k : ℚ) * dt ≤ t) :
    k ≤ inBlock start nt dt t := by
  have h1 : (k : ℚ) ≤ (t - start) / dt := by rw [le_div_iff₀ hdt]; linarith
  have h2 : (k : Int) ≤ ⌊(t - start) / dt⌋ := Int.le_floor.mpr (by push_cast; exact h1)
  have h3 : (k : Int) ≤ rint ((t - start) / dt) := by
    unfold rint; split_ifs <;> omega
  unfold inBlock
  omega

theorem selectRaw_some {s : Nat → ℚ} {n nt : Nat} {dt tmin tmax : ℚ} {sb : Nat → ℚ} {nc : Nat} {df fmin fmax : ℚ}
    {beam : Option (Nat × Nat)} {r : Sel} (h : selectRaw s n nt dt tmin tmax sb nc df fmin fmax beam = .ok (some r)) :
    0 < n ∧ ∃ e, beam = some e ∧ 0 < (e.2 + 1) / nc - e.1 / nc ∧
      r =
        { nTime := (timeSlice s nt dt (nearIdx s n tmin) (nearIdx s n tmax) (inBlock (s (nearIdx s n tmin)) nt dt tmin)
            (inBlock (s (nearIdx s n tmax)) nt dt tmax)).1
          time := (timeSlice s nt dt (nearIdx s n tmin) (nearIdx s n tmax) (inBlock (s (nearIdx s n tmin)) nt dt tmin)
            (inBlock (s (nearIdx s n tmax)) nt dt tmax)).2
          nFreq := (nearIdx (fun j => sb (e.1 / nc + j)) ((e.2 + 1) / nc - e.1 / nc) fmax + 1
            - nearIdx (fun j => sb (e.1 / nc + j)) ((e.2 + 1) / nc - e.1 / nc) fmin) * nc
          freq := specFreq (fun j => sb (e.1 / nc + (nearIdx (fun j => sb (e.1 / nc + j)) ((e.2 + 1) / nc - e.1 / nc) fmin + j))) nc df
          nRow := min (nearIdx s n tmax * nt + inBlock (s (nearIdx s n tmax)) nt dt tmax + 1) (n * nt)
            - (nearIdx s n tmin * nt + inBlock (s (nearIdx s n tmin)) nt dt tmin)
          row := fun k => nearIdx s n tmin * nt + inBlock (s (nearIdx s n tmin)) nt dt tmin + k
          nCol := min ((nearIdx (fun j => sb (e.1 / nc + j)) ((e.2 + 1) / nc - e.1 / nc) fmax + 1) * nc) (e.2 + 1 - e.1)
            - nearIdx (fun j => sb (e.1 / nc + j)) ((e.2 + 1) / nc - e.1 / nc) fmin * nc
          col := fun k => e.1 + (nearIdx (fun j => sb (e.1 / nc + j)) ((e.2 + 1) / nc - e.1 / nc) fmin * nc + k) } := by
  unfold selectRaw at h
  dsimp only at h
  split_ifs at h with hn hr hi hb hm
  · injection h with h
    cases h
  · cases beam with
    | none => exact absurd rfl hb
    | some e =>
      refine ⟨Nat.pos_of_ne_zero hn, e, rfl, Nat.pos_of_ne_zero hm, ?_⟩
      injection h with h
      injection h with h
      exact h.symm

theorem row_mod {nt a k : Nat} (h : k < nt) : (a * nt + k) % nt = k := by
  rw [Nat.mul_comm, Nat.mul_add_mod, Nat.mod_eq_of_lt h]

theorem row_div {nt a k : Nat} (h : k < nt) : (a * nt + k) / nt = a := by
  rw [Nat.mul_comm, Nat.mul_add_div (by omega), Nat.div_eq_of_lt h, Nat.add_zero]

/-- **C51**: the axes have the dimensions of the data, and each time is that of its row of the data, for all block starts,
intervals and beams whose edges are whole sub-bands. -/
theorem select_axes (s : Nat → ℚ) (n nt : Nat) (dt tmin tmax : ℚ) (sb : Nat → ℚ) (nc : Nat) (df fmin fmax : ℚ) (first m : Nat)
    (hnt : 0 < nt) (hnc : 0 < nc) (hm : 0 < m) (r : Sel)
    (h : selectRaw s n nt dt tmin tmax sb nc df fmin fmax (some (first * nc, (first + m) * nc - 1)) = .ok (some r)) :
    r.nTime = r.nRow ∧ r.nFreq = r.nCol ∧ (∀ k, k < r.nRow → r.row k < n * nt ∧ r.time k = rowTime s nt dt (r.row k)) ∧
      ∀ k, k < r.nCol → first * nc ≤ r.col k ∧ r.col k < (first + m) * nc ∧
        r.freq k = sb (r.col k / nc) + (((r.col k % nc : Nat) : ℚ) - (nc : ℚ) / 2) * df := by
  obtain ⟨hn, e, he, -, rfl⟩ := selectRaw_some h
  cases he
  clear h
  dsimp only
  have hb0 := argmax_lt (fun i => -|((⌈s i - tmin⌉ : Int) : ℚ)|) hn
  have hb1 := argmax_lt (fun i => -|((⌈s i - tmax⌉ : Int) : ℚ)|) hn
  change nearIdx s n tmin < n at hb0
  change nearIdx s n tmax < n at hb1
  generalize nearIdx s n tmin = b0 at *
  generalize nearIdx s n tmax = b1 at *
  have hi0 := inBlock_lt (s b0) nt dt tmin hnt
  have hi1 := inBlock_lt (s b1) nt dt tmax hnt
  generalize inBlock (s b0) nt dt tmin = i0 at *
  generalize inBlock (s b1) nt dt tmax = i1 at *
  have hpos : 0 < (first + m) * nc := Nat.mul_pos (by omega) hnc
  have hsub : (first + m) * nc - 1 + 1 = (first + m) * nc := by omega
  rw [hsub, Nat.mul_div_cancel _ hnc, Nat.mul_div_cancel _ hnc, Nat.add_sub_cancel_left]
  have hk0 := argmax_lt (fun i => -|((⌈sb (first + i) - fmin⌉ : Int) : ℚ)|) hm
  have hk1 := argmax_lt (fun i => -|((⌈sb (first + i) - fmax⌉ : Int) : ℚ)|) hm
  change nearIdx (fun j => sb (first + j)) m fmin < m at hk0
  change nearIdx (fun j => sb (first + j)) m fmax < m at hk1
  generalize nearIdx (fun j => sb (first + j)) m fmin = k0 at *
  generalize nearIdx (fun j => sb (first + j)) m fmax = k1 at *
  have hr1 : b1 * nt + nt ≤ n * nt := by
    have := Nat.mul_le_mul_right nt (show b1 + 1 ≤ n by omega)
    rwa [Nat.succ_mul] at this
  have hr0 : b0 * nt + nt ≤ n * nt := by
    have := Nat.mul_le_mul_right nt (show b0 + 1 ≤ n by omega)
    rwa [Nat.succ_mul] at this
  have hbm : (first + m) * nc - first * nc = m * nc := by rw [Nat.add_mul, Nat.add_sub_cancel_left]
  have hkm : (k1 + 1) * nc ≤ m * nc := Nat.mul_le_mul_right nc (by omega)
  rw [hbm, Nat.min_eq_left hkm, Nat.min_eq_left (show b1 * nt + i1 + 1 ≤ n * nt by omega)]
  -- rows
  have time_eq : ((timeSlice s nt dt b0 b1 i0 i1).1 = b1 * nt + i1 + 1 - (b0 * nt + i0)) ∧
      ∀ k, k < b1 * nt + i1 + 1 - (b0 * nt + i0) →
        (timeSlice s nt dt b0 b1 i0 i1).2 k = specTime (fun j => s (b0 + j)) nt dt (i0 + k) := by
    unfold timeSlice
    dsimp only
    rcases Nat.lt_or_ge b1 b0 with hlt | hge
    · have e0 : b1 + 1 - b0 = 0 := by omega
      have hle : b1 * nt + nt ≤ b0 * nt := by
        have := Nat.mul_le_mul_right nt (show b1 + 1 ≤ b0 by omega)
        rwa [Nat.succ_mul] at this
      rw [e0, Nat.zero_mul]
      have hz : ∀ x : Int, pyBound 0 x = 0 := fun x => by have := pyBound_le 0 x; omega
      simp only [hz]
      constructor
      · omega
      · intro k hk; omega
    · obtain ⟨d, rfl⟩ := Nat.exists_eq_add_of_le hge
      have e0 : b0 + d + 1 - b0 = d + 1 := by omega
      rw [e0, Nat.add_mul b0 d nt, Nat.add_mul d 1 nt, Nat.one_mul]
      have e1 : pyBound (d * nt + nt) ((((d * nt + nt : Nat)) : Int) - ((nt : Int) - (i1 : Int)) + 1) = d * nt + i1 + 1 := by
        have : ((((d * nt + nt : Nat)) : Int) - ((nt : Int) - (i1 : Int)) + 1) = ((d * nt + i1 + 1 : Nat) : Int) := by
          push_cast; ring
        rw [this, pyBound_nat]
        omega
      have e2 : pyBound (d * nt + nt) (i0 : Int) = i0 := by rw [pyBound_nat]; omega
      rw [e1, e2]
      constructor
      · omega
      · intro k _; rfl
  refine ⟨time_eq.1, ?_, ?_, ?_⟩
  · rw [Nat.sub_mul]
  · intro k hk
    refine ⟨by omega, ?_⟩
    rw [time_eq.2 k hk]
    unfold specTime rowTime
    have e1 : b0 * nt + i0 + k = (i0 + k) + b0 * nt := by omega
    rw [e1, Nat.add_mul_mod_self_right, Nat.add_mul_div_right _ _ hnt, Nat.add_comm ((i0 + k) / nt) b0]
    ring
  · intro k hk
    have h1 : first * nc + (k0 * nc + k) = k + (first + k0) * nc := by rw [Nat.add_mul]; omega
    have h2 : k0 * nc + k < m * nc := by omega
    refine ⟨by omega, by rw [Nat.add_mul]; omega, ?_⟩
    rw [h1, Nat.add_mul_mod_self_right, Nat.add_mul_div_right _ _ hnc]
    unfold specFreq
    rw [show k / nc + (first + k0) = first + (k0 + k / nc) by omega]
    ring

/-- **C51**: blocks which last between one and two seconds, with or without gaps, and an interval whose ends are recorded:
every sample of the interval is selected, unless the selection is refused as empty or the beam is unknown. -/
theorem select_covers_partial (s : Nat → ℚ) (n nt : Nat) (dt tmin tmax : ℚ) (sb : Nat → ℚ) (nc : Nat) (df fmin fmax : ℚ)
    (beam : Option (Nat × Nat)) (hdt : 0 < dt) (hb : Blocks s n (nt * dt)) (h1 : 1 ≤ (nt : ℚ) * dt) (h2 : (nt : ℚ) * dt ≤ 2)
    (i j : Nat) (hi : i < n) (hj : j < n) (hti : s i ≤ tmin ∧ tmin < s i + nt * dt) (htj : s j ≤ tmax ∧ tmax < s j + nt * dt)
    (r : Sel) (h : selectRaw s n nt dt tmin tmax sb nc df fmin fmax beam = .ok (some r))
    (x : Nat) (hx : x < n * nt) (hxl : tmin ≤ rowTime s nt dt x) (hxh : rowTime s nt dt x ≤ tmax) :
    ∃ k, k < r.nRow ∧ r.row k = x := by
  obtain ⟨hn, e, he, -, rfl⟩ := selectRaw_some h
  clear h
  dsimp only
  rw [near_block_partial s n (nt * dt) tmin hb h1 h2 i hi hti.1 hti.2,
    near_block_partial s n (nt * dt) tmax hb h1 h2 j hj htj.1 htj.2]
  have hnt : 0 < nt := by
    rcases Nat.eq_zero_or_pos nt with h0 | h0
    · rw [h0] at h1; norm_num at h1
    · exact h0
  have hxd : x / nt < n := by rw [Nat.div_lt_iff_lt_mul hnt]; exact hx
  have hxm : x % nt < nt := Nat.mod_lt _ hnt
  have hxe : x = x / nt * nt + x % nt := (Nat.div_add_mod' x nt).symm
  unfold rowTime at hxl hxh
  have hD : (0 : ℚ) ≤ nt * dt := by linarith
  have hmod : (((x % nt : Nat) : ℚ) + 1) * dt ≤ nt * dt := by
    apply mul_le_mul_of_nonneg_right _ hdt.le
    exact_mod_cast hxm
  have hlow : i * nt + inBlock (s i) nt dt tmin ≤ x := by
    rcases lt_trichotomy (x / nt) i with hlt | heq | hgt
    · have := hb.mono hD hlt hi
      exfalso; nlinarith
    · rw [hxe, heq]
      rw [heq] at hxl
      have := inBlock_le (s i) nt dt tmin hdt (x % nt) hxl
      omega
    · have h3 := inBlock_lt (s i) nt dt tmin hnt
      have h4 : i * nt + nt ≤ x / nt * nt := by
        have := Nat.mul_le_mul_right nt (show i + 1 ≤ x / nt by omega)
        rwa [Nat.succ_mul] at this
      omega
  have hhigh : x ≤ j * nt + inBlock (s j) nt dt tmax := by
    rcases lt_trichotomy (x / nt) j with hlt | heq | hgt
    · have h4 : x / nt * nt + nt ≤ j * nt := by
        have := Nat.mul_le_mul_right nt (show x / nt + 1 ≤ j by omega)
        rwa [Nat.succ_mul] at this
      omega
    · rw [heq] at hxh hxe
      have := le_inBlock (s j) nt dt tmax hdt (x % nt) hxm hxh
      omega
    · have := hb.mono hD hgt hxd
      have h0 : (0 : ℚ) ≤ ((x % nt : Nat) : ℚ) * dt := by positivity
      exfalso; linarith
  refine ⟨x - (i * nt + inBlock (s i) nt dt tmin), by omega, by omega⟩

/-- Data of three blocks of 1.5 s, half a second apart. -/
example : Blocks (fun i => (i : ℚ) * 2) 3 (15 * (1 / 10)) ∧ 1 ≤ (15 : ℚ) * (1 / 10) ∧ (15 : ℚ) * (1 / 10) ≤ 2 := by
  refine ⟨fun j _ => ?_, by norm_num, by norm_num⟩
  push_cast; linarith

/-- **C51** (violated): blocks shorter than a second. The end of the interval is looked for in the first block which starts less than a second before it: no sample of the
following blocks is returned, although they are within the interval. -/
theorem select_short_violated (s : Nat → ℚ) (n nt : Nat) (dt tmin tmax : ℚ) (sb : Nat → ℚ) (nc : Nat) (df fmin fmax : ℚ) (beam : Option (Nat × Nat)) (hnt : 0 < nt)
    (i : Nat) (hi : i < n) (h0 : s i ≤ tmax) (h1 : tmax < s i + 1) (r : Sel) (h : selectRaw s n nt dt tmin tmax sb nc df fmin fmax beam = .ok (some r)) :
    ∀ k, k < r.nRow → r.row k < (i + 1) * nt := by
  have hz : ⌈s i - tmax⌉ = 0 := Int.ceil_eq_zero_iff.mpr ⟨by linarith, by linarith⟩
  have hle : nearIdx s n tmax ≤ i := by
    by_contra hc
    have := argmax_first (fun i => -|((⌈s i - tmax⌉ : Int) : ℚ)|) (n := n) (j := i) (by unfold nearIdx at hc; omega)
    rw [hz] at this
    have hp := abs_nonneg ((⌈s (argmax (fun i => -|((⌈s i - tmax⌉ : Int) : ℚ)|) n) - tmax⌉ : Int) : ℚ)
    simp only [Int.cast_zero, abs_zero, neg_zero] at this
    linarith
  obtain ⟨-, e, -, -, rfl⟩ := selectRaw_some h
  dsimp only
  intro k hk
  have hb := inBlock_lt (s (nearIdx s n tmax)) nt dt tmax hnt
  have hm : (nearIdx s n tmax + 1) * nt ≤ (i + 1) * nt := Nat.mul_le_mul_right _ (by omega)
  rw [Nat.add_mul, Nat.one_mul] at hm
  omega

/-- **C51** (violated): blocks longer than two seconds. From an interval which starts in a block, but closer to the next one by two seconds, no sample of the block is
returned. -/
theorem select_long_violated (s : Nat → ℚ) (n nt : Nat) (dt tmin tmax : ℚ) (sb : Nat → ℚ) (nc : Nat) (df fmin fmax : ℚ) (beam : Option (Nat × Nat))
    (i : Nat) (hi : i + 1 < n) (hs : ∀ j, j < i → s j ≤ s i) (h1 : tmin ≤ s (i + 1)) (h2 : s (i + 1) - tmin + 2 ≤ tmin - s i) (r : Sel)
    (h : selectRaw s n nt dt tmin tmax sb nc df fmin fmax beam = .ok (some r)) : ∀ k, (i + 1) * nt ≤ r.row k := by
  have hlt : i < nearIdx s n tmin := by
    by_contra hc
    have hm := argmax_max (fun i => -|((⌈s i - tmin⌉ : Int) : ℚ)|) hi
    change -|((⌈s (i + 1) - tmin⌉ : Int) : ℚ)| ≤ -|((⌈s (nearIdx s n tmin) - tmin⌉ : Int) : ℚ)| at hm
    have hj : s (nearIdx s n tmin) ≤ s i := by
      rcases Nat.lt_or_ge (nearIdx s n tmin) i with e | e
      · exact hs _ e
      · have : nearIdx s n tmin = i := by omega
        rw [this]
    have c1 : ((⌈s (i + 1) - tmin⌉ : Int) : ℚ) < s (i + 1) - tmin + 1 := Int.ceil_lt_add_one _
    have c0 : (0 : ℚ) ≤ ((⌈s (i + 1) - tmin⌉ : Int) : ℚ) := le_trans (by linarith) (Int.le_ceil _)
    have c2 : ((⌈s (nearIdx s n tmin) - tmin⌉ : Int) : ℚ) < s (nearIdx s n tmin) - tmin + 1 := Int.ceil_lt_add_one _
    rw [abs_of_nonneg c0, abs_of_nonpos (by linarith)] at hm
    linarith
  obtain ⟨-, e, -, -, rfl⟩ := selectRaw_some h
  dsimp only
  intro k
  have hm : (i + 1) * nt ≤ nearIdx s n tmin * nt := Nat.mul_le_mul_right _ (by omega)
  omega

/-- With blocks of half a second the end of the interval is looked for in an earlier block: the second half of the data is lost. -/
theorem select_short_blocks_violated :
    ∃ r, selectRaw (fun i => (i : ℚ) / 2) 2 5 (1 / 10) 0 (9 / 10) (fun _ => 0) 1 1 0 0 (some (0, 0)) = .ok (some r) ∧
      rowTime (fun i => (i : ℚ) / 2) 5 (1 / 10) 7 ≤ 9 / 10 ∧ ¬ ∃ k, k < r.nRow ∧ r.row k = 7 := by
  have e0 : nearIdx (fun i => (i : ℚ) / 2) 2 0 = 0 := by decide +kernel
  have e1 : nearIdx (fun i => (i : ℚ) / 2) 2 (9 / 10) = 0 := by decide +kernel
  have e2 : inBlock (((0 : Nat) : ℚ) / 2) 5 (1 / 10) 0 = 0 := by decide +kernel
  have e3 : inBlock (((0 : Nat) : ℚ) / 2) 5 (1 / 10) (9 / 10) = 4 := by decide +kernel
  have key : ∃ r, selectRaw (fun i => (i : ℚ) / 2) 2 5 (1 / 10) 0 (9 / 10) (fun _ => 0) 1 1 0 0 (some (0, 0)) = .ok (some r) := by
    unfold selectRaw
    dsimp only
    rw [e0, e1, e2, e3]
    exact ⟨_, rfl⟩
  obtain ⟨r, hr⟩ := key
  refine ⟨r, hr, by unfold rowTime; norm_num, ?_⟩
  obtain ⟨-, e, he, -, rfl⟩ := selectRaw_some hr
  dsimp only
  rw [e0, e1, e2, e3]
  rintro ⟨k, hk, hk'⟩
  omega

/-- With blocks of ten seconds the start of the interval is looked for in the next block: the end of the first one is lost. -/
theorem select_long_blocks_violated :
    ∃ r, selectRaw (fun i => (i : ℚ) * 10) 2 10 1 (91 / 10) 19 (fun _ => 0) 1 1 0 0 (some (0, 0)) = .ok (some r) ∧
      nearIdx (fun i => (i : ℚ) * 10) 2 8 = 1 ∧
      ∃ r', selectRaw (fun i => (i : ℚ) * 10) 2 10 1 8 19 (fun _ => 0) 1 1 0 0 (some (0, 0)) = .ok (some r') ∧
        8 ≤ rowTime (fun i => (i : ℚ) * 10) 10 1 9 ∧ ¬ ∃ k, k < r'.nRow ∧ r'.row k = 9 := by
  have e0 : nearIdx (fun i => (i : ℚ) * 10) 2 (91 / 10) = 1 := by decide +kernel
  have e0' : nearIdx (fun i => (i : ℚ) * 10) 2 8 = 1 := by decide +kernel
  have e1 : nearIdx (fun i => (i : ℚ) * 10) 2 19 = 1 := by decide +kernel
  have e2 : inBlock (((1 : Nat) : ℚ) * 10) 10 1 (91 / 10) = 0 := by decide +kernel
  have e2' : inBlock (((1 : Nat) : ℚ) * 10) 10 1 8 = 0 := by decide +kernel
  have e3 : inBlock (((1 : Nat) : ℚ) * 10) 10 1 19 = 9 := by decide +kernel
  have key : ∃ r, selectRaw (fun i => (i : ℚ) * 10) 2 10 1 (91 / 10) 19 (fun _ => 0) 1 1 0 0 (some (0, 0)) = .ok (some r) := by
    unfold selectRaw
    dsimp only
    rw [e0, e1, e2, e3]
    exact ⟨_, rfl⟩
  have key' : ∃ r, selectRaw (fun i => (i : ℚ) * 10) 2 10 1 8 19 (fun _ => 0) 1 1 0 0 (some (0, 0)) = .ok (some r) := by
    unfold selectRaw
    dsimp only
    rw [e0', e1, e2', e3]
    exact ⟨_, rfl⟩
  obtain ⟨r, hr⟩ := key
  obtain ⟨r', hr'⟩ := key'
  refine ⟨r, hr, e0', r', hr', by unfold rowTime; norm_num, ?_⟩
  obtain ⟨-, e, he, -, rfl⟩ := selectRaw_some hr'
  dsimp only
  rw [e0', e1, e2', e3]
  rintro ⟨k, hk, hk'⟩
  omega

/-- An interval within one sample is reported as empty, or fails in the last block, although it contains data. -/
theorem select_one_sample_violated (s : Nat → ℚ) (n nt : Nat) (dt t : ℚ) (sb : Nat → ℚ) (nc : Nat) (df fmin fmax : ℚ)
    (beam : Option (Nat × Nat)) :
    selectRaw s n nt dt t t sb nc df fmin fmax beam = .ok none ∨ selectRaw s n nt dt t t sb nc df fmin fmax beam = .error .indexError
      ∨ selectRaw s n nt dt t t sb nc df fmin fmax beam = .error .valueError := by
  unfold selectRaw
  dsimp only
  split_ifs
  · exact Or.inr (Or.inr rfl)
  · exact Or.inr (Or.inl rfl)
  · exact Or.inl rfl
  all_goals exact absurd rfl ‹_›

/-- **C51**: the sub-band found for a frequency is the nearest one, up to 2 Hz. -/
theorem near_subband (sb : Nat → ℚ) (m : Nat) (f : ℚ) (j : Nat) (hj : j < m) :
    nearIdx sb m f < m ∧ |sb (nearIdx sb m f) - f| ≤ |sb j - f| + 2 := by
  refine ⟨argmax_lt _ (by omega), ?_⟩
  have h := argmax_max (fun i => -|((⌈sb i - f⌉ : Int) : ℚ)|) hj
  change -|((⌈sb j - f⌉ : Int) : ℚ)| ≤ -|((⌈sb (nearIdx sb m f) - f⌉ : Int) : ℚ)| at h
  generalize nearIdx sb m f = a at h
  have a1 := Int.le_ceil (sb a - f)
  have a2 := Int.ceil_lt_add_one (sb a - f)
  have j1 := Int.le_ceil (sb j - f)
  have j2 := Int.ceil_lt_add_one (sb j - f)
  have h' : |((⌈sb a - f⌉ : Int) : ℚ)| ≤ |((⌈sb j - f⌉ : Int) : ℚ)| := by linarith
  have k1 : |sb a - f| ≤ |((⌈sb a - f⌉ : Int) : ℚ)| + 1 := by
    rw [abs_le]
    have := abs_le.mp (le_refl |((⌈sb a - f⌉ : Int) : ℚ)|)
    constructor <;> linarith [this.1, this.2]
  have k2 : |((⌈sb j - f⌉ : Int) : ℚ)| ≤ |sb j - f| + 1 := by
    rw [abs_le]
    have := abs_le.mp (le_refl |sb j - f|)
    constructor <;> linarith [this.1, this.2]
  linarith

/-! ## Bad blocks -/

/-- **C52**: good blocks are left untouched, whatever the mask. -/
theorem blank_good {α : Type} (n : Nat) (m : Nat → Bool) (data : Nat → Option α) (i : Nat) (h : m i = false) :
    blank n (some m) data i = data i := by
  show (if ((List.range n).all fun j => !m j) && m i then none else data i) = data i
  rw [h, Bool.and_false]
  rfl

/-- Bad blocks are left untouched too: they are never blanked, whatever the mask. -/
theorem blank_never_violated {α : Type} (n : Nat) (mask : Option (Nat → Bool)) (data : Nat → Option α) (i : Nat) (hi : i < n) :
    blank n mask data i = data i := by
  cases mask with
  | none => rfl
  | some m =>
    show (if ((List.range n).all fun j => !m j) && m i then none else data i) = data i
    rw [if_neg]
    intro h
    rw [Bool.and_eq_true, List.all_eq_true] at h
    have := h.1 i (List.mem_range.mpr hi)
    rw [h.2] at this
    cases this

/-- **C52**: which blocks are flagged. -/
theorem bad_exact (h : Nat → Header) (i : Nat) :
    badMask h i = true ↔ (h i).timestamp < 1 / 10 ∨ (i ≠ 0 ∧ (h i).idx = 0) ∨ (h i).nbchan < 0 := by
  unfold badMask
  simp only [Bool.or_eq_true, Bool.and_eq_true, decide_eq_true_iff]
  tauto

theorem prevGood_some {m : Nat → Bool} {i p : Nat} (h : prevGood m i = some p) :
    p < i ∧ m p = false ∧ ∀ j, p < j → j < i → m j = true := by
  induction i with
  | zero => cases h
  | succ i ih =>
    rw [prevGood] at h
    cases hm : m i with
    | true =>
      rw [hm, if_pos rfl] at h
      obtain ⟨h1, h2, h3⟩ := ih h
      refine ⟨by omega, h2, fun j hj hji => ?_⟩
      rcases Nat.lt_succ_iff_lt_or_eq.mp hji with h | rfl
      · exact h3 j hj h
      · exact hm
    | false =>
      rw [hm, if_neg (by simp)] at h
      cases h
      exact ⟨by omega, hm, fun j hj hji => by omega⟩

theorem nextGood_some {m : Nat → Bool} {i k q : Nat} (h : nextGood m i k = some q) :
    i ≤ q ∧ q < i + k ∧ m q = false ∧ ∀ j, i ≤ j → j < q → m j = true := by
  induction k generalizing i with
  | zero => cases h
  | succ k ih =>
    rw [nextGood] at h
    cases hm : m i with
    | true =>
      rw [hm, if_pos rfl] at h
      obtain ⟨h1, h2, h3, h4⟩ := ih h
      refine ⟨by omega, by omega, h3, fun j hj hji => ?_⟩
      rcases Nat.eq_or_lt_of_le hj with rfl | h
      · exact hm
      · exact h4 j h hji
    | false =>
      rw [hm, if_neg (by simp)] at h
      cases h
      exact ⟨le_refl _, by omega, hm, fun j hj hji => by omega⟩

theorem prevGood_exists {m : Nat → Bool} {i p : Nat} (hp : p < i) (hm : m p = false) : ∃ x, prevGood m i = some x ∧ p ≤ x := by
  induction i with
  | zero => omega
  | succ i ih =>
    rw [prevGood]
    cases hmi : m i with
    | true =>
      rw [if_pos rfl]
      rcases Nat.lt_succ_iff_lt_or_eq.mp hp with h | rfl
      · exact ih h
      · rw [hm] at hmi; cases hmi
    | false =>
      rw [if_neg (by simp)]
      exact ⟨i, rfl, by omega⟩

theorem nextGood_exists {m : Nat → Bool} {i k q : Nat} (hq : i ≤ q) (hk : q < i + k) (hm : m q = false) :
    ∃ x, nextGood m i k = some x ∧ x ≤ q := by
  induction k generalizing i with
  | zero => omega
  | succ k ih =>
    rw [nextGood]
    cases hmi : m i with
    | true =>
      rw [if_pos rfl]
      rcases Nat.eq_or_lt_of_le hq with rfl | h
      · rw [hm] at hmi; cases hmi
      · exact ih h (by omega)
    | false =>
      rw [if_neg (by simp)]
      exact ⟨i, rfl, hq⟩

theorem prevGood_none {m : Nat → Bool} {i : Nat} (h : ∀ j, j < i → m j = true) : prevGood m i = none := by
  induction i with
  | zero => rfl
  | succ i ih =>
    rw [prevGood, h i (by omega), if_pos rfl]
    exact ih fun j hj => h j (by omega)

theorem nextGood_none {m : Nat → Bool} {i k : Nat} (h : ∀ j, i ≤ j → j < i + k → m j = true) : nextGood m i k = none := by
  induction k generalizing i with
  | zero => rfl
  | succ k ih =>
    rw [nextGood, h i (by omega) (by omega), if_pos rfl]
    exact ih fun j h1 h2 => h j (by omega) (by omega)

theorem reconstruct_ok {m : Nat → Bool} {n : Nat} {s t : Nat → ℚ} (h : reconstruct m n s = .ok t) (i : Nat) :
    t i = if m i then interpAt m n s i else s i := by
  unfold reconstruct at h
  split at h
  · cases h
  · injection h with h; rw [← h]

/-- **C71**: the start of a good block is the recorded one; that of a bad block lies on the line between the nearest good blocks on each side. -/
theorem reconstruct_exact (m : Nat → Bool) (n : Nat) (s t : Nat → ℚ) (h : reconstruct m n s = .ok t) (i : Nat) (hi : i < n) :
    (m i = false → t i = s i) ∧
    (∀ p q, p < i → i < q → q < n → m p = false → m q = false → (∀ j, p < j → j < q → m j = true) →
      t i = s p + ((i : ℚ) - p) * ((s q - s p) / ((q : ℚ) - p))) := by
  rw [reconstruct_ok h]
  constructor
  · intro hm
    rw [hm, if_neg (by simp)]
  · intro p q hp hq hqn hmp hmq hb
    rw [hb i hp hq, if_pos rfl]
    obtain ⟨p', hp', hpp⟩ := prevGood_exists hp hmp
    obtain ⟨q', hq', hqq⟩ := nextGood_exists (k := n - i) hq.le (by omega) hmq
    obtain ⟨a1, a2, a3⟩ := prevGood_some hp'
    obtain ⟨b1, b2, b3, b4⟩ := nextGood_some hq'
    have ep : p' = p := by
      rcases Nat.eq_or_lt_of_le hpp with h | h
      · exact h.symm
      · rw [hb p' h (by omega)] at a2; cases a2
    have eq : q' = q := by
      rcases Nat.eq_or_lt_of_le hqq with h | h
      · exact h
      · rw [hb q' (by omega) h] at b3; cases b3
    unfold interpAt
    rw [hp', hq', ep, eq]

/-- **C71**: when the good blocks follow each other regularly, the bad blocks between two good ones get their true start. -/
theorem reconstruct_regular (m : Nat → Bool) (n : Nat) (s t : Nat → ℚ) (s0 D : ℚ) (h : reconstruct m n s = .ok t)
    (hs : ∀ j, j < n → m j = false → s j = s0 + (j : ℚ) * D) (i p q : Nat) (hp : p < i) (hq : i < q) (hqn : q < n)
    (hmp : m p = false) (hmq : m q = false) : t i = s0 + (i : ℚ) * D := by
  rw [reconstruct_ok h]
  cases hm : m i with
  | false => rw [if_neg (by simp)]; exact hs i (by omega) hm
  | true =>
    rw [if_pos rfl]
    obtain ⟨p', hp', -⟩ := prevGood_exists hp hmp
    obtain ⟨q', hq', -⟩ := nextGood_exists (k := n - i) hq.le (by omega) hmq
    obtain ⟨a1, a2, -⟩ := prevGood_some hp'
    obtain ⟨b1, b2, b3, -⟩ := nextGood_some hq'
    unfold interpAt
    rw [hp', hq']
    dsimp only
    rw [hs p' (by omega) a2, hs q' (by omega) b3]
    have hne : ((q' : ℚ) - p') ≠ 0 := by
      have : (p' : ℚ) < q' := by exact_mod_cast (show p' < q' by omega)
      linarith
    field_simp
    ring

/-- **C71**: with increasing recorded starts, the reconstructed ones never decrease. -/
theorem reconstruct_monotone (m : Nat → Bool) (n : Nat) (s t : Nat → ℚ) (h : reconstruct m n s = .ok t)
    (hs : ∀ i j, i < j → j < n → m i = false → m j = false → s i < s j) (i : Nat) (hi : i + 1 < n) : t i ≤ t (i + 1) := by
  have good : ∀ j, m j = false → t j = s j := fun j hj => by rw [reconstruct_ok h, hj, if_neg (by simp)]
  -- the good blocks around the interval [i, i + 1]
  by_cases hl : ∃ p, p ≤ i ∧ m p = false
  · by_cases hr : ∃ q, i + 1 ≤ q ∧ q < n ∧ m q = false
    · -- between two good blocks both starts are on the same line
      obtain ⟨p0, hp0, hmp0⟩ := hl
      obtain ⟨q0, hq0, hqn0, hmq0⟩ := hr
      obtain ⟨p, hp, -⟩ := prevGood_exists (i := i + 1) (by omega : p0 < i + 1) hmp0
      obtain ⟨q, hq, -⟩ := nextGood_exists (i := i + 1) (k := n - (i + 1)) hq0 (by omega) hmq0
      obtain ⟨a1, a2, a3⟩ := prevGood_some hp
      obtain ⟨b1, b2, b3, b4⟩ := nextGood_some hq
      have hall : ∀ j, p < j → j < q → m j = true := by
        intro j hj hjq
        rcases Nat.lt_or_ge j (i + 1) with h1 | h1
        · exact a3 j hj h1
        · exact b4 j h1 hjq
      have hlin : ∀ j, p ≤ j → j ≤ q → t j = s p + ((j : ℚ) - p) * ((s q - s p) / ((q : ℚ) - p)) := by
        intro j hj hjq
        have hne : ((q : ℚ) - p) ≠ 0 := by
          have : (p : ℚ) < q := by exact_mod_cast (show p < q by omega)
          linarith
        rcases Nat.eq_or_lt_of_le hj with rfl | hj
        · rw [good p a2]; ring
        · rcases Nat.eq_or_lt_of_le hjq with rfl | hjq
          · rw [good j b3]; field_simp; ring
          · exact (reconstruct_exact m n s t h j (by omega)).2 p q hj hjq (by omega) a2 b3 hall
      rw [hlin i (by omega) (by omega), hlin (i + 1) (by omega) (by omega)]
      have hslope : 0 ≤ (s q - s p) / ((q : ℚ) - p) := by
        have h1 : (p : ℚ) < q := by exact_mod_cast (show p < q by omega)
        have h2 := hs p q (by omega) (by omega) a2 b3
        apply div_nonneg <;> linarith
      push_cast
      nlinarith
    · -- no good block after: both starts are that of the last good block
      push Not at hr
      have hm1 : m (i + 1) = true := by
        cases hc : m (i + 1) with
        | true => rfl
        | false => exact absurd hc (hr (i + 1) (le_refl _) hi)
      obtain ⟨p0, hp0, hmp0⟩ := hl
      have hnext : nextGood m (i + 1) (n - (i + 1)) = none := by
        apply nextGood_none
        intro j h1 h2
        cases hc : m j with
        | true => rfl
        | false => exact absurd hc (hr j h1 (by omega))
      obtain ⟨p, hp, hpp⟩ := prevGood_exists (i := i + 1) (by omega : p0 < i + 1) hmp0
      have e1 : t (i + 1) = s p := by
        rw [reconstruct_ok h, hm1, if_pos rfl]
        unfold interpAt
        rw [hp, hnext]
      rw [e1]
      cases hmi : m i with
      | false =>
        rw [prevGood, hmi, if_neg (by simp)] at hp
        cases hp
        rw [good _ hmi]
      | true =>
        rw [prevGood, hmi, if_pos rfl] at hp
        have hnext' : nextGood m i (n - i) = none := by
          apply nextGood_none
          intro j h1 h2
          rcases Nat.eq_or_lt_of_le h1 with rfl | h1
          · exact hmi
          · cases hc : m j with
            | true => rfl
            | false => exact absurd hc (hr j h1 (by omega))
        rw [reconstruct_ok h, hmi, if_pos rfl]
        unfold interpAt
        rw [hp, hnext']
  · push Not at hl
    have hmi : m i = true := by
      cases hc : m i with
      | true => rfl
      | false => exact absurd hc (hl i (le_refl _))
    have hprev : prevGood m i = none := prevGood_none fun j hj => by
      cases hc : m j with
      | true => rfl
      | false => exact absurd hc (hl j hj.le)
    -- some block is good, else nothing is returned
    have hex : ∃ q, i + 1 ≤ q ∧ q < n ∧ m q = false := by
      by_contra hno
      push Not at hno
      have hall : (List.range n).all m = true := by
        rw [List.all_eq_true]
        intro j hj
        rw [List.mem_range] at hj
        cases hc : m j with
        | true => rfl
        | false =>
          rcases Nat.lt_or_ge j (i + 1) with h1 | h1
          · exact absurd hc (hl j (by omega))
          · exact absurd hc (hno j h1 hj)
      unfold reconstruct at h
      rw [if_pos hall] at h
      cases h
    obtain ⟨q0, hq0, hqn0, hmq0⟩ := hex
    obtain ⟨q, hq, -⟩ := nextGood_exists (i := i + 1) (k := n - (i + 1)) hq0 (by omega) hmq0
    have e0 : t i = s q := by
      rw [reconstruct_ok h, hmi, if_pos rfl]
      unfold interpAt
      have : nextGood m i (n - i) = some q := by
        rw [show n - i = (n - (i + 1)) + 1 by omega, nextGood, hmi, if_pos rfl, hq]
      rw [hprev, this]
    rw [e0]
    cases hm1 : m (i + 1) with
    | false =>
      rw [show n - (i + 1) = (n - (i + 2)) + 1 by omega, nextGood, hm1, if_neg (by simp)] at hq
      cases hq
      rw [good _ hm1]
    | true =>
      rw [reconstruct_ok h, hm1, if_pos rfl]
      unfold interpAt
      have : prevGood m (i + 1) = none := by rw [prevGood, hmi, if_pos rfl, hprev]
      rw [this, hq]

/-- **C71** (violated): all the bad blocks at the end of the file get the same start, that of the last good one: several blocks of the axis have the
same times. -/
theorem reconstruct_end_violated (m : Nat → Bool) (n : Nat) (s : Nat → ℚ) (p : Nat) (hp : p < n) (hmp : m p = false)
    (hb : ∀ i, p < i → i < n → m i = true) : ∃ t, reconstruct m n s = .ok t ∧ ∀ i, p ≤ i → i < n → t i = s p := by
  have hall : ¬ (List.range n).all m = true := by
    rw [List.all_eq_true]
    intro h
    have := h p (List.mem_range.2 hp)
    rw [hmp] at this
    cases this
  have hpg : ∀ i, p < i → i ≤ n → prevGood m i = some p := by
    intro i
    induction i with
    | zero => intro h; omega
    | succ i ih =>
      intro h1 h2
      rw [prevGood]
      by_cases e : i = p
      · subst e
        rw [hmp, if_neg (by simp)]
      · rw [hb i (by omega) (by omega), if_pos rfl]
        exact ih (by omega) (by omega)
  have hng : ∀ k i, p < i → i + k ≤ n → nextGood m i k = none := by
    intro k
    induction k with
    | zero => intro i _ _; rfl
    | succ k ih =>
      intro i h1 h2
      rw [nextGood, hb i h1 (by omega), if_pos rfl]
      exact ih (i + 1) (by omega) (by omega)
  refine ⟨fun i => if m i then interpAt m n s i else s i, ?_, ?_⟩
  · unfold reconstruct
    rw [if_neg hall]
  · intro i h1 h2
    dsimp only
    by_cases e : i = p
    · subst e
      rw [hmp, if_neg (by simp)]
    · rw [hb i (by omega) h2, if_pos rfl]
      unfold interpAt
      rw [hpg i (by omega) h2.le, hng (n - i) i (by omega) (by omega)]

example : ∀ i : Nat, i < 4 → 1 < i → decide (2 ≤ i) = true := by decide

/-- **C71**: without any good block nothing is read. -/
theorem reconstruct_all_bad (m : Nat → Bool) (n : Nat) (s : Nat → ℚ) (h : ∀ i, i < n → m i = true) :
    reconstruct m n s = .error .valueError := by
  unfold reconstruct
  rw [if_pos]
  rw [List.all_eq_true]
  exact fun i hi => h i (List.mem_range.mp hi)

/-- **C71**: without a mask, blocks are regular: consecutive, without gaps. -/
theorem regular_blocks (s0 : ℚ) (nt : Nat) (dt : ℚ) (n : Nat) : Blocks (regularStart s0 nt dt) n (nt * dt) := by
  intro j _
  unfold regularStart
  push_cast
  linarith

example : ∃ t, reconstruct (fun i => decide (i = 1)) 3 (fun i => if i = 1 then 0 else (i : ℚ)) = .ok t ∧ t 1 = 1 := by
  refine ⟨_, rfl, ?_⟩
  dsimp only
  rw [if_pos (by rfl)]
  have : prevGood (fun i => decide (i = 1)) 1 = some 0 := rfl
  unfold interpAt
  rw [this, show nextGood (fun i => decide (i = 1)) 1 (3 - 1) = some 2 from rfl]
  norm_num

end Verif.TF
