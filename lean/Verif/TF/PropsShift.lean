import Verif.TF.Model
import Mathlib.Data.List.GetD

/-!
# De-dispersion, averages and channel masks (properties C43, C46 and C47)
-/

namespace Verif.TF

/-! ## De-dispersion -/

theorem rint_near (x : ℚ) : |(rint x : ℚ) - x| ≤ 1 / 2 := by
  have h1 := Int.floor_le x
  have h2 := Int.lt_floor_add_one x
  unfold rint
  rw [abs_le]
  split_ifs <;> push_cast <;> constructor <;> linarith

theorem rint_int (k : Int) : rint (k : ℚ) = k := by
  unfold rint
  rw [if_pos (by rw [Int.floor_intCast]; norm_num), Int.floor_intCast]

/-- **C43**: the delay of a channel, in samples, is within half a sample of its dispersion delay relative to the reference. -/
theorem cell_delay_near (f fref dm dt : ℚ) (hdt : 0 < dt) :
    |(cellDelay f fref dm dt : ℚ) * dt - (dispDelay f dm - dispDelay fref dm)| ≤ dt / 2 := by
  have h := rint_near ((dispDelay f dm - dispDelay fref dm) / dt)
  unfold cellDelay
  have e : (rint ((dispDelay f dm - dispDelay fref dm) / dt) : ℚ) * dt - (dispDelay f dm - dispDelay fref dm)
      = ((rint ((dispDelay f dm - dispDelay fref dm) / dt) : ℚ) - (dispDelay f dm - dispDelay fref dm) / dt) * dt := by
    field_simp
  rw [e, abs_mul, abs_of_pos hdt]
  nlinarith

/-- **C43**: the same with the dispersion law written out: 4140 s times the dispersion measure times the difference of the inverse squares of the
frequencies in MHz. -/
theorem cell_delay_law (f fref dm dt : ℚ) (hdt : 0 < dt) :
    |(cellDelay f fref dm dt : ℚ) * dt - 4140 * dm * (1 / (f * f) - 1 / (fref * fref))| ≤ dt / 2 := by
  have h := cell_delay_near f fref dm dt hdt
  have e : dispDelay f dm - dispDelay fref dm = 4140 * dm * (1 / (f * f) - 1 / (fref * fref)) := by unfold dispDelay; ring
  rw [e] at h
  exact h

/-- The reference channel has no delay. -/
theorem cell_delay_ref (f dm dt : ℚ) : cellDelay f f dm dt = 0 := by
  unfold cellDelay
  rw [sub_self, zero_div]
  exact rint_int 0

/-- Lower frequencies arrive later. -/
theorem cell_delay_nonneg (f fref dm dt : ℚ) (hdt : 0 < dt) (hdm : 0 ≤ dm) (hf : 0 < f) (hff : f ≤ fref) :
    0 ≤ cellDelay f fref dm dt := by
  have h1 : dispDelay fref dm ≤ dispDelay f dm := by
    unfold dispDelay
    have : f ^ 2 ≤ fref ^ 2 := by nlinarith
    have h0 : 0 < f ^ 2 := by positivity
    gcongr
  have h2 : 0 ≤ (dispDelay f dm - dispDelay fref dm) / dt := div_nonneg (by linarith) (le_of_lt hdt)
  have h3 := (abs_le.mp (rint_near ((dispDelay f dm - dispDelay fref dm) / dt))).1
  unfold cellDelay
  have : (-1 : ℚ) < rint ((dispDelay f dm - dispDelay fref dm) / dt) := by linarith
  have : (-1 : Int) < rint ((dispDelay f dm - dispDelay fref dm) / dt) := by exact_mod_cast this
  omega

example : cellDelay 50 60 (273 / 100) (1 / 100) = 138 := by decide +kernel

theorem mem_keepIdx {nt : Nat} {cd : List Int} {i : Int} :
    i ∈ keepIdx nt cd ↔ ∃ (f j : Nat) (d : Int), cd[f]? = some d ∧ (j : Int) < (nt : Int) - d ∧ i = d + j + f * nt := by
  unfold keepIdx
  rw [List.mem_flatten]
  constructor
  · rintro ⟨l, hl, hi⟩
    obtain ⟨⟨d, f⟩, hp, rfl⟩ := List.mem_map.mp hl
    obtain ⟨j, hj, rfl⟩ := List.mem_map.mp hi
    have hj' := List.mem_range.mp hj
    refine ⟨f, j, d, List.mem_zipIdx_iff_getElem?.mp hp, ?_, rfl⟩
    dsimp only at hj'
    omega
  · rintro ⟨f, j, d, hd, hj, rfl⟩
    refine ⟨_, List.mem_map.mpr ⟨(d, f), List.mem_zipIdx_iff_getElem?.mpr hd, rfl⟩, ?_⟩
    exact List.mem_map.mpr ⟨j, List.mem_range.mpr (by dsimp only; omega), rfl⟩

theorem wrapIdx_nat {n k : Nat} (h : k < n) : wrapIdx n (k : Int) = some k := by
  unfold wrapIdx
  rw [if_pos ⟨by omega, by omega⟩]
  simp

theorem movePair_eq {nt : Nat} {cd : List Int} {f j : Nat} {d : Int} (hd : cd[f]? = some d) (h0 : 0 ≤ d)
    (hj : (j : Int) < (nt : Int) - d) :
    movePair nt cd (d + j + f * nt) = some (j + f * nt, d.toNat + j + f * nt) := by
  obtain ⟨e, rfl⟩ : ∃ e : Nat, d = e := ⟨d.toNat, by omega⟩
  have hf : f < cd.length := (List.getElem?_eq_some_iff.mp hd).1
  have hb : e + j < nt := by omega
  have e1 : ((e : Int) + j + f * nt) = ((e + j + f * nt : Nat) : Int) := by push_cast; ring
  have e2 : ((e + j + f * nt : Nat) : Int) / (nt : Int) = (f : Int) := by
    rw [← Int.natCast_ediv, Nat.add_mul_div_right _ _ (by omega), Nat.div_eq_of_lt hb, Nat.zero_add]
  have hlt : e + j + f * nt < nt * cd.length := by
    calc e + j + f * nt < nt + f * nt := by omega
      _ = nt * (f + 1) := by ring
      _ ≤ nt * cd.length := Nat.mul_le_mul_left _ hf
  have e3 : ((e + j + f * nt : Nat) : Int) - (e : Int) = ((j + f * nt : Nat) : Int) := by push_cast; ring
  unfold movePair
  rw [e1, e2, wrapIdx_nat hf, Option.bind_some]
  have hg : cd.getD f 0 = (e : Int) := by rw [List.getD_eq_getElem?_getD, hd]; rfl
  rw [hg, e3, wrapIdx_nat (show j + f * nt < nt * cd.length by omega), Option.bind_some, wrapIdx_nat hlt]
  simp

theorem scatter_none {β : Type} {ps : List (Nat × Option β)} {k : Nat} (h : ∀ p ∈ ps, p.1 ≠ k) :
    scatter ps k = none := by
  unfold scatter
  have : (ps.filter fun p => decide (p.1 = k)) = [] := by
    rw [List.filter_eq_nil_iff]
    intro p hp
    rw [decide_eq_true_iff]
    exact h p hp
  rw [this]
  rfl

theorem scatter_some {β : Type} {ps : List (Nat × Option β)} {k : Nat} {v : Option β}
    (h : ∀ p ∈ ps, p.1 = k → p.2 = v) (he : ∃ p ∈ ps, p.1 = k) : scatter ps k = v := by
  unfold scatter
  obtain ⟨p, hp, hk⟩ := he
  have hne : (ps.filter fun p => decide (p.1 = k)) ≠ [] :=
    List.ne_nil_of_mem (List.mem_filter.mpr ⟨hp, by rw [decide_eq_true_iff]; exact hk⟩)
  rw [List.getLast?_eq_some_getLast hne]
  have hm := List.getLast_mem hne
  have := List.mem_filter.mp hm
  exact h _ this.1 (by simpa using this.2)

/-- **C43**: with non-negative delays, de-dispersion succeeds; the value at time `t` of a channel is the value it had at time `t`
plus the delay of the channel, or is missing if that is after the end of the data. -/
theorem dedisperse_exact {α β : Type} (cast : α → β) (nt nf : Nat) (data : Nat → Nat → Option α) (cd : List Int)
    (hn : cd.length = nf) (h0 : 0 < nf) (hd : ∀ d ∈ cd, 0 ≤ d) :
    ∃ r, deDisperse cast nt nf data cd = .ok r ∧
      ∀ t f d, t < nt → cd[f]? = some (d : Int) →
        r t f = if t + d.toNat < nt then (data (t + d.toNat) f).map cast else none := by
  have hne : cd ≠ [] := by rintro rfl; simp at hn; omega
  have hall : ((keepIdx nt cd).all fun i => (movePair nt cd i).isSome) = true := by
    rw [List.all_eq_true]
    intro i hi
    obtain ⟨f, j, d, hf, hj, rfl⟩ := mem_keepIdx.mp hi
    rw [movePair_eq hf (hd d (List.mem_of_getElem? hf)) hj]
    rfl
  unfold deDisperse
  rw [if_neg (by simp [hn]), if_neg hne, if_pos hall]
  refine ⟨_, rfl, ?_⟩
  intro t f d ht hf
  have hd0 := hd d (List.mem_of_getElem? hf)
  obtain ⟨e, rfl⟩ : ∃ e : Nat, d = e := ⟨d.toNat, by omega⟩
  rw [Int.toNat_natCast]
  have key : ∀ w r : Nat, (w, r) ∈ (keepIdx nt cd).filterMap (movePair nt cd) → w = t + f * nt →
      t + e < nt ∧ r = e + t + f * nt := by
    intro w r hm hw
    obtain ⟨i, hi, hp⟩ := List.mem_filterMap.mp hm
    obtain ⟨f', j, d', hf', hj, rfl⟩ := mem_keepIdx.mp hi
    have h0' := hd d' (List.mem_of_getElem? hf')
    rw [movePair_eq hf' h0' hj] at hp
    simp only [Option.some.injEq, Prod.mk.injEq] at hp
    obtain ⟨rfl, rfl⟩ := hp
    have hjn : j < nt := by omega
    have e1 : (j + f' * nt) / nt = (t + f * nt) / nt := by rw [hw]
    rw [Nat.add_mul_div_right _ _ (by omega), Nat.add_mul_div_right _ _ (by omega),
      Nat.div_eq_of_lt hjn, Nat.div_eq_of_lt ht, Nat.zero_add, Nat.zero_add] at e1
    subst e1
    have hj' : j = t := by omega
    subst hj'
    rw [hf'] at hf
    simp only [Option.some.injEq] at hf
    subst hf
    exact ⟨by omega, by simp⟩
  by_cases hlt : t + e < nt
  · rw [if_pos hlt]
    apply scatter_some
    · intro p hp hk
      obtain ⟨⟨w, r⟩, hm, rfl⟩ := List.mem_map.mp hp
      obtain ⟨-, rfl⟩ := key w r hm hk
      dsimp only
      rw [Nat.add_mul_mod_self_right, Nat.add_mul_div_right _ _ (by omega), Nat.mod_eq_of_lt (by omega),
        Nat.div_eq_of_lt (by omega), Nat.zero_add, Nat.add_comm e t]
    · refine ⟨_, List.mem_map.mpr ⟨(t + f * nt, (e : Int).toNat + t + f * nt), ?_, rfl⟩, rfl⟩
      apply List.mem_filterMap.mpr
      exact ⟨_, mem_keepIdx.mpr ⟨f, t, e, hf, by omega, rfl⟩, movePair_eq hf (by omega) (by omega)⟩
  · rw [if_neg hlt]
    apply scatter_none
    intro p hp hk
    obtain ⟨⟨w, r⟩, hm, rfl⟩ := List.mem_map.mp hp
    exact hlt (key w r hm hk).1

example : ([3, 1, 0] : List Int).length = 3 ∧ ∀ d ∈ ([3, 1, 0] : List Int), (0 : Int) ≤ d := by decide

/-- **C43**: the reference channel is unchanged. -/
theorem dedisperse_reference {α : Type} (nt nf : Nat) (data : Nat → Nat → Option α) (cd : List Int)
    (hn : cd.length = nf) (h0 : 0 < nf) (hd : ∀ d ∈ cd, 0 ≤ d) (f : Nat) (hf : cd[f]? = some 0) :
    ∃ r, deDisperse id nt nf data cd = .ok r ∧ ∀ t, t < nt → r t f = data t f := by
  obtain ⟨r, hr, h⟩ := dedisperse_exact id nt nf data cd hn h0 hd
  refine ⟨r, hr, ?_⟩
  intro t ht
  rw [h t f 0 ht hf]
  simp [ht]

/-- Data whose number of channels differs from the number of frequencies are rejected. -/
theorem dedisperse_mismatch {α β : Type} (cast : α → β) (nt nf : Nat) (data : Nat → Nat → Option α) (cd : List Int)
    (hn : nf ≠ cd.length) : deDisperse cast nt nf data cd = .error .valueError := by
  unfold deDisperse; rw [if_pos hn]

/-- Values are lost: on complex data, written as (real part, imaginary part), the result does not depend on the imaginary parts.
The task of the pipeline is meant to run on complex data, before the computation of the Stokes parameters (tf.py:519-538). -/
theorem dedisperse_imag_violated (nt nf : Nat) (data data' : Nat → Nat → Option (ℚ × ℚ)) (cd : List Int)
    (h : ∀ t f, (data t f).map Prod.fst = (data' t f).map Prod.fst) :
    deDisperse Prod.fst nt nf data cd = deDisperse Prod.fst nt nf data' cd := by
  unfold deDisperse
  have e : (fun p : Nat × Nat => (p.1, (data (p.2 % nt) (p.2 / nt)).map Prod.fst))
      = fun p : Nat × Nat => (p.1, (data' (p.2 % nt) (p.2 / nt)).map Prod.fst) := by
    funext p; rw [h]
  rw [e]

example : ∀ t f : Nat, ((fun _ _ => some ((1 : ℚ), (2 : ℚ))) t f).map Prod.fst
    = ((fun _ _ => some ((1 : ℚ), (7 : ℚ))) t f).map Prod.fst := by intros; rfl

/-- The pair of a position which is not negative. -/
theorem movePair_pos {nt : Nat} {cd : List Int} {c x w : Nat} {d : Int} (hc : cd[c]? = some d) (hx : x < nt) (hw : ((c * nt + x : Nat) : Int) - d = w)
    (hl : w < nt * cd.length) : movePair nt cd ((c * nt + x : Nat) : Int) = some (w, c * nt + x) := by
  have hf : c < cd.length := (List.getElem?_eq_some_iff.mp hc).1
  have e2 : ((c * nt + x : Nat) : Int) / (nt : Int) = (c : Int) := by
    rw [← Int.natCast_ediv, Nat.add_comm, Nat.add_mul_div_right _ _ (by omega), Nat.div_eq_of_lt hx, Nat.zero_add]
  have hlt : c * nt + x < nt * cd.length := by
    calc c * nt + x < c * nt + nt := by omega
      _ = nt * (c + 1) := by ring
      _ ≤ nt * cd.length := Nat.mul_le_mul_left _ hf
  have hg : cd.getD c 0 = d := by rw [List.getD_eq_getElem?_getD, hc]; rfl
  unfold movePair
  rw [e2, wrapIdx_nat hf, Option.bind_some, hg, hw, wrapIdx_nat hl, Option.bind_some, wrapIdx_nat hlt]
  rfl

/-- The pair of a negative position, read and written in the last channel if that one has no delay. -/
theorem movePair_neg {nt n : Nat} {cd : List Int} {i : Int} (hn : cd.length = n + 1) (hl : cd[n]? = some 0) (h1 : -(nt : Int) ≤ i) (h2 : i < 0) :
    ∃ w r, movePair nt cd i = some (w, r) ∧ n * nt ≤ w := by
  have hnt : 0 < (nt : Int) := by omega
  have e : i / (nt : Int) = -1 := by
    rw [Int.ediv_eq_iff_of_pos hnt]
    constructor <;> linarith
  have w1 : wrapIdx cd.length (-1) = some n := by
    unfold wrapIdx
    rw [if_neg (by omega), if_pos (by omega), hn]
    congr 1
    omega
  have hN : ((nt * cd.length : Nat) : Int) = n * nt + nt := by rw [hn]; push_cast; ring
  have hle : (nt : Int) ≤ (nt * cd.length : Nat) := by
    rw [hN]
    have : (0 : Int) ≤ n * nt := by positivity
    omega
  have w2 : wrapIdx (nt * cd.length) i = some (i + (nt * cd.length : Nat)).toNat := by
    unfold wrapIdx
    rw [if_neg (by omega), if_pos (by omega)]
  have hg : cd.getD n 0 = 0 := by rw [List.getD_eq_getElem?_getD, hl]; rfl
  refine ⟨(i + (nt * cd.length : Nat)).toNat, (i + (nt * cd.length : Nat)).toNat, ?_, ?_⟩
  · unfold movePair
    rw [e, w1, Option.bind_some, hg, Int.sub_zero, w2]
    rfl
  · have : ((n * nt : Nat) : Int) ≤ i + (nt * cd.length : Nat) := by rw [hN]; push_cast; omega
    omega

/-- **C43** (violated): if the delay of the last channel is negative the function fails instead of shifting the data. -/
theorem dedisperse_last_violated {α β : Type} (cast : α → β) (nt n : Nat) (data : Nat → Nat → Option α) (cd : List Int) (d : Int)
    (hnt : 0 < nt) (hn : cd.length = n + 1) (hl : cd[n]? = some d) (hd : d < 0) :
    deDisperse cast nt (n + 1) data cd = .error .indexError := by
  unfold deDisperse
  rw [if_neg (by omega), if_neg (by rintro rfl; simp at hn), if_neg]
  rw [List.all_eq_true]
  intro h
  have hm : ((n * nt + (nt - 1) : Nat) : Int) ∈ keepIdx nt cd :=
    mem_keepIdx.mpr ⟨n, ((nt - 1 : Int) - d).toNat, d, hl, by omega, by push_cast; omega⟩
  have hs := h _ hm
  have e2 : ((n * nt + (nt - 1) : Nat) : Int) / (nt : Int) = (n : Int) := by
    rw [← Int.natCast_ediv, Nat.add_comm, Nat.add_mul_div_right _ _ hnt, Nat.div_eq_of_lt (by omega), Nat.zero_add]
  have hg : cd.getD n 0 = d := by rw [List.getD_eq_getElem?_getD, hl]; rfl
  have hN : ((nt * cd.length : Nat) : Int) = n * nt + nt := by rw [hn]; push_cast; ring
  have hw : wrapIdx (nt * cd.length) (((n * nt + (nt - 1) : Nat) : Int) - d) = none := by
    unfold wrapIdx
    rw [if_neg, if_neg]
    · rw [hN]; push_cast; omega
    · rw [hN]; push_cast; omega
  unfold movePair at hs
  rw [e2, wrapIdx_nat (show n < cd.length by omega), Option.bind_some, hg, hw] at hs
  cases hs

/-- **C43** (violated): with a negative dispersion measure, no delay in the last channel (the reference) and negative ones below, the function
succeeds and the beginning of each channel, which should be missing, is the end of the channel below. -/
theorem dedisperse_negative_violated {α β : Type} (cast : α → β) (nt n : Nat) (data : Nat → Nat → Option α) (cd : List Int)
    (hn : cd.length = n + 1) (hl : cd[n]? = some 0) (hd : ∀ d ∈ cd, -(nt : Int) ≤ d ∧ d ≤ 0) :
    ∃ r, deDisperse cast nt (n + 1) data cd = .ok r ∧
      ∀ f e e' t : Nat, cd[f]? = some (-(e : Int)) → cd[f + 1]? = some (-(e' : Int)) → t < e → t < e' →
        r t (f + 1) = (data (nt - e + t) f).map cast := by
  have hbound : ∀ c x : Nat, c < n + 1 → x < nt → ∀ d, cd[c]? = some d → ∃ w : Nat, ((c * nt + x : Nat) : Int) - d = w ∧ w < nt * cd.length := by
    intro c x hc hx d hcd
    have hdd := hd d (List.mem_of_getElem? hcd)
    refine ⟨(((c * nt + x : Nat) : Int) - d).toNat, by omega, ?_⟩
    rw [hn]
    by_cases hcn : c = n
    · subst hcn
      rw [hl] at hcd
      cases hcd
      have : nt * (c + 1) = c * nt + nt := by ring
      omega
    · have h1 : (c + 1) * nt + nt ≤ nt * (n + 1) := by
        calc (c + 1) * nt + nt = nt * (c + 2) := by ring
          _ ≤ nt * (n + 1) := Nat.mul_le_mul_left _ (by omega)
      have h2 : (c + 1) * nt = c * nt + nt := by ring
      omega
  have hcases : ∀ i ∈ keepIdx nt cd, (∃ w r, movePair nt cd i = some (w, r) ∧ n * nt ≤ w ∧ i < 0) ∨
      ∃ c x w d, cd[c]? = some d ∧ x < nt ∧ ((c * nt + x : Nat) : Int) - d = (w : Nat) ∧ i = (c * nt + x : Nat) ∧
        movePair nt cd i = some (w, c * nt + x) := by
    intro i hi
    obtain ⟨f, j, d, hf, hj, rfl⟩ := mem_keepIdx.mp hi
    have hdd := hd d (List.mem_of_getElem? hf)
    have hfl : f < n + 1 := by rw [← hn]; exact (List.getElem?_eq_some_iff.mp hf).1
    have hfn : (0 : Int) ≤ (f : Int) * nt := by positivity
    have hft : (f : Int) * nt + nt ≤ (n + 1 : Nat) * nt := by
      calc (f : Int) * nt + nt = ((f + 1 : Nat) : Int) * nt := by push_cast; ring
        _ ≤ (n + 1 : Nat) * nt := by exact_mod_cast Nat.mul_le_mul_right _ hfl
    rcases lt_or_ge (d + j + f * nt) 0 with hneg | hpos
    · left
      obtain ⟨w, r, h1, h2⟩ := movePair_neg (nt := nt) (i := d + j + f * nt) hn hl (by linarith [hdd.1, hfn, Int.natCast_nonneg j]) hneg
      exact ⟨w, r, h1, h2, hneg⟩
    · right
      obtain ⟨k, hk⟩ : ∃ k : Nat, d + j + f * nt = k := ⟨(d + j + f * nt).toNat, by omega⟩
      have hkn : k < (n + 1) * nt := by
        have : (k : Int) < ((n + 1) * nt : Nat) := by push_cast; push_cast at hft; omega
        exact_mod_cast this
      have hnt : 0 < nt := Nat.pos_of_ne_zero (by rintro rfl; simp at hkn)
      have hc : k / nt < n + 1 := Nat.div_lt_of_lt_mul (by rw [Nat.mul_comm]; exact hkn)
      have hx : k % nt < nt := Nat.mod_lt _ hnt
      have hkk : k / nt * nt + k % nt = k := Nat.div_add_mod' k nt
      obtain ⟨d', hd'⟩ : ∃ d', cd[k / nt]? = some d' := ⟨_, List.getElem?_eq_getElem (by omega)⟩
      obtain ⟨w, hw1, hw2⟩ := hbound (k / nt) (k % nt) hc hx d' hd'
      refine ⟨k / nt, k % nt, w, d', hd', hx, hw1, by rw [hk, hkk], ?_⟩
      rw [hk]
      have := movePair_pos hd' hx hw1 hw2
      rw [hkk] at this ⊢
      exact this
  have hall : ((keepIdx nt cd).all fun i => (movePair nt cd i).isSome) = true := by
    rw [List.all_eq_true]
    intro i hi
    rcases hcases i hi with ⟨w, r, h, _⟩ | ⟨c, x, w, d, _, _, _, _, h⟩ <;> rw [h] <;> rfl
  unfold deDisperse
  rw [if_neg (by omega), if_neg (by rintro rfl; simp at hn), if_pos hall]
  refine ⟨_, rfl, ?_⟩
  intro f e e' t hf hf' hte hte'
  have h1 := hd _ (List.mem_of_getElem? hf)
  have h2 := hd _ (List.mem_of_getElem? hf')
  have hfl : f + 1 < n + 1 := by rw [← hn]; exact (List.getElem?_eq_some_iff.mp hf').1
  have hfn : f + 1 < n := by
    by_contra hc
    have : f + 1 = n := by omega
    rw [this, hl] at hf'
    have := Option.some.inj hf'
    omega
  have hm1 : (f + 1) * nt = f * nt + nt := by ring
  have hmi : ((f : Int) + 1) * nt = f * nt + nt := by ring
  have hm2 : (f + 2) * nt ≤ n * nt := Nat.mul_le_mul_right _ (by omega)
  have hm3 : (f + 2) * nt = f * nt + nt + nt := by ring
  apply scatter_some
  · intro p hp hk
    obtain ⟨⟨w, r⟩, hq, rfl⟩ := List.mem_map.mp hp
    obtain ⟨i, hi, hmp⟩ := List.mem_filterMap.mp hq
    dsimp only at hk ⊢
    rcases hcases i hi with ⟨w', r', h, hw, _⟩ | ⟨c, x, w', d, hcd, hx, hw, _, h⟩
    · rw [hmp] at h
      cases h
      omega
    · rw [hmp] at h
      cases h
      have hdd := hd d (List.mem_of_getElem? hcd)
      have hcf : c = f := by
        rcases Nat.lt_trichotomy c f with hlt | heq | hgt
        · have : (c + 1) * nt ≤ f * nt := Nat.mul_le_mul_right _ hlt
          have h3 : (c + 1) * nt = c * nt + nt := by ring
          push_cast at hw
          omega
        · exact heq
        · rcases Nat.lt_or_ge (f + 1) c with h4 | h4
          · have : (f + 2) * nt ≤ c * nt := Nat.mul_le_mul_right _ h4
            push_cast at hw
            omega
          · have : c = f + 1 := by omega
            subst this
            rw [hf'] at hcd
            cases hcd
            push_cast at hw
            omega
      subst hcf
      rw [hf] at hcd
      cases hcd
      have hx' : x = nt - e + t := by push_cast at hw; omega
      rw [Nat.add_comm (c * nt), Nat.add_mul_mod_self_right, Nat.mod_eq_of_lt hx, Nat.add_mul_div_right _ _ (by omega), Nat.div_eq_of_lt hx,
        Nat.zero_add, hx']
  · have hx : nt - e + t < nt := by omega
    have hmem : ((f * nt + (nt - e + t) : Nat) : Int) ∈ keepIdx nt cd :=
      mem_keepIdx.mpr ⟨f, nt + t, -(e : Int), hf, by push_cast; omega, by push_cast; omega⟩
    have hw : ((f * nt + (nt - e + t) : Nat) : Int) - (-(e : Int)) = (t + (f + 1) * nt : Nat) := by push_cast; omega
    have hlt : t + (f + 1) * nt < nt * cd.length := by
      have h5 : nt * (n + 1) = n * nt + nt := by ring
      rw [hn]
      omega
    refine ⟨_, List.mem_map.mpr ⟨_, List.mem_filterMap.mpr ⟨_, hmem, movePair_pos hf hx hw hlt⟩, rfl⟩, rfl⟩

example : ∀ d ∈ ([-3, -1, 0] : List Int), -((4 : Nat) : Int) ≤ d ∧ d ≤ 0 := by decide

/-- **C43** for the older functions: a channel whose delay is at least one sample is shifted by its delay. -/
theorem dedisperse_old_partial {α : Type} (nt nf : Nat) (data : Nat → Nat → Option α) (cd : List Int)
    (hn : cd.length = nf) (h0 : 0 < nf) :
    ∃ r, deDisperseOld nt nf data cd = .ok r ∧
      ∀ t f d, t < nt → cd[f]? = some (d : Int) → 1 ≤ d →
        r t f = if t + d.toNat < nt then data (t + d.toNat) f else none := by
  have hne : cd ≠ [] := by rintro rfl; simp at hn; omega
  unfold deDisperseOld
  rw [if_neg (by simp [hn]), if_neg hne]
  refine ⟨_, rfl, ?_⟩
  intro t f d ht hf hd
  obtain ⟨e, rfl⟩ : ∃ e : Nat, d = e := ⟨d.toNat, by omega⟩
  have hg : cd.getD f 0 = (e : Int) := by rw [List.getD_eq_getElem?_getD, hf]; rfl
  rw [hg, Int.toNat_natCast]
  unfold rollBlank pyBound
  rw [if_pos (show -(e : Int) < 0 by omega)]
  by_cases hlt : t + e < nt
  · rw [if_pos hlt, if_neg (by omega)]
    have : ((t : Int) + e) % nt = ((t + e : Nat) : Int) := by
      rw [show (t : Int) + e = ((t + e : Nat) : Int) by push_cast; ring]
      exact Int.emod_eq_of_lt (by omega) (by omega)
    rw [this, Int.toNat_natCast]
  · rw [if_neg hlt, if_pos (by omega)]

/-- The older functions blank every channel with no delay: in particular the reference channel is always lost. -/
theorem dedisperse_old_reference_violated {α : Type} (nt nf : Nat) (data : Nat → Nat → Option α) (cd : List Int)
    (hn : cd.length = nf) (h0 : 0 < nf) (f : Nat) (hf : cd[f]? = some 0) :
    ∃ r, deDisperseOld nt nf data cd = .ok r ∧ ∀ t, t < nt → r t f = none := by
  have hne : cd ≠ [] := by rintro rfl; simp at hn; omega
  unfold deDisperseOld
  rw [if_neg (by simp [hn]), if_neg hne]
  refine ⟨_, rfl, ?_⟩
  intro t ht
  have hg : cd.getD f 0 = 0 := by rw [List.getD_eq_getElem?_getD, hf]; rfl
  rw [hg]
  unfold rollBlank pyBound
  rw [if_pos]
  simp [ht]

/-- The older functions, with a channel above the reference frequency: only samples coming from the wrong end of the data are kept. -/
theorem dedisperse_old_negative_violated {α : Type} (nt nf e : Nat) (data : Nat → Nat → Option α) (cd : List Int)
    (hn : cd.length = nf) (h0 : 0 < nf) (f : Nat) (hf : cd[f]? = some (-(e : Int))) (he : 0 < e) (hent : e < nt) :
    ∃ r, deDisperseOld nt nf data cd = .ok r ∧ (∀ t, t < nt → e ≤ t → r t f = none) ∧
      ∀ t, t < e → r t f = data (t + nt - e) f := by
  have hne : cd ≠ [] := by rintro rfl; simp at hn; omega
  unfold deDisperseOld
  rw [if_neg (by simp [hn]), if_neg hne]
  refine ⟨_, rfl, ?_, ?_⟩
  · intro t ht hte
    have hg : cd.getD f 0 = -(e : Int) := by rw [List.getD_eq_getElem?_getD, hf]; rfl
    rw [hg]
    unfold rollBlank pyBound
    rw [if_neg (show ¬ -(-(e : Int)) < 0 by omega), if_pos (by omega)]
  · intro t ht
    have hg : cd.getD f 0 = -(e : Int) := by rw [List.getD_eq_getElem?_getD, hf]; rfl
    rw [hg]
    unfold rollBlank pyBound
    rw [if_neg (show ¬ -(-(e : Int)) < 0 by omega), if_neg (by omega)]
    have : ((t : Int) + -(e : Int)) % nt = ((t + nt - e : Nat) : Int) := by
      rw [show (t : Int) + -(e : Int) = ((t + nt - e : Nat) : Int) + (nt : Int) * (-1) by omega,
        Int.add_mul_emod_self_left]
      exact Int.emod_eq_of_lt (by omega) (by omega)
    rw [this, Int.toNat_natCast]

/-! ## Averages -/

theorem nanmean_some (l : List ℚ) (hl : l ≠ []) : nanmean (l.map some) = some (l.sum / (l.length : ℚ)) := by
  have : (l.map some).filterMap id = l := by
    rw [List.filterMap_map]; simp
  unfold nanmean
  rw [this, if_neg hl]

theorem bin_pos {dx ndx : ℚ} (hdx : 0 < dx) (h : dx ≤ ndx) : 1 ≤ ⌊ndx / dx⌋ := by
  rw [Int.le_floor]; push_cast
  rw [le_div_iff₀ hdx]; linarith

/-- The number of samples averaged is the largest one not exceeding the requested resolution. -/
theorem bin_size_spec {dx ndx : ℚ} (hdx : 0 < dx) (h : dx ≤ ndx) :
    ((⌊ndx / dx⌋.toNat : Nat) : ℚ) * dx ≤ ndx ∧ ndx < ((⌊ndx / dx⌋.toNat : Nat) + 1 : ℚ) * dx := by
  have hp := bin_pos hdx h
  have e : ((⌊ndx / dx⌋.toNat : Nat) : ℚ) = (⌊ndx / dx⌋ : ℚ) := by
    have : ((⌊ndx / dx⌋.toNat : Nat) : Int) = ⌊ndx / dx⌋ := by omega
    exact_mod_cast congrArg (Int.cast : Int → ℚ) this
  rw [e]
  have h1 := Int.floor_le (ndx / dx)
  have h2 := Int.lt_floor_add_one (ndx / dx)
  rw [le_div_iff₀ hdx] at h1
  rw [div_lt_iff₀ hdx] at h2
  exact ⟨h1, h2⟩

theorem mod_mul_div (n b : Nat) (hb : 0 < b) (h : b ≤ n) : n % (n / b * b) = n % b := by
  have hm : 1 ≤ n / b := (Nat.one_le_div_iff hb).mpr h
  have h1 := Nat.div_add_mod' n b
  have h2 := Nat.mod_lt n hb
  have h3 : b ≤ n / b * b := Nat.le_mul_of_pos_left b hm
  conv_lhs => rw [show n = n % b + n / b * b by omega]
  have h4 : (n % b + n / b * b) / b = n / b := by
    rw [Nat.add_mul_div_right _ _ hb, Nat.div_eq_of_lt h2, Nat.zero_add]
  rw [h4, Nat.add_mod_right, Nat.mod_eq_of_lt (by omega)]

/-- **C46**: with bins of `B` samples, at most the size of the data, sample `k` of the result is the mean of the `B` consecutive
samples from `k B` on, both for the axis and the data; the `n mod B` last samples are left out. Missing values are not counted. -/
theorem rebin_exact_partial (n : Nat) (axis : Nat → ℚ) (data : Nat → Option ℚ) (dx ndx : ℚ) (B : Nat)
    (hdx : 0 < dx) (h : dx ≤ ndx) (hB : B = ⌊ndx / dx⌋.toNat) (hn : B ≤ n) :
    rebin n n axis data dx ndx = .ok
      ((List.range (n / B)).map fun k => some ((window axis (k * B) B).sum / (B : ℚ)),
       (List.range (n / B)).map fun k => nanmean (window data (k * B) B)) ∧
      n - n / B * B < B := by
  have hp := bin_pos hdx h
  have hb : 0 < B := by omega
  have hm : 1 ≤ n / B := (Nat.one_le_div_iff hb).mpr hn
  have h1 := Nat.div_add_mod' n B
  have h2 := Nat.mod_lt n hb
  refine ⟨?_, by omega⟩
  have es : rebinSizes n dx ndx = (B, n / B) := by
    unfold rebinSizes
    rw [← hB, if_neg (by omega)]
  unfold rebin
  rw [if_neg (by simp), if_neg (by linarith), es]
  show (if n / B * B = 0 then _ else _) = _
  rw [if_neg (by have := Nat.mul_pos hm hb; omega)]
  have ew : (n - n % (n / B * B)) / (n / B) = B := by
    rw [mod_mul_div n B hb hn, show n - n % B = n / B * B by omega, Nat.mul_div_cancel_left _ hm]
  show Except.ok ((List.range (n / B)).map (fun k => nanmean (window (fun i => some (axis i))
      (k * ((n - n % (n / B * B)) / (n / B))) ((n - n % (n / B * B)) / (n / B)))),
    (List.range (n / B)).map fun k => nanmean (window data
      (k * ((n - n % (n / B * B)) / (n / B))) ((n - n % (n / B * B)) / (n / B)))) = _
  rw [ew]
  congr 2
  apply List.map_congr_left
  intro k _
  have e : window (fun i => some (axis i)) (k * B) B = (window axis (k * B) B).map some := by
    unfold window; rw [List.map_map]; rfl
  rw [e, nanmean_some]
  · unfold window; rw [List.length_map, List.length_range]
  · intro hc
    have := congrArg List.length hc
    unfold window at this
    rw [List.length_map, List.length_range, List.length_nil] at this
    omega

example : (0 : ℚ) < 1 / 100 ∧ (1 / 100 : ℚ) ≤ 1 / 30 ∧ 3 = ⌊(1 / 30 : ℚ) / (1 / 100)⌋.toNat ∧ 3 ≤ 10 := by
  refine ⟨by norm_num, by norm_num, by decide +kernel, by norm_num⟩

/-- **C46**: when the requested resolution exceeds the data, one sample is given, the mean of all of them. -/
theorem rebin_whole (n : Nat) (axis : Nat → ℚ) (data : Nat → Option ℚ) (dx ndx : ℚ)
    (h : dx ≤ ndx) (hn : n < ⌊ndx / dx⌋.toNat) (h0 : 0 < n) :
    rebin n n axis data dx ndx = .ok
      ([nanmean (window (fun i => some (axis i)) 0 n)], [nanmean (window data 0 n)]) := by
  have es : rebinSizes n dx ndx = (n, 1) := by
    unfold rebinSizes
    rw [if_pos (Nat.div_eq_of_lt hn)]
  unfold rebin
  rw [if_neg (by simp), if_neg (by linarith), es]
  show (if 1 * n = 0 then _ else _) = _
  rw [if_neg (by omega)]
  show Except.ok ((List.range 1).map (fun k => nanmean (window (fun i => some (axis i))
      (k * ((n - n % (1 * n)) / 1)) ((n - n % (1 * n)) / 1))),
    (List.range 1).map fun k => nanmean (window data
      (k * ((n - n % (1 * n)) / 1)) ((n - n % (1 * n)) / 1))) = _
  have : (n - n % (1 * n)) / 1 = n := by rw [Nat.one_mul, Nat.mod_self, Nat.div_one, Nat.sub_zero]
  rw [this]
  simp

/-- **C46**: the mean of a bin is missing exactly when all its values are. -/
theorem nanmean_none (l : List (Option ℚ)) : nanmean l = none ↔ ∀ x ∈ l, x = none := by
  unfold nanmean
  constructor
  · intro h x hx
    by_cases hc : l.filterMap id = []
    · cases x with
      | none => rfl
      | some v =>
        have : v ∈ l.filterMap id := List.mem_filterMap.mpr ⟨some v, hx, rfl⟩
        rw [hc] at this; cases this
    · rw [if_neg hc] at h; cases h
  · intro h
    rw [if_pos]
    rw [List.filterMap_eq_nil_iff]
    intro a ha
    exact h a ha

/-- Requests finer than the data, and axes of another size, are rejected; so are empty data. -/
theorem rebin_errors (nd n : Nat) (axis : Nat → ℚ) (data : Nat → Option ℚ) (dx ndx : ℚ) :
    (nd ≠ n → rebin nd n axis data dx ndx = .error .valueError) ∧
    (ndx < dx → rebin nd n axis data dx ndx = .error .valueError) ∧
    (dx ≤ ndx → rebin 0 0 axis data dx ndx = .error .zeroDivision) := by
  refine ⟨?_, ?_, ?_⟩
  · intro h; unfold rebin; rw [if_pos h]
  · intro h; unfold rebin; rw [if_pos h]; split <;> rfl
  · intro h
    unfold rebin
    rw [if_neg (by simp), if_neg (by linarith)]
    have es : rebinSizes 0 dx ndx = (0, 1) := by
      unfold rebinSizes; rw [if_pos (Nat.zero_div _)]
    rw [es]
    rfl

/-- **C46** for the older reader: the bins hold the requested number of samples exactly when fewer samples than bins are left over. -/
theorem rebin_old_width (n : Nat) (data : Nat → Option ℚ) (dt rdt : ℚ) (B : Nat) (hB : B = ⌊rdt / dt⌋.toNat)
    (hb : 0 < B) (hn : B ≤ n) :
    ∃ w, rebinOld n data dt rdt = .ok ((List.range (n / B)).map fun k => nanmean (window data (k * w) w)) ∧
      B ≤ w ∧ (w = B ↔ n % B < n / B) := by
  have hm : 1 ≤ n / B := (Nat.one_le_div_iff hb).mpr hn
  have h1 := Nat.div_add_mod' n B
  refine ⟨(n - n % (n / B)) / (n / B), ?_, ?_, ?_⟩
  · unfold rebinOld
    rw [← hB]
    show (if B = 0 then _ else if n / B = 0 then _ else _) = _
    rw [if_neg (by omega), if_neg (by omega)]
  · rw [Nat.le_div_iff_mul_le hm]
    have h5 : n % (n / B) ≤ n % B := by
      conv_lhs => rw [show n % (n / B) = (n / B * B + n % B) % (n / B) by rw [h1]]
      rw [Nat.mul_add_mod]
      exact Nat.mod_le _ _
    rw [Nat.mul_comm]
    omega
  · have h5 : n % (n / B) = n % B % (n / B) := by
      conv_lhs => rw [show n % (n / B) = (n / B * B + n % B) % (n / B) by rw [h1]]
      rw [Nat.mul_add_mod]
    have h6 := Nat.div_add_mod' (n % B) (n / B)
    have e : (n - n % (n / B)) = n / B * (B + n % B / (n / B)) := by
      rw [h5, Nat.mul_add, Nat.mul_comm (n / B) (n % B / (n / B))]
      omega
    rw [e, Nat.mul_div_cancel_left _ hm]
    constructor
    · intro h
      have : n % B / (n / B) = 0 := by omega
      rcases Nat.div_eq_zero_iff.mp this with h | h
      · omega
      · exact h
    · intro h
      rw [Nat.div_eq_of_lt h, Nat.add_zero]

/-- Averaging 10 spectra by 4 with the older reader averages them by 5. -/
theorem rebin_old_violated :
    ∃ (n : Nat) (data : Nat → Option ℚ) (dt rdt : ℚ), ⌊rdt / dt⌋.toNat = 4 ∧
      rebinOld n data dt rdt = .ok [nanmean (window data 0 5), nanmean (window data 5 5)] ∧
      nanmean (window data 0 5) ≠ nanmean (window data 0 4) :=
  ⟨10, fun i => some i, 1, 4, by decide +kernel, by
    unfold rebinOld
    rw [show ⌊(4 : ℚ) / 1⌋.toNat = 4 by decide +kernel]
    rfl, by decide +kernel⟩

/-! ## Channel masks -/

/-- **C47**: cropping blanks exactly the `lower` first and the `higher` last channels of every sub-band. -/
theorem crop_exact {α : Type} (nSub nChan lower higher : Nat) (row : Nat → Option α) (h : lower + higher < nChan) :
    ∃ r, cropEdges (nSub * nChan) nChan lower higher row = .ok r ∧
      ∀ s c, c < nChan →
        r (s * nChan + c) = if c < lower ∨ nChan ≤ c + higher then none else row (s * nChan + c) := by
  unfold cropEdges subbandsOk
  rw [if_neg (by omega), if_neg (by omega), if_neg (by simp)]
  refine ⟨_, rfl, ?_⟩
  intro s c hc
  have e : (s * nChan + c) % nChan = c := by rw [Nat.add_comm, Nat.add_mul_mod_self_right, Nat.mod_eq_of_lt hc]
  have e2 : inSlice nChan (0 : Int) (lower : Int) c = true ↔ c < lower := by
    have := inSlice_nat nChan 0 lower c
    rw [show ((0 : Nat) : Int) = 0 from rfl] at this
    rw [this]; omega
  have e3 : inSlice nChan ((nChan : Int) - (higher : Int)) (nChan : Int) c = true ↔ nChan ≤ c + higher := by
    have := inSlice_nat nChan (nChan - higher) nChan c
    rw [show (((nChan - higher : Nat)) : Int) = (nChan : Int) - higher by omega] at this
    rw [this]; omega
  dsimp only
  rw [e]
  by_cases hcond : c < lower ∨ nChan ≤ c + higher
  · rw [if_pos hcond, if_pos]
    rw [e2, e3]; exact hcond
  · rw [if_neg hcond, if_neg]
    rw [e2, e3]; exact hcond

/-- **C47**: cropping every channel is rejected, and so are sizes which are not a whole number of sub-bands. -/
theorem crop_rejected {α : Type} (nFreq nChan : Nat) (lower higher : Int) (row : Nat → Option α) :
    ((nChan : Int) ≤ lower + higher → cropEdges nFreq nChan lower higher row = .error .valueError) ∧
    (0 < nChan → nFreq % nChan ≠ 0 → lower + higher < nChan → cropEdges nFreq nChan lower higher row = .error .valueError) := by
  refine ⟨?_, ?_⟩
  · intro h; unfold cropEdges; rw [if_pos h]
  · intro h0 h1 h2
    unfold cropEdges subbandsOk
    rw [if_neg (by omega), if_neg (by omega), if_pos h1]
    rfl

/-- **C47** (violated): a negative number of channels is accepted by the check and blanks all the channels of the sub-bands but the last ones. -/
theorem crop_negative_violated {α : Type} (nSub nChan l : Nat) (h0 : 0 < l) (h1 : l < nChan) (row : Nat → Option α) :
    ∃ r, cropEdges (nSub * nChan) nChan (-(l : Int)) 0 row = .ok r ∧
      ∀ s c, c < nChan → r (s * nChan + c) = if c + l < nChan then none else row (s * nChan + c) := by
  unfold cropEdges subbandsOk
  rw [if_neg (by omega), if_neg (by omega), if_neg (by simp)]
  refine ⟨_, rfl, ?_⟩
  intro s c hc
  have e : (s * nChan + c) % nChan = c := by rw [Nat.add_comm, Nat.add_mul_mod_self_right, Nat.mod_eq_of_lt hc]
  have e2 : (inSlice nChan (0 : Int) (-(l : Int)) c = true ∨ inSlice nChan ((nChan : Int) - 0) nChan c = true) ↔ c + l < nChan := by
    unfold inSlice pyBound
    simp only [Bool.and_eq_true, decide_eq_true_iff]
    split_ifs <;> omega
  dsimp only
  rw [e]
  by_cases hcl : c + l < nChan
  · rw [if_pos (e2.2 hcl), if_pos hcl]
  · rw [if_neg (fun h => hcl (e2.1 h)), if_neg hcl]

/-- Channel meant by an index: negative ones count from the last. -/
def channelOf (nChan : Nat) (i : Int) : Int := if i < 0 then i + nChan else i

/-- **C47**: removing channels blanks exactly the requested channels of every sub-band. -/
theorem remove_exact {α : Type} (nSub nChan : Nat) (chans : List Int) (row : Nat → Option α)
    (hr : ∀ i ∈ chans, -(nChan : Int) ≤ i ∧ i < nChan) :
    ∃ r, removeChannels (nSub * nChan) nChan (some chans) row = .ok r ∧
      ∀ s c, s < nSub → c < nChan →
        ((∃ i ∈ chans, channelOf nChan i = c) → r (s * nChan + c) = none) ∧
        ((∀ i ∈ chans, channelOf nChan i ≠ c) → r (s * nChan + c) = row (s * nChan + c)) := by
  unfold removeChannels
  rw [show (some chans).getD [] = chans from rfl]
  by_cases hc : chans = []
  · subst hc
    rw [if_pos rfl]
    refine ⟨row, rfl, fun s c _ _ => ⟨?_, fun _ => rfl⟩⟩
    rintro ⟨i, hi, -⟩
    cases hi
  · rw [if_neg hc, if_neg]
    swap
    · rw [List.any_eq_true]
      rintro ⟨i, hi, hb⟩
      have := hr i hi
      rw [Bool.or_eq_true, decide_eq_true_iff, decide_eq_true_iff] at hb
      omega
    have h0 : 0 < nChan := by
      obtain ⟨i, hi⟩ := List.exists_mem_of_ne_nil _ hc
      have := hr i hi
      omega
    have hw : ∀ i ∈ chans, ∀ c, wrapIdx nChan i = some c ↔ channelOf nChan i = c := by
      intro i hi c
      have := hr i hi
      unfold wrapIdx channelOf
      split_ifs <;> first | omega | (rw [Option.some.injEq]; omega)
    unfold subbandsOk
    rw [if_neg (by omega), if_neg (by simp)]
    refine ⟨_, rfl, ?_⟩
    intro s c hs hcl
    have e : (s * nChan + c) % nChan = c := by rw [Nat.add_comm, Nat.add_mul_mod_self_right, Nat.mod_eq_of_lt hcl]
    dsimp only
    rw [e]
    constructor
    · rintro ⟨i, hi, hic⟩
      rw [if_pos]
      rw [List.any_eq_true]
      exact ⟨i, hi, by rw [decide_eq_true_iff, hw i hi]; exact hic⟩
    · intro hno
      rw [if_neg]
      rw [List.any_eq_true]
      rintro ⟨i, hi, hb⟩
      rw [decide_eq_true_iff, hw i hi] at hb
      exact hno i hi hb

example : ∀ i ∈ ([0, 1, -1] : List Int), -((16 : Nat) : Int) ≤ i ∧ i < (16 : Nat) := by decide

/-- **C47**: an index outside of the sub-band is rejected; asking for nothing changes nothing. -/
theorem remove_rejected {α : Type} (nFreq nChan : Nat) (chans : List Int) (row : Nat → Option α) :
    (∀ i ∈ chans, (i < -(nChan : Int) ∨ (nChan : Int) ≤ i) →
      removeChannels nFreq nChan (some chans) row = .error .indexError) ∧
    removeChannels nFreq nChan (some []) row = .ok row ∧ removeChannels nFreq nChan none row = .ok row := by
  refine ⟨?_, rfl, rfl⟩
  intro i hi hb
  unfold removeChannels
  rw [show (some chans).getD [] = chans from rfl, if_neg (List.ne_nil_of_mem hi), if_pos]
  rw [List.any_eq_true]
  exact ⟨i, hi, by rw [Bool.or_eq_true, decide_eq_true_iff, decide_eq_true_iff]; exact hb⟩

/-- **C47** (violated): removing every channel is not rejected, as it is when cropping: all the data are blanked. -/
theorem remove_all_violated {α : Type} (nSub nChan : Nat) (chans : List Int) (row : Nat → Option α)
    (hr : ∀ i ∈ chans, -(nChan : Int) ≤ i ∧ i < nChan) (ha : ∀ c : Nat, c < nChan → ∃ i ∈ chans, channelOf nChan i = c) :
    ∃ r, removeChannels (nSub * nChan) nChan (some chans) row = .ok r ∧ ∀ k, k < nSub * nChan → r k = none := by
  obtain ⟨r, h1, h2⟩ := remove_exact nSub nChan chans row hr
  refine ⟨r, h1, fun k hk => ?_⟩
  have h0 : 0 < nChan := Nat.pos_of_ne_zero (by rintro rfl; simp at hk)
  have e := Nat.div_add_mod' k nChan
  have := (h2 (k / nChan) (k % nChan) (Nat.div_lt_of_lt_mul (by rw [Nat.mul_comm]; exact hk)) (Nat.mod_lt _ h0)).1 (ha _ (Nat.mod_lt _ h0))
  rwa [e] at this

example : ∀ c : Nat, c < 4 → ∃ i ∈ ([0, 1, -1, -2] : List Int), channelOf 4 i = c := by decide

end Verif.TF
