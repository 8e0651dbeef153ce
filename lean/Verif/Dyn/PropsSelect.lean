import Verif.Dyn.Model
import Mathlib.Tactic.Linarith
import Mathlib.Tactic.NormNum
import Mathlib.Tactic.Push

/-!
# Selection of times and frequencies by the older reader (C82 to C85)
-/

namespace Verif.Dyn

/-! ## Closest entry -/

theorem closest_lt {x : Nat → ℚ} {n : Nat} {v : ℚ} (h : 0 < n) : closest x n v < n := argmax_lt _ h

theorem closest_min {x : Nat → ℚ} {n : Nat} {v : ℚ} {k : Nat} (h : k < n) : |x (closest x n v) - v| ≤ |x k - v| := by
  have := argmax_max (fun k => -|x k - v|) h
  simp only [neg_le_neg_iff] at this
  exact this

theorem closest_first {x : Nat → ℚ} {n : Nat} {v : ℚ} {k : Nat} (h : k < closest x n v) : |x (closest x n v) - v| < |x k - v| := by
  have := argmax_first (fun k => -|x k - v|) h
  simp only [neg_lt_neg_iff] at this
  exact this

/-- On an increasing axis, the entry closest to a value which is not above entry `k` is not after it. -/
theorem closest_le {x : Nat → ℚ} {n : Nat} {v : ℚ} (hx : ∀ i j : Nat, i < j → j < n → x i < x j) {k : Nat} (hk : k < n) (hv : v ≤ x k) :
    closest x n v ≤ k := by
  by_contra hc
  push Not at hc
  have h1 := closest_min (x := x) (v := v) hk
  have h2 := hx k (closest x n v) hc (closest_lt (by omega))
  rw [abs_of_nonneg (by linarith), abs_of_nonneg (by linarith)] at h1
  linarith

theorem le_closest {x : Nat → ℚ} {n : Nat} {v : ℚ} (hx : ∀ i j : Nat, i < j → j < n → x i < x j) {k : Nat} (hk : k < n) (hv : x k ≤ v) :
    k ≤ closest x n v := by
  by_contra hc
  push Not at hc
  have h1 := closest_min (x := x) (v := v) hk
  have h2 := hx (closest x n v) k hc hk
  rw [abs_of_nonpos (by linarith), abs_of_nonpos (by linarith)] at h1
  linarith

theorem closest_mono {x : Nat → ℚ} {n : Nat} {v w : ℚ} (hx : ∀ i j : Nat, i < j → j < n → x i < x j) (hn : 0 < n) (hvw : v ≤ w) :
    closest x n v ≤ closest x n w := by
  by_contra hc
  push Not at hc
  have hlt := hx _ _ hc (closest_lt (v := v) hn)
  have a := closest_first (x := x) (v := v) hc
  have b := closest_min (x := x) (v := w) (closest_lt (x := x) (v := v) hn)
  generalize x (closest x n v) = p at *
  generalize x (closest x n w) = q at *
  rcases abs_cases (p - v) with ⟨e1, _⟩ | ⟨e1, _⟩ <;> rcases abs_cases (q - v) with ⟨e2, _⟩ | ⟨e2, _⟩ <;>
    rcases abs_cases (p - w) with ⟨e3, _⟩ | ⟨e3, _⟩ <;> rcases abs_cases (q - w) with ⟨e4, _⟩ | ⟨e4, _⟩ <;>
    rw [e1, e2] at a <;> rw [e3, e4] at b <;> linarith

/-! ## C82: selected times -/

theorem laneTime_mono {L : Lane} (h : 0 < L.dt) (i j : Nat) (hij : i < j) : laneTime L i < laneTime L j := by
  unfold laneTime
  have : (i : ℚ) < (j : ℚ) := by exact_mod_cast hij
  have := mul_lt_mul_of_pos_right this h
  linarith

theorem laneTime_succ (L : Lane) (k : Nat) : laneTime L (k + 1) = laneTime L k + L.dt := by
  unfold laneTime
  push_cast
  ring

/-- The closest time is at most half a step after a value which is not before the first one. -/
theorem closest_above {L : Lane} (h : 0 < L.dt) (v : ℚ) (hv : laneTime L 0 ≤ v) (hn : 0 < L.nt) :
    laneTime L (closest (laneTime L) L.nt v) ≤ v + L.dt / 2 := by
  rcases Nat.eq_zero_or_pos (closest (laneTime L) L.nt v) with h0 | hp
  · rw [h0]
    linarith
  · have hl := closest_lt (x := laneTime L) (v := v) hn
    have := closest_first (x := laneTime L) (n := L.nt) (v := v) (k := closest (laneTime L) L.nt v - 1) (by omega)
    have e := laneTime_succ L (closest (laneTime L) L.nt v - 1)
    rw [show closest (laneTime L) L.nt v - 1 + 1 = closest (laneTime L) L.nt v by omega] at e
    generalize laneTime L (closest (laneTime L) L.nt v - 1) = q at *
    generalize laneTime L (closest (laneTime L) L.nt v) = p at *
    rcases abs_cases (p - v) with ⟨e1, _⟩ | ⟨e1, _⟩ <;> rcases abs_cases (q - v) with ⟨e2, _⟩ | ⟨e2, _⟩ <;>
      rw [e1, e2] at this <;> linarith

/-- The closest time is at most half a step before a value which is not after the last one. -/
theorem closest_below {L : Lane} (h : 0 < L.dt) (v : ℚ) (hn : 0 < L.nt) (hv : v ≤ laneTime L (L.nt - 1)) :
    v - L.dt / 2 ≤ laneTime L (closest (laneTime L) L.nt v) := by
  have hl := closest_lt (x := laneTime L) (v := v) hn
  rcases Nat.lt_or_ge (closest (laneTime L) L.nt v) (L.nt - 1) with hp | hp
  · have := closest_min (x := laneTime L) (n := L.nt) (v := v) (k := closest (laneTime L) L.nt v + 1) (by omega)
    have e := laneTime_succ L (closest (laneTime L) L.nt v)
    generalize laneTime L (closest (laneTime L) L.nt v + 1) = q at *
    generalize laneTime L (closest (laneTime L) L.nt v) = p at *
    rcases abs_cases (p - v) with ⟨e1, _⟩ | ⟨e1, _⟩ <;> rcases abs_cases (q - v) with ⟨e2, _⟩ | ⟨e2, _⟩ <;>
      rw [e1, e2] at this <;> linarith
  · rw [show closest (laneTime L) L.nt v = L.nt - 1 by omega]
    linarith

theorem selTimes_some {L : Lane} {r : ℚ × ℚ} {a b : Nat} (h : selTimes L r = some (a, b)) :
    a = closest (laneTime L) L.nt r.1 ∧ b = closest (laneTime L) L.nt r.2 ∧ a ≠ b := by
  unfold selTimes at h
  split_ifs at h with hc
  simp only [Option.some.injEq, Prod.mk.injEq] at h
  exact ⟨h.1.symm, h.2.symm, by rw [← h.1, ← h.2]; exact hc⟩

/-- **C82.** The spectra read lie within the requested range, up to half a time step before its start, and no later than half a
time step before its end. -/
theorem time_within (L : Lane) (beam : Nat) (tr fr : ℚ × ℚ) (s : Sel) (hdt : 0 < L.dt) (hn : 0 < L.nt) (hr : tr.1 < tr.2)
    (h : selectData L beam tr fr = some s) (k : Nat) (h0 : s.t0 ≤ k) (h1 : k < s.t1) :
    k < L.nt ∧ tr.1 - L.dt / 2 ≤ laneTime L k ∧ laneTime L k ≤ tr.2 - L.dt / 2 := by
  unfold selectData at h
  simp only [Option.bind_eq_some_iff, Option.map_eq_some_iff] at h
  obtain ⟨b, _, ⟨a, c⟩, ht, f, _, rfl⟩ := h
  obtain ⟨ha, hc, hne⟩ := selTimes_some ht
  simp only at h0 h1
  have hcl : c < L.nt := by rw [hc]; exact closest_lt hn
  have hend : laneTime L k ≤ laneTime L c - L.dt := by
    have e := laneTime_succ L k
    rcases Nat.lt_or_ge (k + 1) c with h | h
    · have := laneTime_mono hdt (k + 1) c h
      linarith
    · rw [show c = k + 1 by omega]
      linarith
  have hstart : laneTime L a ≤ laneTime L k := by
    rcases Nat.lt_or_ge a k with h | h
    · exact (laneTime_mono hdt a k h).le
    · rw [show k = a by omega]
  have hin : ∀ i j : Nat, i < j → j < L.nt → laneTime L i < laneTime L j := fun i j hij _ => laneTime_mono hdt i j hij
  refine ⟨by omega, ?_, ?_⟩
  · by_cases hl : tr.1 ≤ laneTime L (L.nt - 1)
    · have := closest_below hdt tr.1 hn hl
      rw [← ha] at this
      linarith
    · push Not at hl
      have := le_closest hin (k := L.nt - 1) (by omega) hl.le
      have h3 := le_closest hin (k := L.nt - 1) (by omega) (hl.trans hr).le
      rw [← ha] at this
      omega
  · by_cases hf : laneTime L 0 ≤ tr.2
    · have := closest_above hdt tr.2 hf hn
      rw [← hc] at this
      linarith
    · push Not at hf
      have := closest_le hin (k := 0) hn hf.le
      omega

/-- **C82.** Every spectrum of the requested range is read, but possibly the one closest to its end: what is read are the spectra of the
range, in a row. -/
theorem time_complete (L : Lane) (beam : Nat) (tr fr : ℚ × ℚ) (s : Sel) (hdt : 0 < L.dt)
    (h : selectData L beam tr fr = some s) (k : Nat) (hk : k < L.nt) (h0 : tr.1 ≤ laneTime L k) (h1 : laneTime L k ≤ tr.2) :
    s.t0 ≤ k ∧ (k < s.t1 ∨ (k = s.t1 ∧ ∀ j, j < L.nt → |laneTime L k - tr.2| ≤ |laneTime L j - tr.2|)) := by
  unfold selectData at h
  simp only [Option.bind_eq_some_iff, Option.map_eq_some_iff] at h
  obtain ⟨b, _, ⟨a, c⟩, ht, f, _, rfl⟩ := h
  obtain ⟨ha, hc, hne⟩ := selTimes_some ht
  have hin : ∀ i j : Nat, i < j → j < L.nt → laneTime L i < laneTime L j := fun i j hij _ => laneTime_mono hdt i j hij
  have u := closest_le hin hk h0
  have v := le_closest hin hk h1
  rw [← ha] at u
  refine ⟨u, ?_⟩
  rcases Nat.lt_or_ge k c with h | h
  · exact .inl h
  · have hkc : k = c := by rw [← hc] at v; omega
    refine .inr ⟨hkc, fun j hj => ?_⟩
    rw [hkc, hc]
    exact closest_min hj

/-! ## C83: the whole observation -/

/-- **C83, violated.** Whatever the requested range, the last spectrum of a file is never read: in particular when the range is left
at its default, the whole observation. -/
theorem last_spectrum_violated (L : Lane) (beam : Nat) (tr fr : ℚ × ℚ) (s : Sel) (hn : 0 < L.nt) (h : selectData L beam tr fr = some s) :
    s.t1 ≤ L.nt - 1 := by
  unfold selectData at h
  simp only [Option.bind_eq_some_iff, Option.map_eq_some_iff] at h
  obtain ⟨b, _, ⟨a, c⟩, ht, f, _, rfl⟩ := h
  obtain ⟨_, hc, _⟩ := selTimes_some ht
  have : c < L.nt := by rw [hc]; exact closest_lt hn
  show c ≤ _
  omega

/-- **C83.** With a range which contains the whole file, all spectra but the last one are read. -/
theorem whole_file_partial (L : Lane) (beam : Nat) (tr fr : ℚ × ℚ) (s : Sel) (hdt : 0 < L.dt) (hn : 0 < L.nt)
    (h0 : tr.1 ≤ laneTime L 0) (h1 : laneTime L (L.nt - 1) ≤ tr.2) (h : selectData L beam tr fr = some s) :
    s.t0 = 0 ∧ s.t1 = L.nt - 1 := by
  have hl := last_spectrum_violated L beam tr fr s hn h
  unfold selectData at h
  simp only [Option.bind_eq_some_iff, Option.map_eq_some_iff] at h
  obtain ⟨b, _, ⟨a, c⟩, ht, f, _, rfl⟩ := h
  obtain ⟨ha, hc, _⟩ := selTimes_some ht
  have hin : ∀ i j : Nat, i < j → j < L.nt → laneTime L i < laneTime L j := fun i j hij _ => laneTime_mono hdt i j hij
  have u := closest_le hin hn h0
  have v := le_closest hin (k := L.nt - 1) (by omega) h1
  rw [← ha] at u
  rw [← hc] at v
  simp only at hl ⊢
  omega

/-! ## C84: selected frequencies -/

theorem selFreqs_some {L : Lane} {bs be : Nat} {r : ℚ × ℚ} {a b : Nat} (h : selFreqs L bs be r = some (a, b)) :
    a = closest (fun k => laneFreq L (bs + k)) (be - bs) r.1 / L.nChan * L.nChan ∧
      b = (closest (fun k => laneFreq L (bs + k)) (be - bs) r.2 / L.nChan + 1) * L.nChan := by
  unfold selFreqs at h
  split_ifs at h with hc
  simp only [Option.some.injEq, Prod.mk.injEq] at h
  exact ⟨h.1.symm, h.2.symm⟩

/-- The edges of a beam are those of its sub-bands. -/
theorem beamEdgesOld_dvd {beams : List Nat} {n b bs be : Nat} (h : TF.beamEdgesOld beams n b = some (bs, be)) : n ∣ bs ∧ n ∣ be := by
  unfold TF.beamEdgesOld at h
  simp only [Option.bind_eq_some_iff, Option.map_eq_some_iff, Prod.mk.injEq] at h
  obtain ⟨i, _, j, _, rfl, rfl⟩ := h
  exact ⟨Dvd.intro_left _ rfl, Dvd.intro_left _ rfl⟩

/-- **C84.** Whole sub-bands are read. -/
theorem whole_subbands (L : Lane) (beam : Nat) (tr fr : ℚ × ℚ) (s : Sel) (h : selectData L beam tr fr = some s) :
    L.nChan ∣ s.f0 ∧ L.nChan ∣ s.f1 := by
  unfold selectData at h
  simp only [Option.bind_eq_some_iff, Option.map_eq_some_iff] at h
  obtain ⟨⟨bs, be⟩, hb, t, ht, ⟨a, c⟩, hf, rfl⟩ := h
  obtain ⟨h1, h2⟩ := beamEdgesOld_dvd hb
  obtain ⟨rfl, rfl⟩ := selFreqs_some hf
  refine ⟨Nat.dvd_add h1 (Dvd.intro_left _ rfl), ?_⟩
  show L.nChan ∣ min be _
  rcases min_choice be (bs + (closest (fun k => laneFreq L (bs + k)) (be - bs) fr.2 / L.nChan + 1) * L.nChan) with h | h <;> rw [h]
  · exact h2
  · exact Nat.dvd_add h1 (Dvd.intro_left _ rfl)

/-- **C84.** When something is read from a lane whose frequencies increase, every channel of the beam in the requested range is read. -/
theorem freq_complete (L : Lane) (beam : Nat) (tr fr : ℚ × ℚ) (s : Sel) (bs be : Nat) (hc : 0 < L.nChan)
    (hb : TF.beamEdgesOld L.beams L.nChan beam = some (bs, be))
    (hx : ∀ i j : Nat, bs ≤ i → i < j → j < be → laneFreq L i < laneFreq L j)
    (h : selectData L beam tr fr = some s) (k : Nat) (hk0 : bs ≤ k) (hk1 : k < be) (h0 : fr.1 ≤ laneFreq L k) (h1 : laneFreq L k ≤ fr.2) :
    s.f0 ≤ k ∧ k < s.f1 := by
  unfold selectData at h
  simp only [Option.bind_eq_some_iff, Option.map_eq_some_iff] at h
  obtain ⟨⟨bs', be'⟩, hb', t, ht, ⟨a, c⟩, hf, rfl⟩ := h
  rw [hb] at hb'
  simp only [Option.some.injEq, Prod.mk.injEq] at hb'
  obtain ⟨rfl, rfl⟩ := hb'
  obtain ⟨ha, hcc⟩ := selFreqs_some hf
  simp only at ha hcc
  have hin : ∀ i j : Nat, i < j → j < be - bs → (fun k => laneFreq L (bs + k)) i < (fun k => laneFreq L (bs + k)) j := fun i j hij hj =>
    hx _ _ (by omega) (by omega) (by omega)
  have e : bs + (k - bs) = k := by omega
  have u := closest_le hin (k := k - bs) (v := fr.1) (by omega) (by show _ ≤ laneFreq L (bs + (k - bs)); rw [e]; exact h0)
  have v := le_closest hin (k := k - bs) (v := fr.2) (by omega) (by show laneFreq L (bs + (k - bs)) ≤ _; rw [e]; exact h1)
  have p := Nat.div_mul_le_self (closest (fun k => laneFreq L (bs + k)) (be - bs) fr.1) L.nChan
  have q := Nat.lt_div_mul_add hc (a := closest (fun k => laneFreq L (bs + k)) (be - bs) fr.2)
  simp only
  constructor
  · rw [ha]
    omega
  · rw [hcc]
    refine lt_min hk1 ?_
    show k < bs + _
    rw [Nat.add_mul, Nat.one_mul]
    omega

/-- **C84.** A lane with no channel of the beam up to the end of the range is left out, and so is one with none from its start on. -/
theorem outside_nothing (L : Lane) (beam : Nat) (tr fr : ℚ × ℚ) (bs be : Nat) (hr : fr.1 < fr.2)
    (hb : TF.beamEdgesOld L.beams L.nChan beam = some (bs, be)) (hbe : bs < be)
    (hx : ∀ i j : Nat, bs ≤ i → i < j → j < be → laneFreq L i < laneFreq L j)
    (h : (∀ k, bs ≤ k → k < be → laneFreq L k < fr.1) ∨ (∀ k, bs ≤ k → k < be → fr.2 < laneFreq L k)) :
    selectData L beam tr fr = none := by
  have hin : ∀ i j : Nat, i < j → j < be - bs → (fun k => laneFreq L (bs + k)) i < (fun k => laneFreq L (bs + k)) j := fun i j hij hj =>
    hx _ _ (by omega) (by omega) (by omega)
  have hn : selFreqs L bs be fr = none := by
    unfold selFreqs
    rw [if_pos]
    have p := closest_lt (x := fun k => laneFreq L (bs + k)) (n := be - bs) (v := fr.1) (by omega)
    have q := closest_lt (x := fun k => laneFreq L (bs + k)) (n := be - bs) (v := fr.2) (by omega)
    rcases h with h | h
    · have e := h (bs + (be - bs - 1)) (by omega) (by omega)
      have a := le_closest hin (k := be - bs - 1) (v := fr.1) (by omega) e.le
      have b := le_closest hin (k := be - bs - 1) (v := fr.2) (by omega) (e.trans hr).le
      omega
    · have e := h (bs + 0) (by omega) (by omega)
      have a := closest_le hin (k := 0) (v := fr.1) (by omega) (hr.trans e).le
      have b := closest_le hin (k := 0) (v := fr.2) (by omega) e.le
      omega
  unfold selectData
  rw [hb, Option.bind_some]
  simp only [hn, Option.map_none, Option.bind_eq_none_iff]
  intro _ _
  trivial

/-! ## C85: something is read when it exists -/

/-- **C85.** With at least two spectra in the range of times, and two channels of the beam in the one of frequencies, something is read. -/
theorem two_each_partial (L : Lane) (beam : Nat) (tr fr : ℚ × ℚ) (bs be : Nat) (hdt : 0 < L.dt)
    (hb : TF.beamEdgesOld L.beams L.nChan beam = some (bs, be))
    (hx : ∀ i j : Nat, bs ≤ i → i < j → j < be → laneFreq L i < laneFreq L j)
    (a b : Nat) (hab : a < b) (hbn : b < L.nt) (ha : tr.1 ≤ laneTime L a) (hb' : laneTime L b ≤ tr.2)
    (c d : Nat) (hbc : bs ≤ c) (hcd : c < d) (hd : d < be) (hc : fr.1 ≤ laneFreq L c) (hd' : laneFreq L d ≤ fr.2) :
    ∃ s, selectData L beam tr fr = some s := by
  have hin : ∀ i j : Nat, i < j → j < be - bs → (fun k => laneFreq L (bs + k)) i < (fun k => laneFreq L (bs + k)) j := fun i j hij hj =>
    hx _ _ (by omega) (by omega) (by omega)
  have hit : ∀ i j : Nat, i < j → j < L.nt → laneTime L i < laneTime L j := fun i j hij _ => laneTime_mono hdt i j hij
  have ht : closest (laneTime L) L.nt tr.1 ≠ closest (laneTime L) L.nt tr.2 := by
    have u := closest_le hit (k := a) (v := tr.1) (by omega) ha
    have v := le_closest hit (k := b) (v := tr.2) (by omega) hb'
    omega
  have hf : closest (fun k => laneFreq L (bs + k)) (be - bs) fr.1 ≠ closest (fun k => laneFreq L (bs + k)) (be - bs) fr.2 := by
    have u := closest_le hin (k := c - bs) (v := fr.1) (by omega)
      (by show _ ≤ laneFreq L (bs + (c - bs)); rw [show bs + (c - bs) = c by omega]; exact hc)
    have v := le_closest hin (k := d - bs) (v := fr.2) (by omega)
      (by show laneFreq L (bs + (d - bs)) ≤ _; rw [show bs + (d - bs) = d by omega]; exact hd')
    omega
  unfold selectData selTimes selFreqs
  rw [hb, Option.bind_some, if_neg ht, Option.bind_some, if_neg hf]
  exact ⟨_, rfl⟩

/-- **C85, violated.** A range which ends on the first channel of the lane contains this channel; nothing is read. -/
theorem edge_channel_violated (L : Lane) (beam : Nat) (tr fr : ℚ × ℚ) (bs be : Nat) (hr : fr.1 < fr.2)
    (hb : TF.beamEdgesOld L.beams L.nChan beam = some (bs, be)) (hbe : bs < be)
    (hx : ∀ i j : Nat, bs ≤ i → i < j → j < be → laneFreq L i < laneFreq L j) (he : fr.2 = laneFreq L bs) :
    selectData L beam tr fr = none := by
  have hin : ∀ i j : Nat, i < j → j < be - bs → (fun k => laneFreq L (bs + k)) i < (fun k => laneFreq L (bs + k)) j := fun i j hij hj =>
    hx _ _ (by omega) (by omega) (by omega)
  have hn : selFreqs L bs be fr = none := by
    unfold selFreqs
    rw [if_pos]
    have a := closest_le hin (k := 0) (v := fr.1) (by omega) (by show _ ≤ laneFreq L (bs + 0); rw [Nat.add_zero, ← he]; exact hr.le)
    have b := closest_le hin (k := 0) (v := fr.2) (by omega) (by show _ ≤ laneFreq L (bs + 0); rw [Nat.add_zero, ← he])
    omega
  unfold selectData
  rw [hb, Option.bind_some]
  simp only [hn, Option.map_none, Option.bind_eq_none_iff]
  intro _ _
  trivial

/-- **C85, violated.** A range of times around one spectrum only, with all frequencies: nothing is read. -/
theorem one_spectrum_violated (L : Lane) (beam : Nat) (tr fr : ℚ × ℚ) (k : Nat) (hk : k < L.nt) (hdt : 0 < L.dt)
    (h0 : laneTime L k - L.dt / 2 < tr.1) (h1 : tr.2 < laneTime L k + L.dt / 2) (h2 : tr.1 ≤ laneTime L k) (h3 : laneTime L k ≤ tr.2) :
    selectData L beam tr fr = none := by
  have hit : ∀ i j : Nat, i < j → j < L.nt → laneTime L i < laneTime L j := fun i j hij _ => laneTime_mono hdt i j hij
  have key : ∀ v : ℚ, laneTime L k - L.dt / 2 < v → v < laneTime L k + L.dt / 2 → closest (laneTime L) L.nt v = k := by
    intro v hv hw
    have hl := closest_lt (x := laneTime L) (v := v) (n := L.nt) (by omega)
    have hm := closest_min (x := laneTime L) (v := v) hk
    have hb : |laneTime L k - v| < L.dt / 2 := by rw [abs_lt]; constructor <;> linarith
    rcases Nat.lt_trichotomy (closest (laneTime L) L.nt v) k with h | h | h
    · have e : laneTime L (closest (laneTime L) L.nt v) ≤ laneTime L k - L.dt := by
        have e := laneTime_succ L (closest (laneTime L) L.nt v)
        rcases Nat.lt_or_ge (closest (laneTime L) L.nt v + 1) k with h' | h'
        · have := laneTime_mono hdt _ _ h'
          linarith
        · rw [show k = closest (laneTime L) L.nt v + 1 by omega]
          linarith
      have := neg_abs_le (laneTime L (closest (laneTime L) L.nt v) - v)
      linarith
    · exact h
    · have e : laneTime L k + L.dt ≤ laneTime L (closest (laneTime L) L.nt v) := by
        have e := laneTime_succ L k
        rcases Nat.lt_or_ge (k + 1) (closest (laneTime L) L.nt v) with h' | h'
        · have := laneTime_mono hdt _ _ h'
          linarith
        · rw [show closest (laneTime L) L.nt v = k + 1 by omega]
          linarith
      have := le_abs_self (laneTime L (closest (laneTime L) L.nt v) - v)
      linarith
  unfold selectData selTimes
  rw [if_pos (by rw [key tr.1 h0 (by linarith), key tr.2 (by linarith) h1])]
  cases TF.beamEdgesOld L.beams L.nChan beam <;> rfl

/-! ## A lane -/

/-- Three sub-bands of two channels, the first two for beam 0, and ten spectra. -/
def demo : Lane := ⟨2, [10, 11, 20], [0, 0, 1], 0, 1, 10, 1⟩

/-- Hypotheses of `time_within`, `time_complete`, `whole_subbands`, `freq_complete` and `two_each_partial`. -/
example : TF.beamEdgesOld demo.beams demo.nChan 0 = some (0, 4) ∧
    selectData demo 0 (2, 7) (20, 22) = some ⟨2, 7, 0, 4⟩ ∧ 0 < demo.dt ∧ 0 < demo.nt ∧
    (∀ i ∈ List.range 4, ∀ j ∈ List.range 4, i < j → laneFreq demo i < laneFreq demo j) ∧
    (20 : ℚ) ≤ laneFreq demo 1 ∧ laneFreq demo 2 ≤ 22 := by
  decide +kernel

/-- `outside_nothing`, `edge_channel_violated` and `one_spectrum_violated`. -/
example : selectData demo 0 (2, 7) (30, 40) = none ∧ selectData demo 0 (2, 7) (15, 19) = none ∧ laneFreq demo 0 = 19 ∧
    selectData demo 0 (19 / 10, 21 / 10) (19, 22) = none := by decide +kernel

/-- **C85, violated.** A range of frequencies which contains a channel only is not read, whereas one which contains none, but lies
between two sub-bands, gives both of them. -/
theorem narrow_violated :
    (∃ k : Nat, k < 4 ∧ (39 / 2 : ℚ) ≤ laneFreq demo k ∧ laneFreq demo k ≤ 41 / 2) ∧ selectData demo 0 (2, 7) (39 / 2 + 1 / 10, 41 / 2 - 1 / 10) = none ∧
      (∃ L : Lane, (∀ k ∈ List.range 4, ¬ ((25 : ℚ) ≤ laneFreq L k ∧ laneFreq L k ≤ 35)) ∧ selectData L 0 (2, 7) (25, 35) = some ⟨2, 7, 0, 4⟩) := by
  refine ⟨⟨1, by decide +kernel⟩, by decide +kernel, ⟨⟨2, [10, 20], [0, 0], 0, 1, 10, 1⟩, by decide +kernel, by decide +kernel⟩⟩

/-- The closest of an axis is the one entry which is nearer than all others. -/
theorem closest_eq {x : Nat → ℚ} {n : Nat} {v : ℚ} {k : Nat} (hk : k < n) (h : ∀ j < n, j ≠ k → |x k - v| < |x j - v|) : closest x n v = k := by
  by_contra hc
  have a := h _ (closest_lt (x := x) (v := v) (by omega)) hc
  have b := closest_min (x := x) (v := v) hk
  linarith

/-- **C85, violated for every lane.** A range of frequencies around any channel of the beam, narrow enough for both its ends to be nearest to that
channel, is not read, although it contains the channel. -/
theorem narrow_all_violated (L : Lane) (beam : Nat) (tr fr : ℚ × ℚ) (bs be k : Nat) (d : ℚ)
    (hb : TF.beamEdgesOld L.beams L.nChan beam = some (bs, be)) (h0 : bs ≤ k) (h1 : k < be)
    (hd : ∀ j, bs ≤ j → j < be → j ≠ k → 2 * d ≤ |laneFreq L j - laneFreq L k|)
    (hl : laneFreq L k - d < fr.1) (hl' : fr.1 ≤ laneFreq L k) (hr : laneFreq L k ≤ fr.2) (hr' : fr.2 < laneFreq L k + d) :
    selectData L beam tr fr = none := by
  have key : ∀ v : ℚ, |laneFreq L k - v| < d → closest (fun i => laneFreq L (bs + i)) (be - bs) v = k - bs := by
    intro v hv
    refine closest_eq (by omega) fun j hj hne => ?_
    show |laneFreq L (bs + (k - bs)) - v| < |laneFreq L (bs + j) - v|
    rw [show bs + (k - bs) = k by omega]
    have t := hd (bs + j) (by omega) (by omega) (by omega)
    have := abs_sub_le (laneFreq L (bs + j)) v (laneFreq L k)
    rw [abs_sub_comm v] at this
    linarith
  have hn : selFreqs L bs be fr = none := by
    unfold selFreqs
    rw [if_pos]
    rw [key fr.1 (by rw [abs_lt]; constructor <;> linarith), key fr.2 (by rw [abs_lt]; constructor <;> linarith)]
  unfold selectData
  rw [hb, Option.bind_some]
  simp only [hn, Option.map_none, Option.bind_eq_none_iff]
  intro _ _
  trivial

/-- **C85, violated for every lane.** A range which lies between two neighbouring channels, and contains none, is read if its ends are nearest to one
and to the other: both channels are given, with their whole sub-bands. -/
theorem between_violated (L : Lane) (beam : Nat) (tr fr : ℚ × ℚ) (bs be k t0 t1 : Nat) (hc : 0 < L.nChan) (ht : selTimes L tr = some (t0, t1))
    (hb : TF.beamEdgesOld L.beams L.nChan beam = some (bs, be)) (h0 : bs ≤ k) (h1 : k + 1 < be)
    (hx : ∀ i j : Nat, bs ≤ i → i < j → j < be → laneFreq L i < laneFreq L j)
    (hl : laneFreq L k < fr.1) (hl' : fr.1 < (laneFreq L k + laneFreq L (k + 1)) / 2)
    (hr : (laneFreq L k + laneFreq L (k + 1)) / 2 < fr.2) (hr' : fr.2 < laneFreq L (k + 1)) :
    (∀ j, bs ≤ j → j < be → ¬ (fr.1 ≤ laneFreq L j ∧ laneFreq L j ≤ fr.2)) ∧
      ∃ s, selectData L beam tr fr = some s ∧ s.f0 ≤ k ∧ k + 1 < s.f1 := by
  have mono : ∀ i j : Nat, bs ≤ i → i ≤ j → j < be → laneFreq L i ≤ laneFreq L j := fun i j hi hij hj => by
    rcases Nat.eq_or_lt_of_le hij with e | e
    · rw [e]
    · exact (hx i j hi e hj).le
  have side : ∀ j, bs ≤ j → j < be → laneFreq L j ≤ laneFreq L k ∨ laneFreq L (k + 1) ≤ laneFreq L j := fun j hj hj' => by
    rcases Nat.lt_or_ge k j with e | e
    · exact Or.inr (mono (k + 1) j (by omega) e hj')
    · exact Or.inl (mono j k hj e (by omega))
  refine ⟨fun j hj hj' hh => ?_, ?_⟩
  · rcases side j hj hj' with e | e <;> linarith [hh.1, hh.2]
  have a : closest (fun i => laneFreq L (bs + i)) (be - bs) fr.1 = k - bs := by
    refine closest_eq (by omega) fun j hj hne => ?_
    show |laneFreq L (bs + (k - bs)) - fr.1| < |laneFreq L (bs + j) - fr.1|
    rw [show bs + (k - bs) = k by omega, abs_of_neg (by linarith)]
    rcases Nat.lt_or_ge k (bs + j) with e | e
    · have := mono (k + 1) (bs + j) (by omega) e (by omega)
      rw [abs_of_pos (by linarith)]; linarith
    · have := hx (bs + j) k (by omega) (by omega) (by omega)
      rw [abs_of_neg (by linarith)]; linarith
  have b : closest (fun i => laneFreq L (bs + i)) (be - bs) fr.2 = k + 1 - bs := by
    refine closest_eq (by omega) fun j hj hne => ?_
    show |laneFreq L (bs + (k + 1 - bs)) - fr.2| < |laneFreq L (bs + j) - fr.2|
    rw [show bs + (k + 1 - bs) = k + 1 by omega, abs_of_pos (by linarith)]
    rcases Nat.lt_or_ge (bs + j) (k + 1) with e | e
    · have := mono (bs + j) k (by omega) (by omega) (by omega)
      rw [abs_of_neg (by linarith)]; linarith
    · have := hx (k + 1) (bs + j) (by omega) (by omega) (by omega)
      rw [abs_of_pos (by linarith)]; linarith
  have hf : selFreqs L bs be fr = some ((k - bs) / L.nChan * L.nChan, ((k + 1 - bs) / L.nChan + 1) * L.nChan) := by
    unfold selFreqs
    rw [a, b, if_neg (by omega)]
  refine ⟨⟨t0, t1, bs + (k - bs) / L.nChan * L.nChan, min be (bs + ((k + 1 - bs) / L.nChan + 1) * L.nChan)⟩, ?_, ?_, ?_⟩
  · unfold selectData
    rw [hb, Option.bind_some, ht, Option.bind_some, hf]
    rfl
  · show bs + (k - bs) / L.nChan * L.nChan ≤ k
    have := Nat.div_mul_le_self (k - bs) L.nChan
    omega
  · show k + 1 < min be _
    have := Nat.lt_div_mul_add hc (a := k + 1 - bs)
    refine lt_min h1 ?_
    rw [Nat.add_mul, Nat.one_mul]
    omega

end Verif.Dyn
