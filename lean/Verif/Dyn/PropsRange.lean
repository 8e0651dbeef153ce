import Verif.Dyn.PropsSelect
import Mathlib.Data.List.GetD
import Mathlib.Tactic.Ring
import Mathlib.Tactic.Positivity

/-!
# Default ranges of the older reader (C157)
-/

namespace Verif.Dyn

/-! ## Smallest and largest of a list -/

theorem low_fold {α : Type} [LinearOrder α] : ∀ (l : List α) (x : α), l.foldl min x ≤ x ∧ (∀ y ∈ l, l.foldl min x ≤ y) ∧ (l.foldl min x = x ∨ l.foldl min x ∈ l)
  | [], x => ⟨le_refl _, (fun y h => nomatch h), Or.inl rfl⟩
  | z :: l, x => by
    obtain ⟨h1, h2, h3⟩ := low_fold l (min x z)
    show l.foldl min (min x z) ≤ x ∧ (∀ y ∈ z :: l, l.foldl min (min x z) ≤ y) ∧ _
    refine ⟨le_trans h1 (min_le_left _ _), fun y hy => ?_, ?_⟩
    · rcases List.mem_cons.mp hy with e | e
      · rw [e]; exact le_trans h1 (min_le_right _ _)
      · exact h2 y e
    · show l.foldl min (min x z) = x ∨ l.foldl min (min x z) ∈ z :: l
      rcases h3 with e | e
      · rcases min_choice x z with f | f
        · left; rw [e, f]
        · right; rw [e, f]; exact List.mem_cons_self
      · right; exact List.mem_cons_of_mem _ e

theorem high_fold {α : Type} [LinearOrder α] : ∀ (l : List α) (x : α), x ≤ l.foldl max x ∧ (∀ y ∈ l, y ≤ l.foldl max x) ∧ (l.foldl max x = x ∨ l.foldl max x ∈ l)
  | [], x => ⟨le_refl _, (fun y h => nomatch h), Or.inl rfl⟩
  | z :: l, x => by
    obtain ⟨h1, h2, h3⟩ := high_fold l (max x z)
    show x ≤ l.foldl max (max x z) ∧ (∀ y ∈ z :: l, y ≤ l.foldl max (max x z)) ∧ _
    refine ⟨le_trans (le_max_left _ _) h1, fun y hy => ?_, ?_⟩
    · rcases List.mem_cons.mp hy with e | e
      · rw [e]; exact le_trans (le_max_right _ _) h1
      · exact h2 y e
    · show l.foldl max (max x z) = x ∨ l.foldl max (max x z) ∈ z :: l
      rcases h3 with e | e
      · rcases max_choice x z with f | f
        · left; rw [e, f]
        · right; rw [e, f]; exact List.mem_cons_self
      · right; exact List.mem_cons_of_mem _ e

theorem low_head {α : Type} [LinearOrder α] (l : List α) (d : α) (h : l ≠ []) : l.foldl min (l.headD d) ∈ l ∧ ∀ y ∈ l, l.foldl min (l.headD d) ≤ y := by
  obtain ⟨x, l', rfl⟩ := List.exists_cons_of_ne_nil h
  obtain ⟨-, h2, h3⟩ := low_fold (x :: l') ((x :: l').headD d)
  refine ⟨?_, h2⟩
  rcases h3 with e | e
  · rw [e]; exact List.mem_cons_self
  · exact e

theorem high_head {α : Type} [LinearOrder α] (l : List α) (d : α) (h : l ≠ []) : l.foldl max (l.headD d) ∈ l ∧ ∀ y ∈ l, y ≤ l.foldl max (l.headD d) := by
  obtain ⟨x, l', rfl⟩ := List.exists_cons_of_ne_nil h
  obtain ⟨-, h2, h3⟩ := high_fold (x :: l') ((x :: l').headD d)
  refine ⟨?_, h2⟩
  rcases h3 with e | e
  · rw [e]; exact List.mem_cons_self
  · exact e

theorem high_zero (l : List Nat) (h : l ≠ []) : l.foldl max 0 ∈ l := by
  obtain ⟨-, h2, h3⟩ := high_fold l 0
  rcases h3 with e | e
  · obtain ⟨x, l', rfl⟩ := List.exists_cons_of_ne_nil h
    have := h2 x List.mem_cons_self
    rw [e] at this ⊢
    have : x = 0 := by omega
    rw [this]; exact List.mem_cons_self
  · exact e

/-! ## One lane -/

/-- A lane as the receiver writes it: sub-bands with channels, positive steps. -/
structure Lane.Sound (L : Lane) : Prop where
  chan : 0 < L.nChan
  bands : L.chans ≠ []
  width : 0 < L.df
  step : 0 < L.dt
  times : 0 < L.nt

theorem chan_freq (L : Lane) (i j : Nat) (hj : j < L.nChan) :
    laneFreq L (i * L.nChan + j) = L.df * L.nChan * (((L.chans.getD i 0 : Nat) : ℚ) - 1 / 2) + j * L.df := by
  have hp : 0 < L.nChan := by omega
  have e1 : (i * L.nChan + j) % L.nChan = j := by rw [Nat.mul_add_mod', Nat.mod_eq_of_lt hj]
  have e2 : (i * L.nChan + j) / L.nChan = i := by
    rw [Nat.mul_comm, Nat.mul_add_div hp, Nat.div_eq_of_lt hj, Nat.add_zero]
  unfold laneFreq
  rw [e1, e2]
  ring

/-- The channels of a lane lie between its smallest and largest frequencies, which are those of the edges of its lowest and highest channels. -/
theorem lane_band (L : Lane) (h : L.Sound) :
    (∀ k : Nat, k < L.chans.length * L.nChan → laneFmin L ≤ laneFreq L k ∧ laneFreq L k + L.df ≤ laneFmax L)
    ∧ (∃ k : Nat, k < L.chans.length * L.nChan ∧ laneFreq L k = laneFmin L) ∧ (∃ k : Nat, k < L.chans.length * L.nChan ∧ laneFreq L k + L.df = laneFmax L) := by
  have hw := h.width
  have hc := h.chan
  have hcq : (0 : ℚ) < L.nChan := by exact_mod_cast hc
  obtain ⟨m1, m2⟩ := low_head L.chans 0 h.bands
  have x1 := high_zero L.chans h.bands
  obtain ⟨-, x2, -⟩ := high_fold L.chans 0
  refine ⟨fun k hk => ?_, ?_, ?_⟩
  · have hi : k / L.nChan < L.chans.length := Nat.div_lt_of_lt_mul (by rw [Nat.mul_comm]; exact hk)
    have hj : k % L.nChan < L.nChan := Nat.mod_lt _ hc
    have hm : L.chans.getD (k / L.nChan) 0 ∈ L.chans := by
      rw [List.getD_eq_getElem _ _ hi]; exact List.getElem_mem _
    have e : k = k / L.nChan * L.nChan + k % L.nChan := by rw [Nat.mul_comm]; exact (Nat.div_add_mod _ _).symm
    rw [e, chan_freq L _ _ hj]
    have b1 : ((L.chans.foldl min (L.chans.headD 0) : Nat) : ℚ) ≤ ((L.chans.getD (k / L.nChan) 0 : Nat) : ℚ) := by exact_mod_cast m2 _ hm
    have b2 : ((L.chans.getD (k / L.nChan) 0 : Nat) : ℚ) ≤ ((L.chans.foldl max 0 : Nat) : ℚ) := by exact_mod_cast x2 _ hm
    have hjq : ((k % L.nChan : Nat) : ℚ) + 1 ≤ L.nChan := by exact_mod_cast hj
    have hj0 : (0 : ℚ) ≤ ((k % L.nChan : Nat) : ℚ) := Nat.cast_nonneg _
    have hwc : 0 < L.df * L.nChan := mul_pos hw hcq
    unfold laneFmin laneFmax
    constructor
    · nlinarith [mul_le_mul_of_nonneg_left b1 hwc.le, mul_nonneg hj0 hw.le]
    · nlinarith [mul_le_mul_of_nonneg_left b2 hwc.le, mul_le_mul_of_nonneg_right hjq hw.le]
  · obtain ⟨i, hi, e⟩ := List.getElem_of_mem m1
    refine ⟨i * L.nChan + 0, ?_, ?_⟩
    · exact (Nat.mul_lt_mul_right hc).mpr hi
    · rw [chan_freq L i 0 hc, List.getD_eq_getElem _ _ hi, e]
      unfold laneFmin
      push_cast
      ring
  · obtain ⟨i, hi, e⟩ := List.getElem_of_mem x1
    refine ⟨i * L.nChan + (L.nChan - 1), ?_, ?_⟩
    · have : i * L.nChan + L.nChan ≤ L.chans.length * L.nChan := by
        rw [← Nat.succ_mul]; exact Nat.mul_le_mul_right _ hi
      omega
    · rw [chan_freq L i _ (by omega), List.getD_eq_getElem _ _ hi, e]
      unfold laneFmax
      rw [Nat.cast_sub hc]
      push_cast
      ring

/-! ## The reader -/

/-- **C157.** When no range of frequencies was set, the one used holds all channels of all lanes, and nothing more. -/
theorem default_band (r : Reader) (hf : r.frange = none) (hn : r.lanes ≠ []) (hs : ∀ L ∈ r.lanes, L.Sound) :
    (∀ L ∈ r.lanes, ∀ k : Nat, k < L.chans.length * L.nChan → (freqRange r).1 ≤ laneFreq L k ∧ laneFreq L k + L.df ≤ (freqRange r).2)
    ∧ (∃ L ∈ r.lanes, ∃ k : Nat, k < L.chans.length * L.nChan ∧ laneFreq L k = (freqRange r).1)
    ∧ (∃ L ∈ r.lanes, ∃ k : Nat, k < L.chans.length * L.nChan ∧ laneFreq L k + L.df = (freqRange r).2) := by
  have e : freqRange r = ((r.lanes.map laneFmin).foldl min ((r.lanes.map laneFmin).headD 0), (r.lanes.map laneFmax).foldl max ((r.lanes.map laneFmax).headD 0)) := by
    unfold freqRange; rw [hf]; rfl
  obtain ⟨m1, m2⟩ := low_head (r.lanes.map laneFmin) 0 (by simpa using hn)
  obtain ⟨x1, x2⟩ := high_head (r.lanes.map laneFmax) 0 (by simpa using hn)
  rw [e]
  refine ⟨fun L hL k hk => ?_, ?_, ?_⟩
  · obtain ⟨b1, b2⟩ := (lane_band L (hs L hL)).1 k hk
    exact ⟨le_trans (m2 _ (List.mem_map_of_mem hL)) b1, le_trans b2 (x2 _ (List.mem_map_of_mem hL))⟩
  · obtain ⟨L, hL, e1⟩ := List.mem_map.mp m1
    obtain ⟨k, hk, e2⟩ := (lane_band L (hs L hL)).2.1
    exact ⟨L, hL, k, hk, by rw [e2, e1]⟩
  · obtain ⟨L, hL, e1⟩ := List.mem_map.mp x1
    obtain ⟨k, hk, e2⟩ := (lane_band L (hs L hL)).2.2
    exact ⟨L, hL, k, hk, by rw [e2, e1]⟩

theorem time_le {L : Lane} (h : 0 ≤ L.dt) {i j : Nat} (hij : i ≤ j) : laneTime L i ≤ laneTime L j := by
  unfold laneTime
  have : (i : ℚ) ≤ j := by exact_mod_cast hij
  nlinarith [mul_le_mul_of_nonneg_right this h]

/-- **C157.** When no range of times was set, the one used goes from the first spectrum of all lanes to the last one. -/
theorem default_times (r : Reader) (hf : r.trange = none) (hn : r.lanes ≠ []) (hs : ∀ L ∈ r.lanes, L.Sound) :
    (∀ L ∈ r.lanes, ∀ k : Nat, k < L.nt → (timeRange r).1 ≤ laneTime L k ∧ laneTime L k ≤ (timeRange r).2)
    ∧ (∃ L ∈ r.lanes, ∃ k : Nat, k < L.nt ∧ laneTime L k = (timeRange r).1) ∧ (∃ L ∈ r.lanes, ∃ k : Nat, k < L.nt ∧ laneTime L k = (timeRange r).2) := by
  have e : timeRange r = ((r.lanes.map Lane.start).foldl min ((r.lanes.map Lane.start).headD 0), (r.lanes.map laneEnd).foldl max ((r.lanes.map laneEnd).headD 0)) := by
    unfold timeRange; rw [hf]; rfl
  obtain ⟨m1, m2⟩ := low_head (r.lanes.map Lane.start) 0 (by simpa using hn)
  obtain ⟨x1, x2⟩ := high_head (r.lanes.map laneEnd) 0 (by simpa using hn)
  have e0 : ∀ L : Lane, laneTime L 0 = L.start := fun L => by unfold laneTime; simp
  rw [e]
  refine ⟨fun L hL k hk => ⟨?_, ?_⟩, ?_, ?_⟩
  · refine le_trans (m2 _ (List.mem_map_of_mem hL)) ?_
    rw [← e0]
    exact time_le (hs L hL).step.le (Nat.zero_le _)
  · refine le_trans ?_ (x2 _ (List.mem_map_of_mem hL))
    exact time_le (hs L hL).step.le (by omega)
  · obtain ⟨L, hL, e1⟩ := List.mem_map.mp m1
    exact ⟨L, hL, 0, (hs L hL).times, by rw [e0, e1]⟩
  · obtain ⟨L, hL, e1⟩ := List.mem_map.mp x1
    exact ⟨L, hL, L.nt - 1, by have := (hs L hL).times; omega, e1⟩

theorem edges_within {beams : List Nat} {n b bs be : Nat} (h : TF.beamEdgesOld beams n b = some (bs, be)) : be ≤ beams.length * n := by
  unfold TF.beamEdgesOld at h
  simp only [Option.bind_eq_some_iff, Option.map_eq_some_iff, Prod.mk.injEq] at h
  obtain ⟨i, _, j, hj, rfl, rfl⟩ := h
  have hm := List.mem_of_getLast? hj
  have : j < beams.length := by
    unfold TF.beamWhere at hm
    exact List.mem_range.mp (List.mem_filter.mp hm).1
  exact Nat.mul_le_mul_right _ this

/-- **C157.** Without ranges, all channels of the beam and all spectra of each lane are read, the last spectrum excepted (see C83). -/
theorem default_read_partial (r : Reader) (L : Lane) (beam bs be : Nat) (ht : r.trange = none) (hf : r.frange = none) (hs : ∀ L ∈ r.lanes, L.Sound) (hL : L ∈ r.lanes)
    (hlen : L.beams.length = L.chans.length) (hb : TF.beamEdgesOld L.beams L.nChan beam = some (bs, be))
    (hx : ∀ i j : Nat, bs ≤ i → i < j → j < be → laneFreq L i < laneFreq L j) (h2 : bs + 2 ≤ be) (hnt : 2 ≤ L.nt) :
    selectData L beam (timeRange r) (freqRange r) = some ⟨0, L.nt - 1, bs, be⟩ := by
  have hn : r.lanes ≠ [] := List.ne_nil_of_mem hL
  have sound := hs L hL
  have hle : be ≤ L.chans.length * L.nChan := hlen ▸ edges_within hb
  obtain ⟨f1, -, -⟩ := default_band r hf hn hs
  obtain ⟨t1, -, -⟩ := default_times r ht hn hs
  have fk : ∀ k : Nat, k < be → (freqRange r).1 ≤ laneFreq L k ∧ laneFreq L k ≤ (freqRange r).2 := fun k hk => by
    obtain ⟨a, b⟩ := f1 L hL k (by omega)
    exact ⟨a, by linarith [sound.width]⟩
  obtain ⟨s, hsel⟩ := two_each_partial L beam (timeRange r) (freqRange r) bs be sound.step hb hx 0 1 (by omega) (by omega) (t1 L hL 0 (by omega)).1 (t1 L hL 1 (by omega)).2
    bs (bs + 1) (le_refl _) (by omega) (by omega) (fk _ (by omega)).1 (fk _ (by omega)).2
  obtain ⟨a0, a1⟩ := whole_file_partial L beam _ _ s sound.step sound.times (t1 L hL 0 (by omega)).1 (t1 L hL (L.nt - 1) (by omega)).2 hsel
  obtain ⟨c0, -⟩ := freq_complete L beam _ _ s bs be sound.chan hb hx hsel bs (le_refl _) (by omega) (fk _ (by omega)).1 (fk _ (by omega)).2
  obtain ⟨-, c1⟩ := freq_complete L beam _ _ s bs be sound.chan hb hx hsel (be - 1) (by omega) (by omega) (fk _ (by omega)).1 (fk _ (by omega)).2
  have d : bs ≤ s.f0 ∧ s.f1 ≤ be := by
    unfold selectData at hsel
    simp only [Option.bind_eq_some_iff, Option.map_eq_some_iff] at hsel
    obtain ⟨⟨bs', be'⟩, hb', _, _, ⟨a, c⟩, _, rfl⟩ := hsel
    rw [hb] at hb'
    simp only [Option.some.injEq, Prod.mk.injEq] at hb'
    obtain ⟨rfl, rfl⟩ := hb'
    exact ⟨Nat.le_add_right _ _, min_le_left _ _⟩
  rw [hsel]
  obtain ⟨p, q, u, v⟩ := s
  dsimp only at a0 a1 c0 c1 d
  have e1 : u = bs := by omega
  have e2 : v = be := by omega
  rw [a0, a1, e1, e2]

/-- **C157, violated.** Without ranges, the last spectrum of each lane is never read, although it lies in the range of times which is used. -/
theorem default_last_violated (r : Reader) (L : Lane) (beam : Nat) (s : Sel) (ht : r.trange = none) (hs : ∀ L ∈ r.lanes, L.Sound) (hL : L ∈ r.lanes)
    (h : selectData L beam (timeRange r) (freqRange r) = some s) :
    s.t1 ≤ L.nt - 1 ∧ (timeRange r).1 ≤ laneTime L (L.nt - 1) ∧ laneTime L (L.nt - 1) ≤ (timeRange r).2 := by
  have sound := (hs L hL).times
  obtain ⟨t1, -, -⟩ := default_times r ht (List.ne_nil_of_mem hL) hs
  exact ⟨last_spectrum_violated L beam _ _ s sound h, t1 L hL (L.nt - 1) (by omega)⟩

/-- **C157, violated.** From a lane of one spectrum, or for a beam of one channel, nothing is read, without ranges or with any. -/
theorem default_single_violated (L : Lane) (beam bs be : Nat) (hb : TF.beamEdgesOld L.beams L.nChan beam = some (bs, be)) (h : L.nt = 1 ∨ be = bs + 1) (tr fr : ℚ × ℚ) :
    selectData L beam tr fr = none := by
  unfold selectData
  rw [hb, Option.bind_some]
  rcases h with h | h
  · have e : selTimes L tr = none := by
      unfold selTimes
      have a := closest_lt (x := laneTime L) (n := L.nt) (v := tr.1) (by omega)
      have b := closest_lt (x := laneTime L) (n := L.nt) (v := tr.2) (by omega)
      rw [if_pos (by omega)]
    rw [e]; rfl
  · have e : selFreqs L bs be fr = none := by
      unfold selFreqs
      have a := closest_lt (x := fun k => laneFreq L (bs + k)) (n := be - bs) (v := fr.1) (by omega)
      have b := closest_lt (x := fun k => laneFreq L (bs + k)) (n := be - bs) (v := fr.2) (by omega)
      rw [if_pos (by omega)]
    cases selTimes L tr with
    | none => rfl
    | some t => rw [Option.bind_some, e]; rfl

/-- `whole_file_partial` of `PropsSelect.lean`, with the range of the whole lane. -/
example : selectData demo 0 (0, laneEnd demo) (laneFmin demo, laneFmax demo) = some ⟨0, 9, 0, 4⟩ := by decide +kernel

/-- Two lanes, the second of which starts lower and later. -/
def demoReader : Reader := ⟨[demo, ⟨2, [5, 6], [0, 0], 3, 1, 10, 1⟩], [0, 1], none, none, 0, 0⟩

example : demoReader.trange = none ∧ demoReader.frange = none ∧ demo ∈ demoReader.lanes ∧ timeRange demoReader = (0, 12) ∧ freqRange demoReader = (9, 41) := by decide +kernel

example : ∀ L ∈ demoReader.lanes, L.Sound := by
  intro L hL
  have : L = demo ∨ L = ⟨2, [5, 6], [0, 0], 3, 1, 10, 1⟩ := by simpa [demoReader] using hL
  rcases this with e | e <;> subst e <;> constructor <;> decide

/-- A lane of one spectrum, with one beam of two sub-bands. -/
example : TF.beamEdgesOld [0, 0] 1 0 = some (0, 2) := by decide +kernel

end Verif.Dyn
