import Verif.Dyn.File
import Verif.Dyn.Props
import Verif.Dyn.PropsRange
import Verif.Raw.PropsWhole

/-!
# From the bytes of lane files to dated Stokes parameters (property C171)
-/

namespace Verif.Dyn

open Verif.Raw

/-! ## Specification -/

/-- A lane file: blocks of one shape as in `Observation`, with sub-bands, the numbers of which are not negative. -/
structure LaneFile (ns nt nc : Nat) (N : Int) (bs : List Block) : Prop extends Observation ns nt nc N bs where
  counted : ∀ b ∈ bs.head?, 0 ≤ b.header.nbchan
  placed : ∀ b ∈ bs, ∀ x ∈ b.data, 0 ≤ x.channel
  integrated : 0 < N
  bands : 0 < ns

/-- Number written for time `t` and output `c` of the Fourier transform: the first (`i = 0`) or the second one (`i = 1`). -/
def wordAt (fl : Nat → ℚ) (l : List Nat) (nc t c i : Nat) : ℚ := fl (l.getD ((t * nc + c) * 2 + i) 0)

/-- The Stokes parameters I, Q, U and V of what was recorded: `fft0` has the powers of both polarisations, `fft1` the real part of their
product, and its imaginary part with the sign of V. -/
def recorded (fl : Nat → ℚ) (nc : Nat) (y : Beamlet) (t c : Nat) : List ℚ :=
  [wordAt fl y.fft0 nc t c 0 + wordAt fl y.fft0 nc t c 1, wordAt fl y.fft0 nc t c 0 - wordAt fl y.fft0 nc t c 1,
    2 * wordAt fl y.fft1 nc t c 0, 2 * wordAt fl y.fft1 nc t c 1]

/-- All four parameters are asked for. -/
def allFour : Stokes := .texts [['I'], ['Q'], ['U'], ['V']]

/-- `x` is a sample of the beam recorded in the file, with its value, its time since the first block and its frequency; it is not in the
last spectrum of the file. -/
def IsSample (fl : Nat → ℚ) (nt nc : Nat) (N : Int) (bs : List Block) (beam : Nat) (x : IO.Sample (List ℚ)) : Prop :=
  ∃ (i j t c : Nat) (b b0 : Block) (y : Beamlet), bs.head? = some b0 ∧ bs[i]? = some b ∧ b.data[j]? = some y ∧ t < nt ∧ c < nc ∧
    y.beam = (beam : Int) ∧ i * nt + t + 1 < bs.length * nt ∧
    x.t = dateOf b0.header + ((i * nt + t : Nat) : ℚ) * sampleTime nc N ∧
    x.f = TF.fftFreq ((y.channel : ℚ) * (390625 / 2)) nc (390625 / 2 / nc) c ∧ x.v = recorded fl nc y t c

/-! ## Loading -/

/-- The steps of a lane. -/
theorem lane_axes {ns nt nc : Nat} {N : Int} {bs : List Block} (h : LaneFile ns nt nc N bs) :
    ∃ b0 : Block, bs.head? = some b0 ∧ b0 ∈ bs ∧ b0.data.length = ns ∧ (laneOf bs.length b0).nChan = nc
      ∧ (laneOf bs.length b0).chans = b0.data.map (fun x => x.channel.toNat) ∧ (laneOf bs.length b0).beams = b0.data.map (fun x => x.beam.toNat)
      ∧ (laneOf bs.length b0).start = dateOf b0.header ∧ (laneOf bs.length b0).dt = sampleTime nc N
      ∧ (laneOf bs.length b0).nt = bs.length * nt ∧ (laneOf bs.length b0).df = 390625 / 2 / nc
      ∧ b0.header.nffte.toNat = nt ∧ b0.header.fftlen.toNat = nc := by
  obtain ⟨b, hb, h1, h2, h3, h4, hm, hl⟩ := h.toObservation.head
  have h2' : b.header.fftlen.toNat = nc := by rw [h2]; rfl
  refine ⟨b, hb, hm, hl, h2', rfl, rfl, rfl, ?_, ?_, ?_, h1, h2'⟩
  · show 512 / 100000000 * (b.header.fftlen : ℚ) * (b.header.nfft2int : ℚ) = _
    rw [h2, h4]; unfold sampleTime; push_cast; ring
  · show bs.length * b.header.nffte.toNat = _
    rw [h1]
  · show 1 / (512 / 100000000) / (b.header.fftlen : ℚ) = _
    rw [h2]; push_cast; norm_num

/-- A whole file is decoded. -/
theorem lane_decoded {ns nt nc : Nat} {N : Int} {bs : List Block} (h : LaneFile ns nt nc N bs) : laneBlocks (writeFile bs) = .ok bs := by
  have hl := writeFile_length h.toRecording
  obtain ⟨b, hb, _⟩ := h.toObservation.head
  have hne : 0 < bs.length := by
    cases bs with
    | nil => cases hb
    | cons a l => simp
  have hp := blockSize_pos ns nt nc
  have h1 := lane_cut_partial h.toRecording h.several h.counted (writeFile bs).length
    (by rw [hl]; exact Nat.le_mul_of_pos_left _ hne) (le_refl _)
  rw [List.take_length, hl, Nat.mul_div_cancel _ (by omega), List.take_length] at h1
  exact h1

/-- **C171** A lane file is loaded with the axes of its headers, and each element of its data is the one written for this block, sub-band,
time and channel, the channels being put in order of frequency. -/
theorem load_exact {ns nt nc : Nat} {N : Int} {bs : List Block} (h : LaneFile ns nt nc N bs) (fl : Nat → ℚ) :
    ∃ (l : Loaded) (b0 : Block), loadLane fl (writeFile bs) = .ok l ∧ bs.head? = some b0 ∧ l.lane = laneOf bs.length b0 ∧
      ∀ (i j t c : Nat) (b : Block) (y : Beamlet), bs[i]? = some b → b.data[j]? = some y → t < nt → c < nc →
        l.data.get2 (ns * nc) (i * nt + t) (j * nc + c) = some (ejonesAt fl nc y t (TF.rawChannel nc c)) := by
  obtain ⟨b0, hb0, hm, hl, e1, e2, e3, e4, e5, e6, e7, e8, e9⟩ := lane_axes h
  obtain ⟨d, hd, _, hcell⟩ := TF.blocks_exact bs.length ns nt nc 2 (ejonesOf fl bs nc) h.even (Or.inr rfl)
  refine ⟨⟨laneOf bs.length b0, d⟩, b0, ?_, hb0, rfl, ?_⟩
  · unfold loadLane
    rw [lane_decoded h]
    show (bs.head?.elim _ _ : Except Err Loaded) = _
    rw [hb0]
    show (TF.blocksToTf (TF.ofFn4 bs.length b0.data.length b0.header.nffte.toNat b0.header.fftlen.toNat
        (ejonesOf fl bs b0.header.fftlen.toNat)) 2 b0.header.nffte.toNat b0.header.fftlen.toNat).map _ = _
    rw [hl, e8, e9, hd]
    rfl
  · intro i j t c b y hb hy ht hc
    have hi : i < bs.length := (List.getElem?_eq_some_iff.1 hb).1
    have hbm : b ∈ bs := List.mem_of_getElem? hb
    have hj : j < ns := by
      rw [← (h.valid b hbm).2.1]; exact (List.getElem?_eq_some_iff.1 hy).1
    have a1 : i * nt + t < bs.length * nt :=
      calc i * nt + t < i * nt + nt := by omega
        _ = (i + 1) * nt := by ring
        _ ≤ bs.length * nt := Nat.mul_le_mul_right _ hi
    have a2 : j * nc + c < ns * nc :=
      calc j * nc + c < j * nc + nc := by omega
        _ = (j + 1) * nc := by ring
        _ ≤ ns * nc := Nat.mul_le_mul_right _ hj
    have q1 : (i * nt + t) / nt = i := by rw [Nat.mul_comm, Nat.mul_add_div h.times, Nat.div_eq_of_lt ht, Nat.add_zero]
    have q2 : (j * nc + c) / nc = j := by rw [Nat.mul_comm, Nat.mul_add_div h.channels, Nat.div_eq_of_lt hc, Nat.add_zero]
    have q3 : (i * nt + t) % nt = t := by rw [Nat.mul_add_mod', Nat.mod_eq_of_lt ht]
    have q4 : (j * nc + c) % nc = c := by rw [Nat.mul_add_mod', Nat.mod_eq_of_lt hc]
    show d.get2 _ _ _ = _
    rw [hcell _ _ a1 a2, q1, q2, q3, q4]
    unfold ejonesOf
    rw [hb]
    show (b.data[j]?).map _ = _
    rw [hy]
    rfl

/-- **C171** A file which was interrupted, once one block is complete, is loaded as the file of its complete blocks. -/
theorem load_cut {ns nt nc : Nat} {N : Int} {bs : List Block} (h : LaneFile ns nt nc N bs) (fl : Nat → ℚ) (k : Nat)
    (h1 : blockSize ns nt nc ≤ k) (hk : k ≤ (writeFile bs).length) :
    LaneFile ns nt nc N (bs.take (k / blockSize ns nt nc))
      ∧ loadLane fl ((writeFile bs).take k) = loadLane fl (writeFile (bs.take (k / blockSize ns nt nc))) := by
  have hp := blockSize_pos ns nt nc
  have hd : 0 < k / blockSize ns nt nc := Nat.div_pos h1 (by omega)
  have hhead : (bs.take (k / blockSize ns nt nc)).head? = bs.head? := by
    cases bs with
    | nil => simp
    | cons a l =>
      obtain ⟨m, hm⟩ : ∃ m, k / blockSize ns nt nc = m + 1 := ⟨_, (Nat.succ_pred_eq_of_pos hd).symm⟩
      rw [hm]; rfl
  have hmem : ∀ b ∈ bs.take (k / blockSize ns nt nc), b ∈ bs := fun b hb => List.mem_of_mem_take hb
  have hL : LaneFile ns nt nc N (bs.take (k / blockSize ns nt nc)) := by
    refine ⟨⟨⟨?_, ?_⟩, ?_, h.times, h.channels, h.even, h.several, h.fits, ?_, ?_⟩, ?_, ?_, h.integrated, h.bands⟩
    · rw [hhead]; exact h.first
    · exact fun b hb => h.valid b (hmem b hb)
    · rw [hhead]; exact h.sums
    · exact fun b hb c hc => h.layout b (hmem b hb) c (hmem c hc)
    · exact fun b hb => h.numbered b (hmem b hb)
    · rw [hhead]; exact h.counted
    · exact fun b hb => h.placed b (hmem b hb)
  refine ⟨hL, ?_⟩
  unfold loadLane
  rw [lane_cut_partial h.toRecording h.several h.counted k h1 hk, lane_decoded hL]

/-! ## One lane -/

theorem samples_grid {α : Type} (m n : Nat) (T F : Nat → ℚ) (V : Nat → Nat → α) :
    IO.samples ((List.range m).map T) ((List.range n).map F) ((List.range m).map fun t => (List.range n).map fun k => V t k)
      = (List.range m).flatMap fun t => (List.range n).map fun k => ⟨T t, F k, V t k⟩ := by
  unfold IO.samples IO.rowSamples
  rw [List.zipWith_map, List.zipWith_self, List.flatMap_def]
  congr 1
  apply List.map_congr_left
  intro t _
  rw [List.zipWith_map, List.zipWith_self]

theorem four_shape (a b : Nat) : stokesShape a b allFour = .ok [a, b, 4] := by
  unfold stokesShape allFour
  rw [if_neg (by decide), if_neg (by decide), if_neg (by decide)]
  rfl

theorem four_cell (fl : Nat → ℚ) (nc : Nat) (y : Beamlet) (t c : Nat) : stokesCell allFour (some (ejonesAt fl nc y t c)) = recorded fl nc y t c := by
  show [_, _, _, _] = [_, _, _, _]
  have u : ∀ z : Char, z ∈ ['I', 'Q', 'U', 'V'] → z.toUpper = z := by decide
  simp only [List.cons.injEq, and_true]
  refine ⟨rfl, rfl, ?_, ?_⟩
  · show wordAt fl y.fft1 nc t c 0 * 2 = _
    ring
  · show wordAt fl y.fft1 nc t c 1 * 2 = _
    ring

/-- What a lane gives for a selection. -/
theorem piece_some {r : Reader} {l : Loaded} {d : IO.SData} (hd : pieceOf r allFour l = .ok (some d)) :
    ∃ q : Sel, selectData l.lane r.beam (timeRange r) (freqRange r) = some q ∧ d.WF ∧ d.polar = [['I'], ['Q'], ['U'], ['V']] ∧
      d.time = ((List.range (q.t1 - q.t0)).map fun t => laneTime l.lane (q.t0 + t)) ∧
      d.freq = ((List.range (q.f1 - q.f0)).map fun k => laneFreq l.lane (q.f0 + k)) ∧
      d.samples = (List.range (q.t1 - q.t0)).flatMap fun t => (List.range (q.f1 - q.f0)).map fun k =>
        ⟨laneTime l.lane (q.t0 + t), laneFreq l.lane (q.f0 + k),
          stokesCell allFour (l.data.get2 (l.lane.chans.length * l.lane.nChan) (q.t0 + t) (q.f0 + k))⟩ := by
  unfold pieceOf at hd
  cases hq : selectData l.lane r.beam (timeRange r) (freqRange r) with
  | none => rw [hq] at hd; cases hd
  | some q =>
    rw [hq, Option.elim_some, four_shape] at hd
    change (IO.mkSData _ _ _ _).map some = _ at hd
    obtain ⟨e, he, hs⟩ := map_inv hd
    injection hs with hs
    subst hs
    obtain ⟨rfl, hw⟩ := mkSData_inv he
    exact ⟨q, rfl, hw, rfl, rfl, rfl, samples_grid _ _ _ _ _⟩

/-- A selection gives data. -/
theorem piece_ok (r : Reader) (l : Loaded) (q : Sel) (hq : selectData l.lane r.beam (timeRange r) (freqRange r) = some q) :
    ∃ d, pieceOf r allFour l = .ok (some d) := by
  have e : IO.mkSData ((List.range (q.t1 - q.t0)).map fun t => laneTime l.lane (q.t0 + t))
      ((List.range (q.f1 - q.f0)).map fun k => laneFreq l.lane (q.f0 + k)) (stokesPolar allFour) (cellsOf l q allFour)
      = .ok ⟨(List.range (q.t1 - q.t0)).map fun t => laneTime l.lane (q.t0 + t),
        (List.range (q.f1 - q.f0)).map fun k => laneFreq l.lane (q.f0 + k), stokesPolar allFour, cellsOf l q allFour⟩ := by
    apply IO.mkSData_of
    · refine ⟨by simp [cellsOf], ?_⟩
      intro row hr
      unfold cellsOf at hr
      obtain ⟨t, _, rfl⟩ := List.mem_map.1 hr
      simp
    · intro row hr c hc
      unfold cellsOf at hr
      obtain ⟨t, _, rfl⟩ := List.mem_map.1 hr
      obtain ⟨k, _, rfl⟩ := List.mem_map.1 hc
      unfold stokesCell
      rw [List.length_map]
      rfl
  unfold pieceOf
  rw [hq, Option.elim_some, four_shape]
  exact ⟨_, (congrArg (Except.map some) e : _)⟩

/-- The samples of a lane are samples of its file. -/
theorem piece_sound {ns nt nc : Nat} {N : Int} {bs : List Block} (h : LaneFile ns nt nc N bs) (fl : Nat → ℚ) (r : Reader) (l : Loaded)
    (hl : loadLane fl (writeFile bs) = .ok l) (hc : ∀ b ∈ bs.head?, TF.Contiguous (b.data.map fun x => x.beam.toNat) r.beam)
    (d : IO.SData) (hd : pieceOf r allFour l = .ok (some d)) : ∀ x ∈ d.samples, IsSample fl nt nc N bs r.beam x := by
  obtain ⟨l', b0, hl', hb0, hlane, hcell⟩ := load_exact h fl
  rw [hl] at hl'
  cases hl'
  obtain ⟨b0', hb0', hm, hlen, e1, e2, e3, e4, e5, e6, e7, e8, e9⟩ := lane_axes h
  rw [hb0] at hb0'
  cases hb0'
  rw [← hlane] at e1 e2 e3 e4 e5 e6 e7
  have hnt : 0 < l.lane.nt := by
    rw [e6]
    exact Nat.mul_pos (List.length_pos_of_mem hm) h.times
  obtain ⟨q, hq, _, _, _, _, hs⟩ := piece_some hd
  have hlast := last_spectrum_violated l.lane r.beam _ _ q hnt hq
  have hedge : ∃ lo hi : Nat, TF.beamEdges l.lane.beams l.lane.nChan r.beam = some (lo, hi) ∧ lo ≤ q.f0 ∧ q.f1 ≤ hi + 1
      ∧ hi + 1 ≤ l.lane.beams.length * l.lane.nChan := by
    unfold selectData at hq
    simp only [Option.bind_eq_some_iff, Option.map_eq_some_iff] at hq
    obtain ⟨⟨bs', be'⟩, hb', _, _, ⟨a, c⟩, _, rfl⟩ := hq
    have hw := edges_within hb'
    rw [TF.beam_edges_old _ _ _ (by rw [e1]; exact h.channels)] at hb'
    obtain ⟨⟨lo, hi⟩, he, hh⟩ := Option.map_eq_some_iff.1 hb'
    cases hh
    exact ⟨lo, hi, he, Nat.le_add_right _ _, min_le_left _ _, hw⟩
  obtain ⟨lo, hi, hee, g0, g1, g2⟩ := hedge
  intro x hx
  rw [hs] at hx
  obtain ⟨t, ht, hx⟩ := List.mem_flatMap.1 hx
  obtain ⟨k, hk, rfl⟩ := List.mem_map.1 hx
  rw [List.mem_range] at ht hk
  have hcont := hc b0 hb0
  rw [← e3] at hcont
  have hbeam := (TF.beam_edges_exact l.lane.beams l.lane.nChan r.beam lo hi (by rw [e1]; exact h.channels) hcont hee (q.f0 + k)).1
    ⟨by omega, by omega⟩
  rw [e1] at hbeam
  have hT : q.t0 + t + 1 < bs.length * nt := by rw [← e6]; omega
  have hi' : (q.t0 + t) / nt < bs.length := by rw [Nat.div_lt_iff_lt_mul h.times]; omega
  obtain ⟨b, hb⟩ : ∃ b, bs[(q.t0 + t) / nt]? = some b := ⟨_, List.getElem?_eq_getElem hi'⟩
  have hbm : b ∈ bs := List.mem_of_getElem? hb
  rw [e3, List.getElem?_map] at hbeam
  obtain ⟨z, hz, hzb⟩ := Option.map_eq_some_iff.1 hbeam
  have hjl : (q.f0 + k) / nc < ns := by rw [← hlen]; exact (List.getElem?_eq_some_iff.1 hz).1
  obtain ⟨y, hy⟩ : ∃ y, b.data[(q.f0 + k) / nc]? = some y := ⟨_, List.getElem?_eq_getElem (by rw [(h.valid b hbm).2.1]; exact hjl)⟩
  have hyz : y.beam = z.beam ∧ y.channel = z.channel := by
    have hlay := congrArg (fun l => l[(q.f0 + k) / nc]?) (h.layout b hbm b0 hm)
    simp only [List.getElem?_map, hy, hz, Option.map_some, Option.some.injEq, Prod.mk.injEq] at hlay
    exact hlay
  have hz0 := h.numbered b0 hm z (List.mem_of_getElem? hz)
  have hzc := h.placed b0 hm z (List.mem_of_getElem? hz)
  have hcm : (q.f0 + k) % nc < nc := Nat.mod_lt _ h.channels
  have htm : (q.t0 + t) % nt < nt := Nat.mod_lt _ h.times
  have p1 : (q.t0 + t) / nt * nt + (q.t0 + t) % nt = q.t0 + t := by rw [Nat.mul_comm]; exact Nat.div_add_mod _ _
  have p2 : (q.f0 + k) / nc * nc + (q.f0 + k) % nc = q.f0 + k := by rw [Nat.mul_comm]; exact Nat.div_add_mod _ _
  have hc1 := hcell _ _ _ _ b y hb hy htm hcm
  rw [p1, p2] at hc1
  have hncq : (nc : ℚ) ≠ 0 := by
    have := h.channels
    positivity
  refine ⟨(q.t0 + t) / nt, (q.f0 + k) / nc, (q.t0 + t) % nt, TF.rawChannel nc ((q.f0 + k) % nc), b, b0, y, hb0, hb, hy, htm,
    TF.rawChannel_lt h.even hcm, by rw [hyz.1]; omega, by rw [p1]; exact hT, ?_, ?_, ?_⟩
  · show laneTime l.lane (q.t0 + t) = _
    rw [p1]
    unfold laneTime
    rw [e4, e5]
  · show laneFreq l.lane (q.f0 + k) = _
    have hf := TF.freq_of_channel (fun _ => (y.channel : ℚ) * (390625 / 2)) nc (390625 / 2 / nc) (q.f0 + k) h.even h.channels
    rw [← hf]
    unfold laneFreq TF.specFreq
    have hch : ((l.lane.chans.getD ((q.f0 + k) / l.lane.nChan) 0 : Nat) : ℚ) = (y.channel : ℚ) := by
      rw [e2, e1, List.getD_eq_getElem?_getD, List.getElem?_map, hz, hyz.2]
      show ((z.channel.toNat : Nat) : ℚ) = _
      have : ((z.channel.toNat : Nat) : Int) = z.channel := Int.toNat_of_nonneg hzc
      exact_mod_cast congrArg (fun w : Int => (w : ℚ)) this
    rw [hch, e1, e7]
    field_simp
  · show stokesCell allFour _ = _
    have : l.lane.chans.length = ns := by rw [e2, List.length_map, hlen]
    rw [this, e1, hc1, four_cell]

/-- The samples of a file for the beam are in the data of its lane, when all of its sub-bands and all spectra but the last are selected. -/
theorem piece_complete {ns nt nc : Nat} {N : Int} {bs : List Block} (h : LaneFile ns nt nc N bs) (fl : Nat → ℚ) (r : Reader) (l : Loaded)
    (hl : loadLane fl (writeFile bs) = .ok l) {b0 : Block} (hb0 : bs.head? = some b0) {first m : Nat} (hb : BeamAt b0 r.beam first m)
    (hq : selectData l.lane r.beam (timeRange r) (freqRange r) = some ⟨0, bs.length * nt - 1, first * nc, (first + m) * nc⟩)
    (d : IO.SData) (hd : pieceOf r allFour l = .ok (some d)) (x : IO.Sample (List ℚ)) (hx : IsSample fl nt nc N bs r.beam x) : x ∈ d.samples := by
  obtain ⟨l', b0', hl', hb0', hlane, hcell⟩ := load_exact h fl
  rw [hl] at hl'
  cases hl'
  rw [hb0] at hb0'
  cases hb0'
  obtain ⟨b0', hb0', hm, hlen, e1, e2, e3, e4, e5, e6, e7, e8, e9⟩ := lane_axes h
  rw [hb0] at hb0'
  cases hb0'
  rw [← hlane] at e1 e2 e3 e4 e5 e6 e7
  obtain ⟨q, hq', _, _, _, _, hs⟩ := piece_some hd
  rw [hq] at hq'
  cases hq'
  obtain ⟨i, j, t, c, b, b0', y, hb0', hbi, hy, ht, hc, hyb, hlast, xt, xf, xv⟩ := hx
  rw [hb0] at hb0'
  cases hb0'
  have hbm : b ∈ bs := List.mem_of_getElem? hbi
  have hjl : j < b0.data.length := by
    rw [hlen, ← (h.valid b hbm).2.1]; exact (List.getElem?_eq_some_iff.1 hy).1
  obtain ⟨z, hz⟩ : ∃ z, b0.data[j]? = some z := ⟨_, List.getElem?_eq_getElem hjl⟩
  have hyz : y.beam = z.beam ∧ y.channel = z.channel := by
    have hlay := congrArg (fun l => l[j]?) (h.layout b hbm b0 hm)
    simp only [List.getElem?_map, hy, hz, Option.map_some, Option.some.injEq, Prod.mk.injEq] at hlay
    exact hlay
  have hj := (hb.held j z hz).1 (by rw [← hyz.1]; exact hyb)
  have hc' := TF.rawChannel_lt h.even hc
  have hzc := h.placed b0 hm z (List.mem_of_getElem? hz)
  have p1 : first * nc ≤ j * nc := Nat.mul_le_mul_right _ hj.1
  have p2 : j * nc + nc ≤ (first + m) * nc := by
    rw [← Nat.succ_mul]; exact Nat.mul_le_mul_right _ hj.2
  have hk : first * nc + (j * nc + TF.rawChannel nc c - first * nc) = j * nc + TF.rawChannel nc c := by omega
  have hcc := hcell i j t (TF.rawChannel nc c) b y hbi hy ht hc'
  rw [TF.rawChannel_invol h.even hc] at hcc
  rw [hs]
  refine List.mem_flatMap.2 ⟨i * nt + t, List.mem_range.2 (by dsimp only; omega), List.mem_map.2
    ⟨j * nc + TF.rawChannel nc c - first * nc, List.mem_range.2 (by dsimp only; omega), ?_⟩⟩
  dsimp only
  rw [hk, Nat.zero_add]
  have hncq : (nc : ℚ) ≠ 0 := by
    have := h.channels
    positivity
  obtain ⟨x1, x2, x3⟩ := x
  dsimp only at xt xf xv
  rw [xt, xf, xv]
  have g1 : laneTime l.lane (i * nt + t) = dateOf b0.header + ((i * nt + t : Nat) : ℚ) * sampleTime nc N := by
    unfold laneTime
    rw [e4, e5]
  have q1 : (j * nc + TF.rawChannel nc c) / nc = j := by rw [Nat.mul_comm, Nat.mul_add_div h.channels, Nat.div_eq_of_lt hc', Nat.add_zero]
  have q2 : (j * nc + TF.rawChannel nc c) % nc = TF.rawChannel nc c := by rw [Nat.mul_add_mod', Nat.mod_eq_of_lt hc']
  have g2 : laneFreq l.lane (j * nc + TF.rawChannel nc c) = TF.fftFreq ((y.channel : ℚ) * (390625 / 2)) nc (390625 / 2 / nc) c := by
    have hf := TF.freq_of_channel (fun _ => (y.channel : ℚ) * (390625 / 2)) nc (390625 / 2 / nc) (j * nc + TF.rawChannel nc c) h.even h.channels
    rw [q2, TF.rawChannel_invol h.even hc] at hf
    rw [← hf]
    unfold laneFreq TF.specFreq
    have hch : ((l.lane.chans.getD ((j * nc + TF.rawChannel nc c) / l.lane.nChan) 0 : Nat) : ℚ) = (y.channel : ℚ) := by
      rw [e2, e1, q1, List.getD_eq_getElem?_getD, List.getElem?_map, hz, hyz.2]
      show ((z.channel.toNat : Nat) : ℚ) = _
      have : ((z.channel.toNat : Nat) : Int) = z.channel := Int.toNat_of_nonneg hzc
      exact_mod_cast congrArg (fun w : Int => (w : ℚ)) this
    rw [hch, e1, e7]
    field_simp
  have g3 : l.lane.chans.length = ns := by rw [e2, List.length_map, hlen]
  rw [g1, g2, g3, e1, hcc, four_cell]

end Verif.Dyn
