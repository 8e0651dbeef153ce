import Verif.Raw.PropsSpectraFile

/-!
Waveform files, NenuFAR-TV files and tables of calibration, written in their format and read back, whole or interrupted.
-/

namespace Verif.Raw

open Verif

/-! ## Specification: the format of the waveform files -/

/-- One block of samples: two counters, the times, the samples as bytes. -/
structure RawBlock where
  /-- `eisb` -/
  eisb : Nat
  /-- seconds -/
  tsb : Nat
  /-- counter of samples within the second -/
  bsnb : Nat
  /-- bytes of the samples -/
  samples : List Nat
deriving DecidableEq

/-- The bytes of a block of samples. -/
def writeRawBlock (b : RawBlock) : List Nat := bytes 8 b.eisb ++ (bytes 8 b.tsb ++ (bytes 8 b.bsnb ++ b.samples))

/-- The bytes of one allocation. -/
def writeAlloc (a : Int × Int × Int) : List Nat := sbytes a.1 ++ (sbytes a.2.1 ++ sbytes a.2.2)

/-- A recorded waveform: `n` samples of each allocated beamlet per block, `w` bytes per number. -/
structure Wave where
  /-- allocated beamlets -/
  alloc : List (Int × Int × Int)
  /-- samples per block -/
  n : Nat
  /-- bytes per number: 1 or 2 -/
  w : Nat
  /-- blocks -/
  blocks : List RawBlock

/-- The header of a waveform file. -/
def writeWaveHead (x : Wave) : List Nat :=
  sbytes x.alloc.length ++ (sbytes x.n ++ (sbytes (4 * x.w) ++ (x.alloc.map writeAlloc).flatten))

/-- The bytes of a waveform file. -/
def writeWave (x : Wave) : List Nat := writeWaveHead x ++ (x.blocks.map writeRawBlock).flatten

/-- Number of bytes of the samples of a block: two polarisations, real and imaginary parts. -/
def Wave.volume (x : Wave) : Nat := x.n * x.alloc.length * 4 * x.w

/-- Size of a block. -/
def Wave.size (x : Wave) : Nat := 24 + x.volume

/-- The waveform fits its format. -/
structure Wave.Valid (x : Wave) : Prop where
  /-- something is recorded -/
  some : x.alloc ≠ []
  /-- sub-bands of the receiver -/
  chan : ∀ a ∈ x.alloc, Fits a.1 ∧ Fits a.2.1 ∧ 0 ≤ a.2.2 ∧ a.2.2 ≤ 511
  /-- numbers of one or two bytes -/
  width : x.w = 1 ∨ x.w = 2
  /-- the numbers of beamlets and of samples fit 32 bits -/
  fits : x.alloc.length < 2147483648 ∧ x.n < 2147483648
  /-- the blocks have the announced size -/
  block : ∀ b ∈ x.blocks, b.eisb < 18446744073709551616 ∧ b.tsb < 18446744073709551616 ∧ b.bsnb < 18446744073709551616 ∧
    b.samples.length = x.volume

/-- The time at which a block starts: the second, and the samples elapsed since, of 5.12 µs each. -/
def RawBlock.start (b : RawBlock) : ℚ := (b.tsb : ℚ) + (b.bsnb : ℚ) * (512 / 100000000)

/-! ## Lemmas -/

theorem writeAlloc_length (a : Int × Int × Int) : (writeAlloc a).length = 12 := by
  simp [writeAlloc, sbytes_length]

theorem alloc_length (x : Wave) : ((x.alloc.map writeAlloc).flatten).length = x.alloc.length * 12 := by
  rw [flatten_length 12 _ (by intro y hy; obtain ⟨a, _, rfl⟩ := List.mem_map.1 hy; exact writeAlloc_length a), List.length_map]

theorem head_length (x : Wave) : (writeWaveHead x).length = 12 + x.alloc.length * 12 := by
  unfold writeWaveHead
  simp only [List.length_append, sbytes_length, alloc_length]
  omega

theorem writeRawBlock_length (x : Wave) (h : x.Valid) (b : RawBlock) (hb : b ∈ x.blocks) :
    (writeRawBlock b).length = x.size := by
  obtain ⟨_, _, _, h4⟩ := h.block b hb
  unfold writeRawBlock Wave.size
  simp only [List.length_append, bytes_length, h4]
  omega

theorem raw_lengths (x : Wave) (h : x.Valid) : ∀ y ∈ x.blocks.map writeRawBlock, y.length = x.size := by
  intro y hy
  obtain ⟨b, hb, rfl⟩ := List.mem_map.1 hy
  exact writeRawBlock_length x h b hb

theorem wave_length (x : Wave) (h : x.Valid) :
    (writeWave x).length = 12 + x.alloc.length * 12 + x.blocks.length * x.size := by
  unfold writeWave
  rw [List.length_append, head_length, flatten_length _ _ (raw_lengths x h), List.length_map]

theorem take_piece (f : List Nat) (off n k : Nat) (h : off + n ≤ k) : piece off n (f.take k) = piece off n f := by
  unfold piece
  rw [List.drop_take, List.take_take, Nat.min_eq_left (by omega)]

theorem piece_0_4 (a b : List Nat) (h : a.length = 4) : piece 0 4 (a ++ b) = a := piece_whole a b 4 h

theorem wave_fields (x : Wave) (h : x.Valid) :
    signed (piece 0 4 (writeWave x)) = x.alloc.length ∧ signed (piece 4 4 (writeWave x)) = x.n ∧
      signed (piece 8 4 (writeWave x)) = 4 * x.w := by
  have hw : x.w ≤ 2 := by rcases h.width with e | e <;> omega
  have hf := h.fits
  have f1 : Fits (x.alloc.length : Int) := ⟨by omega, by omega⟩
  have f2 : Fits (x.n : Int) := ⟨by omega, by omega⟩
  have f3 : Fits (4 * (x.w : Int)) := ⟨by omega, by omega⟩
  unfold writeWave writeWaveHead
  simp only [List.append_assoc, piece_skip, piece_whole, sbytes_length, Nat.reduceLeDiff, Nat.reduceSub, le_refl, Nat.sub_self,
    signed_sbytes _ f1, signed_sbytes _ f2, signed_sbytes _ f3, and_self]

theorem alloc_written (x : Wave) (h : x.Valid) : allocAt x.alloc.length (writeWave x) = x.alloc := by
  have e0 : (writeWave x).drop 12 = (x.alloc.map writeAlloc).flatten ++ (x.blocks.map writeRawBlock).flatten := by
    unfold writeWave writeWaveHead
    have : sbytes (x.alloc.length : Int) ++ (sbytes (x.n : Int) ++ (sbytes (4 * (x.w : Int)) ++ (x.alloc.map writeAlloc).flatten))
        ++ (x.blocks.map writeRawBlock).flatten
      = (sbytes (x.alloc.length : Int) ++ sbytes (x.n : Int) ++ sbytes (4 * (x.w : Int))) ++
        ((x.alloc.map writeAlloc).flatten ++ (x.blocks.map writeRawBlock).flatten) := by simp only [List.append_assoc]
    rw [this]
    exact List.drop_left' (by simp [sbytes_length])
  have hl : ∀ y ∈ x.alloc.map writeAlloc, y.length = 12 := by
    intro y hy; obtain ⟨a, _, rfl⟩ := List.mem_map.1 hy; exact writeAlloc_length a
  unfold allocAt
  apply List.ext_getElem
  · simp
  · intro i hi hi'
    rw [List.getElem_map, List.getElem_range]
    have hd := flatten_drop 12 (x.alloc.map writeAlloc) (x.blocks.map writeRawBlock).flatten i (by simpa using hi'.le) hl
    rw [List.drop_eq_getElem_cons (l := x.alloc.map writeAlloc) (i := i) (by simpa using hi'), List.flatten_cons,
      List.getElem_map] at hd
    have hp : ∀ off, piece (12 + i * 12 + off) 4 (writeWave x) = piece off 4 (writeAlloc x.alloc[i] ++
        (List.drop (i + 1) (x.alloc.map writeAlloc)).flatten ++ (x.blocks.map writeRawBlock).flatten) := by
      intro off
      rw [← hd, ← e0, List.drop_drop, piece_drop]
    obtain ⟨c1, c2, c3, c4⟩ := h.chan _ (List.getElem_mem hi')
    have c5 : Fits x.alloc[i].2.2 := ⟨by omega, by omega⟩
    have hp0 := hp 0
    rw [Nat.add_zero] at hp0
    rw [hp0, hp 4, hp 8]
    unfold writeAlloc
    simp only [List.append_assoc, piece_skip, piece_whole, sbytes_length, Nat.reduceLeDiff, Nat.reduceSub, le_refl, Nat.sub_self,
      signed_sbytes _ c1, signed_sbytes _ c2, signed_sbytes _ c5]

theorem raw_time_written (x : Wave) (h : x.Valid) (b : RawBlock) (hb : b ∈ x.blocks) : rawTime (writeRawBlock b) = b.start := by
  obtain ⟨_, h2, h3, _⟩ := h.block b hb
  have u : ∀ n, n < 18446744073709551616 → unsigned (bytes 8 n) = n := fun n hn => unsigned_bytes 8 n (by norm_num; exact hn)
  unfold rawTime writeRawBlock RawBlock.start
  simp only [piece_skip, piece_whole, bytes_length, Nat.reduceLeDiff, Nat.reduceSub, le_refl, Nat.sub_self, u _ h2, u _ h3]
  ring

/-- A waveform of no channel is refused, and so is one with a channel which is not a sub-band. -/
theorem channels_refused (a : List (Int × Int × Int)) : rawChannels [] = .error .typeError ∧
    ((∃ x ∈ a, x.2.2 < 0 ∨ 511 < x.2.2) → rawChannels a = .error .valueError) := by
  refine ⟨rfl, ?_⟩
  rintro ⟨x, hx, hc⟩
  unfold rawChannels
  rw [if_neg (fun h => by rw [h] at hx; cases hx), if_pos (List.any_eq_true.2 ⟨x, hx, decide_eq_true hc⟩)]

theorem channels_ok (x : Wave) (h : x.Valid) : rawChannels x.alloc = .ok () := by
  unfold rawChannels
  rw [if_neg h.some, if_neg]
  intro hany
  obtain ⟨a, ha, hd⟩ := List.any_eq_true.1 hany
  obtain ⟨_, _, c3, c4⟩ := h.chan a ha
  have := of_decide_eq_true hd
  omega

/-- Equation of the reader on a waveform file cut after its header. -/
theorem raw_cut_eq (x : Wave) (h : x.Valid) (k : Nat) (h0 : (writeWaveHead x).length ≤ k) (hk : k ≤ (writeWave x).length) :
    rawLoad ((writeWave x).take k)
      = if (k - (writeWaveHead x).length) % x.size ≠ 0 then .error .valueError
        else .ok ⟨x.alloc.length, x.n, 4 * x.w, x.alloc, x.n / 256,
          (x.blocks.take ((k - (writeWaveHead x).length) / x.size)).map RawBlock.start⟩ := by
  have hh := head_length x
  have hl : ((writeWave x).take k).length = k := by rw [List.length_take]; omega
  obtain ⟨e1, e2, e3⟩ := wave_fields x h
  have p1 : piece 0 4 ((writeWave x).take k) = piece 0 4 (writeWave x) := take_piece _ _ _ _ (by omega)
  have p2 : piece 4 4 ((writeWave x).take k) = piece 4 4 (writeWave x) := take_piece _ _ _ _ (by omega)
  have p3 : piece 8 4 ((writeWave x).take k) = piece 8 4 (writeWave x) := take_piece _ _ _ _ (by omega)
  have ea : allocAt x.alloc.length ((writeWave x).take k) = x.alloc := by
    rw [← alloc_written x h]
    rw [alloc_written x h]
    conv_rhs => rw [← alloc_written x h]
    unfold allocAt
    apply List.map_congr_left
    intro i hi
    have hi := List.mem_range.1 hi
    rw [take_piece _ _ _ _ (by omega), take_piece _ _ _ _ (by omega), take_piece _ _ _ _ (by omega)]
  have hwd : rawWidth (4 * (x.w : Int)) = .ok x.w := by
    unfold rawWidth
    rcases h.width with e | e
    · rw [e]; rfl
    · rw [e]; rfl
  have hsz : 24 + ((x.n : Int) * (x.alloc.length : Int)).toNat * 4 * x.w = x.size := by
    unfold Wave.size Wave.volume
    rw [← Int.natCast_mul, Int.toNat_natCast]
  have hbody : ((writeWave x).take k).drop (12 + x.alloc.length * 12)
      = (x.blocks.map writeRawBlock).flatten.take (k - (12 + x.alloc.length * 12)) := by
    rw [List.drop_take]
    congr 1
    unfold writeWave
    exact List.drop_left' hh
  have hlb : ((x.blocks.map writeRawBlock).flatten.take (k - (12 + x.alloc.length * 12))).length
      = k - (12 + x.alloc.length * 12) := by
    rw [← hbody, List.length_drop, hl]
  have hsp : 0 < x.size := by unfold Wave.size; omega
  have hwl := wave_length x h
  unfold rawLoad
  rw [p1, p2, p3, e1, e2, e3, hwd]
  have n0 : ¬ (((writeWave x).take k).take 12).length < 12 := by rw [List.length_take, hl]; omega
  rw [if_neg n0]
  rw [show ∀ g : Nat → Except Err RawLane, (Except.ok x.w).bind g = g x.w from fun _ => rfl]
  have n1 : ¬ ((x.alloc.length : Int) < 0 ∨ (x.n : Int) * (x.alloc.length : Int) < 0) := by
    have : (0 : Int) ≤ (x.n : Int) * (x.alloc.length : Int) := by positivity
    omega
  rw [if_neg n1, Int.toNat_natCast, hsz, hbody, ea, channels_ok x h, hl]
  have n2 : ¬ k < 12 + x.alloc.length * 12 := by omega
  rw [if_neg n2, hh]
  unfold view
  rw [hlb]
  by_cases hz : (k - (12 + x.alloc.length * 12)) % x.size ≠ 0
  · rw [if_pos hz, if_pos hz]; rfl
  · rw [if_neg hz, if_neg hz]
    rw [chunks_cut x.size hsp _ (raw_lengths x h) _ (by rw [List.length_map]; omega)]
    have et : ∀ n, ((x.blocks.map writeRawBlock).take n).map rawTime = (x.blocks.take n).map RawBlock.start := by
      intro n
      rw [← List.map_take, List.map_map]
      exact List.map_congr_left fun b hb => raw_time_written x h b (List.mem_of_mem_take hb)
    rw [show ∀ (l : List (List Nat)) (g : List (List Nat) → Except Err RawLane), (Except.ok l).bind g = g l from fun _ _ => rfl,
      et]
    rfl

/-! ## Waveform files -/

/-- **A waveform file is read with its header and the exact times of its blocks.** -/
theorem raw_read (x : Wave) (h : x.Valid) :
    rawLoad (writeWave x) = .ok ⟨x.alloc.length, x.n, 4 * x.w, x.alloc, x.n / 256, x.blocks.map RawBlock.start⟩ := by
  have hwl := wave_length x h
  have hh := head_length x
  have hsp : 0 < x.size := by unfold Wave.size; omega
  have e := raw_cut_eq x h (writeWave x).length (by omega) le_rfl
  have hs : (writeWave x).length - (writeWaveHead x).length = x.blocks.length * x.size := by omega
  rw [List.take_length, hs, Nat.mul_mod_left, if_neg (by simp), Nat.mul_div_cancel _ hsp, List.take_length] at e
  exact e

/-- **An interrupted waveform file is refused as a whole**, however many complete blocks it has. -/
theorem raw_cut_violated (x : Wave) (h : x.Valid) (k : Nat) (h0 : (writeWaveHead x).length ≤ k) (hk : k ≤ (writeWave x).length)
    (hcut : (k - (writeWaveHead x).length) % x.size ≠ 0) : rawLoad ((writeWave x).take k) = .error .valueError := by
  rw [raw_cut_eq x h k h0 hk, if_pos hcut]

/-- **The samples of a waveform cannot be obtained**: two files which differ only by their samples are read alike. -/
theorem raw_samples_violated (x : Wave) (h : x.Valid) (bs : List RawBlock) (hbs : ∀ b ∈ bs, b.samples.length = x.volume)
    (heq : bs.map (fun b => (b.eisb, b.tsb, b.bsnb)) = x.blocks.map (fun b => (b.eisb, b.tsb, b.bsnb))) :
    rawLoad (writeWave { x with blocks := bs }) = rawLoad (writeWave x) := by
  have hv : ({ x with blocks := bs } : Wave).Valid := by
    refine ⟨h.some, h.chan, h.width, h.fits, ?_⟩
    intro b hb
    have hm : (b.eisb, b.tsb, b.bsnb) ∈ x.blocks.map (fun b => (b.eisb, b.tsb, b.bsnb)) := by
      rw [← heq]; exact List.mem_map.2 ⟨b, hb, rfl⟩
    obtain ⟨c, hc, e⟩ := List.mem_map.1 hm
    obtain ⟨c1, c2, c3, _⟩ := h.block c hc
    simp only [Prod.mk.injEq] at e
    obtain ⟨e1, e2, e3⟩ := e
    exact ⟨e1 ▸ c1, e2 ▸ c2, e3 ▸ c3, hbs b hb⟩
  rw [raw_read x h, raw_read _ hv]
  have e : bs.map RawBlock.start = x.blocks.map RawBlock.start := by
    have := congrArg (List.map fun p : Nat × Nat × Nat => (p.2.1 : ℚ) + (p.2.2 : ℚ) * (512 / 100000000)) heq
    rw [List.map_map, List.map_map] at this
    exact this
  rw [e]

/-- Samples of any other width than 4 or 8 bytes are refused. -/
theorem raw_width_refused (f : List Nat) (h : 12 ≤ f.length) (h4 : signed (piece 8 4 f) ≠ 4) (h8 : signed (piece 8 4 f) ≠ 8) :
    rawLoad f = .error .exception := by
  unfold rawLoad
  have n0 : ¬ (f.take 12).length < 12 := by rw [List.length_take]; omega
  rw [if_neg n0]
  unfold rawWidth
  rw [if_neg h4, if_neg h8]
  rfl

/-! ## NenuFAR-TV -/

/-- The bytes of a record. -/
def writeTv (r : TvRecord) : List Nat := bytes 8 r.jd ++ (r.data.map (bytes 4)).flatten

/-- A record of `nsb` sub-bands and `nma` mini-arrays: the four correlations of each pair of mini-arrays, of which the one of a
mini-array with itself is counted in three (XX, XY, YY). -/
def TvRecord.Valid (nsb nma : Nat) (r : TvRecord) : Prop :=
  r.jd < 18446744073709551616 ∧ r.data.length = nsb * (4 * (nma * (nma - 1) / 2) + 3 * nma) * 2 ∧ ∀ w ∈ r.data, w < 4294967296

/-- The number of correlations of the code is the one of the pairs. -/
theorem tv_count (n : Nat) : tvCount n = 4 * (n * (n - 1) / 2) + 3 * n := by
  unfold tvCount
  cases n with
  | zero => rfl
  | succ m =>
    have he : 2 ∣ (m + 1) * m := by
      rcases Nat.even_or_odd m with ⟨r, hr⟩ | ⟨r, hr⟩
      · exact ⟨(m + 1) * r, by rw [hr]; ring⟩
      · exact ⟨(r + 1) * m, by rw [show m + 1 = 2 * (r + 1) by omega]; ring⟩
    have := Nat.mul_div_cancel' he
    rw [Nat.add_sub_cancel]
    nlinarith

theorem tv_written (nsb nma : Nat) (r : TvRecord) (h : r.Valid nsb nma) : tvAt nsb nma (writeTv r) = r := by
  obtain ⟨h1, h2, h3⟩ := h
  rw [← tv_count] at h2
  unfold tvAt writeTv
  rw [piece_whole _ _ _ (bytes_length 8 _), unsigned_bytes 8 _ (by norm_num; exact h1), List.drop_left' (bytes_length 8 _)]
  have := words_written r.data [] _ h2 h3
  rw [List.append_nil] at this
  rw [this]

/-- **The records of a NenuFAR-TV file are read as they were written; a file interrupted within a record is refused.** -/
theorem tv_read (nsb nma : Nat) (rs : List TvRecord) (h : ∀ r ∈ rs, r.Valid nsb nma) :
    tvRecords nsb nma (rs.map writeTv).flatten = .ok rs ∧
    ∀ k ≤ (rs.map writeTv).flatten.length, k % (8 + nsb * tvCount nma * 2 * 4) ≠ 0 →
      tvRecords nsb nma ((rs.map writeTv).flatten.take k) = .error .valueError := by
  have hl : ∀ y ∈ rs.map writeTv, y.length = 8 + nsb * tvCount nma * 2 * 4 := by
    intro y hy
    obtain ⟨r, hr, rfl⟩ := List.mem_map.1 hy
    obtain ⟨_, h2, _⟩ := h r hr
    rw [← tv_count] at h2
    unfold writeTv
    rw [List.length_append, bytes_length, words_bytes_length, h2]
  constructor
  · unfold tvRecords view
    rw [flatten_length _ _ hl, Nat.mul_mod_left, if_neg (by simp), chunks_whole _ (by omega) _ hl]
    show Except.ok (((rs.map writeTv)).map (tvAt nsb nma)) = _
    rw [List.map_map]
    congr 1
    conv_rhs => rw [← List.map_id rs]
    exact List.map_congr_left fun r hr => tv_written nsb nma r (h r hr)
  · intro k hk hc
    unfold tvRecords view
    rw [List.length_take, Nat.min_eq_left hk, if_pos hc]
    rfl

/-! ## Tables of calibration -/

/-- The bytes of a table of numbers. -/
def writeTable (ws : List Nat) : List Nat := (ws.map (bytes 8)).flatten

/-- The position in a table of `n` mini-arrays of a number given by its sub-band, mini-array, polarisation and part. -/
def cell (n f m p q : Nat) : Nat := ((f * n + m) * 2 + p) * 2 + q

theorem table_length (ws : List Nat) : (writeTable ws).length = ws.length * 8 := words_bytes_length 8 ws

/-- **A table read with its number of mini-arrays comes back number for number.** -/
theorem cal_read (n : Nat) (hn : 0 < n) (ws : List Nat) (hl : ws.length = 512 * n * 2 * 2)
    (hw : ∀ w ∈ ws, w < 18446744073709551616) : calTable n (writeTable ws) = .ok ws := by
  have hlen : (writeTable ws).length = 512 * n * 2 * 2 * 8 := by rw [table_length, hl]
  unfold calTable view
  have hc : chunks (512 * n * 2 * 2 * 8) (writeTable ws) = [writeTable ws] := by
    have := chunks_whole (512 * n * 2 * 2 * 8) (by omega) [writeTable ws] (by simpa using hlen)
    simpa using this
  rw [hlen, Nat.mod_self, if_neg (by simp), hc]
  show Except.ok (doubles _ (writeTable ws)) = _
  have := doubles_written ws [] _ hl hw
  rw [List.append_nil] at this
  unfold writeTable
  rw [this]

/-- A number of mini-arrays which does not divide the one of the table is refused. -/
theorem cal_refused (n N : Nat) (hd : ¬ n ∣ N) (ws : List Nat) (hl : ws.length = 512 * N * 2 * 2) :
    calTable n (writeTable ws) = .error .valueError := by
  unfold calTable view
  rw [if_pos]
  · rfl
  · rw [table_length, hl]
    intro h0
    apply hd
    have h1 : 512 * n * 2 * 2 * 8 ∣ 512 * N * 2 * 2 * 8 := Nat.dvd_of_mod_eq_zero h0
    rw [show 512 * n * 2 * 2 * 8 = 16384 * n by ring, show 512 * N * 2 * 2 * 8 = 16384 * N by ring] at h1
    exact Nat.dvd_of_mul_dvd_mul_left (by norm_num) h1

/-- **A number of mini-arrays which divides the one of the table is accepted, and the numbers are attributed to other sub-bands and
mini-arrays**: mini-array `m` of sub-band `f` gets what was stored for the mini-array and the sub-band which come at the same
place. -/
theorem cal_divisor_violated (n N : Nat) (hn : 0 < n) (hd : n ∣ N) (hN : 0 < N) (ws : List Nat) (hl : ws.length = 512 * N * 2 * 2)
    (hw : ∀ w ∈ ws, w < 18446744073709551616) :
    ∃ t : List Nat, calTable n (writeTable ws) = .ok t ∧ t.length = 512 * n * 2 * 2 ∧
      ∀ f m p q, f < 512 → m < n → p < 2 → q < 2 →
        t[cell n f m p q]? = ws[cell N ((f * n + m) / N) ((f * n + m) % N) p q]? := by
  have hle : n ≤ N := Nat.le_of_dvd hN hd
  have hlen : (writeTable ws).length = 512 * N * 2 * 2 * 8 := by rw [table_length, hl]
  have hmod : (writeTable ws).length % (512 * n * 2 * 2 * 8) = 0 := by
    rw [hlen]
    apply Nat.mod_eq_zero_of_dvd
    rw [show 512 * n * 2 * 2 * 8 = 16384 * n by ring, show 512 * N * 2 * 2 * 8 = 16384 * N by ring]
    exact Nat.mul_dvd_mul_left _ hd
  have hdiv : 0 < (writeTable ws).length / (512 * n * 2 * 2 * 8) := by
    apply Nat.div_pos _ (by omega)
    rw [hlen]; omega
  have hhead : (chunks (512 * n * 2 * 2 * 8) (writeTable ws)).head? = some (piece 0 (512 * n * 2 * 2 * 8) (writeTable ws)) := by
    unfold chunks
    rw [List.head?_map, List.head?_range, if_neg (by omega)]
    simp
  have hd2 : doubles (512 * n * 2 * 2) (piece 0 (512 * n * 2 * 2 * 8) (writeTable ws)) = ws.take (512 * n * 2 * 2) := by
    have h1 : piece 0 (512 * n * 2 * 2 * 8) (writeTable ws) = ((ws.take (512 * n * 2 * 2)).map (bytes 8)).flatten := by
      unfold writeTable piece
      rw [List.drop_zero]
      conv_lhs => rw [← List.take_append_drop (512 * n * 2 * 2) ws, List.map_append, List.flatten_append]
      apply List.take_left'
      rw [words_bytes_length, List.length_take]
      omega
    rw [h1]
    have := doubles_written (ws.take (512 * n * 2 * 2)) [] (512 * n * 2 * 2) (by rw [List.length_take]; omega)
      (fun w hw' => hw w (List.mem_of_mem_take hw'))
    rw [List.append_nil] at this
    exact this
  refine ⟨ws.take (512 * n * 2 * 2), ?_, by rw [List.length_take]; omega, ?_⟩
  · unfold calTable view
    rw [hmod, if_neg (by simp)]
    show ((chunks (512 * n * 2 * 2 * 8) (writeTable ws)).head?.elim _ _) = _
    rw [hhead]
    show Except.ok (doubles _ _) = _
    rw [hd2]
  · intro f m p q hf hm hp hq
    have e : cell N ((f * n + m) / N) ((f * n + m) % N) p q = cell n f m p q := by
      unfold cell
      have := Nat.div_add_mod (f * n + m) N
      rw [show (f * n + m) / N * N = N * ((f * n + m) / N) from Nat.mul_comm _ _, this]
    rw [e, List.getElem?_take]
    rw [if_pos]
    unfold cell
    have hb : f * n + m < 512 * n := by
      calc f * n + m < f * n + n := by omega
        _ = (f + 1) * n := by ring
        _ ≤ 512 * n := Nat.mul_le_mul_right _ hf
    omega

/-- The header of a table: all the lines up to the first one which begins with `HeaderStop`, and nothing without such a line. -/
theorem cal_header (a : List (List Nat × Bool)) (stop : List Nat) (b : List (List Nat × Bool)) (ha : ∀ l ∈ a, l.2 = false) :
    calHeader (a ++ (stop, true) :: b) = (a.map fun l => l.1.length).sum + stop.length ∧ calHeader a = 0 := by
  have hi : (a ++ (stop, true) :: b).findIdx (fun l => l.2) = a.length := by
    rw [List.findIdx_append]
    have hn : a.findIdx (fun l => l.2) = a.length := List.findIdx_eq_length.2 ha
    rw [hn, if_neg (lt_irrefl _), List.findIdx_cons]
    simp
  constructor
  · unfold calHeader
    rw [if_pos (by simp), hi]
    have ht : (a ++ (stop, true) :: b).take (a.length + 1) = a ++ [(stop, true)] := by
      rw [List.take_append]; simp
    rw [ht]
    simp
  · unfold calHeader
    rw [if_neg]
    intro h
    obtain ⟨l, hl, hl2⟩ := List.any_eq_true.1 h
    rw [ha l hl] at hl2
    exact absurd hl2 (by decide)

/-! ## Non-vacuity -/

/-- A waveform of two beamlets, with one sample per block. -/
def smallWave : Wave := ⟨[(0, 0, 200), (0, 1, 201)], 1, 1, [⟨5, 1700000000, 100, List.replicate 8 7⟩, ⟨6, 1700000001, 3, List.replicate 8 9⟩]⟩

theorem smallWave_valid : smallWave.Valid :=
  ⟨by decide, by intro a ha; simp [smallWave] at ha; rcases ha with rfl | rfl <;> simp [Fits], Or.inl rfl, by decide, by
    intro b hb; simp [smallWave] at hb; rcases hb with rfl | rfl <;> simp [smallWave, Wave.volume]⟩

example : rawLoad (writeWave smallWave) = .ok ⟨2, 1, 4, [(0, 0, 200), (0, 1, 201)], 0, smallWave.blocks.map RawBlock.start⟩ :=
  raw_read smallWave smallWave_valid

example : rawLoad ((writeWave smallWave).take 70) = .error .valueError :=
  raw_cut_violated smallWave smallWave_valid 70 (by decide) (by decide) (by decide)

example : (⟨77, [1, 2, 3, 4, 5, 6]⟩ : TvRecord).Valid 1 1 := ⟨by norm_num, by decide, by decide⟩

example : ∃ t : List Nat, calTable 48 (writeTable (List.replicate (512 * 96 * 2 * 2) 7)) = .ok t :=
  let ⟨t, ht, _⟩ := cal_divisor_violated 48 96 (by norm_num) (by norm_num) (by norm_num)
    (List.replicate (512 * 96 * 2 * 2) 7) (by rw [List.length_replicate]) (by intro w hw; rw [List.eq_of_mem_replicate hw]; norm_num)
  ⟨t, ht⟩

example : calTable 95 (writeTable (List.replicate (512 * 96 * 2 * 2) 7)) = .error .valueError :=
  cal_refused 95 96 (by norm_num) _ (by rw [List.length_replicate])

end Verif.Raw
