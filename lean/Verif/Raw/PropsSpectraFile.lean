import Verif.Raw.Lemmas

/-!
Spectra files written by the receivers, read back by `Spectra` and by `_Lane`, whole or interrupted at any byte.
-/

namespace Verif.Raw

open Verif

/-! ## Specification: the format of the files -/

/-- The 48 bytes of a header. -/
def writeHeader (h : Header) : List Nat :=
  bytes 8 h.idx ++ (bytes 8 h.stamp ++ (bytes 8 h.seq ++ (sbytes h.fftlen ++ (sbytes h.nfft2int ++ (sbytes h.fftovlp ++
    (sbytes h.apodisation ++ (sbytes h.nffte ++ sbytes h.nbchan)))))))

/-- The bytes of a sub-band. -/
def writeBeamlet (b : Beamlet) : List Nat :=
  sbytes b.lane ++ (sbytes b.beam ++ (sbytes b.channel ++ ((b.fft0.map (bytes 4)).flatten ++ (b.fft1.map (bytes 4)).flatten)))

/-- The bytes of a block. -/
def writeBlock (b : Block) : List Nat := writeHeader b.header ++ (b.data.map writeBeamlet).flatten

/-- The bytes of a file. -/
def writeFile (bs : List Block) : List Nat := (bs.map writeBlock).flatten

/-- The fields of a header fit their types. -/
def Header.Valid (h : Header) : Prop :=
  h.idx < 18446744073709551616 ∧ h.stamp < 18446744073709551616 ∧ h.seq < 18446744073709551616 ∧ Fits h.fftlen ∧
    Fits h.nfft2int ∧ Fits h.fftovlp ∧ Fits h.apodisation ∧ Fits h.nffte ∧ Fits h.nbchan

/-- A sub-band of `nt` times and `nc` channels. -/
def Beamlet.Valid (nt nc : Nat) (b : Beamlet) : Prop :=
  Fits b.lane ∧ Fits b.beam ∧ Fits b.channel ∧ b.fft0.length = nt * nc * 2 ∧ b.fft1.length = nt * nc * 2 ∧
    (∀ w ∈ b.fft0, w < 4294967296) ∧ ∀ w ∈ b.fft1, w < 4294967296

/-- A block of `ns` sub-bands of `nt` times and `nc` channels. -/
def Block.Valid (ns nt nc : Nat) (b : Block) : Prop :=
  b.header.Valid ∧ b.data.length = ns ∧ ∀ x ∈ b.data, x.Valid nt nc

/-- A recording: blocks of one shape, which the first header announces. -/
structure Recording (ns nt nc : Nat) (bs : List Block) : Prop where
  /-- there is a block, whose header gives the shape -/
  first : ∃ b ∈ bs.head?, b.header.nffte = nt ∧ b.header.fftlen = nc ∧ b.header.nbchan.natAbs = ns
  /-- the blocks have that shape -/
  valid : ∀ b ∈ bs, b.Valid ns nt nc

/-! ## Decoding what was written -/

theorem piece_skip (a b : List Nat) (off k : Nat) (h : a.length ≤ off) : piece off k (a ++ b) = piece (off - a.length) k b := by
  have e : off = a.length + (off - a.length) := by omega
  conv_lhs => rw [e]
  exact piece_append_right a b _ k _ rfl

theorem piece_first (a b : List Nat) (off k : Nat) (h : off = 0) (hk : a.length = k) : piece off k (a ++ b) = a := by
  subst h; exact piece_whole a b k hk

theorem writeHeader_length (h : Header) : (writeHeader h).length = 48 := by
  simp [writeHeader, bytes_length, sbytes_length]

theorem header_written (h : Header) (hv : h.Valid) (rest : List Nat) : headerAt (writeHeader h ++ rest) = h := by
  obtain ⟨h1, h2, h3, h4, h5, h6, h7, h8, h9⟩ := hv
  have u : ∀ n, n < 18446744073709551616 → unsigned (bytes 8 n) = n := fun n hn => unsigned_bytes 8 n (by norm_num; exact hn)
  have l8 := bytes_length 8
  have l4 := sbytes_length
  unfold headerAt writeHeader
  simp only [List.append_assoc]
  have e1 : ∀ r : List Nat, piece 0 8 (bytes 8 h.idx ++ r) = bytes 8 h.idx := fun r => piece_whole _ _ _ (l8 _)
  simp only [piece_skip, piece_whole, l8, l4, Nat.reduceLeDiff, Nat.reduceSub, le_refl, Nat.sub_self, u _ h1, u _ h2, u _ h3,
    signed_sbytes _ h4, signed_sbytes _ h5, signed_sbytes _ h6, signed_sbytes _ h7, signed_sbytes _ h8, signed_sbytes _ h9]

theorem writeBeamlet_length (nt nc : Nat) (b : Beamlet) (h : b.Valid nt nc) : (writeBeamlet b).length = beamletSize nt nc := by
  obtain ⟨_, _, _, h4, h5, _, _⟩ := h
  unfold writeBeamlet beamletSize
  simp only [List.length_append, sbytes_length, words_bytes_length, h4, h5]
  omega

theorem beamlet_written (nt nc : Nat) (b : Beamlet) (h : b.Valid nt nc) (rest : List Nat) :
    beamletAt nt nc (writeBeamlet b ++ rest) = b := by
  obtain ⟨h1, h2, h3, h4, h5, h6, h7⟩ := h
  have l4 := sbytes_length
  have e0 : (writeBeamlet b ++ rest).drop 12 = (b.fft0.map (bytes 4)).flatten ++ ((b.fft1.map (bytes 4)).flatten ++ rest) := by
    unfold writeBeamlet
    have : sbytes b.lane ++ (sbytes b.beam ++ (sbytes b.channel ++ ((b.fft0.map (bytes 4)).flatten ++
        (b.fft1.map (bytes 4)).flatten))) ++ rest
      = (sbytes b.lane ++ sbytes b.beam ++ sbytes b.channel) ++ ((b.fft0.map (bytes 4)).flatten ++
        ((b.fft1.map (bytes 4)).flatten ++ rest)) := by simp only [List.append_assoc]
    rw [this]
    exact List.drop_left' (by simp [l4])
  have e1 : (writeBeamlet b ++ rest).drop (12 + nt * nc * 2 * 4) = (b.fft1.map (bytes 4)).flatten ++ rest := by
    rw [← List.drop_drop, e0]
    exact List.drop_left' (by rw [words_bytes_length, h4])
  unfold beamletAt
  rw [e0, e1, words_written b.fft0 _ _ h4 h6, words_written b.fft1 _ _ h5 h7]
  unfold writeBeamlet
  simp only [List.append_assoc, piece_skip, piece_whole, l4, Nat.reduceLeDiff, Nat.reduceSub, le_refl, Nat.sub_self,
    signed_sbytes _ h1, signed_sbytes _ h2, signed_sbytes _ h3]

theorem writeBlock_length (ns nt nc : Nat) (b : Block) (h : b.Valid ns nt nc) : (writeBlock b).length = blockSize ns nt nc := by
  obtain ⟨_, h2, h3⟩ := h
  unfold writeBlock blockSize
  rw [List.length_append, writeHeader_length, flatten_length (beamletSize nt nc), List.length_map, h2]
  intro x hx
  obtain ⟨y, hy, rfl⟩ := List.mem_map.1 hx
  exact writeBeamlet_length nt nc y (h3 y hy)

theorem block_written (ns nt nc : Nat) (b : Block) (h : b.Valid ns nt nc) : blockAt ns nt nc (writeBlock b) = b := by
  obtain ⟨h1, h2, h3⟩ := h
  subst h2
  have hl : ∀ x ∈ b.data.map writeBeamlet, x.length = beamletSize nt nc := by
    intro x hx
    obtain ⟨y, hy, rfl⟩ := List.mem_map.1 hx
    exact writeBeamlet_length nt nc y (h3 y hy)
  have e : ((List.range b.data.length).map fun j => beamletAt nt nc ((writeBlock b).drop (48 + j * beamletSize nt nc)))
      = b.data := by
    apply List.ext_getElem
    · simp
    · intro i hi hi'
      rw [List.getElem_map, List.getElem_range, ← List.drop_drop]
      unfold writeBlock
      rw [List.drop_left' (writeHeader_length _)]
      have hd := flatten_drop (beamletSize nt nc) (b.data.map writeBeamlet) [] i (by simpa using hi'.le) hl
      rw [List.append_nil, List.append_nil] at hd
      rw [hd, List.drop_eq_getElem_cons (by simpa using hi'), List.flatten_cons, List.getElem_map]
      exact beamlet_written nt nc _ (h3 _ (List.getElem_mem _)) _
  unfold blockAt
  rw [e]
  have eh : headerAt (writeBlock b) = b.header := by unfold writeBlock; exact header_written _ h1 _
  rw [eh]

theorem blockSize_pos (ns nt nc : Nat) : 48 ≤ blockSize ns nt nc := by unfold blockSize; omega

theorem file_lengths {ns nt nc : Nat} {bs : List Block} (h : Recording ns nt nc bs) :
    ∀ x ∈ bs.map writeBlock, x.length = blockSize ns nt nc := by
  intro x hx
  obtain ⟨y, hy, rfl⟩ := List.mem_map.1 hx
  exact writeBlock_length ns nt nc y (h.valid y hy)

theorem writeFile_length {ns nt nc : Nat} {bs : List Block} (h : Recording ns nt nc bs) :
    (writeFile bs).length = bs.length * blockSize ns nt nc := by
  unfold writeFile
  rw [flatten_length _ _ (file_lengths h), List.length_map]

/-- The header of the first block of a file cut after `k ≥ 48` bytes. -/
theorem first_header_cut {ns nt nc : Nat} {bs : List Block} (h : Recording ns nt nc bs) (k : Nat) (hk : 48 ≤ k) :
    ∃ b ∈ bs.head?, b.header.nffte = nt ∧ b.header.fftlen = nc ∧ b.header.nbchan.natAbs = ns ∧
      firstHeader ((writeFile bs).take k) = .ok b.header := by
  obtain ⟨b, hb, h1, h2, h3⟩ := h.first
  refine ⟨b, hb, h1, h2, h3, ?_⟩
  have hmem : b ∈ bs := List.mem_of_mem_head? hb
  obtain ⟨hv, _, _⟩ := h.valid b hmem
  obtain ⟨rest, hr⟩ : ∃ rest, writeFile bs = writeHeader b.header ++ rest := by
    cases bs with
    | nil => simp at hb
    | cons c bs =>
      simp at hb; subst hb
      refine ⟨(c.data.map writeBeamlet).flatten ++ (bs.map writeBlock).flatten, ?_⟩
      simp [writeFile, writeBlock]
  have et : ((writeFile bs).take k).take 48 = writeHeader b.header := by
    rw [List.take_take, Nat.min_eq_left hk, hr]
    exact List.take_left' (writeHeader_length _)
  unfold firstHeader
  rw [et, if_neg (by rw [writeHeader_length]; omega)]
  have := header_written b.header hv []
  rw [List.append_nil] at this
  rw [this]

theorem first_header_short (f : List Nat) (h : f.length < 48) : firstHeader f = .error .valueError := by
  unfold firstHeader
  rw [if_pos (by rw [List.length_take]; omega)]

/-- Decoding the complete blocks of a file cut after `k` bytes. -/
theorem decoded_cut {ns nt nc : Nat} {bs : List Block} (h : Recording ns nt nc bs) (k : Nat)
    (hk : k ≤ (writeFile bs).length) :
    (chunks (blockSize ns nt nc) ((writeFile bs).take k)).map (blockAt ns nt nc) = bs.take (k / blockSize ns nt nc) := by
  have hp := blockSize_pos ns nt nc
  rw [writeFile_length h] at hk
  have e := chunks_cut (blockSize ns nt nc) (by omega) (bs.map writeBlock) (file_lengths h) k (by simpa using hk)
  unfold writeFile
  rw [e, ← List.map_take, List.map_map]
  conv_rhs => rw [← List.map_id (bs.take _)]
  apply List.map_congr_left
  intro b hb
  exact block_written ns nt nc b (h.valid b (List.mem_of_mem_take hb))

/-! ## `Spectra` -/

/-- Equation of `Spectra` on a file cut after at least one header. -/
theorem spectra_cut_eq (check : Bool) {ns nt nc : Nat} {bs : List Block} (h : Recording ns nt nc bs) (hns : ns ≠ 1)
    (hmin : ns ≠ 2147483648) (k : Nat) (h48 : 48 ≤ k) (hk : k ≤ (writeFile bs).length) :
    spectraBlocks check ((writeFile bs).take k)
      = if k % blockSize ns nt nc ≠ 0 then .error .valueError else .ok (bs.take (k / blockSize ns nt nc)) := by
  obtain ⟨b, _, h1, h2, h3, he⟩ := first_header_cut h k h48
  have hl : ((writeFile bs).take k).length = k := by rw [List.length_take]; omega
  unfold spectraBlocks
  rw [he]
  show (if b.header.nffte < 0 ∨ b.header.fftlen < 0 ∨ b.header.nbchan = -2147483648 then (_ : Except Err (List Block)) else _) = _
  have hno : ¬ (b.header.nffte < 0 ∨ b.header.fftlen < 0 ∨ b.header.nbchan = -2147483648) := by
    rw [h1, h2]; omega
  rw [if_neg hno, h1, h2, h3]
  simp only [Int.toNat_natCast]
  unfold view
  rw [hl]
  by_cases hz : k % blockSize ns nt nc ≠ 0
  · rw [if_pos hz, if_pos hz]; rfl
  · rw [if_neg hz, if_neg hz]
    show (if ns = 1 then (_ : Except Err (List Block)) else _) = _
    rw [if_neg hns, decoded_cut h k hk]

/-- **A whole recording is read block for block.** Every field of every header and every float of every sub-band comes back, with or
without the check of missing data, for any number of blocks, sub-bands (other than one), times and channels. -/
theorem spectra_read_partial (check : Bool) {ns nt nc : Nat} {bs : List Block} (h : Recording ns nt nc bs) (hns : ns ≠ 1)
    (hmin : ns ≠ 2147483648) : spectraBlocks check (writeFile bs) = .ok bs := by
  have hl := writeFile_length h
  have hp := blockSize_pos ns nt nc
  have hb : 1 ≤ bs.length := by
    obtain ⟨b, hb, _⟩ := h.first
    cases bs with
    | nil => simp at hb
    | cons c l => simp
  have h48 : 48 ≤ (writeFile bs).length := by
    rw [hl]; calc 48 ≤ 1 * blockSize ns nt nc := by omega
      _ ≤ _ := Nat.mul_le_mul_right _ hb
  have e := spectra_cut_eq check h hns hmin _ h48 le_rfl
  rw [List.take_length, hl, Nat.mul_mod_left, if_neg (by simp), Nat.mul_div_cancel _ (by omega), List.take_length] at e
  exact e

/-- A recording interrupted exactly between two blocks is read as the blocks written so far. -/
theorem spectra_boundary_partial (check : Bool) {ns nt nc : Nat} {bs : List Block} (h : Recording ns nt nc bs) (hns : ns ≠ 1)
    (hmin : ns ≠ 2147483648) (n : Nat) (h0 : 0 < n) (hn : n ≤ bs.length) :
    spectraBlocks check ((writeFile bs).take (n * blockSize ns nt nc)) = .ok (bs.take n) := by
  have hp := blockSize_pos ns nt nc
  have hle : n * blockSize ns nt nc ≤ (writeFile bs).length := by
    rw [writeFile_length h]; exact Nat.mul_le_mul_right _ hn
  have h48 : 48 ≤ n * blockSize ns nt nc := by
    calc 48 ≤ 1 * blockSize ns nt nc := by omega
      _ ≤ _ := Nat.mul_le_mul_right _ h0
  have e := spectra_cut_eq check h hns hmin _ h48 hle
  rw [Nat.mul_mod_left, if_neg (by simp), Nat.mul_div_cancel _ (by omega)] at e
  exact e

/-- **An interrupted recording is refused as a whole.** However many complete blocks precede the interruption, a file cut anywhere
but between two blocks is not read: `ValueError`. -/
theorem spectra_cut_violated (check : Bool) {ns nt nc : Nat} {bs : List Block} (h : Recording ns nt nc bs) (hns : ns ≠ 1)
    (hmin : ns ≠ 2147483648) (k : Nat) (hk : k ≤ (writeFile bs).length) (hcut : k % blockSize ns nt nc ≠ 0) :
    spectraBlocks check ((writeFile bs).take k) = .error .valueError := by
  rcases lt_or_ge k 48 with h48 | h48
  · unfold spectraBlocks
    rw [first_header_short _ (by rw [List.length_take]; omega)]
    rfl
  · rw [spectra_cut_eq check h hns hmin k h48 hk, if_pos hcut]

/-- **A recording of one sub-band is refused**, whatever it contains. -/
theorem spectra_single_violated {nt nc : Nat} {bs : List Block} (h : Recording 1 nt nc bs) :
    spectraBlocks true (writeFile bs) = .error .indexError ∧ spectraBlocks false (writeFile bs) = .error .valueError := by
  have hl := writeFile_length h
  have hp := blockSize_pos 1 nt nc
  have hb : 1 ≤ bs.length := by
    obtain ⟨b, hb, _⟩ := h.first
    cases bs with
    | nil => simp at hb
    | cons c l => simp
  have h48 : 48 ≤ (writeFile bs).length := by
    rw [hl]; calc 48 ≤ 1 * blockSize 1 nt nc := by omega
      _ ≤ _ := Nat.mul_le_mul_right _ hb
  obtain ⟨b, _, h1, h2, h3, he⟩ := first_header_cut h _ h48
  rw [List.take_length] at he
  have key : ∀ check, spectraBlocks check (writeFile bs) = .error (if check then .indexError else .valueError) := by
    intro check
    unfold spectraBlocks
    rw [he]
    show (if b.header.nffte < 0 ∨ b.header.fftlen < 0 ∨ b.header.nbchan = -2147483648 then (_ : Except Err (List Block)) else _) = _
    have hno : ¬ (b.header.nffte < 0 ∨ b.header.fftlen < 0 ∨ b.header.nbchan = -2147483648) := by
      rw [h1, h2]; omega
    rw [if_neg hno, h1, h2, h3]
    simp only [Int.toNat_natCast]
    unfold view
    rw [hl, Nat.mul_mod_left, if_neg (by simp)]
    rfl
  exact ⟨key true, key false⟩

/-! ## `_Lane` -/

/-- Equation of `_Lane` on a file cut after at least one header. -/
theorem lane_cut_eq {ns nt nc : Nat} {bs : List Block} (h : Recording ns nt nc bs) (hns : ns ≠ 1)
    (hpos : ∀ b ∈ bs.head?, 0 ≤ b.header.nbchan) (k : Nat) (h48 : 48 ≤ k) (hk : k ≤ (writeFile bs).length) :
    laneBlocks ((writeFile bs).take k)
      = if k / blockSize ns nt nc = 0 then .error .indexError else .ok (bs.take (k / blockSize ns nt nc)) := by
  obtain ⟨b, hb, h1, h2, h3, he⟩ := first_header_cut h k h48
  have hl : ((writeFile bs).take k).length = k := by rw [List.length_take]; omega
  have hb0 := hpos b hb
  have h3' : b.header.nbchan.toNat = ns := by omega
  unfold laneBlocks
  rw [he]
  show (if b.header.nffte < 0 ∨ b.header.fftlen < 0 ∨ b.header.nbchan < 0 then (_ : Except Err (List Block)) else _) = _
  have hno : ¬ (b.header.nffte < 0 ∨ b.header.fftlen < 0 ∨ b.header.nbchan < 0) := by
    rw [h1, h2]; omega
  have hn1 : ¬ b.header.nbchan = 1 := by omega
  rw [if_neg hno, if_neg hn1, h1, h2, h3', hl]
  simp only [Int.toNat_natCast]
  rw [decoded_cut h k hk]

/-- **An interrupted recording keeps its complete blocks.** Whatever the byte at which the file stops, once one block is complete,
the reader of lanes decodes exactly the complete blocks, as they were written. -/
theorem lane_cut_partial {ns nt nc : Nat} {bs : List Block} (h : Recording ns nt nc bs) (hns : ns ≠ 1)
    (hpos : ∀ b ∈ bs.head?, 0 ≤ b.header.nbchan) (k : Nat) (h1 : blockSize ns nt nc ≤ k) (hk : k ≤ (writeFile bs).length) :
    laneBlocks ((writeFile bs).take k) = .ok (bs.take (k / blockSize ns nt nc)) := by
  have hp := blockSize_pos ns nt nc
  have hd : k / blockSize ns nt nc ≠ 0 := by
    have : 0 < k / blockSize ns nt nc := Nat.div_pos h1 (by omega)
    omega
  rw [lane_cut_eq h hns hpos k (by omega) hk, if_neg hd]

/-- Before one block is complete there is nothing to read: `ValueError` within the header, `IndexError` after it. -/
theorem lane_short {ns nt nc : Nat} {bs : List Block} (h : Recording ns nt nc bs) (hns : ns ≠ 1)
    (hpos : ∀ b ∈ bs.head?, 0 ≤ b.header.nbchan) (k : Nat) (h1 : k < blockSize ns nt nc) (hk : k ≤ (writeFile bs).length) :
    laneBlocks ((writeFile bs).take k) = .error (if k < 48 then .valueError else .indexError) := by
  rcases lt_or_ge k 48 with h48 | h48
  · unfold laneBlocks
    rw [first_header_short _ (by rw [List.length_take]; omega), if_pos h48]
    rfl
  · rw [lane_cut_eq h hns hpos k h48 hk, Nat.div_eq_of_lt h1, if_pos rfl, if_neg (by omega)]

/-- **A negative number of sub-bands in the first header**, which `Spectra` reads, is refused by the reader of lanes. -/
theorem lane_negative_violated (check : Bool) {ns nt nc : Nat} {bs : List Block} (h : Recording ns nt nc bs) (hns : ns ≠ 1)
    (hmin : ns ≠ 2147483648) (hneg : ∃ b ∈ bs.head?, b.header.nbchan < 0) :
    laneBlocks (writeFile bs) = .error .valueError ∧ spectraBlocks check (writeFile bs) = .ok bs := by
  refine ⟨?_, spectra_read_partial check h hns hmin⟩
  have hl := writeFile_length h
  have hp := blockSize_pos ns nt nc
  have hb : 1 ≤ bs.length := by
    obtain ⟨b, hb, _⟩ := h.first
    cases bs with
    | nil => simp at hb
    | cons c l => simp
  have h48 : 48 ≤ (writeFile bs).length := by
    rw [hl]; calc 48 ≤ 1 * blockSize ns nt nc := by omega
      _ ≤ _ := Nat.mul_le_mul_right _ hb
  obtain ⟨b, hb', h1, h2, h3, he⟩ := first_header_cut h _ h48
  rw [List.take_length] at he
  obtain ⟨c, hc, hcn⟩ := hneg
  have hbc : b = c := by rw [Option.mem_def] at hb' hc; rw [hb'] at hc; exact Option.some.inj hc
  subst hbc
  unfold laneBlocks
  rw [he]
  show (if b.header.nffte < 0 ∨ b.header.fftlen < 0 ∨ b.header.nbchan < 0 then (_ : Except Err (List Block)) else _) = _
  rw [if_pos (Or.inr (Or.inr hcn))]

/-- A recording of one sub-band is refused by the reader of lanes too. -/
theorem lane_single_violated {nt nc : Nat} {bs : List Block} (h : Recording 1 nt nc bs)
    (hpos : ∀ b ∈ bs.head?, 0 ≤ b.header.nbchan) : laneBlocks (writeFile bs) = .error .indexError := by
  have hl := writeFile_length h
  have hp := blockSize_pos 1 nt nc
  have hb : 1 ≤ bs.length := by
    obtain ⟨b, hb, _⟩ := h.first
    cases bs with
    | nil => simp at hb
    | cons c l => simp
  have h48 : 48 ≤ (writeFile bs).length := by
    rw [hl]; calc 48 ≤ 1 * blockSize 1 nt nc := by omega
      _ ≤ _ := Nat.mul_le_mul_right _ hb
  obtain ⟨b, hb', h1, h2, h3, he⟩ := first_header_cut h _ h48
  rw [List.take_length] at he
  have hb0 := hpos b hb'
  unfold laneBlocks
  rw [he]
  show (if b.header.nffte < 0 ∨ b.header.fftlen < 0 ∨ b.header.nbchan < 0 then (_ : Except Err (List Block)) else _) = _
  have hno : ¬ (b.header.nffte < 0 ∨ b.header.fftlen < 0 ∨ b.header.nbchan < 0) := by
    rw [h1, h2]; omega
  have h11 : b.header.nbchan = 1 := by omega
  rw [if_neg hno, if_pos h11]

/-! ## Non-vacuity -/

/-- A recording of two blocks of two sub-bands, one time and two channels. -/
def tiny (nb : Int) : List Block :=
  [⟨⟨1, 1700000000, 12, 2, 1, 0, 0, 1, nb⟩, [⟨0, 0, 200, [1, 2, 3, 4], [5, 6, 7, 8]⟩, ⟨0, 1, 201, [9, 10, 11, 12], [13, 14, 15, 16]⟩]⟩,
   ⟨⟨2, 1700000000, 14, 2, 1, 0, 0, 1, 2⟩, [⟨0, 0, 200, [1, 1, 1, 1], [2, 2, 2, 2]⟩, ⟨0, 1, 201, [3, 3, 3, 3], [4, 4, 4, 4]⟩]⟩]

/-- The recording meets the format, whatever the sign of its number of sub-bands. -/
theorem tiny_recording (nb : Int) (h : nb = 2 ∨ nb = -2) : Recording 2 1 2 (tiny nb) := by
  constructor
  · refine ⟨(tiny nb).head (by simp [tiny]), by simp [tiny], ?_⟩
    rcases h with rfl | rfl <;> simp [tiny]
  · intro b hb
    rcases h with rfl | rfl <;>
    · simp [tiny] at hb
      rcases hb with rfl | rfl <;>
        simp [Block.Valid, Header.Valid, Beamlet.Valid, Fits]

example : spectraBlocks true (writeFile (tiny 2)) = .ok (tiny 2) :=
  spectra_read_partial true (tiny_recording 2 (Or.inl rfl)) (by norm_num) (by norm_num)

example : spectraBlocks true ((writeFile (tiny 2)).take 200) = .error .valueError :=
  spectra_cut_violated true (tiny_recording 2 (Or.inl rfl)) (by norm_num) (by norm_num) 200
    (by rw [writeFile_length (tiny_recording 2 (Or.inl rfl))]; decide) (by decide)

example : laneBlocks ((writeFile (tiny 2)).take 200) = .ok ((tiny 2).take 1) :=
  lane_cut_partial (tiny_recording 2 (Or.inl rfl)) (by norm_num) (by simp [tiny]) 200 (by decide)
    (by rw [writeFile_length (tiny_recording 2 (Or.inl rfl))]; decide)

example : laneBlocks (writeFile (tiny (-2))) = .error .valueError :=
  (lane_negative_violated true (tiny_recording (-2) (Or.inr rfl)) (by norm_num) (by norm_num)
    ⟨_, rfl, by decide⟩).1

example : spectraBlocks true (writeFile [⟨⟨1, 1700000000, 12, 2, 1, 0, 0, 1, 1⟩, [⟨0, 0, 200, [1, 2, 3, 4], [5, 6, 7, 8]⟩]⟩])
    = .error .indexError :=
  (spectra_single_violated (nt := 1) (nc := 2) ⟨⟨_, rfl, by decide⟩, by
    intro b hb; simp at hb; subst hb; simp [Block.Valid, Header.Valid, Beamlet.Valid, Fits]⟩).1

end Verif.Raw
