import Verif.Raw.Model

/-! Bytes, records and cuts: lemmas used by `PropsRaw.lean`. -/

namespace Verif.Raw

open Verif

/-! ## What is written in a file -/

/-- The `k` bytes of a number, lowest first (the format of the recorders, read at tf.py:31-53). -/
def bytes : Nat → Nat → List Nat
  | 0, _ => []
  | k + 1, n => n % 256 :: bytes k (n / 256)

/-- The 4 bytes of a signed number, in two's complement (the format read at tf.py:35-52). -/
def sbytes (i : Int) : List Nat := bytes 4 (i % 4294967296).toNat

/-- A number which fits 32 signed bits. -/
def Fits (i : Int) : Prop := -2147483648 ≤ i ∧ i < 2147483648

theorem bytes_length (k : Nat) : ∀ n, (bytes k n).length = k := by
  induction k with
  | zero => intro n; rfl
  | succ k ih => intro n; simp [bytes, ih]

theorem unsigned_bytes (k : Nat) : ∀ n, n < 256 ^ k → unsigned (bytes k n) = n := by
  induction k with
  | zero => intro n h; simp at h; subst h; rfl
  | succ k ih =>
    intro n h
    have h2 : n / 256 < 256 ^ k := by
      rw [Nat.div_lt_iff_lt_mul (by norm_num)]; rw [pow_succ] at h; exact h
    show n % 256 + 256 * unsigned (bytes k (n / 256)) = n
    rw [ih _ h2]; omega

theorem sbytes_length (i : Int) : (sbytes i).length = 4 := bytes_length 4 _

theorem signed_sbytes (i : Int) (h : Fits i) : signed (sbytes i) = i := by
  obtain ⟨h1, h2⟩ := h
  have e : unsigned (sbytes i) = (i % 4294967296).toNat := by
    apply unsigned_bytes
    have : (256 : Nat) ^ 4 = 4294967296 := by norm_num
    rw [this]; omega
  unfold signed
  rw [e]
  split_ifs <;> omega

/-! ## Pieces of a list -/

theorem piece_append_left (a b : List Nat) (off k : Nat) (h : off + k ≤ a.length) :
    piece off k (a ++ b) = piece off k a := by
  unfold piece
  rw [List.drop_append_of_le_length (by omega), List.take_append_of_le_length (by rw [List.length_drop]; omega)]

theorem piece_append_right (a b : List Nat) (off k n : Nat) (h : a.length = n) :
    piece (n + off) k (a ++ b) = piece off k b := by
  unfold piece
  rw [← List.drop_drop, List.drop_left' h]

theorem piece_whole (a b : List Nat) (k : Nat) (h : a.length = k) : piece 0 k (a ++ b) = a := by
  unfold piece
  rw [List.drop_zero, List.take_left' h]

theorem piece_drop (off off' k : Nat) (l : List Nat) : piece off k (l.drop off') = piece (off' + off) k l := by
  unfold piece; rw [List.drop_drop]

/-- Records of one size laid end to end are found at the multiples of that size. -/
theorem flatten_piece (m : Nat) : ∀ (L : List (List Nat)) (rest : List Nat) (i : Nat) (hi : i < L.length),
    (∀ x ∈ L, x.length = m) → piece (i * m) m (L.flatten ++ rest) = L[i] := by
  intro L
  induction L with
  | nil => intro rest i hi; simp at hi
  | cons a L ih =>
    intro rest i hi h
    have ha := h a (by simp)
    rw [List.flatten_cons, List.append_assoc]
    cases i with
    | zero =>
      rw [Nat.zero_mul]
      exact piece_whole a _ m ha
    | succ i =>
      have e : (i + 1) * m = m + i * m := by rw [Nat.succ_mul]; omega
      rw [e, piece_append_right a _ _ _ _ ha]
      rw [ih rest i (by simpa using hi) (fun x hx => h x (by simp [hx]))]
      simp

/-- The same, for what begins at the multiples of that size. -/
theorem flatten_drop (m : Nat) : ∀ (L : List (List Nat)) (rest : List Nat) (i : Nat),
    i ≤ L.length → (∀ x ∈ L, x.length = m) → (L.flatten ++ rest).drop (i * m) = (L.drop i).flatten ++ rest := by
  intro L
  induction L with
  | nil => intro rest i hi _; simp at hi; subst hi; simp
  | cons a L ih =>
    intro rest i hi h
    have ha := h a (by simp)
    cases i with
    | zero => simp
    | succ i =>
      have e : (i + 1) * m = m + i * m := by rw [Nat.succ_mul]; omega
      rw [e, ← List.drop_drop, List.flatten_cons, List.append_assoc, List.drop_left' ha,
        ih rest i (by simpa using hi) (fun x hx => h x (by simp [hx]))]
      simp

theorem flatten_length (m : Nat) : ∀ (L : List (List Nat)), (∀ x ∈ L, x.length = m) → L.flatten.length = L.length * m := by
  intro L
  induction L with
  | nil => intro _; simp
  | cons a L ih =>
    intro h
    rw [List.flatten_cons, List.length_append, ih (fun x hx => h x (by simp [hx])), h a (by simp), List.length_cons,
      Nat.succ_mul]
    omega

/-- The complete records of a file cut after `k` bytes are the first ones of the file. -/
theorem chunks_cut (m : Nat) (hm : 0 < m) (L : List (List Nat)) (h : ∀ x ∈ L, x.length = m) (k : Nat)
    (hk : k ≤ L.length * m) : chunks m (L.flatten.take k) = L.take (k / m) := by
  have hlen := flatten_length m L h
  have hl : (L.flatten.take k).length = k := by rw [List.length_take, hlen]; omega
  have hkm : k / m ≤ L.length := by
    calc k / m ≤ (L.length * m) / m := Nat.div_le_div_right hk
      _ = L.length := Nat.mul_div_cancel _ hm
  unfold chunks
  rw [hl]
  apply List.ext_getElem
  · simp; omega
  · intro i h1 h2
    have hi : i < k / m := by simpa using h1
    have him : i * m + m ≤ k := by
      have : (i + 1) * m ≤ k := le_trans (Nat.mul_le_mul_right m hi) (Nat.div_mul_le_self k m)
      rw [Nat.succ_mul] at this; exact this
    rw [List.getElem_map, List.getElem_range, List.getElem_take]
    have e := flatten_piece m L [] i (by omega) h
    rw [List.append_nil] at e
    rw [← e]
    unfold piece
    rw [List.drop_take, List.take_take]
    congr 1
    omega

theorem chunks_whole (m : Nat) (hm : 0 < m) (L : List (List Nat)) (h : ∀ x ∈ L, x.length = m) :
    chunks m L.flatten = L := by
  have e := chunks_cut m hm L h (L.length * m) le_rfl
  rw [← flatten_length m L h, List.take_length, flatten_length m L h, Nat.mul_div_cancel _ hm, List.take_length] at e
  exact e

/-- Numbers of 4 bytes are read as they were written. -/
theorem words_written (ws : List Nat) (rest : List Nat) (n : Nat) (hn : ws.length = n) (h : ∀ w ∈ ws, w < 4294967296) :
    words n ((ws.map (bytes 4)).flatten ++ rest) = ws := by
  subst hn
  unfold words
  apply List.ext_getElem
  · simp
  · intro i h1 h2
    rw [List.getElem_map, List.getElem_range,
      flatten_piece 4 (ws.map (bytes 4)) rest i (by simpa using h2) (by
        intro x hx; obtain ⟨w, _, rfl⟩ := List.mem_map.1 hx; exact bytes_length 4 w),
      List.getElem_map, unsigned_bytes 4 _ (by norm_num; exact h _ (List.getElem_mem _))]

/-- Numbers of 8 bytes are read as they were written. -/
theorem doubles_written (ws : List Nat) (rest : List Nat) (n : Nat) (hn : ws.length = n)
    (h : ∀ w ∈ ws, w < 18446744073709551616) :
    doubles n ((ws.map (bytes 8)).flatten ++ rest) = ws := by
  subst hn
  unfold doubles
  apply List.ext_getElem
  · simp
  · intro i h1 h2
    rw [List.getElem_map, List.getElem_range,
      flatten_piece 8 (ws.map (bytes 8)) rest i (by simpa using h2) (by
        intro x hx; obtain ⟨w, _, rfl⟩ := List.mem_map.1 hx; exact bytes_length 8 w),
      List.getElem_map, unsigned_bytes 8 _ (by norm_num; exact h _ (List.getElem_mem _))]

theorem words_bytes_length (k : Nat) (ws : List Nat) : ((ws.map (bytes k)).flatten).length = ws.length * k := by
  rw [flatten_length k _ (by intro x hx; obtain ⟨w, _, rfl⟩ := List.mem_map.1 hx; exact bytes_length k w), List.length_map]

end Verif.Raw
