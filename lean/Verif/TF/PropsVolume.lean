import Verif.TF.Volume

/-!
# The limit on the volume of the data (property C197)
-/

namespace Verif.TF

/-! ## Specification -/

/-- The tasks other than the de-dispersion, run in turn. -/
def chain : List (Cube → Except Err Cube) → Cube → Except Err Cube
  | [], c => .ok c
  | f :: l, c => (f c).bind (chain l)

/-- Tables of 2 GiB or more. -/
def Large (c : Cube) : Prop := 2147483648 ≤ c.nt * c.nf * c.np * c.item

theorem tooBig_iff (ignore : Bool) (c : Cube) : tooBig ignore c = true ↔ Large c ∧ ignore = false := by
  unfold tooBig Cube.nbytes volumeLimit Large
  rw [Bool.and_eq_true, decide_eq_true_iff]
  cases ignore <;> simp

variable {shift : ℚ → Cube → Except Err Cube}

theorem runVol_append (dm : Option ℚ) (ignore : Bool) (a b : List VTask) (c : Cube) :
    runVol shift dm ignore (a ++ b) c = (runVol shift dm ignore a c).bind (runVol shift dm ignore b) := by
  induction a generalizing c with
  | nil => rfl
  | cons t l ih =>
    show (t.run shift dm ignore c).bind (runVol shift dm ignore (l ++ b)) = ((t.run shift dm ignore c).bind _).bind _
    cases t.run shift dm ignore c with
    | error e => rfl
    | ok d => exact ih d

theorem runVol_other (dm : Option ℚ) (ignore : Bool) (l : List (Cube → Except Err Cube)) (c : Cube) :
    runVol shift dm ignore (l.map .other) c = chain l c := by
  induction l generalizing c with
  | nil => rfl
  | cons f l ih =>
    show (f c).bind (runVol shift dm ignore (l.map .other)) = (f c).bind (chain l)
    congr 1
    funext d
    exact ih d

theorem runVol_around (dm : Option ℚ) (ignore : Bool) (a b : List (Cube → Except Err Cube)) (c d : Cube) (ha : chain a c = .ok d) :
    runVol shift dm ignore (a.map .other ++ .dedisperse :: b.map .other) c = (deDisperseTask shift dm ignore d).bind (chain b) := by
  rw [runVol_append, runVol_other, ha]
  show (deDisperseTask shift dm ignore d).bind (runVol shift dm ignore (b.map .other)) = _
  congr 1
  funext e
  exact runVol_other dm ignore b e

/-! ## Properties -/

/-- C197: without de-dispersion, what the tasks compute is returned if it is below 2 GiB or if the limit is to be ignored, and nothing is
otherwise; it is stored in a file whatever its volume. -/
theorem volume_limit_exact (dm : Option ℚ) (ignore toFile : Bool) (l : List (Cube → Except Err Cube)) (c d : Cube) (h : chain l c = .ok d) :
    (¬ Large d ∨ ignore = true ∨ toFile = true → getVol shift dm ignore toFile (l.map .other) c = .ok (some d))
      ∧ (Large d ∧ ignore = false ∧ toFile = false → getVol shift dm ignore toFile (l.map .other) c = .ok none) := by
  unfold getVol
  rw [runVol_other, h]
  show (_ → Except.ok (if toFile = true then some d else toNumpy ignore d) = _)
    ∧ (_ → Except.ok (if toFile = true then some d else toNumpy ignore d) = _)
  unfold toNumpy
  constructor
  · intro hd
    by_cases hf : toFile = true
    · rw [if_pos hf]
    · rw [if_neg hf, if_neg]
      rw [tooBig_iff]
      rintro ⟨h1, h2⟩
      rcases hd with k | k | k
      · exact k h1
      · rw [h2] at k; cases k
      · exact hf k
  · rintro ⟨h1, h2, h3⟩
    rw [if_neg (by rw [h3]; decide), if_pos ((tooBig_iff _ _).2 ⟨h1, h2⟩)]

/-- C197: in particular, of the recorded matrices (four complex numbers of eight bytes) a selection is returned exactly when it has less than
67108864 samples. -/
theorem volume_samples (dm : Option ℚ) (nt nf : Nat) (v : Nat → Nat → Nat → Option ℚ) :
    getVol shift dm false false [] ⟨nt, nf, 4, 8, v⟩ = .ok (if nt * nf < 67108864 then some ⟨nt, nf, 4, 8, v⟩ else none) := by
  have h := volume_limit_exact (shift := shift) dm false false [] ⟨nt, nf, 4, 8, v⟩ _ rfl
  have e : Large ⟨nt, nf, 4, 8, v⟩ ↔ ¬ nt * nf < 67108864 := by
    show 2147483648 ≤ nt * nf * 4 * 8 ↔ _
    omega
  by_cases k : nt * nf < 67108864
  · rw [if_pos k]
    exact h.1 (Or.inl fun q => e.1 q k)
  · rw [if_neg k]
    exact h.2 ⟨e.2 k, rfl, rfl⟩

/-- C197: data below 2 GiB when they are de-dispersed, or any data if the limit is to be ignored, are de-dispersed with the measure asked for,
between the tasks before and after; the result is returned or stored as without de-dispersion, and failures are passed on. -/
theorem dedispersed_below (m : ℚ) (ignore toFile : Bool) (a b : List (Cube → Except Err Cube)) (c d : Cube)
    (ha : chain a c = .ok d) (hd : ¬ Large d ∨ ignore = true) :
    (∀ e : Cube, (shift m d).bind (chain b) = .ok e → ¬ Large e ∨ ignore = true ∨ toFile = true →
        getVol shift (some m) ignore toFile (a.map .other ++ .dedisperse :: b.map .other) c = .ok (some e))
      ∧ (∀ e : Cube, (shift m d).bind (chain b) = .ok e → Large e ∧ ignore = false ∧ toFile = false →
        getVol shift (some m) ignore toFile (a.map .other ++ .dedisperse :: b.map .other) c = .ok none)
      ∧ ∀ x : Err, (shift m d).bind (chain b) = .error x →
        getVol shift (some m) ignore toFile (a.map .other ++ .dedisperse :: b.map .other) c = .error x := by
  have key : runVol shift (some m) ignore (a.map .other ++ .dedisperse :: b.map .other) c = (shift m d).bind (chain b) := by
    rw [runVol_around _ _ a b c d ha]
    show (if tooBig ignore d = true then Except.ok d else shift m d).bind (chain b) = _
    rw [if_neg]
    rw [tooBig_iff]
    rintro ⟨h1, h2⟩
    rcases hd with k | k
    · exact k h1
    · rw [h2] at k; cases k
  have last : ∀ e : Cube, (¬ Large e ∨ ignore = true ∨ toFile = true → (if toFile = true then some e else toNumpy ignore e) = some e)
      ∧ (Large e ∧ ignore = false ∧ toFile = false → (if toFile = true then some e else toNumpy ignore e) = none) := by
    intro e
    have h := volume_limit_exact (shift := shift) none ignore toFile [] e e rfl
    exact ⟨fun k => Except.ok.inj (h.1 k), fun k => Except.ok.inj (h.2 k)⟩
  unfold getVol
  rw [key]
  refine ⟨fun e he k => ?_, fun e he k => ?_, fun x hx => ?_⟩
  · rw [he]
    exact congrArg Except.ok ((last e).1 k)
  · rw [he]
    exact congrArg Except.ok ((last e).2 k)
  · rw [hx]
    rfl

/-- C197, violated: data of 2 GiB or more are not de-dispersed, and no exception tells it: whatever the measure, the tasks before and after,
the return value and the stored file are those of the pipeline without de-dispersion. -/
theorem dedispersion_skipped_violated (m : ℚ) (toFile : Bool) (a b : List (Cube → Except Err Cube)) (c d : Cube) (ha : chain a c = .ok d)
    (hd : Large d) :
    getVol shift (some m) false toFile (a.map .other ++ .dedisperse :: b.map .other) c
      = getVol shift none false toFile (a.map .other ++ b.map .other) c := by
  unfold getVol
  rw [runVol_around _ _ a b c d ha, ← List.map_append, runVol_other]
  have e : chain (a ++ b) c = chain b d := by
    have := runVol_append (shift := shift) none false (a.map .other) (b.map .other) c
    rw [← List.map_append, runVol_other, runVol_other, ha] at this
    rw [this]
    exact runVol_other none false b d
  rw [e]
  show ((if tooBig false d = true then Except.ok d else shift m d).bind (chain b)).map _ = _
  rw [if_pos ((tooBig_iff _ _).2 ⟨hd, rfl⟩)]
  rfl

/-- C197, violated: so a reduction of large data returns a result, below the limit and not de-dispersed, if it comes after the de-dispersion,
and a result reduced and then de-dispersed if it comes before. -/
theorem dedispersion_order_violated (m : ℚ) (f : Cube → Except Err Cube) (c d e : Cube) (hf : f c = .ok d) (hc : Large c) (hd : ¬ Large d)
    (hs : shift m d = .ok e) (he : ¬ Large e) :
    getVol shift (some m) false false [.dedisperse, .other f] c = .ok (some d)
      ∧ getVol shift (some m) false false [.other f, .dedisperse] c = .ok (some e) := by
  have hn : ∀ x : Cube, ¬ Large x → toNumpy false x = some x := by
    intro x hx
    unfold toNumpy
    rw [if_neg]
    rw [tooBig_iff]
    exact fun h => hx h.1
  have hf1 : chain [f] c = .ok d := by
    show (f c).bind _ = _
    rw [hf]
    rfl
  constructor
  · have h := dedispersion_skipped_violated (shift := shift) m false [] [f] c c rfl hc
    refine h.trans ?_
    exact (volume_limit_exact (shift := shift) none false false [f] c d hf1).1 (Or.inl hd)
  · unfold getVol
    have h := runVol_around (shift := shift) (some m) false [f] [] c d hf1
    have h' : runVol shift (some m) false [.other f, .dedisperse] c = .ok e := by
      refine h.trans ?_
      show (if tooBig false d = true then Except.ok d else shift m d).bind (chain []) = _
      rw [if_neg (by rw [tooBig_iff]; exact fun h => hd h.1), hs]
      rfl
    rw [h']
    show Except.ok (toNumpy false e) = _
    rw [hn e he]

/-- 65536 spectra of 1024 channels are too large, averaged by 64 in time they are not. -/
example : Large ⟨65536, 1024, 4, 8, fun _ _ _ => some 1⟩ ∧ ¬ Large ⟨1024, 1024, 4, 8, fun _ _ _ => some 1⟩ := by
  constructor
  · show 2147483648 ≤ 65536 * 1024 * 4 * 8
    norm_num
  · show ¬ 2147483648 ≤ 1024 * 1024 * 4 * 8
    norm_num

end Verif.TF
