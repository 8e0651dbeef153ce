import Verif.Contam.Lemmas

/-!
# C111: contamination maps tell where and when bright sources are in the lobes
-/

namespace Verif.Contam

/-- What is received from a cell of the sky: the contributions of the mini-arrays, times the gain of the antenna when it is asked for. -/
def received (s : Setup) (mas : List Nat) (g : Bool) (t f p : Nat) : ℚ :=
  mas.foldr (fun m r => s.maAf m t f p * (bif g then s.gain t f p else 1) + r) 0

theorem rawAf_received : rawAf = received := by
  funext s mas g t f p
  unfold rawAf received
  induction mas with
  | nil => cases g <;> simp
  | cons m mas ih =>
    rw [List.foldr_cons, ← ih, List.map_cons, List.sum_cons]
    cases g <;> simp [add_mul]

/-- The cell `p` of the sky is visible, and receives at least the fraction `rel` of what every cell of the sky receives at that time. -/
def InLobe (s : Setup) (mas : List Nat) (g : Bool) (rel : ℚ) (f t p : Nat) : Prop :=
  0 ≤ s.alt t p ∧ ∀ q, q < s.nPix → rel * received s mas g t f q ≤ received s mas g t f p

/-- At each time something is received from some cell. -/
def Lit (s : Setup) (mas : List Nat) (g : Bool) (f : Nat) : Prop :=
  ∀ t, t < s.time.length → ∃ p, p < s.nPix ∧ 0 < received s mas g t f p

theorem peak_one {s : Setup} {rots : Option (List Int)} {g : Bool} {b : Beam} {r : List Int} (h : newBeam s rots g = .ok b)
    (hr : setRotations rots = .ok r) (hup : ∀ a ∈ s.ptAlt, 0 < a) (hT : s.time ≠ []) {f : Nat} (hlit : Lit s (selectedMas r) g f) :
    peak b f = some 1 := by
  obtain ⟨hs, _, _, r', hr', _, _, hmap⟩ := newBeam_inv h
  rw [hr] at hr'; injection hr' with hr'; subst hr'
  have hT0 : 0 < s.time.length := List.length_pos_iff.2 hT
  have hval : ∀ t, t < s.time.length → ∃ m, 0 < m ∧ (∃ p, p < s.nPix ∧ rawAf s (selectedMas r) g t f p = m) ∧
      (∀ p, p < s.nPix → rawAf s (selectedMas r) g t f p ≤ m) ∧ ∀ p, b.map t f p = some (rawAf s (selectedMas r) g t f p / m) := by
    intro t ht
    obtain ⟨m, h1, h2, h3, h4⟩ := map_up hup (by rw [rawAf_received]; exact hlit t ht)
    exact ⟨m, h1, h2, h3, fun p => by rw [hmap]; exact h4 p⟩
  obtain ⟨m0, hm0, ⟨p0, hp0, e0⟩, hle0, hv0⟩ := hval 0 hT0
  unfold peak
  rw [hv0 0, hs]
  obtain ⟨m, hm, hin, ha, hl⟩ := nanMax_spec ((List.range s.time.length).flatMap fun t => (List.range s.nPix).map fun p => b.map t f p)
    (rawAf s (selectedMas r) g 0 f 0 / m0) (by
      intro y hy
      obtain ⟨t, ht, hy⟩ := List.mem_flatMap.1 hy
      obtain ⟨p, _, rfl⟩ := List.mem_map.1 hy
      obtain ⟨m, _, _, _, hv⟩ := hval t (List.mem_range.1 ht)
      exact ⟨_, hv p⟩)
  rw [hm]
  congr 1
  refine le_antisymm ?_ ?_
  · rcases hin with rfl | hin
    · rw [div_le_one hm0]; exact hle0 0 (by omega)
    · obtain ⟨t, ht, hy⟩ := List.mem_flatMap.1 hin
      obtain ⟨p, hp, e⟩ := List.mem_map.1 hy
      obtain ⟨m', hm', _, hle, hv⟩ := hval t (List.mem_range.1 ht)
      rw [hv p] at e
      injection e with e
      rw [← e, div_le_one hm']
      exact hle p (List.mem_range.1 hp)
  · refine hl 1 (List.mem_flatMap.2 ⟨0, List.mem_range.2 hT0, List.mem_map.2 ⟨p0, List.mem_range.2 hp0, ?_⟩⟩)
    rw [hv0 p0, e0, div_self (ne_of_gt hm0)]

/-- **C111**: when no pointing is below the horizon, the lobes of each time and frequency are exactly the visible cells which receive at least the asked
fraction of the maximum of this time and frequency. -/
theorem lobes_exact_partial (s : Setup) (rots : Option (List Int)) (g : Bool) (b : Beam) (r : List Int) (h : newBeam s rots g = .ok b)
    (hr : setRotations rots = .ok r) (hup : ∀ a ∈ s.ptAlt, 0 < a) (rel : ℚ) (hrel : 0 ≤ rel) (f t : Nat) (ht : t < s.time.length)
    (hlit : Lit s (selectedMas r) g f) (c : Nat) :
    c ∈ lobeCells b rel f t ↔ ∃ p, p < s.nPix ∧ s.cell p = c ∧ InLobe s (selectedMas r) g rel f t p := by
  have hpeak := peak_one h hr hup (by rintro e; rw [e] at ht; simp at ht) hlit
  obtain ⟨hs, _, _, r', hr', _, _, hmap⟩ := newBeam_inv h
  rw [hr] at hr'; injection hr' with hr'; subst hr'
  obtain ⟨m, hm, ⟨q0, hq0, e0⟩, hle, hv⟩ := map_up (g := g) (mas := selectedMas r) (f := f) hup (by rw [rawAf_received]; exact hlit t ht)
  have key : ∀ p, inLobes b rel f t p = true ↔ InLobe s (selectedMas r) g rel f t p := by
    intro p
    unfold inLobes InLobe
    rw [← rawAf_received, hpeak, hmap, hs, Bool.and_eq_true, decide_eq_true_iff]
    dsimp only
    rw [hv p, and_comm]
    refine and_congr_right fun _ => ?_
    show decide ((1 : ℚ) * rel ≤ rawAf s (selectedMas r) g t f p / m) = true ↔ _
    rw [decide_eq_true_iff, one_mul, le_div_iff₀ hm]
    constructor
    · intro h q hq
      exact le_trans (mul_le_mul_of_nonneg_left (hle q hq) hrel) h
    · intro h
      rw [← e0]; exact h q0 hq0
  unfold lobeCells
  rw [List.mem_map, hs]
  constructor
  · rintro ⟨p, hp, e⟩
    obtain ⟨hp, hi⟩ := List.mem_filter.1 hp
    exact ⟨p, List.mem_range.1 hp, e, (key p).1 hi⟩
  · rintro ⟨p, hp, e, hi⟩
    exact ⟨p, List.mem_filter.2 ⟨List.mem_range.2 hp, (key p).2 hi⟩, e⟩

/-- **C111**: the coverage is computed whenever there are times and cells, and the sources are then counted exactly: one for each source whose cell is in the lobes. -/
theorem sources_counted (b : Beam) (rel : ℚ) (src : List (Nat → Nat)) (hT : b.setup.time ≠ []) (hn : b.setup.nPix ≠ 0) :
    ∃ b' out, computeMoc b rel = .ok b' ∧ (sourcesInLobes b' src).2 = .ok out ∧ out.time = b.setup.time ∧ out.freq = b.setup.freq ∧
      ∀ f t, out.value f t = some (((List.range src.length).filter fun i => decide ((src.getD i id) t ∈ lobeCells b rel f t)).length : ℚ) := by
  have e : mocArray b rel = .ok (lobeCells b rel) := if_neg (by tauto)
  refine ⟨{ b with moc := .cells (lobeCells b rel) }, ⟨b.setup.time, b.setup.freq, fun f t => some (countIn (lobeCells b rel f t) src t)⟩, ?_, rfl, rfl, rfl, ?_⟩
  · unfold computeMoc; rw [e]; rfl
  · intro f t
    show some _ = some _
    congr 2
    unfold countIn
    have : src = (List.range src.length).map fun i => src.getD i id := by
      apply List.ext_getElem
      · simp
      · intro i h1 h2
        simp [List.getD_eq_getElem?_getD, List.getElem?_eq_getElem h1]
    conv_lhs => rw [this]
    rw [List.filter_map, List.length_map]
    rfl

/-- **C111**: a lower threshold gives larger lobes, for pointings above the horizon. -/
theorem lobes_grow (s : Setup) (rots : Option (List Int)) (g : Bool) (b : Beam) (r : List Int) (h : newBeam s rots g = .ok b)
    (hr : setRotations rots = .ok r) (hup : ∀ a ∈ s.ptAlt, 0 < a) (lo hi : ℚ) (hlh : lo ≤ hi) (f t : Nat) (ht : t < s.time.length)
    (hlit : Lit s (selectedMas r) g f) (c : Nat) (hc : c ∈ lobeCells b hi f t) : c ∈ lobeCells b lo f t := by
  have hpeak := peak_one h hr hup (by rintro e; rw [e] at ht; simp at ht) hlit
  obtain ⟨p, hp, e⟩ := List.mem_map.1 hc
  obtain ⟨hp, hi'⟩ := List.mem_filter.1 hp
  refine List.mem_map.2 ⟨p, List.mem_filter.2 ⟨hp, ?_⟩, e⟩
  unfold inLobes at hi' ⊢
  rw [hpeak] at hi' ⊢
  rw [Bool.and_eq_true] at hi' ⊢
  refine ⟨?_, hi'.2⟩
  obtain ⟨a, ha, h1⟩ := (Option.any_eq_true _ _).1 hi'.1
  refine (Option.any_eq_true _ _).2 ⟨a, ha, ?_⟩
  have h1 : (1 : ℚ) * hi ≤ a := of_decide_eq_true h1
  exact decide_eq_true (by linarith : (1 : ℚ) * lo ≤ a)

/-- **C111**: a weight is the fraction of the thresholds for which some source is in the lobes; it lies between 0 and 1, and it is 0 exactly when no source is in any of the lobes. -/
theorem weights_exact (b : Beam) (src : List (Nat → Nat)) (thrs : List ℚ) (ht : thrs ≠ []) (hT : b.setup.time ≠ []) (hn : b.setup.nPix ≠ 0) :
    ∃ b' out, computeWeights b src thrs = .ok (b', out) ∧ out.time = b.setup.time ∧ out.freq = b.setup.freq ∧ ∀ f t, ∃ w, out.value f t = some w ∧
      w * thrs.length = ((thrs.filter fun r => src.any fun s => decide (s t ∈ lobeCells b r f t)).length : ℚ) ∧ 0 ≤ w ∧ w ≤ 1 ∧
      (w = 0 ↔ ∀ r ∈ thrs, ∀ s ∈ src, s t ∉ lobeCells b r f t) := by
  have hlen : (0 : ℚ) < thrs.length := by exact_mod_cast List.length_pos_iff.2 ht
  have e : computeWeights b src thrs = .ok ({ b with moc := .flags fun f t => (weight b src thrs f t).any fun w => decide (0 < w) },
    ⟨b.setup.time, b.setup.freq, weight b src thrs⟩) := if_neg (by tauto)
  refine ⟨_, _, e, rfl, rfl, fun f t => ⟨((thrs.filter fun r => anyIn b src f t r).length : ℚ) / thrs.length, if_neg ht, ?_, ?_, ?_, ?_⟩⟩
  · rw [div_mul_cancel₀ _ (ne_of_gt hlen)]; rfl
  · positivity
  · rw [div_le_one hlen]; exact_mod_cast List.length_filter_le _ _
  · rw [div_eq_zero_iff, or_iff_left (ne_of_gt hlen), Nat.cast_eq_zero, List.length_eq_zero_iff, List.filter_eq_nil_iff]
    constructor
    · intro h r hr s hs hin
      exact h r hr (List.any_eq_true.2 ⟨s, hs, decide_eq_true hin⟩)
    · intro h r hr ha
      obtain ⟨s, hs, hin⟩ := List.any_eq_true.1 ha
      exact h r hr s hs (of_decide_eq_true hin)

/-- **C111**: the sky model is reported at a time and frequency exactly when one of its bright cells is in the lobes. -/
theorem model_reported (b : Beam) (rel : ℚ) (gsm : Nat → List Nat) (hT : b.setup.time ≠ []) (hn : b.setup.nPix ≠ 0) :
    ∃ b' out, computeMoc b rel = .ok b' ∧ (gsmInLobes b' gsm).2 = .ok out ∧
      ∀ f t, (out.value f t = some 1 ∧ ∃ c, c ∈ lobeCells b rel f t ∧ c ∈ gsm f) ∨
        (out.value f t = some 0 ∧ ∀ c, c ∈ lobeCells b rel f t → c ∉ gsm f) := by
  have e : mocArray b rel = .ok (lobeCells b rel) := if_neg (by tauto)
  refine ⟨{ b with moc := .cells (lobeCells b rel) },
    ⟨b.setup.time, b.setup.freq, fun f t => some (if (lobeCells b rel f t).any fun x => decide (x ∈ gsm f) then 1 else 0)⟩, ?_, rfl, ?_⟩
  · unfold computeMoc; rw [e]; rfl
  · intro f t
    by_cases h : ((lobeCells b rel f t).any fun x => decide (x ∈ gsm f)) = true
    · obtain ⟨c, hc, hg⟩ := List.any_eq_true.1 h
      exact Or.inl ⟨congrArg some (if_pos h), c, hc, of_decide_eq_true hg⟩
    · refine Or.inr ⟨congrArg some (if_neg h), fun c hc hg => h (List.any_eq_true.2 ⟨c, hc, decide_eq_true hg⟩)⟩

/-! ## Rotations -/

/-- **C111**: rotations are accepted exactly when they are multiples of 10 degrees; they are kept modulo 60 degrees, in increasing order, each of them once. -/
theorem rotations_kept (mr : List Int) :
    ((∃ r, setRotations (some mr) = .ok r) ↔ ∀ x ∈ mr, x % 10 = 0) ∧
    ∀ r, setRotations (some mr) = .ok r → r.Pairwise (· < ·) ∧ ∀ y, y ∈ r ↔ ∃ x ∈ mr, x % 60 = y := by
  by_cases h : (mr.all fun r => decide (r % 10 = 0)) = true
  · have hall : ∀ x ∈ mr, x % 10 = 0 := fun x hx => of_decide_eq_true (List.all_eq_true.1 h x hx)
    have e : setRotations (some mr) = .ok ((mr.map fun r => r % 60).dedup.insertionSort (· ≤ ·)) := if_pos h
    refine ⟨⟨fun _ => hall, fun _ => ⟨_, e⟩⟩, fun r hr => ?_⟩
    rw [e] at hr; injection hr with hr; subst hr
    constructor
    · have h1 := List.pairwise_insertionSort (· ≤ ·) (mr.map fun r => r % 60).dedup
      have h2 : ((mr.map fun r => r % 60).dedup.insertionSort (· ≤ ·)).Nodup :=
        (List.perm_insertionSort _ _).nodup_iff.2 (List.nodup_dedup _)
      exact (h1.and h2).imp fun h => lt_of_le_of_ne h.1 h.2
    · intro y
      rw [(List.perm_insertionSort (· ≤ ·) _).mem_iff, List.mem_dedup, List.mem_map]
  · have e : setRotations (some mr) = .error .valueError := if_neg h
    refine ⟨⟨fun ⟨r, hr⟩ => (by rw [e] at hr; cases hr), fun hall => absurd (List.all_eq_true.2 fun x hx => decide_eq_true (hall x hx)) h⟩,
      fun r hr => by rw [e] at hr; cases hr⟩

/-- **C111**: a mini-array of the table is summed exactly when its rotation is asked for, up to 60 degrees; each asked rotation has its mini-array. -/
theorem rotations_summed (mr r : List Int) (h : setRotations (some mr) = .ok r) :
    (∀ m rot, (m, rot) ∈ maTable → (m ∈ selectedMas r ↔ ∃ x ∈ mr, x % 60 = rot)) ∧
    (∀ x ∈ mr, ∃ m ∈ selectedMas r, (m, x % 60) ∈ maTable) := by
  have hmem := ((rotations_kept mr).2 r h).2
  have hten := (rotations_kept mr).1.1 ⟨r, h⟩
  have hsel : ∀ m, m ∈ selectedMas r ↔ ∃ rot, (m, rot) ∈ maTable ∧ rot ∈ r := by
    intro m
    unfold selectedMas
    rw [List.mem_map]
    constructor
    · rintro ⟨⟨m', rot⟩, he, rfl⟩
      obtain ⟨h1, h2⟩ := List.mem_filter.1 he
      exact ⟨rot, h1, of_decide_eq_true h2⟩
    · rintro ⟨rot, h1, h2⟩
      exact ⟨(m, rot), List.mem_filter.2 ⟨h1, decide_eq_true h2⟩, rfl⟩
  have huniq : ∀ e1 ∈ maTable, ∀ e2 ∈ maTable, e1.1 = e2.1 → e1.2 = e2.2 := by decide
  refine ⟨fun m rot hm => ?_, fun x hx => ?_⟩
  · rw [hsel, ← hmem]
    constructor
    · rintro ⟨rot', h1, h2⟩
      have : rot = rot' := huniq (m, rot) hm (m, rot') h1 rfl
      rw [this]; exact h2
    · exact fun h => ⟨rot, hm, h⟩
  · have h10 := hten x hx
    have hcases : x % 60 = 0 ∨ x % 60 = 10 ∨ x % 60 = 20 ∨ x % 60 = 30 ∨ x % 60 = 40 ∨ x % 60 = 50 := by omega
    have hin : ∃ m, (m, x % 60) ∈ maTable := by
      rcases hcases with e | e | e | e | e | e <;> rw [e]
      · exact ⟨0, by decide⟩
      · exact ⟨11, by decide⟩
      · exact ⟨3, by decide⟩
      · exact ⟨1, by decide⟩
      · exact ⟨13, by decide⟩
      · exact ⟨7, by decide⟩
    obtain ⟨m, hm⟩ := hin
    exact ⟨m, (hsel m).2 ⟨_, hm, (hmem _).2 ⟨x, hx, rfl⟩⟩, hm⟩

/-- **C111**: by default all six rotations are summed. -/
theorem rotations_default : ∃ r, setRotations none = .ok r ∧ selectedMas r = [0, 1, 3, 7, 11, 13] := ⟨_, rfl, by decide⟩

/-- **C111**, violated: an empty list of rotations is accepted, and the computation then stops on an undefined variable or on a missing method. -/
theorem rotations_empty_violated (s : Setup) :
    newBeam s (some []) true = .error .unboundLocal ∧ newBeam s (some []) false = .error .attributeError := ⟨rfl, rfl⟩

/-! ## What goes wrong -/

/-- **C111**, violated: one pointing at or below the horizon empties the lobes of all times and frequencies, whatever the threshold, so that no source is ever found. -/
theorem horizon_violated (s : Setup) (rots : Option (List Int)) (g : Bool) (b : Beam) (h : newBeam s rots g = .ok b) (t0 : Nat) (a : ℚ)
    (ha : s.ptAlt[t0]? = some a) (hlow : a ≤ 0) (hn : s.nPix ≠ 0) (rel : ℚ) (f t : Nat) : lobeCells b rel f t = [] := by
  obtain ⟨hs, _, _, r, hr, _, hlen, hmap⟩ := newBeam_inv h
  have hany : (s.ptAlt.any fun a => decide (a ≤ 0)) = true :=
    List.any_eq_true.2 ⟨a, List.mem_of_getElem? ha, decide_eq_true hlow⟩
  have hlen : s.ptAlt.length = s.time.length := by by_contra hne; exact hlen ⟨hany, hne⟩
  have ht0 : t0 < s.time.length := by
    rw [← hlen]
    exact (List.getElem?_eq_some_iff.1 ha).1
  have hnone : b.map t0 f 0 = none := by
    rw [hmap]
    have : maskedAf s (selectedMas r) g t0 f 0 = none := by
      unfold maskedAf
      rw [if_pos]
      rw [ha]; exact decide_eq_true hlow
    dsimp only
    rw [this]; rfl
  have hpeak : peak b f = none := by
    unfold peak
    rw [hs]
    refine nanMax_mem_none _ _ (List.mem_flatMap.2 ⟨t0, List.mem_range.2 ht0, List.mem_map.2 ⟨0, List.mem_range.2 (Nat.pos_of_ne_zero hn), hnone⟩⟩)
  unfold lobeCells
  have : ∀ p, inLobes b rel f t p = false := by
    intro p
    unfold inLobes
    rw [hpeak]
    have : atLeast (b.map t f p) (Option.map (fun m => m * rel) none) = false := by
      cases b.map t f p <;> rfl
    rw [this]; rfl
  rw [List.filter_eq_nil_iff.2 fun p _ => by rw [this]; exact Bool.false_ne_true]
  rfl

/-- Two times, one frequency, two cells; the array factors of mini-array 0 point to cell 0 and the second cell receives half of it. -/
def demo (alts : List ℚ) : Setup where
  time := [0, 1]
  freq := [50]
  nPix := 2
  ptAlt := alts
  maAf := fun _ _ _ p => if p = 0 then 4 else 2
  gain := fun _ _ _ => 1
  alt := fun _ _ => 45
  cell := fun p => p + 100

/-- Cells in the lobes of the demonstration. -/
def demoLobes (alts : List ℚ) (rel : ℚ) (t : Nat) : Option (List Nat) := (newBeam (demo alts) (some [0]) true).toOption.map fun b => lobeCells b rel 0 t

example : demoLobes [30, 30] (1/2) 0 = some [100, 101] := by decide +kernel
example : demoLobes [30, 30] (51/100) 1 = some [100] := by decide +kernel
/-- The target sets before the second time: the lobes of the first time are lost. -/
example : demoLobes [30, 0] (1/2) 0 = some [] := by decide +kernel

/-- The hypotheses of `lobes_exact_partial` and `lobes_grow` hold for the demonstration. -/
example : ∃ b, newBeam (demo [30, 30]) (some [0]) true = .ok b ∧ setRotations (some [0]) = .ok [0] ∧ (∀ a ∈ (demo [30, 30]).ptAlt, 0 < a) ∧
    Lit (demo [30, 30]) (selectedMas [0]) true 0 :=
  ⟨_, rfl, rfl, by decide, fun t _ => ⟨0, by decide, by
    rw [← rawAf_received]
    show (0 : ℚ) < ([0].map fun m => (4 : ℚ)).sum * 1
    norm_num⟩⟩

/-- **C111**, violated: when a pointing is not above the horizon and there are not as many pointings as times, no `BeamLobes` can be made. -/
theorem pointings_violated (s : Setup) (rots : Option (List Int)) (g : Bool) (a : ℚ) (ha : a ∈ s.ptAlt) (hlow : a ≤ 0)
    (hlen : s.ptAlt.length ≠ s.time.length) : ¬ ∃ b, newBeam s rots g = .ok b := by
  rintro ⟨b, h⟩
  obtain ⟨_, _, _, r, _, _, hc, _⟩ := newBeam_inv h
  exact hc ⟨List.any_eq_true.2 ⟨a, ha, decide_eq_true hlow⟩, hlen⟩

example : (-1 : ℚ) ∈ (demo [-1]).ptAlt ∧ (demo [-1]).ptAlt.length ≠ (demo [-1]).time.length := ⟨List.mem_cons_self, by decide⟩

/-- **C111**, violated: weights replace the lobes by truth values; sources can no longer be searched, until the lobes are computed again. -/
theorem weights_then_sources_violated (b b' : Beam) (src src' : List (Nat → Nat)) (thrs : List ℚ) (out : Sil) (hT : b.setup.time ≠ []) (hF : b.setup.freq ≠ [])
    (h : computeWeights b src thrs = .ok (b', out)) (gsm : Nat → List Nat) :
    (sourcesInLobes b' src').2 = .error .attributeError ∧ (gsmInLobes b' gsm).2 = .error .attributeError := by
  unfold computeWeights at h
  by_cases hc : thrs ≠ [] ∧ b.setup.freq ≠ [] ∧ (b.setup.time = [] ∨ b.setup.nPix = 0)
  · rw [if_pos hc] at h; cases h
  rw [if_neg hc] at h
  injection h with h
  injection h with h1 h2
  subst h1
  have hcond : ¬ (b.setup.freq = [] ∨ b.setup.time = []) := by tauto
  refine ⟨if_neg hcond, ?_⟩
  show (ite (b.setup.freq = [] ∨ b.setup.time = []) _ _ : Beam × Except Err Sil).2 = _
  rw [if_neg hcond]

example : ∃ b b' out, newBeam (demo [30, 30]) (some [0]) true = .ok b ∧ computeWeights b [fun _ => 101] [1/10, 9/10] = .ok (b', out) ∧
    out.value 0 0 = some (1/2) := ⟨_, _, _, rfl, rfl, by decide +kernel⟩

/-- **C111**, violated: lobes which have just been computed cannot be drawn; a search for sources has to come first, although nothing has to be found. -/
theorem plot_first_violated (s : Setup) (rots : Option (List Int)) (g : Bool) (b b' : Beam) (rel : ℚ) (h : newBeam s rots g = .ok b)
    (hm : computeMoc b rel = .ok b') : plotReady b = .error .typeError ∧ plotReady b' = .error .keyError ∧ plotReady (sourcesInLobes b' []).1 = .ok () := by
  obtain ⟨_, hmoc, hshown, _⟩ := newBeam_inv h
  obtain ⟨c, _, rfl⟩ := mapC hm
  refine ⟨?_, ?_, rfl⟩
  · unfold plotReady; rw [hmoc]
  · exact if_pos hshown

/-- **C111**: on an increasing axis, the sample drawn is the first one which is not before the asked value; the last sample when all are before. -/
theorem plot_index (axis : List ℚ) (x : ℚ) :
    (∀ i : Nat, plotIndex axis x = i → (∃ y, axis[i]? = some y ∧ x ≤ y) ∧ ∀ j : Nat, j < i → ∀ y, axis[j]? = some y → y < x) ∧
    (plotIndex axis x = -1 ↔ ∀ y ∈ axis, y < x) ∧ (plotIndex axis x = -1 ∨ 0 ≤ plotIndex axis x) := by
  by_cases h : (axis.any fun y => decide (x ≤ y)) = true
  · have e : plotIndex axis x = (axis.findIdx fun y => decide (x ≤ y) : Nat) := if_pos h
    obtain ⟨y, hy, hxy⟩ := List.any_eq_true.1 h
    have hlt : (axis.findIdx fun y => decide (x ≤ y)) < axis.length := List.findIdx_lt_length_of_exists ⟨y, hy, hxy⟩
    refine ⟨fun i hi => ?_, ⟨fun h1 => ?_, fun h1 => ?_⟩, Or.inr (by rw [e]; exact Int.natCast_nonneg _)⟩
    · rw [e] at hi
      have hi : (axis.findIdx fun y => decide (x ≤ y)) = i := by exact_mod_cast hi
      subst hi
      refine ⟨⟨_, List.getElem?_eq_getElem hlt, ?_⟩, ?_⟩
      · exact of_decide_eq_true (List.findIdx_getElem (w := hlt))
      · intro j hj z hz
        have hjl : j < axis.length := by omega
        rw [List.getElem?_eq_getElem hjl] at hz
        injection hz with hz
        have := List.not_of_lt_findIdx hj
        rw [hz] at this
        simpa using this
    · rw [e] at h1; omega
    · have := of_decide_eq_true hxy
      have := h1 y hy
      linarith
  · have e : plotIndex axis x = -1 := if_neg h
    refine ⟨fun i hi => by rw [e] at hi; omega, ⟨fun _ y hy => ?_, fun _ => e⟩, Or.inl e⟩
    by_contra hc
    exact h (List.any_eq_true.2 ⟨y, hy, decide_eq_true (not_lt.1 hc)⟩)

end Verif.Contam
