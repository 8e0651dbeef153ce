import Verif.Geom.Lambert
import Mathlib.Tactic.Linarith
import Mathlib.Tactic.NormNum

/-!
# C164: conversions of positions

A conversion returns the converted positions and leaves the positions which were given as they are.
-/

namespace Verif.Geom

/-- An array of decimal numbers with `n` rows of three coordinates: the positions `l`. -/
noncomputable def positions (l : List V3) : Held := ⟨false, .two 3 (l.map (rowOf false))⟩

theorem triple_rowOf (p : V3) : triple (rowOf false p) = p := rfl

theorem rowOf_inj {p q : V3} (h : rowOf false p = rowOf false q) : p = q := by
  rw [← triple_rowOf p, h, triple_rowOf]

theorem positions_inj {l m : List V3} (h : positions l = positions m) : l = m := by
  have e : l.map (rowOf false) = m.map (rowOf false) := by
    have := congrArg (fun a : Held => threeCols a.val) h
    exact Option.some.inj this
  exact List.map_injective_iff.2 (fun _ _ => rowOf_inj) e

theorem convert_positions (P : V3 → V3) (l : List V3) :
    convertHeld P (positions l) = some (positions (l.map P)) := by
  show some (⟨false, _⟩ : Held) = _
  congr 1
  show (⟨false, .two 3 _⟩ : Held) = ⟨false, .two 3 _⟩
  congr 2
  rw [List.map_map, List.map_map]
  rfl

/-- C164, values. Positions of shape `(n, 3)` with decimal numbers are converted one by one, and every
other shape is refused without touching the memory. -/
theorem etrs_exact_partial (P : V3 → V3) (h : Heap) (r : Nat) (l : List V3)
    (hr : h.get r = positions l) :
    ∃ h' : Heap, l93ToEtrs P h r = .ok (h', r) ∧ h'.get r = positions (l.map P)
      ∧ ∀ s : Nat, s ≠ r → h'.get s = h.get s := by
  refine ⟨h.set r (positions (l.map P)), ?_, ?_, ?_⟩
  · unfold l93ToEtrs
    rw [hr, convert_positions]
    rfl
  · exact if_pos rfl
  · intro s hs
    exact if_neg hs

/-- C164, refusals of `l93_to_etrs`: exactly the arrays which do not have three columns. -/
theorem etrs_refused (P : V3 → V3) (h : Heap) (r : Nat) :
    (∃ e : Err, l93ToEtrs P h r = .error e)
      ↔ (∃ v : List ℝ, (h.get r).val = .one v) ∨ ∃ (c : Nat) (rows : List (List ℝ)), (h.get r).val = .two c rows ∧ c ≠ 3 := by
  unfold l93ToEtrs convertHeld
  cases hv : (h.get r).val with
  | one v =>
    exact ⟨fun _ => Or.inl ⟨v, rfl⟩, fun _ => ⟨Err.valueError, rfl⟩⟩
  | two c rows =>
    by_cases hc : c = 3
    · constructor
      · rintro ⟨e, he⟩
        exfalso
        have t : threeCols (Arr.two c rows) = some rows := if_pos hc
        rw [t] at he
        cases he
      · rintro (⟨v, hv'⟩ | ⟨c', rows', he, hne⟩)
        · cases hv'
        · cases he
          exact absurd hc hne
    · have t : threeCols (Arr.two c rows) = none := if_neg hc
      rw [t]
      exact ⟨fun _ => Or.inr ⟨c, rows, rfl, hc⟩, fun _ => ⟨Err.valueError, rfl⟩⟩

/-- C164, violated by `l93_to_etrs`: the result is the given array itself, so that the given positions
are lost as soon as the conversion moves one of them. -/
theorem etrs_overwrites_violated (P : V3 → V3) (h : Heap) (r : Nat) (l : List V3)
    (hr : h.get r = positions l) (p : V3) (hp : p ∈ l) (hm : P p ≠ p) :
    ∃ h' : Heap, l93ToEtrs P h r = .ok (h', r) ∧ h'.get r ≠ h.get r := by
  obtain ⟨h', e, g, -⟩ := etrs_exact_partial P h r l hr
  refine ⟨h', e, fun hh => hm ?_⟩
  rw [g, hr] at hh
  have := positions_inj hh
  have fix : ∀ q ∈ l, P q = q := by
    have e2 : l.map P = l.map id := by rw [List.map_id]; exact this
    exact fun q hq => (List.map_inj_left.1 e2) q hq
  exact fix p hp

/-- C164, violated: converting the same positions a second time converts the result of the first time. -/
theorem etrs_twice_violated (P : V3 → V3) (h : Heap) (r : Nat) (l : List V3)
    (hr : h.get r = positions l) :
    ∃ h₁ h₂ : Heap, l93ToEtrs P h r = .ok (h₁, r) ∧ l93ToEtrs P h₁ r = .ok (h₂, r)
      ∧ h₂.get r = positions (l.map fun p : V3 => P (P p)) := by
  obtain ⟨h₁, e₁, g₁, -⟩ := etrs_exact_partial P h r l hr
  obtain ⟨h₂, e₂, g₂, -⟩ := etrs_exact_partial P h₁ r _ g₁
  refine ⟨h₁, h₂, e₁, e₂, ?_⟩
  rw [g₂, List.map_map]
  rfl

/-- C164, violated: after any number of calls the array holds positions converted as many times. -/
theorem etrs_times_violated (P : V3 → V3) (n : Nat) (h : Heap) (r : Nat) (l : List V3)
    (hr : h.get r = positions l) :
    (posCalls P (List.replicate n (.etrs r)) h).get r = positions (l.map (P^[n])) := by
  induction n generalizing h l with
  | zero =>
    show h.get r = positions (l.map id)
    rw [List.map_id, hr]
  | succ n ih =>
    obtain ⟨h₁, e₁, g₁, -⟩ := etrs_exact_partial P h r l hr
    have a : (PosCall.etrs r).after P h = h₁ := by
      show ((l93ToEtrs P h r).toOption.map fun x : Heap × Nat => x.1).getD h = h₁
      rw [e₁]
      rfl
    show (posCalls P (List.replicate n (.etrs r)) ((PosCall.etrs r).after P h)).get r = _
    rw [a, ih h₁ _ g₁, List.map_map]
    rfl

/-- C164, violated: after a conversion to ETRS the geographic positions of the same interferometer are
those of other places, one by one, when the conversion moves the positions and different positions have
different geographic coordinates. -/
theorem etrs_then_geo_violated (P G : V3 → V3) (h : Heap) (r : Nat) (p : V3)
    (hr : h.get r = positions [p]) (hm : P p ≠ p) (hG : Function.Injective G) :
    ∃ (h' : Heap) (a b : V3), l93ToEtrs P h r = .ok (h', r)
      ∧ l93ToGeo G (h.get r).val = .ok (.many [a]) ∧ l93ToGeo G (h'.get r).val = .ok (.many [b])
      ∧ a = G p ∧ b = G (P p) ∧ a ≠ b := by
  obtain ⟨h', e, g, -⟩ := etrs_exact_partial P h r _ hr
  refine ⟨h', G p, G (P p), e, ?_, ?_, rfl, rfl, fun hh => hm (hG hh).symm⟩
  · rw [hr]; rfl
  · rw [g]; rfl

theorem towardsZero_near (x : ℝ) : |towardsZero x - x| < 1 ∧ |towardsZero x| ≤ |x| := by
  unfold towardsZero
  by_cases hx : 0 ≤ x
  · rw [if_pos hx]
    have h1 := Int.floor_le x
    have h2 := Int.lt_floor_add_one x
    have h3 : (0 : ℝ) ≤ (⌊x⌋ : ℝ) := by exact_mod_cast Int.floor_nonneg.2 hx
    rw [abs_of_nonneg hx, abs_of_nonneg h3]
    exact ⟨abs_lt.2 ⟨by linarith, by linarith⟩, h1⟩
  · rw [if_neg hx]
    have hx' : x < 0 := not_le.1 hx
    have h1 := Int.le_ceil x
    have h2 := Int.ceil_lt_add_one x
    have h3 : (⌈x⌉ : ℝ) ≤ 0 := by exact_mod_cast Int.ceil_le.2 (by simpa using hx'.le)
    rw [abs_of_neg hx', abs_of_nonpos h3]
    exact ⟨abs_lt.2 ⟨by linarith, by linarith⟩, by linarith⟩

/-- C164, violated: positions given as integers are converted to integers. Each coordinate of the result
is an integer, less than a metre away from the true one and never further from zero. -/
theorem etrs_whole_violated (P : V3 → V3) (h : Heap) (r : Nat) (row : List ℝ)
    (hr : h.get r = ⟨true, .two 3 [row]⟩) :
    ∃ (h' : Heap) (a b c : ℝ), l93ToEtrs P h r = .ok (h', r) ∧ h'.get r = ⟨true, .two 3 [[a, b, c]]⟩
      ∧ (|a - (P (triple row)).x| < 1 ∧ |a| ≤ |(P (triple row)).x| ∧ ∃ n : ℤ, a = n)
      ∧ (|b - (P (triple row)).y| < 1 ∧ |b| ≤ |(P (triple row)).y| ∧ ∃ n : ℤ, b = n)
      ∧ (|c - (P (triple row)).z| < 1 ∧ |c| ≤ |(P (triple row)).z| ∧ ∃ n : ℤ, c = n) := by
  have w : ∀ x : ℝ, ∃ n : ℤ, towardsZero x = n := by
    intro x
    unfold towardsZero
    split_ifs
    · exact ⟨_, rfl⟩
    · exact ⟨_, rfl⟩
  refine ⟨h.set r ⟨true, .two 3 [rowOf true (P (triple row))]⟩, towardsZero (P (triple row)).x,
    towardsZero (P (triple row)).y, towardsZero (P (triple row)).z, ?_, ?_,
    ⟨(towardsZero_near _).1, (towardsZero_near _).2, w _⟩, ⟨(towardsZero_near _).1, (towardsZero_near _).2, w _⟩,
    ⟨(towardsZero_near _).1, (towardsZero_near _).2, w _⟩⟩
  · unfold l93ToEtrs
    rw [hr]
    rfl
  · show (if r = r then _ else _) = _
    rw [if_pos rfl]
    rfl

/-- C164, the positions in ITRF of an interferometer: converted one by one into a new array, and
everything which was in memory stays as it was. -/
theorem itrf_exact (P : V3 → V3) (h : Heap) (r : Nat) (l : List V3) (hr : h.get r = positions l) :
    ∃ (h' : Heap) (s : Nat), toItrf P h r = .ok (h', s) ∧ h'.get s = positions (l.map P) ∧ h.next ≤ s
      ∧ s < h'.next ∧ ∀ q : Nat, q < h.next → h'.get q = h.get q := by
  refine ⟨h.alloc (positions (l.map P)), h.next, ?_, ?_, le_rfl, Nat.lt_succ_self _, ?_⟩
  · unfold toItrf
    rw [hr, convert_positions]
    rfl
  · exact if_pos rfl
  · intro q hq
    exact if_neg (Nat.ne_of_lt hq)

/-- The memory only grows and `l93_to_etrs` is the only call which changes an array that somebody
holds. -/
theorem call_keeps (P : V3 → V3) (h : Heap) (c : PosCall) :
    h.next ≤ (c.after P h).next
      ∧ ∀ r : Nat, r < h.next → (∀ s : Nat, c = .etrs s → s ≠ r) → (c.after P h).get r = h.get r := by
  cases c with
  | etrs s =>
    show h.next ≤ (((l93ToEtrs P h s).toOption.map fun x : Heap × Nat => x.1).getD h).next
      ∧ ∀ r : Nat, r < h.next → _ → (((l93ToEtrs P h s).toOption.map fun x : Heap × Nat => x.1).getD h).get r = h.get r
    unfold l93ToEtrs
    cases convertHeld P (h.get s) with
    | none => exact ⟨le_rfl, fun _ _ _ => rfl⟩
    | some a => exact ⟨le_rfl, fun r _ hne => if_neg (hne s rfl).symm⟩
  | itrf s =>
    show h.next ≤ (((toItrf P h s).toOption.map fun x : Heap × Nat => x.1).getD h).next
      ∧ ∀ r : Nat, r < h.next → _ → (((toItrf P h s).toOption.map fun x : Heap × Nat => x.1).getD h).get r = h.get r
    unfold toItrf
    cases convertHeld P (h.get s) with
    | none => exact ⟨le_rfl, fun _ _ _ => rfl⟩
    | some a => exact ⟨Nat.le_succ _, fun r hr _ => if_neg (Nat.ne_of_lt hr)⟩
  | geo s => exact ⟨le_rfl, fun _ _ _ => rfl⟩
  | orn s => exact ⟨le_rfl, fun _ _ _ => rfl⟩
  | cut s keep =>
    show h.next ≤ (((cutEtrs P h s keep).toOption.map fun x : Heap × Nat => x.1).getD h).next
      ∧ ∀ r : Nat, r < h.next → _ → (((cutEtrs P h s keep).toOption.map fun x : Heap × Nat => x.1).getD h).get r = h.get r
    unfold cutEtrs l93ToEtrs
    generalize (h.alloc ⟨(h.get s).whole, cutRows keep (h.get s).val⟩).get h.next = x
    cases convertHeld P x with
    | none => exact ⟨le_rfl, fun _ _ _ => rfl⟩
    | some a =>
      refine ⟨Nat.le_succ _, fun r hr _ => ?_⟩
      show (if r = h.next then a else if r = h.next then _ else h.get r) = h.get r
      rw [if_neg (Nat.ne_of_lt hr), if_neg (Nat.ne_of_lt hr)]

/-- C164, after any series of conversions in which `l93_to_etrs` is not called on an array itself, this
array is as it was. The conversions of selected antennas (the near-field images) and the coordinates of
the interferometer are of this kind. -/
theorem positions_kept_partial (P : V3 → V3) (calls : List PosCall) (h : Heap) (r : Nat)
    (hr : r < h.next) (hc : ∀ s : Nat, PosCall.etrs s ∈ calls → s ≠ r) :
    (posCalls P calls h).get r = h.get r := by
  induction calls generalizing h with
  | nil => rfl
  | cons c l ih =>
    have k := call_keeps P h c
    show (posCalls P l (c.after P h)).get r = _
    rw [ih (c.after P h) (lt_of_lt_of_le hr k.1) (fun s hs => hc s (List.mem_cons_of_mem _ hs))]
    exact k.2 r hr fun s hs => hc s (hs ▸ List.mem_cons_self)

/-- The positions of the antennas of which the rank is kept, in order. -/
def keptOf (keep : Nat → Bool) (l : List V3) : List V3 :=
  (l.zipIdx.filter fun x : V3 × Nat => keep x.2).map fun x : V3 × Nat => x.1

theorem cut_rows_from (keep : Nat → Bool) (l : List V3) (k : Nat) :
    (((l.map (rowOf false)).zipIdx k).filter fun x : List ℝ × Nat => keep x.2).map (fun x : List ℝ × Nat => x.1)
      = (((l.zipIdx k).filter fun x : V3 × Nat => keep x.2).map fun x : V3 × Nat => x.1).map (rowOf false) := by
  induction l generalizing k with
  | nil => rfl
  | cons a l ih =>
    rw [List.map_cons, List.zipIdx_cons, List.zipIdx_cons]
    by_cases hk : keep k = true
    · rw [List.filter_cons_of_pos (p := fun x : List ℝ × Nat => keep x.2) hk,
        List.filter_cons_of_pos (p := fun x : V3 × Nat => keep x.2) hk, List.map_cons, List.map_cons, List.map_cons, ih]
    · rw [List.filter_cons_of_neg (p := fun x : List ℝ × Nat => keep x.2) hk,
        List.filter_cons_of_neg (p := fun x : V3 × Nat => keep x.2) hk, ih]

theorem cut_positions (keep : Nat → Bool) (l : List V3) :
    cutRows keep (positions l).val = (positions (keptOf keep l)).val :=
  congrArg (Arr.two 3) (cut_rows_from keep l 0)

/-- C164, selected antennas: the positions of the kept antennas are converted one by one in their order,
and the positions of the interferometer stay as they are. -/
theorem selected_etrs (P : V3 → V3) (h : Heap) (r : Nat) (l : List V3) (keep : Nat → Bool)
    (hn : r < h.next) (hr : h.get r = positions l) :
    ∃ (h' : Heap) (s : Nat), cutEtrs P h r keep = .ok (h', s) ∧ h'.get s = positions ((keptOf keep l).map P)
      ∧ h'.get r = h.get r := by
  have hg : (h.alloc ⟨(h.get r).whole, cutRows keep (h.get r).val⟩).get h.next = positions (keptOf keep l) := by
    show (if h.next = h.next then _ else _) = _
    rw [if_pos rfl, hr, cut_positions]
    rfl
  obtain ⟨h', e, g, o⟩ := etrs_exact_partial P _ h.next _ hg
  refine ⟨h', h.next, e, g, ?_⟩
  rw [o r (Nat.ne_of_lt hn)]
  exact if_neg (Nat.ne_of_lt hn)

/-- C164, geographic coordinates: one position gives one location, `n` positions give `n` locations in
their order, and exactly the arrays with fewer than three columns or one row of another length are
refused. -/
theorem geo_exact (G : V3 → V3) :
    (∀ p : V3, l93ToGeo G (.one (rowOf false p)) = .ok (.single (G p)))
      ∧ (∀ l : List V3, l93ToGeo G (positions l).val = .ok (.many (l.map G)))
      ∧ (∀ v : List ℝ, v.length ≠ 3 → l93ToGeo G (.one v) = .error .indexError)
      ∧ (∀ (c : Nat) (rows : List (List ℝ)), c < 3 → l93ToGeo G (.two c rows) = .error .indexError)
      ∧ (∀ (c : Nat) (rows : List (List ℝ)), 3 ≤ c → ∃ l : List V3, l93ToGeo G (.two c rows) = .ok (.many l)
          ∧ l.length = rows.length) := by
  refine ⟨fun p => rfl, fun l => ?_, fun v hv => ?_, fun c rows hc => ?_, fun c rows hc => ?_⟩
  · show (if 3 < 3 then Except.error Err.indexError else Except.ok (Loc.many ((l.map (rowOf false)).map fun row : List ℝ => G (triple row)))) = _
    rw [if_neg (Nat.lt_irrefl 3), List.map_map]
    rfl
  · exact if_neg hv
  · exact if_pos hc
  · refine ⟨_, if_neg (Nat.not_lt.2 hc), ?_⟩
    rw [List.length_map]

/-- C164, there and back: with projections which undo each other, positions of shape `(n, 3)` come back
from the geographic coordinates, and an array of locations comes back from Lambert 93. -/
theorem geo_round_partial (G L : V3 → V3) :
    (∀ l : List V3, (∀ p ∈ l, L (G p) = p) →
        ∃ c : Loc, l93ToGeo G (positions l).val = .ok c ∧ geoToL93 L c = (positions l).val)
      ∧ (∀ l : List V3, (∀ p ∈ l, G (L p) = p) → l93ToGeo G (geoToL93 L (.many l)) = .ok (.many l)) := by
  constructor
  · intro l hl
    refine ⟨_, (geo_exact G).2.1 l, ?_⟩
    show Arr.two 3 ((l.map G).map fun p : V3 => rowOf false (L p)) = Arr.two 3 (l.map (rowOf false))
    rw [List.map_map]
    congr 1
    exact List.map_congr_left fun p hp => congrArg (rowOf false) (hl p hp)
  · intro l hl
    have e : geoToL93 L (.many l) = (positions (l.map L)).val := by
      show Arr.two 3 (l.map fun p : V3 => rowOf false (L p)) = Arr.two 3 ((l.map L).map (rowOf false))
      rw [List.map_map]
      rfl
    rw [e, (geo_exact G).2.1, List.map_map]
    congr 2
    conv_rhs => rw [← List.map_id l]
    exact List.map_congr_left hl

/-- C164, violated for one position: `geo_to_l93` gives an array with one row although it is said to
have three elements, and the way back gives an array of one location instead of a location. The values
are right and the Lambert ORN coordinates do keep the shape. -/
theorem geo_shape_violated (G L O : V3 → V3) (p : V3) :
    geoToL93 L (.single p) = .two 3 [rowOf false (L p)]
      ∧ (∀ v : List ℝ, geoToL93 L (.single p) ≠ .one v)
      ∧ l93ToGeo G (geoToL93 L (.single p)) = .ok (.many [G (L p)])
      ∧ geoToOrn O (.single p) = .one (rowOf false (O p))
      ∧ ∀ l : List V3, geoToOrn O (.many l) = (positions (l.map O)).val := by
  refine ⟨rfl, fun v h => (by cases h), rfl, rfl, fun l => ?_⟩
  show Arr.two 3 (l.map fun p : V3 => rowOf false (O p)) = Arr.two 3 ((l.map O).map (rowOf false))
  rw [List.map_map]
  rfl

/-- C164, antennas of a mini-array: each antenna gets the location of which the Lambert 93 position is
that of the mini-array plus the offset of the antenna; differences of offsets are differences of Lambert
93 positions. -/
theorem antenna_geo (G L : V3 → V3) (hLG : ∀ p : V3, L (G p) = p) (offsets : List V3) (pos : V3) :
    ∃ l : List V3, antennaGeo G L offsets pos = .ok (.many l) ∧ l.length = offsets.length
      ∧ (∀ (i : Nat) (a : V3), offsets[i]? = some a → ∃ q : V3, l[i]? = some q ∧ L q = add (L pos) a)
      ∧ (∀ (i j : Nat) (a b p q : V3), offsets[i]? = some a → offsets[j]? = some b → l[i]? = some p → l[j]? = some q →
          sub (L p) (L q) = sub a b) := by
  have e : antennaGeo G L offsets pos = .ok (.many (offsets.map fun a : V3 => G (add a (L pos)))) := by
    have s : shiftRows offsets (L pos) = (positions (offsets.map fun a : V3 => add a (L pos))).val := by
      show Arr.two 3 (offsets.map fun a : V3 => rowOf false (add a (L pos))) = Arr.two 3 ((offsets.map fun a : V3 => add a (L pos)).map (rowOf false))
      rw [List.map_map]
      rfl
    unfold antennaGeo
    rw [s, (geo_exact G).2.1, List.map_map]
    rfl
  have el : ∀ (i : Nat) (a : V3), offsets[i]? = some a →
      (offsets.map fun a : V3 => G (add a (L pos)))[i]? = some (G (add a (L pos))) := by
    intro i a ha
    rw [List.getElem?_map, ha]
    rfl
  refine ⟨_, e, List.length_map _, ?_, ?_⟩
  · intro i a ha
    refine ⟨_, el i a ha, ?_⟩
    rw [hLG]
    ext
    · exact add_comm _ _
    · exact add_comm _ _
    · exact add_comm _ _
  · intro i j a b p q ha hb hp hq
    rw [el i a ha] at hp
    rw [el j b hb] at hq
    cases hp
    cases hq
    rw [hLG, hLG]
    ext
    · show a.x + (L pos).x - (b.x + (L pos).x) = a.x - b.x; ring
    · show a.y + (L pos).y - (b.y + (L pos).y) = a.y - b.y; ring
    · show a.z + (L pos).z - (b.z + (L pos).z) = a.z - b.z; ring

/-- C164, Lambert ORN coordinates of an interferometer: one row for each antenna, in order. -/
theorem array_orn (G O : V3 → V3) (h : Heap) (r : Nat) (l : List V3) (hr : h.get r = positions l) :
    arrayOrn G O h r = .ok (positions (l.map fun p : V3 => O (G p))).val := by
  unfold arrayOrn
  rw [hr, (geo_exact G).2.1]
  show Except.ok (geoToOrn O (.many (l.map G))) = _
  rw [(geo_shape_violated G G O ⟨0, 0, 0⟩).2.2.2.2, List.map_map]
  rfl

/-! ## Concrete cases -/

/-- One position held in memory, and a projection which moves it by half a metre. -/
noncomputable def lamHeap : Heap := ⟨fun _ => positions [⟨639113, 6697663, 181⟩], 1⟩

example : ∃ h' : Heap, l93ToEtrs (fun p : V3 => ⟨p.x + 1 / 2, p.y, p.z⟩) lamHeap 0 = .ok (h', 0)
    ∧ h'.get 0 ≠ lamHeap.get 0 :=
  etrs_overwrites_violated _ lamHeap 0 _ rfl _ List.mem_cons_self (by
    intro h
    have := congrArg V3.x h
    norm_num at this)

example (P : V3 → V3) :
    (posCalls P [.itrf 0, .geo 0, .cut 0 (fun i => i == 0), .orn 0, .etrs 1] lamHeap).get 0 = lamHeap.get 0 :=
  positions_kept_partial P _ lamHeap 0 (Nat.lt_succ_self 0) (by
    intro s hs
    simp only [List.mem_cons, List.not_mem_nil, or_false, PosCall.etrs.injEq, reduceCtorEq, false_or] at hs
    omega)

example : ∃ l : List V3, antennaGeo id id [⟨1, 0, 0⟩, ⟨0, 2, 0⟩] ⟨10, 20, 30⟩ = .ok (.many l) ∧ l.length = 2 := by
  obtain ⟨l, e, n, -⟩ := antenna_geo id id (fun _ => rfl) [⟨1, 0, 0⟩, ⟨0, 2, 0⟩] ⟨10, 20, 30⟩
  exact ⟨l, e, n⟩

end Verif.Geom
