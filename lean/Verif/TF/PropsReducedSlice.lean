import Verif.TF.ReducedSlice
import Mathlib.Data.List.GetD
import Mathlib.Tactic.Linarith
import Mathlib.Tactic.Ring

/-!
# C123: selections of reduced data
-/

namespace Verif.TF

theorem flatMap_len {α β : Type} (l : List α) (g : α → List β) (m : Nat) (h : ∀ a, (g a).length = m) : (l.flatMap g).length = l.length * m := by
  induction l with
  | nil => simp
  | cons a l ih => rw [List.flatMap_cons, List.length_append, h, ih, List.length_cons]; ring

theorem flatMap_get {α β : Type} (l : List α) (g : α → List β) (m : Nat) (h : ∀ a, (g a).length = m) (d : β) (i k : Nat) (hi : i < l.length) (hk : k < m) :
    (l.flatMap g).getD (i * m + k) d = (g l[i]).getD k d := by
  induction l generalizing i with
  | nil => simp at hi
  | cons a l ih =>
    rw [List.flatMap_cons]
    cases i with
    | zero =>
      rw [Nat.zero_mul, Nat.zero_add, List.getD_append _ _ _ _ (by rw [h]; exact hk)]
      rfl
    | succ i =>
      rw [List.getD_append_right _ _ _ _ (by rw [h, Nat.succ_mul]; omega), h, show (i + 1) * m + k - m = i * m + k by rw [Nat.succ_mul]; omega,
        ih i (by simpa using hi)]
      rfl

theorem product_len {V : Type} (v : Nat → Nat → Nat → V) (pt pf pp : List Nat) : (product v pt pf pp).length = pt.length * pf.length * pp.length := by
  unfold product
  rw [flatMap_len _ _ (pf.length * pp.length) (fun a => flatMap_len _ _ pp.length fun b => by rw [List.length_map]), Nat.mul_assoc]

theorem product_get {V : Type} (d : V) (v : Nat → Nat → Nat → V) (pt pf pp : List Nat) (i j k : Nat) (hi : i < pt.length) (hj : j < pf.length)
    (hk : k < pp.length) : (product v pt pf pp).getD ((i * pf.length + j) * pp.length + k) d = v pt[i] pf[j] pp[k] := by
  have hjk : j * pp.length + k < pf.length * pp.length := by
    have : (j + 1) * pp.length ≤ pf.length * pp.length := Nat.mul_le_mul_right _ hj
    rw [Nat.succ_mul] at this
    omega
  unfold product
  rw [show (i * pf.length + j) * pp.length + k = i * (pf.length * pp.length) + (j * pp.length + k) by ring,
    flatMap_get _ _ (pf.length * pp.length) (fun a => flatMap_len _ _ pp.length fun b => by rw [List.length_map]) d i _ hi hjk,
    flatMap_get _ _ pp.length (fun b => by rw [List.length_map]) d j k hj hk, List.getD_eq_getElem _ _ (by rw [List.length_map]; exact hk),
    List.getElem_map]

theorem pick_list (l : List Nat) : ((List.range l.length).map fun j => pick l j) = l := by
  apply List.ext_getElem
  · simp
  · intro i h1 h2
    rw [List.getElem_map, List.getElem_range]
    unfold pick
    split_ifs with h
    · have : i = 0 := by omega
      subst this
      cases l with
      | nil => simp at h2
      | cons a l => rfl
    · rw [List.getD_eq_getElem _ _ h2]

theorem range_flat {β : Type} (l : List Nat) (g : Nat → List β) : ((List.range l.length).flatMap fun j => g (pick l j)) = l.flatMap g := by
  conv_rhs => rw [← pick_list l, List.flatMap_map]

theorem range_map {β : Type} (l : List Nat) (g : Nat → β) : ((List.range l.length).map fun j => g (pick l j)) = l.map g := by
  conv_rhs => rw [← pick_list l, List.map_map]
  rfl

theorem positions_int (n : Nat) (i : Int) (l : List Nat) (h : (Idx.int i).positions n = .ok l) : ∃ a, l = [a] := by
  change (onePos n i).map (fun p => [p]) = .ok l at h
  cases ho : onePos n i with
  | error e => rw [ho] at h; cases h
  | ok p => rw [ho] at h; cases h; exact ⟨p, rfl⟩

/-- Selections which numpy takes as combinations of the axes: at most one list, and no list of polarisations at one time for a slice of
frequencies. -/
structure Plain (it jf kp : Idx) : Prop where
  tf : it.isList = true → jf.isList = false
  tp : it.isList = true → kp.isList = false
  fp : jf.isList = true → kp.isList = false
  mixed : kp.isList = true → jf.isSlice = true → it.isSlice = true

theorem together_one (a : Nat) : together [a] = some a := by
  unfold together together
  dsimp only [Option.bind]
  by_cases h : a = 1
  · rw [if_pos h, h]
  · rw [if_neg h, if_pos (.inl rfl)]

theorem together_cons (n : Nat) (l : List Nat) (h : together l = some n) : together (1 :: l) = some n := by
  rw [together, h]
  dsimp only [Option.bind]
  exact if_pos rfl

theorem together_ones (n : Nat) (l : List Nat) (h : together l = some 1) : together (n :: l) = some n := by
  rw [together, h]
  dsimp only [Option.bind]
  by_cases h : n = 1
  · rw [if_pos h, h]
  · rw [if_neg h, if_pos (.inl rfl)]

theorem numpy_plain {V : Type} (v : Nat → Nat → Nat → V) (it jf kp : Idx) (hp : Plain it jf kp) (nt nf np : Nat) (pt pf pp : List Nat)
    (ht : it.positions nt = .ok pt) (hf : jf.positions nf = .ok pf) (hq : kp.positions np = .ok pp) :
    numpyIndex v it jf kp pt pf pp = .ok (product v pt pf pp) := by
  obtain ⟨g1, g2, g3, g4⟩ := hp
  have pk : ∀ a j, pick [a] j = a := fun a j => rfl
  have w2 : ∀ n, together [1, n] = some n := fun n => together_cons n _ (together_one n)
  have w3 : ∀ n, together [n, 1] = some n := fun n => together_ones n _ (together_one 1)
  have w4 : ∀ n, together [1, 1, n] = some n := fun n => together_cons n _ (w2 n)
  have w5 : ∀ n, together [1, n, 1] = some n := fun n => together_cons n _ (w3 n)
  have w6 : ∀ n, together [n, 1, 1] = some n := fun n => together_ones n _ (w2 1)
  unfold numpyIndex
  by_cases hl : it.isList = true ∨ jf.isList = true ∨ kp.isList = true
  · rw [if_pos hl]
    cases it with
    | slice lt =>
      cases jf with
      | slice lf =>
        cases kp with
        | slice lp => simp [Idx.isList] at hl
        | int i => simp [Idx.isList] at hl
        | list lp =>
          show (together [pp.length]).elim _ _ = _
          rw [together_one]
          rfl
      | int i =>
        obtain ⟨a, rfl⟩ := positions_int _ _ _ hf
        cases kp with
        | slice lp => simp [Idx.isList] at hl
        | int i => simp [Idx.isList] at hl
        | list lp =>
          show (together [1, pp.length]).elim _ _ = _
          rw [w2]
          show Except.ok (pt.flatMap fun t => (List.range pp.length).map fun j => v t (pick [a] j) (pick pp j)) = _
          simp only [pk, range_map pp (v _ a), product, List.flatMap_cons, List.flatMap_nil, List.append_nil]
      | list lf =>
        cases kp with
        | slice lp =>
          show (together [pf.length]).elim _ _ = _
          rw [together_one]
          rfl
        | int i =>
          obtain ⟨a, rfl⟩ := positions_int _ _ _ hq
          show (together [pf.length, 1]).elim _ _ = _
          rw [w3]
          show Except.ok (pt.flatMap fun t => (List.range pf.length).map fun j => v t (pick pf j) (pick [a] j)) = _
          have e : ∀ t, ((List.range pf.length).map fun j => v t (pick pf j) a) = pf.map (v t · a) := fun t => range_map pf (v t · a)
          simp only [pk, e, product, List.map_cons, List.map_nil]
          simp only [List.map_eq_flatMap]
        | list lp => exact nomatch (show (true : Bool) = false from g3 rfl)
    | int i =>
      obtain ⟨a, rfl⟩ := positions_int _ _ _ ht
      cases jf with
      | slice lf =>
        cases kp with
        | slice lp => simp [Idx.isList] at hl
        | int i => simp [Idx.isList] at hl
        | list lp => exact nomatch (show (false : Bool) = true from g4 rfl rfl)
      | int i =>
        obtain ⟨b, rfl⟩ := positions_int _ _ _ hf
        cases kp with
        | slice lp => simp [Idx.isList] at hl
        | int i => simp [Idx.isList] at hl
        | list lp =>
          show (together [1, 1, pp.length]).elim _ _ = _
          rw [w4]
          show Except.ok ((List.range pp.length).map fun j => v (pick [a] j) (pick [b] j) (pick pp j)) = _
          simp only [pk, range_map pp (v a b), product, List.flatMap_cons, List.flatMap_nil, List.append_nil]
      | list lf =>
        cases kp with
        | slice lp =>
          show (together [1, pf.length]).elim _ _ = _
          rw [w2]
          show Except.ok ((List.range pf.length).flatMap fun j => pp.map fun p => v (pick [a] j) (pick pf j) p) = _
          simp only [pk, range_flat pf (fun f => pp.map fun p => v a f p), product, List.flatMap_cons, List.flatMap_nil, List.append_nil]
        | int i =>
          obtain ⟨b, rfl⟩ := positions_int _ _ _ hq
          show (together [1, pf.length, 1]).elim _ _ = _
          rw [w5]
          show Except.ok ((List.range pf.length).map fun j => v (pick [a] j) (pick pf j) (pick [b] j)) = _
          simp only [pk, range_map pf (v a · b), product, List.flatMap_cons, List.flatMap_nil, List.append_nil, List.map_cons, List.map_nil]
          rw [List.map_eq_flatMap]
        | list lp => exact nomatch (show (true : Bool) = false from g3 rfl)
    | list lt =>
      cases jf with
      | slice lf =>
        cases kp with
        | slice lp =>
          show (together [pt.length]).elim _ _ = _
          rw [together_one]
          rfl
        | int i =>
          obtain ⟨b, rfl⟩ := positions_int _ _ _ hq
          show (together [pt.length, 1]).elim _ _ = _
          rw [w3]
          show Except.ok ((List.range pt.length).flatMap fun j => pf.map fun f => v (pick pt j) f (pick [b] j)) = _
          simp only [pk, range_flat pt (fun t => pf.map fun f => v t f b), product, List.map_cons, List.map_nil]
          simp only [List.map_eq_flatMap]
        | list lp => exact nomatch (show (true : Bool) = false from g2 rfl)
      | int i =>
        obtain ⟨a, rfl⟩ := positions_int _ _ _ hf
        cases kp with
        | slice lp =>
          show (together [pt.length, 1]).elim _ _ = _
          rw [w3]
          show Except.ok ((List.range pt.length).flatMap fun j => pp.map fun p => v (pick pt j) (pick [a] j) p) = _
          simp only [pk, range_flat pt (fun t => pp.map fun p => v t a p), product, List.flatMap_cons, List.flatMap_nil, List.append_nil]
        | int i =>
          obtain ⟨b, rfl⟩ := positions_int _ _ _ hq
          show (together [pt.length, 1, 1]).elim _ _ = _
          rw [w6]
          show Except.ok ((List.range pt.length).map fun j => v (pick pt j) (pick [a] j) (pick [b] j)) = _
          simp only [pk, range_map pt (v · a b), product, List.flatMap_cons, List.flatMap_nil, List.append_nil, List.map_cons, List.map_nil]
          rw [List.map_eq_flatMap]
        | list lp => exact nomatch (show (true : Bool) = false from g2 rfl)
      | list lf => exact nomatch (show (true : Bool) = false from g1 rfl)
  · rw [if_neg hl]

theorem mkSlice_ok {V : Type} (d : V) (time freq : List ℚ) (pol : List String) (data : List V) (h1 : time ≠ []) (h2 : freq ≠ []) (h3 : pol ≠ [])
    (hl : data.length = time.length * freq.length * pol.length) :
    mkSlice d time freq pol data = .ok ⟨time, freq, pol, fun t f p => data.getD ((t * freq.length + f) * pol.length + p) d⟩ := by
  unfold mkSlice
  rw [if_neg (by simp [h1, h2, h3]), if_neg (not_not_intro hl)]

theorem pick_zero (l : List Nat) (h : 0 < l.length) : pick l 0 = l[0] := by
  unfold pick
  cases l with
  | nil => simp at h
  | cons a l => split_ifs <;> rfl

theorem mkSlice_product {V : Type} (d : V) (v : Nat → Nat → Nat → V) (time freq : List ℚ) (pol : List String) (pt pf pp : List Nat) (h1 : pt ≠ [])
    (h2 : pf ≠ []) (h3 : pp ≠ []) :
    ∃ r, mkSlice d (pt.map fun i => time.getD i 0) (pf.map fun i => freq.getD i 0) (pp.map fun i => pol.getD i "") (product v pt pf pp) = .ok r ∧
      r.time = pt.map (fun i => time.getD i 0) ∧ r.freq = pf.map (fun i => freq.getD i 0) ∧ r.pol = pp.map (fun i => pol.getD i "") ∧
      ∀ i j k (hi : i < pt.length) (hj : j < pf.length) (hk : k < pp.length), r.val i j k = v pt[i] pf[j] pp[k] := by
  have e := mkSlice_ok d (pt.map fun i => time.getD i 0) (pf.map fun i => freq.getD i 0) (pp.map fun i => pol.getD i "") (product v pt pf pp)
    (by simp [h1]) (by simp [h2]) (by simp [h3]) (by rw [product_len]; simp)
  refine ⟨_, e, rfl, rfl, rfl, ?_⟩
  · intro i j k hi hj hk
    have := product_get d v pt pf pp i j k hi hj hk
    simpa using this

/-- **C123** (at most one list, and no list of polarisations at a single time for a slice of frequencies): the selection has the
times, frequencies and polarisations selected, and each value is the one of its time, frequency and polarisation. -/
theorem select_partial {V : Type} (d : V) (s : RSlice V) (it jf kp : Idx) (hp : Plain it jf kp) (pt pf pp : List Nat)
    (ht : it.positions s.time.length = .ok pt) (hf : jf.positions s.freq.length = .ok pf) (hq : kp.positions s.pol.length = .ok pp)
    (h1 : pt ≠ []) (h2 : pf ≠ []) (h3 : pp ≠ []) :
    ∃ r, s.getItem d [it, jf, kp] = .ok r ∧ r.time = pt.map (fun i => s.time.getD i 0) ∧ r.freq = pf.map (fun i => s.freq.getD i 0) ∧
      r.pol = pp.map (fun i => s.pol.getD i "") ∧
      ∀ i j k (hi : i < pt.length) (hj : j < pf.length) (hk : k < pp.length), r.val i j k = s.val pt[i] pf[j] pp[k] := by
  obtain ⟨r, hr, h⟩ := mkSlice_product d s.val s.time s.freq s.pol pt pf pp h1 h2 h3
  refine ⟨r, ?_, h⟩
  show select3 d s it jf kp = _
  unfold select3
  rw [ht]
  dsimp only [Except.bind]
  rw [hf]
  dsimp only [Except.bind]
  rw [hq]
  dsimp only [Except.bind]
  rw [numpy_plain s.val it jf kp hp _ _ _ pt pf pp ht hf hq]
  exact hr

/-- **C123**: missing indices stand for whole axes; no index or more than three are refused. -/
theorem select_short {V : Type} (d : V) (s : RSlice V) (it jf : Idx) (a b c e : Idx) (l : List Idx) :
    s.getItem d [it] = s.getItem d [it, wholeAxis s.freq.length, wholeAxis s.pol.length] ∧
    s.getItem d [it, jf] = s.getItem d [it, jf, wholeAxis s.pol.length] ∧
    s.getItem d [] = .error .indexError ∧ s.getItem d (a :: b :: c :: e :: l) = .error .indexError :=
  ⟨rfl, rfl, rfl, rfl⟩

/-- **C123**: an empty selection is refused. -/
theorem select_empty {V : Type} (d : V) (s : RSlice V) (it jf kp : Idx) (hp : Plain it jf kp) (pt pf pp : List Nat)
    (ht : it.positions s.time.length = .ok pt) (hf : jf.positions s.freq.length = .ok pf) (hq : kp.positions s.pol.length = .ok pp)
    (h : pt = [] ∨ pf = [] ∨ pp = []) : s.getItem d [it, jf, kp] = .error .indexError := by
  show select3 d s it jf kp = _
  unfold select3
  rw [ht]
  dsimp only [Except.bind]
  rw [hf]
  dsimp only [Except.bind]
  rw [hq]
  dsimp only [Except.bind]
  rw [numpy_plain s.val it jf kp hp _ _ _ pt pf pp ht hf hq]
  dsimp only [Except.bind]
  refine if_pos ?_
  rcases h with h | h | h
  · left; rw [h]; rfl
  · right; left; rw [h]; rfl
  · right; right; rw [h]; rfl

/-- **C123** (violated): several polarisations by a list, at one time, for several frequencies: nothing is refused, and the values are not
those of their labels. The value given for the first frequency and the second polarisation is that of the second frequency and the first
polarisation. -/
theorem select_mixed_violated {V : Type} (d : V) (s : RSlice V) (i : Int) (lf : List Nat) (lp : List Int) (t : Nat) (pp : List Nat)
    (ht : (Idx.int i).positions s.time.length = .ok [t]) (hq : (Idx.list lp).positions s.pol.length = .ok pp) (h2 : 2 ≤ lf.length)
    (h3 : 2 ≤ pp.length) :
    ∃ r, s.getItem d [.int i, .slice lf, .list lp] = .ok r ∧ r.freq = lf.map (fun i => s.freq.getD i 0) ∧ r.pol = pp.map (fun i => s.pol.getD i "") ∧
      r.val 0 0 1 = s.val t lf[1] pp[0] := by
  have hn : numpyIndex s.val (.int i) (.slice lf) (.list lp) [t] lf pp =
      .ok ((List.range pp.length).flatMap fun j => lf.map fun f => s.val (pick [t] j) f (pick pp j)) := by
    unfold numpyIndex
    rw [if_pos (.inr (.inr rfl))]
    show (together [1, pp.length]).elim _ _ = _
    rw [together_cons pp.length _ (together_one _)]
    rfl
  have hlen : ((List.range pp.length).flatMap fun j => lf.map fun f => s.val (pick [t] j) f (pick pp j)).length = pp.length * lf.length := by
    rw [flatMap_len _ _ lf.length (fun j => by rw [List.length_map]), List.length_range]
  have hmk : ∃ r, mkSlice d ([t].map fun i => s.time.getD i 0) (lf.map fun i => s.freq.getD i 0) (pp.map fun i => s.pol.getD i "")
      ((List.range pp.length).flatMap fun j => lf.map fun f => s.val (pick [t] j) f (pick pp j)) = .ok r ∧
      r.freq = lf.map (fun i => s.freq.getD i 0) ∧ r.pol = pp.map (fun i => s.pol.getD i "") ∧
      r.val 0 0 1 = ((List.range pp.length).flatMap fun j => lf.map fun f => s.val (pick [t] j) f (pick pp j)).getD 1 d := by
    have e := mkSlice_ok d ([t].map fun i => s.time.getD i 0) (lf.map fun i => s.freq.getD i 0) (pp.map fun i => s.pol.getD i "")
        ((List.range pp.length).flatMap fun j => lf.map fun f => s.val (pick [t] j) f (pick pp j)) (by simp)
        (by intro h; rw [List.map_eq_nil_iff] at h; rw [h] at h2; simp at h2) (by intro h; rw [List.map_eq_nil_iff] at h; rw [h] at h3; simp at h3)
        (by rw [hlen]; simp [Nat.mul_comm])
    refine ⟨_, e, rfl, rfl, ?_⟩
    simp
  obtain ⟨r, hr, hr1, hr2, hr3⟩ := hmk
  refine ⟨r, ?_, hr1, hr2, ?_⟩
  · show select3 d s _ _ _ = _
    unfold select3
    rw [ht]
    dsimp only [Except.bind]
    rw [show (Idx.slice lf).positions s.freq.length = .ok lf from rfl]
    dsimp only [Except.bind]
    rw [hq]
    dsimp only [Except.bind]
    rw [hn]
    exact hr
  · have := flatMap_get (List.range pp.length) (fun j => lf.map fun f => s.val (pick [t] j) f (pick pp j)) lf.length (fun j => by rw [List.length_map]) d 0 1
      (by rw [List.length_range]; omega) (by omega)
    rw [Nat.zero_mul, Nat.zero_add] at this
    rw [hr3, this, List.getD_eq_getElem _ _ (by rw [List.length_map]; omega), List.getElem_map, List.getElem_range]
    show s.val t _ (pick pp 0) = _
    rw [pick_zero pp (by omega)]

/-- **C123** (violated): two lists of the same length, of times and of frequencies, are refused, though each is right alone. -/
theorem select_lists_violated {V : Type} (d : V) (s : RSlice V) (lt lf : List Int) (pt pf lp : List Nat)
    (ht : (Idx.list lt).positions s.time.length = .ok pt) (hf : (Idx.list lf).positions s.freq.length = .ok pf) (hl : pt.length = pf.length)
    (h2 : 2 ≤ pt.length) (h3 : lp ≠ []) :
    s.getItem d [.list lt, .list lf, .slice lp] = .error .valueError := by
  have hn : numpyIndex s.val (.list lt) (.list lf) (.slice lp) pt pf lp =
      .ok ((List.range pt.length).flatMap fun j => lp.map fun p => s.val (pick pt j) (pick pf j) p) := by
    unfold numpyIndex
    rw [if_pos (.inl rfl)]
    show (together [pt.length, pf.length]).elim _ _ = _
    have : together [pt.length, pf.length] = some pt.length := by
      rw [together, together_one]
      dsimp only [Option.bind]
      rw [if_neg (by omega), if_pos (.inr hl.symm)]
    rw [this]
    rfl
  have hlen : ((List.range pt.length).flatMap fun j => lp.map fun p => s.val (pick pt j) (pick pf j) p).length = pt.length * lp.length := by
    rw [flatMap_len _ _ lp.length (fun j => by rw [List.length_map]), List.length_range]
  show select3 d s _ _ _ = _
  unfold select3
  rw [ht]
  dsimp only [Except.bind]
  rw [hf]
  dsimp only [Except.bind]
  rw [show (Idx.slice lp).positions s.pol.length = .ok lp from rfl]
  dsimp only [Except.bind]
  rw [hn]
  dsimp only [Except.bind]
  unfold mkSlice
  have hp : 0 < lp.length := List.length_pos_iff.2 h3
  rw [if_neg, if_pos]
  · rw [hlen, List.length_map, List.length_map, List.length_map, ← hl]
    intro h
    have : pt.length * lp.length < pt.length * pt.length * lp.length := by
      rw [Nat.mul_assoc]
      have h4 : 2 * (pt.length * lp.length) ≤ pt.length * (pt.length * lp.length) := Nat.mul_le_mul_right _ h2
      have h5 : 0 < pt.length * lp.length := Nat.mul_pos (by omega) hp
      omega
    omega
  · rintro (h | h | h)
    · rw [List.map_eq_nil_iff] at h; rw [h] at h2; simp at h2
    · rw [List.map_eq_nil_iff] at h; rw [h, List.length_nil] at hl; omega
    · rw [List.map_eq_nil_iff] at h; exact h3 h

/-- **C123**: a number stands for the position it counts from the start, or from the end if it is negative; others are refused. -/
theorem number_position (n : Nat) (i : Int) (p : Nat) :
    ((Idx.int i).positions n = .ok [p] ↔ p < n ∧ (i = p ∨ i = (p : Int) - n)) ∧
    ((Idx.int i).positions n = .error .indexError ↔ i < -n ∨ n ≤ i) := by
  show (((onePos n i).map fun p => [p]) = _ ↔ _) ∧ (((onePos n i).map fun p => [p]) = _ ↔ _)
  unfold onePos
  by_cases h : 0 ≤ i ∧ i < n
  · rw [if_pos h]
    show (Except.ok [i.toNat] = _ ↔ _) ∧ (Except.ok [i.toNat] = _ ↔ _)
    refine ⟨⟨fun e => ?_, fun e => ?_⟩, ⟨(fun e => nomatch e), fun e => ?_⟩⟩
    · injection e with e
      injection e with e
      omega
    · have : i.toNat = p := by omega
      rw [this]
    · omega
  · rw [if_neg h]
    by_cases h' : -n ≤ i ∧ i < 0
    · rw [if_pos h']
      show (Except.ok [(i + n).toNat] = _ ↔ _) ∧ (Except.ok [(i + n).toNat] = _ ↔ _)
      refine ⟨⟨fun e => ?_, fun e => ?_⟩, ⟨(fun e => nomatch e), fun e => ?_⟩⟩
      · injection e with e
        injection e with e
        omega
      · have : (i + n).toNat = p := by omega
        rw [this]
      · omega
    · rw [if_neg h']
      refine ⟨⟨(fun e => nomatch e), fun e => ?_⟩, ⟨fun _ => ?_, fun _ => rfl⟩⟩
      · omega
      · omega

/-- **C123**: a missing index keeps every position of its axis, in order. -/
theorem whole_positions (n : Nat) : ∃ l, (wholeAxis n).positions n = .ok l ∧ l.length = n ∧ ∀ i (h : i < l.length), l[i] = i :=
  ⟨List.range n, rfl, List.length_range, fun i h => List.getElem_range h⟩

/-- **C123**: two lists of different lengths are refused. -/
theorem lists_refused {V : Type} (d : V) (s : RSlice V) (lt lf : List Int) (pt pf lp : List Nat)
    (ht : (Idx.list lt).positions s.time.length = .ok pt) (hf : (Idx.list lf).positions s.freq.length = .ok pf) (hl : pt.length ≠ pf.length)
    (h1 : pt.length ≠ 1) (h2 : pf.length ≠ 1) : s.getItem d [.list lt, .list lf, .slice lp] = .error .indexError := by
  have hn : numpyIndex s.val (.list lt) (.list lf) (.slice lp) pt pf lp = .error .indexError := by
    unfold numpyIndex
    rw [if_pos (.inl rfl)]
    show (together [pt.length, pf.length]).elim _ _ = _
    have : together [pt.length, pf.length] = none := by
      rw [together, together_one]
      dsimp only [Option.bind]
      rw [if_neg h1, if_neg (by omega)]
    rw [this]
    rfl
  show select3 d s _ _ _ = _
  unfold select3
  rw [ht]
  dsimp only [Except.bind]
  rw [hf]
  dsimp only [Except.bind]
  rw [show (Idx.slice lp).positions s.pol.length = .ok lp from rfl]
  dsimp only [Except.bind]
  rw [hn]

/-! ## The hypotheses can be met -/

/-- Two times, three frequencies, two polarisations; values which tell where they come from. -/
def small : RSlice Nat := ⟨[0, 1], [20, 30, 40], ["I", "V"], fun t f p => 100 * t + 10 * f + p⟩

example : Plain (.int (-1)) (.slice [0, 2]) (.slice [0, 1]) ∧ (Idx.int (-1)).positions small.time.length = .ok [1] :=
  ⟨⟨by decide, by decide, by decide, by decide⟩, rfl⟩

example : ((small.getItem 0 [.int (-1), .slice [0, 2], .slice [0, 1]]).toOption.map fun r => r.val 0 1 1) = some 121 := by decide

/-- The value announced as that of frequency 20 and `V` is that of frequency 30 and `I`. -/
example : ((small.getItem 0 [.int 0, .slice [0, 1, 2], .list [0, 1]]).toOption.map fun r => r.val 0 0 1) = some 10 := by decide

example : (Idx.list [0, 1]).positions small.time.length = .ok [0, 1] ∧ (Idx.list [0, 1, -1]).positions small.freq.length = .ok [0, 1, 2] := ⟨rfl, rfl⟩

end Verif.TF
