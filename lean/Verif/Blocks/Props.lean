import Verif.Blocks.Model

/-!
# Properties of blocks (C14)
-/

namespace Verif.Blocks

/-! ## Helper lemmas -/

theorem update_length (h : Heap) (r : Nat) (f : Obj → Obj) : (h.update r f).length = h.length := by
  simp [Heap.update]

theorem update_get_ne (h : Heap) {r k : Nat} (f : Obj → Obj) (hne : r ≠ k) : (h.update r f)[k]? = h[k]? := by
  simp [Heap.update, hne]

theorem update_get_eq (h : Heap) (r : Nat) (f : Obj → Obj) : (h.update r f)[r]? = (h[r]?).map f := by
  simp [Heap.update]

theorem assign_length : ∀ (l : List Nat) (h : Heap) (i : Nat), (assign h l i).length = h.length
  | [], _, _ => rfl
  | r :: rs, h, i => by rw [assign, assign_length rs, update_length]

theorem assign_get_notin : ∀ {l : List Nat} {h : Heap} {i k : Nat}, k ∉ l → (assign h l i)[k]? = h[k]?
  | [], _, _, _, _ => rfl
  | r :: rs, h, i, k, hk => by
    rw [assign, assign_get_notin (fun hm => hk (List.mem_cons_of_mem _ hm)),
      update_get_ne _ _ (fun e => hk (by rw [e]; exact List.mem_cons_self))]

/-- The object at the `p`-th reference gets index `i + p`, unless the same object comes again later. -/
theorem assign_get : ∀ {l : List Nat} {h : Heap} {i p r : Nat}, l.Nodup → l[p]? = some r →
    (assign h l i)[r]? = (h[r]?).map fun o => { o with idx := i + p }
  | [], _, _, p, _, _, hp => by simp at hp
  | a :: rs, h, i, 0, r, hn, hp => by
    simp only [List.getElem?_cons_zero, Option.some.injEq] at hp
    subst hp
    rw [assign, assign_get_notin (List.nodup_cons.1 hn).1, update_get_eq]
    simp
  | a :: rs, h, i, p + 1, r, hn, hp => by
    rw [List.getElem?_cons_succ] at hp
    have hr : r ∈ rs := List.mem_of_getElem? hp
    rw [assign, assign_get (List.nodup_cons.1 hn).2 hp, update_get_ne _ _ (fun e => (List.nodup_cons.1 hn).1 (by rw [e]; exact hr))]
    congr 1; funext o; congr 1; omega

theorem copies_spec : ∀ (l : List Nat) (h : Heap), (∀ r ∈ l, r < h.length) →
    (copies h l).1 = h ++ l.filterMap (fun r => h[r]?) ∧ (copies h l).2 = List.range' h.length l.length
  | [], h, _ => by simp [copies]
  | r :: rs, h, hv => by
    have hr := hv r List.mem_cons_self
    obtain ⟨o, ho⟩ : ∃ o, h[r]? = some o := ⟨h[r], List.getElem?_eq_getElem hr⟩
    have ih := copies_spec rs (h ++ [o]) (fun x hx => by
      have := hv x (List.mem_cons_of_mem _ hx); rw [List.length_append]; omega)
    rw [copies, ho]
    simp only
    have hcongr : rs.filterMap (fun r => (h ++ [o])[r]?) = rs.filterMap (fun r => h[r]?) := by
      apply List.filterMap_congr
      intro x hx
      rw [List.getElem?_append_left (hv x (List.mem_cons_of_mem _ hx))]
    rw [hcongr] at ih
    refine ⟨?_, ?_⟩
    · rw [ih.1, List.filterMap_cons, ho]
      simp
    · rw [ih.2, List.length_append, List.length_singleton, List.length_cons, List.range'_succ]

theorem filterMap_get {h : Heap} : ∀ {l : List Nat}, (∀ r ∈ l, r < h.length) → ∀ k : Nat,
    (l.filterMap fun r => h[r]?)[k]? = (l[k]?).bind fun r => h[r]?
  | [], _, k => by simp
  | r :: rs, hv, k => by
    have hr := hv r List.mem_cons_self
    have ho : h[r]? = some h[r] := List.getElem?_eq_getElem hr
    rw [List.filterMap_cons, ho]
    simp only
    cases k with
    | zero => simp [ho]
    | succ k =>
      rw [List.getElem?_cons_succ, List.getElem?_cons_succ]
      exact filterMap_get (fun x hx => hv x (List.mem_cons_of_mem _ hx)) k

theorem filterMap_length {h : Heap} {l : List Nat} (hv : ∀ r ∈ l, r < h.length) : (l.filterMap fun r => h[r]?).length = l.length := by
  induction l with
  | nil => rfl
  | cons r rs ih =>
    rw [List.filterMap_cons, List.getElem?_eq_getElem (hv r List.mem_cons_self)]
    simp only [List.length_cons]
    rw [ih fun x hx => hv x (List.mem_cons_of_mem _ hx)]

theorem flatMap_replicate_get : ∀ (l : List Nat) (n i j : Nat), j < n → (l.flatMap fun r => List.replicate n r)[i * n + j]? = l[i]?
  | [], n, i, j, _ => by simp
  | r :: rs, n, 0, j, hj => by
    rw [List.flatMap_cons, List.getElem?_append_left (by simpa using hj)]
    simp [hj]
  | r :: rs, n, i + 1, j, hj => by
    rw [List.flatMap_cons, List.getElem?_append_right (by simp; nlinarith), List.length_replicate, List.getElem?_cons_succ,
      ← flatMap_replicate_get rs n i j hj]
    congr 1
    rw [Nat.succ_mul]; omega

theorem flatMap_replicate_length (l : List Nat) (n : Nat) : (l.flatMap fun r => List.replicate n r).length = l.length * n := by
  induction l with
  | nil => simp
  | cons r rs ih => rw [List.flatMap_cons, List.length_append, ih, List.length_replicate, List.length_cons, Nat.succ_mul]; omega

/-! ## C14 -/

/-- **C14.** Multiplying a container of blocks by `n` yields, for each block in order, `n` new blocks with the same content, numbered
0, 1, 2, ... in that order; the original blocks are untouched. This holds for every number of blocks and repetitions. -/
theorem mul_exact (h : Heap) (refs : List Nat) (n : Nat) (hv : ∀ r ∈ refs, r < h.length) :
    (mul h refs n).2.length = refs.length * n ∧ (mul h refs n).2.Nodup ∧ (∀ r ∈ (mul h refs n).2, h.length ≤ r) ∧
    (∀ k, k < h.length → (mul h refs n).1[k]? = h[k]?) ∧
    ∀ (i j r : Nat) (o : Obj), refs[i]? = some r → j < n → h[r]? = some o →
      ∃ c, (mul h refs n).2[i * n + j]? = some c ∧ (mul h refs n).1[c]? = some { o with idx := i * n + j } := by
  have hfv : ∀ r ∈ refs.flatMap fun r => List.replicate n r, r < h.length := by
    intro r hr
    rw [List.mem_flatMap] at hr
    obtain ⟨a, ha, hr⟩ := hr
    rw [List.eq_of_mem_replicate hr]; exact hv a ha
  obtain ⟨c1, c2⟩ := copies_spec (refs.flatMap fun r => List.replicate n r) h hfv
  have hm2 : (mul h refs n).2 = List.range' h.length (refs.length * n) := by
    simp only [mul, mkBlock, Int.toNat_natCast]
    rw [c2, flatMap_replicate_length]
  have hm1 : (mul h refs n).1 = assign (h ++ (refs.flatMap fun r => List.replicate n r).filterMap fun r => h[r]?)
      (List.range' h.length (refs.length * n)) 0 := by
    simp only [mul, mkBlock, Int.toNat_natCast]
    rw [c1, c2, flatMap_replicate_length]
  rw [hm2, hm1]
  refine ⟨by simp, List.nodup_range', fun r hr => ?_, fun k hk => ?_, ?_⟩
  · rw [List.mem_range'_1] at hr; exact hr.1
  · rw [assign_get_notin (by rw [List.mem_range'_1]; omega), List.getElem?_append_left hk]
  · intro i j r o hr hj ho
    have hi : i < refs.length := by
      rw [List.getElem?_eq_some_iff] at hr; exact hr.1
    have hlt : i * n + j < refs.length * n := by
      have : (i + 1) * n ≤ refs.length * n := Nat.mul_le_mul_right n hi
      rw [Nat.succ_mul] at this; omega
    refine ⟨h.length + (i * n + j), ?_, ?_⟩
    · rw [List.getElem?_range' hlt]
      simp
    · rw [assign_get (p := i * n + j) List.nodup_range' (by rw [List.getElem?_range' hlt]; simp),
        List.getElem?_append_right (by omega), Nat.add_sub_cancel_left, filterMap_get hfv,
        flatMap_replicate_get refs n i j hj, hr, Option.bind_some, ho]
      simp

/-- A non-positive multiplier gives no block at all. -/
theorem mul_nonpos (h : Heap) (refs : List Nat) (n : Int) (hn : n ≤ 0) : mul h refs n = (h, []) := by
  unfold mul
  have : n.toNat = 0 := by omega
  rw [this]
  have : (refs.flatMap fun r => List.replicate 0 r) = [] := by simp
  rw [this]; rfl

/-- **C14.** The sum of two containers holds the blocks of the first and then those of the second, the same objects; when no object occurs twice
they are numbered in that order. Nothing else changes. -/
theorem add_exact (h : Heap) (a b : List Nat) :
    (add h a b).2 = a ++ b ∧ (∀ k, k ∉ a ++ b → (add h a b).1[k]? = h[k]?) ∧
    ((a ++ b).Nodup → ∀ (p r : Nat) (o : Obj), (a ++ b)[p]? = some r → h[r]? = some o → (add h a b).1[r]? = some { o with idx := p }) := by
  refine ⟨rfl, fun k hk => assign_get_notin hk, fun hn p r o hp ho => ?_⟩
  have := assign_get (h := h) (i := 0) hn hp
  show (assign h (a ++ b) 0)[r]? = _
  rw [this, ho]; simp

/-- **C14.** Selecting blocks keeps their order. -/
theorem get_exact (h : Heap) (refs : List Nat) (v : Nat) :
    (get h refs v).2.Sublist refs ∧ ∀ r, r ∈ (get h refs v).2 ↔ r ∈ refs ∧ (h[r]?).map Obj.payload = some v := by
  refine ⟨List.filter_sublist, fun r => ?_⟩
  show r ∈ refs.filter _ ↔ _
  rw [List.mem_filter, decide_eq_true_iff]

/-- Two blocks. -/
def twoBlocks : Heap := (newObs (newObs [] 7 100 200).1 8 101 201).1

example : (mul twoBlocks [0, 1] 2).2 = [2, 3, 4, 5] ∧ ((mul twoBlocks [0, 1] 2).1.map fun o => (o.idx, o.payload)) =
    [(0, 7), (0, 8), (0, 7), (1, 7), (2, 8), (3, 8)] := by decide
example : ∀ r ∈ [0, 1], r < twoBlocks.length := by decide
example : ([0] ++ [1]).Nodup := by decide

/-- **C14** is false when the same block object occurs twice: for all blocks, `a + a` holds the same object twice, and both entries have index 1. -/
theorem add_same_violated (h : Heap) (r : Nat) (o : Obj) (ho : h[r]? = some o) :
    (add h [r] [r]).2 = [r, r] ∧ (add h [r] [r]).1[r]? = some { o with idx := 1 } := by
  refine ⟨rfl, ?_⟩
  show ((h.update r fun o => { o with idx := 0 }).update r fun o => { o with idx := 1 })[r]? = _
  rw [update_get_eq, update_get_eq, ho]
  rfl

example : (add twoBlocks [0] [0]).1[0]?.map Obj.idx = some 1 := by decide

/-- **C14** is false of containers that share blocks: after `x = a + b`, evaluating `b + a` renumbers the blocks of `x`, and so does selecting some of them. -/
theorem shared_indices_violated :
    (let (h, x) := add twoBlocks [0] [1]
     (x.map fun r => (h[r]?).map Obj.idx) = [some 0, some 1] ∧
     (x.map fun r => ((add h [1] [0]).1[r]?).map Obj.idx) = [some 1, some 0] ∧
     (x.map fun r => ((get h x 8).1[r]?).map Obj.idx) = [some 0, some 0]) := by
  decide

/-- A block made by multiplication stands, in later sums and products, for the block it was copied from: the tuple it contributes (`own`) holds the original. Changing
the copy (here its payload becomes 9) and then adding it to another block gives the unchanged original instead. -/
theorem copy_stands_for_original_violated :
    (let (h, x) := mul twoBlocks [0] 2
     let c := x.getD 0 0
     let h' := h.update c fun o => { o with payload := 9 }
     (h'[c]?).map Obj.payload = some 9 ∧
     (h'[c]?).map (fun o => (add h' o.own [1]).2.map fun r => (h'[r]?).map Obj.payload) = some [some 7, some 8]) := by
  decide

/-- The copies made by a product share the constraints and the target of the original. -/
theorem copies_share_constraints (h : Heap) (refs : List Nat) (n : Nat) (hv : ∀ r ∈ refs, r < h.length)
    (i j r : Nat) (o : Obj) (hr : refs[i]? = some r) (hj : j < n) (ho : h[r]? = some o) :
    ∃ c o', (mul h refs n).2[i * n + j]? = some c ∧ (mul h refs n).1[c]? = some o' ∧ o'.cons = o.cons ∧ o'.target = o.target := by
  obtain ⟨c, h1, h2⟩ := (mul_exact h refs n hv).2.2.2.2 i j r o hr hj ho
  exact ⟨c, _, h1, h2, rfl, rfl⟩

/-! ## Periodic observations -/

theorem mapM_ok {α β : Type} {f : α → Except Err β} {g : α → β} : ∀ {l : List α}, (∀ x ∈ l, f x = .ok (g x)) → l.mapM f = .ok (l.map g)
  | [], _ => by simp [pure, Except.pure]
  | x :: l, h => by
    rw [List.mapM_cons, h x List.mem_cons_self, mapM_ok fun y hy => h y (List.mem_cons_of_mem _ hy)]
    simp [pure, Except.pure, bind, Except.bind]

/-- **C14.** A periodic observation of a block with no time window of its own has one block for every instant `start + i * period` before `stop`, no more than the
maximum, in order; its window is that instant plus or minus the tolerance, and the other constraints are those of the block. -/
theorem periodic_exact (cons : Cnst.Cs) (start stop period tol : ℚ) (repMax : Option Int) (hp : 0 < period) (hlt : start < stop)
    (hmax : ∀ m, repMax = some m → 0 < m) (hnd : (cons.items.map Cnst.C.kind).Nodup) (hel : Cnst.Kind.elevation ∈ cons.items.map Cnst.C.kind)
    (htr : timeRangeKind ∉ cons.items.map Cnst.C.kind) :
    ∃ l : List PBlock, periodic cons start stop period tol repMax = .ok (.blocks l) ∧
      (∀ i : Nat, i < l.length ↔ start + i * period < stop ∧ ∀ m, repMax = some m → (i : Int) < m) ∧
      ∀ (i : Nat) (b : PBlock), l[i]? = some b →
        b.lo = start + i * period - tol ∧ b.hi = start + i * period + tol ∧ b.cons.items = cons.items ++ [⟨timeRangeKind, i⟩] := by
  have hpb : ∀ i, pblock cons start period tol i =
      .ok ⟨⟨cons.items ++ [⟨timeRangeKind, i⟩], cons.defaultEl⟩, start + i * period - tol, start + i * period + tol⟩ := by
    intro i
    unfold pblock Cnst.addCs
    have h1 : ¬ (timeRangeKind = Cnst.Kind.elevation ∧ cons.defaultEl = true) := by simp [timeRangeKind]
    simp only [h1, if_false]
    have h2 : ((cons.items ++ [⟨timeRangeKind, i⟩] : List Cnst.C).map Cnst.C.kind).Nodup := by
      rw [List.map_append, List.nodup_append]
      refine ⟨hnd, by simp, ?_⟩
      intro a ha b hb
      simp only [List.map_cons, List.map_nil, List.mem_singleton] at hb
      rintro rfl
      subst hb
      exact htr ha
    unfold Cnst.mkCs
    rw [if_neg (not_not.2 h2), if_pos (by rw [List.map_append]; exact List.mem_append_left _ hel)]
  have hrep : ∀ i : Nat, i < (repetitions start stop period repMax).toNat ↔
      start + i * period < stop ∧ ∀ m, repMax = some m → (i : Int) < m := by
    intro i
    have hc : (i : Int) < ⌈(stop - start) / period⌉ ↔ start + i * period < stop := by
      rw [Int.lt_ceil, lt_div_iff₀ hp]
      push_cast
      constructor <;> intro h <;> linarith
    unfold repetitions
    rw [← hc]
    cases repMax with
    | none => simp
    | some m =>
      have hm := hmax m rfl
      simp only [Option.some.injEq, forall_eq']
      split <;> omega
  have hpos : 0 < (repetitions start stop period repMax).toNat := by
    rw [hrep 0]
    refine ⟨by simpa using hlt, fun m hm => by simpa using hmax m hm⟩
  unfold periodic
  rw [mapM_ok (fun x _ => hpb x)]
  generalize (repetitions start stop period repMax).toNat = N at hrep hpos
  refine ⟨(List.range N).map fun (i : Nat) => ⟨⟨cons.items ++ [⟨timeRangeKind, i⟩], cons.defaultEl⟩, start + i * period - tol, start + i * period + tol⟩, ?_, ?_, ?_⟩
  · cases N with
    | zero => omega
    | succ N => rw [List.range_succ_eq_map]; rfl
  · intro i; rw [List.length_map, List.length_range]; exact hrep i
  · intro i b hb
    rw [List.getElem?_map, Option.map_eq_some_iff] at hb
    obtain ⟨k, hk, rfl⟩ := hb
    obtain ⟨hk1, hk2⟩ := List.getElem?_eq_some_iff.1 hk
    rw [List.getElem_range] at hk2
    subst hk2
    exact ⟨rfl, rfl, rfl⟩

/-- Every date before `stop` within the tolerance of one of the instants is in the window of a block. -/
theorem periodic_covers {cons : Cnst.Cs} {start stop period tol : ℚ} {l : List PBlock} (hp : 0 < period) (hlt : start < stop)
    (hnd : (cons.items.map Cnst.C.kind).Nodup) (hel : Cnst.Kind.elevation ∈ cons.items.map Cnst.C.kind)
    (htr : timeRangeKind ∉ cons.items.map Cnst.C.kind) (h : periodic cons start stop period tol none = .ok (.blocks l))
    (i : Nat) (t : ℚ) (hi : start + i * period < stop) (ht : |t - (start + i * period)| ≤ tol) : ∃ b ∈ l, b.lo ≤ t ∧ t ≤ b.hi := by
  obtain ⟨l', h1, h2, h3⟩ := periodic_exact cons start stop period tol none hp hlt (by simp) hnd hel htr
  rw [h] at h1
  obtain rfl : l = l' := by simpa using h1
  have hlen := (h2 i).2 ⟨hi, by simp⟩
  obtain ⟨e1, e2, _⟩ := h3 i l[i] (List.getElem?_eq_getElem hlen)
  refine ⟨l[i], List.getElem_mem hlen, ?_, ?_⟩
  · rw [e1]; linarith [(abs_le.1 ht).1]
  · rw [e2]; linarith [(abs_le.1 ht).2]

/-- The default constraints of a block. -/
def defaultCs : Cnst.Cs := ⟨[⟨.elevation, 0⟩], true⟩

example : (defaultCs.items.map Cnst.C.kind).Nodup ∧ Cnst.Kind.elevation ∈ defaultCs.items.map Cnst.C.kind ∧
    timeRangeKind ∉ defaultCs.items.map Cnst.C.kind := by decide
example : (match periodic defaultCs 0 10 3 (1 / 2) none with
    | .ok (.blocks l) => l.map fun b => (b.lo, b.hi)
    | _ => []) = [(-1 / 2, 1 / 2), (5 / 2, 7 / 2), (11 / 2, 13 / 2), (17 / 2, 19 / 2)] := by decide +kernel

/-- **C14** is false of empty ranges: when `stop` is not after `start`, the result is the integer 0 and not an empty container. -/
theorem periodic_empty_violated (cons : Cnst.Cs) (start stop period tol : ℚ) (hp : 0 < period) (h : stop ≤ start) :
    periodic cons start stop period tol none = .ok .zero := by
  unfold periodic repetitions
  have : ⌈(stop - start) / period⌉ ≤ 0 := by
    apply Int.ceil_le.2
    push_cast
    rw [div_le_iff₀ hp]; linarith
  simp only
  rw [show ⌈(stop - start) / period⌉.toNat = 0 from by omega]
  rfl

/-- A block that already has a time window cannot be repeated: `ValueError`. -/
theorem periodic_window_twice (cons : Cnst.Cs) (start stop period tol : ℚ) (hp : 0 < period) (h : start < stop)
    (htr : timeRangeKind ∈ cons.items.map Cnst.C.kind) : periodic cons start stop period tol none = .error .valueError := by
  have hpb : ∀ i, pblock cons start period tol i = .error .valueError := by
    intro i
    unfold pblock Cnst.addCs
    have h1 : ¬ (timeRangeKind = Cnst.Kind.elevation ∧ cons.defaultEl = true) := by simp [timeRangeKind]
    simp only [h1, if_false]
    have h2 : ¬ ((cons.items ++ [⟨timeRangeKind, i⟩] : List Cnst.C).map Cnst.C.kind).Nodup := by
      rw [List.map_append, List.nodup_append]
      rintro ⟨_, _, h3⟩
      exact h3 _ htr _ (by simp) rfl
    unfold Cnst.mkCs
    rw [if_pos h2]
  unfold periodic repetitions
  have : 0 < ⌈(stop - start) / period⌉ := by
    rw [Int.ceil_pos]; exact div_pos (by linarith) hp
  simp only
  obtain ⟨N, hN⟩ : ∃ N, ⌈(stop - start) / period⌉.toNat = N + 1 := ⟨⌈(stop - start) / period⌉.toNat - 1, by omega⟩
  rw [hN, List.range_succ_eq_map, List.mapM_cons, hpb]
  rfl

/-! ## Resetting constraints -/

theorem reset_length : ∀ (l : List Nat) (h : Heap) (f : Nat), (reset h l f).length = h.length
  | [], _, _ => rfl
  | r :: rs, h, f => by rw [reset, reset_length rs, update_length]

theorem reset_get_notin : ∀ {l : List Nat} {h : Heap} {f k : Nat}, k ∉ l → (reset h l f)[k]? = h[k]?
  | [], _, _, _, _ => rfl
  | r :: rs, h, f, k, hk => by
    rw [reset, reset_get_notin (fun hm => hk (List.mem_cons_of_mem _ hm)),
      update_get_ne _ _ (fun e => hk (by rw [e]; exact List.mem_cons_self))]

theorem reset_get : ∀ {l : List Nat} {h : Heap} {f p r : Nat}, l.Nodup → l[p]? = some r →
    (reset h l f)[r]? = (h[r]?).map fun o => { o with cons := f + p }
  | [], _, _, p, _, _, hp => by simp at hp
  | a :: rs, h, f, 0, r, hn, hp => by
    simp only [List.getElem?_cons_zero, Option.some.injEq] at hp
    subst hp
    rw [reset, reset_get_notin (List.nodup_cons.1 hn).1, update_get_eq]
    simp
  | a :: rs, h, f, p + 1, r, hn, hp => by
    rw [List.getElem?_cons_succ] at hp
    have hr : r ∈ rs := List.mem_of_getElem? hp
    rw [reset, reset_get (List.nodup_cons.1 hn).2 hp, update_get_ne _ _ (fun e => (List.nodup_cons.1 hn).1 (by rw [e]; exact hr))]
    congr 1; funext o; congr 1; omega

/-- **C14**: after a reset the blocks of the container have constraints of their own: new ones, each different from those of any other block; all
the rest is as before. -/
theorem reset_exact (h : Heap) (refs : List Nat) (fresh : Nat) (hn : refs.Nodup) (hf : ∀ o ∈ h, o.cons < fresh) :
    (∀ k, k ∉ refs → (reset h refs fresh)[k]? = h[k]?) ∧
    (∀ r ∈ refs, ∀ o, h[r]? = some o → ∃ c, fresh ≤ c ∧ (reset h refs fresh)[r]? = some { o with cons := c }) ∧
    ∀ r ∈ refs, ∀ k, k ≠ r → ∀ o o', (reset h refs fresh)[r]? = some o → (reset h refs fresh)[k]? = some o' → o.cons ≠ o'.cons := by
  refine ⟨fun k hk => reset_get_notin hk, ?_, ?_⟩
  · intro r hr o ho
    obtain ⟨p, hp⟩ := List.mem_iff_getElem?.1 hr
    exact ⟨fresh + p, by omega, by rw [reset_get hn hp, ho]; rfl⟩
  · intro r hr k hk o o' ho ho'
    obtain ⟨p, hp⟩ := List.mem_iff_getElem?.1 hr
    rw [reset_get hn hp] at ho
    obtain ⟨a, _, rfl⟩ := Option.map_eq_some_iff.1 ho
    by_cases hkm : k ∈ refs
    · obtain ⟨q, hq⟩ := List.mem_iff_getElem?.1 hkm
      rw [reset_get hn hq] at ho'
      obtain ⟨b, _, rfl⟩ := Option.map_eq_some_iff.1 ho'
      show fresh + p ≠ fresh + q
      intro e
      have : p = q := by omega
      subst this
      rw [hp] at hq
      exact hk (Option.some.inj hq).symm
    · rw [reset_get_notin hkm] at ho'
      have := hf o' (List.mem_of_getElem? ho')
      show fresh + p ≠ o'.cons
      omega

example : ([0, 1] : List Nat).Nodup ∧ ∀ o ∈ ([⟨0, 1, 3, 0, [0]⟩, ⟨1, 1, 3, 0, [0]⟩] : Heap), o.cons < 4 := by decide

end Verif.Blocks
