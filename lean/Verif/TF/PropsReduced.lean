import Verif.TF.Reduced
import Mathlib.Data.List.GetD
import Mathlib.Tactic.Linarith
import Mathlib.Tactic.Ring
import Mathlib.Tactic.NormNum
import Mathlib.Tactic.FieldSimp

/-!
# C122: what is stored in a file of reduced data is what is read back
-/

namespace Verif.TF

/-! ## Storing -/

theorem split_plain (s : String) (h : '/' ∉ s.toList) : splitName s = (none, s) := by
  unfold splitName
  rw [if_neg]
  simpa using h

/-- Names which can be used: as many as polarisations, no `/`, no two alike once in capitals. -/
structure GoodNames (l : List String) : Prop where
  slash : ∀ s ∈ l, '/' ∉ s.toUpper.toList
  coords : ∀ s ∈ l, s.toUpper ≠ "COORDINATES"
  distinct : (l.map String.toUpper).Nodup

theorem pols_ok {V : Type} (l : List String) (h : GoodNames l) (nt nf : Nat) (data : Nat → Nat → Nat → V) (np : Nat) (hn : np ≤ l.length) :
    storePols (.names l) nt nf np data =
      ((List.range np).map fun i => ((l.getD i "").toUpper, Node.data nt nf fun t f => data t f i), none) := by
  induction np with
  | zero => rfl
  | succ n ih =>
    have ih := ih (by omega)
    unfold storePols at ih ⊢
    rw [List.range_succ, List.foldl_append, ih, List.map_append]
    rw [List.foldl_cons, List.foldl_nil]
    have hi : (Pols.names l).item n = some (l.getD n "") := by
      show l[n]? = _
      rw [List.getElem?_eq_getElem (by omega), List.getD_eq_getElem _ _ (by omega)]
    have hm : l.getD n "" ∈ l := by rw [List.getD_eq_getElem _ _ (by omega)]; exact List.getElem_mem _
    have ha : addNode ((List.range n).map fun i => ((l.getD i "").toUpper, Node.data nt nf fun t f => data t f i)) (l.getD n "").toUpper nt nf
        (fun t f => data t f n) = .ok (((List.range n).map fun i => ((l.getD i "").toUpper, Node.data nt nf fun t f => data t f i)) ++
          [((l.getD n "").toUpper, .data nt nf fun t f => data t f n)]) := by
      unfold addNode
      rw [split_plain _ (h.slash _ hm)]
      show addPlain _ _ _ _ _ = _
      unfold addPlain
      rw [if_neg]
      rintro (hc | hc)
      · exact h.coords _ hm hc
      · rw [List.map_map, List.mem_map] at hc
        obtain ⟨i, hi, he⟩ := hc
        have hi' := List.mem_range.1 hi
        have he' : (l.getD i "").toUpper = (l.getD n "").toUpper := he
        rw [List.getD_eq_getElem _ _ (by omega), List.getD_eq_getElem _ _ (by omega)] at he'
        have := (List.nodup_iff_injective_getElem.1 h.distinct) (a₁ := ⟨i, by rw [List.length_map]; omega⟩)
          (a₂ := ⟨n, by rw [List.length_map]; omega⟩) (by simpa using he')
        have := congrArg Fin.val this
        simp at this
        omega
    unfold storePol
    dsimp only [Option.elim]
    rw [hi]
    dsimp only [Option.elim]
    rw [ha]
    rfl

theorem lookup_found {α β : Type} [BEq α] [LawfulBEq α] (l : List (α × β)) (hn : (l.map Prod.fst).Nodup) (a : α) (b : β) (h : (a, b) ∈ l) :
    l.lookup a = some b := by
  induction l with
  | nil => cases h
  | cons x l ih =>
    obtain ⟨c, d⟩ := x
    rw [List.map_cons, List.nodup_cons] at hn
    rcases List.mem_cons.1 h with e | h'
    · cases e
      exact List.lookup_cons_self
    · have hne : a ≠ c := by
        rintro rfl
        exact hn.1 (List.mem_map.2 ⟨_, h', rfl⟩)
      rw [List.lookup_cons, beq_false_of_ne hne]
      exact ih hn.2 h'

theorem lookup_snoc {α β : Type} [BEq α] [LawfulBEq α] (l : List (α × β)) (a : α) (b : β) (h : a ∉ l.map Prod.fst) :
    (l ++ [(a, b)]).lookup a = some b := by
  induction l with
  | nil => exact List.lookup_cons_self
  | cons x l ih =>
    obtain ⟨c, d⟩ := x
    rw [List.map_cons, List.mem_cons, not_or] at h
    rw [List.cons_append, List.lookup_cons, beq_false_of_ne h.1]
    exact ih h.2

theorem lookup_other {α β : Type} [BEq α] [LawfulBEq α] (l : List (α × β)) (a c : α) (b : β) (h : c ≠ a) :
    (l ++ [(a, b)]).lookup c = l.lookup c := by
  induction l with
  | nil => rw [List.nil_append, List.lookup_cons, beq_false_of_ne h]
  | cons x l ih =>
    obtain ⟨e, d⟩ := x
    rw [List.cons_append, List.lookup_cons, List.lookup_cons, ih]

/-- Storing with the default mode or a given one reaches the writing of the beam: a new file, or one which has not this beam. -/
def Free {V : Type} (file : Option (H5 V)) (mode : String) (beam : Nat) : Prop :=
  mode = "w" ∨ (file = none ∧ mode = "auto") ∨
    ∃ f beams, file = some f ∧ f.sub = some beams ∧ beam ∉ beams.map Prod.fst ∧ (mode = "auto" ∨ mode = "a")

theorem lower_auto : "auto".toLower = "auto" := by decide +kernel
theorem lower_w : "w".toLower ≠ "auto" := by decide +kernel
theorem lower_a : "a".toLower ≠ "auto" := by decide +kernel

theorem mode_auto {V : Type} (file : Option (H5 V)) : realMode file "auto" = if file.isSome then "a" else "w" := if_pos lower_auto
theorem mode_w {V : Type} (file : Option (H5 V)) : realMode file "w" = "w" := if_neg lower_w
theorem mode_a {V : Type} (file : Option (H5 V)) : realMode file "a" = "a" := if_neg lower_a

theorem storeIn_w {V : Type} (file : Option (H5 V)) (x : ToStore V) (unit : String) (k : ℚ) :
    storeIn file "w" x unit k = (some (newFile x unit k).1, (newFile x unit k).2) := if_pos rfl

theorem storeIn_a {V : Type} (file : Option (H5 V)) (x : ToStore V) (unit : String) (k : ℚ) :
    storeIn file "a" x unit k =
      (some (appendBeam (file.getD ⟨none, none⟩) x unit k).1, (appendBeam (file.getD ⟨none, none⟩) x unit k).2) := by
  unfold storeIn
  rw [if_neg (by decide), if_pos rfl]

theorem free_store {V : Type} (units : String → Option ℚ) (file : Option (H5 V)) (name mode unit : String) (x : ToStore V) (k : ℚ)
    (hn : List.isSuffixOf ".hdf5".toList name.toLower.toList = true) (hk : units unit = some k) (hf : x.freq ≠ [])
    (hfree : Free file mode x.beam) :
    ∃ f beams, (store units file name mode unit x).1 = some f ∧ (store units file name mode unit x).2 = asResult (beamOf x unit k).2 ∧
      f.sub = some beams ∧ beams.lookup x.beam = some (beamOf x unit k).1 := by
  have e : store units file name mode unit x = storeIn file (realMode file mode) x unit k := by
    unfold store
    rw [hn, if_neg (by decide), hk]
    exact if_neg hf
  rw [e]
  have hw : ∃ f beams, (storeIn file "w" x unit k).1 = some f ∧ (storeIn file "w" x unit k).2 = asResult (beamOf x unit k).2 ∧
      f.sub = some beams ∧ beams.lookup x.beam = some (beamOf x unit k).1 := by
    rw [storeIn_w]
    exact ⟨_, _, rfl, rfl, rfl, List.lookup_cons_self⟩
  rcases hfree with rfl | ⟨rfl, rfl⟩ | ⟨f, beams, rfl, hs, hb, hm⟩
  · rw [mode_w]; exact hw
  · rw [mode_auto]; exact hw
  · have hm' : realMode (some f) mode = "a" := by
      rcases hm with rfl | rfl
      · rw [mode_auto]; rfl
      · exact mode_a _
    rw [hm', storeIn_a]
    have ha : appendBeam f x unit k =
        ({ f with sub := some (beams ++ [(x.beam, (beamOf x unit k).1)]) }, asResult (beamOf x unit k).2) := by
      unfold appendBeam
      rw [hs]
      exact if_neg hb
    refine ⟨_, _, rfl, ?_, ?_, lookup_snoc beams _ _ hb⟩
    · show (appendBeam f x unit k).2 = _
      rw [ha]
    · show (appendBeam f x unit k).1.sub = _
      rw [ha]

theorem stack_data {V : Type} (d : V) (l : List String) (hl : l ≠ []) (nt nf : Nat) (w : String → Nat → Nat → V) :
    stack d (l.map fun s => Node.data nt nf (w s)) = .ok (.values nt nf fun t f p => (l.map fun s => w s t f).getD p d) := by
  cases l with
  | nil => exact absurd rfl hl
  | cons a l =>
    unfold stack
    show (if ((a :: l).map fun s => Node.data nt nf (w s)).any (fun m => decide (m.shape ≠ (Node.data nt nf (w a)).shape)) = true then
      Except.error Err.valueError else Except.ok (stackFrom d ((a :: l).map fun s => Node.data nt nf (w s)) (Node.data nt nf (w a)))) = _
    rw [if_neg]
    · show Except.ok (Stacked.values nt nf fun t f p => (((a :: l).map fun s => Node.data nt nf (w s)).map fun n => n.value d t f).getD p d) = _
      simp only [List.map_map]
      rfl
    · intro h
      rw [List.any_eq_true] at h
      obtain ⟨m, hm, hc⟩ := h
      obtain ⟨s, -, rfl⟩ := List.mem_map.1 hm
      exact (of_decide_eq_true hc) rfl

/-- **C122** (names without `/`): once stored, a beam is read back with the frequencies given, the times rounded to doubles, all its
polarisations once, in capitals and in alphabetical order, and the values of each under its name; asked by its name, one polarisation
is found alone. -/
theorem store_read_partial {V : Type} (units : String → Option ℚ) (d : V) (file : Option (H5 V)) (name mode unit : String) (x : ToStore V)
    (l : List String) (k : ℚ) (hx : x.pols = .names l) (hnp : x.np = l.length) (hl : l ≠ []) (hg : GoodNames l)
    (hn : List.isSuffixOf ".hdf5".toList name.toLower.toList = true) (hk : units unit = some k) (hk0 : k ≠ 0) (hf : x.freq ≠ [])
    (hfree : Free file mode x.beam) :
    ∃ f, (store units file name mode unit x).1 = some f ∧ (store units file name mode unit x).2 = .ok () ∧
      (∃ pol v, getReduced units d f 0 x.beam none = .ok ⟨x.time.map jdFloat, x.freq, pol, .values x.nt x.nf v⟩ ∧
        pol.Perm (l.map String.toUpper) ∧ pol.Pairwise (· ≤ ·) ∧
        ∀ i (h : i < l.length), ∃ p, pol[p]? = some l[i].toUpper ∧ ∀ t f, v t f p = x.data t f i) ∧
      (∀ i (h : i < l.length), ∃ v, getReduced units d f 0 x.beam (some l[i].toUpper) =
          .ok ⟨x.time.map jdFloat, x.freq, [l[i].toUpper], .values x.nt x.nf v⟩ ∧ ∀ t f, v t f 0 = x.data t f i) ∧
      ∀ key, key ∉ l.map String.toUpper → getReduced units d f 0 x.beam (some key) = .error .keyError := by
  obtain ⟨f, beams, h1, h2, h3, h4⟩ := free_store units file name mode unit x k hn hk hf hfree
  have hp := pols_ok l hg x.nt x.nf x.data x.np (by omega)
  have hb : beamOf x unit k = (⟨x.time.map jdFloat, x.freq.map (· / k), unit,
      (List.range x.np).map fun i => ((l.getD i "").toUpper, Node.data x.nt x.nf fun t f => x.data t f i)⟩, none) := by
    unfold beamOf
    rw [hx, hp]
  rw [hb] at h2 h4
  have hkeys : (((List.range x.np).map fun i => ((l.getD i "").toUpper, Node.data x.nt x.nf fun t f => x.data t f i)).map Prod.fst)
      = l.map String.toUpper := by
    rw [List.map_map]
    apply List.ext_getElem
    · simp [hnp]
    · intro i h5 h6
      simp at h5 h6
      simp [List.getElem?_eq_getElem h6]
  have hfreq : (x.freq.map (· / k)).map (· * k) = x.freq := by
    rw [List.map_map]
    conv_rhs => rw [← List.map_id x.freq]
    apply List.map_congr_left
    intro a _
    show a / k * k = a
    exact div_mul_cancel₀ a hk0
  have hlook : ∀ i (h : i < l.length), ((List.range x.np).map fun i => ((l.getD i "").toUpper, Node.data x.nt x.nf fun t f => x.data t f i)).lookup
      l[i].toUpper = some (Node.data x.nt x.nf fun t f => x.data t f i) := by
    intro i h
    refine lookup_found _ (by rw [hkeys]; exact hg.distinct) _ _ ?_
    refine List.mem_map.2 ⟨i, List.mem_range.2 (by omega), ?_⟩
    rw [List.getD_eq_getElem _ _ h]
  -- the rank of a name, and its values
  have hex : ∀ s ∈ l.map String.toUpper, ∃ i, ∃ h : i < l.length, l[i].toUpper = s := by
    intro s hs
    obtain ⟨a, ha, rfl⟩ := List.mem_map.1 hs
    obtain ⟨i, hi, rfl⟩ := List.getElem_of_mem ha
    exact ⟨i, hi, rfl⟩
  let rank : String → Nat := fun s => (l.map String.toUpper).idxOf s
  have hrank : ∀ i (h : i < l.length), rank l[i].toUpper = i := by
    intro i h
    have := List.Nodup.idxOf_getElem hg.distinct i (by rw [List.length_map]; exact h)
    rw [List.getElem_map] at this
    exact this
  have hread : ∀ names : List String, (∀ s ∈ names, s ∈ l.map String.toUpper) → names ≠ [] →
      stack d (names.filterMap fun n => ((List.range x.np).map fun i => ((l.getD i "").toUpper, Node.data x.nt x.nf fun t f => x.data t f i)).lookup n)
        = .ok (.values x.nt x.nf fun t f p => (names.map fun s => x.data t f (rank s)).getD p d) := by
    intro names hs hne
    rw [← stack_data d names hne x.nt x.nf (fun s t f => x.data t f (rank s))]
    congr 1
    clear hne
    induction names with
    | nil => rfl
    | cons a names ih =>
      obtain ⟨i, hi, rfl⟩ := hex a (hs a (List.mem_cons_self ..))
      rw [List.filterMap_cons, hlook i hi, ih fun s h => hs s (List.mem_cons_of_mem _ h), List.map_cons, hrank i hi]
  have hget : ∀ key, getReduced units d f 0 x.beam key = readBeam units d ⟨x.time.map jdFloat, x.freq.map (· / k), unit,
      (List.range x.np).map fun i => ((l.getD i "").toUpper, Node.data x.nt x.nf fun t f => x.data t f i)⟩ key := by
    intro key
    unfold getReduced
    rw [if_pos rfl, h3]
    show Option.elim (beams.lookup x.beam) _ _ = _
    rw [h4]
    rfl
  have hgo : ∀ key names, chosen (⟨x.time.map jdFloat, x.freq.map (· / k), unit,
      (List.range x.np).map fun i => ((l.getD i "").toUpper, Node.data x.nt x.nf fun t f => x.data t f i)⟩ : BeamGroup V) key = .ok names →
      (∀ s ∈ names, s ∈ l.map String.toUpper) → names ≠ [] →
      getReduced units d f 0 x.beam key = .ok ⟨x.time.map jdFloat, x.freq, names,
        .values x.nt x.nf fun t f p => (names.map fun s => x.data t f (rank s)).getD p d⟩ := by
    intro key names hc hs hne
    rw [hget]
    unfold readBeam
    rw [hc]
    show Option.elim (units unit) _ _ = _
    rw [hk]
    show Except.map _ (stack d _) = _
    rw [hread names hs hne]
    show Except.ok (⟨_, (x.freq.map (· / k)).map (· * k), _, _⟩ : Reduced V) = _
    rw [hfreq]
  refine ⟨f, h1, h2, ?_, ?_, ?_⟩
  · have hperm : ((l.map String.toUpper).insertionSort (· ≤ ·)).Perm (l.map String.toUpper) := List.perm_insertionSort _ _
    refine ⟨(l.map String.toUpper).insertionSort (· ≤ ·), _, hgo none _ ?_ ?_ ?_, hperm, List.pairwise_insertionSort _ _, ?_⟩
    · show Except.ok ((((List.range x.np).map fun i => ((l.getD i "").toUpper, Node.data x.nt x.nf fun t f => x.data t f i)).map Prod.fst).insertionSort (· ≤ ·)) = _
      rw [hkeys]
    · exact fun s hs => hperm.mem_iff.1 hs
    · intro e
      rw [e] at hperm
      have := hperm.length_eq
      rw [List.length_map] at this
      exact hl (List.length_eq_zero_iff.1 this.symm)
    · intro i h
      have hm : l[i].toUpper ∈ (l.map String.toUpper).insertionSort (· ≤ ·) := hperm.mem_iff.2 (List.mem_map.2 ⟨_, List.getElem_mem h, rfl⟩)
      obtain ⟨p, hp, he⟩ := List.getElem_of_mem hm
      refine ⟨p, by rw [List.getElem?_eq_getElem hp, he], fun t f => ?_⟩
      rw [List.getD_eq_getElem _ _ (by rw [List.length_map]; exact hp), List.getElem_map, he, hrank i h]
  · intro i h
    have hm : l[i].toUpper ∈ l.map String.toUpper := List.mem_map.2 ⟨_, List.getElem_mem h, rfl⟩
    refine ⟨_, hgo (some l[i].toUpper) [l[i].toUpper] ?_ ?_ (by simp), fun t f => ?_⟩
    · show (if l[i].toUpper ∈ (((List.range x.np).map fun i => ((l.getD i "").toUpper, Node.data x.nt x.nf fun t f => x.data t f i)).map Prod.fst) then
        Except.ok [l[i].toUpper] else Except.error Err.keyError) = _
      rw [hkeys, if_pos hm]
    · intro s hs
      rw [List.mem_singleton.1 hs]
      exact hm
    · show x.data t f (rank l[i].toUpper) = _
      rw [hrank i h]
  · intro key hkey
    rw [hget]
    unfold readBeam
    have : chosen (⟨x.time.map jdFloat, x.freq.map (· / k), unit,
      (List.range x.np).map fun i => ((l.getD i "").toUpper, Node.data x.nt x.nf fun t f => x.data t f i)⟩ : BeamGroup V) (some key) = .error .keyError := by
      show (if key ∈ (((List.range x.np).map fun i => ((l.getD i "").toUpper, Node.data x.nt x.nf fun t f => x.data t f i)).map Prod.fst) then
        Except.ok [key] else Except.error Err.keyError) = _
      rw [hkeys, if_neg hkey]
    rw [this]
    rfl

/-- **C122**: a beam added to a file leaves all the others as they were; a beam already there is refused, and nothing changes. -/
theorem append_keeps {V : Type} (units : String → Option ℚ) (d : V) (f : H5 V) (beams : List (Nat × BeamGroup V)) (hs : f.sub = some beams)
    (name unit : String) (x : ToStore V) (hn : List.isSuffixOf ".hdf5".toList name.toLower.toList = true) (hk : (units unit).isSome)
    (hf : x.freq ≠ []) :
    (x.beam ∈ beams.map Prod.fst → store units (some f) name "auto" unit x = (some f, .error .exception)) ∧
    ∃ f', (store units (some f) name "auto" unit x).1 = some f' ∧
      ∀ b key, b ≠ x.beam → getReduced units d f' 0 b key = getReduced units d f 0 b key := by
  obtain ⟨k, hk⟩ := Option.isSome_iff_exists.1 hk
  have e : store units (some f) name "auto" unit x = (some (appendBeam f x unit k).1, (appendBeam f x unit k).2) := by
    unfold store
    rw [hn, if_neg (by decide), hk]
    show (if x.freq = [] then _ else storeIn (some f) (realMode (some f) "auto") x unit k) = _
    rw [if_neg hf, mode_auto]
    exact storeIn_a _ _ _ _
  rw [e]
  constructor
  · intro hb
    have : appendBeam f x unit k = (f, .error .exception) := by
      unfold appendBeam
      rw [hs]
      exact if_pos hb
    rw [this]
  · refine ⟨_, rfl, ?_⟩
    intro b key hb
    unfold getReduced
    rw [if_pos rfl, if_pos rfl]
    have : ((appendBeam f x unit k).1.sub.bind fun beams => beams.lookup b) = f.sub.bind fun beams => beams.lookup b := by
      unfold appendBeam
      rw [hs]
      dsimp only [Option.elim]
      by_cases hc : x.beam ∈ beams.map Prod.fst
      · rw [if_pos hc]
        dsimp only
        rw [hs]
      · rw [if_neg hc]
        exact lookup_other beams _ _ _ hb
    rw [this]

/-- **C122**: names without the extension, unknown units and unknown modes are refused, and the file stays as it was. -/
theorem store_refused {V : Type} (units : String → Option ℚ) (file : Option (H5 V)) (name mode unit : String) (x : ToStore V) :
    (List.isSuffixOf ".hdf5".toList name.toLower.toList = false → store units file name mode unit x = (file, .error .valueError)) ∧
    (units unit = none → store units file name mode unit x = (file, .error .valueError)) ∧
    (List.isSuffixOf ".hdf5".toList name.toLower.toList = true → (units unit).isSome → x.freq ≠ [] →
      mode.toLower ≠ "auto" → mode ∉ ["w", "a", "r", "r+", "x", "w-"] → store units file name mode unit x = (file, .error .valueError)) := by
  refine ⟨fun h => if_pos h, ?_, ?_⟩
  · intro h
    unfold store
    split
    · rfl
    · rw [h]; rfl
  · intro h hk hf ha hm
    obtain ⟨k, hk⟩ := Option.isSome_iff_exists.1 hk
    simp only [List.mem_cons, List.not_mem_nil, or_false, not_or] at hm
    unfold store
    rw [h, if_neg (by decide), hk]
    show (if x.freq = [] then _ else storeIn file (if mode.toLower = "auto" then _ else mode) x unit k) = _
    rw [if_neg hf, if_neg ha]
    unfold storeIn
    rw [if_neg hm.1, if_neg hm.2.1, if_neg (not_or.2 ⟨hm.2.2.1, hm.2.2.2.1⟩), if_neg (not_or.2 ⟨hm.2.2.2.2.1, hm.2.2.2.2.2⟩)]

/-- **C122** (violated): appending to a file which does not exist makes an empty one, in which nothing can be appended any more. -/
theorem store_missing_violated {V : Type} (units : String → Option ℚ) (name unit : String) (x y : ToStore V) (hx : x.freq ≠ []) (hy : y.freq ≠ [])
    (hn : List.isSuffixOf ".hdf5".toList name.toLower.toList = true) (hk : (units unit).isSome) :
    (store units none name "a" unit x).2 = .error .keyError ∧
    (store units (store units none name "a" unit x).1 name "auto" unit y).2 = .error .keyError ∧
    (store units none name "auto" unit y).2 ≠ .error .keyError := by
  obtain ⟨k, hk⟩ := Option.isSome_iff_exists.1 hk
  have e : ∀ (file : Option (H5 V)) mode (z : ToStore V), z.freq ≠ [] → store units file name mode unit z = storeIn file (realMode file mode) z unit k := by
    intro file mode z hz
    unfold store
    rw [hn, if_neg (by decide), hk]
    exact if_neg hz
  have e1 : store units none name "a" unit x = (some ⟨none, none⟩, .error .keyError) := by
    rw [e _ _ _ hx, mode_a, storeIn_a]
    rfl
  refine ⟨by rw [e1], ?_, ?_⟩
  · rw [e1, e _ _ _ hy, mode_auto]
    show (storeIn _ "a" _ _ _).2 = _
    rw [storeIn_a]
    rfl
  · rw [e _ _ _ hy, mode_auto]
    show (storeIn none "w" _ _ _).2 ≠ _
    rw [storeIn_w]
    show asResult (storePols y.pols y.nt y.nf y.np y.data).2 ≠ _
    have key : ∀ n, ((List.range n).foldl (storePol y.pols y.nt y.nf y.data) ([], none)).2 ≠ some .keyError := by
      intro n
      induction n with
      | zero => exact fun h => by cases h
      | succ n ih =>
        rw [List.range_succ, List.foldl_append, List.foldl_cons, List.foldl_nil]
        generalize (List.range n).foldl (storePol y.pols y.nt y.nf y.data) ([], none) = acc at ih
        obtain ⟨items, err⟩ := acc
        cases err with
        | some e => exact ih
        | none =>
          unfold storePol
          dsimp only [Option.elim]
          cases y.pols.item n with
          | none => exact fun h => by cases h
          | some s =>
            dsimp only [Option.elim]
            unfold addNode
            generalize splitName s.toUpper = sp
            obtain ⟨g, r⟩ := sp
            cases g with
            | none =>
              dsimp only [Option.elim]
              unfold addPlain
              split
              · exact fun h => by cases h
              · exact fun h => by cases h
            | some g =>
              dsimp only [Option.elim]
              cases items.lookup g with
              | none => exact fun h => by cases h
              | some nd =>
                cases nd with
                | data a b v => exact fun h => by cases h
                | group ms =>
                  by_cases hr : r ∈ ms.map Prod.fst
                  · have : addIn items g r y.nt y.nf (fun t f => y.data t f n) (some (.group ms)) = .error .valueError := if_pos hr
                    rw [this]
                    exact fun h => by cases h
                  · have : addIn items g r y.nt y.nf (fun t f => y.data t f n) (some (.group ms)) = .ok _ := if_neg hr
                    rw [this]
                    exact fun h => by cases h
    intro h
    have : (storePols y.pols y.nt y.nf y.np y.data).2 = some .keyError := by
      cases hh : (storePols y.pols y.nt y.nf y.np y.data).2 with
      | none => rw [hh] at h; cases h
      | some e => rw [hh] at h; cases h; rfl
    exact key _ this

/-! ## Names with a slash -/

/-- **C122** (violated): saved with `stokes="V/I"`, a ratio gives the very file that the parameter `V` would give: it is read as `V`. -/
theorem stokes_text_violated {V : Type} (units : String → Option ℚ) (file : Option (H5 V)) (name : String) (overwrite : Bool) (x : ToStore V)
    (h1 : x.np = 1) :
    saveFrom units file name (some (.text "V/I")) overwrite x = saveFrom units file name (some (.text "V")) overwrite x := by
  have hp : storePols (.text "V/I") x.nt x.nf x.np x.data = storePols (.text "V") x.nt x.nf x.np x.data := by
    rw [h1]
    rfl
  have hb : ∀ unit k, beamOf { x with pols := Pols.text "V/I" } unit k = beamOf { x with pols := Pols.text "V" } unit k := by
    intro unit k
    unfold beamOf
    dsimp only
    rw [hp]
  have ha : ∀ (f : H5 V) unit k, appendBeam f { x with pols := Pols.text "V/I" } unit k = appendBeam f { x with pols := Pols.text "V" } unit k := by
    intro f unit k
    unfold appendBeam
    rw [hb]
  have hw : ∀ unit k, newFile { x with pols := Pols.text "V/I" } unit k = newFile { x with pols := Pols.text "V" } unit k := by
    intro unit k
    unfold newFile
    rw [hb]
    rfl
  unfold saveFrom store
  dsimp only [Option.getD]
  split
  · rfl
  · cases units "MHz" with
    | none => rfl
    | some k =>
      dsimp only [Option.elim]
      split
      · rfl
      · unfold storeIn
        rw [ha, hw]

theorem storePol_ok {V : Type} (pols : Pols) (nt nf : Nat) (data : Nat → Nat → Nat → V) (items l : List (String × Node V)) (pi : Nat) (name : String)
    (hi : pols.item pi = some name) (ha : addNode items name.toUpper nt nf (fun t f => data t f pi) = .ok l) :
    storePol pols nt nf data (items, none) pi = (l, none) := by
  unfold storePol
  dsimp only [Option.elim]
  rw [hi]
  dsimp only [Option.elim]
  rw [ha]

theorem storePol_err {V : Type} (pols : Pols) (nt nf : Nat) (data : Nat → Nat → Nat → V) (items : List (String × Node V)) (pi : Nat) (name : String)
    (e : Err) (hi : pols.item pi = some name) (ha : addNode items name.toUpper nt nf (fun t f => data t f pi) = .error e) :
    storePol pols nt nf data (items, none) pi = (items, some e) := by
  unfold storePol
  dsimp only [Option.elim]
  rw [hi]
  dsimp only [Option.elim]
  rw [ha]

theorem three_names {V : Type} (nt nf : Nat) (data : Nat → Nat → Nat → V) :
    storePols (.names ["I", "Q", "V/I"]) nt nf 3 data =
      ([("I", .data nt nf fun t f => data t f 0), ("Q", .data nt nf fun t f => data t f 1),
        ("V", .group [("I", nt, nf, fun t f => data t f 2)])], none) := by
  have s1 : "I".toUpper = "I" := by decide +kernel
  have s2 : "Q".toUpper = "Q" := by decide +kernel
  have s3 : "V/I".toUpper = "V/I" := by decide +kernel
  have s4 : splitName "V/I" = (some "V", "I") := by decide +kernel
  have s5 : splitName "I" = (none, "I") := by decide +kernel
  have s6 : splitName "Q" = (none, "Q") := by decide +kernel
  unfold storePols
  rw [show List.range 3 = [0, 1, 2] from rfl, List.foldl_cons, List.foldl_cons, List.foldl_cons, List.foldl_nil]
  have e1 : storePol (.names ["I", "Q", "V/I"]) nt nf data ([], none) 0 = ([("I", .data nt nf fun t f => data t f 0)], none) := by
    refine storePol_ok _ _ _ _ _ _ _ "I" rfl ?_
    unfold addNode
    rw [s1, s5]
    rfl
  have e2 : storePol (.names ["I", "Q", "V/I"]) nt nf data ([("I", .data nt nf fun t f => data t f 0)], none) 1 =
      ([("I", .data nt nf fun t f => data t f 0), ("Q", .data nt nf fun t f => data t f 1)], none) := by
    refine storePol_ok _ _ _ _ _ _ _ "Q" rfl ?_
    unfold addNode
    rw [s2, s6]
    rfl
  rw [e1, e2]
  refine storePol_ok _ _ _ _ _ _ _ "V/I" rfl ?_
  unfold addNode
  rw [s3, s4]
  rfl

/-- **C122** (violated): the selection given in the documentation, `["I", "Q", "V/I"]`, is stored without any error, but then neither the
beam nor the ratio can be read. -/
theorem ratio_violated {V : Type} (units : String → Option ℚ) (d : V) (file : Option (H5 V)) (name mode unit : String) (x : ToStore V) (k : ℚ)
    (hx : x.pols = .names ["I", "Q", "V/I"]) (hnp : x.np = 3) (hn : List.isSuffixOf ".hdf5".toList name.toLower.toList = true)
    (hk : units unit = some k) (hf : x.freq ≠ []) (hfree : Free file mode x.beam) :
    ∃ f, (store units file name mode unit x).1 = some f ∧ (store units file name mode unit x).2 = .ok () ∧
      getReduced units d f 0 x.beam none = .error .valueError ∧ getReduced units d f 0 x.beam (some "V/I") = .error .keyError := by
  obtain ⟨f, beams, h1, h2, h3, h4⟩ := free_store units file name mode unit x k hn hk hf hfree
  have hp := three_names x.nt x.nf x.data
  have hb : beamOf x unit k = (⟨x.time.map jdFloat, x.freq.map (· / k), unit,
      [("I", .data x.nt x.nf fun t f => x.data t f 0), ("Q", .data x.nt x.nf fun t f => x.data t f 1),
        ("V", .group [("I", x.nt, x.nf, fun t f => x.data t f 2)])]⟩, none) := by
    unfold beamOf
    rw [hx, hnp, hp]
  rw [hb] at h2 h4
  have hget : ∀ key, getReduced units d f 0 x.beam key = readBeam units d ⟨x.time.map jdFloat, x.freq.map (· / k), unit,
      [("I", .data x.nt x.nf fun t f => x.data t f 0), ("Q", .data x.nt x.nf fun t f => x.data t f 1),
        ("V", .group [("I", x.nt, x.nf, fun t f => x.data t f 2)])]⟩ key := by
    intro key
    unfold getReduced
    rw [if_pos rfl, h3]
    show Option.elim (beams.lookup x.beam) _ _ = _
    rw [h4]
    rfl
  refine ⟨f, h1, h2, ?_, ?_⟩
  · rw [hget]
    unfold readBeam
    have hc : chosen (⟨x.time.map jdFloat, x.freq.map (· / k), unit,
      [("I", .data x.nt x.nf fun t f => x.data t f 0), ("Q", .data x.nt x.nf fun t f => x.data t f 1),
        ("V", .group [("I", x.nt, x.nf, fun t f => x.data t f 2)])]⟩ : BeamGroup V) none = .ok ["I", "Q", "V"] := by
      show Except.ok (["I", "Q", "V"].insertionSort (· ≤ ·)) = _
      have : ["I", "Q", "V"].insertionSort (· ≤ ·) = ["I", "Q", "V"] := by decide +kernel
      rw [this]
    rw [hc]
    show Option.elim (units unit) _ _ = _
    rw [hk]
    show Except.map _ (stack d [Node.data x.nt x.nf fun t f => x.data t f 0, Node.data x.nt x.nf fun t f => x.data t f 1,
      Node.group [("I", x.nt, x.nf, fun t f => x.data t f 2)]]) = _
    have : stack d [Node.data x.nt x.nf fun t f => x.data t f 0, Node.data x.nt x.nf fun t f => x.data t f 1,
        Node.group [("I", x.nt, x.nf, fun t f => x.data t f 2)]] = .error .valueError := by
      unfold stack
      refine if_pos ?_
      rw [List.any_eq_true]
      refine ⟨_, List.mem_cons_of_mem _ (List.mem_cons_of_mem _ (List.mem_cons_self ..)), decide_eq_true ?_⟩
      intro h
      have := congrArg List.length h
      change 1 = 2 at this
      omega
    rw [this]
    rfl
  · rw [hget]
    rfl

/-- **C122** (violated): a parameter and its ratio to `I` cannot be stored together; the file keeps the first one only, and a new
attempt in the same file is refused. -/
theorem ratio_both_violated {V : Type} (units : String → Option ℚ) (name unit : String) (x y : ToStore V) (k : ℚ)
    (hx : x.pols = .names ["V", "V/I"]) (hnp : x.np = 2) (hn : List.isSuffixOf ".hdf5".toList name.toLower.toList = true)
    (hk : units unit = some k) (hf : x.freq ≠ []) (hy : y.freq ≠ []) (hb : y.beam = x.beam) :
    (store units none name "auto" unit x).2 = .error .typeError ∧
    (store units (store units none name "auto" unit x).1 name "auto" unit y).2 = .error .exception := by
  have s1 : "V".toUpper = "V" := by decide +kernel
  have s3 : "V/I".toUpper = "V/I" := by decide +kernel
  have s4 : splitName "V/I" = (some "V", "I") := by decide +kernel
  have s5 : splitName "V" = (none, "V") := by decide +kernel
  have e : ∀ (file : Option (H5 V)) mode (z : ToStore V), z.freq ≠ [] → store units file name mode unit z = storeIn file (realMode file mode) z unit k := by
    intro file mode z hz
    unfold store
    rw [hn, if_neg (by decide), hk]
    exact if_neg hz
  have hp : storePols (.names ["V", "V/I"]) x.nt x.nf 2 x.data = ([("V", .data x.nt x.nf fun t f => x.data t f 0)], some .typeError) := by
    unfold storePols
    rw [show List.range 2 = [0, 1] from rfl, List.foldl_cons, List.foldl_cons, List.foldl_nil]
    have e1 : storePol (.names ["V", "V/I"]) x.nt x.nf x.data ([], none) 0 = ([("V", .data x.nt x.nf fun t f => x.data t f 0)], none) := by
      refine storePol_ok _ _ _ _ _ _ _ "V" rfl ?_
      unfold addNode
      rw [s1, s5]
      rfl
    rw [e1]
    refine storePol_err _ _ _ _ _ _ "V/I" _ rfl ?_
    unfold addNode
    rw [s3, s4]
    rfl
  have e1 : store units none name "auto" unit x = (some (newFile x unit k).1, (newFile x unit k).2) := by
    rw [e _ _ _ hf, mode_auto]
    exact storeIn_w _ _ _ _
  have e2 : (newFile x unit k).2 = .error .typeError := by
    show asResult (storePols x.pols x.nt x.nf x.np x.data).2 = _
    rw [hx, hnp, hp]
    rfl
  refine ⟨by rw [e1]; exact e2, ?_⟩
  rw [e1, e _ _ _ hy, mode_auto]
  show (storeIn _ "a" _ _ _).2 = _
  rw [storeIn_a]
  have : appendBeam (newFile x unit k).1 y unit k = ((newFile x unit k).1, .error .exception) := by
    refine if_pos ?_
    rw [hb]
    exact List.mem_cons_self ..
  show (appendBeam (newFile x unit k).1 y unit k).2 = _
  rw [this]

/-- **C122** (violated): with too few names the storing fails, but the beam is in the file: storing it again with all the names is refused. -/
theorem store_failed_violated {V : Type} (units : String → Option ℚ) (name unit : String) (x y : ToStore V) (l : List String) (k : ℚ)
    (hx : x.pols = .names l) (hnp : l.length < x.np) (hg : GoodNames l) (hn : List.isSuffixOf ".hdf5".toList name.toLower.toList = true)
    (hk : units unit = some k) (hf : x.freq ≠ []) (hy : y.freq ≠ []) (hb : y.beam = x.beam) :
    (store units none name "auto" unit x).2 = .error .indexError ∧
    (store units (store units none name "auto" unit x).1 name "auto" unit y).2 = .error .exception := by
  have e : ∀ (file : Option (H5 V)) mode (z : ToStore V), z.freq ≠ [] → store units file name mode unit z = storeIn file (realMode file mode) z unit k := by
    intro file mode z hz
    unfold store
    rw [hn, if_neg (by decide), hk]
    exact if_neg hz
  have hp : ∀ n, l.length < n → (storePols (.names l) x.nt x.nf n x.data).2 = some .indexError := by
    intro n hn
    induction n with
    | zero => omega
    | succ n ih =>
      unfold storePols at ih ⊢
      rw [List.range_succ, List.foldl_append, List.foldl_cons, List.foldl_nil]
      rcases Nat.lt_or_ge l.length n with h | h
      · have ih := ih h
        generalize (List.range n).foldl (storePol (.names l) x.nt x.nf x.data) ([], none) = acc at ih
        obtain ⟨items, err⟩ := acc
        dsimp only at ih
        rw [ih]
        rfl
      · have he : n = l.length := by omega
        have h0 := pols_ok l hg x.nt x.nf x.data n (by omega)
        unfold storePols at h0
        rw [h0]
        have hi : (Pols.names l).item n = none := by
          show l[n]? = none
          rw [List.getElem?_eq_none (by omega)]
        unfold storePol
        dsimp only [Option.elim]
        rw [hi]
  have e1 : store units none name "auto" unit x = (some (newFile x unit k).1, (newFile x unit k).2) := by
    rw [e _ _ _ hf, mode_auto]
    exact storeIn_w _ _ _ _
  have e2 : (newFile x unit k).2 = .error .indexError := by
    show asResult (storePols x.pols x.nt x.nf x.np x.data).2 = _
    rw [hx, hp _ hnp]
    rfl
  refine ⟨by rw [e1]; exact e2, ?_⟩
  rw [e1, e _ _ _ hy, mode_auto]
  show (storeIn _ "a" _ _ _).2 = _
  rw [storeIn_a]
  have : appendBeam (newFile x unit k).1 y unit k = ((newFile x unit k).1, .error .exception) := by
    refine if_pos ?_
    rw [hb]
    exact List.mem_cons_self ..
  show (appendBeam (newFile x unit k).1 y unit k).2 = _
  rw [this]

/-- **C122** (violated): the limits in the header of a file are those of its first beam, whatever is added to it. -/
theorem header_violated {V : Type} (units : String → Option ℚ) (name unit : String) (x y : ToStore V) (k : ℚ) (hb : y.beam ≠ x.beam)
    (hn : List.isSuffixOf ".hdf5".toList name.toLower.toList = true) (hk : units unit = some k) (hk0 : 0 < k) (hf : x.freq ≠ []) (hy : y.freq ≠ [])
    (hhigh : highest x.freq < highest y.freq) :
    ∃ f h b, (store units (store units none name "auto" unit x).1 name "auto" unit y).1 = some f ∧ f.header = some h ∧
      (f.sub.bind fun beams => beams.lookup y.beam) = some b ∧ h.fmax < highest y.freq / k ∧ b.freq = y.freq.map (· / k) := by
  have e : ∀ (file : Option (H5 V)) mode (z : ToStore V), z.freq ≠ [] → store units file name mode unit z = storeIn file (realMode file mode) z unit k := by
    intro file mode z hz
    unfold store
    rw [hn, if_neg (by decide), hk]
    exact if_neg hz
  have e1 : store units none name "auto" unit x = (some (newFile x unit k).1, (newFile x unit k).2) := by
    rw [e _ _ _ hf, mode_auto]
    exact storeIn_w _ _ _ _
  have e2 : store units (some (newFile x unit k).1) name "auto" unit y =
      (some (appendBeam (newFile x unit k).1 y unit k).1, (appendBeam (newFile x unit k).1 y unit k).2) := by
    rw [e _ _ _ hy, mode_auto]
    exact storeIn_a _ _ _ _
  have e3 : appendBeam (newFile x unit k).1 y unit k =
      ({ (newFile x unit k).1 with sub := some ([(x.beam, (beamOf x unit k).1)] ++ [(y.beam, (beamOf y unit k).1)]) }, asResult (beamOf y unit k).2) := by
    refine if_neg ?_
    intro h
    rw [List.map_cons, List.map_nil, List.mem_singleton] at h
    exact hb h
  rw [e1, e2, e3]
  refine ⟨_, headerOf x unit k, (beamOf y unit k).1, rfl, rfl, ?_, ?_, rfl⟩
  · exact lookup_snoc [(x.beam, (beamOf x unit k).1)] _ _ (by simpa using hb)
  · exact div_lt_div_of_pos_right hhigh hk0

theorem lowest_spec (l : List ℚ) (h : l ≠ []) : lowest l ∈ l ∧ ∀ x ∈ l, lowest l ≤ x := by
  have key : ∀ (l : List ℚ) (d : ℚ), (l.foldr min d = d ∨ l.foldr min d ∈ l) ∧ ∀ x ∈ l, l.foldr min d ≤ x := by
    intro l d
    induction l with
    | nil => exact ⟨Or.inl rfl, fun x hx => by cases hx⟩
    | cons a l ih =>
      rw [List.foldr_cons]
      constructor
      · rcases min_choice a (l.foldr min d) with h1 | h1
        · rw [h1]; exact Or.inr List.mem_cons_self
        · rw [h1]; exact ih.1.imp id (List.mem_cons_of_mem _)
      · intro x hx
        rcases List.mem_cons.1 hx with rfl | hx
        · exact min_le_left _ _
        · exact (min_le_right _ _).trans (ih.2 x hx)
  cases l with
  | nil => exact absurd rfl h
  | cons a l =>
    refine ⟨?_, (key (a :: l) a).2⟩
    rcases (key (a :: l) a).1 with h1 | h1
    · show (a :: l).foldr min a ∈ _
      rw [h1]; exact List.mem_cons_self
    · exact h1

theorem highest_spec (l : List ℚ) (h : l ≠ []) : highest l ∈ l ∧ ∀ x ∈ l, x ≤ highest l := by
  have key : ∀ (l : List ℚ) (d : ℚ), (l.foldr max d = d ∨ l.foldr max d ∈ l) ∧ ∀ x ∈ l, x ≤ l.foldr max d := by
    intro l d
    induction l with
    | nil => exact ⟨Or.inl rfl, fun x hx => by cases hx⟩
    | cons a l ih =>
      rw [List.foldr_cons]
      constructor
      · rcases max_choice a (l.foldr max d) with h1 | h1
        · rw [h1]; exact Or.inr List.mem_cons_self
        · rw [h1]; exact ih.1.imp id (List.mem_cons_of_mem _)
      · intro x hx
        rcases List.mem_cons.1 hx with rfl | hx
        · exact le_max_left _ _
        · exact (ih.2 x hx).trans (le_max_right _ _)
  cases l with
  | nil => exact absurd rfl h
  | cons a l =>
    refine ⟨?_, (key (a :: l) a).2⟩
    rcases (key (a :: l) a).1 with h1 | h1
    · show (a :: l).foldr max a ∈ _
      rw [h1]; exact List.mem_cons_self
    · exact h1

/-- **C122**: the header of a new file holds its first and last times, its lowest and highest frequencies, and their unit. -/
theorem header_exact {V : Type} (units : String → Option ℚ) (name unit : String) (x : ToStore V) (k : ℚ)
    (hn : List.isSuffixOf ".hdf5".toList name.toLower.toList = true) (hk : units unit = some k) (hk0 : 0 < k) (hf : x.freq ≠ []) :
    ∃ f h, (store units none name "auto" unit x).1 = some f ∧ f.header = some h ∧ h.unit = unit ∧ (∀ t ts, x.time = t :: ts → h.start = t) ∧
      (∀ t ts, x.time = ts ++ [t] → h.stop = t) ∧ (∃ v ∈ x.freq, h.fmin = v / k) ∧ (∃ v ∈ x.freq, h.fmax = v / k) ∧
      ∀ v ∈ x.freq, h.fmin ≤ v / k ∧ v / k ≤ h.fmax := by
  have e : store units none name "auto" unit x = (some (newFile x unit k).1, (newFile x unit k).2) := by
    unfold store
    rw [hn, if_neg (by decide), hk]
    show (if x.freq = [] then _ else storeIn none (realMode none "auto") x unit k) = _
    rw [if_neg hf, mode_auto]
    exact storeIn_w _ _ _ _
  rw [e]
  refine ⟨_, headerOf x unit k, rfl, rfl, rfl, fun t ts h => ?_, fun t ts h => ?_, ⟨_, (lowest_spec _ hf).1, rfl⟩, ⟨_, (highest_spec _ hf).1, rfl⟩,
    fun v hv => ⟨div_le_div_of_nonneg_right ((lowest_spec _ hf).2 v hv) hk0.le, div_le_div_of_nonneg_right ((highest_spec _ hf).2 v hv) hk0.le⟩⟩
  · show x.time.headD 0 = t
    rw [h]; rfl
  · show x.time.getLastD 0 = t
    rw [h]; simp

/-- **C122**: a beam saved without `overwrite` leaves the others of the file as they were; with `overwrite` the file has this beam only. -/
theorem save_keeps {V : Type} (units : String → Option ℚ) (d : V) (f : H5 V) (beams : List (Nat × BeamGroup V)) (hs : f.sub = some beams)
    (name : String) (stokes : Option Pols) (x : ToStore V) (hn : List.isSuffixOf ".hdf5".toList name.toLower.toList = true)
    (hk : (units "MHz").isSome) (hf : x.freq ≠ []) :
    (∃ f', (saveFrom units (some f) name stokes false x).1 = some f' ∧ ∀ b key, b ≠ x.beam → getReduced units d f' 0 b key = getReduced units d f 0 b key) ∧
    ∃ f' g, (saveFrom units (some f) name stokes true x).1 = some f' ∧ f'.sub = some [(x.beam, g)] := by
  constructor
  · obtain ⟨f', h1, h2⟩ := (append_keeps units d f beams hs name "MHz" { x with pols := stokes.getD (.names ["XX", "XY", "YX", "YY"]) } hn hk hf).2
    exact ⟨f', h1, h2⟩
  · obtain ⟨k, hk⟩ := Option.isSome_iff_exists.1 hk
    have e : saveFrom units (some f) name stokes true x = storeIn (some f) (realMode (some f) "w") { x with pols := stokes.getD (.names ["XX", "XY", "YX", "YY"]) } "MHz" k := by
      unfold saveFrom store
      rw [hn, if_neg (by decide), hk]
      exact if_neg hf
    rw [e, mode_w, storeIn_w]
    exact ⟨_, _, rfl, rfl⟩

/-! ## Times -/

/-- **C122**: stored times are within 2⁻³² day (20.2 µs) of those given, and keep their order. -/
theorem stored_times (t u : ℚ) : |jdFloat t - t| ≤ 1 / 4294967296 ∧ (t ≤ u → jdFloat t ≤ jdFloat u) := by
  constructor
  · unfold jdFloat
    have h := abs_sub_round (t * 2147483648)
    rw [abs_le] at h ⊢
    constructor
    · rw [le_sub_iff_add_le, le_div_iff₀ (by norm_num)]
      linarith [h.2]
    · rw [sub_le_iff_le_add, div_le_iff₀ (by norm_num)]
      linarith [h.1]
  · intro h
    unfold jdFloat
    refine div_le_div_of_nonneg_right ?_ (by norm_num)
    rw [round_eq, round_eq]
    exact_mod_cast Int.floor_le_floor (by linarith)

/-- **C122** (violated): of any three samples 20 µs apart or closer, two have the same time in the file. -/
theorem stored_times_violated (t δ : ℚ) (h0 : 0 < δ) (h1 : δ ≤ 1 / 4294967296) :
    jdFloat t = jdFloat (t + δ) ∨ jdFloat (t + δ) = jdFloat (t + 2 * δ) := by
  have hm1 := (stored_times t (t + δ)).2 (by linarith)
  have hm2 := (stored_times (t + δ) (t + 2 * δ)).2 (by linarith)
  unfold jdFloat at hm1 hm2 ⊢
  rw [div_le_div_iff_of_pos_right (by norm_num), Int.cast_le] at hm1 hm2
  have h3 : round ((t + 2 * δ) * 2147483648) ≤ round (t * 2147483648) + 1 := by
    rw [round_eq, round_eq, ← Int.floor_add_one]
    exact Int.floor_le_floor (by linarith)
  rcases lt_or_ge (round (t * 2147483648)) (round ((t + δ) * 2147483648)) with h | h
  · right
    rw [le_antisymm hm2 (by omega)]
  · left
    rw [le_antisymm hm1 h]

/-! ## The hypotheses can be met -/

/-- Megahertz only. -/
def onlyMHz (s : String) : Option ℚ := if s = "MHz" then some 1000000 else none

example : GoodNames ["I", "q", "U"] :=
  { slash := by decide +kernel
    coords := by decide +kernel
    distinct := by decide +kernel }

example : List.isSuffixOf ".hdf5".toList "Sun.HDF5".toLower.toList = true ∧ onlyMHz "MHz" = some 1000000 := by
  constructor
  · decide +kernel
  · rfl

example : Free (V := Nat) none "auto" 3 ∧ Free (V := Nat) (some ⟨none, some [(0, ⟨[], [], "MHz", []⟩)]⟩) "auto" 3 :=
  ⟨.inr (.inl ⟨rfl, rfl⟩), .inr (.inr ⟨_, _, rfl, rfl, by decide, .inl rfl⟩)⟩

/-- **C122**: there is no analog beam other than the first in such files: asking for one is refused. -/
theorem get_other_refused {V : Type} (units : String → Option ℚ) (d : V) (file : H5 V) (sub beam : Nat) (key : Option String) (h : sub ≠ 0) :
    getReduced units d file sub beam key = .error .keyError := by
  unfold getReduced
  rw [if_neg h]

end Verif.TF
