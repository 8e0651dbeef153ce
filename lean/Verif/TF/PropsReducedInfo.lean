import Verif.TF.ReducedInfo
import Verif.TF.PropsReduced

/-!
# C182: what a file of reduced data tells about itself is what can be read from it
-/

namespace Verif.TF

/-! ## Lists of lines -/

theorem takeWhile_whole {α : Type} (p : α → Bool) {l : List α} (h : ∀ a ∈ l, p a = true) : l.takeWhile p = l := by
  induction l with
  | nil => rfl
  | cons a l ih =>
    rw [List.takeWhile_cons_of_pos (h a (List.mem_cons_self ..)), ih fun x hx => h x (List.mem_cons_of_mem _ hx)]

theorem allOk_map {α β : Type} (f : α → Except Err β) (g : α → β) (l : List α) (h : ∀ a ∈ l, f a = .ok (g a)) : allOk f l = .ok (l.map g) := by
  induction l with
  | nil => rfl
  | cons a l ih =>
    show (f a).bind _ = _
    rw [h a (List.mem_cons_self ..)]
    show (allOk f l).map _ = _
    rw [ih fun x hx => h x (List.mem_cons_of_mem _ hx)]
    rfl

theorem allOk_error {α β : Type} (f : α → Except Err β) (e : Err) (l : List α) (ha : ∀ a ∈ l, (∃ b, f a = .ok b) ∨ f a = .error e)
    (hx : ∃ a ∈ l, f a = .error e) : allOk f l = .error e := by
  induction l with
  | nil =>
    obtain ⟨a, h, _⟩ := hx
    cases h
  | cons a l ih =>
    show (f a).bind _ = _
    rcases ha a (List.mem_cons_self ..) with ⟨b, hb⟩ | hb
    · rw [hb]
      show (allOk f l).map _ = _
      obtain ⟨c, hc, hce⟩ := hx
      rcases List.mem_cons.1 hc with rfl | hc
      · rw [hb] at hce
        cases hce
      · rw [ih (fun x h => ha x (List.mem_cons_of_mem _ h)) ⟨c, hc, hce⟩]
        rfl
    · rw [hb]
      rfl

/-! ## Numbers of the beams -/

theorem zeros_digits (k : Nat) (l : List Char) : Nat.ofDigitChars 10 (List.replicate k '0' ++ l) 0 = Nat.ofDigitChars 10 l 0 := by
  induction k with
  | zero => rfl
  | succ k ih =>
    rw [List.replicate_succ, List.cons_append, Nat.ofDigitChars_cons]
    exact ih

theorem digits_plain (n : Nat) : ∀ c ∈ threeDigits n, c ≠ '_' := by
  intro c hc
  rcases List.mem_append.1 hc with h | h
  · rw [List.eq_of_mem_replicate h]
    decide
  · rintro rfl
    have := Nat.isDigit_of_mem_toDigits (by norm_num) (by norm_num) h
    exact absurd this (by decide)

/-- **C182**: the number told for a beam is its number. -/
theorem id_exact (n : Nat) : idOf (beamKey n) = n ∧ idOf pointingKey = 0 := by
  refine ⟨?_, by decide +kernel⟩
  unfold idOf beamKey
  rw [String.toList_ofList, List.reverse_append]
  have h : (threeDigits n).reverse.takeWhile (· ≠ '_') = (threeDigits n).reverse := by
    refine takeWhile_whole _ fun c hc => ?_
    exact decide_eq_true (digits_plain n c (List.mem_reverse.1 hc))
  rw [List.takeWhile_append, if_pos (by rw [h])]
  have e : ("BEAM_".toList.reverse.takeWhile fun c => decide (c ≠ '_')) = [] := by decide +kernel
  rw [e, List.append_nil, List.reverse_reverse]
  unfold threeDigits
  rw [zeros_digits]
  exact Nat.ofDigitChars_ten_toDigits

example : beamKey 7 = "BEAM_007" := by decide +kernel

theorem key_inj (n m : Nat) (h : beamKey n = beamKey m) : n = m := by
  rw [← (id_exact n).1, h, (id_exact m).1]

theorem digit_lt : ∀ a < 10, ∀ b < 10, (Nat.digitChar a < Nat.digitChar b ↔ a < b) ∧ (Nat.digitChar a = Nat.digitChar b ↔ a = b) := by decide +kernel

theorem three_exact : ∀ n < 1000, threeDigits n = [Nat.digitChar (n / 100), Nat.digitChar (n / 10 % 10), Nat.digitChar (n % 10)] := by decide +kernel

theorem four_exact (n : Nat) (h1 : 1000 ≤ n) (h2 : n < 2000) : ∃ r, threeDigits n = '1' :: r := by
  have : ∀ k < 1000, (threeDigits (1000 + k)).head? = some '1' := by decide +kernel
  have := this (n - 1000) (by omega)
  rw [show 1000 + (n - 1000) = n by omega] at this
  cases ht : threeDigits n with
  | nil => rw [ht] at this; cases this
  | cons a r =>
    rw [ht] at this
    have e : a = '1' := Option.some.inj this
    exact ⟨r, by rw [e]⟩

theorem key_lt (n m : Nat) : beamKey n < beamKey m ↔ threeDigits n < threeDigits m := by
  unfold beamKey
  rw [String.lt_iff_toList_lt]
  have e : "BEAM_".toList = ['B', 'E', 'A', 'M', '_'] := by decide +kernel
  simp only [e, String.toList_ofList, List.cons_append, List.nil_append, List.cons_lt_cons_iff, lt_irrefl, false_or, true_and]

/-- **C182**: below 1000 the order of the names is that of the numbers, so that beams are told by increasing numbers. -/
theorem order_partial (n m : Nat) (hn : n < 1000) (hm : m < 1000) : beamKey n ≤ beamKey m ↔ n ≤ m := by
  rw [← not_lt, ← not_lt, key_lt, three_exact n hn, three_exact m hm, List.cons_lt_cons_iff, List.cons_lt_cons_iff, List.cons_lt_cons_iff,
    (digit_lt _ (by omega) _ (by omega)).1, (digit_lt _ (by omega) _ (by omega)).2, (digit_lt _ (by omega) _ (by omega)).1,
    (digit_lt _ (by omega) _ (by omega)).2, (digit_lt _ (by omega) _ (by omega)).1, (digit_lt _ (by omega) _ (by omega)).2]
  have h : ¬ ([] : List Char) < [] := by decide
  constructor
  · intro h1 h2
    apply h1
    omega
  · intro h1 h2
    apply h1
    rcases h2 with h2 | ⟨h2, h3 | ⟨h3, h4 | ⟨h4, h5⟩⟩⟩
    · omega
    · omega
    · omega
    · exact absurd h5 h

/-- **C182** (violated): beams of four digits which begin with 1 are told before the beams 200 to 999. -/
theorem order_violated (n m : Nat) (hn : 1000 ≤ n ∧ n < 2000) (hm : 200 ≤ m ∧ m < 1000) : m < n ∧ beamKey n < beamKey m := by
  refine ⟨by omega, ?_⟩
  obtain ⟨r, hr⟩ := four_exact n hn.1 hn.2
  rw [key_lt, hr, three_exact m hm.2, List.cons_lt_cons_iff]
  refine Or.inl ?_
  exact (digit_lt 1 (by omega) (m / 100) (by omega)).1.2 (by omega)

/-! ## Datasets -/

/-- What h5py ensures of a beam group: no two items with the same name, the coordinates apart. -/
structure PlainNames {V : Type} (b : BeamGroup V) : Prop where
  distinct : (b.items.map Prod.fst).Nodup
  coords : "COORDINATES" ∉ b.items.map Prod.fst

/-- A dataset, with its sizes. -/
def IsData {V : Type} (n : Node V) (s : Nat × Nat) : Prop := n.size = .ok s

theorem line_item {V : Type} (b : BeamGroup V) (hb : PlainNames b) (x : String × Node V) (hx : x ∈ b.items) :
    datasetLine b x.1 = x.2.size.map fun s => (x.1, s) := by
  unfold datasetLine
  rw [if_neg, lookup_found b.items hb.distinct x.1 x.2 hx]
  · rfl
  · intro e
    exact hb.coords (e ▸ List.mem_map.2 ⟨x, hx, rfl⟩)

theorem names_first {V : Type} (b : BeamGroup V) (h : ∀ x ∈ b.items, "COORDINATES" ≤ x.1) :
    beamNames b = "COORDINATES" :: (b.items.map Prod.fst).insertionSort (· ≤ ·) := by
  refine List.Perm.eq_of_pairwise (le := (· ≤ ·)) (fun a c _ _ => le_antisymm) ?_ ?_ ?_
  · exact List.pairwise_insertionSort ..
  · refine List.pairwise_cons.2 ⟨?_, List.pairwise_insertionSort ..⟩
    intro s hs
    rw [List.mem_insertionSort] at hs
    obtain ⟨x, hx, rfl⟩ := List.mem_map.1 hs
    exact h x hx
  · exact (List.perm_insertionSort ..).trans ((List.perm_insertionSort ..).symm.cons _)

theorem node_size {V : Type} (n : Node V) : (∃ s, n.size = .ok s) ∨ n.size = .error .attributeError := by
  cases n
  · exact Or.inl ⟨_, rfl⟩
  · exact Or.inr rfl

theorem line_cases {V : Type} (b : BeamGroup V) (hb : PlainNames b) (s : String) (hs : s ∈ (beamNames b).tail) :
    (∃ r, datasetLine b s = .ok r) ∨ datasetLine b s = .error .attributeError := by
  have hs := List.mem_of_mem_tail hs
  unfold beamNames at hs
  rw [List.mem_insertionSort] at hs
  rcases List.mem_cons.1 hs with rfl | hs
  · exact Or.inr (if_pos rfl)
  · obtain ⟨x, hx, rfl⟩ := List.mem_map.1 hs
    rw [line_item b hb x hx]
    rcases node_size x.2 with ⟨t, ht⟩ | ht <;> rw [ht]
    · exact Or.inl ⟨_, rfl⟩
    · exact Or.inr rfl

theorem lines_good {V : Type} (b : BeamGroup V) (hb : PlainNames b) (h : ∀ x ∈ b.items, "COORDINATES" < x.1 ∧ ∃ s, IsData x.2 s) :
    ∃ l, beamLines b = .ok l ∧ chosen b none = .ok (l.map Prod.fst) ∧
      ∀ n s, (n, s) ∈ l ↔ ∃ x ∈ b.items, x.1 = n ∧ IsData x.2 s := by
  have hc : ∀ s : String, s ∈ b.items.map Prod.fst → ∃ r : Nat × Nat, datasetLine b s = .ok (s, r) ∧ ∃ x ∈ b.items, x.1 = s ∧ IsData x.2 r := by
    intro s hs
    obtain ⟨x, hx, rfl⟩ := List.mem_map.1 hs
    obtain ⟨r, hr⟩ := (h x hx).2
    refine ⟨r, ?_, x, hx, rfl, hr⟩
    rw [line_item b hb x hx, hr]
    rfl
  choose! g hg using hc
  refine ⟨((b.items.map Prod.fst).insertionSort (· ≤ ·)).map fun s => (s, g s), ?_, ?_, ?_⟩
  · unfold beamLines
    rw [names_first b fun x hx => (h x hx).1.le]
    refine allOk_map _ _ _ fun s hs => ?_
    rw [List.tail_cons, List.mem_insertionSort] at hs
    exact (hg s hs).1
  · show Except.ok _ = Except.ok _
    rw [List.map_map]
    exact congrArg Except.ok (List.map_id _).symm
  · intro n s
    rw [List.mem_map]
    constructor
    · rintro ⟨m, hm, e⟩
      rw [List.mem_insertionSort] at hm
      cases e
      exact (hg _ hm).2
    · rintro ⟨x, hx, rfl, hs⟩
      have hm : x.1 ∈ b.items.map Prod.fst := List.mem_map.2 ⟨x, hx, rfl⟩
      refine ⟨x.1, by rw [List.mem_insertionSort]; exact hm, ?_⟩
      have e := (hg _ hm).1
      rw [line_item b hb x hx] at e
      have hs' : x.2.size = .ok s := hs
      rw [hs'] at e
      have e' : Except.ok (x.1, s) = (Except.ok (x.1, g x.1) : Except Err (String × Nat × Nat)) := e
      injection e' with e'
      exact e'.symm

theorem lines_bad {V : Type} (b : BeamGroup V) (hb : PlainNames b) (h : ∃ x ∈ b.items, x.1 < "COORDINATES" ∨ ∃ m, x.2 = .group m) :
    beamLines b = .error .attributeError := by
  refine allOk_error _ _ _ (line_cases b hb) ?_
  by_cases hf : ∀ x ∈ b.items, "COORDINATES" ≤ x.1
  · rw [names_first b hf, List.tail_cons]
    obtain ⟨x, hx, hl | ⟨m, hm⟩⟩ := h
    · exact absurd hl (not_lt.2 (hf x hx))
    · refine ⟨x.1, by rw [List.mem_insertionSort]; exact List.mem_map.2 ⟨x, hx, rfl⟩, ?_⟩
      rw [line_item b hb x hx, hm]
      rfl
  · push Not at hf
    obtain ⟨x, hx, hl⟩ := hf
    refine ⟨"COORDINATES", ?_, if_pos rfl⟩
    have hp : (beamNames b).Pairwise (· ≤ ·) := List.pairwise_insertionSort ..
    have h1 : "COORDINATES" ∈ beamNames b := by
      unfold beamNames
      rw [List.mem_insertionSort]
      exact List.mem_cons_self ..
    have h2 : x.1 ∈ beamNames b := by
      unfold beamNames
      rw [List.mem_insertionSort]
      exact List.mem_cons_of_mem _ (List.mem_map.2 ⟨x, hx, rfl⟩)
    generalize beamNames b = l at hp h1 h2
    cases l with
    | nil => cases h1
    | cons a l =>
      rcases List.mem_cons.1 h1 with e | h1
      · exfalso
        rcases List.mem_cons.1 h2 with e' | h2
        · exact absurd (e.trans e'.symm) (ne_of_gt hl)
        · have := (List.pairwise_cons.1 hp).1 _ h2
          rw [← e] at this
          exact absurd hl (not_lt.2 this)
      · exact h1

/-! ## The whole file -/

/-- **C182**: if all items are datasets whose names come after `COORDINATES`, the description tells the numbers of all the beams, and for
each of them exactly the datasets which are read from it, with their sizes, in the order in which they are read. -/
theorem info_partial {V : Type} (file : H5 V) (beams : List (Nat × BeamGroup V)) (hf : file.sub = some beams)
    (hs : ∀ b ∈ beams, PlainNames b.2) (h : ∀ b ∈ beams, ∀ x ∈ b.2.items, "COORDINATES" < x.1 ∧ ∃ s, IsData x.2 s) :
    ∃ told, fileInfo file = .ok [(0, told)] ∧ (told.map Prod.fst).Perm (beams.map Prod.fst) ∧
      (told.map fun t => beamKey t.1).Pairwise (· ≤ ·) ∧
      ∀ b ∈ beams, ∃ l, (b.1, l) ∈ told ∧ chosen b.2 none = .ok (l.map Prod.fst) ∧ ∀ n s, (n, s) ∈ l ↔ ∃ x ∈ b.2.items, x.1 = n ∧ IsData x.2 s := by
  have hg : ∀ b : Nat × BeamGroup V, b ∈ beams → ∃ l, beamLines b.2 = .ok l ∧ chosen b.2 none = .ok (l.map Prod.fst) ∧
      ∀ n s, (n, s) ∈ l ↔ ∃ x ∈ b.2.items, x.1 = n ∧ IsData x.2 s := fun b hb => lines_good b.2 (hs b hb) (h b hb)
  choose! g hg using hg
  have hm : ∀ b, b ∈ inOrder beams ↔ b ∈ beams := fun b => by
    unfold inOrder
    rw [List.mem_insertionSort]
  refine ⟨(inOrder beams).map fun b => (b.1, g b), ?_, ?_, ?_, ?_⟩
  · unfold fileInfo
    rw [hf]
    show Except.map _ (allOk beamInfo (inOrder beams)) = _
    rw [allOk_map _ (fun b => (b.1, g b)) _ fun b hb => ?_]
    · show Except.ok [(idOf pointingKey, _)] = _
      rw [(id_exact 0).2]
    · unfold beamInfo
      rw [(hg b ((hm b).1 hb)).1, (id_exact b.1).1]
      rfl
  · rw [List.map_map]
    exact (List.perm_insertionSort ..).map _
  · rw [List.map_map]
    refine List.pairwise_map.2 ?_
    refine (List.pairwise_insertionSort (r := fun a b : Nat × BeamGroup V => beamKey a.1 ≤ beamKey b.1) ..)
  · intro b hb
    exact ⟨g b, List.mem_map.2 ⟨b, (hm b).2 hb, rfl⟩, (hg b hb).2⟩

/-- **C182** (violated): one item whose name comes before `COORDINATES`, or one ratio (stored as a group), and nothing is told of any
beam of the file. -/
theorem info_violated {V : Type} (file : H5 V) (beams : List (Nat × BeamGroup V)) (hf : file.sub = some beams)
    (hs : ∀ b ∈ beams, PlainNames b.2) (h : ∃ b ∈ beams, ∃ x ∈ b.2.items, x.1 < "COORDINATES" ∨ ∃ m, x.2 = .group m) :
    fileInfo file = .error .attributeError := by
  have hm : ∀ b, b ∈ inOrder beams ↔ b ∈ beams := fun b => by
    unfold inOrder
    rw [List.mem_insertionSort]
  unfold fileInfo
  rw [hf]
  show Except.map _ (allOk beamInfo (inOrder beams)) = _
  rw [allOk_error beamInfo .attributeError]
  · rfl
  · intro b hb
    have hb := (hm b).1 hb
    by_cases hx : ∃ x ∈ b.2.items, x.1 < "COORDINATES" ∨ ∃ m, x.2 = .group m
    · refine Or.inr ?_
      unfold beamInfo
      rw [lines_bad b.2 (hs b hb) hx]
      rfl
    · refine Or.inl ?_
      push Not at hx
      obtain ⟨l, hl, _⟩ := lines_good b.2 (hs b hb) fun x hxm => by
        refine ⟨lt_of_le_of_ne (hx x hxm).1 fun e => (hs b hb).coords (e ▸ List.mem_map.2 ⟨x, hxm, rfl⟩), ?_⟩
        obtain ⟨n, v⟩ := x
        cases v with
        | data nt nf w => exact ⟨_, rfl⟩
        | group m => exact absurd rfl ((hx _ hxm).2 m)
      exact ⟨_, by unfold beamInfo; rw [hl]; rfl⟩
  · obtain ⟨b, hb, hx⟩ := h
    refine ⟨b, (hm b).2 hb, ?_⟩
    unfold beamInfo
    rw [lines_bad b.2 (hs b hb) hx]
    rfl

/-- **C182**: the description of a file in which no beam was written is empty. -/
theorem info_empty {V : Type} (h : Option FileHeader) :
    fileInfo (⟨h, none⟩ : H5 V) = .ok [] ∧ fileInfo (⟨h, some []⟩ : H5 V) = .ok [(0, [])] := by
  refine ⟨rfl, ?_⟩
  show Except.ok [(idOf pointingKey, [])] = _
  rw [(id_exact 0).2]

/-! ## Files written by the package -/

theorem new_sound {V : Type} (x : ToStore V) (unit : String) (k : ℚ) (l : List String) (hx : x.pols = .names l) (hnp : x.np = l.length)
    (hg : GoodNames l) :
    (newFile x unit k).1.sub = some [(x.beam, (beamOf x unit k).1)] ∧ PlainNames (beamOf x unit k).1 ∧
      (beamOf x unit k).1.items = l.zipIdx.map fun p => (p.1.toUpper, Node.data x.nt x.nf fun t f => x.data t f p.2) := by
  have hi : (beamOf x unit k).1.items = l.zipIdx.map fun p => (p.1.toUpper, Node.data x.nt x.nf fun t f => x.data t f p.2) := by
    show (storePols x.pols x.nt x.nf x.np x.data).1 = _
    rw [hx, pols_ok l hg x.nt x.nf x.data x.np (by omega), hnp]
    apply List.ext_getElem
    · simp
    · intro i h1 h2
      simp at h1
      simp [List.getElem?_eq_getElem h1]
  have hn : (beamOf x unit k).1.items.map Prod.fst = l.map String.toUpper := by
    rw [hi, List.map_map]
    have : (Prod.fst ∘ fun p : String × Nat => (p.1.toUpper, Node.data x.nt x.nf fun t f => x.data t f p.2)) = String.toUpper ∘ Prod.fst := rfl
    rw [this, ← List.map_map, List.zipIdx_map_fst]
  refine ⟨rfl, ⟨by rw [hn]; exact hg.distinct, ?_⟩, hi⟩
  rw [hn]
  intro h
  obtain ⟨s, hs, e⟩ := List.mem_map.1 h
  exact hg.coords s hs e

/-- **C182**: a new file with names after `COORDINATES` (`I`, `Q`, `XX`…) tells one beam, its number, and each name with the sizes of the
data; if one name comes before it, all is stored and read, but nothing is told. -/
theorem info_new {V : Type} (units : String → Option ℚ) (file : Option (H5 V)) (name unit : String) (x : ToStore V) (l : List String) (k : ℚ)
    (hx : x.pols = .names l) (hnp : x.np = l.length) (hg : GoodNames l)
    (hn : List.isSuffixOf ".hdf5".toList name.toLower.toList = true) (hk : units unit = some k) (hf : x.freq ≠ []) :
    ∃ f, (store units file name "w" unit x).1 = some f ∧
      ((∀ s ∈ l, "COORDINATES" < s.toUpper) →
        fileInfo f = .ok [(0, [(x.beam, ((l.map String.toUpper).insertionSort (· ≤ ·)).map fun s => (s, x.nt, x.nf))])]) ∧
      ((∃ s ∈ l, s.toUpper < "COORDINATES") → fileInfo f = .error .attributeError) := by
  obtain ⟨h1, h2, h3⟩ := new_sound x unit k l hx hnp hg
  refine ⟨(newFile x unit k).1, ?_, ?_, ?_⟩
  · unfold store
    rw [if_neg (by rw [hn]; decide), hk]
    show (if x.freq = [] then _ else _ : Option (H5 V) × Except Err Unit).1 = _
    rw [if_neg hf, mode_w]
    exact congrArg Prod.fst (storeIn_w file x unit k)
  · intro hs
    obtain ⟨told, e, hp, _, hb⟩ := info_partial (newFile x unit k).1 _ h1 (fun b hb => by rw [List.mem_singleton.1 hb]; exact h2) (by
      intro b hb y hy
      rw [List.mem_singleton.1 hb] at hy
      have hy : y ∈ (beamOf x unit k).1.items := hy
      rw [h3] at hy
      obtain ⟨p, hp, rfl⟩ := List.mem_map.1 hy
      exact ⟨hs _ (List.fst_mem_of_mem_zipIdx hp), _, rfl⟩)
    obtain ⟨r, hr, hc, hd⟩ := hb _ (List.mem_singleton.2 rfl)
    have hlen : told.length = 1 := by
      have := hp.length_eq
      simpa using this
    obtain ⟨y, rfl⟩ := List.length_eq_one_iff.1 hlen
    rw [List.mem_singleton] at hr
    rw [e, ← hr]
    have hnames : r.map Prod.fst = (l.map String.toUpper).insertionSort (· ≤ ·) := by
      have hc : Except.ok (((beamOf x unit k).1.items.map Prod.fst).insertionSort (· ≤ ·)) = (Except.ok (r.map Prod.fst) : Except Err (List String)) := hc
      injection hc with hc
      rw [← hc, h3, List.map_map]
      have : (Prod.fst ∘ fun p : String × Nat => (p.1.toUpper, Node.data x.nt x.nf fun t f => x.data t f p.2)) = String.toUpper ∘ Prod.fst := rfl
      rw [this, ← List.map_map, List.zipIdx_map_fst]
    have hr' : r = (r.map Prod.fst).map fun s => (s, x.nt, x.nf) := by
      rw [List.map_map]
      conv_lhs => rw [← List.map_id r]
      apply List.map_congr_left
      rintro ⟨n, s⟩ hns
      obtain ⟨z, hz, _, he⟩ := (hd n s).1 hns
      have hz : z ∈ (beamOf x unit k).1.items := hz
      rw [h3] at hz
      obtain ⟨p, hp, rfl⟩ := List.mem_map.1 hz
      have he : Except.ok (x.nt, x.nf) = (Except.ok s : Except Err (Nat × Nat)) := he
      injection he with he
      show (n, s) = (n, x.nt, x.nf)
      rw [← he]
    rw [← hnames, ← hr']
  · rintro ⟨s, hs, hlt⟩
    refine info_violated _ _ h1 (fun b hb => by rw [List.mem_singleton.1 hb]; exact h2) ⟨_, List.mem_singleton.2 rfl, ?_⟩
    obtain ⟨i, hi, rfl⟩ := List.getElem_of_mem hs
    refine ⟨(l[i].toUpper, Node.data x.nt x.nf fun t f => x.data t f i), ?_, Or.inl hlt⟩
    show _ ∈ (beamOf x unit k).1.items
    rw [h3]
    exact List.mem_map.2 ⟨(l[i], i), List.mem_zipIdx_iff_getElem?.2 (List.getElem?_eq_getElem hi), rfl⟩

/-- The names of polarisations and Stokes parameters come after `COORDINATES`. -/
example : ∀ s ∈ ["XX", "XY", "YX", "YY", "I", "Q", "U", "V", "L", "FRACQ"], "COORDINATES" < s.toUpper := by decide +kernel

example : "amplitude".toUpper < "COORDINATES" := by decide +kernel

/-- **C182** (violated): the ratio of the documentation is stored, and then nothing is told of the file. -/
theorem info_ratio_violated {V : Type} (units : String → Option ℚ) (file : Option (H5 V)) (name unit : String) (x : ToStore V) (k : ℚ)
    (hx : x.pols = .names ["I", "Q", "V/I"]) (hnp : x.np = 3) (hn : List.isSuffixOf ".hdf5".toList name.toLower.toList = true)
    (hk : units unit = some k) (hf : x.freq ≠ []) :
    ∃ f, (store units file name "w" unit x).1 = some f ∧ (store units file name "w" unit x).2 = .ok () ∧ fileInfo f = .error .attributeError := by
  have hp := three_names x.nt x.nf x.data
  have hb : beamOf x unit k = (⟨x.time.map jdFloat, x.freq.map (· / k), unit,
      [("I", .data x.nt x.nf fun t f => x.data t f 0), ("Q", .data x.nt x.nf fun t f => x.data t f 1),
        ("V", .group [("I", x.nt, x.nf, fun t f => x.data t f 2)])]⟩, none) := by
    unfold beamOf
    rw [hx, hnp, hp]
  have hst : store units file name "w" unit x = (some (newFile x unit k).1, (newFile x unit k).2) := by
    unfold store
    rw [if_neg (by rw [hn]; decide), hk]
    show (if x.freq = [] then _ else _ : Option (H5 V) × Except Err Unit) = _
    rw [if_neg hf, mode_w]
    exact storeIn_w file x unit k
  refine ⟨(newFile x unit k).1, by rw [hst], ?_, ?_⟩
  · rw [hst]
    show asResult (beamOf x unit k).2 = _
    rw [hb]
    rfl
  · refine info_violated _ [(x.beam, (beamOf x unit k).1)] rfl ?_ ⟨_, List.mem_singleton.2 rfl, ?_⟩
    · intro b h
      rw [List.mem_singleton.1 h, hb]
      constructor
      · show ["I", "Q", "V"].Nodup
        decide +kernel
      · show "COORDINATES" ∉ ["I", "Q", "V"]
        decide +kernel
    · rw [hb]
      exact ⟨_, List.mem_cons_of_mem _ (List.mem_cons_of_mem _ (List.mem_cons_self ..)), Or.inr ⟨_, rfl⟩⟩

/-! ## Items -/

/-- **C182**: two numbers give the whole beam, any other number of indices is refused. -/
theorem item_exact {V : Type} (units : String → Option ℚ) (d : V) (file : H5 V) (ids : List Nat) :
    (∀ a b, ids = [a, b] → itemAt units d file ids = getReduced units d file a b none) ∧
      (ids.length ≠ 2 → itemAt units d file ids = .error .indexError) := by
  constructor
  · rintro a b rfl
    rfl
  · intro h
    match ids, h with
    | [], _ => rfl
    | [_], _ => rfl
    | _ :: _ :: _ :: _, _ => rfl
    | [_, _], h => exact absurd rfl h

end Verif.TF
