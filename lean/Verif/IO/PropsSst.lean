import Verif.IO.Sst
import Verif.IO.PropsSlices

/-!
# Properties of the sets of SST files (C110)
-/

namespace Verif.IO

section
variable {F : Type} [LinearOrder F]

/-- A usable set: its files are exactly those whose properties are known, once each, and the properties are those of the file. -/
def Sst.Good (read : F → SstProps) (s : Sst F) : Prop :=
  (∀ f, f ∈ s.files ↔ f ∈ s.props.map Prod.fst) ∧ (∀ p ∈ s.props, p.2 = read p.1) ∧ (s.props.map Prod.fst).Nodup

theorem mem_names (s : Sst F) (f : F) : f ∈ s.names ↔ f ∈ s.files := List.mem_insertionSort _

theorem names_length (s : Sst F) : s.names.length = s.files.length := List.length_insertionSort _ _

/-! ## Dictionaries -/

theorem keys_dictSet (d : List (F × SstProps)) (k : F) (v : SstProps) (f : F) :
    f ∈ (dictSet d k v).map Prod.fst ↔ f ∈ d.map Prod.fst ∨ f = k := by
  unfold dictSet
  by_cases h : k ∈ d.map Prod.fst
  · rw [if_pos h]
    have e : (d.map fun p => if p.1 = k then (k, v) else p).map Prod.fst = d.map Prod.fst := by
      rw [List.map_map]
      refine List.map_congr_left fun p _ => ?_
      show (if p.1 = k then (k, v) else p).1 = p.1
      by_cases hp : p.1 = k
      · rw [if_pos hp]; exact hp.symm
      · rw [if_neg hp]
    rw [e]
    refine ⟨Or.inl, fun q => q.elim id fun q => q ▸ h⟩
  · rw [if_neg h]; simp

theorem nodup_dictSet (d : List (F × SstProps)) (k : F) (v : SstProps) (h : (d.map Prod.fst).Nodup) :
    ((dictSet d k v).map Prod.fst).Nodup := by
  unfold dictSet
  by_cases hk : k ∈ d.map Prod.fst
  · rw [if_pos hk]
    have e : (d.map fun p => if p.1 = k then (k, v) else p).map Prod.fst = d.map Prod.fst := by
      rw [List.map_map]
      refine List.map_congr_left fun p _ => ?_
      show (if p.1 = k then (k, v) else p).1 = p.1
      by_cases hp : p.1 = k
      · rw [if_pos hp]; exact hp.symm
      · rw [if_neg hp]
    rw [e]; exact h
  · rw [if_neg hk, List.map_append, List.nodup_append]
    refine ⟨h, by simp, ?_⟩
    intro a ha b hb
    simp only [List.map_cons, List.map_nil, List.mem_singleton] at hb
    intro e; exact hk (hb ▸ e ▸ ha)

theorem read_dictSet (read : F → SstProps) (d : List (F × SstProps)) (k : F) (h : ∀ p ∈ d, p.2 = read p.1) :
    ∀ p ∈ dictSet d k (read k), p.2 = read p.1 := by
  unfold dictSet
  intro p hp
  by_cases hk : k ∈ d.map Prod.fst
  · rw [if_pos hk] at hp
    obtain ⟨q, hq, rfl⟩ := List.mem_map.1 hp
    by_cases e : q.1 = k
    · rw [if_pos e]
    · rw [if_neg e]; exact h q hq
  · rw [if_neg hk] at hp
    rcases List.mem_append.1 hp with h' | h'
    · exact h p h'
    · rw [List.mem_singleton.1 h']

theorem fold_dictSet (read : F → SstProps) (l : List F) (d : List (F × SstProps)) (h : ∀ p ∈ d, p.2 = read p.1)
    (hn : (d.map Prod.fst).Nodup) :
    (∀ f, f ∈ (l.foldl (fun d f => dictSet d f (read f)) d).map Prod.fst ↔ f ∈ d.map Prod.fst ∨ f ∈ l) ∧
      (∀ p ∈ l.foldl (fun d f => dictSet d f (read f)) d, p.2 = read p.1) ∧
      ((l.foldl (fun d f => dictSet d f (read f)) d).map Prod.fst).Nodup := by
  induction l generalizing d with
  | nil => exact ⟨fun f => by simp, h, hn⟩
  | cons x xs ih =>
    obtain ⟨a, b, c⟩ := ih (dictSet d x (read x)) (read_dictSet read d x h) (nodup_dictSet d x _ hn)
    refine ⟨fun f => ?_, b, c⟩
    rw [List.foldl_cons, a, keys_dictSet, List.mem_cons]; tauto

theorem dictMerge_eq (read : F → SstProps) (a b : List (F × SstProps)) (h : ∀ p ∈ b, p.2 = read p.1) :
    dictMerge a b = (b.map Prod.fst).foldl (fun d f => dictSet d f (read f)) a := by
  unfold dictMerge
  induction b generalizing a with
  | nil => rfl
  | cons p ps ih =>
    rw [List.foldl_cons, List.map_cons, List.foldl_cons, ih _ fun q hq => h q (List.mem_cons_of_mem _ hq), h p List.mem_cons_self]

/-! ## Opening and joining -/

theorem setFiles_ok {isfile : F → Bool} {read : F → SstProps} {s r : Sst F} {l : List F} (h : setFiles isfile read s l = .ok r) :
    l.all isfile = true ∧
      r = { s with files := l, props := if s.auto then l.foldl (fun d f => dictSet d f (read f)) s.props else s.props } := by
  unfold setFiles at h
  by_cases c : l.all isfile = true
  · rw [if_pos c] at h; exact ⟨c, (Except.ok.inj h).symm⟩
  · rw [if_neg c] at h; cases h

/-- Opening files, in whatever order, gives a usable set; a file that does not exist is refused. -/
theorem open_good (isfile : F → Bool) (read : F → SstProps) (l : List F) (all : Bool) :
    ((∃ f ∈ l, isfile f = false) → openSst isfile read l true all = .error .exception) ∧
      ((∀ f ∈ l, isfile f = true) →
        ∃ r, openSst isfile read l true all = .ok r ∧ r.Good read ∧ (∀ f, f ∈ r.names ↔ f ∈ l) ∧ r.all = all ∧ r.pointed = false) := by
  constructor
  · rintro ⟨f, hf, e⟩
    unfold openSst setFiles
    refine if_neg fun c => ?_
    have := List.all_eq_true.1 c f hf
    rw [e] at this; cases this
  · intro h
    have c : l.all isfile = true := List.all_eq_true.2 h
    obtain ⟨a, b, n⟩ := fold_dictSet read l [] (fun p hp => by cases hp) List.nodup_nil
    refine ⟨_, if_pos c, ⟨fun f => ?_, b, n⟩, fun f => ?_, rfl, rfl⟩
    · have := a f
      simp only [List.map_nil, List.not_mem_nil, false_or] at this
      exact this.symm
    · rw [mem_names]

theorem add_ok {isfile : F → Bool} {read : F → SstProps} {a b r : Sst F} (h : addSst isfile read a b = .ok r) :
    a.pointed = false ∧ b.pointed = false ∧ (a.names ++ b.names).all isfile = true ∧
      r = ⟨a.names ++ b.names, dictMerge a.props b.props, false, false, false, none, none, none, none⟩ := by
  unfold addSst openSst at h
  cases e : setFiles isfile read ⟨[], [], false, false, false, none, none, none, none⟩ (a.names ++ b.names) with
  | error x => rw [e] at h; cases h
  | ok n =>
    rw [e] at h
    obtain ⟨c, rfl⟩ := setFiles_ok e
    replace h : (if (a.pointed || b.pointed) = true then Except.error Err.typeError
      else Except.ok (⟨a.names ++ b.names, dictMerge a.props b.props, false, false, false, none, none, none, none⟩ : Sst F)) = Except.ok r := h
    by_cases q : (a.pointed || b.pointed) = true
    · rw [if_pos q] at h; cases h
    · rw [if_neg q] at h
      simp only [Bool.or_eq_true, not_or, Bool.not_eq_true] at q
      exact ⟨q.1, q.2, c, (Except.ok.inj h).symm⟩

/-- Joining two usable sets without pointing files, whose files still exist, gives a usable set with exactly the files of both, as many
times as they were listed. -/
theorem add_good (isfile : F → Bool) (read : F → SstProps) (a b : Sst F) (ga : a.Good read) (gb : b.Good read)
    (pa : a.pointed = false) (pb : b.pointed = false) (hf : ∀ f, f ∈ a.files ∨ f ∈ b.files → isfile f = true) :
    ∃ r, addSst isfile read a b = .ok r ∧ r.Good read ∧ r.names.Perm (a.names ++ b.names) ∧ r.pointed = false := by
  have c : (a.names ++ b.names).all isfile = true := by
    refine List.all_eq_true.2 fun f h => hf f ?_
    rcases List.mem_append.1 h with h | h
    · exact Or.inl ((mem_names a f).1 h)
    · exact Or.inr ((mem_names b f).1 h)
  have e : addSst isfile read a b =
      .ok ⟨a.names ++ b.names, dictMerge a.props b.props, false, false, false, none, none, none, none⟩ := by
    unfold addSst openSst setFiles
    rw [if_pos c, pa, pb]; rfl
  refine ⟨_, e, ?_, List.perm_insertionSort _ _, rfl⟩
  obtain ⟨x, y, z⟩ := fold_dictSet read (b.props.map Prod.fst) a.props ga.2.1 ga.2.2
  rw [← dictMerge_eq read a.props b.props gb.2.1] at x y z
  refine ⟨fun f => ?_, y, z⟩
  show f ∈ a.names ++ b.names ↔ _
  rw [x, List.mem_append, mem_names, mem_names, ga.1, gb.1]

theorem foldl_min_le (l : List ℚ) (x : ℚ) : l.foldl min x ≤ x ∧ (∀ y ∈ l, l.foldl min x ≤ y) ∧ (l.foldl min x = x ∨ l.foldl min x ∈ l) := by
  induction l generalizing x with
  | nil => exact ⟨le_refl _, (fun y hy => by cases hy), Or.inl rfl⟩
  | cons z zs ih =>
    obtain ⟨a, b, c⟩ := ih (min x z)
    rw [List.foldl_cons]
    refine ⟨le_trans a (min_le_left _ _), ?_, ?_⟩
    · intro y hy
      rcases List.mem_cons.1 hy with rfl | hy
      · exact le_trans a (min_le_right _ _)
      · exact b y hy
    · rcases c with c | c
      · rcases min_choice x z with e | e
        · left; rw [c, e]
        · right; rw [c, e]; exact List.mem_cons_self
      · right; exact List.mem_cons_of_mem _ c

theorem foldl_max_le (l : List ℚ) (x : ℚ) : x ≤ l.foldl max x ∧ (∀ y ∈ l, y ≤ l.foldl max x) ∧ (l.foldl max x = x ∨ l.foldl max x ∈ l) := by
  induction l generalizing x with
  | nil => exact ⟨le_refl _, (fun y hy => by cases hy), Or.inl rfl⟩
  | cons z zs ih =>
    obtain ⟨a, b, c⟩ := ih (max x z)
    rw [List.foldl_cons]
    refine ⟨le_trans (le_max_left _ _) a, ?_, ?_⟩
    · intro y hy
      rcases List.mem_cons.1 hy with rfl | hy
      · exact le_trans (le_max_right _ _) a
      · exact b y hy
    · rcases c with c | c
      · rcases max_choice x z with e | e
        · left; rw [c, e]
        · right; rw [c, e]; exact List.mem_cons_self
      · right; exact List.mem_cons_of_mem _ c

theorem minOf_spec (l : List ℚ) (m : ℚ) : minOf l = .ok m ↔ m ∈ l ∧ ∀ y ∈ l, m ≤ y := by
  cases l with
  | nil => simp [minOf]
  | cons x xs =>
    obtain ⟨a, b, c⟩ := foldl_min_le xs x
    have key : xs.foldl min x ∈ x :: xs ∧ ∀ y ∈ x :: xs, xs.foldl min x ≤ y :=
      ⟨c.elim (fun e => List.mem_cons.2 (Or.inl e)) (List.mem_cons_of_mem _), fun y hy => (List.mem_cons.1 hy).elim (fun e => e ▸ a) (b y)⟩
    show Except.ok (xs.foldl min x) = Except.ok m ↔ _
    refine ⟨fun h => Except.ok.inj h ▸ key, fun h => congrArg _ (le_antisymm (key.2 m h.1) (h.2 _ key.1))⟩

theorem maxOf_spec (l : List ℚ) (m : ℚ) : maxOf l = .ok m ↔ m ∈ l ∧ ∀ y ∈ l, y ≤ m := by
  cases l with
  | nil => simp [maxOf]
  | cons x xs =>
    obtain ⟨a, b, c⟩ := foldl_max_le xs x
    have key : xs.foldl max x ∈ x :: xs ∧ ∀ y ∈ x :: xs, y ≤ xs.foldl max x :=
      ⟨c.elim (fun e => List.mem_cons.2 (Or.inl e)) (List.mem_cons_of_mem _), fun y hy => (List.mem_cons.1 hy).elim (fun e => e ▸ a) (b y)⟩
    show Except.ok (xs.foldl max x) = Except.ok m ↔ _
    refine ⟨fun h => Except.ok.inj h ▸ key, fun h => congrArg _ (le_antisymm (h.2 _ key.1) (key.2 m h.1))⟩

/-- The limits announced by a usable set which is not empty are reached by one of its files and bound all of them. -/
theorem limits_exact (read : F → SstProps) (s : Sst F) (g : s.Good read) (x : ℚ) :
    (s.tMin = .ok x ↔ (∃ f ∈ s.files, (read f).tMin = x) ∧ ∀ f ∈ s.files, x ≤ (read f).tMin) ∧
      (s.tMax = .ok x ↔ (∃ f ∈ s.files, (read f).tMax = x) ∧ ∀ f ∈ s.files, (read f).tMax ≤ x) ∧
      (s.fMin = .ok x ↔ (∃ f ∈ s.files, (read f).fMin = x) ∧ ∀ f ∈ s.files, x ≤ (read f).fMin) ∧
      (s.fMax = .ok x ↔ (∃ f ∈ s.files, (read f).fMax = x) ∧ ∀ f ∈ s.files, (read f).fMax ≤ x) := by
  have key : ∀ (v : SstProps → ℚ) (y : ℚ), y ∈ s.props.map (fun p => v p.2) ↔ ∃ f ∈ s.files, v (read f) = y := by
    intro v y
    constructor
    · intro h
      obtain ⟨p, hp, rfl⟩ := List.mem_map.1 h
      exact ⟨p.1, (g.1 p.1).2 (List.mem_map_of_mem hp), by rw [g.2.1 p hp]⟩
    · rintro ⟨f, hf, rfl⟩
      obtain ⟨p, hp, e⟩ := List.mem_map.1 ((g.1 f).1 hf)
      exact List.mem_map.2 ⟨p, hp, by rw [g.2.1 p hp, e]⟩
  refine ⟨?_, ?_, ?_, ?_⟩
  · exact (minOf_spec _ _).trans (and_congr (key _ x) ⟨fun h f hf => h _ ((key _ _).2 ⟨f, hf, rfl⟩),
      fun h y hy => by obtain ⟨f, hf, rfl⟩ := (key _ y).1 hy; exact h f hf⟩)
  · exact (maxOf_spec _ _).trans (and_congr (key _ x) ⟨fun h f hf => h _ ((key _ _).2 ⟨f, hf, rfl⟩),
      fun h y hy => by obtain ⟨f, hf, rfl⟩ := (key _ y).1 hy; exact h f hf⟩)
  · exact (minOf_spec _ _).trans (and_congr (key _ x) ⟨fun h f hf => h _ ((key _ _).2 ⟨f, hf, rfl⟩),
      fun h y hy => by obtain ⟨f, hf, rfl⟩ := (key _ y).1 hy; exact h f hf⟩)
  · exact (maxOf_spec _ _).trans (and_congr (key _ x) ⟨fun h f hf => h _ ((key _ _).2 ⟨f, hf, rfl⟩),
      fun h y hy => by obtain ⟨f, hf, rfl⟩ := (key _ y).1 hy; exact h f hf⟩)

/-- The sum of a list of usable sets (`sum([a, b, ...])`) is usable, with the files of all of them. -/
theorem sum_good (isfile : F → Bool) (read : F → SstProps) (x : Sst F) (xs : List (Sst F)) (g : ∀ s ∈ x :: xs, s.Good read ∧ s.pointed = false)
    (hf : ∀ s ∈ x :: xs, ∀ f ∈ s.files, isfile f = true) :
    ∃ r, sumSst isfile read (x :: xs) = some (.ok r) ∧ r.Good read ∧ ∀ f, f ∈ r.files ↔ ∃ s ∈ x :: xs, f ∈ s.files := by
  suffices h : ∃ r, xs.foldl (fun (r : Except Err (Sst F)) y => r.bind fun a => addSst isfile read a y) (.ok x) = .ok r ∧ r.Good read ∧
      ∀ f, f ∈ r.files ↔ ∃ s ∈ x :: xs, f ∈ s.files by
    obtain ⟨r, e, h⟩ := h
    exact ⟨r, congrArg some e, h⟩
  induction xs generalizing x with
  | nil => exact ⟨x, rfl, (g x List.mem_cons_self).1, fun f => by simp⟩
  | cons y ys ih =>
    have gx := g x List.mem_cons_self
    have gy := g y (List.mem_cons_of_mem _ List.mem_cons_self)
    obtain ⟨z, e, gz, perm, pz⟩ := add_good isfile read x y gx.1 gy.1 gx.2 gy.2 fun f h => h.elim (hf x List.mem_cons_self f)
      (hf y (List.mem_cons_of_mem _ List.mem_cons_self) f)
    have mz : ∀ f, f ∈ z.files ↔ f ∈ x.files ∨ f ∈ y.files := fun f => by
      rw [← mem_names, perm.mem_iff, List.mem_append, mem_names, mem_names]
    obtain ⟨r, e', gr, mr⟩ := ih z (fun s hs => (List.mem_cons.1 hs).elim (fun q => q ▸ ⟨gz, pz⟩)
        fun q => g s (List.mem_cons_of_mem _ (List.mem_cons_of_mem _ q)))
      (fun s hs f h => (List.mem_cons.1 hs).elim (fun q => by
        subst q
        exact ((mz f).1 h).elim (hf x List.mem_cons_self f) (hf y (List.mem_cons_of_mem _ List.mem_cons_self) f))
        fun q => hf s (List.mem_cons_of_mem _ (List.mem_cons_of_mem _ q)) f h)
    refine ⟨r, ?_, gr, fun f => ?_⟩
    · rw [List.foldl_cons]
      show ys.foldl _ (addSst isfile read x y) = _
      rw [e]; exact e'
    · rw [mr]
      simp only [List.mem_cons, exists_eq_or_imp, mz]
      tauto

/-- **Violated.** Sets with a pointing file (`altazA`) can never be joined, nor can files be removed from them. -/
theorem pointed_violated {B : Type} [DecidableEq B] (base : F → B) (isfile : F → Bool) (read : F → SstProps) (a b r : Sst F) :
    ((a.pointed = true ∨ b.pointed = true) → addSst isfile read a b ≠ .ok r) ∧
      (a.pointed = true → subSst base isfile read a b ≠ .ok r) := by
  constructor
  · intro h e
    obtain ⟨x, y, _⟩ := add_ok e
    rw [x, y] at h
    rcases h with h | h <;> cases h
  · intro h e
    unfold subSst at e
    rw [h] at e
    cases q : openSst isfile read ((b.names.map base).foldl (dropBase base) (a.names, a.props)).1 false false with
    | error x => dsimp only at e; rw [q] at e; cases e
    | ok n =>
      dsimp only at e; rw [q] at e
      cases hb : b.pointed <;> rw [hb] at e <;> cases e

/-- `mas` (sstdata.py:520-530), by its size: all the mini-arrays of the first file, or those used. -/
def masOf (s : Sst F) : Option Nat := s.props.head?.map fun p => if s.all then p.2.allMas else p.2.mas

theorem dictMerge_head (a b : List (F × SstProps)) (p : F × SstProps) (read : F → SstProps) (ha : ∀ p ∈ a, p.2 = read p.1)
    (hb : ∀ p ∈ b, p.2 = read p.1) (h : a.head? = some p) : (dictMerge a b).head? = some p := by
  rw [dictMerge_eq read a b hb]
  generalize b.map Prod.fst = l
  induction l generalizing a with
  | nil => exact h
  | cons x xs ih =>
    rw [List.foldl_cons]
    refine ih _ (read_dictSet read a x ha) ?_
    cases a with
    | nil => cases h
    | cons q qs =>
      have e : q = p := Option.some.inj h
      subst e
      unfold dictSet
      by_cases hx : x ∈ (q :: qs).map Prod.fst
      · rw [if_pos hx, List.map_cons, List.head?_cons]
        by_cases e : q.1 = x
        · rw [if_pos e]
          have := ha q List.mem_cons_self
          rw [← e, ← this]
        · rw [if_neg e]
      · rw [if_neg hx]; rfl

/-- **Violated.** Joining two sets opened with all the mini-arrays gives a set restricted to the mini-arrays used. -/
theorem all_mas_violated (isfile : F → Bool) (read : F → SstProps) (a b r : Sst F) (f : F) (ga : a.Good read) (gb : b.Good read)
    (hh : (a.props.head?).map Prod.fst = some f) (h : addSst isfile read a b = .ok r) (hall : a.all = true) :
    masOf a = some (read f).allMas ∧ masOf r = some (read f).mas := by
  obtain ⟨_, _, _, rfl⟩ := add_ok h
  cases e : a.props.head? with
  | none => rw [e] at hh; cases hh
  | some p =>
    rw [e] at hh
    have hp : p.1 = f := Option.some.inj hh
    have hm : p ∈ a.props := List.mem_of_head? e
    have hr := ga.2.1 p hm
    unfold masOf
    constructor
    · rw [e, hall, Option.map_some, if_pos rfl, hr, hp]
    · dsimp only
      rw [dictMerge_head a.props b.props p read ga.2.1 gb.2.1 e, Option.map_some, hr, hp]
      rfl

/-! ## Removing files -/

theorem eraseP_filter {α : Type} (p : α → Bool) (l : List α) (hn : l.Nodup) (h : ∀ a ∈ l, ∀ b ∈ l, p a = true → p b = true → a = b) :
    l.eraseP p = l.filter fun a => !p a := by
  induction l with
  | nil => rfl
  | cons x xs ih =>
    have hn' := List.nodup_cons.1 hn
    by_cases e : p x = true
    · rw [List.eraseP_cons_of_pos e, List.filter_cons_of_neg (by rw [e]; decide)]
      symm
      refine List.filter_eq_self.2 fun a ha => ?_
      by_contra q
      have q' : p a = true := by simpa using q
      exact hn'.1 (h a (List.mem_cons_of_mem _ ha) x List.mem_cons_self q' e ▸ ha)
    · rw [List.eraseP_cons_of_neg e, List.filter_cons_of_pos (by simpa using e), ih hn'.2 fun a ha b hb =>
        h a (List.mem_cons_of_mem _ ha) b (List.mem_cons_of_mem _ hb)]

theorem fold_dropBase {B : Type} [DecidableEq B] (base : F → B) (xs : List B) (L : List F) (D : List (F × SstProps)) (hL : L.Nodup)
    (hD : (D.map Prod.fst).Nodup) (iL : ∀ f ∈ L, ∀ g ∈ L, base f = base g → f = g)
    (iD : ∀ f ∈ D.map Prod.fst, ∀ g ∈ D.map Prod.fst, base f = base g → f = g) :
    xs.foldl (dropBase base) (L, D) = (L.filter fun f => decide (base f ∉ xs), D.filter fun p => decide (base p.1 ∉ xs)) := by
  induction xs generalizing L D with
  | nil => simp
  | cons x xs ih =>
    have e : dropBase base (L, D) x = (L.filter fun f => !decide (base f = x), D.filter fun p => !decide (base p.1 = x)) := by
      unfold dropBase
      dsimp only
      rw [eraseP_filter _ L hL fun a ha b hb p q => iL a ha b hb ((of_decide_eq_true p).trans (of_decide_eq_true q).symm),
        eraseP_filter _ D (List.Nodup.of_map _ hD) fun a ha b hb p q =>
          List.inj_on_of_nodup_map hD ha hb (iD _ (List.mem_map_of_mem ha) _ (List.mem_map_of_mem hb)
            ((of_decide_eq_true p).trans (of_decide_eq_true q).symm))]
    have sub : ∀ f, f ∈ (D.filter fun p => !decide (base p.1 = x)).map Prod.fst → f ∈ D.map Prod.fst := fun f h => by
      obtain ⟨p, hp, rfl⟩ := List.mem_map.1 h
      exact List.mem_map_of_mem (List.mem_filter.1 hp).1
    rw [List.foldl_cons, e, ih _ _ (hL.filter _) (List.Nodup.sublist (List.filter_sublist.map _) hD)
      (fun f hf g hg => iL f (List.mem_filter.1 hf).1 g (List.mem_filter.1 hg).1) fun f hf g hg => iD f (sub f hf) g (sub g hg),
      List.filter_filter, List.filter_filter]
    refine Prod.ext (List.filter_congr fun f _ => ?_) (List.filter_congr fun p _ => ?_)
    · simp only [List.mem_cons, not_or, Bool.decide_and, decide_not, Bool.and_comm]
    · simp only [List.mem_cons, not_or, Bool.decide_and, decide_not, Bool.and_comm]

theorem names_nodup (s : Sst F) : s.names.Nodup ↔ s.files.Nodup := (List.perm_insertionSort _ _).nodup_iff

/-- Removing the files of a set, by their base names: when no file is listed twice and all base names differ, the result is usable and has
exactly the files whose base name is not among those removed. -/
theorem sub_good_partial {B : Type} [DecidableEq B] (base : F → B) (isfile : F → Bool) (read : F → SstProps) (a b : Sst F) (ga : a.Good read)
    (pa : a.pointed = false) (hn : a.files.Nodup) (hi : ∀ f ∈ a.files, ∀ g ∈ a.files, base f = base g → f = g)
    (hf : ∀ f ∈ a.files, isfile f = true) :
    ∃ r, subSst base isfile read a b = .ok r ∧ r.Good read ∧
      ∀ f, f ∈ r.files ↔ f ∈ a.files ∧ ∀ g ∈ b.files, base f ≠ base g := by
  have key := fold_dropBase base (b.names.map base) a.names a.props ((names_nodup a).2 hn) ga.2.2
    (fun f h g k => hi f ((mem_names a f).1 h) g ((mem_names a g).1 k)) fun f h g k => hi f ((ga.1 f).2 h) g ((ga.1 g).2 k)
  have c : (a.names.filter fun f => decide (base f ∉ b.names.map base)).all isfile = true :=
    List.all_eq_true.2 fun f h => hf f ((mem_names a f).1 (List.mem_filter.1 h).1)
  have m : ∀ f, base f ∉ b.names.map base ↔ ∀ g ∈ b.files, base f ≠ base g := fun f => by
    rw [List.mem_map]
    refine ⟨fun h g hg e => h ⟨g, (mem_names b g).2 hg, e.symm⟩, ?_⟩
    rintro h ⟨g, hg, e⟩
    exact h g ((mem_names b g).1 hg) e.symm
  refine ⟨⟨a.names.filter fun f => decide (base f ∉ b.names.map base), a.props.filter fun p => decide (base p.1 ∉ b.names.map base),
    false, false, false, none, none, none, none⟩, ?_, ⟨fun f => ?_, fun p hp => ga.2.1 p (List.mem_filter.1 hp).1,
      List.Nodup.sublist (List.filter_sublist.map _) ga.2.2⟩, fun f => ?_⟩
  · unfold subSst openSst setFiles
    rw [key]
    dsimp only
    rw [if_pos c, pa]; rfl
  · show f ∈ a.names.filter _ ↔ f ∈ (a.props.filter _).map Prod.fst
    constructor
    · intro h
      obtain ⟨h, k⟩ := List.mem_filter.1 h
      obtain ⟨p, hp, rfl⟩ := List.mem_map.1 ((ga.1 f).1 ((mem_names a f).1 h))
      exact List.mem_map.2 ⟨p, List.mem_filter.2 ⟨hp, k⟩, rfl⟩
    · intro h
      obtain ⟨p, hp, rfl⟩ := List.mem_map.1 h
      obtain ⟨x, y⟩ := List.mem_filter.1 hp
      exact List.mem_filter.2 ⟨(mem_names a p.1).2 ((ga.1 p.1).2 (List.mem_map_of_mem x)), y⟩
  · show f ∈ a.names.filter _ ↔ _
    rw [List.mem_filter, mem_names, decide_eq_true_eq, m]

theorem names_one (s : Sst F) (f : F) (h : s.files = [f]) : s.names = [f] := by
  unfold Sst.names; rw [h]; rfl

theorem names_two (s : Sst F) (f g : F) (h : s.files = [f, g]) (hl : g < f) : s.names = [g, f] := by
  unfold Sst.names; rw [h]
  have : ¬ f ≤ g := not_le.2 hl
  simp [List.insertionSort, List.orderedInsert, this]

/-- **Violated.** Two files with the same base name, in different directories, opened in the reverse of their sorted order: removing one
of them leaves a set that lists one of the files and knows the properties of the other, so that its file is not found (`KeyError`). -/
theorem sub_same_name_violated {B : Type} [DecidableEq B] (base : F → B) (isfile : F → Bool) (read : F → SstProps) (f g : F) (hl : g < f)
    (hb : base f = base g) (ef : isfile f = true) (eg : isfile g = true) :
    ∃ a b r, openSst isfile read [f, g] true false = .ok a ∧ openSst isfile read [f] true false = .ok b ∧
      subSst base isfile read a b = .ok r ∧ r.names = [f] ∧ dictGet r.props f = .error .keyError := by
  have ne : g ≠ f := ne_of_lt hl
  have ca : [f, g].all isfile = true := by simp [ef, eg]
  have cb : [f].all isfile = true := by simp [ef]
  have pa : [f, g].foldl (fun d f => dictSet d f (read f)) [] = [(f, read f), (g, read g)] := by
    simp [dictSet, ne]
  refine ⟨⟨[f, g], [(f, read f), (g, read g)], true, false, false, none, none, none, none⟩,
    ⟨[f], [(f, read f)], true, false, false, none, none, none, none⟩,
    ⟨[f], [(g, read g)], false, false, false, none, none, none, none⟩, ?_, ?_, ?_, names_one _ f rfl, ?_⟩
  · unfold openSst setFiles; rw [if_pos ca]
    exact congrArg (fun d => Except.ok (⟨[f, g], d, true, false, false, none, none, none, none⟩ : Sst F)) pa
  · unfold openSst setFiles; rw [if_pos cb]; rfl
  · unfold subSst
    rw [names_one ⟨[f], [(f, read f)], true, false, false, none, none, none, none⟩ f rfl, names_two _ f g rfl hl]
    have e : ([f].map base).foldl (dropBase base) ([g, f], [(f, read f), (g, read g)]) = ([f], [(g, read g)]) := by
      simp [dropBase, hb]
    dsimp only
    rw [e]
    unfold openSst setFiles; rw [if_pos cb]; rfl
  · simp [dictGet, ne]

/-- **Violated.** A file joined twice and removed once is still listed, with no properties: the limits of the set cannot be read. -/
theorem sub_twice_violated {B : Type} [DecidableEq B] (base : F → B) (isfile : F → Bool) (read : F → SstProps) (f : F) (ef : isfile f = true) :
    ∃ a d r, openSst isfile read [f] true false = .ok a ∧ addSst isfile read a a = .ok d ∧ subSst base isfile read d a = .ok r ∧
      r.names = [f] ∧ r.tMin = .error .valueError ∧ dictGet r.props f = .error .keyError := by
  have c1 : [f].all isfile = true := by simp [ef]
  have c2 : [f, f].all isfile = true := by simp [ef]
  refine ⟨⟨[f], [(f, read f)], true, false, false, none, none, none, none⟩,
    ⟨[f, f], [(f, read f)], false, false, false, none, none, none, none⟩,
    ⟨[f], [], false, false, false, none, none, none, none⟩, ?_, ?_, ?_, names_one _ f rfl, rfl, rfl⟩
  · unfold openSst setFiles; rw [if_pos c1]; rfl
  · unfold addSst openSst setFiles
    rw [names_one _ f rfl]
    show (if [f, f].all isfile = true then _ else _ : Except Err (Sst F)).bind _ = _
    rw [if_pos c2]
    have : dictMerge [(f, read f)] [(f, read f)] = [(f, read f)] := by simp [dictMerge, dictSet]
    show Except.ok (⟨[f, f], dictMerge [(f, read f)] [(f, read f)], _, _, _, _, _, _, _⟩ : Sst F) = _
    rw [this]
  · have n2 : (⟨[f, f], [(f, read f)], false, false, false, none, none, none, none⟩ : Sst F).names = [f, f] := by
      simp [Sst.names, List.insertionSort, List.orderedInsert]
    unfold subSst
    rw [names_one ⟨[f], [(f, read f)], true, false, false, none, none, none, none⟩ f rfl, n2]
    have e : ([f].map base).foldl (dropBase base) ([f, f], [(f, read f)]) = ([f], []) := by
      simp [dropBase]
    dsimp only
    rw [e]
    unfold openSst setFiles; rw [if_pos c1]; rfl

/-! ## Selections -/

theorem bindOk {α β : Type} {x : Except Err α} {f : α → Except Err β} {b : β} (h : x.bind f = .ok b) : ∃ a, x = .ok a ∧ f a = .ok b := by
  cases x with
  | error e => cases h
  | ok a => exact ⟨a, rfl, h⟩

theorem mapOk {α β : Type} {x : Except Err α} {f : α → β} {b : β} (h : x.map f = .ok b) : ∃ a, x = .ok a ∧ f a = b := by
  cases x with
  | error e => cases h
  | ok a => exact ⟨a, rfl, Except.ok.inj h⟩

theorem maIn_error (n : Nat) : maIn n = .error .exception := by
  unfold maIn seqContains
  rw [if_neg (by simp), if_neg (by decide)]

/-- **Violated.** On a set that has files, no mini-array can be chosen. -/
theorem set_ma_violated (s : Sst F) (h : s.props ≠ []) (m : Int) : setMa s m = .error .exception := by
  unfold setMa
  cases e : s.props with
  | nil => exact absurd e h
  | cons p ps =>
    rw [List.map_cons]
    unfold maAll
    rw [maIn_error]; rfl

theorem setArg_keeps (upper : List Char → List Char) (s t : Sst F) (a : SstArg) (h : setArg upper s a = .ok t) (hp : s.props ≠ []) :
    t.props = s.props ∧ t.ma = s.ma := by
  cases a with
  | freqRange v =>
    cases v with
    | none => obtain ⟨r, _, rfl⟩ := mapOk h; exact ⟨rfl, rfl⟩
    | some l => obtain ⟨r, _, rfl⟩ := mapOk h; exact ⟨rfl, rfl⟩
  | timeRange v =>
    cases v with
    | none => obtain ⟨r, _, rfl⟩ := mapOk h; exact ⟨rfl, rfl⟩
    | some l => obtain ⟨r, _, rfl⟩ := mapOk h; exact ⟨rfl, rfl⟩
  | ma m =>
    replace h : setMa s m = .ok t := h
    rw [set_ma_violated s hp] at h; cases h
  | polar p =>
    replace h : setPolar upper s p = .ok t := h
    unfold setPolar at h
    by_cases c : (s.props.all fun q => decide (upper p ∈ q.2.polars)) = true
    · rw [if_pos c] at h; obtain rfl := Except.ok.inj h; exact ⟨rfl, rfl⟩
    · rw [if_neg c] at h; cases h
  | other => obtain rfl := Except.ok.inj h; exact ⟨rfl, rfl⟩

theorem setArgs_keeps (upper : List Char → List Char) (args : List SstArg) (s t : Sst F) (h : setArgs upper s args = .ok t)
    (hp : s.props ≠ []) : t.props = s.props ∧ t.ma = s.ma := by
  induction args generalizing s with
  | nil => obtain rfl := Except.ok.inj h; exact ⟨rfl, rfl⟩
  | cons a as ih =>
    obtain ⟨u, hu, h⟩ := bindOk h
    obtain ⟨x, y⟩ := setArg_keeps upper s u a hu hp
    obtain ⟨z, w⟩ := ih u h (x ▸ hp)
    exact ⟨z.trans x, w.trans y⟩

/-- **Violated.** `select` never returns anything on a set of files that was opened (whatever its content and the arguments): choosing a
mini-array raises, and so does not choosing one. -/
theorem select_violated (isfile : F → Bool) (read : F → SstProps) (upper : List Char → List Char) (content : F → SstContent) (l : List F)
    (hl : l ≠ []) (all : Bool) (s : Sst F) (h : openSst isfile read l true all = .ok s) (args : List SstArg) (r : Option SData) :
    selectSst upper content s args ≠ .ok r := by
  have hp : s.props ≠ [] := by
    have hf : ∀ f ∈ l, isfile f = true := List.all_eq_true.1 (setFiles_ok h).1
    obtain ⟨t, e, g, m, _⟩ := (open_good isfile read l all).2 hf
    rw [h] at e
    obtain rfl := Except.ok.inj e
    obtain ⟨f, fs, rfl⟩ := List.exists_cons_of_ne_nil hl
    have : f ∈ s.props.map Prod.fst := (g.1 f).1 ((mem_names s f).1 ((m f).2 List.mem_cons_self))
    intro q; rw [q] at this; cases this
  have hm : s.ma = none := by rw [(setFiles_ok h).2]
  intro e
  obtain ⟨t, ht, e⟩ := bindOk e
  obtain ⟨fr, _, e⟩ := bindOk e
  obtain ⟨tr, _, e⟩ := bindOk e
  obtain ⟨m, q, e⟩ := bindOk e
  obtain ⟨x, y⟩ := setArgs_keeps upper args s t ht hp
  unfold getMa at q
  rw [y, hm, Option.map_none, Option.getD_none, if_neg (x ▸ hp)] at q
  cases q

/-- Ranges: two bounds are put in order, one bound is doubled, more are refused. -/
theorem range_bounds (a b c : ℚ) (l : List ℚ) :
    bounds [a, b] = .ok [min a b, max a b] ∧ bounds [a] = .ok [a, a] ∧ bounds (a :: b :: c :: l) = .error .indexError := by
  refine ⟨?_, rfl, ?_⟩
  · unfold bounds
    by_cases h : a ≤ b
    · simp [List.insertionSort, List.orderedInsert, h]
    · have := le_of_not_ge h
      simp [List.insertionSort, List.orderedInsert, h, this]
  · unfold bounds
    exact if_pos (by rw [List.length_insertionSort]; simp only [List.length_cons]; omega)

/-! ### Data of one file -/

theorem keepMask_map {α β : Type} (p : α → Bool) (l : List α) (r : List β) :
    keepMask (l.map p) r = ((l.zip r).filter fun q => p q.1).map Prod.snd := by
  unfold keepMask
  rw [List.zip_map_left, List.filter_map, List.map_map]
  rfl

theorem keepMask_self {α : Type} (p : α → Bool) (l : List α) : keepMask (l.map p) l = l.filter p := by
  induction l with
  | nil => rfl
  | cons x xs ih =>
    unfold keepMask at ih ⊢
    rw [List.map_cons, List.zip_cons_cons]
    cases e : p x
    · rw [List.filter_cons_of_neg (by simp), List.filter_cons_of_neg (by simp [e])]; exact ih
    · rw [List.filter_cons_of_pos (by simp), List.filter_cons_of_pos e, List.map_cons, ih]

/-- The data of one file, for proper ranges: the times and frequencies between the bounds, both included, and for each of them the value of
the polarisation and of the mini-array at its place on the last axis. -/
theorem file_exact (p : SstProps) (c : SstContent) (t0 t1 f0 f1 : ℚ) (pol : List Char) (m : Nat) (ht : t0 ≠ t1) (hf : f0 ≠ f1) (d : SData)
    (h : fileData p c t0 t1 f0 f1 pol m = .ok d) :
    m < c.nMa ∧ d.time = c.times.filter (fun t => decide (t0 ≤ t) && decide (t ≤ t1)) ∧
      d.freq = p.freqs.filter (fun f => decide (f0 ≤ f) && decide (f ≤ f1)) ∧
      d.polar = p.polars.filter (fun x => decide (x = pol)) ∧
      d.data = ((c.times.zip c.data).filter fun q => decide (t0 ≤ q.1) && decide (q.1 ≤ t1)).map fun q =>
        ((p.freqs.zip q.2).filter fun q => decide (f0 ≤ q.1) && decide (q.1 ≤ f1)).map fun q =>
          ((p.polars.zip q.2).filter fun q => decide (q.1 = pol)).map fun q => q.2.getD m 0 := by
  unfold fileData at h
  obtain ⟨fm, hfm, h⟩ := bindOk h
  obtain ⟨tm, htm, h⟩ := bindOk h
  obtain ⟨k, hk, h⟩ := bindOk h
  unfold axisMask at hfm htm
  rw [if_neg hf] at hfm
  rw [if_neg ht] at htm
  obtain rfl := Except.ok.inj hfm
  obtain rfl := Except.ok.inj htm
  unfold lastIndex at hk
  by_cases c1 : (0 : Int) ≤ (m : Int) ∧ (m : Int) < (c.nMa : Int)
  · rw [if_pos c1] at hk
    have e : m = k := by simpa using Except.ok.inj hk
    subst e
    unfold mkSData at h
    split_ifs at h with hc
    obtain rfl := Except.ok.inj h
    refine ⟨by exact_mod_cast c1.2, keepMask_self _ _, keepMask_self _ _, keepMask_self _ _, ?_⟩
    show (keepMask _ c.data).map _ = _
    rw [keepMask_map, List.map_map]
    refine List.map_congr_left fun q _ => ?_
    show (keepMask _ q.2).map _ = _
    rw [keepMask_map, List.map_map]
    refine List.map_congr_left fun q _ => ?_
    show (keepMask _ q.2).map _ = _
    rw [keepMask_map, List.map_map]
    rfl
  · rw [if_neg c1, if_neg (by rintro ⟨a, _⟩; exact absurd a (by omega))] at hk
    cases hk

/-- `select` would return the data of the file, had a mini-array been chosen, for ranges inside those of the file. -/
theorem select_one_partial (upper : List Char → List Char) (content : F → SstContent) (s : Sst F) (f : F) (p : SstProps) (t0 t1 f0 f1 : ℚ)
    (pol : List Char) (m : Nat) (hn : s.files = [f]) (hp : s.props = [(f, p)]) (hm : s.ma = some m) (hpol : s.polar = some pol)
    (ht : s.timeRange = some [t0, t1]) (hf : s.freqRange = some [f0, f1]) (h0 : t0 ≤ p.tMax) (h1 : p.tMin ≤ t1) (h2 : f0 ≤ p.fMax)
    (h3 : f1 ≤ p.fMax) :
    selectSst upper content s [] = (fileData p (content f) t0 t1 f0 f1 pol m).map some := by
  have e1 : getFreqRange s = .ok [f0, f1] := by unfold getFreqRange; rw [hf]; rfl
  have e2 : getTimeRange s = .ok [t0, t1] := by unfold getTimeRange; rw [ht]; rfl
  have e3 : getMa s = .ok m := by unfold getMa; rw [hm]; rfl
  have e4 : getPolar s = .ok pol := by unfold getPolar; rw [hpol]; rfl
  have e5 : dictGet s.props f = .ok p := by rw [hp]; simp [dictGet]
  have e6 : sstSkipped t0 t1 f0 f1 p.tMin p.tMax p.fMin p.fMax = false := by
    unfold sstSkipped
    simp [h0, h1, h2, h3]
  unfold selectSst
  show (getFreqRange s).bind _ = _
  rw [e1]
  show (getTimeRange s).bind _ = _
  rw [e2]
  show (getMa s).bind _ = _
  rw [e3]
  show (getPolar s).bind _ = _
  rw [e4]
  show (if s.names = [] then _ else _ : Except Err (Option SData)) = _
  rw [names_one s f hn, if_neg (by simp)]
  show (fileStep content s.props t0 t1 f0 f1 pol m none f).bind _ = _
  unfold fileStep
  rw [e5]
  show (if sstSkipped t0 t1 f0 f1 p.tMin p.tMax p.fMin p.fMax = true then _ else _ : Except Err (Option SData)).bind _ = _
  rw [e6]
  cases fileData p (content f) t0 t1 f0 f1 pol m <;> rfl

end

/-! ## Concrete cases -/

/-- Properties of a file of two frequencies. -/
def demoRead (n : Nat) : SstProps := ⟨n, n + 1, 10, 20, [10, 20], ["NW".toList, "NE".toList], 2, 3⟩

/-- Three files, and their base names modulo 10. -/
example : ((openSst (fun _ => true) demoRead [15, 12, 5] true false).bind fun a =>
    (openSst (fun _ => true) demoRead [32] true false).bind fun b =>
      (subSst (· % 10) (fun _ => true) demoRead a b).map fun r => (r.names, r.props.map Prod.fst)).toOption = some ([5, 15], [15, 5]) := by
  decide +kernel

example : ((openSst (fun _ => true) demoRead [15, 5] true false).bind fun a =>
    (subSst (· % 10) (fun _ => true) demoRead a a).map fun r => (r.names, r.props.map Prod.fst)).toOption = some ([], []) := by
  decide +kernel

/-- A case of `sub_same_name_violated`: 5 and 15 have the same base name. -/
example : ((openSst (fun _ => true) demoRead [15, 5] true false).bind fun a =>
    (openSst (fun _ => true) demoRead [15] true false).bind fun b =>
      (subSst (· % 10) (fun _ => true) demoRead a b).map fun r => (r.names, r.props.map Prod.fst)).toOption = some ([15], [5]) := by
  decide +kernel

example : fileData (demoRead 0) ⟨[0, 1/2, 1], [[[[1, 2], [3, 4]], [[5, 6], [7, 8]]], [[[1, 2], [3, 4]], [[5, 6], [7, 9]]],
    [[[1, 2], [3, 4]], [[5, 6], [7, 8]]]], 2⟩ (1/4) (3/4) 15 20 "NE".toList 1 = .ok ⟨[1/2], [20], ["NE".toList], [[[9]]]⟩ := by
  decide +kernel

end Verif.IO
