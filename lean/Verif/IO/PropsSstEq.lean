import Verif.IO.SstEq
import Verif.IO.PropsSst

/-!
# Comparison of sets of SST files (C190)

A user who writes `a == b` for two sets of SST files expects `True` exactly when both hold the same observations.
-/

namespace Verif.IO

variable {F B : Type} [LinearOrder F] [DecidableEq B]

/-- A base name is among those of the files of the set. -/
def Sst.Has (base : F → B) (s : Sst F) (x : B) : Prop := ∃ f ∈ s.files, base f = x

/-- What is expected: both sets have the same base names. -/
def SameNames (base : F → B) (a b : Sst F) : Prop := ∀ x, a.Has base x ↔ b.Has base x

theorem sameFiles_iff (base : F → B) (a b : Sst F) : sameFiles base a b = true ↔ ∀ x, b.Has base x → a.Has base x := by
  unfold sameFiles
  rw [List.all_eq_true]
  constructor
  · rintro h x ⟨f, hf, rfl⟩
    obtain ⟨g, hg, e⟩ := List.mem_map.1 (of_decide_eq_true (h f ((mem_names b f).2 hf)))
    exact ⟨g, (mem_names a g).1 hg, e⟩
  · intro h f hf
    obtain ⟨g, hg, e⟩ := h (base f) ⟨f, (mem_names b f).1 hf, rfl⟩
    exact decide_eq_true (List.mem_map.2 ⟨g, (mem_names a g).2 hg, e⟩)

/-- Everything the comparison of two sets can answer: it raises exactly when both carry a pointing file, it is true exactly when none does and
every base name of the right side is on the left side, and it is false otherwise. -/
theorem eq_exact (base : F → B) (a b : Sst F) :
    (eqSst base a (some b) = .error .attributeError ↔ a.pointed = true ∧ b.pointed = true) ∧
      (eqSst base a (some b) = .ok true ↔ a.pointed = false ∧ b.pointed = false ∧ ∀ x, b.Has base x → a.Has base x) ∧
      (eqSst base a (some b) = .ok false ↔
        a.pointed ≠ b.pointed ∨ (a.pointed = false ∧ b.pointed = false ∧ ∃ x, b.Has base x ∧ ¬ a.Has base x)) := by
  have k := sameFiles_iff base a b
  have nk : (∃ x, b.Has base x ∧ ¬ a.Has base x) ↔ sameFiles base a b = false := by
    rw [← Bool.not_eq_true, k]; push Not; rfl
  rw [nk, ← k]
  show ((samePointing a.pointed b.pointed).map (fun p => sameFiles base a b && p) = _ ↔ _) ∧
    ((samePointing a.pointed b.pointed).map (fun p => sameFiles base a b && p) = _ ↔ _) ∧
    ((samePointing a.pointed b.pointed).map (fun p => sameFiles base a b && p) = _ ↔ _)
  generalize a.pointed = p
  generalize b.pointed = q
  generalize sameFiles base a b = s
  cases p <;> cases q <;> cases s <;> simp [samePointing, Except.map]

/-- Every set without pointing file equals itself. -/
theorem eq_self_partial (base : F → B) (a : Sst F) (h : a.pointed = false) : eqSst base a (some a) = .ok true :=
  (eq_exact base a a).2.1.2 ⟨h, h, fun _ hx => hx⟩

/-- Of a set with a pointing file, not even the comparison with itself is possible. -/
theorem eq_self_violated (base : F → B) (a : Sst F) (h : a.pointed = true) :
    eqSst base a (some a) = .error .attributeError ∧ neSst base a (some a) = .error .attributeError := by
  have e := (eq_exact base a a).1.2 ⟨h, h⟩
  exact ⟨e, by rw [neSst, e]; rfl⟩

/-- The comparison is transitive. -/
theorem eq_trans (base : F → B) (a b c : Sst F) (h : eqSst base a (some b) = .ok true) (k : eqSst base b (some c) = .ok true) :
    eqSst base a (some c) = .ok true := by
  obtain ⟨p, _, x⟩ := (eq_exact base a b).2.1.1 h
  obtain ⟨_, q, y⟩ := (eq_exact base b c).2.1.1 k
  exact (eq_exact base a c).2.1.2 ⟨p, q, fun n hn => x n (y n hn)⟩

/-- Comparing in both directions decides whether two sets without pointing file have the same base names. -/
theorem eq_both_partial (base : F → B) (a b : Sst F) (ha : a.pointed = false) (hb : b.pointed = false) :
    (eqSst base a (some b) = .ok true ∧ eqSst base b (some a) = .ok true) ↔ SameNames base a b := by
  rw [(eq_exact base a b).2.1, (eq_exact base b a).2.1]
  exact ⟨fun h x => ⟨h.2.2.2 x, h.1.2.2 x⟩, fun h => ⟨⟨ha, hb, fun x => (h x).2⟩, hb, ha, fun x => (h x).1⟩⟩

/-- A single comparison does not: however two sets are joined, the result equals each of the two; and as soon as one base name of the second
is new, the first does not equal the result, so the answer depends on the side. -/
theorem eq_one_side_violated (base : F → B) (isfile : F → Bool) (read : F → SstProps) (a b r : Sst F) (h : addSst isfile read a b = .ok r) :
    eqSst base r (some a) = .ok true ∧ eqSst base r (some b) = .ok true ∧
      ((∃ x, b.Has base x ∧ ¬ a.Has base x) →
        eqSst base a (some r) = .ok false ∧ neSst base a (some r) = .ok true ∧ ¬ SameNames base r a) := by
  obtain ⟨pa, pb, -, rfl⟩ := add_ok h
  have inA : ∀ x, a.Has base x →
      (⟨a.names ++ b.names, dictMerge a.props b.props, false, false, false, none, none, none, none⟩ : Sst F).Has base x := by
    rintro x ⟨f, hf, e⟩
    exact ⟨f, List.mem_append_left _ ((mem_names a f).2 hf), e⟩
  have inB : ∀ x, b.Has base x →
      (⟨a.names ++ b.names, dictMerge a.props b.props, false, false, false, none, none, none, none⟩ : Sst F).Has base x := by
    rintro x ⟨f, hf, e⟩
    exact ⟨f, List.mem_append_right _ ((mem_names b f).2 hf), e⟩
  refine ⟨(eq_exact base _ a).2.1.2 ⟨rfl, pa, inA⟩, (eq_exact base _ b).2.1.2 ⟨rfl, pb, inB⟩, ?_⟩
  rintro ⟨x, hx, nx⟩
  have e := (eq_exact base a
    ⟨a.names ++ b.names, dictMerge a.props b.props, false, false, false, none, none, none, none⟩).2.2.2 (Or.inr ⟨pa, rfl, x, inB x hx, nx⟩)
  exact ⟨e, by rw [neSst, e]; rfl, fun s => nx ((s x).1 (inB x hx))⟩

omit [LinearOrder F] in
theorem foldl_dropBase_mem (base : F → B) (xs : List B) (st : List F × List (F × SstProps)) (f : F)
    (h : f ∈ (xs.foldl (dropBase base) st).1) : f ∈ st.1 := by
  induction xs generalizing st with
  | nil => exact h
  | cons x xs ih => exact List.mem_of_mem_eraseP (ih _ h)

/-- Taking files away is not seen from the left side either: whatever is removed, the set equals what is left of it. -/
theorem eq_removed_violated (base : F → B) (isfile : F → Bool) (read : F → SstProps) (a b r : Sst F)
    (h : subSst base isfile read a b = .ok r) : eqSst base a (some r) = .ok true := by
  unfold subSst at h
  obtain ⟨n, en, h⟩ := bindOk h
  obtain ⟨_, rfl⟩ := setFiles_ok en
  cases p : a.pointed with
  | true =>
    rw [p] at h
    cases q : b.pointed <;> rw [q] at h <;> cases h
  | false =>
    rw [p] at h
    have e := (Except.ok.inj h).symm
    subst e
    refine (eq_exact base a _).2.1.2 ⟨p, rfl, ?_⟩
    rintro x ⟨f, hf, e⟩
    exact ⟨f, (mem_names a f).1 (foldl_dropBase_mem base _ _ f hf), e⟩

/-- Every set without pointing file equals the set without any file. -/
theorem eq_nothing_violated (base : F → B) (a o : Sst F) (h : a.pointed = false) (ho : o.pointed = false) (e : o.files = []) :
    eqSst base a (some o) = .ok true := by
  refine (eq_exact base a o).2.1.2 ⟨h, ho, ?_⟩
  rintro x ⟨f, hf, -⟩
  rw [e] at hf; cases hf

/-- A comparison with anything which is not a set of SST files (`None`, a number, a text) raises instead of answering `False`. -/
theorem eq_other_violated (base : F → B) (a : Sst F) :
    eqSst base a none = .error .attributeError ∧ neSst base a none = .error .attributeError := ⟨rfl, rfl⟩

/-- Only base names are compared: files of other directories, listed any number of times and whatever they contain, count as the same. -/
theorem eq_directories (base : F → B) (a b : Sst F) (ha : a.pointed = false) (hb : b.pointed = false)
    (h : ∀ x, x ∈ b.files.map base → x ∈ a.files.map base) : eqSst base a (some b) = .ok true := by
  refine (eq_exact base a b).2.1.2 ⟨ha, hb, ?_⟩
  rintro x ⟨f, hf, e⟩
  obtain ⟨g, hg, e'⟩ := List.mem_map.1 (h x (List.mem_map.2 ⟨f, hf, e⟩))
  exact ⟨g, hg, e'⟩

/-! ## Concrete sets

Files are numbers; the base name is the last digit. -/

/-- A set of the files `l`. -/
def exSet (l : List Nat) (pointed : Bool) : Sst Nat := ⟨l, [], false, false, pointed, none, none, none, none⟩

example : (eqSst (· % 10) (exSet [12, 25] false) (some (exSet [35] false))).toOption = some true := by decide
example : (eqSst (· % 10) (exSet [35] false) (some (exSet [12, 25] false))).toOption = some false := by decide
example : (neSst (· % 10) (exSet [35] false) (some (exSet [12, 25] false))).toOption = some true := by decide
example : (eqSst (· % 10) (exSet [35] true) (some (exSet [35] false))).toOption = some false := by decide
example : (eqSst (· % 10) (exSet [35] true) (some (exSet [35] true))).toOption = none := by decide

example : ∃ r, addSst (fun _ => true) (fun _ => ⟨0, 1, 0, 1, [], [], 96, 96⟩) (exSet [35] false) (exSet [12] false) = .ok r ∧
    (∃ x, (exSet [12] false).Has (· % 10) x ∧ ¬ (exSet [35] false).Has (· % 10) x) := by
  refine ⟨⟨[35] ++ [12], [], false, false, false, none, none, none, none⟩, rfl, 2, ⟨12, List.mem_cons_self, rfl⟩, ?_⟩
  rintro ⟨f, hf, e⟩
  rw [List.mem_singleton.1 hf] at e
  exact absurd e (by decide)

example : ∃ r, subSst (· % 10) (fun _ => true) (fun _ => ⟨0, 1, 0, 1, [], [], 96, 96⟩) (exSet [35, 12] false) (exSet [22] false) = .ok r :=
  ⟨_, rfl⟩

end Verif.IO
