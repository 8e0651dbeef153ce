import Verif.Cnst.Relax
import Mathlib.Tactic.Linarith
import Mathlib.Tactic.FieldSimp
import Mathlib.Tactic.Positivity
import Mathlib.Tactic.Push

/-!
# The relaxed sidereal time constraint (property C105)
-/

namespace Verif.Cnst

/-- `c` is the length of the longest row of consecutive slots, among the first `n`, without a crossing. -/
def IsLongestRun (n : Nat) (hit : Nat → Bool) (c : Nat) : Prop :=
  (∃ a, a + c ≤ n ∧ ∀ i, a ≤ i → i < a + c → hit i = false) ∧
  ∀ a L, a + L ≤ n → (∀ i, a ≤ i → i < a + L → hit i = false) → L ≤ c

/-! ## The rows of slots -/

mutual
/-- Lengths of the rows of `true`. -/
def runs0 : List Bool → List Nat
  | [] => []
  | true :: l => runs1 1 l
  | false :: l => runs0 l
/-- The same, `k` items of the current row being already read. -/
def runs1 (k : Nat) : List Bool → List Nat
  | [] => [k]
  | true :: l => runs1 (k + 1) l
  | false :: l => k :: runs0 l
end

/-- Changes, from a previous item. -/
def edgesFrom (prev : Bool) : List Bool → List Bool
  | [] => [true]
  | x :: l => (x != prev) :: edgesFrom x l

theorem edges_from (b : List Bool) (hb : b ≠ []) : edges b = edgesFrom false b := by
  have key : ∀ (l : List Bool) (x : Bool), List.zipWith (fun x y => x != y) (x :: l) l ++ [true] = edgesFrom x l := by
    intro l
    induction l with
    | nil => intro x; rfl
    | cons y l ih =>
      intro x
      rw [List.zipWith_cons_cons, List.cons_append, ih y]
      show (x != y) :: edgesFrom y l = (y != x) :: edgesFrom y l
      cases x <;> cases y <;> rfl
  cases b with
  | nil => exact absurd rfl hb
  | cons x l =>
    show x :: _ = (x != false) :: edgesFrom x l
    rw [show List.zipWith (fun x y => x != y) (x :: l) (x :: l).tail ++ [true] = edgesFrom x l from key l x]
    cases x <;> rfl

theorem whereTrue_ne (p : Nat) : ∀ (x : Bool) (l : List Bool), whereTrue p (edgesFrom x l) ≠ [] := by
  intro x l
  induction l generalizing p x with
  | nil => simp [edgesFrom, whereTrue]
  | cons y l ih =>
    show (if (y != x) = true then p :: whereTrue (p + 1) (edgesFrom y l) else whereTrue (p + 1) (edgesFrom y l)) ≠ []
    by_cases h : (y != x) = true
    · rw [if_pos h]; simp
    · rw [if_neg h]; exact ih (p + 1) y

theorem evens_diffs_cons (s p : Nat) (l : List Nat) (h : l ≠ []) :
    evens (diffs (s :: p :: l)) = (p - s) :: evens (diffs l) := by
  cases l with
  | nil => exact absurd rfl h
  | cons a l => rfl

theorem runs_exact : ∀ (l : List Bool) (p : Nat), evens (diffs (whereTrue p (edgesFrom false l))) = runs0 l ∧
    ∀ s, s ≤ p → evens (diffs (s :: whereTrue p (edgesFrom true l))) = runs1 (p - s) l := by
  intro l
  induction l with
  | nil =>
    intro p
    constructor
    · rfl
    · intro s _; rfl
  | cons x l ih =>
    intro p
    constructor
    · cases x with
      | false =>
        show evens (diffs (if (false != false) = true then _ else whereTrue (p + 1) (edgesFrom false l))) = runs0 l
        rw [if_neg (by decide)]
        exact (ih (p + 1)).1
      | true =>
        show evens (diffs (if (true != false) = true then p :: whereTrue (p + 1) (edgesFrom true l) else _)) = runs1 1 l
        rw [if_pos (by decide)]
        have := (ih (p + 1)).2 p (by omega)
        rw [show p + 1 - p = 1 by omega] at this
        exact this
    · intro s hs
      cases x with
      | true =>
        show evens (diffs (s :: (if (true != true) = true then _ else whereTrue (p + 1) (edgesFrom true l)))) = runs1 (p - s + 1) l
        rw [if_neg (by decide)]
        have := (ih (p + 1)).2 s (by omega)
        rw [show p + 1 - s = p - s + 1 by omega] at this
        exact this
      | false =>
        show evens (diffs (s :: (if (false != true) = true then p :: whereTrue (p + 1) (edgesFrom false l) else _))) = (p - s) :: runs0 l
        rw [if_pos (by decide), evens_diffs_cons _ _ _ (whereTrue_ne _ _ _), (ih (p + 1)).1]

theorem runs_bound : ∀ (l : List Bool),
    (∀ a L, 0 < L → (∀ i, i < L → l[a + i]? = some true) → ∃ r ∈ runs0 l, L ≤ r) ∧
    ∀ k, (∀ L, (∀ i, i < L → l[i]? = some true) → ∃ r ∈ runs1 k l, k + L ≤ r) ∧
      ∀ a L, 0 < L → (∀ i, i < L → l[a + i]? = some true) → ∃ r ∈ runs1 k l, L ≤ r := by
  intro l
  induction l with
  | nil =>
    refine ⟨fun a L hL h => ?_, fun k => ⟨fun L h => ?_, fun a L hL h => ?_⟩⟩
    · have := h 0 hL; simp at this
    · rcases Nat.eq_zero_or_pos L with rfl | hL
      · exact ⟨k, by simp [runs1], le_refl _⟩
      · have := h 0 hL; simp at this
    · have := h 0 hL; simp at this
  | cons x l ih =>
    have shift : ∀ {a L : Nat}, (∀ i, i < L → (x :: l)[a + 1 + i]? = some true) → ∀ i, i < L → l[a + i]? = some true := by
      intro a L h i hi
      have := h i hi
      rwa [show a + 1 + i = (a + i) + 1 by omega, List.getElem?_cons_succ] at this
    have first : ∀ {L : Nat}, (∀ i, i < L + 1 → (x :: l)[i]? = some true) → x = true ∧ ∀ i, i < L → l[i]? = some true := by
      intro L h
      refine ⟨by simpa using h 0 (by omega), fun i hi => ?_⟩
      have := h (i + 1) (by omega)
      rwa [List.getElem?_cons_succ] at this
    refine ⟨fun a L hL h => ?_, fun k => ⟨fun L h => ?_, fun a L hL h => ?_⟩⟩
    · cases a with
      | zero =>
        cases L with
        | zero => omega
        | succ L =>
          obtain ⟨rfl, h2⟩ := first (L := L) (fun i hi => by simpa using h i hi)
          obtain ⟨r, hr, hle⟩ := (ih.2 1).1 L h2
          exact ⟨r, hr, by omega⟩
      | succ a =>
        have h2 := shift h
        cases x with
        | true => exact (ih.2 1).2 a L hL h2
        | false => exact ih.1 a L hL h2
    · cases L with
      | zero =>
        cases x with
        | true =>
          obtain ⟨r, hr, hle⟩ := (ih.2 (k + 1)).1 0 (by intro i hi; omega)
          exact ⟨r, hr, by omega⟩
        | false => exact ⟨k, by simp [runs1], le_refl _⟩
      | succ L =>
        obtain ⟨rfl, h2⟩ := first (L := L) h
        obtain ⟨r, hr, hle⟩ := (ih.2 (k + 1)).1 L h2
        exact ⟨r, hr, by omega⟩
    · cases a with
      | zero =>
        cases L with
        | zero => omega
        | succ L =>
          obtain ⟨rfl, h2⟩ := first (L := L) (fun i hi => by simpa using h i hi)
          obtain ⟨r, hr, hle⟩ := (ih.2 (k + 1)).1 L h2
          exact ⟨r, hr, by omega⟩
      | succ a =>
        have h2 := shift h
        cases x with
        | true => exact (ih.2 (k + 1)).2 a L hL h2
        | false =>
          obtain ⟨r, hr, hle⟩ := ih.1 a L hL h2
          exact ⟨r, List.mem_cons_of_mem _ hr, hle⟩

theorem runs_real : ∀ (l : List Bool),
    (∀ r ∈ runs0 l, 0 < r ∧ ∃ a, ∀ i, i < r → l[a + i]? = some true) ∧
    ∀ k, ∀ r ∈ runs1 k l, (k ≤ r ∧ ∀ i, i < r - k → l[i]? = some true) ∨ (0 < r ∧ ∃ a, ∀ i, i < r → l[a + i]? = some true) := by
  intro l
  induction l with
  | nil =>
    refine ⟨fun r hr => by simp [runs0] at hr, fun k r hr => ?_⟩
    simp only [runs1, List.mem_singleton] at hr
    subst hr
    exact Or.inl ⟨le_refl _, fun i hi => by omega⟩
  | cons x l ih =>
    have push : ∀ {r : Nat}, (∃ a, ∀ i, i < r → l[a + i]? = some true) → ∃ a, ∀ i, i < r → (x :: l)[a + i]? = some true := by
      rintro r ⟨a, h⟩
      refine ⟨a + 1, fun i hi => ?_⟩
      rw [show a + 1 + i = (a + i) + 1 by omega, List.getElem?_cons_succ]
      exact h i hi
    have more : ∀ {m : Nat}, x = true → (∀ i, i < m → l[i]? = some true) → ∀ i, i < m + 1 → (x :: l)[i]? = some true := by
      rintro m rfl h i hi
      cases i with
      | zero => rfl
      | succ i => rw [List.getElem?_cons_succ]; exact h i (by omega)
    constructor
    · intro r hr
      cases x with
      | false => obtain ⟨h1, h2⟩ := ih.1 r hr; exact ⟨h1, push h2⟩
      | true =>
        rcases ih.2 1 r hr with ⟨h1, h2⟩ | ⟨h1, h2⟩
        · refine ⟨by omega, 0, fun i hi => ?_⟩
          rw [Nat.zero_add]
          exact more rfl h2 i (by omega)
        · exact ⟨h1, push h2⟩
    · intro k r hr
      cases x with
      | false =>
        rcases List.mem_cons.1 hr with rfl | hr
        · exact Or.inl ⟨le_refl _, fun i hi => by omega⟩
        · obtain ⟨h1, h2⟩ := ih.1 r hr; exact Or.inr ⟨h1, push h2⟩
      | true =>
        rcases ih.2 (k + 1) r hr with ⟨h1, h2⟩ | ⟨h1, h2⟩
        · refine Or.inl ⟨by omega, fun i hi => ?_⟩
          exact more rfl h2 i (by omega)
        · exact Or.inr ⟨h1, push h2⟩

theorem foldl_max_mem : ∀ (l : List Nat) (a : Nat), l.foldl max a ∈ a :: l := by
  intro l
  induction l with
  | nil => intro a; simp
  | cons b l ih =>
    intro a
    rcases List.mem_cons.1 (ih (max a b)) with h | h
    · rw [List.foldl_cons, h]
      rcases le_total a b with hab | hab
      · rw [max_eq_right hab]; simp
      · rw [max_eq_left hab]; simp
    · rw [List.foldl_cons]; exact List.mem_cons_of_mem _ (List.mem_cons_of_mem _ h)

theorem le_foldl_max : ∀ (l : List Nat) (a x : Nat), x ∈ a :: l → x ≤ l.foldl max a := by
  intro l
  induction l with
  | nil => intro a x h; simp at h; simp [h]
  | cons b l ih =>
    intro a x h
    rw [List.foldl_cons]
    rcases List.mem_cons.1 h with rfl | h
    · exact le_trans (le_max_left _ b) (ih _ _ (List.mem_cons_self ..))
    · rcases List.mem_cons.1 h with rfl | h
      · exact le_trans (le_max_right a _) (ih _ _ (List.mem_cons_self ..))
      · exact ih _ _ (List.mem_cons_of_mem _ h)

theorem noHit_get (n : Nat) (hit : Nat → Bool) (i : Nat) : (noHit n hit)[i]? = some true ↔ i < n ∧ hit i = false := by
  unfold noHit
  rw [List.getElem?_map]
  by_cases h : i < n
  · rw [List.getElem?_range h]
    simp [h]
  · rw [List.getElem?_eq_none (by simpa using Nat.le_of_not_lt h)]
    simp [h]

theorem longestRun_runs {n : Nat} (hn : 0 < n) (hit : Nat → Bool) :
    evens (diffs (whereTrue 0 (edges (noHit n hit)))) = runs0 (noHit n hit) := by
  rw [edges_from _ (by
    intro h
    have := congrArg List.length h
    simp [noHit] at this
    omega)]
  exact (runs_exact _ 0).1

/-- **C105**: the row of slots which gives its width to the kernel is the longest one without a crossing. -/
theorem longest_run_exact {n : Nat} {hit : Nat → Bool} {c : Nat} (h : longestRun n hit = .ok c) :
    0 < c ∧ IsLongestRun n hit c := by
  unfold longestRun at h
  rcases Nat.eq_zero_or_pos n with rfl | hn
  · cases h
  rw [longestRun_runs hn] at h
  cases hr : runs0 (noHit n hit) with
  | nil => rw [hr] at h; cases h
  | cons a l =>
    rw [hr] at h
    have hc : l.foldl max a = c := Except.ok.inj h
    have hm : c ∈ runs0 (noHit n hit) := by rw [hr, ← hc]; exact foldl_max_mem l a
    obtain ⟨h0, b, hb⟩ := (runs_real _).1 c hm
    refine ⟨h0, ⟨b, ?_, fun i h1 h2 => ?_⟩, fun x L hx hh => ?_⟩
    · have := ((noHit_get n hit (b + (c - 1))).1 (hb (c - 1) (by omega))).1
      omega
    · have := ((noHit_get n hit (b + (i - b))).1 (hb (i - b) (by omega))).2
      rwa [show b + (i - b) = i by omega] at this
    · rcases Nat.eq_zero_or_pos L with rfl | hL
      · omega
      · obtain ⟨r, hr', hle⟩ := (runs_bound (noHit n hit)).1 x L hL fun i hi =>
          (noHit_get n hit (x + i)).2 ⟨by omega, hh (x + i) (by omega) (by omega)⟩
        rw [hr] at hr'
        have := le_foldl_max l a r hr'
        omega

/-- There is such a row unless every slot holds a crossing. -/
theorem longest_run_exists {n : Nat} {hit : Nat → Bool} {j : Nat} (hj : j < n) (hh : hit j = false) : ∃ c, longestRun n hit = .ok c := by
  unfold longestRun
  rw [longestRun_runs (by omega)]
  obtain ⟨r, hr, _⟩ := (runs_bound (noHit n hit)).1 j 1 (by omega) fun i hi => (noHit_get n hit (j + i)).2
    ⟨by omega, by rwa [show j + i = j by omega]⟩
  cases h : runs0 (noHit n hit) with
  | nil => rw [h] at hr; cases hr
  | cons a l => exact ⟨_, rfl⟩

theorem isLongest_unique {n : Nat} {hit : Nat → Bool} {c d : Nat} (h : IsLongestRun n hit c) (h' : IsLongestRun n hit d) : c = d := by
  obtain ⟨⟨a, ha, hb⟩, hm⟩ := h
  obtain ⟨⟨a', ha', hb'⟩, hm'⟩ := h'
  exact Nat.le_antisymm (hm' a c ha hb) (hm a' d ha' hb')

theorem kernelSize_half (c : Nat) : kernelSize c / 2 = c / 2 := by
  unfold kernelSize
  split_ifs with h <;> omega

/-! ## The scores -/

/-- Score expected at slot `i` from the crossings: each one counts for one, less and less with the distance, nothing from `h` slots on. -/
def tent (h : Nat) (i m : Nat) : ℚ := max 0 (1 - |(i : ℚ) - m| / h)

theorem abs_diff_le {i m h : Nat} : |(i : ℚ) - m| ≤ h ↔ i ≤ m + h ∧ m ≤ i + h := by
  rw [abs_le]
  constructor
  · rintro ⟨h1, h2⟩
    have h1' : (m : ℚ) ≤ i + h := by linarith
    have h2' : (i : ℚ) ≤ m + h := by linarith
    exact ⟨by exact_mod_cast h2', by exact_mod_cast h1'⟩
  · rintro ⟨h1, h2⟩
    have h1' : (i : ℚ) ≤ m + h := by exact_mod_cast h1
    have h2' : (m : ℚ) ≤ i + h := by exact_mod_cast h2
    constructor <;> linarith

theorem kernel_tent {c : Nat} (hc : 2 ≤ c) (i m : Nat) :
    (if i ≤ m + kernelSize c / 2 ∧ m ≤ i + kernelSize c / 2 then kernelAt (kernelSize c) ((i : ℚ) - m) else 0) = tent (c / 2) i m := by
  rw [kernelSize_half]
  unfold tent kernelAt
  rw [kernelSize_half]
  have hp : (0 : ℚ) < ((c / 2 : Nat) : ℚ) := by
    have : 0 < c / 2 := by omega
    exact_mod_cast this
  by_cases h : i ≤ m + c / 2 ∧ m ≤ i + c / 2
  · rw [if_pos h, max_eq_right]
    have := (abs_diff_le (h := c / 2)).2 h
    rw [sub_nonneg, div_le_one hp]
    exact this
  · rw [if_neg h, max_eq_left]
    have : ¬ |(i : ℚ) - m| ≤ ((c / 2 : Nat) : ℚ) := fun e => h (abs_diff_le.1 e)
    rw [sub_nonpos, one_le_div hp]
    linarith

/-- **C105** (partial): when the longest row without a crossing lasts at least two slots, but not an even number of slots which is the whole schedule, each
slot receives the sum over the crossings of a score which falls linearly from one, and is null from half of this row on. -/
theorem relaxed_exact_partial {n : Nat} {hit : Nat → Bool} {c : Nat} (hl : IsLongestRun n hit c) (h2 : 2 ≤ c) (hcn : c < n ∨ n % 2 = 1) :
    ∃ f, relaxedScore n hit = .ok f ∧ ∀ i, f i = some (sumTo (fun m => if hit m = true then tent (c / 2) i m else 0) n) := by
  obtain ⟨a, ha, hb⟩ := hl.1
  obtain ⟨d, hd⟩ := longest_run_exists (n := n) (hit := hit) (j := a) (by omega) (hb a (le_refl _) (by omega))
  have hdc := isLongest_unique (longest_run_exact hd).2 hl
  subst hdc
  have hk : ¬ n < kernelSize d := by
    unfold kernelSize
    split_ifs with h
    · rcases hcn with h' | h'
      · omega
      · have : d ≠ n := by intro e; omega
        omega
    · omega
  have hk1 : kernelSize d ≠ 1 := by
    unfold kernelSize; split_ifs <;> omega
  refine ⟨fun i => if kernelSize d = 1 then none else some (convAt n (kernelSize d) hit i), ?_, ?_⟩
  · unfold relaxedScore
    rw [hd]
    show (if n < kernelSize d then _ else _) = _
    rw [if_neg hk]
  · intro i
    show (if kernelSize d = 1 then none else some (convAt n (kernelSize d) hit i)) = _
    rw [if_neg hk1]
    unfold convAt
    congr 1
    apply sumTo_congr
    intro m _
    show (if hit m = true ∧ i ≤ m + kernelSize d / 2 ∧ m ≤ i + kernelSize d / 2 then kernelAt (kernelSize d) ((i : ℚ) - m) else 0) = _
    by_cases hm : hit m = true
    · rw [if_pos hm, ← kernel_tent h2 i m]
      by_cases h : i ≤ m + kernelSize d / 2 ∧ m ≤ i + kernelSize d / 2
      · rw [if_pos ⟨hm, h⟩, if_pos h]
      · rw [if_neg (fun e => h e.2), if_neg h]
    · rw [if_neg hm, if_neg (fun e => hm e.1)]

theorem sumTo_zero (n : Nat) : sumTo (fun _ => 0) n = 0 := by
  induction n with
  | zero => rfl
  | succ n ih => rw [sumTo, ih, add_zero]

theorem sumTo_single {f : Nat → ℚ} {m : Nat} : ∀ {n : Nat}, m < n → (∀ k, k < n → k ≠ m → f k = 0) → sumTo f n = f m := by
  intro n
  induction n with
  | zero => intro h; omega
  | succ n ih =>
    intro h hz
    rw [sumTo]
    by_cases e : m = n
    · subst e
      rw [sumTo_congr (g := fun _ => 0) (fun k hk => hz k (by omega) (by omega)), sumTo_zero, zero_add]
    · rw [ih (by omega) (fun k hk hne => hz k (by omega) hne), hz n (by omega) (by omega), add_zero]

theorem tent_nonneg (h i m : Nat) : 0 ≤ tent h i m := le_max_left _ _

theorem tent_le (h i m : Nat) : tent h i m ≤ 1 := by
  unfold tent
  apply max_le (by norm_num)
  have : 0 ≤ |(i : ℚ) - m| / (h : ℚ) := div_nonneg (abs_nonneg _) (by positivity)
  linarith

theorem tent_self (h i : Nat) : tent h i i = 1 := by simp [tent]

/-- A single crossing: the score is one there, decreases with the distance and is always between zero and one. -/
theorem relaxed_single_partial {n : Nat} {hit : Nat → Bool} {c m : Nat} (hl : IsLongestRun n hit c) (h2 : 2 ≤ c) (hm : m < n) (hh : hit m = true)
    (ho : ∀ k, k < n → k ≠ m → hit k = false) :
    ∃ f, relaxedScore n hit = .ok f ∧ f m = some 1 ∧ ∀ i, f i = some (tent (c / 2) i m) ∧ 0 ≤ tent (c / 2) i m ∧ tent (c / 2) i m ≤ 1 := by
  have hcn : c < n := by
    obtain ⟨⟨a, ha, hb⟩, _⟩ := hl
    by_contra hge
    have : hit m = false := hb m (by omega) (by omega)
    rw [hh] at this; cases this
  obtain ⟨f, hf, hs⟩ := relaxed_exact_partial hl h2 (Or.inl hcn)
  have key : ∀ i, f i = some (tent (c / 2) i m) := by
    intro i
    rw [hs i, sumTo_single hm]
    · rw [if_pos hh]
    · intro k hk hne
      rw [if_neg]
      rw [ho k hk hne]; exact Bool.false_ne_true
  refine ⟨f, hf, ?_, fun i => ⟨key i, tent_nonneg _ _ _, tent_le _ _ _⟩⟩
  rw [key m, tent_self]

/-- **C105** fails when the sidereal time is not reached in an even number of slots: an exception is raised instead of a null score. -/
theorem relaxed_none_violated {n : Nat} {hit : Nat → Bool} (hn : 0 < n) (he : n % 2 = 0) (hh : ∀ i, i < n → hit i = false) :
    relaxedScore n hit = .error .valueError := by
  obtain ⟨d, hd⟩ := longest_run_exists hn (hh 0 hn)
  obtain ⟨_, ⟨a, ha, _⟩, hm⟩ := longest_run_exact hd
  have := hm 0 n (by omega) (fun i _ h => hh i (by omega))
  have hdn : d = n := by omega
  unfold relaxedScore
  rw [hd]
  show (if n < kernelSize d then _ else _) = _
  rw [if_pos]
  unfold kernelSize
  rw [if_pos (by omega)]
  omega

/-- Fails as well when each slot holds a crossing, for instance the only slot of a schedule. -/
theorem relaxed_all_violated {n : Nat} {hit : Nat → Bool} (hn : 0 < n) (hh : ∀ i, i < n → hit i = true) :
    relaxedScore n hit = .error .valueError := by
  unfold relaxedScore
  cases hd : longestRun n hit with
  | ok c =>
    obtain ⟨h0, ⟨a, ha, hb⟩, _⟩ := longest_run_exact hd
    have h1 := hb a (le_refl _) (by omega)
    rw [hh a (by omega)] at h1; cases h1
  | error e =>
    show Except.error e = _
    unfold longestRun at hd
    rw [longestRun_runs hn] at hd
    cases hr : runs0 (noHit n hit) with
    | nil => rw [hr] at hd; rw [Except.error.inj hd]
    | cons a l => rw [hr] at hd; cases hd

/-- When no two slots in a row are without a crossing, but some are, all the scores are undefined, those of the crossings included. -/
theorem relaxed_short_violated {n : Nat} {hit : Nat → Bool} (hl : IsLongestRun n hit 1) :
    ∃ f, relaxedScore n hit = .ok f ∧ ∀ i, f i = none := by
  obtain ⟨a, ha, hb⟩ := hl.1
  obtain ⟨d, hd⟩ := longest_run_exists (n := n) (hit := hit) (j := a) (by omega) (hb a (le_refl _) (by omega))
  have hdc := isLongest_unique (longest_run_exact hd).2 hl
  subst hdc
  refine ⟨fun i => if kernelSize 1 = 1 then none else some (convAt n (kernelSize 1) hit i), ?_, ?_⟩
  · unfold relaxedScore
    rw [hd]
    show (if n < kernelSize 1 then _ else _) = _
    rw [if_neg (by rw [show kernelSize 1 = 1 from rfl]; omega)]
  · intro i
    show (if kernelSize 1 = 1 then none else _) = _
    exact if_pos (show kernelSize 1 = 1 from rfl)

theorem sumTo_ge_two {f : Nat → ℚ} {m : Nat} : ∀ {n : Nat}, m + 1 < n → (∀ k, k < n → 0 ≤ f k) → f m + f (m + 1) ≤ sumTo f n := by
  intro n
  induction n with
  | zero => intro h; omega
  | succ n ih =>
    intro h hz
    rw [sumTo]
    by_cases e : m + 1 = n
    · subst e
      rw [sumTo]
      have := sumTo_nonneg (f := f) (n := m) (fun k hk => hz k (by omega))
      linarith
    · have h1 := ih (by omega) (fun k hk => hz k (by omega))
      have h2 := hz n (by omega)
      linarith

/-- When the sidereal time is reached at the limit of two slots both count, and the score of each is larger than one. -/
theorem relaxed_above_violated {n : Nat} {hit : Nat → Bool} {c m : Nat} (hl : IsLongestRun n hit c) (h2 : 4 ≤ c) (hm : m + 1 < n)
    (h0 : hit m = true) (h1 : hit (m + 1) = true) : ∃ f v, relaxedScore n hit = .ok f ∧ f m = some v ∧ 1 < v := by
  have hcn : c < n := by
    obtain ⟨⟨a, ha, hb⟩, _⟩ := hl
    by_contra hge
    have : hit m = false := hb m (by omega) (by omega)
    rw [h0] at this; cases this
  obtain ⟨f, hf, hs⟩ := relaxed_exact_partial hl (by omega) (Or.inl hcn)
  refine ⟨f, _, hf, hs m, ?_⟩
  have := sumTo_ge_two (f := fun k => if hit k = true then tent (c / 2) m k else 0) hm (fun k _ => by
    show (0 : ℚ) ≤ if hit k = true then tent (c / 2) m k else 0
    split_ifs
    · exact tent_nonneg _ _ _
    · exact le_refl _)
  rw [if_pos h0, if_pos h1, tent_self] at this
  have hp : (0 : ℚ) < tent (c / 2) m (m + 1) := by
    unfold tent
    apply lt_of_lt_of_le _ (le_max_right _ _)
    have hh : (2 : ℚ) ≤ ((c / 2 : Nat) : ℚ) := by
      have : 2 ≤ c / 2 := by omega
      exact_mod_cast this
    have : |(m : ℚ) - ((m + 1 : Nat) : ℚ)| = 1 := by push_cast; rw [show (m : ℚ) - (m + 1) = -1 by ring]; norm_num
    rw [this, sub_pos, div_lt_one (by linarith)]
    linarith
  linarith

/-! ## The sidereal times reached -/

/-- A sidereal time equal to the end of a slot is reached in this slot and in the next one. -/
theorem limit_hits_both {l : Nat → ℚ} {m : Nat} (h1 : l m ≤ l (m + 1)) (h2 : l (m + 1) ≤ l (m + 2)) :
    lstHit (l (m + 1)) l m = true ∧ lstHit (l (m + 1)) l (m + 1) = true := by
  unfold lstHit
  rw [if_neg (not_lt.2 h1), if_neg (not_lt.2 h2)]
  simp [h1, h2]

/-! Eleven slots, the crossing in the middle one, at its end, or never reached. -/

example : IsLongestRun 11 (fun i => decide (i = 5)) 5 := by
  refine ⟨⟨0, by omega, fun i _ h => decide_eq_false (by omega)⟩, fun a L h hh => ?_⟩
  by_contra hc
  by_cases h5 : a ≤ 5
  · have := hh 5 h5 (by omega); simp at this
  · omega

example : (relaxedScore 11 fun i => decide (i = 5)).toOption.map (fun f => [f 5, f 6, f 7, f 9]) = some [some 1, some (1 / 2), some 0, some 0] := by
  decide +kernel

example : (relaxedScore 11 fun i => decide (i = 5 ∨ i = 6)).toOption.map (fun f => [f 4, f 5, f 6]) = some [some (1 / 2), some (3 / 2), some (3 / 2)] := by
  decide +kernel

example : (relaxedScore 3 fun i => decide (i = 1)).toOption.map (fun f => [f 0, f 1, f 2]) = some [none, none, none] := by
  decide +kernel

end Verif.Cnst
