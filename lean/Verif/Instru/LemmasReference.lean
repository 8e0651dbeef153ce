import Verif.Instru.RefSpec
import Mathlib.Analysis.SpecialFunctions.Trigonometric.Bounds
import Mathlib.Analysis.SpecialFunctions.Trigonometric.Inverse

/-!
# Lemmas on the reference antennas: symmetries of the hexagon
-/

namespace Verif.Instru

theorem sort_perm (x y : List ℝ) : sortReals x = sortReals y ↔ x.Perm y := by
  unfold sortReals
  constructor
  · intro h
    exact (List.perm_insertionSort (· ≤ ·) x).symm.trans (h ▸ List.perm_insertionSort (· ≤ ·) y)
  · intro h
    exact List.Perm.eq_of_pairwise (le := (· ≤ ·)) (fun a b _ _ => le_antisymm)
      (List.pairwise_insertionSort (· ≤ ·) x) (List.pairwise_insertionSort (· ≤ ·) y)
      (((List.perm_insertionSort (· ≤ ·) x).trans h).trans (List.perm_insertionSort (· ≤ ·) y).symm)

theorem mem_candidates (d : Dipole) : d ∈ candidates ↔ IsMeasured d := by
  unfold candidates IsMeasured
  simp only [List.mem_flatMap, List.mem_map]
  constructor
  · rintro ⟨m, hm, v, hv, a, ha, rfl⟩
    refine ⟨⟨m, hm, rfl, ha⟩, ?_⟩
    simp only [polVectors, List.mem_cons, List.not_mem_nil, or_false] at hv
    rcases hv with rfl | rfl
    · left; rfl
    · right; rfl
  · rintro ⟨⟨m, hm, h1, h2⟩, h | h⟩
    · exact ⟨m, hm, ("NW", (-1, 1)), by simp [polVectors], d.antenna, h2, by cases d; simp_all⟩
    · exact ⟨m, hm, ("NE", (1, 1)), by simp [polVectors], d.antenna, h2, by cases d; simp_all⟩

theorem lookup_mem {α β : Type} [BEq α] [LawfulBEq α] (a : α) :
    ∀ l : List (α × β), a ∈ l.map (·.1) → ∃ b, l.lookup a = some b ∧ (a, b) ∈ l
  | [], h => by simp at h
  | (k, b) :: l, h => by
    by_cases e : a = k
    · subst e
      exact ⟨b, by simp [List.lookup], by simp⟩
    · have h' : a ∈ l.map (·.1) := by
        rcases List.mem_cons.1 h with h | h
        · exact absurd h e
        · exact h
      obtain ⟨c, h1, h2⟩ := lookup_mem a l h'
      refine ⟨c, ?_, by simp [h2]⟩
      have hb : (a == k) = false := by simpa using e
      rw [List.lookup, hb]
      exact h1

theorem lookup_none {α β : Type} [BEq α] [LawfulBEq α] (a : α) :
    ∀ l : List (α × β), a ∉ l.map (·.1) → l.lookup a = none
  | [], _ => rfl
  | (k, b) :: l, h => by
    simp only [List.map_cons, List.mem_cons, not_or] at h
    have hb : (a == k) = false := by simpa using h.1
    rw [List.lookup, hb]
    exact lookup_none a l h.2

theorem known_pol (p : String) : (polVectors.lookup p).isNone = false ↔ (p = "NW" ∨ p = "NE") := by
  by_cases h : p ∈ polVectors.map (·.1)
  · obtain ⟨b, hb, -⟩ := lookup_mem p _ h
    simp only [polVectors, List.map_cons, List.map_nil, List.mem_cons, List.not_mem_nil, or_false] at h
    rw [hb]
    simp [h]
  · rw [lookup_none p _ h]
    simp only [polVectors, List.map_cons, List.map_nil, List.mem_cons, List.not_mem_nil, or_false] at h
    simp [h]

/-- The offset of an antenna projected on the direction at `5 n` degrees. -/
noncomputable def onto (n : ℤ) (p : ℤ × ℤ) : ℝ :=
  Real.cos (n * (Real.pi / 36)) * p.1 + √3 * Real.sin (n * (Real.pi / 36)) * p.2

/-- Direction, in units of five degrees, of a dipole of an array turned by `10 k` degrees. -/
def heading (k : ℤ) (v : ℤ × ℤ) : ℤ := if v.1 = -1 then 2 * k - 27 else 2 * k - 9

noncomputable def ontoAll (n : ℤ) (p : ℤ × ℤ) : List ℝ := antennas.map fun q => onto n (q.2.1 - p.1, q.2.2 - p.2)

theorem scalars_onto (k : ℤ) (v p : ℤ × ℤ) (hv : v = (-1, 1) ∨ v = (1, 1)) :
    scalars (10 * k) v p = (ontoAll (heading k v) p).map fun x => 11 / 4 * √2 * x := by
  unfold scalars ontoAll
  rw [List.map_map]
  apply List.map_congr_left
  intro q _
  have e2 : √2 * √2 = 2 := Real.mul_self_sqrt (by norm_num)
  simp only [Function.comp_apply, turned, onto, turnAngle]
  have h1 : (360 - ((10 * k : ℤ) : ℝ)) * (Real.pi / 180) = 2 * Real.pi - (2 * k : ℝ) * (Real.pi / 36) := by
    push_cast; ring
  rw [h1, Real.cos_two_pi_sub, Real.sin_two_pi_sub]
  rcases hv with rfl | rfl
  · have h2 : ((heading k (-1, 1) : ℤ) : ℝ) * (Real.pi / 36) =
        (2 * k : ℝ) * (Real.pi / 36) + Real.pi / 4 - Real.pi := by
      have : heading k (-1, 1) = 2 * k - 27 := by simp [heading]
      rw [this]; push_cast; ring
    rw [h2, Real.cos_sub_pi, Real.sin_sub_pi, Real.cos_add, Real.sin_add, Real.cos_pi_div_four, Real.sin_pi_div_four]
    push_cast
    generalize Real.cos ((2 * k : ℝ) * (Real.pi / 36)) = c
    generalize Real.sin ((2 * k : ℝ) * (Real.pi / 36)) = s
    linear_combination (-(11 / 8) * ((c - s) * (q.2.1 - p.1) + √3 * (c + s) * (q.2.2 - p.2)) * (-1 : ℝ)) * e2
  · have h2 : ((heading k (1, 1) : ℤ) : ℝ) * (Real.pi / 36) =
        (2 * k : ℝ) * (Real.pi / 36) - Real.pi / 4 := by
      have : heading k (1, 1) = 2 * k - 9 := by simp [heading]
      rw [this]; push_cast; ring
    rw [h2, Real.cos_sub, Real.sin_sub, Real.cos_pi_div_four, Real.sin_pi_div_four]
    push_cast
    generalize Real.cos ((2 * k : ℝ) * (Real.pi / 36)) = c
    generalize Real.sin ((2 * k : ℝ) * (Real.pi / 36)) = s
    linear_combination (-(11 / 8) * ((c + s) * (q.2.1 - p.1) + √3 * (s - c) * (q.2.2 - p.2))) * e2

/-! ### Symmetries of the hexagon -/

def pts : List (ℤ × ℤ) := antennas.map (·.2)

/-- A point turned by sixty degrees. -/
def turn60 (p : ℤ × ℤ) : ℤ × ℤ := ((p.1 - 3 * p.2) / 2, (p.1 + p.2) / 2)

def flip (p : ℤ × ℤ) : ℤ × ℤ := (p.1, -p.2)

theorem ontoAll_pts (n : ℤ) (p : ℤ × ℤ) : ontoAll n p = pts.map fun q => onto n (q.1 - p.1, q.2 - p.2) := by
  unfold ontoAll pts
  rw [List.map_map]
  rfl

theorem turn_perm : (pts.map turn60).Perm pts := by decide +kernel
theorem flip_perm : (pts.map flip).Perm pts := by decide +kernel
theorem turn_twice : ∀ q ∈ pts, 2 * (turn60 q).1 = q.1 - 3 * q.2 ∧ 2 * (turn60 q).2 = q.1 + q.2 := by decide +kernel

theorem onto_turn (n : ℤ) (p q : ℤ × ℤ) (hp : p ∈ pts) (hq : q ∈ pts) :
    onto (n + 12) ((turn60 q).1 - (turn60 p).1, (turn60 q).2 - (turn60 p).2) = onto n (q.1 - p.1, q.2 - p.2) := by
  obtain ⟨p1, p2⟩ := turn_twice p hp
  obtain ⟨q1, q2⟩ := turn_twice q hq
  have p1' : (2 : ℝ) * (turn60 p).1 = p.1 - 3 * p.2 := by exact_mod_cast p1
  have p2' : (2 : ℝ) * (turn60 p).2 = p.1 + p.2 := by exact_mod_cast p2
  have q1' : (2 : ℝ) * (turn60 q).1 = q.1 - 3 * q.2 := by exact_mod_cast q1
  have q2' : (2 : ℝ) * (turn60 q).2 = q.1 + q.2 := by exact_mod_cast q2
  have e3 : √3 * √3 = 3 := Real.mul_self_sqrt (by norm_num)
  unfold onto
  have h : ((n + 12 : ℤ) : ℝ) * (Real.pi / 36) = n * (Real.pi / 36) + Real.pi / 3 := by push_cast; ring
  rw [h, Real.cos_add, Real.sin_add, Real.cos_pi_div_three, Real.sin_pi_div_three]
  generalize Real.cos (n * (Real.pi / 36)) = c
  generalize Real.sin (n * (Real.pi / 36)) = s
  push_cast
  have x1 : ((turn60 q).1 : ℝ) - (turn60 p).1 = ((q.1 - p.1) - 3 * (q.2 - p.2)) / 2 := by linarith
  have x2 : ((turn60 q).2 : ℝ) - (turn60 p).2 = ((q.1 - p.1) + (q.2 - p.2)) / 2 := by linarith
  rw [x1, x2]
  linear_combination (c * ((q.1 : ℝ) - p.1 + (q.2 - p.2)) / 4) * e3

theorem turn_all (n : ℤ) (p : ℤ × ℤ) (hp : p ∈ pts) : (ontoAll n p).Perm (ontoAll (n + 12) (turn60 p)) := by
  rw [ontoAll_pts, ontoAll_pts]
  have h := turn_perm.map fun q => onto (n + 12) (q.1 - (turn60 p).1, q.2 - (turn60 p).2)
  rw [List.map_map] at h
  refine List.Perm.trans (List.Perm.of_eq ?_) h
  apply List.map_congr_left
  intro q hq
  exact (onto_turn n p q hp hq).symm

theorem flip_all (n : ℤ) (p : ℤ × ℤ) : (ontoAll n p).Perm (ontoAll (-n) (flip p)) := by
  rw [ontoAll_pts, ontoAll_pts]
  have h := flip_perm.map fun q => onto (-n) (q.1 - (flip p).1, q.2 - (flip p).2)
  rw [List.map_map] at h
  refine List.Perm.trans (List.Perm.of_eq ?_) h
  apply List.map_congr_left
  intro q _
  simp only [Function.comp_apply, onto, flip]
  have e : ((-n : ℤ) : ℝ) * (Real.pi / 36) = -(n * (Real.pi / 36)) := by push_cast; ring
  rw [e, Real.cos_neg, Real.sin_neg]
  push_cast
  ring

theorem half_all (n : ℤ) (p : ℤ × ℤ) : ontoAll (n + 36) p = (ontoAll n p).map fun x => -x := by
  rw [ontoAll_pts, ontoAll_pts, List.map_map]
  apply List.map_congr_left
  intro q _
  simp only [Function.comp_apply, onto]
  have e : ((n + 36 : ℤ) : ℝ) * (Real.pi / 36) = n * (Real.pi / 36) + Real.pi := by push_cast; ring
  rw [e, Real.cos_add_pi, Real.sin_add_pi]
  ring

theorem neg_neg_map (l : List ℝ) : (l.map fun x => -x).map (fun x => -x) = l := by
  rw [List.map_map]
  simp

theorem round_all (n : ℤ) (p : ℤ × ℤ) (k : ℤ) : ontoAll (n + 72 * k) p = ontoAll n p := by
  rw [ontoAll_pts, ontoAll_pts]
  apply List.map_congr_left
  intro q _
  simp only [onto]
  have e : ((n + 72 * k : ℤ) : ℝ) * (Real.pi / 36) = n * (Real.pi / 36) + k * (2 * Real.pi) := by push_cast; ring
  rw [e, Real.cos_add_int_mul_two_pi, Real.sin_add_int_mul_two_pi]

/-- Same projections, up to their order and a sign, for directions and points. -/
def Sym (n : ℤ) (p : ℤ × ℤ) (m : ℤ) (r : ℤ × ℤ) : Prop :=
  (ontoAll n p).Perm (ontoAll m r) ∨ (ontoAll n p).Perm ((ontoAll m r).map fun x => -x)

theorem Sym.trans {n m o : ℤ} {p r s : ℤ × ℤ} (h : Sym n p m r) (h' : Sym m r o s) : Sym n p o s := by
  rcases h with h | h <;> rcases h' with h' | h'
  · exact Or.inl (h.trans h')
  · exact Or.inr (h.trans h')
  · exact Or.inr (h.trans (h'.map _))
  · refine Or.inl (h.trans ?_)
    have := h'.map fun x : ℝ => -x
    rwa [neg_neg_map] at this

theorem Sym.symm {n m : ℤ} {p r : ℤ × ℤ} (h : Sym n p m r) : Sym m r n p := by
  rcases h with h | h
  · exact Or.inl h.symm
  · refine Or.inr ?_
    have := h.map fun x : ℝ => -x
    rw [neg_neg_map] at this
    exact this.symm

/-- Six turns, a flip, a change of sign. -/
def act (k : Nat) (f s : Bool) (n : ℤ) (p : ℤ × ℤ) : ℤ × (ℤ × ℤ) :=
  ((if f then -n else n) + 12 * k + (if s then 36 else 0), turn60^[k] (if f then flip p else p))

theorem flip_mem : ∀ p ∈ pts, flip p ∈ pts := by decide +kernel
theorem turn_mem : ∀ p ∈ pts, turn60 p ∈ pts := by decide +kernel

theorem turns_all (n : ℤ) (p : ℤ × ℤ) (hp : p ∈ pts) : ∀ k : Nat,
    (ontoAll n p).Perm (ontoAll (n + 12 * k) (turn60^[k] p)) ∧ turn60^[k] p ∈ pts
  | 0 => ⟨by simp, hp⟩
  | k + 1 => by
    obtain ⟨h1, h2⟩ := turns_all n p hp k
    rw [Function.iterate_succ_apply']
    refine ⟨h1.trans ?_, turn_mem _ h2⟩
    have h := turn_all (n + 12 * k) _ h2
    have e : n + 12 * (k : ℤ) + 12 = n + 12 * ((k + 1 : ℕ) : ℤ) := by push_cast; ring
    rwa [e] at h

theorem act_sym (k : Nat) (f s : Bool) (n : ℤ) (p : ℤ × ℤ) (hp : p ∈ pts) :
    Sym n p (act k f s n p).1 (act k f s n p).2 := by
  have h1 : (ontoAll n p).Perm (ontoAll (if f then -n else n) (if f then flip p else p)) := by
    cases f
    · exact List.Perm.refl _
    · exact flip_all n p
  have hp' : (if f then flip p else p) ∈ pts := by
    cases f
    · exact hp
    · exact flip_mem p hp
  have h2 := (turns_all (if f then -n else n) _ hp' k).1
  cases s
  · left
    simpa [act] using h1.trans h2
  · right
    simp only [act, if_true]
    rw [half_all, neg_neg_map]
    exact h1.trans h2

theorem sym_mod (n m : ℤ) (p : ℤ × ℤ) (h : (m - n) % 72 = 0) : Sym n p m p := by
  left
  have e : m = n + 72 * ((m - n) / 72) := by omega
  rw [e, round_all]

/-! ### Codes of dipoles -/

/-- Direction and point of a dipole. -/
def code (d : Dipole) : Option (ℤ × (ℤ × ℤ)) :=
  (rotation d.ma).bind fun rot => (polVectors.lookup d.polar).bind fun v => (antennaAt d.antenna).map fun p =>
    (heading (rot / 10) v, p)

theorem arrays_ten : ∀ r ∈ arrays, r.2 % 10 = 0 := by decide +kernel

theorem dipole_code (d : Dipole) (h : IsDipole d) : ∃ rot p, rotation d.ma = some rot ∧ rot % 10 = 0 ∧
    antennaAt d.antenna = some p ∧ p ∈ pts ∧
    code d = some (if d.polar = "NW" then rot / 5 - 27 else rot / 5 - 9, p) ∧
    seenBy d = some ((ontoAll (if d.polar = "NW" then rot / 5 - 27 else rot / 5 - 9) p).map fun x => 11 / 4 * √2 * x) := by
  obtain ⟨h1, h2, h3⟩ := h
  obtain ⟨rot, hr, hr'⟩ := lookup_mem d.ma arrays h1
  obtain ⟨p, hp, hp'⟩ := lookup_mem d.antenna antennas h2
  have ten := arrays_ten _ hr'
  dsimp only at ten
  have e10 : rot = 10 * (rot / 10) := by omega
  have e5 : 2 * (rot / 10) = rot / 5 := by omega
  refine ⟨rot, p, hr, ten, hp, List.mem_map.2 ⟨_, hp', rfl⟩, ?_⟩
  have hr2 : rotation d.ma = some rot := hr
  have hp2 : antennaAt d.antenna = some p := hp
  unfold code seenBy
  rw [hr2, hp2]
  rcases h3 with h3 | h3
  · rw [h3, if_pos rfl]
    have hv : polVectors.lookup "NW" = some (-1, 1) := by decide +kernel
    rw [hv]
    have eh : heading (rot / 10) (-1, 1) = rot / 5 - 27 := by rw [← e5]; simp [heading]
    refine ⟨?_, ?_⟩
    · show some (heading (rot / 10) (-1, 1), p) = _
      rw [eh]
    · show some (scalars rot (-1, 1) p) = _
      rw [← eh, ← scalars_onto _ _ _ (Or.inl rfl), ← e10]
  · rw [h3, if_neg (by decide)]
    have hv : polVectors.lookup "NE" = some (1, 1) := by decide +kernel
    rw [hv]
    have eh : heading (rot / 10) (1, 1) = rot / 5 - 9 := by rw [← e5]; simp [heading]
    refine ⟨?_, ?_⟩
    · show some (heading (rot / 10) (1, 1), p) = _
      rw [eh]
    · show some (scalars rot (1, 1) p) = _
      rw [← eh, ← scalars_onto _ _ _ (Or.inr rfl), ← e10]

theorem candidate_dipole : ∀ c ∈ candidates, c.ma ∈ arrays.map (·.1) ∧ c.antenna ∈ antennas.map (·.1) ∧
    (c.polar = "NW" ∨ c.polar = "NE") := by decide +kernel

theorem map_perm_iff (κ : ℝ) (hκ : κ ≠ 0) (x y : List ℝ) :
    (x.map fun t => κ * t).Perm (y.map fun t => κ * t) ↔ x.Perm y :=
  List.map_perm_map_iff (fun a b hab => mul_left_cancel₀ hκ hab)

theorem alike_sym (c d : Dipole) (hc : IsDipole c) (hd : IsDipole d) (n m : ℤ) (p r : ℤ × ℤ)
    (ec : code c = some (n, p)) (ed : code d = some (m, r)) : Alike c d ↔ Sym n p m r := by
  obtain ⟨rc, pc, -, -, -, -, ec', sc⟩ := dipole_code c hc
  obtain ⟨rd, pd, -, -, -, -, ed', sd⟩ := dipole_code d hd
  rw [ec] at ec'
  rw [ed] at ed'
  simp only [Option.some.injEq, Prod.mk.injEq] at ec' ed'
  rw [← ec'.1, ← ec'.2] at sc
  rw [← ed'.1, ← ed'.2] at sd
  have hκ : (11 / 4 * √2 : ℝ) ≠ 0 := by positivity
  have neg : ((ontoAll m r).map fun x => 11 / 4 * √2 * x).map (fun t => -t) =
      ((ontoAll m r).map fun x => -x).map fun x => 11 / 4 * √2 * x := by
    simp [List.map_map, Function.comp_def]
  constructor
  · rintro ⟨x, y, hx, hy, h⟩
    rw [sc] at hx
    rw [sd] at hy
    obtain rfl := Option.some.inj hx
    obtain rfl := Option.some.inj hy
    rw [neg, map_perm_iff _ hκ, map_perm_iff _ hκ] at h
    exact h
  · intro h
    refine ⟨_, _, sc, sd, ?_⟩
    rw [neg, map_perm_iff _ hκ, map_perm_iff _ hκ]
    exact h

/-- The codes of the measured dipoles. -/
def marks : List (ℤ × (ℤ × ℤ)) :=
  [(17, (-2, -2)), (17, (0, -2)), (17, (2, -2)), (17, (-1, -1)), (35, (-2, -2)), (35, (0, -2)), (35, (2, -2)), (35, (-1,
   -1)), (-9, (0, -2)), (-9, (-4, 0)), (-9, (-2, 0)), (9, (0, -2)), (9, (-4, 0)), (9, (-2, 0)), (-25, (-2, -2)), (-25, (0,
   -2)), (-25, (-1, -1)), (-25, (0, 0)), (-7, (-2, -2)), (-7, (0, -2)), (-7, (-1, -1)), (-7, (0, 0)), (-23, (0, -2)), (-23,
   (1, -1)), (-5, (0, -2)), (-5, (1, -1)), (-3, (-2, -2)), (-3, (0, -2)), (-3, (-1, -1)), (-3, (0, 0)), (15, (-2, -2)),
   (15, (0, -2)), (15, (-1, -1)), (15, (0, 0))]

theorem marks_eq : candidates.filterMap code = marks := by decide +kernel

/-- Whether one of the symmetries leads to a mark. -/
def reaches (t : Nat) (p : ℤ × ℤ) : Bool :=
  (List.range 6).any fun k => [true, false].any fun f => [true, false].any fun s =>
    (act k f s (2 * (t : ℤ) + 1) p).casesOn fun n q => (n % 72).casesOn
      (fun m => marks.any fun c => c.2 == q && c.1 % 72 == Int.ofNat m) (fun _ => false)

theorem covered : ∀ t ∈ List.range 36, ∀ p ∈ pts, reaches t p = true := by decide +kernel

end Verif.Instru
