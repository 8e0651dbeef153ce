import Verif.Instru.PropsCst
import Mathlib.Algebra.BigOperators.Group.Finset.Basic
import Mathlib.Algebra.BigOperators.Intervals

/-!
# C150: maps of antenna models, and the files they are written in
-/

namespace Verif.Instru.Cst

open Verif Parset

/-! ## Maps -/

/-- The pixel whose azimuth is used for a pixel: ring of the other hemisphere, and the same place from the end. -/
def mirror (ns : Nat) (p : Nat × Nat) : Nat × Nat := (4 * ns - p.1, ringSize ns p.1 - 1 - p.2)

theorem range_reverse (n : Nat) : (List.range n).reverse = (List.range n).map fun k => n - 1 - k := by
  apply List.ext_getElem
  · simp
  · intro i h1 h2
    simp

theorem flatMap_rev {α β : Type} (f : α → List β) : ∀ l : List α, (l.flatMap f).reverse = l.reverse.flatMap fun x => (f x).reverse
  | [] => rfl
  | x :: l => by
    rw [List.flatMap_cons, List.reverse_append, flatMap_rev f l, List.reverse_cons, List.flatMap_append, List.flatMap_singleton]

theorem ringSize_mirror (ns r : Nat) (h1 : 1 ≤ r) : ringSize ns (4 * ns - r) = ringSize ns r := by
  unfold ringSize
  split_ifs <;> omega

theorem shifted_mirror (ns r : Nat) (h1 : 1 ≤ r) : shifted ns (4 * ns - r) = shifted ns r := by
  unfold shifted
  rw [Bool.eq_iff_iff]
  simp only [Bool.or_eq_true, decide_eq_true_eq]
  omega

theorem pixels_reverse (ns : Nat) : (pixels ns).reverse = (pixels ns).map (mirror ns) := by
  unfold pixels
  rw [flatMap_rev, range_reverse, List.flatMap_map, List.map_flatMap]
  refine List.flatMap_congr fun r hr => ?_
  have hr := List.mem_range.1 hr
  rw [← List.map_reverse, range_reverse, List.map_map, List.map_map]
  have e : 4 * ns - 1 - 1 - r + 1 = 4 * ns - (r + 1) := by omega
  rw [e, ringSize_mirror ns (r + 1) (by omega)]
  rfl

/-- Each pixel has the gain at its elevation, and at the azimuth of its mirror. -/
theorem map_pixels (g : Grid) (ns : Nat) (el : Nat → ℚ) :
    toHealpix g ns el = (pixels ns).map fun p => gainAt g (azimuth ns (mirror ns p)) (el p.1) := by
  unfold toHealpix
  rw [← List.map_reverse, pixels_reverse, List.map_map, List.zipWith_map, List.zipWith_self]
  rfl

theorem mem_pixels (ns : Nat) (p : Nat × Nat) : p ∈ pixels ns ↔ 1 ≤ p.1 ∧ p.1 ≤ 4 * ns - 1 ∧ p.2 < ringSize ns p.1 := by
  unfold pixels
  simp only [List.mem_flatMap, List.mem_map, List.mem_range]
  constructor
  · rintro ⟨r, hr, j, hj, rfl⟩; exact ⟨by show 1 ≤ r + 1; omega, by show r + 1 ≤ _; omega, hj⟩
  · rintro ⟨h1, h2, h3⟩
    exact ⟨p.1 - 1, by omega, p.2, by rwa [show p.1 - 1 + 1 = p.1 by omega], by rw [show p.1 - 1 + 1 = p.1 by omega]⟩

theorem ringSize_pos (ns r : Nat) (h1 : 1 ≤ r) (h2 : r ≤ 4 * ns - 1) : 0 < ringSize ns r := by
  unfold ringSize
  split_ifs <;> omega

/-- In the rings whose pixels are half a pixel away from the meridian, the azimuths are reversed: a map seen from inside of the sphere. -/
theorem azimuth_reversed (ns : Nat) (p : Nat × Nat) (h : p ∈ pixels ns) (hs : shifted ns p.1 = true) : azimuth ns (mirror ns p) = 360 - azimuth ns p := by
  obtain ⟨h1, h2, h3⟩ := (mem_pixels ns p).1 h
  have hq : ((ringSize ns p.1 : ℕ) : ℚ) ≠ 0 := by exact_mod_cast (ringSize_pos ns p.1 h1 h2).ne'
  unfold azimuth mirror
  simp only
  rw [shifted_mirror ns p.1 h1, ringSize_mirror ns p.1 h1, hs, if_pos rfl, Nat.sub_sub, Nat.cast_sub (by omega)]
  push_cast
  field_simp
  ring

/-- In the other rings, they are reversed and moved by a pixel: the gains of these rings are turned by `90 / nside` degrees. -/
theorem azimuth_moved (ns : Nat) (p : Nat × Nat) (h : p ∈ pixels ns) (hs : shifted ns p.1 = false) : azimuth ns (mirror ns p) = 360 - azimuth ns p - 90 / ns := by
  obtain ⟨h1, h2, h3⟩ := (mem_pixels ns p).1 h
  have hr : ringSize ns p.1 = 4 * ns := by
    unfold shifted at hs
    simp only [Bool.or_eq_false_iff, decide_eq_false_iff_not] at hs
    unfold ringSize
    rw [if_neg hs.1.1, if_pos (by omega)]
  have hns : (ns : ℚ) ≠ 0 := by
    have : 0 < ns := by omega
    exact_mod_cast this.ne'
  unfold azimuth mirror
  simp only
  rw [shifted_mirror ns p.1 h1, ringSize_mirror ns p.1 h1, hs, hr, Nat.sub_sub, Nat.cast_sub (by omega)]
  push_cast
  field_simp
  ring

/-- The map of any resolution has rings which are moved, so that it is not the reversed one. -/
theorem map_moved_violated (ns : Nat) (h : 0 < ns) : ∃ p ∈ pixels ns, azimuth ns (mirror ns p) ≠ 360 - azimuth ns p := by
  have hp : ((ns + 1, 0) : Nat × Nat) ∈ pixels ns := by
    rw [mem_pixels]
    refine ⟨by show 1 ≤ ns + 1; omega, by show ns + 1 ≤ _; omega, ringSize_pos ns (ns + 1) (by omega) (by omega)⟩
  refine ⟨_, hp, ?_⟩
  rw [azimuth_moved ns _ hp (by
    unfold shifted
    simp only [Bool.or_eq_false_iff, decide_eq_false_iff_not]
    omega)]
  have : (0 : ℚ) < 90 / ns := div_pos (by norm_num) (by exact_mod_cast h)
  linarith

theorem azimuth_range (ns : Nat) (p : Nat × Nat) (h : p ∈ pixels ns) : 0 ≤ azimuth ns p ∧ azimuth ns p < 360 := by
  obtain ⟨h1, h2, h3⟩ := (mem_pixels ns p).1 h
  have hq : (0 : ℚ) < (ringSize ns p.1 : ℕ) := by exact_mod_cast ringSize_pos ns p.1 h1 h2
  have h4 : (p.2 : ℚ) + 1 ≤ (ringSize ns p.1 : ℕ) := by exact_mod_cast h3
  have h5 : (0 : ℚ) ≤ (p.2 : ℚ) := Nat.cast_nonneg _
  unfold azimuth
  have hs : (0 : ℚ) ≤ (if shifted ns p.1 then 1 / 2 else 0) ∧ (if shifted ns p.1 then 1 / 2 else 0 : ℚ) < 1 := by
    split_ifs <;> norm_num
  constructor
  · have := div_nonneg (add_nonneg h5 hs.1) hq.le
    linarith
  · have : ((p.2 : ℚ) + if shifted ns p.1 then 1 / 2 else 0) / (ringSize ns p.1 : ℕ) < 1 := by
      rw [div_lt_one hq]; linarith [hs.2]
    linarith

theorem mirror_mem (ns : Nat) (p : Nat × Nat) (h : p ∈ pixels ns) : mirror ns p ∈ pixels ns := by
  have : mirror ns p ∈ (pixels ns).reverse := by rw [pixels_reverse]; exact List.mem_map_of_mem h
  exact List.mem_reverse.1 this

/-- A table which begins at an azimuth of 0 and covers the zenith distances gives a map without holes. -/
theorem map_full (m n : Nat) (ph th : Nat → ℚ) (g : Nat → Nat → ℚ) (hp : ∀ i, i + 1 < m → ph i < ph (i + 1))
    (h360 : ∀ i < m, ph i < 360) (ht : ∀ j, j + 1 < n → th j < th (j + 1)) (hm : 0 < m) (hn : 2 ≤ n) (h0 : ph 0 = 0) (ns : Nat) (el : Nat → ℚ)
    (hel : ∀ r, 1 ≤ r → r ≤ 4 * ns - 1 → th 0 ≤ 90 - el r ∧ 90 - el r ≤ th (n - 1)) :
    ∀ v ∈ toHealpix (expected m n ph th g) ns el, v ≠ none := by
  intro v hv
  rw [map_pixels] at hv
  obtain ⟨p, hpx, rfl⟩ := List.mem_map.1 hv
  have hr := (mem_pixels ns p).1 hpx
  have ha := azimuth_range ns _ (mirror_mem ns p hpx)
  obtain ⟨w, hw⟩ := gain_everywhere_partial m n ph th g hp h360 ht hm hn h0 (azimuth ns (mirror ns p)) (90 - el p.1) ⟨ha.1, ha.2.le⟩ (hel p.1 hr.1 hr.2.1)
  rw [show (90 : ℚ) - (90 - el p.1) = el p.1 by ring] at hw
  rw [hw]
  simp

theorem sum_caps (n : Nat) : ∑ r ∈ Finset.range n, 4 * (r + 1) = 2 * n * (n + 1) := by
  induction n with
  | zero => rfl
  | succ n ih => rw [Finset.sum_range_succ, ih]; ring

/-- The map has the `12 nside²` pixels of the sphere. -/
theorem map_length (g : Grid) (ns : Nat) (el : Nat → ℚ) : (toHealpix g ns el).length = 12 * ns ^ 2 := by
  rw [map_pixels, List.length_map]
  unfold pixels
  rw [List.length_flatMap]
  have e : ((List.range (4 * ns - 1)).map fun r => ((List.range (ringSize ns (r + 1))).map fun j => (r + 1, j)).length).sum =
      ∑ r ∈ Finset.range (4 * ns - 1), ringSize ns (r + 1) := by
    rw [Finset.sum_eq_multiset_sum]
    simp [Finset.range, Multiset.range]
  rw [e]
  rcases Nat.eq_zero_or_pos ns with z | z
  · subst z; rfl
  obtain ⟨k, rfl⟩ : ∃ k, ns = k + 1 := ⟨ns - 1, by omega⟩
  rw [show 4 * (k + 1) - 1 = k + ((2 * k + 3) + k) by omega, Finset.sum_range_add, Finset.sum_range_add]
  have s1 : ∑ r ∈ Finset.range k, ringSize (k + 1) (r + 1) = ∑ r ∈ Finset.range k, 4 * (r + 1) :=
    Finset.sum_congr rfl fun r hr => if_pos (by have := Finset.mem_range.1 hr; omega)
  have s2 : ∑ r ∈ Finset.range (2 * k + 3), ringSize (k + 1) (k + r + 1) = ∑ r ∈ Finset.range (2 * k + 3), 4 * (k + 1) :=
    Finset.sum_congr rfl fun r hr => by
      have := Finset.mem_range.1 hr
      unfold ringSize
      rw [if_neg (by omega), if_pos (by omega)]
  have s3 : ∑ r ∈ Finset.range k, ringSize (k + 1) (k + (2 * k + 3 + r) + 1) = ∑ r ∈ Finset.range k, 4 * (r + 1) := by
    rw [← Finset.sum_range_reflect]
    refine Finset.sum_congr rfl fun r hr => ?_
    have := Finset.mem_range.1 hr
    unfold ringSize
    rw [if_neg (by omega), if_neg (by omega)]
    omega
  rw [s1, s2, s3, sum_caps, Finset.sum_const, Finset.card_range]
  simp only [smul_eq_mul]
  ring

/-! ## Files -/

/-- The models by increasing frequency. -/
def byFreq (l : List Model) : List Model := l.insertionSort fun a b => a.freq ≤ b.freq

theorem polColumns_some (pol : Str) (l : List Model) (h : l ≠ []) :
    polColumns pol (some l) = .ok ((byFreq l).map fun m => (pol ++ '_' :: m.text, m.map)) := if_neg h

theorem mapM_names (pol : Str) (hp : '_' ∉ pol) : ∀ l : List Model, (∀ m ∈ l, '_' ∉ m.text) →
    readNames (l.map fun m => (pol ++ '_' :: m.text, m.map)) = .ok (l.map fun m => (pol, m.text, m.map))
  | [], _ => rfl
  | m :: l, h => by
    have ih := mapM_names pol hp l fun x hx => h x (List.mem_cons_of_mem _ hx)
    unfold readNames at ih ⊢
    rw [List.map_cons, List.mapM_cons, ih, splitOn_append '_' pol _ hp, splitOn_none '_' m.text (h m (by simp))]
    rfl

theorem readNames_append (a b : List (Str × List (Option ℚ))) (x y : List (Str × Str × List (Option ℚ))) (ha : readNames a = .ok x) (hb : readNames b = .ok y) :
    readNames (a ++ b) = .ok (x ++ y) := by
  unfold readNames at *
  rw [List.mapM_append, ha, hb]
  rfl

theorem byFreq_nil (l : List Model) (h : l ≠ []) : byFreq l ≠ [] := by
  intro e
  have := (List.perm_insertionSort (fun a b : Model => a.freq ≤ b.freq) l).length_eq
  unfold byFreq at e
  rw [e] at this
  exact h (List.length_eq_zero_iff.1 this.symm)

theorem filter_same (pol q : Str) (l : List Model) : ((l.map fun m => (pol, m.text, m.map)).filter fun c => decide (c.1 = q)) =
    if pol = q then l.map fun m => (pol, m.text, m.map) else [] := by
  by_cases c : pol = q
  · rw [if_pos c, List.filter_eq_self]
    intro x hx
    obtain ⟨m, _, rfl⟩ := List.mem_map.1 hx
    simpa using c
  · rw [if_neg c, List.filter_eq_nil_iff]
    intro x hx
    obtain ⟨m, _, rfl⟩ := List.mem_map.1 hx
    simpa using c

/-- The two polarisations written in a file are read back, each with its own models, by increasing frequency. -/
theorem file_read (nw ne : List Model) (h1 : nw ≠ []) (h2 : ne ≠ []) (t1 : ∀ m ∈ nw, '_' ∉ m.text) (t2 : ∀ m ∈ ne, '_' ∉ m.text) :
    ∃ cols, writeFile (some nw) (some ne) = .ok (some cols) ∧
      readPol cols ['N', 'W'] = .ok ((byFreq nw).map fun m => (m.text, m.map)) ∧ readPol cols ['N', 'E'] = .ok ((byFreq ne).map fun m => (m.text, m.map)) := by
  have u1 : ∀ m ∈ byFreq nw, '_' ∉ m.text := fun m hm => t1 m ((List.mem_insertionSort _).1 hm)
  have u2 : ∀ m ∈ byFreq ne, '_' ∉ m.text := fun m hm => t2 m ((List.mem_insertionSort _).1 hm)
  refine ⟨((byFreq nw).map fun m => (['N', 'W'] ++ '_' :: m.text, m.map)) ++ ((byFreq ne).map fun m => (['N', 'E'] ++ '_' :: m.text, m.map)), ?_, ?_, ?_⟩
  · unfold writeFile
    rw [polColumns_some _ nw h1, polColumns_some _ ne h2]
    show Except.ok (if _ then none else some _) = _
    rw [if_neg (by simp [byFreq_nil nw h1])]
  all_goals
    unfold readPol
    rw [readNames_append _ _ _ _ (mapM_names ['N', 'W'] (by decide) _ u1) (mapM_names ['N', 'E'] (by decide) _ u2)]
    show (if (List.filter _ (_ ++ _)) = [] then Except.error Err.exception else Except.ok ((List.filter _ (_ ++ _)).map Prod.snd)) = _
    rw [List.filter_append, filter_same, filter_same]
  · rw [if_pos rfl, if_neg (show ¬ (['N', 'E'] : Str) = ['N', 'W'] by decide), List.append_nil, if_neg (by simp [byFreq_nil nw h1]), List.map_map]; rfl
  · rw [if_neg (show ¬ (['N', 'W'] : Str) = ['N', 'E'] by decide), if_pos rfl, List.nil_append, if_neg (by simp [byFreq_nil ne h2]), List.map_map]; rfl

/-- A polarisation which was not given is not read from the file. -/
theorem file_single (nw : List Model) (h1 : nw ≠ []) (t1 : ∀ m ∈ nw, '_' ∉ m.text) :
    ∃ cols, writeFile (some nw) none = .ok (some cols) ∧
      readPol cols ['N', 'W'] = .ok ((byFreq nw).map fun m => (m.text, m.map)) ∧ readPol cols ['N', 'E'] = .error .exception := by
  have u1 : ∀ m ∈ byFreq nw, '_' ∉ m.text := fun m hm => t1 m ((List.mem_insertionSort _).1 hm)
  refine ⟨(byFreq nw).map fun m => (['N', 'W'] ++ '_' :: m.text, m.map), ?_, ?_, ?_⟩
  · unfold writeFile
    rw [polColumns_some _ nw h1]
    show Except.ok (if _ then none else some _) = _
    rw [List.append_nil, if_neg (by simp [byFreq_nil nw h1])]
  all_goals
    unfold readPol
    rw [mapM_names ['N', 'W'] (by decide) _ u1]
    show (if (List.filter _ _) = [] then Except.error Err.exception else Except.ok ((List.filter _ _).map Prod.snd)) = _
    rw [filter_same]
  · rw [if_pos rfl, if_neg (by simp [byFreq_nil nw h1]), List.map_map]; rfl
  · rw [if_neg (show ¬ (['N', 'W'] : Str) = ['N', 'E'] by decide)]; rfl

/-- The models of a file are those given, by increasing frequency. -/
theorem byFreq_spec (l : List Model) : (byFreq l).Perm l ∧ (byFreq l).Pairwise fun a b => a.freq ≤ b.freq :=
  ⟨List.perm_insertionSort _ _, by
    have : Std.Total (fun a b : Model => a.freq ≤ b.freq) := ⟨fun a b => le_total _ _⟩
    have : IsTrans Model (fun a b : Model => a.freq ≤ b.freq) := ⟨fun _ _ _ h k => le_trans h k⟩
    exact List.pairwise_insertionSort _ _⟩

/-- Nothing is written without files, and an empty list is refused. -/
theorem file_none : writeFile none none = .ok none ∧ (∀ ne, writeFile (some []) ne = .error .exception) ∧
    ∀ nw : List Model, nw ≠ [] → writeFile (some nw) (some []) = .error .exception := by
  refine ⟨rfl, fun _ => rfl, fun nw h => ?_⟩
  unfold writeFile
  rw [polColumns_some _ nw h]
  rfl

example : ∃ cols, writeFile (some [⟨['5', '0'], 50, [some 1]⟩, ⟨['3', '0'], 30, [some 2]⟩]) none = .ok (some cols) ∧
    cols = [(['N', 'W', '_', '3', '0'], [some 2]), (['N', 'W', '_', '5', '0'], [some 1])] := ⟨_, rfl, by decide +kernel⟩

/-- With `nside = 1` the equator is ring 2: its four pixels, at 0, 90, 180 and 270 degrees, have the gains of 270, 180, 90 and 0. -/
example : ((pixels 1).filter fun p => p.1 = 2).map (fun p => (azimuth 1 p, azimuth 1 (mirror 1 p))) = [(0, 270), (90, 180), (180, 90), (270, 0)] := by
  decide +kernel

end Verif.Instru.Cst
