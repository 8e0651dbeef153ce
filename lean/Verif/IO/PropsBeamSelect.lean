import Verif.IO.BeamSelect
import Verif.IO.PropsXst
import Mathlib.Data.List.Sort
import Mathlib.Data.List.GetD

/-!
# C151: which mini-arrays a beam is made of
-/

namespace Verif.IO

open Complex

/-- The mini-arrays which can be asked for: different ones, of the core, all in the file. -/
def Valid (size : Nat) (recorded : List Nat) (asked : List Int) : Prop :=
  asked ≠ [] ∧ asked.Nodup ∧ (∀ x ∈ asked, x < size) ∧ ∀ m : Nat, (m : Int) ∈ asked → m ∈ recorded

/-- The mini-arrays asked for, in increasing order. -/
def wanted (size : Nat) (asked : List Int) : List Nat := (List.range size).filter fun i => decide ((i : Int) ∈ asked)

theorem wanted_mem (size : Nat) (asked : List Int) (h : ∀ x ∈ asked, x < size) (m : Nat) : m ∈ wanted size asked ↔ (m : Int) ∈ asked := by
  unfold wanted
  rw [List.mem_filter, List.mem_range, decide_eq_true_iff]
  exact ⟨fun k => k.2, fun k => ⟨by exact_mod_cast h _ k, k⟩⟩

theorem wanted_sorted (size : Nat) (asked : List Int) : (wanted size asked).Pairwise (· < ·) := List.pairwise_lt_range.filter _

/-- Exactly the selections of different mini-arrays, of the core and of the file, are accepted. Negative numbers are not looked at. -/
theorem beam_minis (size : Nat) (recorded : List Nat) (asked : List Int) :
    (Valid size recorded asked → beamMinis size recorded asked = .ok (wanted size asked, maIndices recorded (wanted size asked))) ∧
      (¬ Valid size recorded asked → ∃ e, beamMinis size recorded asked = .error e) := by
  unfold beamMinis antennasOf
  by_cases h1 : asked = []
  · rw [if_pos h1]
    exact ⟨fun v => absurd h1 v.1, fun _ => ⟨_, rfl⟩⟩
  rw [if_neg h1]
  by_cases h2 : asked.Nodup
  swap
  · rw [if_pos h2]
    exact ⟨fun v => absurd v.2.1 h2, fun _ => ⟨_, rfl⟩⟩
  rw [if_neg (not_not.2 h2)]
  by_cases h3 : (asked.any fun x => decide ((size : Int) ≤ x)) = true
  · rw [if_pos h3]
    refine ⟨fun v => ?_, fun _ => ⟨_, rfl⟩⟩
    obtain ⟨x, hx, hs⟩ := List.any_eq_true.1 h3
    have := v.2.2.1 x hx
    have := of_decide_eq_true hs
    omega
  rw [if_neg h3]
  have hlt : ∀ x ∈ asked, x < size := fun x hx => by
    by_contra c
    exact h3 (List.any_eq_true.2 ⟨x, hx, decide_eq_true (by omega)⟩)
  show (_ → (if ((wanted size asked).any fun m => decide (m ∉ recorded)) = true then Except.error Err.indexError
    else Except.ok (wanted size asked, maIndices recorded (wanted size asked))) = _) ∧
    (_ → ∃ e, (if ((wanted size asked).any fun m => decide (m ∉ recorded)) = true then Except.error Err.indexError
    else Except.ok (wanted size asked, maIndices recorded (wanted size asked))) = Except.error e)
  by_cases h4 : ((wanted size asked).any fun m => decide (m ∉ recorded)) = true
  · rw [if_pos h4]
    refine ⟨fun v => ?_, fun _ => ⟨_, rfl⟩⟩
    obtain ⟨m, hm, hs⟩ := List.any_eq_true.1 h4
    exact absurd (v.2.2.2 m ((wanted_mem size asked hlt m).1 hm)) (of_decide_eq_true hs)
  · rw [if_neg h4]
    refine ⟨fun _ => rfl, fun nv => absurd ⟨h1, h2, hlt, fun m hm => ?_⟩ nv⟩
    by_contra c
    exact h4 (List.any_eq_true.2 ⟨m, (wanted_mem size asked hlt m).2 hm, decide_eq_true c⟩)

/-- A mini-array which is far from the core cannot be part of a beam, although its correlations are in the file. -/
theorem remote_violated (size : Nat) (recorded : List Nat) (asked : List Int) (m : Nat) (h : (m : Int) ∈ asked) (hm : size ≤ m) :
    ∃ e, beamMinis size recorded asked = .error e :=
  (beam_minis size recorded asked).2 fun v => by have := v.2.2.1 _ h; omega

theorem maIndices_items (recorded sel : List Nat) : (maIndices recorded sel).map (fun a => recorded.getD a 0) = recorded.filter fun m => decide (m ∈ sel) := by
  have e : maIndices recorded sel = (List.range recorded.length).filter fun a => decide (recorded.getD a 0 ∈ sel) := by
    unfold maIndices
    refine List.filter_congr fun a ha => ?_
    have ha := List.mem_range.1 ha
    rw [List.getElem?_eq_getElem ha, List.getD_eq_getElem _ _ ha]
    congr 1
    exact propext ⟨fun ⟨m, hm, k⟩ => by rw [Option.some.inj k]; exact hm, fun k => ⟨_, k, rfl⟩⟩
  rw [e]
  have hr : recorded = (List.range recorded.length).map fun a => recorded.getD a 0 := by
    apply List.ext_getElem
    · simp
    · intro i h1 h2
      simp [List.getElem?_eq_getElem h1]
  conv_rhs => rw [hr, List.filter_map]
  rfl

/-- The calibration of each mini-array is its own one exactly when the selected mini-arrays are in increasing order in the file. -/
theorem calibration_own (size : Nat) (recorded : List Nat) (asked : List Int) (hv : Valid size recorded asked) (hd : recorded.Nodup) :
    (maIndices recorded (wanted size asked)).map (fun a => recorded.getD a 0) = wanted size asked ↔
      (recorded.filter fun m : Nat => decide ((m : Int) ∈ asked)).Pairwise (· < ·) := by
  have e : (recorded.filter fun m => decide (m ∈ wanted size asked)) = recorded.filter fun m : Nat => decide ((m : Int) ∈ asked) :=
    List.filter_congr fun m _ => decide_eq_decide.2 (wanted_mem size asked hv.2.2.1 m)
  rw [maIndices_items, e]
  constructor
  · intro h; rw [h]; exact wanted_sorted size asked
  · intro h
    refine List.Perm.eq_of_pairwise (le := (· < ·)) (fun a b _ _ h1 h2 => absurd h1 (Nat.lt_asymm h2)) h (wanted_sorted size asked) ?_
    rw [List.perm_ext_iff_of_nodup (hd.filter _) ((wanted_sorted size asked).imp fun k => Nat.ne_of_lt k)]
    intro m
    rw [List.mem_filter, wanted_mem size asked hv.2.2.1, decide_eq_true_iff]
    exact ⟨fun k => k.2, fun k => ⟨hv.2.2.2 m k, k⟩⟩

/-- In any file where a mini-array comes before one with a smaller number, a beam with both of them has calibrations exchanged. -/
theorem calibration_violated (size : Nat) (p q r : List Nat) (a b : Nat) (asked : List Int) (hab : a < b) (hd : (p ++ b :: q ++ a :: r).Nodup)
    (hv : Valid size (p ++ b :: q ++ a :: r) asked) (ha : (a : Int) ∈ asked) (hb : (b : Int) ∈ asked) :
    (maIndices (p ++ b :: q ++ a :: r) (wanted size asked)).map (fun i => (p ++ b :: q ++ a :: r).getD i 0) ≠ wanted size asked := by
  intro h
  have h := (calibration_own size _ asked hv hd).1 h
  rw [List.append_assoc, List.filter_append, List.pairwise_append] at h
  have h := h.2.1
  rw [List.cons_append, List.filter_cons_of_pos (p := fun m : Nat => decide ((m : Int) ∈ asked)) (decide_eq_true hb), List.pairwise_cons] at h
  have := h.1 a (List.mem_filter.2 ⟨List.mem_append_right _ List.mem_cons_self, decide_eq_true ha⟩)
  omega

example : ([] ++ 1 :: [] ++ 0 :: [] : List Nat).Nodup ∧ Valid 96 ([] ++ 1 :: [] ++ 0 :: []) [0, 1] ∧
    (maIndices [1, 0] (wanted 96 [0, 1])).map (fun a => [1, 0].getD a 0) = [1, 0] ∧ wanted 96 [0, 1] = [0, 1] :=
  ⟨by decide, ⟨by simp, by decide, by decide, fun m hm => by
    simp only [List.mem_cons, List.not_mem_nil, or_false] at hm
    show m ∈ [1, 0]
    simp only [List.mem_cons, List.not_mem_nil, or_false]
    omega⟩, by decide +kernel, by decide +kernel⟩

theorem tril_length (n : Nat) : (tril n).length = n * (n + 1) / 2 := by
  induction n with
  | zero => rfl
  | succ n ih =>
    rw [tril_succ, List.length_append, ih, List.length_map, List.length_range]
    have : (n + 1) * (n + 1 + 1) = n * (n + 1) + 2 * (n + 1) := by ring
    rw [this]
    omega

theorem trilAt_tril (f : Nat × Nat → ℂ) (n a b : Nat) (ha : a < n) (hb : b ≤ a) : trilAt ((tril n).map f) a b = f (a, b) := by
  unfold trilAt
  induction n with
  | zero => omega
  | succ n ih =>
    rw [tril_succ, List.map_append]
    by_cases c : a < n
    · rw [List.getD_append _ _ _ _ (by
        rw [List.length_map, tril_length]
        have h1 : (a + 1) * (a + 1 + 1) ≤ n * (n + 1) := Nat.mul_le_mul c (by omega)
        have h2 : (a + 1) * (a + 1 + 1) = a * (a + 1) + 2 * (a + 1) := by ring
        omega)]
      exact ih c
    · obtain rfl : a = n := by omega
      rw [List.getD_append_right _ _ _ _ (by rw [List.length_map, tril_length]; omega), List.length_map, tril_length, Nat.add_sub_cancel_left,
        List.map_map]
      simp [Nat.lt_succ_of_le hb]

theorem inOrder_self (recorded : List Nat) : InOrder recorded recorded := by
  unfold InOrder
  rw [maIndices_items, List.filter_eq_self]
  intro m hm
  exact decide_eq_true hm

theorem maIndices_self (recorded : List Nat) : maIndices recorded recorded = List.range recorded.length := by
  unfold maIndices
  rw [List.filter_eq_self]
  intro a ha
  have ha := List.mem_range.1 ha
  exact decide_eq_true ⟨recorded[a], List.getElem_mem ha, List.getElem?_eq_getElem ha⟩

/-- All the correlations of a polarisation, for any file. -/
theorem cross_all (recorded : List Nat) (nt nf : Nat) (c : Pol) (v : Nat → Nat → ℂ) :
    getCross recorded recorded nt nf ⟨c, c⟩ (packed recorded.length v) = .ok ((tril recorded.length).map fun q => v (2 * q.1 + off c) (2 * q.2 + off c)) := by
  have hp : (⟨c, c⟩ : Prod2) ≠ ⟨.X, .Y⟩ := by cases c <;> decide
  have hpp : pairs c c = tril := by
    funext n
    unfold pairs
    rw [if_neg (fun h => by rw [h.1] at h; cases h.2)]
  have hl : (crossIdx recorded recorded c c).length = (tril recorded.length).length := by
    rw [cross_idx_length, hpp, maIndices_self, List.length_range]
  unfold getCross
  rw [if_neg hp, if_neg (not_not.2 hl)]
  show Except.ok (pick _ (crossIdx recorded recorded c c)) = _
  rw [cross_idx_exact, hpp, maIndices_self, List.length_range]
  congr 1
  refine List.map_congr_left fun q hq => ?_
  have hq := mem_tril.1 hq
  simp [hq.2, show q.2 < recorded.length by omega]

/-- The correlations of the selected mini-arrays, at the places of the selected ones. -/
theorem mask_exact (recorded sel : List Nat) (f : Nat × Nat → ℂ) (a b : Nat) (ha : a < (maIndices recorded sel).length) (hb : b ≤ a) :
    trilAt (pickMask (beamMask recorded (maIndices recorded sel)) ((tril recorded.length).map f)) a b =
      f ((maIndices recorded sel).getD a 0, (maIndices recorded sel).getD b 0) := by
  have e : pickMask (beamMask recorded (maIndices recorded sel)) ((tril recorded.length).map f) =
      ((tril recorded.length).filter fun p => selected recorded sel p.1 && selected recorded sel p.2).map f := by
    unfold beamMask
    have : ∀ l : List (Nat × Nat), pickMask (l.map fun p => decide (p.1 ∈ maIndices recorded sel) && decide (p.2 ∈ maIndices recorded sel)) (l.map f) =
        (l.filter fun p => selected recorded sel p.1 && selected recorded sel p.2).map f := by
      intro l
      induction l with
      | nil => rfl
      | cons p l ih =>
        rw [List.map_cons, List.map_cons, List.filter_cons]
        unfold selected
        cases hc : (decide (p.1 ∈ maIndices recorded sel) && decide (p.2 ∈ maIndices recorded sel)) with
        | true => rw [if_pos rfl, List.map_cons, pickMask, ih]; rfl
        | false => rw [if_neg (by simp), pickMask, ih]; rfl
    exact this _
  rw [e, tril_filter, ← maIndices_eq, List.map_map]
  exact trilAt_tril _ _ a b ha hb

/-- The polarisation of the recorded inputs. -/
def inputOf (pol : String) : Pol := if pol.toUpper = "NW" then .X else .Y

theorem beamPol_input (pol : String) : beamPol pol = ⟨inputOf pol, inputOf pol⟩ := by
  unfold beamPol inputOf
  by_cases h : pol.toUpper = "NW"
  · rw [if_pos h, if_pos h]
  · rw [if_neg h, if_neg h]

theorem beamform_congr (k : Nat) (vis vis' : Nat → Nat → ℂ) (cal : Nat → ℂ) (wl : ℝ) (delay : Nat → ℝ) (idx : Nat → Nat)
    (h : ∀ a b, a < k → b ≤ a → vis a b = vis' a b) : beamform k vis cal wl delay idx = beamform k vis' cal wl delay idx := by
  unfold beamform
  refine Finset.sum_congr rfl fun a ha => Finset.sum_congr rfl fun b hb => ?_
  have ha := Finset.mem_range.1 ha
  have hb := Finset.mem_range.1 hb
  have : visMatrix vis a b = visMatrix vis' a b := by
    unfold visMatrix
    by_cases c : b < a
    · rw [if_pos c, if_pos c, h a b ha c.le]
    · rw [if_neg c, if_neg c, h b a hb (by omega)]
  rw [this]

/-- The beam of any selection: `real` are the mini-arrays asked for, in increasing order, `at` their places in the order of the file. -/
theorem beam_select (size : Nat) (recorded : List Nat) (nt nf : Nat) (v : Nat → Nat → ℂ) (asked : List Int) (pol : String) (t : Nat → Nat → ℂ) (col : Nat)
    (wl : ℝ) (delay : Nat → ℝ) (hv : Valid size recorded asked) (hc : calColumn pol = .ok col) :
    beamOf size recorded nt nf (packed recorded.length v) asked pol (some t) wl delay =
      .ok (beamform (maIndices recorded (wanted size asked)).length
        (fun a b => v (2 * (maIndices recorded (wanted size asked)).getD a 0 + off (inputOf pol)) (2 * (maIndices recorded (wanted size asked)).getD b 0 + off (inputOf pol)))
        (fun a => t ((wanted size asked).getD a 0) col) wl delay fun a => (maIndices recorded (wanted size asked)).getD a 0) := by
  unfold beamOf
  rw [(beam_minis size recorded asked).1 hv]
  show ((calOf (some t) pol (wanted size asked)).bind _) = _
  unfold calOf
  show (((calColumn pol).map fun c a => t ((wanted size asked).getD a 0) c).bind _) = _
  rw [hc]
  show Except.map _ (getCross recorded recorded nt nf (beamPol pol) (packed recorded.length v)) = _
  rw [beamPol_input, cross_all]
  show Except.ok (beamform _ _ _ _ _ _) = _
  congr 1
  exact beamform_congr _ _ _ _ _ _ _ fun a b ha hb => mask_exact recorded (wanted size asked) _ a b ha hb

/-- For a file of the mini-arrays `0, 1, …`: the beam is the coherent power of the mini-arrays asked for, each with its own signal, calibration and position. -/
theorem beam_select_partial {ι : Type} (s : Finset ι) (e : ι → Nat → ℂ) (size n nt nf : Nat) (asked : List Int) (pol : String) (t : Nat → Nat → ℂ) (col : Nat)
    (wl : ℝ) (delay : Nat → ℝ) (hv : Valid size (List.range n) asked) (hc : calColumn pol = .ok col) :
    beamOf size (List.range n) nt nf (packed n (correlations s e)) asked pol (some t) wl delay =
      .ok (∑ x ∈ s, Complex.normSq (∑ a ∈ Finset.range (wanted size asked).length,
        t ((wanted size asked).getD a 0) col * e x (2 * (wanted size asked).getD a 0 + off (inputOf pol)) * steer wl (delay ((wanted size asked).getD a 0)))) := by
  have hi : maIndices (List.range n) (wanted size asked) = wanted size asked := by
    have h := (calibration_own size (List.range n) asked hv List.nodup_range).2 (List.pairwise_lt_range.filter _)
    have h2 : (maIndices (List.range n) (wanted size asked)).map (fun a => (List.range n).getD a 0) = maIndices (List.range n) (wanted size asked) := by
      conv_rhs => rw [← List.map_id (maIndices (List.range n) (wanted size asked))]
      refine List.map_congr_left fun a ha => ?_
      have : a < n := by
        unfold maIndices at ha
        simpa using List.mem_range.1 (List.mem_filter.1 ha).1
      simp [this]
    rw [← h2, h]
  have hb := beam_select size (List.range n) nt nf (correlations s e) asked pol t col wl delay hv hc
  rw [List.length_range] at hb
  rw [hb, hi]
  congr 1
  exact beamform_exact s (fun x a => e x (2 * (wanted size asked).getD a 0 + off (inputOf pol))) _ _ wl delay _

/-- The same beam without calibration, for any name of the polarisation. -/
theorem beam_uncalibrated_partial {ι : Type} (s : Finset ι) (e : ι → Nat → ℂ) (size n nt nf : Nat) (asked : List Int) (pol : String)
    (wl : ℝ) (delay : Nat → ℝ) (hv : Valid size (List.range n) asked) :
    beamOf size (List.range n) nt nf (packed n (correlations s e)) asked pol none wl delay =
      .ok (∑ x ∈ s, Complex.normSq (∑ a ∈ Finset.range (wanted size asked).length,
        e x (2 * (wanted size asked).getD a 0 + off (inputOf pol)) * steer wl (delay ((wanted size asked).getD a 0)))) := by
  have key : ∀ q : String, beamPol q = beamPol pol → calColumn q = .ok (if inputOf pol = .X then 0 else 1) →
      beamOf size (List.range n) nt nf (packed n (correlations s e)) asked pol none wl delay =
        beamOf size (List.range n) nt nf (packed n (correlations s e)) asked q (some fun _ _ => 1) wl delay := by
    intro q hq hc
    have e1 : ∀ r : List Nat, calOf (some fun _ _ => 1) q r = calOf none pol r := by
      intro r
      unfold calOf
      show (((calColumn q).map fun c a => (1 : ℂ))) = _
      rw [hc]; rfl
    unfold beamOf
    simp only [e1, hq]
  have fin : ∀ (q : String) (c : Nat), inputOf q = inputOf pol → calColumn q = .ok c →
      beamOf size (List.range n) nt nf (packed n (correlations s e)) asked q (some fun _ _ => 1) wl delay =
      .ok (∑ x ∈ s, Complex.normSq (∑ a ∈ Finset.range (wanted size asked).length,
        e x (2 * (wanted size asked).getD a 0 + off (inputOf pol)) * steer wl (delay ((wanted size asked).getD a 0)))) := by
    intro q c hq hc
    rw [beam_select_partial s e size n nt nf asked q (fun _ _ => 1) c wl delay hv hc, hq]
    simp only [one_mul]
  by_cases h : inputOf pol = .X
  · rw [key "NW" (by rw [beamPol_input, beamPol_input, h]; decide +kernel) (by rw [if_pos h]; rfl)]
    exact fin "NW" 0 (by rw [h]; decide +kernel) rfl
  · have h : inputOf pol = .Y := by cases k : inputOf pol with
      | X => exact absurd k h
      | Y => rfl
    rw [key "NE" (by rw [beamPol_input, beamPol_input, h]; decide +kernel) (by rw [if_neg (by rw [h]; decide)]; decide +kernel)]
    exact fin "NE" 1 (by rw [h]; decide +kernel) (by decide +kernel)

/-- The name of the polarisation: with a calibration only `NW` and `NE` are known; without it any other text, also `XX`, is taken as `NE`. -/
theorem beam_polarisation (pol : String) : ((∃ c, calColumn pol = .ok c) ↔ pol = "NW" ∨ pol = "NE") ∧ (pol.toUpper ≠ "NW" → beamPol pol = ⟨.Y, .Y⟩) := by
  constructor
  · unfold calColumn
    by_cases h : pol = "NW"
    · rw [if_pos h]; exact ⟨fun _ => Or.inl h, fun _ => ⟨_, rfl⟩⟩
    · rw [if_neg h]
      by_cases h2 : pol = "NE"
      · rw [if_pos h2]; exact ⟨fun _ => Or.inr h2, fun _ => ⟨_, rfl⟩⟩
      · rw [if_neg h2]
        exact ⟨(fun ⟨_, k⟩ => nomatch k), fun k => absurd k (by rintro (k | k); exacts [h k, h2 k])⟩
  · intro h
    exact if_neg h

/-- `XX`, the name of this product everywhere else in the class, gives the other polarisation. -/
theorem beam_name_violated : beamPol "XX" = ⟨.Y, .Y⟩ := by decide +kernel

/-- A selection in any order of a file of five mini-arrays. -/
example : Valid 96 (List.range 5) [3, 0, 4] := ⟨by simp, by decide, by decide, fun m hm => by
  simp only [List.mem_cons, List.not_mem_nil, or_false] at hm
  rw [List.mem_range]; omega⟩
example : wanted 96 [3, 0, 4] = [0, 3, 4] := by decide +kernel
example : (beamMinis 96 [0, 2, 5] [5, 0]).toOption = some ([0, 5], [0, 2]) := by decide +kernel
example : (beamMinis 96 [0, 100] [0, 100]).toOption = none := by decide +kernel

end Verif.IO
