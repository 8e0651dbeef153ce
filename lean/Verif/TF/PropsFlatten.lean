import Verif.TF.Flatten
import Mathlib.Data.List.GetD
import Mathlib.Tactic.Linarith
import Mathlib.Tactic.FieldSimp
import Mathlib.Tactic.Ring
import Mathlib.Tactic.Push

/-!
# Flattening of sub-bands (property C81)
-/

namespace Verif.TF

theorem median_perm {l l' : List ℚ} (h : l.Perm l') : median l = median l' := by
  have e : l.insertionSort (· ≤ ·) = l'.insertionSort (· ≤ ·) :=
    List.Perm.eq_of_pairwise' (List.pairwise_insertionSort (· ≤ ·) l) (List.pairwise_insertionSort (· ≤ ·) l')
      ((List.perm_insertionSort _ l).trans (h.trans (List.perm_insertionSort _ l').symm))
  unfold median
  rw [e, h.length_eq]
  by_cases hl : l = []
  · subst hl
    rw [List.nil_perm] at h
    rw [if_pos rfl, if_pos h]
  · rw [if_neg hl, if_neg (fun h' => hl (by rw [h'] at h; exact List.perm_nil.1 h))]

theorem median_up (a b : ℚ) (hb : 0 ≤ b) (n : Nat) (hn : 0 < n) :
    median ((List.range n).map fun x : Nat => a + b * (x : ℚ)) = some (a + b * (((n : ℚ) - 1) / 2)) := by
  have hs : ((List.range n).map fun x : Nat => a + b * (x : ℚ)).Pairwise (· ≤ ·) := by
    rw [List.pairwise_map]
    refine List.Pairwise.imp ?_ (List.pairwise_lt_range (n := n))
    intro i j hij
    have : (i : ℚ) ≤ j := by exact_mod_cast hij.le
    have := mul_le_mul_of_nonneg_left this hb
    linarith
  have hg : ∀ i, i < n → ((List.range n).map fun x : Nat => a + b * (x : ℚ)).getD i 0 = a + b * (i : ℚ) := by
    intro i hi
    rw [List.getD_eq_getElem _ _ (by rw [List.length_map, List.length_range]; exact hi), List.getElem_map, List.getElem_range]
  unfold median
  rw [if_neg (by intro h; rw [List.map_eq_nil_iff, List.range_eq_nil] at h; omega), hs.insertionSort_eq, List.length_map, List.length_range,
    hg _ (by omega), hg _ (by omega)]
  have hq : (((n - 1) / 2 : Nat) : ℚ) + ((n / 2 : Nat) : ℚ) = (n : ℚ) - 1 := by
    have : (n - 1) / 2 + n / 2 + 1 = n := by omega
    have : (((n - 1) / 2 + n / 2 + 1 : Nat) : ℚ) = n := by rw [this]
    push_cast at this
    linarith
  congr 1
  have : a + b * (((n - 1) / 2 : Nat) : ℚ) + (a + b * ((n / 2 : Nat) : ℚ)) = 2 * a + b * ((n : ℚ) - 1) := by rw [← hq]; ring
  rw [this]
  ring

/-- The median of evenly spaced values is their middle. -/
theorem median_affine (a b : ℚ) (n : Nat) (hn : 0 < n) :
    median ((List.range n).map fun x : Nat => a + b * (x : ℚ)) = some (a + b * (((n : ℚ) - 1) / 2)) := by
  rcases le_total 0 b with hb | hb
  · exact median_up a b hb n hn
  · have hr : ((List.range n).map fun x : Nat => a + b * (x : ℚ)).reverse = (List.range n).map fun x : Nat => (a + b * ((n : ℚ) - 1)) + (-b) * (x : ℚ) := by
      refine List.ext_getElem (by simp) fun i h1 h2 => ?_
      rw [List.length_reverse, List.length_map, List.length_range] at h1
      rw [List.getElem_reverse, List.getElem_map, List.getElem_range, List.getElem_map, List.getElem_range, List.length_map, List.length_range]
      have : n - 1 - i + i + 1 = n := by omega
      have : ((n - 1 - i + i + 1 : Nat) : ℚ) = n := by rw [this]
      push_cast at this
      have e : ((n - 1 - i : Nat) : ℚ) = (n : ℚ) - 1 - i := by linarith
      rw [e]
      ring
    rw [← median_perm (List.reverse_perm _), hr, median_up _ _ (by linarith) n hn]
    congr 1
    ring

theorem median_scale (k : ℚ) (hk : 0 < k) (l : List ℚ) : median (l.map fun v => v * k) = (median l).map fun v => v * k := by
  unfold median
  by_cases hl : l = []
  · subst hl; rfl
  · have hm : (l.insertionSort (· ≤ ·)).map (fun v => v * k) = (l.map fun v => v * k).insertionSort (· ≤ ·) :=
      List.map_insertionSort (r := (· ≤ ·)) (s := (· ≤ ·)) (fun v => v * k) l fun a _ b _ => (mul_le_mul_iff_of_pos_right hk).symm
    have hg : ∀ i, ((l.insertionSort (· ≤ ·)).map (fun v => v * k)).getD i 0 = (l.insertionSort (· ≤ ·)).getD i 0 * k := by
      intro i
      rw [show (0 : ℚ) = (fun v => v * k) 0 by ring, List.getD_map]
      ring_nf
    rw [if_neg hl, if_neg (by rw [List.map_eq_nil_iff]; exact hl), ← hm, List.length_map, hg, hg]
    show some _ = some _
    congr 1
    ring

theorem nanmedian_some (l : List ℚ) : nanmedian (l.map some) = median l := by
  unfold nanmedian
  rw [List.filterMap_map]
  congr 1
  exact List.filterMap_some

theorem lineAt_affine (c : Nat) (hc : 2 ≤ c) (a b : ℚ) (x : Nat) :
    lineAt c (a + b * ((((c / 2 : Nat) : ℚ) - 1) / 2)) (a + b * ((c : ℚ) - ((c / 2 : Nat) : ℚ)) + b * ((((c / 2 : Nat) : ℚ) - 1) / 2)) x =
      a + b * ((x : ℚ) - 1 / 2) := by
  have h0 : ((c / 2 : Nat) : ℚ) < c := by exact_mod_cast (by omega : c / 2 < c)
  have h1 : (c : ℚ) - ((c / 2 : Nat) : ℚ) ≠ 0 := by intro h; linarith
  have e1 : (c : ℚ) - ((c / 2 : Nat) : ℚ) / 2 - ((c / 2 : Nat) : ℚ) / 2 = (c : ℚ) - ((c / 2 : Nat) : ℚ) := by ring
  have e2 : a + b * ((c : ℚ) - ((c / 2 : Nat) : ℚ)) + b * ((((c / 2 : Nat) : ℚ) - 1) / 2) - (a + b * ((((c / 2 : Nat) : ℚ) - 1) / 2)) =
      b * ((c : ℚ) - ((c / 2 : Nat) : ℚ)) := by ring
  unfold lineAt
  rw [e1, e2, mul_div_cancel_right₀ _ h1]
  ring

/-- Sub-bands of `c` channels whose median profile is affine: the line drawn is half a channel away from it. -/
theorem line_affine (c : Nat) (hc : 2 ≤ c) (prof : Nat → Option ℚ) (s : Nat) (a b : ℚ)
    (hp : ∀ x, x < c → prof (s * c + x) = some (a + b * (x : ℚ))) (x : Nat) : subbandLine c prof s x = some (a + b * ((x : ℚ) - 1 / 2)) := by
  have h1 : lowerLevel c prof s = some (a + b * ((((c / 2 : Nat) : ℚ) - 1) / 2)) := by
    unfold lowerLevel
    have : (List.range (c / 2)).map (fun x => prof (s * c + x)) = ((List.range (c / 2)).map fun x : Nat => a + b * (x : ℚ)).map some := by
      rw [List.map_map]
      refine List.map_congr_left fun x hx => ?_
      rw [hp x (by have := List.mem_range.1 hx; omega)]
      rfl
    rw [this, nanmedian_some, median_affine a b _ (by omega)]
  have h2 : upperLevel c prof s = some (a + b * ((c : ℚ) - ((c / 2 : Nat) : ℚ)) + b * ((((c / 2 : Nat) : ℚ) - 1) / 2)) := by
    unfold upperLevel
    have e : c - (c - c / 2) = c / 2 := by omega
    rw [e]
    have : (List.range (c / 2)).map (fun x => prof (s * c + (c - c / 2 + x))) =
        ((List.range (c / 2)).map fun x : Nat => (a + b * ((c : ℚ) - ((c / 2 : Nat) : ℚ))) + b * (x : ℚ)).map some := by
      rw [List.map_map]
      refine List.map_congr_left fun x hx => ?_
      rw [hp _ (by have := List.mem_range.1 hx; omega)]
      show some _ = some _
      congr 1
      push_cast [Nat.cast_sub (Nat.div_le_self c 2)]
      ring
    rw [this, nanmedian_some, median_affine _ b _ (by omega)]
  unfold subbandLine
  rw [h1, h2]
  exact congrArg some (lineAt_affine c hc a b x)

theorem norm_affine (c : Nat) (hc : 2 ≤ c) (prof : Nat → Option ℚ) (s : Nat) (a b : ℚ)
    (hp : ∀ x, x < c → prof (s * c + x) = some (a + b * (x : ℚ))) (x : Nat) :
    subbandNorm c prof s x = quot (a + b * ((x : ℚ) - 1 / 2)) (a + b * ((c : ℚ) / 2 - 1)) := by
  unfold subbandNorm
  have hl := line_affine c hc prof s a b hp
  have e : (List.range c).map (fun j => subbandLine c prof s j) = ((List.range c).map fun j : Nat => (a - b / 2) + b * (j : ℚ)).map some := by
    rw [List.map_map]
    refine List.map_congr_left fun j _ => ?_
    rw [hl j]
    show some _ = some _
    congr 1
    ring
  rw [hl x, e, nanmedian_some, median_affine _ _ _ (by omega)]
  show quot _ _ = _
  congr 1
  ring

/-- Data of one polarisation: `g t` times a profile which is `a + b x` at channel `x` of each sub-band. -/
def AffineData (nt c nsb : Nat) (g : Nat → ℚ) (a b : Nat → ℚ) (d : Nat → Nat → Option ℚ) : Prop :=
  ∀ t, t < nt → ∀ s, s < nsb → ∀ x, x < c → d t (s * c + x) = some (g t * (a s + b s * (x : ℚ)))

theorem profile_affine {nt c nsb : Nat} {g a b : Nat → ℚ} {d : Nat → Nat → Option ℚ} (hd : AffineData nt c nsb g a b d) (m : ℚ)
    (hm : median ((List.range nt).map g) = some m) {s x : Nat} (hs : s < nsb) (hx : x < c) (hpos : 0 < a s + b s * (x : ℚ)) :
    freqProfile nt d (s * c + x) = some (m * a s + m * b s * (x : ℚ)) := by
  unfold freqProfile
  have : (List.range nt).map (fun t => d t (s * c + x)) = (((List.range nt).map g).map fun v => v * (a s + b s * (x : ℚ))).map some := by
    rw [List.map_map, List.map_map]
    refine List.map_congr_left fun t ht => ?_
    rw [hd t (List.mem_range.1 ht) s hs x hx]
    rfl
  rw [this, nanmedian_some, median_scale _ hpos, hm]
  show some _ = some _
  congr 1
  ring

theorem flat_form {nt nf c : Nat} (d : Nat → Nat → Option ℚ) (hc : 0 < c) (h : nf % c = 0) :
    flattenSubband nt nf c d = .ok fun t k => (d t k).bind fun v => (subbandNorm c (freqProfile nt d) (k / c) (k % c)).bind fun n => quot v n := by
  unfold flattenSubband subbandsOk
  rw [if_neg (by omega), if_neg (by simpa using h)]
  rfl

theorem between_pos {c : Nat} {a b y : ℚ} (h0 : 0 < a) (h1 : 0 < a + b * ((c : ℚ) - 1)) (hy : 0 ≤ y) (hy1 : y ≤ (c : ℚ) - 1) : 0 < a + b * y := by
  rcases le_total 0 b with hb | hb
  · have := mul_nonneg hb hy
    linarith
  · have := mul_le_mul_of_nonpos_left hy1 hb
    linarith

/-- **C81**, exact value for sub-bands of positive affine profile: at channel `x` the data are divided by the value of the profile half a channel
lower, and multiplied by its value half a channel below the middle. -/
theorem flatten_affine {nt c nsb : Nat} {g a b : Nat → ℚ} {d : Nat → Nat → Option ℚ} (hc : 2 ≤ c) (hd : AffineData nt c nsb g a b d) (m : ℚ)
    (hm : median ((List.range nt).map g) = some m) (hm0 : m ≠ 0) (hpos : ∀ s, s < nsb → ∀ x, x < c → 0 < a s + b s * (x : ℚ)) :
    ∃ out, flattenSubband nt (nsb * c) c d = .ok out ∧ ∀ t, t < nt → ∀ s, s < nsb → ∀ x, x < c →
      out t (s * c + x) = quot (g t * (a s + b s * (x : ℚ)) * (a s + b s * ((c : ℚ) / 2 - 1))) (a s + b s * ((x : ℚ) - 1 / 2)) := by
  refine ⟨_, flat_form d (by omega) (Nat.mul_mod_left ..), fun t ht s hs x hx => ?_⟩
  have e1 : (s * c + x) / c = s := by rw [Nat.mul_comm, Nat.mul_add_div (by omega), Nat.div_eq_of_lt hx, Nat.add_zero]
  have e2 : (s * c + x) % c = x := by rw [Nat.mul_comm, Nat.mul_add_mod, Nat.mod_eq_of_lt hx]
  have hc' : (2 : ℚ) ≤ c := by exact_mod_cast hc
  have hlast : 0 < a s + b s * ((c : ℚ) - 1) := by
    have := hpos s hs (c - 1) (by omega)
    rwa [Nat.cast_sub (by omega), Nat.cast_one] at this
  have hfirst : 0 < a s := by have := hpos s hs 0 (by omega); simpa using this
  have hmid : 0 < a s + b s * ((c : ℚ) / 2 - 1) := between_pos hfirst hlast (by linarith) (by linarith)
  have hn := norm_affine c hc (freqProfile nt d) s (m * a s) (m * b s) (fun y hy => profile_affine hd m hm hs hy (hpos s hs y hy)) x
  have hq : m * a s + m * b s * ((c : ℚ) / 2 - 1) = m * (a s + b s * ((c : ℚ) / 2 - 1)) := by ring
  have hq' : m * a s + m * b s * ((x : ℚ) - 1 / 2) = m * (a s + b s * ((x : ℚ) - 1 / 2)) := by ring
  show (d t (s * c + x)).bind _ = _
  rw [hd t ht s hs x hx, e1, e2, hn, hq, hq']
  show (quot _ _).bind _ = _
  have : quot (m * (a s + b s * ((x : ℚ) - 1 / 2))) (m * (a s + b s * ((c : ℚ) / 2 - 1))) =
      some ((a s + b s * ((x : ℚ) - 1 / 2)) / (a s + b s * ((c : ℚ) / 2 - 1))) := by
    unfold quot
    rw [if_neg (mul_ne_zero hm0 hmid.ne'), mul_div_mul_left _ _ hm0]
  rw [this]
  show quot _ _ = _
  unfold quot
  by_cases h0 : a s + b s * ((x : ℚ) - 1 / 2) = 0
  · rw [if_pos (by rw [h0, zero_div]), if_pos h0]
  · rw [if_neg (div_ne_zero h0 hmid.ne'), if_neg h0]
    congr 1
    field_simp

/-- **C81**, partial: sub-bands that are flat already are not changed. -/
theorem flatten_flat_partial {nt c nsb : Nat} {g a : Nat → ℚ} {d : Nat → Nat → Option ℚ} (hc : 2 ≤ c) (hd : AffineData nt c nsb g a (fun _ => 0) d) (m : ℚ)
    (hm : median ((List.range nt).map g) = some m) (hm0 : m ≠ 0) (hpos : ∀ s, s < nsb → 0 < a s) :
    ∃ out, flattenSubband nt (nsb * c) c d = .ok out ∧ ∀ t, t < nt → ∀ k, k < nsb * c → out t k = d t k := by
  obtain ⟨out, h1, h2⟩ := flatten_affine hc hd m hm hm0 (fun s hs x _ => by have := hpos s hs; simpa using this)
  refine ⟨out, h1, fun t ht k hk => ?_⟩
  have hs : k / c < nsb := Nat.div_lt_of_lt_mul (by rw [Nat.mul_comm]; exact hk)
  have hx : k % c < c := Nat.mod_lt _ (by omega)
  have e : k / c * c + k % c = k := Nat.div_add_mod' k c
  have := h2 t ht _ hs _ hx
  rw [← e, this, hd t ht _ hs _ hx]
  have h0 := (hpos _ hs).ne'
  unfold quot
  simp only [zero_mul, add_zero]
  rw [if_neg h0, mul_div_cancel_right₀ _ h0]

/-- **C81**: the same correction is applied at all times, so that ratios between times are kept. -/
theorem flatten_times (nt nf c : Nat) (d : Nat → Nat → Option ℚ) (out : Nat → Nat → Option ℚ) (h : flattenSubband nt nf c d = .ok out) :
    ∀ k, (∀ t, out t k = none) ∨ ∃ n, n ≠ 0 ∧ ∀ t, out t k = (d t k).map fun v => v / n := by
  unfold flattenSubband at h
  intro k
  cases hs : subbandsOk nf c with
  | error e => rw [hs] at h; cases h
  | ok u =>
    rw [hs] at h
    have h' := Except.ok.inj h
    rw [← h']
    cases hn : subbandNorm c (freqProfile nt d) (k / c) (k % c) with
    | none => left; intro t; show (d t k).bind _ = _; rw [hn]; cases d t k <;> rfl
    | some n =>
      by_cases h0 : n = 0
      · left
        intro t
        show (d t k).bind _ = _
        rw [hn]
        cases d t k with
        | none => rfl
        | some v => show quot v n = none; unfold quot; rw [if_pos h0]
      · right
        refine ⟨n, h0, fun t => ?_⟩
        show (d t k).bind _ = _
        rw [hn]
        cases d t k with
        | none => rfl
        | some v => show quot v n = _; unfold quot; rw [if_neg h0]; rfl

/-- **C81**, disagreement, for all data whose sub-bands have positive affine profiles: if the slope is not zero, the result is not flat; no two
channels of a sub-band get the same value, at any time when the signal is not zero. -/
theorem flatten_tilt_violated {nt c nsb : Nat} {g a b : Nat → ℚ} {d : Nat → Nat → Option ℚ} (hc : 2 ≤ c) (hd : AffineData nt c nsb g a b d) (m : ℚ)
    (hm : median ((List.range nt).map g) = some m) (hm0 : m ≠ 0) (hpos : ∀ s, s < nsb → ∀ x, x < c → 0 < a s + b s * (x : ℚ)) :
    ∃ out, flattenSubband nt (nsb * c) c d = .ok out ∧ ∀ t, t < nt → g t ≠ 0 → ∀ s, s < nsb → b s ≠ 0 → ∀ x y, x < c → y < c → x ≠ y →
      out t (s * c + x) ≠ out t (s * c + y) := by
  obtain ⟨out, h1, h2⟩ := flatten_affine hc hd m hm hm0 hpos
  refine ⟨out, h1, fun t ht hg s hs hb x y hx hy hxy => ?_⟩
  rw [h2 t ht s hs x hx, h2 t ht s hs y hy]
  have hc' : (2 : ℚ) ≤ c := by exact_mod_cast hc
  have hlast : 0 < a s + b s * ((c : ℚ) - 1) := by
    have := hpos s hs (c - 1) (by omega)
    rwa [Nat.cast_sub (by omega), Nat.cast_one] at this
  have hfirst : 0 < a s := by have := hpos s hs 0 (by omega); simpa using this
  have hmid : 0 < a s + b s * ((c : ℚ) / 2 - 1) := between_pos hfirst hlast (by linarith) (by linarith)
  have hne : b s * (x : ℚ) ≠ b s * (y : ℚ) := by
    intro h
    have := mul_left_cancel₀ hb h
    exact hxy (by exact_mod_cast this)
  unfold quot
  by_cases hx0 : a s + b s * ((x : ℚ) - 1 / 2) = 0
  · rw [if_pos hx0, if_neg (by intro hy0; exact hne (by linarith))]
    simp
  · by_cases hy0 : a s + b s * ((y : ℚ) - 1 / 2) = 0
    · rw [if_neg hx0, if_pos hy0]
      simp
    · rw [if_neg hx0, if_neg hy0]
      intro h
      have h := Option.some.inj h
      rw [div_eq_div_iff hx0 hy0] at h
      have : g t * (a s + b s * ((c : ℚ) / 2 - 1)) * (b s / 2 * (b s * (y : ℚ) - b s * (x : ℚ))) = 0 := by linear_combination h
      rcases mul_eq_zero.1 this with h3 | h3
      · rcases mul_eq_zero.1 h3 with h4 | h4
        · exact hg h4
        · exact hmid.ne' h4
      · rcases mul_eq_zero.1 h3 with h4 | h4
        · exact hb (by linarith)
        · exact hne (by linarith)

/-- **C81**, disagreement: if a sub-band grows by more than twice its first value from channel to channel, its first channel becomes negative; with exactly
twice, it is lost. -/
theorem flatten_sign_violated {nt c nsb : Nat} {g a b : Nat → ℚ} {d : Nat → Nat → Option ℚ} (hc : 2 ≤ c) (hd : AffineData nt c nsb g a b d) (m : ℚ)
    (hm : median ((List.range nt).map g) = some m) (hm0 : m ≠ 0) (hpos : ∀ s, s < nsb → ∀ x, x < c → 0 < a s + b s * (x : ℚ)) :
    ∃ out, flattenSubband nt (nsb * c) c d = .ok out ∧ ∀ t, t < nt → 0 < g t → ∀ s, s < nsb →
      (2 * a s < b s → ∃ v, out t (s * c) = some v ∧ v < 0) ∧ (b s = 2 * a s → out t (s * c) = none) := by
  obtain ⟨out, h1, h2⟩ := flatten_affine hc hd m hm hm0 hpos
  refine ⟨out, h1, fun t ht hg s hs => ?_⟩
  have h := h2 t ht s hs 0 (by omega)
  have hc' : (2 : ℚ) ≤ c := by exact_mod_cast hc
  have hfirst : 0 < a s := by have := hpos s hs 0 (by omega); simpa using this
  rw [Nat.add_zero, Nat.cast_zero, mul_zero, add_zero] at h
  constructor
  · intro hb
    have hneg : a s + b s * (0 - 1 / 2) < 0 := by linarith
    have hmid : 0 < a s + b s * ((c : ℚ) / 2 - 1) := by
      have := mul_nonneg (by linarith : 0 ≤ b s) (by linarith : 0 ≤ (c : ℚ) / 2 - 1)
      linarith
    refine ⟨_, by rw [h]; unfold quot; rw [if_neg hneg.ne], ?_⟩
    exact div_neg_of_pos_of_neg (mul_pos (mul_pos hg hfirst) hmid) hneg
  · intro hb
    rw [h]
    unfold quot
    rw [if_pos (by rw [hb]; ring)]

/-- **C81**, disagreement: with one channel per sub-band everything is lost. -/
theorem flatten_one_violated (nt nf : Nat) (d : Nat → Nat → Option ℚ) :
    ∃ out, flattenSubband nt nf 1 d = .ok out ∧ ∀ t k, out t k = none := by
  refine ⟨_, flat_form d (by omega) (Nat.mod_one _), fun t k => ?_⟩
  show (d t k).bind _ = _
  have : ∀ s x, subbandNorm 1 (freqProfile nt d) s x = none := fun s x => rfl
  rw [this]
  cases d t k <;> rfl

/-- **C81**: data that do not hold whole sub-bands are refused. -/
theorem flatten_refused (nt nf c : Nat) (d : Nat → Nat → Option ℚ) (hc : 0 < c) (h : nf % c ≠ 0) : flattenSubband nt nf c d = .error .valueError := by
  unfold flattenSubband subbandsOk
  rw [if_neg (by omega), if_pos h]
  rfl

/-! ## The hypotheses can be met -/

example : AffineData 3 4 2 (fun t => t + 1) (fun s => s + 1) (fun s => s) (fun t k => some (((t : ℚ) + 1) * (((k / 4 : Nat) : ℚ) + 1 + ((k / 4 : Nat) : ℚ) * ((k % 4 : Nat) : ℚ)))) := by
  intro t _ s _ x hx
  have e1 : (s * 4 + x) / 4 = s := by omega
  have e2 : (s * 4 + x) % 4 = x := by omega
  simp only [e1, e2]

example : median ((List.range 3).map fun t : Nat => (t : ℚ) + 1) = some 2 := by decide +kernel

/-- Two channels of values 1 and 3: the first one is lost. -/
example : ((flattenSubband 1 2 2 fun _ k => some (1 + 2 * (k : ℚ))).toOption.map fun o => (o 0 0, o 0 1)) = some (none, some (3 / 2)) := by decide +kernel

end Verif.TF
