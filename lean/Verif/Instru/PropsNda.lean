import Verif.Instru.Nda
import Mathlib.Tactic.Linarith
import Mathlib.Tactic.Positivity
import Mathlib.Algebra.Order.BigOperators.Group.List

/-!
# C194: gains of the antennas of the Decameter Array
-/

namespace Verif.Instru

/-- Weights of an interpolation in `n` pixels: not negative, of sum 1. -/
def NdaSound {D : Type} (w : D → List (Nat × ℝ)) (n : Nat) : Prop :=
  ∀ d, (∀ p ∈ w d, 0 ≤ p.2 ∧ p.1 < n) ∧ ((w d).map Prod.snd).sum = 1

/-- Pixel `i` counts in direction `d`. -/
def NdaReads {D : Type} (w : D → List (Nat × ℝ)) (d : D) (i : Nat) : Prop := ∃ x, 0 < x ∧ (i, x) ∈ w d

theorem weighted_bounds (m : Nat → ℝ) (lo hi : ℝ) : ∀ l : List (Nat × ℝ), (∀ p ∈ l, 0 ≤ p.2 ∧ lo ≤ m p.1 ∧ m p.1 ≤ hi) →
    lo * (l.map Prod.snd).sum ≤ (l.map fun p => p.2 * m p.1).sum ∧ (l.map fun p => p.2 * m p.1).sum ≤ hi * (l.map Prod.snd).sum
  | [], _ => by simp
  | p :: l, h => by
    obtain ⟨a, b⟩ := weighted_bounds m lo hi l fun q hq => h q (List.mem_cons_of_mem _ hq)
    obtain ⟨c, d, e⟩ := h p List.mem_cons_self
    simp only [List.map_cons, List.sum_cons]
    constructor <;> nlinarith

theorem ndaInterp_bounds {D : Type} {w : D → List (Nat × ℝ)} {n : Nat} (hw : NdaSound w n) (m : Nat → ℝ) (lo hi : ℝ) (hm : ∀ i < n, lo ≤ m i ∧ m i ≤ hi) (d : D) :
    lo ≤ ndaInterp w m d ∧ ndaInterp w m d ≤ hi := by
  obtain ⟨h1, h2⟩ := hw d
  have := weighted_bounds m lo hi (w d) fun p hp => ⟨(h1 p hp).1, hm _ (h1 p hp).2⟩
  rw [h2, mul_one, mul_one] at this
  exact this

theorem ndaInterp_pos {D : Type} {w : D → List (Nat × ℝ)} {n : Nat} (hw : NdaSound w n) (m : Nat → ℝ) (hm : ∀ i < n, 0 ≤ m i) (d : D) (i : Nat) (hi : NdaReads w d i) (hp : 0 < m i) :
    0 < ndaInterp w m d := by
  obtain ⟨x, hx, hmem⟩ := hi
  have hpos : 0 < x * m i := mul_pos hx hp
  have hle : x * m i ≤ ndaInterp w m d := by
    refine List.single_le_sum ?_ _ (List.mem_map.2 ⟨(i, x), hmem, rfl⟩)
    intro y hy
    obtain ⟨p, hp, rfl⟩ := List.mem_map.1 hy
    exact mul_nonneg ((hw d).1 p hp).1 (hm _ ((hw d).1 p hp).2)
  linarith

theorem ndaMax_le (m : Nat → ℝ) : ∀ (l : List Nat) (a : ℝ), a ≤ l.foldl (fun a i => max a (m i)) a ∧ ∀ i ∈ l, m i ≤ l.foldl (fun a i => max a (m i)) a
  | [], a => ⟨le_refl _, fun _ h => by cases h⟩
  | j :: l, a => by
    obtain ⟨h1, h2⟩ := ndaMax_le m l (max a (m j))
    refine ⟨le_trans (le_max_left _ _) h1, fun i hi => ?_⟩
    rcases List.mem_cons.1 hi with rfl | hi
    · exact le_trans (le_max_right _ _) h1
    · exact h2 i hi

theorem ndaRotated_nonneg {D : Type} {w : D → List (Nat × ℝ)} {n : Nat} (hw : NdaSound w n) (alt : Nat → ℝ) (rot : Nat → D) (i : Nat) : 0 ≤ ndaRotated w alt rot i :=
  (ndaInterp_bounds hw (ndaRaw alt) 0 1 (fun _ _ => ⟨sq_nonneg _, Real.sin_sq_le_one _⟩) (rot i)).1

/-- Values of the map are from 0 to 1, as soon as one pixel is not zero. -/
theorem ndaValues_unit {D : Type} {w : D → List (Nat × ℝ)} {n : Nat} (hw : NdaSound w n) (alt : Nat → ℝ) (rot : Nat → D) (k : Nat) (hk : k < n) (hpos : 0 < ndaRotated w alt rot k)
    (i : Nat) (hi : i < n) : 0 ≤ ndaValues w alt rot n i ∧ ndaValues w alt rot n i ≤ 1 := by
  have h : ∀ i < n, ndaRotated w alt rot i ≤ ndaMax n (ndaRotated w alt rot) := fun i hi => (ndaMax_le _ (List.range n) _).2 i (List.mem_range.2 hi)
  have hm : 0 < ndaMax n (ndaRotated w alt rot) := lt_of_lt_of_le hpos (h k hk)
  exact ⟨div_nonneg (ndaRotated_nonneg hw alt rot i) hm.le, (div_le_one hm).2 (h i hi)⟩

theorem ndaGain_ok {D : Type} (w : D → List (Nat × ℝ)) (alt : Nat → ℝ) (rot : Nat → D) (n nt nf : Nat) (dir : Nat → Nat → D) (g : Nat → Nat → Nat → ℝ)
    (hg : ndaAssign nt nf (fun t c => ndaInterp w (ndaValues w alt rot n) (dir t c)) = .ok g) : ∀ pols : List NdaPol,
    ndaGain w alt rot n nt nf pols dir = .ok (pols.map fun _ => g)
  | [] => rfl
  | p :: l => by
    have hp : ndaMap w alt rot n (ndaPol p) = ndaValues w alt rot n := by cases p <;> rfl
    have ih := ndaGain_ok w alt rot n nt nf dir g hg l
    unfold ndaGain at ih ⊢
    rw [List.mapM_cons, ih, hp, hg]
    rfl

/-- **Gain at one time**: for each polarisation, the value of the map in the direction of each coordinate, the same at all frequencies, from 0 to 1. -/
theorem nda_one {D : Type} {w : D → List (Nat × ℝ)} {n : Nat} (hw : NdaSound w n) (alt : Nat → ℝ) (rot : Nat → D) (k : Nat) (hk : k < n) (hpos : 0 < ndaRotated w alt rot k)
    (nf : Nat) (pols : List NdaPol) (dir : Nat → Nat → D) :
    ∃ l, ndaGain w alt rot n 1 nf pols dir = .ok l ∧ l.length = pols.length ∧ ∀ g ∈ l, ∀ f c, g 0 f c = ndaInterp w (ndaValues w alt rot n) (dir 0 c) ∧ 0 ≤ g 0 f c ∧ g 0 f c ≤ 1 := by
  refine ⟨_, ndaGain_ok w alt rot n 1 nf dir _ rfl pols, List.length_map _, ?_⟩
  intro g hg f c
  obtain ⟨_, _, rfl⟩ := List.mem_map.1 hg
  exact ⟨rfl, ndaInterp_bounds hw _ 0 1 (fun i hi => ndaValues_unit hw alt rot k hk hpos i hi) (dir 0 c)⟩

/-- **Violated: polarisations are told apart.** Left and right circular polarisations have the same gain, always, as any other thing given as a polarisation. -/
theorem nda_polarisations_violated {D : Type} (w : D → List (Nat × ℝ)) (alt : Nat → ℝ) (rot : Nat → D) (n nt nf : Nat) (p q : NdaPol) (dir : Nat → Nat → D) :
    ndaGain w alt rot n nt nf [p] dir = ndaGain w alt rot n nt nf [q] dir := by
  cases p <;> cases q <;> rfl

/-- **Violated: nothing is received from below the ground.** The gain is positive in every direction, above or below the horizon, unless all the pixels read there come from the
horizon itself: the square of the sine is the same on both sides. -/
theorem nda_below_violated {D : Type} {w : D → List (Nat × ℝ)} {n : Nat} (hw : NdaSound w n) (alt : Nat → ℝ) (rot : Nat → D) (d : D) (i j : Nat) (hi : NdaReads w d i)
    (hj : NdaReads w (rot i) j) (h0 : Real.sin (alt j) ≠ 0) : 0 < ndaInterp w (ndaValues w alt rot n) d := by
  have hin : i < n := by obtain ⟨x, _, hx⟩ := hi; exact ((hw d).1 _ hx).2
  have hr : 0 < ndaRotated w alt rot i := ndaInterp_pos hw _ (fun _ _ => sq_nonneg _) (rot i) j hj (sq_pos_of_ne_zero h0)
  have hm : 0 < ndaMax n (ndaRotated w alt rot) := lt_of_lt_of_le hr ((ndaMax_le _ (List.range n) _).2 i (List.mem_range.2 hin))
  exact ndaInterp_pos hw _ (fun k hk => (ndaValues_unit hw alt rot i hin hr k hk).1) d i hi (div_pos hr hm)

/-- **Violated: the gain follows the sky.** With several times and as many frequencies, the gain at a time and a frequency is that of another time, the one which has the rank of the frequency. -/
theorem nda_times_violated {D : Type} (w : D → List (Nat × ℝ)) (alt : Nat → ℝ) (rot : Nat → D) (n nt : Nat) (hnt : nt ≠ 1) (pols : List NdaPol) (dir : Nat → Nat → D) :
    ∃ l, ndaGain w alt rot n nt nt pols dir = .ok l ∧ l.length = pols.length ∧ ∀ g ∈ l, ∀ t f c, g t f c = ndaInterp w (ndaValues w alt rot n) (dir f c) := by
  refine ⟨_, ndaGain_ok w alt rot n nt nt dir _ (by unfold ndaAssign; rw [if_neg hnt, if_pos rfl]) pols, List.length_map _, ?_⟩
  intro g hg t f c
  obtain ⟨_, _, rfl⟩ := List.mem_map.1 hg
  rfl

/-- **Violated: skies at several times have a gain.** With another number of frequencies than of times, it fails, one frequency included. -/
theorem nda_shape_violated {D : Type} (w : D → List (Nat × ℝ)) (alt : Nat → ℝ) (rot : Nat → D) (n nt nf : Nat) (h1 : nt ≠ 1) (h2 : nt ≠ nf) (p : NdaPol) (pols : List NdaPol)
    (dir : Nat → Nat → D) : ndaGain w alt rot n nt nf (p :: pols) dir = .error .valueError := by
  unfold ndaGain
  rw [List.mapM_cons]
  have e : ∀ v, ndaAssign nt nf v = .error .valueError := fun v => by unfold ndaAssign; rw [if_neg h1, if_neg h2]
  rw [e]
  rfl

/-- Non-vacuity: a sky of two pixels, the zenith and the nadir, each read in its own direction; the nadir has the gain of the zenith. -/
example : NdaSound (fun d : Bool => if d then [(0, (1 : ℝ))] else [(1, 1)]) 2 ∧ NdaReads (fun d : Bool => if d then [(0, (1 : ℝ))] else [(1, 1)]) false 1 ∧
    Real.sin ((fun i : Nat => if i = 0 then Real.pi / 2 else -(Real.pi / 2)) 1) ≠ 0 := by
  refine ⟨fun d => ?_, ⟨1, one_pos, by simp⟩, ?_⟩
  · cases d <;> simp
  · simp

end Verif.Instru
