import Verif.Instru.PropsArea
import Mathlib.MeasureTheory.Measure.Lebesgue.VolumeOfBalls
import Mathlib.MeasureTheory.Measure.Lebesgue.Complex
import Mathlib.MeasureTheory.Measure.Real

/-!
# The effective area against the area of the union of the discs

`effectiveArea` counts points of a grid.  The area it approaches is the Lebesgue measure of the union of the discs of the
antennas; the error is at most that of the borders of the discs, taken over half a diagonal of the grid.
-/

namespace Verif.Instru

open MeasureTheory

/-- Specification: the union of the discs of radius `r` around the antennas. -/
def unionOf (pos : List (ℝ × ℝ)) (r : ℝ) : Set (ℝ × ℝ) := {z | ∃ p ∈ pos, inDisc p r z.1 z.2}

/-- Specification: area of the union of the discs. -/
noncomputable def unionArea (pos : List (ℝ × ℝ)) (r : ℝ) : ℝ := (volume (unionOf pos r)).toReal

/-- Specification: half the diagonal of a cell of the grid. -/
noncomputable def halfDiagonal (pos : List (ℝ × ℝ)) (R : ℝ) : ℝ :=
  √(gridStep (pos.map (·.1)) R ^ 2 + gridStep (pos.map (·.2)) R ^ 2) / 2

theorem disc_dist (p : ℝ × ℝ) (r x y : ℝ) : inDisc p r x y ↔ dist (⟨p.1, p.2⟩ : ℂ) ⟨x, y⟩ ≤ r := by
  unfold inDisc
  rw [Complex.dist_eq_re_im]

/-- A disc as a set of points. -/
def discOf (p : ℝ × ℝ) (r : ℝ) : Set (ℝ × ℝ) := {z | inDisc p r z.1 z.2}

theorem disc_preimage (p : ℝ × ℝ) (r : ℝ) :
    Complex.measurableEquivRealProd ⁻¹' discOf p r = Metric.closedBall (⟨p.1, p.2⟩ : ℂ) r := by
  ext z
  show inDisc p r z.re z.im ↔ _
  rw [disc_dist, Metric.mem_closedBall, dist_comm]

theorem disc_measurable (p : ℝ × ℝ) (r : ℝ) : MeasurableSet (discOf p r) := by
  rw [← Complex.measurableEquivRealProd.measurableSet_preimage, disc_preimage]
  exact Metric.isClosed_closedBall.measurableSet

theorem disc_volume (p : ℝ × ℝ) (r : ℝ) (hr : 0 ≤ r) : volume (discOf p r) = ENNReal.ofReal (Real.pi * r ^ 2) := by
  rw [← Complex.volume_preserving_equiv_real_prod.measure_preimage_equiv, disc_preimage, Complex.volume_closedBall,
    mul_comm, ENNReal.ofReal_mul Real.pi_pos.le, ENNReal.ofReal_pow hr]
  congr 1
  exact (ENNReal.ofReal_coe_nnreal (p := NNReal.pi)).symm

theorem disc_volume_neg (p : ℝ × ℝ) (r : ℝ) (hr : r < 0) : discOf p r = ∅ := by
  ext z
  simp only [Set.mem_empty_iff_false, iff_false]
  intro h
  exact absurd (le_trans (Real.sqrt_nonneg _) h) (not_le.2 hr)

theorem union_eq (pos : List (ℝ × ℝ)) (r : ℝ) : unionOf pos r = ⋃ p ∈ pos.toFinset, discOf p r := by
  ext z
  simp [unionOf, discOf]

theorem union_measurable (pos : List (ℝ × ℝ)) (r : ℝ) : MeasurableSet (unionOf pos r) := by
  rw [union_eq]
  exact Finset.measurableSet_biUnion _ fun p _ => disc_measurable p r

theorem union_finite (pos : List (ℝ × ℝ)) (r : ℝ) : volume (unionOf pos r) ≠ ⊤ := by
  rw [union_eq]
  refine ne_of_lt (lt_of_le_of_lt (measure_biUnion_finset_le _ _) ?_)
  refine ENNReal.sum_lt_top.2 fun p _ => ?_
  rcases lt_or_ge r 0 with h | h
  · rw [disc_volume_neg p r h]; simp
  · rw [disc_volume p r h]; exact ENNReal.ofReal_lt_top

/-- Discs of two radii: the areas of the two unions differ at most by the areas of the rings. -/
theorem union_ring (pos : List (ℝ × ℝ)) (s t : ℝ) (hs : 0 ≤ s) (h : s ≤ t) :
    unionArea pos t - unionArea pos s ≤ pos.length * (Real.pi * (t ^ 2 - s ^ 2)) := by
  have hsub : unionOf pos s ⊆ unionOf pos t := by
    rintro z ⟨p, hp, hz⟩
    exact ⟨p, hp, le_trans hz h⟩
  have e1 : unionArea pos t - unionArea pos s = (volume (unionOf pos t \ unionOf pos s)).toReal := by
    unfold unionArea
    rw [measure_sdiff hsub (union_measurable pos s).nullMeasurableSet (union_finite pos s),
      ENNReal.toReal_sub_of_le (measure_mono hsub) (union_finite pos t)]
  have e2 : unionOf pos t \ unionOf pos s ⊆ ⋃ p ∈ pos.toFinset, (discOf p t \ discOf p s) := by
    rintro z ⟨⟨p, hp, hz⟩, hn⟩
    refine Set.mem_iUnion₂.2 ⟨p, List.mem_toFinset.2 hp, hz, fun hc => hn ⟨p, hp, hc⟩⟩
  have e3 : ∀ p : ℝ × ℝ, volume (discOf p t \ discOf p s) = ENNReal.ofReal (Real.pi * (t ^ 2 - s ^ 2)) := by
    intro p
    have hd : discOf p s ⊆ discOf p t := fun z hz => le_trans (show _ ≤ s from hz) h
    rw [measure_sdiff hd (disc_measurable p s).nullMeasurableSet (by rw [disc_volume p s hs]; exact ENNReal.ofReal_ne_top),
      disc_volume p s hs, disc_volume p t (le_trans hs h), ← ENNReal.ofReal_sub _ (by positivity)]
    congr 1
    ring
  have hnn : 0 ≤ Real.pi * (t ^ 2 - s ^ 2) := mul_nonneg Real.pi_pos.le (by nlinarith)
  rw [e1]
  have e4 : volume (unionOf pos t \ unionOf pos s) ≤ ENNReal.ofReal (pos.length * (Real.pi * (t ^ 2 - s ^ 2))) := by
    refine le_trans (measure_mono e2) (le_trans (measure_biUnion_finset_le _ _) ?_)
    rw [Finset.sum_congr rfl fun p _ => e3 p, Finset.sum_const, nsmul_eq_mul,
      ENNReal.ofReal_mul (p := (pos.length : ℝ)) (by positivity), ENNReal.ofReal_natCast]
    gcongr
    exact List.toFinset_card_le pos
  exact ENNReal.toReal_le_of_le_ofReal (by positivity) e4

/-- The cell of a point of the grid. -/
def gridCell (pos : List (ℝ × ℝ)) (R : ℝ) (k : Nat × Nat) : Set (ℝ × ℝ) :=
  Set.Ico (gridAt (pos.map (·.1)) R k.1 - gridStep (pos.map (·.1)) R / 2) (gridAt (pos.map (·.1)) R k.1 + gridStep (pos.map (·.1)) R / 2) ×ˢ
  Set.Ico (gridAt (pos.map (·.2)) R k.2 - gridStep (pos.map (·.2)) R / 2) (gridAt (pos.map (·.2)) R k.2 + gridStep (pos.map (·.2)) R / 2)

theorem cell_measurable (pos : List (ℝ × ℝ)) (R : ℝ) (k : Nat × Nat) : MeasurableSet (gridCell pos R k) :=
  measurableSet_Ico.prod measurableSet_Ico

theorem cell_volume (pos : List (ℝ × ℝ)) (R : ℝ) (hp : pos ≠ []) (hR : 0 < R) (k : Nat × Nat) :
    volume (gridCell pos R k) = ENNReal.ofReal (gridStep (pos.map (·.1)) R * gridStep (pos.map (·.2)) R) := by
  have h1 := step_pos (pos.map (·.1)) R (by simpa using hp) hR
  unfold gridCell
  rw [Measure.volume_eq_prod, Measure.prod_prod, Real.volume_Ico, Real.volume_Ico, ENNReal.ofReal_mul h1.le]
  congr 2 <;> ring

theorem cell_axis (s h x : ℝ) (hh : 0 < h) (a b : Nat) (ha : s + a * h - h / 2 ≤ x) (ha' : x < s + a * h + h / 2)
    (hb : s + b * h - h / 2 ≤ x) (hb' : x < s + b * h + h / 2) : a = b := by
  have h1 : (a : ℝ) < b + 1 := by
    by_contra hc
    have : ((b : ℝ) + 1) * h ≤ a * h := mul_le_mul_of_nonneg_right (not_lt.1 hc) hh.le
    linarith
  have h2 : (b : ℝ) < a + 1 := by
    by_contra hc
    have : ((a : ℝ) + 1) * h ≤ b * h := mul_le_mul_of_nonneg_right (not_lt.1 hc) hh.le
    linarith
  have h3 : a < b + 1 := by exact_mod_cast h1
  have h4 : b < a + 1 := by exact_mod_cast h2
  omega

theorem cell_disjoint (pos : List (ℝ × ℝ)) (R : ℝ) (hp : pos ≠ []) (hR : 0 < R) (k l : Nat × Nat) (h : k ≠ l) :
    Disjoint (gridCell pos R k) (gridCell pos R l) := by
  rw [Set.disjoint_left]
  rintro z ⟨⟨a1, a2⟩, ⟨a3, a4⟩⟩ ⟨⟨b1, b2⟩, ⟨b3, b4⟩⟩
  refine h (Prod.ext ?_ ?_)
  · exact cell_axis (gridStart (pos.map fun p : ℝ × ℝ => p.1) R) (gridStep (pos.map fun p : ℝ × ℝ => p.1) R) z.1 (step_pos _ R (by simpa using hp) hR) _ _ a1 a2 b1 b2
  · exact cell_axis (gridStart (pos.map fun p : ℝ × ℝ => p.2) R) (gridStep (pos.map fun p : ℝ × ℝ => p.2) R) z.2 (step_pos _ R (by simpa using hp) hR) _ _ a3 a4 b3 b4

theorem cell_near (pos : List (ℝ × ℝ)) (R : ℝ) (k : Nat × Nat) (z : ℝ × ℝ) (hz : z ∈ gridCell pos R k) :
    dist (⟨z.1, z.2⟩ : ℂ) ⟨gridAt (pos.map (·.1)) R k.1, gridAt (pos.map (·.2)) R k.2⟩ ≤ halfDiagonal pos R := by
  obtain ⟨⟨a1, a2⟩, ⟨a3, a4⟩⟩ := hz
  rw [Complex.dist_eq_re_im]
  unfold halfDiagonal
  refine Real.sqrt_le_iff.2 ⟨by positivity, ?_⟩
  rw [div_pow, Real.sq_sqrt (by positivity)]
  have q1 : (z.1 - gridAt (pos.map (·.1)) R k.1) ^ 2 ≤ (gridStep (pos.map (·.1)) R / 2) ^ 2 :=
    sq_le_sq' (by linarith) (by linarith)
  have q2 : (z.2 - gridAt (pos.map (·.2)) R k.2) ^ 2 ≤ (gridStep (pos.map (·.2)) R / 2) ^ 2 :=
    sq_le_sq' (by linarith) (by linarith)
  have e : (z.1 - gridAt (pos.map (·.1)) R k.1) ^ 2 + (z.2 - gridAt (pos.map (·.2)) R k.2) ^ 2 ≤
    (gridStep (pos.map (·.1)) R / 2) ^ 2 + (gridStep (pos.map (·.2)) R / 2) ^ 2 := add_le_add q1 q2
  refine le_trans e (le_of_eq ?_)
  ring

/-- A coordinate between the ends of the grid lies in a cell. -/
theorem axis_cell (xs : List ℝ) (R x : ℝ) (hx : xs ≠ []) (hR : 0 < R) (h1 : lowOf xs - R ≤ x) (h2 : x ≤ topOf xs + R) :
    ∃ k < 500, x ∈ Set.Ico (gridAt xs R k - gridStep xs R / 2) (gridAt xs R k + gridStep xs R / 2) := by
  have hh := step_pos xs R hx hR
  have hstep : 499 * gridStep xs R = topOf xs + R - (lowOf xs - R) := by unfold gridStep; ring
  obtain ⟨h, hhe⟩ : ∃ h, h = gridStep xs R := ⟨_, rfl⟩
  have hn : 0 ≤ (x - (lowOf xs - R)) / gridStep xs R + 1 / 2 := by
    have : 0 ≤ (x - (lowOf xs - R)) / gridStep xs R := div_nonneg (by linarith) hh.le
    linarith
  have f1 := Nat.floor_le hn
  have f2 := Nat.lt_floor_add_one ((x - (lowOf xs - R)) / gridStep xs R + 1 / 2)
  generalize ⌊(x - (lowOf xs - R)) / gridStep xs R + 1 / 2⌋₊ = k at f1 f2
  have g1 : (k : ℝ) * gridStep xs R ≤ (x - (lowOf xs - R)) + gridStep xs R / 2 := by
    have := mul_le_mul_of_nonneg_right f1 hh.le
    rw [add_mul, div_mul_cancel₀ _ hh.ne'] at this
    linarith
  have g2 : (x - (lowOf xs - R)) + gridStep xs R / 2 < ((k : ℝ) + 1) * gridStep xs R := by
    have := mul_lt_mul_of_pos_right f2 hh
    rw [add_mul, div_mul_cancel₀ _ hh.ne'] at this
    linarith
  refine ⟨k, ?_, ?_, ?_⟩
  · have : (k : ℝ) < 500 := by
      by_contra hc
      have := mul_le_mul_of_nonneg_right (not_lt.1 hc) hh.le
      linarith
    exact_mod_cast this
  · show gridStart xs R + k * gridStep xs R - _ ≤ x
    unfold gridStart
    linarith
  · show x < gridStart xs R + k * gridStep xs R + _
    unfold gridStart
    linarith

open Classical in
/-- The points of the grid within a disc. -/
noncomputable def hitCells (pos : List (ℝ × ℝ)) (R r : ℝ) : Finset (Nat × Nat) :=
  (Finset.range 500 ×ˢ Finset.range 500).filter fun k =>
    ∃ p ∈ pos, inDisc p r (gridAt (pos.map (·.1)) R k.1) (gridAt (pos.map (·.2)) R k.2)

open Classical in
theorem mem_hit (pos : List (ℝ × ℝ)) (R r : ℝ) (k : Nat × Nat) : k ∈ hitCells pos R r ↔
    (k.1 < 500 ∧ k.2 < 500) ∧ ∃ p ∈ pos, inDisc p r (gridAt (pos.map (·.1)) R k.1) (gridAt (pos.map (·.2)) R k.2) := by
  unfold hitCells
  rw [Finset.mem_filter, Finset.mem_product, Finset.mem_range, Finset.mem_range]

theorem hit_card (pos : List (ℝ × ℝ)) (R r : ℝ) : (hitCells pos R r).card = covered500 pos R r := by
  unfold hitCells covered500
  rfl

attribute [irreducible] hitCells

theorem cells_sum (pos : List (ℝ × ℝ)) (R : ℝ) (hp : pos ≠ []) (hR : 0 < R) (S : Finset (Nat × Nat)) :
    volume (⋃ k ∈ S, gridCell pos R k) =
      ENNReal.ofReal (S.card * gridStep (pos.map (·.1)) R * gridStep (pos.map (·.2)) R) := by
  rw [measure_biUnion_finset (fun k _ l _ h => cell_disjoint pos R hp hR k l h) fun k _ => cell_measurable pos R k,
    Finset.sum_congr rfl fun k _ => cell_volume pos R hp hR k, Finset.sum_const, nsmul_eq_mul, mul_assoc,
    ENNReal.ofReal_mul (p := (S.card : ℝ)) (by positivity), ENNReal.ofReal_natCast]

theorem cells_volume (pos : List (ℝ × ℝ)) (R r : ℝ) (hp : pos ≠ []) (hR : 0 < R) :
    volume (⋃ k ∈ hitCells pos R r, gridCell pos R k) =
      ENNReal.ofReal (covered500 pos R r * gridStep (pos.map (·.1)) R * gridStep (pos.map (·.2)) R) := by
  rw [cells_sum pos R hp hR, hit_card]

theorem cells_within (pos : List (ℝ × ℝ)) (R r : ℝ) :
    (⋃ k ∈ hitCells pos R r, gridCell pos R k) ⊆ unionOf pos (r + halfDiagonal pos R) := by
  intro z hz
  obtain ⟨k, hk, hzk⟩ : ∃ k, ∃ _ : k ∈ hitCells pos R r, z ∈ gridCell pos R k := by simpa only [Set.mem_iUnion] using hz
  obtain ⟨p, hp, hin⟩ := ((mem_hit pos R r k).1 hk).2
  refine ⟨p, hp, (disc_dist _ _ _ _).2 ?_⟩
  have h1 := (disc_dist _ _ _ _).1 hin
  have h2 := cell_near pos R k z hzk
  rw [dist_comm] at h2
  exact le_trans (dist_triangle _ _ _) (add_le_add h1 h2)

theorem cells_around (pos : List (ℝ × ℝ)) (R r : ℝ) (hp : pos ≠ []) (hR : 0 < R) (hr : r ≤ R) :
    unionOf pos (r - halfDiagonal pos R) ⊆ ⋃ k ∈ hitCells pos R r, gridCell pos R k := by
  rintro z ⟨p, hpp, hin⟩
  have h1 := (disc_dist _ _ _ _).1 hin
  have hd : 0 ≤ halfDiagonal pos R := by unfold halfDiagonal; positivity
  have hb : √((p.1 - z.1) ^ 2 + (p.2 - z.2) ^ 2) ≤ R := le_trans hin (by linarith)
  have b1 : |p.1 - z.1| ≤ R := le_trans (Real.abs_le_sqrt (by nlinarith [sq_nonneg (p.2 - z.2)])) hb
  have b2 : |p.2 - z.2| ≤ R := le_trans (Real.abs_le_sqrt (by nlinarith [sq_nonneg (p.1 - z.1)])) hb
  have m1 : p.1 ∈ pos.map (·.1) := List.mem_map_of_mem hpp
  have m2 : p.2 ∈ pos.map (·.2) := List.mem_map_of_mem hpp
  have n1 : pos.map (·.1) ≠ [] := by simpa using hp
  have n2 : pos.map (·.2) ≠ [] := by simpa using hp
  have l1 := (low_spec _ n1).2 _ m1
  have t1 := (top_spec _ n1).2 _ m1
  have l2 := (low_spec _ n2).2 _ m2
  have t2 := (top_spec _ n2).2 _ m2
  rw [abs_le] at b1 b2
  obtain ⟨i, hi, hic⟩ := axis_cell (pos.map (·.1)) R z.1 n1 hR (by linarith) (by linarith)
  obtain ⟨j, hj, hjc⟩ := axis_cell (pos.map (·.2)) R z.2 n2 hR (by linarith) (by linarith)
  have hz : z ∈ gridCell pos R (i, j) := ⟨hic, hjc⟩
  simp only [Set.mem_iUnion]
  refine ⟨(i, j), (mem_hit pos R r (i, j)).2 ⟨⟨hi, hj⟩, p, hpp, (disc_dist _ _ _ _).2 ?_⟩, hz⟩
  · have h2 := cell_near pos R (i, j) z hz
    have := dist_triangle (⟨p.1, p.2⟩ : ℂ) ⟨z.1, z.2⟩ ⟨gridAt (pos.map (·.1)) R i, gridAt (pos.map (·.2)) R j⟩
    linarith

/-- The area counted against the area of the union. -/
theorem counted_union (pos : List (ℝ × ℝ)) (R r : ℝ) (hp : pos ≠ []) (hR : 0 < R) (h0 : 0 ≤ r) (hr : r ≤ R) :
    |covered500 pos R r * gridStep (pos.map (·.1)) R * gridStep (pos.map (·.2)) R - unionArea pos r| ≤
      pos.length * (Real.pi * (halfDiagonal pos R * (2 * r + halfDiagonal pos R))) := by
  have s1 := step_pos (pos.map (·.1)) R (by simpa using hp) hR
  have s2 := step_pos (pos.map (·.2)) R (by simpa using hp) hR
  have hC : 0 ≤ covered500 pos R r * gridStep (pos.map (·.1)) R * gridStep (pos.map (·.2)) R := by positivity
  have hd : 0 ≤ halfDiagonal pos R := by unfold halfDiagonal; positivity
  have up : covered500 pos R r * gridStep (pos.map (·.1)) R * gridStep (pos.map (·.2)) R ≤ unionArea pos (r + halfDiagonal pos R) := by
    have := ENNReal.toReal_mono (union_finite pos (r + halfDiagonal pos R)) (measure_mono (μ := volume) (cells_within pos R r))
    rwa [cells_volume pos R r hp hR, ENNReal.toReal_ofReal hC] at this
  have down : unionArea pos (r - halfDiagonal pos R) ≤ covered500 pos R r * gridStep (pos.map (·.1)) R * gridStep (pos.map (·.2)) R := by
    have := ENNReal.toReal_mono (by rw [cells_volume pos R r hp hR]; exact ENNReal.ofReal_ne_top)
      (measure_mono (μ := volume) (cells_around pos R r hp hR hr))
    rwa [cells_volume pos R r hp hR, ENNReal.toReal_ofReal hC] at this
  have r1 := union_ring pos r (r + halfDiagonal pos R) h0 (by linarith)
  have e1 : (r + halfDiagonal pos R) ^ 2 - r ^ 2 = halfDiagonal pos R * (2 * r + halfDiagonal pos R) := by ring
  rw [e1] at r1
  rw [abs_le]
  refine ⟨?_, by linarith⟩
  have key : unionArea pos r - covered500 pos R r * gridStep (pos.map (·.1)) R * gridStep (pos.map (·.2)) R ≤
      pos.length * (Real.pi * (halfDiagonal pos R * (2 * r + halfDiagonal pos R))) := by
    rcases le_or_gt (halfDiagonal pos R) r with hle | hlt
    · have r2 := union_ring pos (r - halfDiagonal pos R) r (by linarith) (by linarith)
      have : (pos.length : ℝ) * (Real.pi * (r ^ 2 - (r - halfDiagonal pos R) ^ 2)) ≤
          pos.length * (Real.pi * (halfDiagonal pos R * (2 * r + halfDiagonal pos R))) := by
        gcongr
        nlinarith
      linarith
    · have r2 := union_ring pos 0 r le_rfl h0
      have z0 : unionArea pos 0 ≤ 0 := by
        have : volume (unionOf pos 0) ≤ 0 := by
          rw [union_eq]
          refine le_trans (measure_biUnion_finset_le _ _) (le_of_eq (Finset.sum_eq_zero fun p _ => ?_))
          rw [disc_volume p 0 le_rfl]
          simp
        unfold unionArea
        rw [nonpos_iff_eq_zero.1 this]
        simp
      have : (pos.length : ℝ) * (Real.pi * (r ^ 2 - 0 ^ 2)) ≤
          pos.length * (Real.pi * (halfDiagonal pos R * (2 * r + halfDiagonal pos R))) := by
        gcongr
        nlinarith
      linarith
  linarith

/-- **C119** (agreement with the area of the union): for any mini-array, each area returned is the area of the union of the
discs of its antennas, times the sine of the elevation, within `n π d (2 r + d)`, `d` being half a diagonal of the grid. -/
theorem area_union (pos : List (ℝ × ℝ)) (fs : List ℝ) (e : ℝ) (hp : pos ≠ []) (hf : ∀ f ∈ fs, 0 < f) (hne : fs ≠ []) :
    ∃ l : List ℝ, effectiveArea pos fs e = .ok l ∧ l.length = fs.length ∧
      ∀ (i : Nat) (f a : ℝ), fs[i]? = some f → l[i]? = some a →
        |a - unionArea pos (discRadius f) * Real.sin e| ≤
          pos.length * (Real.pi * (halfDiagonal pos (topOf (fs.map discRadius)) *
            (2 * discRadius f + halfDiagonal pos (topOf (fs.map discRadius))))) * |Real.sin e| := by
  refine ⟨_, area_ok pos fs e hp hne, by simp, ?_⟩
  intro i f a hi ha
  have hm : f ∈ fs := List.mem_of_getElem? hi
  rw [List.getElem?_map, hi] at ha
  obtain rfl := Option.some.inj ha
  have hr := radius_top fs hf f hm
  have hpos := disc_pos f (hf f hm)
  have := counted_union pos (topOf (fs.map discRadius)) (discRadius f) hp hr.1 hpos.le hr.2
  unfold areaWith
  rw [← sub_mul, abs_mul]
  exact mul_le_mul_of_nonneg_right this (abs_nonneg _)

/-- **C119.** The discs of antennas further apart than two radii do not overlap: the area of their union is a third of the
square of the wavelength for each antenna. -/
theorem union_apart (pos : List (ℝ × ℝ)) (f : ℝ) (hf : 0 < f)
    (h : pos.Pairwise fun p q => 2 * discRadius f < √((p.1 - q.1) ^ 2 + (p.2 - q.2) ^ 2)) :
    unionArea pos (discRadius f) = pos.length * (waveOf f ^ 2 / 3) := by
  have hr := disc_pos f hf
  have hnd : pos.Nodup := by
    refine h.imp fun {p q} hpq e => ?_
    subst e
    simp at hpq
    linarith
  have hsym : ∀ p ∈ pos, ∀ q ∈ pos, p ≠ q → 2 * discRadius f < √((p.1 - q.1) ^ 2 + (p.2 - q.2) ^ 2) :=
    fun p hp q hq hne => (h.imp (S := fun a b => a ≠ b → 2 * discRadius f < √((a.1 - b.1) ^ 2 + (a.2 - b.2) ^ 2))
      fun {a b} hab _ => hab).forall_of_forall_of_flip (fun _ _ hc => absurd rfl hc) (h.imp fun {a b} hab _ => by
        have e : (b.1 - a.1) ^ 2 + (b.2 - a.2) ^ 2 = (a.1 - b.1) ^ 2 + (a.2 - b.2) ^ 2 := by ring
        rw [e]
        exact hab) hp hq hne
  have hv : volume (unionOf pos (discRadius f)) = ENNReal.ofReal (pos.length * (waveOf f ^ 2 / 3)) := by
    rw [union_eq, measure_biUnion_finset ?_ fun p _ => disc_measurable p _, Finset.sum_congr rfl fun p _ => disc_volume p _ hr.le,
      Finset.sum_const, nsmul_eq_mul, List.toFinset_card_of_nodup hnd, disc_sq f hf,
      ENNReal.ofReal_mul (p := (pos.length : ℝ)) (by positivity), ENNReal.ofReal_natCast, mul_div_cancel₀ _ Real.pi_pos.ne']
    intro p hp q hq hne
    rw [Function.onFun, Set.disjoint_left]
    intro z hz hz'
    have h1 := (disc_dist _ _ _ _).1 (show inDisc p _ _ _ from hz)
    have h2 := (disc_dist _ _ _ _).1 (show inDisc q _ _ _ from hz')
    have h3 := hsym p (List.mem_toFinset.1 hp) q (List.mem_toFinset.1 hq) hne
    have h4 := dist_triangle (⟨p.1, p.2⟩ : ℂ) ⟨z.1, z.2⟩ ⟨q.1, q.2⟩
    rw [dist_comm (⟨z.1, z.2⟩ : ℂ)] at h4
    rw [Complex.dist_eq_re_im ⟨p.1, p.2⟩ ⟨q.1, q.2⟩] at h4
    dsimp only at h4
    linarith
  unfold unionArea
  rw [hv, ENNReal.toReal_ofReal (by positivity)]

/-- **C119.** Wherever the antennas are, the union is at least one disc, and at most the discs side by side. -/
theorem union_range (pos : List (ℝ × ℝ)) (f : ℝ) (hf : 0 < f) (hp : pos ≠ []) :
    waveOf f ^ 2 / 3 ≤ unionArea pos (discRadius f) ∧ unionArea pos (discRadius f) ≤ pos.length * (waveOf f ^ 2 / 3) := by
  have hr := disc_pos f hf
  have hq : Real.pi * discRadius f ^ 2 = waveOf f ^ 2 / 3 := by
    rw [disc_sq f hf, mul_div_cancel₀ _ Real.pi_pos.ne']
  constructor
  · obtain ⟨p, hpm⟩ := List.exists_mem_of_ne_nil pos hp
    have hsub : discOf p (discRadius f) ⊆ unionOf pos (discRadius f) := fun z hz => ⟨p, hpm, hz⟩
    have := ENNReal.toReal_mono (union_finite pos _) (measure_mono (μ := volume) hsub)
    rwa [disc_volume p _ hr.le, ENNReal.toReal_ofReal (by positivity), hq] at this
  · refine ENNReal.toReal_le_of_le_ofReal (by positivity) ?_
    rw [union_eq]
    refine le_trans (measure_biUnion_finset_le _ _) ?_
    rw [Finset.sum_congr rfl fun p _ => disc_volume p _ hr.le, Finset.sum_const, nsmul_eq_mul, hq,
      ENNReal.ofReal_mul (p := (pos.length : ℝ)) (by positivity), ENNReal.ofReal_natCast]
    gcongr
    exact List.toFinset_card_le pos

/-- Two antennas 10 metres apart at 50 MHz: their discs, of radius below 2 metres, do not meet. -/
example : discRadius 50 < 2 ∧ unionArea [(0, 0), (10, 0)] (discRadius 50) = 2 * (waveOf 50 ^ 2 / 3) := by
  have hw : waveOf 50 < 6 := by
    unfold waveOf
    norm_num
  have h2 : discRadius 50 < 2 := by
    have h0 := disc_pos 50 (by norm_num)
    have hw0 : 0 < waveOf 50 := by
      unfold waveOf
      norm_num
    have hs := disc_sq 50 (by norm_num)
    have : discRadius 50 ^ 2 < 2 ^ 2 := by
      rw [hs, div_div, div_lt_iff₀ (by positivity)]
      nlinarith [Real.pi_gt_three]
    nlinarith
  refine ⟨h2, ?_⟩
  have := union_apart [(0, 0), (10, 0)] 50 (by norm_num) (by
    simp only [List.pairwise_cons, List.mem_singleton, forall_eq, List.not_mem_nil, false_imp_iff, implies_true, List.Pairwise.nil, and_true]
    rw [show ((0 : ℝ) - 10) ^ 2 + (0 - 0) ^ 2 = 10 ^ 2 by norm_num, Real.sqrt_sq (by norm_num)]
    linarith)
  simpa using this

end Verif.Instru
