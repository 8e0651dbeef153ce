import Verif.IO.PropsImaging

/-!
# C127: how much of a source is left at its own direction when baselines turn during the exposure
-/

namespace Verif.IO

/-- Mean over the times of a baseline of the cosine of the phase left: that of the source at this time less that of the mean baseline. -/
noncomputable def coherence (nt : Nat) (U : Nat → Nat → Nat → ℝ × ℝ × ℝ) (s : ℝ × ℝ × ℝ) (wvl : ℝ) (p : Nat × Nat) : ℝ :=
  ((List.range nt).map fun t : Nat => Real.cos (2 * Real.pi *
    ((pathTo (U t p.1 p.2) s - ((List.range nt).map fun t : Nat => pathTo (U t p.1 p.2) s).sum / nt) / wvl))).sum / nt

theorem sum_eq_iff {α : Type} (l : List α) (v w : α → ℝ) (h : ∀ x ∈ l, v x ≤ w x) :
    (l.map v).sum ≤ (l.map w).sum ∧ ((l.map v).sum = (l.map w).sum ↔ ∀ x ∈ l, v x = w x) := by
  induction l with
  | nil => simp
  | cons a t ih =>
    obtain ⟨h1, h2⟩ := ih fun x hx => h x (List.mem_cons_of_mem _ hx)
    have ha := h a (List.mem_cons_self ..)
    simp only [List.map_cons, List.sum_cons, List.forall_mem_cons]
    refine ⟨by linarith, fun e => ⟨by linarith, h2.1 (by linarith)⟩, fun ⟨e1, e2⟩ => by rw [e1, h2.2 e2]⟩

theorem coherence_le (nt : Nat) (hnt : 0 < nt) (U : Nat → Nat → Nat → ℝ × ℝ × ℝ) (s : ℝ × ℝ × ℝ) (wvl : ℝ) (p : Nat × Nat) :
    coherence nt U s wvl p ≤ 1 ∧ (coherence nt U s wvl p = 1 ↔ ∀ t < nt, Real.cos (2 * Real.pi *
      ((pathTo (U t p.1 p.2) s - ((List.range nt).map fun t : Nat => pathTo (U t p.1 p.2) s).sum / nt) / wvl)) = 1) := by
  have hn : (0 : ℝ) < nt := by exact_mod_cast hnt
  have hs : ((List.range nt).map fun _ : Nat => (1 : ℝ)).sum = nt := by simp
  have h := sum_eq_iff (List.range nt) (fun t : Nat => Real.cos (2 * Real.pi *
    ((pathTo (U t p.1 p.2) s - ((List.range nt).map fun t : Nat => pathTo (U t p.1 p.2) s).sum / nt) / wvl))) (fun _ => 1) fun _ _ => Real.cos_le_one _
  rw [hs] at h
  unfold coherence
  rw [div_le_one hn, div_eq_one_iff_eq hn.ne', h.2]
  exact ⟨h.1, by simp only [List.mem_range]⟩

theorem re_sum (l : List ℂ) : l.sum.re = (l.map Complex.re).sum := by
  induction l with
  | nil => rfl
  | cons a t ih => rw [List.sum_cons, Complex.add_re, ih]; rfl

theorem term_coherence (nt : Nat) (wvls : List ℝ) (U : Nat → Nat → Nat → ℝ × ℝ × ℝ) (s : ℝ × ℝ × ℝ) (a : Nat → ℝ) (p : Nat × Nat) :
    imageTerm nt wvls (pointSource wvls U s a) U s p =
      ((List.range wvls.length).map fun f : Nat => a f * coherence nt U s (wvls.getD f 0) p).sum / wvls.length := by
  unfold imageTerm
  rw [← Complex.ofReal_natCast, Complex.div_ofReal_re, re_sum, List.map_map]
  congr 2
  refine List.map_congr_left fun f _ => ?_
  unfold averaged coherence
  show (_ / (nt : ℂ) * _).re = _
  generalize ((List.range nt).map fun t : Nat => pathTo (U t p.1 p.2) s).sum / nt = m
  rw [div_mul_eq_mul_div, ← Complex.ofReal_natCast, Complex.div_ofReal_re, ← mul_div_assoc]
  congr 1
  induction List.range nt with
  | nil => simp
  | cons t l ih =>
    simp only [List.map_cons, List.sum_cons, add_mul, Complex.add_re, mul_add]
    rw [ih]
    congr 1
    show ((a f : ℂ) * Complex.exp (2 * Complex.I * Real.pi * ((pathTo (U t p.1 p.2) s / wvls.getD f 0 : ℝ))) * _).re = _
    rw [mul_assoc, ← Complex.exp_add, Complex.re_ofReal_mul]
    congr 1
    rw [show 2 * Complex.I * (Real.pi : ℂ) * ((pathTo (U t p.1 p.2) s / wvls.getD f 0 : ℝ) : ℂ) + -(2 * Complex.I * (Real.pi : ℂ) * ((m / wvls.getD f 0 : ℝ) : ℂ)) =
      ((2 * Real.pi * ((pathTo (U t p.1 p.2) s - m) / wvls.getD f 0) : ℝ) : ℂ) * Complex.I by push_cast; ring, Complex.exp_ofReal_mul_I_re]

/-- C127. What is left of a source at its own direction, for all motions of the baselines: each baseline keeps the mean cosine of the phases
with respect to those of its mean. -/
theorem image_smeared_exact (nt n : Nat) (hnt : 0 < nt) (hn : 2 ≤ n) (wvls : List ℝ) (hw : wvls ≠ []) (U : Nat → Nat → Nat → ℝ × ℝ × ℝ) (s : ℝ × ℝ × ℝ)
    (a : Nat → ℝ) : dirtyAt n nt wvls (cubeOf nt wvls.length n (pointSource wvls U s a)) (fun t => byPair n (U t)) s =
      some (((pairsOf n).map fun p : Nat × Nat => ((List.range wvls.length).map fun f : Nat => a f * coherence nt U s (wvls.getD f 0) p).sum / wvls.length).sum /
        (pairsOf n).length) := by
  classical
  have hfil : ((pairsOf n).filter fun p => decide (Whole nt wvls.length (pointSource wvls U s a) p)) = pairsOf n := by
    rw [List.filter_eq_self]
    exact fun p _ => decide_eq_true fun t _ f _ => rfl
  have hne : pairsOf n ≠ [] := List.ne_nil_of_mem (mem_pairs.2 (show ((1, 0) : Nat × Nat).2 < ((1, 0) : Nat × Nat).1 ∧ ((1, 0) : Nat × Nat).1 < n from ⟨by norm_num, by dsimp only; omega⟩))
  rw [dirty_exact nt n hnt wvls hw, hfil]
  unfold meanOver
  rw [if_neg hne]
  rw [show imageTerm nt wvls (pointSource wvls U s a) U s = _ from funext fun p => term_coherence nt wvls U s a p]

/-- C127 (violated). As soon as one baseline has, at one time and frequency, another phase towards the source than its mean has (not by whole turns), the source is fainter
than its power at its own direction; it has its power exactly when no baseline has. -/
theorem image_smeared_all_violated (nt n : Nat) (hnt : 0 < nt) (hn : 2 ≤ n) (wvls : List ℝ) (hw : wvls ≠ []) (U : Nat → Nat → Nat → ℝ × ℝ × ℝ) (s : ℝ × ℝ × ℝ)
    (a : Nat → ℝ) (ha : ∀ f, 0 < a f) : ∃ v, dirtyAt n nt wvls (cubeOf nt wvls.length n (pointSource wvls U s a)) (fun t => byPair n (U t)) s = some v ∧
      v ≤ ((List.range wvls.length).map a).sum / wvls.length ∧
      (v = ((List.range wvls.length).map a).sum / wvls.length ↔ ∀ k l, l < k → k < n → ∀ f < wvls.length, ∀ t < nt, Real.cos (2 * Real.pi *
        ((pathTo (U t k l) s - ((List.range nt).map fun t : Nat => pathTo (U t k l) s).sum / nt) / wvls.getD f 0)) = 1) := by
  refine ⟨_, image_smeared_exact nt n hnt hn wvls hw U s a, ?_⟩
  have hne : pairsOf n ≠ [] := List.ne_nil_of_mem (mem_pairs.2 (show ((1, 0) : Nat × Nat).2 < ((1, 0) : Nat × Nat).1 ∧ ((1, 0) : Nat × Nat).1 < n from ⟨by norm_num, by dsimp only; omega⟩))
  have hnp : (0 : ℝ) < (pairsOf n).length := by exact_mod_cast List.length_pos_iff.2 hne
  have hnf : (0 : ℝ) < wvls.length := by exact_mod_cast List.length_pos_iff.2 hw
  have h1 : ∀ p : Nat × Nat, ((List.range wvls.length).map fun f : Nat => a f * coherence nt U s (wvls.getD f 0) p).sum / wvls.length ≤ ((List.range wvls.length).map a).sum / wvls.length ∧
      (((List.range wvls.length).map fun f : Nat => a f * coherence nt U s (wvls.getD f 0) p).sum / wvls.length = ((List.range wvls.length).map a).sum / wvls.length ↔
        ∀ f ∈ List.range wvls.length, a f * coherence nt U s (wvls.getD f 0) p = a f) := by
    intro p
    have h := sum_eq_iff (List.range wvls.length) (fun f : Nat => a f * coherence nt U s (wvls.getD f 0) p) a
      fun f _ => by
        have := mul_le_mul_of_nonneg_left (coherence_le nt hnt U s (wvls.getD f 0) p).1 (ha f).le
        linarith
    rw [div_left_inj' hnf.ne', h.2]
    exact ⟨div_le_div_of_nonneg_right h.1 hnf.le, Iff.rfl⟩
  have h2 := sum_eq_iff (pairsOf n) (fun p : Nat × Nat => ((List.range wvls.length).map fun f : Nat => a f * coherence nt U s (wvls.getD f 0) p).sum / wvls.length)
    (fun _ => ((List.range wvls.length).map a).sum / wvls.length) fun p _ => (h1 p).1
  rw [List.map_const', List.sum_replicate, nsmul_eq_mul] at h2
  rw [div_le_iff₀ hnp, div_eq_iff hnp.ne', mul_comm (((List.range wvls.length).map a).sum / (wvls.length : ℝ))]
  refine ⟨h2.1, h2.2.trans ?_⟩
  constructor
  · intro h k l hl hk f hf t ht
    have h3 := (h1 (k, l)).2.1 (h (k, l) (mem_pairs.2 ⟨hl, hk⟩)) f (List.mem_range.2 hf)
    exact (coherence_le nt hnt U s (wvls.getD f 0) (k, l)).2.1 (mul_left_cancel₀ (ha f).ne' (by rw [h3, mul_one])) t ht
  · intro h p hp
    obtain ⟨k, l⟩ := p
    obtain ⟨hl, hk⟩ := mem_pairs.1 hp
    refine (h1 (k, l)).2.2 fun f hf => ?_
    rw [(coherence_le nt hnt U s (wvls.getD f 0) (k, l)).2.2 fun t ht => h k l hl hk f (List.mem_range.1 hf) t ht, mul_one]

/-- Baselines which turn by a little are enough. -/
example : ∃ (U : Nat → Nat → Nat → ℝ × ℝ × ℝ) (s : ℝ × ℝ × ℝ), Real.cos (2 * Real.pi *
    ((pathTo (U 0 1 0) s - ((List.range 2).map fun t : Nat => pathTo (U t 1 0) s).sum / (2 : Nat)) / ([4] : List ℝ).getD 0 0)) ≠ 1 := by
  refine ⟨fun t _ _ => if t = 0 then (4, 0, 0) else (2, 0, 0), (1 / 2, 0, 0), ?_⟩
  have e : (2 * Real.pi * ((pathTo ((fun t _ _ => if t = 0 then (4, 0, 0) else (2, 0, 0) : Nat → Nat → Nat → ℝ × ℝ × ℝ) 0 1 0) (1 / 2, 0, 0) -
      ((List.range 2).map fun t : Nat => pathTo ((fun t _ _ => if t = 0 then (4, 0, 0) else (2, 0, 0) : Nat → Nat → Nat → ℝ × ℝ × ℝ) t 1 0) (1 / 2, 0, 0)).sum / (2 : Nat)) /
      ([4] : List ℝ).getD 0 0)) = Real.pi / 4 := by
    simp [pathTo, List.range_succ]
    ring
  rw [e, Real.cos_pi_div_four]
  intro h
  have : Real.sqrt 2 = 2 := by linarith
  have h4 := Real.sq_sqrt (show (0 : ℝ) ≤ 2 by norm_num)
  rw [this] at h4
  norm_num at h4

end Verif.IO
