import Verif.TF.PropsShift
import Verif.TF.Stokes

/-!
# Polarisation (properties C44 and C45)
-/

namespace Verif.TF

open Complex

noncomputable section

/-! ## Specification -/

/-- Stokes parameters of a sum of fields `(X, Y)`, from their definition. -/
structure StokesIQUV where
  i : ℝ
  q : ℝ
  u : ℝ
  v : ℝ

/-- Integrated power products of a list of fields: `X X*`, `Y Y*` and `X Y*`. -/
def powX (l : List (ℂ × ℂ)) : ℝ := (l.map fun e => normSq e.1).sum
/-- See `powX`. -/
def powY (l : List (ℂ × ℂ)) : ℝ := (l.map fun e => normSq e.2).sum
/-- See `powX`. -/
def crossXY (l : List (ℂ × ℂ)) : ℂ := (l.map fun e => e.1 * star e.2).sum

/-- Stokes parameters of a list of fields. -/
def stokesOf (l : List (ℂ × ℂ)) : StokesIQUV where
  i := powX l + powY l
  q := powX l - powY l
  u := 2 * (crossXY l).re
  v := -2 * (crossXY l).im

/-- What the receiver records (comments of tf_utils.py:2252-2255): `fft1 = (Xr Yr + Xi Yi, Xr Yi - Xi Yr)` integrated. -/
def recR (l : List (ℂ × ℂ)) : ℝ := (l.map fun e => e.1.re * e.2.re + e.1.im * e.2.im).sum
/-- See `recR`. -/
def recS (l : List (ℂ × ℂ)) : ℝ := (l.map fun e => e.1.re * e.2.im - e.1.im * e.2.re).sum

/-- A hermitian matrix. -/
def Hermitian (d : M2) : Prop := d.d00.im = 0 ∧ d.d11.im = 0 ∧ d.d10 = star d.d01

/-! ## Stokes parameters -/

theorem rec_cross (l : List (ℂ × ℂ)) : (crossXY l).re = recR l ∧ (crossXY l).im = -recS l := by
  induction l with
  | nil => simp [crossXY, recR, recS]
  | cons e l ih =>
    have h1 : crossXY (e :: l) = e.1 * star e.2 + crossXY l := by simp [crossXY]
    have h2 : recR (e :: l) = (e.1.re * e.2.re + e.1.im * e.2.im) + recR l := by simp [recR]
    have h3 : recS (e :: l) = (e.1.re * e.2.im - e.1.im * e.2.re) + recS l := by simp [recS]
    rw [h1, h2, h3, Complex.add_re, Complex.add_im, ih.1, ih.2]
    constructor
    · simp only [Complex.star_def, Complex.mul_re, Complex.conj_re, Complex.conj_im]; ring
    · simp only [Complex.star_def, Complex.mul_im, Complex.conj_re, Complex.conj_im]; ring

/-- **C44**: from the recorded products of any fields, the four parameters computed by the reader are the Stokes parameters
of the fields; the names are read without spaces or case. -/
theorem stokes_exact (l : List (ℂ × ℂ)) :
    computeStokes true (specMatrix (powX l) (powY l) (recR l) (recS l)) ["I", "q", " U", "V"]
      = .ok [some (stokesOf l).i, some (stokesOf l).q, some (stokesOf l).u, some (stokesOf l).v] := by
  have h := rec_cross l
  have e1 : stokesOne (specMatrix (powX l) (powY l) (recR l) (recS l)) (stokesName "I") = .ok (some (stokesOf l).i) := by
    rw [show stokesName "I" = "I".toList by decide]
    rfl
  have e2 : stokesOne (specMatrix (powX l) (powY l) (recR l) (recS l)) (stokesName "q") = .ok (some (stokesOf l).q) := by
    rw [show stokesName "q" = "Q".toList by decide]
    rfl
  have e3 : stokesOne (specMatrix (powX l) (powY l) (recR l) (recS l)) (stokesName " U") = .ok (some (stokesOf l).u) := by
    rw [show stokesName " U" = "U".toList by decide]
    show Except.ok (some (((recR l : ℂ) - I * (recS l : ℂ)).re * 2)) = _
    simp only [stokesOf, h.1]
    congr 2
    simp; ring
  have e4 : stokesOne (specMatrix (powX l) (powY l) (recR l) (recS l)) (stokesName "V") = .ok (some (stokesOf l).v) := by
    rw [show stokesName "V" = "V".toList by decide]
    show Except.ok (some (-((recR l : ℂ) - I * (recS l : ℂ)).im * 2)) = _
    simp only [stokesOf, h.2]
    congr 2
    simp; ring
  unfold computeStokes
  rw [if_neg (by simp)]
  simp only [List.mapM_cons, List.mapM_nil, e1, e2, e3, e4]
  rfl

/-- **C44**: the linear polarisation and the fractions are those of the Stokes parameters (no number when `I` is zero). -/
theorem stokes_fractions (l : List (ℂ × ℂ)) (hi : (stokesOf l).i ≠ 0) :
    computeStokes true (specMatrix (powX l) (powY l) (recR l) (recS l)) ["L", "Q/I", "U/I", "V/I", "L/I"]
      = .ok [some (Real.sqrt ((stokesOf l).q ^ 2 + (stokesOf l).u ^ 2)),
        some ((stokesOf l).q / (stokesOf l).i), some ((stokesOf l).u / (stokesOf l).i),
        some ((stokesOf l).v / (stokesOf l).i),
        some (Real.sqrt ((stokesOf l).q ^ 2 + (stokesOf l).u ^ 2) / (stokesOf l).i)] := by
  have h := rec_cross l
  have eu : (specMatrix (powX l) (powY l) (recR l) (recS l)).d01.re * 2 = (stokesOf l).u := by
    simp only [stokesOf, h.1, specMatrix]; simp; ring
  have ev : -(specMatrix (powX l) (powY l) (recR l) (recS l)).d01.im * 2 = (stokesOf l).v := by
    simp only [stokesOf, h.2, specMatrix]; simp; ring
  have eq : (specMatrix (powX l) (powY l) (recR l) (recS l)).d00.re
      - (specMatrix (powX l) (powY l) (recR l) (recS l)).d11.re = (stokesOf l).q := rfl
  have ei : (specMatrix (powX l) (powY l) (recR l) (recS l)).d00.re
      + (specMatrix (powX l) (powY l) (recR l) (recS l)).d11.re = (stokesOf l).i := rfl
  have hr : ∀ a, ratio a (stokesOf l).i = some (a / (stokesOf l).i) := by
    intro a; unfold ratio; rw [if_neg hi]
  generalize specMatrix (powX l) (powY l) (recR l) (recS l) = d at *
  have e1 : stokesOne d (stokesName "L") = .ok (some (Real.sqrt ((stokesOf l).q ^ 2 + (stokesOf l).u ^ 2))) := by
    rw [show stokesName "L" = "L".toList by decide, ← eq, ← eu]; rfl
  have e2 : stokesOne d (stokesName "Q/I") = .ok (some ((stokesOf l).q / (stokesOf l).i)) := by
    rw [show stokesName "Q/I" = "Q/I".toList by decide, ← hr, ← eq, ← ei]; rfl
  have e3 : stokesOne d (stokesName "U/I") = .ok (some ((stokesOf l).u / (stokesOf l).i)) := by
    rw [show stokesName "U/I" = "U/I".toList by decide, ← hr, ← eu, ← ei]; rfl
  have e4 : stokesOne d (stokesName "V/I") = .ok (some ((stokesOf l).v / (stokesOf l).i)) := by
    rw [show stokesName "V/I" = "V/I".toList by decide, ← hr, ← ev, ← ei]; rfl
  have e5 : stokesOne d (stokesName "L/I")
      = .ok (some (Real.sqrt ((stokesOf l).q ^ 2 + (stokesOf l).u ^ 2) / (stokesOf l).i)) := by
    rw [show stokesName "L/I" = "L/I".toList by decide, ← hr, ← eq, ← eu, ← ei]; rfl
  unfold computeStokes
  rw [if_neg (by simp)]
  simp only [List.mapM_cons, List.mapM_nil, e1, e2, e3, e4, e5]
  rfl

theorem cauchy (l : List (ℂ × ℂ)) :
    0 ≤ powX l ∧ 0 ≤ powY l ∧ (crossXY l).re ^ 2 + (crossXY l).im ^ 2 ≤ powX l * powY l := by
  induction l with
  | nil => simp [powX, powY, crossXY]
  | cons e l ih =>
    obtain ⟨ha, hb, hc⟩ := ih
    have h1 : crossXY (e :: l) = e.1 * star e.2 + crossXY l := by simp [crossXY]
    have h2 : powX (e :: l) = normSq e.1 + powX l := by simp [powX]
    have h3 : powY (e :: l) = normSq e.2 + powY l := by simp [powY]
    have ha' := normSq_nonneg e.1
    have hb' := normSq_nonneg e.2
    have hc' : (e.1 * star e.2).re ^ 2 + (e.1 * star e.2).im ^ 2 = normSq e.1 * normSq e.2 := by
      simp only [normSq_apply, Complex.star_def, Complex.mul_re, Complex.mul_im, Complex.conj_re, Complex.conj_im]
      ring
    rw [h1, h2, h3, Complex.add_re, Complex.add_im]
    generalize (e.1 * star e.2).re = c' at *
    generalize (e.1 * star e.2).im = d' at *
    generalize normSq e.1 = a' at *
    generalize normSq e.2 = b' at *
    generalize powX l = a at *
    generalize powY l = b at *
    generalize (crossXY l).re = c at *
    generalize (crossXY l).im = d at *
    refine ⟨by linarith, by linarith, ?_⟩
    have k1 : (c * c' + d * d') ^ 2 ≤ (c ^ 2 + d ^ 2) * (c' ^ 2 + d' ^ 2) := by nlinarith [sq_nonneg (c * d' - d * c')]
    have k2 : (c ^ 2 + d ^ 2) * (c' ^ 2 + d' ^ 2) ≤ (a * b) * (a' * b') := by
      rw [hc']
      exact mul_le_mul_of_nonneg_right hc (mul_nonneg ha' hb')
    have k3 : (2 * (c * c' + d * d')) ^ 2 ≤ (a * b' + a' * b) ^ 2 := by
      nlinarith [sq_nonneg (a * b' - a' * b)]
    have k4 : 2 * (c * c' + d * d') ≤ a * b' + a' * b :=
      le_of_abs_le (abs_le_of_sq_le_sq k3 (by positivity))
    nlinarith

/-- **C44**: `I² ≥ Q² + U² + V²` and `I ≥ 0`, whatever the fields integrated. -/
theorem stokes_inequality (l : List (ℂ × ℂ)) :
    (stokesOf l).q ^ 2 + (stokesOf l).u ^ 2 + (stokesOf l).v ^ 2 ≤ (stokesOf l).i ^ 2 ∧ 0 ≤ (stokesOf l).i := by
  obtain ⟨ha, hb, hc⟩ := cauchy l
  simp only [stokesOf]
  constructor
  · nlinarith
  · linarith

/-- **C44**: with equality for a single field (fully polarised wave). -/
theorem stokes_equality (x y : ℂ) :
    (stokesOf [(x, y)]).q ^ 2 + (stokesOf [(x, y)]).u ^ 2 + (stokesOf [(x, y)]).v ^ 2 = (stokesOf [(x, y)]).i ^ 2 := by
  simp only [stokesOf, powX, powY, crossXY, List.map_cons, List.map_nil, List.sum_cons, List.sum_nil, add_zero,
    normSq_apply, Complex.star_def, Complex.mul_re, Complex.mul_im, Complex.conj_re, Complex.conj_im]
  ring

example : (stokesOf [(1, I)]).i = 2 ∧ (stokesOf [(1, I)]).v = 2 := by
  constructor <;> norm_num [stokesOf, powX, powY, crossXY]

/-- The documented parameters. -/
def documented : List (List Char) := ["I", "Q", "U", "V", "L", "Q/I", "U/I", "V/I", "L/I"].map String.toList

theorem stokesOne_known (d : M2) (name : List Char) :
    (name ∈ documented → ∃ v, stokesOne d name = .ok v) ∧ (name ∉ documented → stokesOne d name = .error .notImplemented) := by
  constructor
  · intro h
    simp only [documented, List.map_cons, List.map_nil, List.mem_cons, List.not_mem_nil, or_false] at h
    rcases h with h | h | h | h | h | h | h | h | h <;> subst h <;> exact ⟨_, rfl⟩
  · intro h
    simp only [documented, List.map_cons, List.map_nil, List.mem_cons, List.not_mem_nil, or_false, not_or] at h
    obtain ⟨h1, h2, h3, h4, h5, h6, h7, h8, h9⟩ := h
    unfold stokesOne
    rw [if_neg h1, if_neg h2, if_neg h3, if_neg h4, if_neg h5, if_neg h6, if_neg h7, if_neg h8, if_neg h9]

/-- **C44**: a list of parameters is accepted exactly when all of them are documented, up to spaces and case; otherwise it is refused, and data which are not 2 × 2 matrices
too. -/
theorem stokes_refused (d : M2) (names : List String) :
    computeStokes false d names = .error .exception ∧
    ((∀ n ∈ names, stokesName n ∈ documented) → ∃ l, computeStokes true d names = .ok l ∧ l.length = names.length) ∧
    ((∃ n ∈ names, stokesName n ∉ documented) → computeStokes true d names = .error .notImplemented) := by
  have e : ∀ l : List String, computeStokes true d l = l.mapM fun n => stokesOne d (stokesName n) := fun l => by
    unfold computeStokes; rw [if_neg (by decide)]
  refine ⟨by unfold computeStokes; rw [if_pos rfl], ?_, ?_⟩
  · rw [e]
    induction names with
    | nil => intro _; exact ⟨[], rfl, rfl⟩
    | cons n l ih =>
      intro h
      obtain ⟨v, hv⟩ := (stokesOne_known d (stokesName n)).1 (h n List.mem_cons_self)
      obtain ⟨w, hw, hl⟩ := ih (fun m hm => h m (List.mem_cons_of_mem _ hm))
      exact ⟨v :: w, by rw [List.mapM_cons, hv, hw]; rfl, by rw [List.length_cons, List.length_cons, hl]⟩
  · rw [e]
    induction names with
    | nil => rintro ⟨n, hn, -⟩; nomatch hn
    | cons n l ih =>
      intro h
      rw [List.mapM_cons]
      by_cases hk : stokesName n ∈ documented
      · obtain ⟨v, hv⟩ := (stokesOne_known d (stokesName n)).1 hk
        obtain ⟨m, hm, hn⟩ := h
        rw [hv, ih ⟨m, (List.mem_cons.mp hm).resolve_left (fun e => hn (e ▸ hk)), hn⟩]
        rfl
      · rw [(stokesOne_known d (stokesName n)).2 hk]
        rfl

example : stokesName " u / i" ∈ documented ∧ stokesName "W" ∉ documented ∧ stokesName "" ∉ documented := by decide +kernel

/-- **C44**: the two time-frequency readers agree on the four parameters, from the same recorded products. -/
theorem stokes_readers_agree (p q r s : ℝ) (name : List Char) (v : ℝ) (h : stokesOld (ejones p q r s) name = .ok v) :
    stokesOne (specMatrix p q r s) (name.map Char.toUpper) = .ok (some v) := by
  unfold stokesOld at h
  split at h
  · rename_i hn; rw [hn]
    cases h; rfl
  · split at h
    · rename_i hn; rw [hn]
      cases h; rfl
    · split at h
      · rename_i hn; rw [hn]
        cases h
        show Except.ok (some (((r : ℂ) - I * (s : ℂ)).re * 2)) = Except.ok (some (((r : ℂ) + I * (s : ℂ)).re * 2))
        simp
      · split at h
        · rename_i hn; rw [hn]
          cases h
          show Except.ok (some (-((r : ℂ) - I * (s : ℂ)).im * 2)) = Except.ok (some (((r : ℂ) + I * (s : ℂ)).im * 2))
          simp
        · cases h

/-- **C44**, cross-correlations: `I`, `Q` and `U` are half the Stokes parameters of the fields. -/
theorem stokes_xst_partial (l : List (ℂ × ℂ)) :
    stokesXst (powX l) (crossXY l) (star (crossXY l)) (powY l) "I" = .ok (((stokesOf l).i / 2 : ℝ) : ℂ) ∧
    stokesXst (powX l) (crossXY l) (star (crossXY l)) (powY l) "Q" = .ok (((stokesOf l).q / 2 : ℝ) : ℂ) ∧
    stokesXst (powX l) (crossXY l) (star (crossXY l)) (powY l) "U" = .ok (((stokesOf l).u / 2 : ℝ) : ℂ) := by
  refine ⟨?_, ?_, ?_⟩
  · show Except.ok _ = _
    congr 1
    simp only [stokesOf]; push_cast; ring
  · show Except.ok _ = _
    congr 1
    simp only [stokesOf]; push_cast; ring
  · show Except.ok _ = _
    congr 1
    apply Complex.ext <;> simp [stokesOf]
    ring

/-- The sign of `V` is not the one of the time-frequency readers: for every field with circular polarisation the two differ. -/
theorem stokes_xst_sign_violated (l : List (ℂ × ℂ)) :
    stokesXst (powX l) (crossXY l) (star (crossXY l)) (powY l) "V" = .ok ((-((stokesOf l).v / 2) : ℝ) : ℂ) ∧
    ((stokesOf l).v ≠ 0 → stokesXst (powX l) (crossXY l) (star (crossXY l)) (powY l) "V" ≠ .ok (((stokesOf l).v / 2 : ℝ) : ℂ)) := by
  have e : stokesXst (powX l) (crossXY l) (star (crossXY l)) (powY l) "V" = .ok ((-((stokesOf l).v / 2) : ℝ) : ℂ) := by
    show Except.ok _ = _
    congr 1
    apply Complex.ext <;> simp [stokesOf]
    ring
  refine ⟨e, fun h c => h ?_⟩
  rw [e] at c
  injection c with c
  have := Complex.ofReal_injective c
  linarith

/-! ## Faraday rotation -/

theorem rot_neg (a : ℝ) : (rotMatrix a).transpose = rotMatrix (-a) := by
  unfold rotMatrix M2.transpose
  ext <;> simp

theorem cs (a : ℝ) : (Real.cos a : ℂ) ^ 2 + (Real.sin a : ℂ) ^ 2 = 1 := by
  have := Real.cos_sq_add_sin_sq a
  exact_mod_cast congrArg (Complex.ofReal) this

/-- Rotation of coherency data by an angle. -/
def rotate (a : ℝ) (d : M2) : M2 := ((rotMatrix a).mul d).mul (rotMatrix a).transpose

theorem deFaraday_rotate (rm w : ℝ) (d : M2) : deFaraday rm w d = rotate (-(rm * w ^ 2)) d := by
  unfold deFaraday rotate
  have : faradayAngle rm w true = -(rm * w ^ 2) := by unfold faradayAngle; simp
  rw [this]

theorem rotate_elems (a : ℝ) (d : M2) :
    (rotate a d).d00 = Real.cos a ^ 2 * d.d00 - Real.cos a * Real.sin a * (d.d01 + d.d10) + Real.sin a ^ 2 * d.d11 ∧
    (rotate a d).d01 = Real.cos a * Real.sin a * (d.d00 - d.d11) + Real.cos a ^ 2 * d.d01 - Real.sin a ^ 2 * d.d10 ∧
    (rotate a d).d10 = Real.cos a * Real.sin a * (d.d00 - d.d11) + Real.cos a ^ 2 * d.d10 - Real.sin a ^ 2 * d.d01 ∧
    (rotate a d).d11 = Real.sin a ^ 2 * d.d00 + Real.cos a * Real.sin a * (d.d01 + d.d10) + Real.cos a ^ 2 * d.d11 := by
  unfold rotate M2.mul M2.transpose rotMatrix
  refine ⟨?_, ?_, ?_, ?_⟩ <;> simp only [] <;> ring

/-- **C45**: rotating by `a` then `b` is rotating by the sum. -/
theorem rotate_add (a b : ℝ) (d : M2) : rotate a (rotate b d) = rotate (a + b) d := by
  obtain ⟨h1, h2, h3, h4⟩ := rotate_elems a (rotate b d)
  obtain ⟨k1, k2, k3, k4⟩ := rotate_elems b d
  obtain ⟨l1, l2, l3, l4⟩ := rotate_elems (a + b) d
  have hc : ((Real.cos (a + b) : ℝ) : ℂ) = Real.cos a * Real.cos b - Real.sin a * Real.sin b := by
    rw [Real.cos_add]; push_cast; ring
  have hs : ((Real.sin (a + b) : ℝ) : ℂ) = Real.sin a * Real.cos b + Real.cos a * Real.sin b := by
    rw [Real.sin_add]; push_cast; ring
  rw [hc, hs] at l1 l2 l3 l4
  ext
  · rw [h1, l1, k1, k2, k3, k4]; ring
  · rw [h2, l2, k1, k2, k3, k4]; ring
  · rw [h3, l3, k1, k2, k3, k4]; ring
  · rw [h4, l4, k1, k2, k3, k4]; ring

theorem rotate_zero (d : M2) : rotate 0 d = d := by
  obtain ⟨h1, h2, h3, h4⟩ := rotate_elems 0 d
  ext
  · rw [h1]; simp
  · rw [h2]; simp
  · rw [h3]; simp
  · rw [h4]; simp

/-- **C45**: de-rotating with the opposite rotation measure undoes it. -/
theorem faraday_undo (rm w : ℝ) (d : M2) : deFaraday (-rm) w (deFaraday rm w d) = d := by
  rw [deFaraday_rotate, deFaraday_rotate, rotate_add]
  have : -(-rm * w ^ 2) + -(rm * w ^ 2) = 0 := by ring
  rw [this, rotate_zero]

/-- **C45**: the data of a wave whose field has been rotated by the angle `RM λ²` are restored. -/
theorem faraday_restores (rm w : ℝ) (d : M2) : deFaraday rm w (rotate (faradayAngle rm w false) d) = d := by
  rw [deFaraday_rotate, rotate_add]
  have : -(rm * w ^ 2) + faradayAngle rm w false = 0 := by unfold faradayAngle; simp
  rw [this, rotate_zero]

/-- Rotation of the coherency of one field is the coherency of the rotated field. -/
theorem rotate_field (a : ℝ) (x y : ℂ) :
    rotate a ⟨x * star x, x * star y, y * star x, y * star y⟩ =
      (let x' := Real.cos a * x - Real.sin a * y
       let y' := Real.sin a * x + Real.cos a * y
       ⟨x' * star x', x' * star y', y' * star x', y' * star y'⟩) := by
  obtain ⟨h1, h2, h3, h4⟩ := rotate_elems a ⟨x * star x, x * star y, y * star x, y * star y⟩
  have sx : star ((Real.cos a : ℂ) * x - Real.sin a * y) = Real.cos a * star x - Real.sin a * star y := by
    simp only [Complex.star_def, map_sub, map_mul, Complex.conj_ofReal]
  have sy : star ((Real.sin a : ℂ) * x + Real.cos a * y) = Real.sin a * star x + Real.cos a * star y := by
    simp only [Complex.star_def, map_add, map_mul, Complex.conj_ofReal]
  dsimp only
  rw [sx, sy]
  ext
  · rw [h1]; dsimp only; ring
  · rw [h2]; dsimp only; ring
  · rw [h3]; dsimp only; ring
  · rw [h4]; dsimp only; ring

/-- Stokes parameters as the reader computes them. -/
def readI (d : M2) : ℝ := d.d00.re + d.d11.re
/-- See `readI`. -/
def readQ (d : M2) : ℝ := d.d00.re - d.d11.re
/-- See `readI`. -/
def readU (d : M2) : ℝ := d.d01.re * 2
/-- See `readI`. -/
def readV (d : M2) : ℝ := -d.d01.im * 2

theorem read_names (d : M2) :
    computeStokes true d ["I", "Q", "U", "V"] = .ok [some (readI d), some (readQ d), some (readU d), some (readV d)] := by
  have e1 : stokesOne d (stokesName "I") = .ok (some (readI d)) := by
    rw [show stokesName "I" = "I".toList by decide]; rfl
  have e2 : stokesOne d (stokesName "Q") = .ok (some (readQ d)) := by
    rw [show stokesName "Q" = "Q".toList by decide]; rfl
  have e3 : stokesOne d (stokesName "U") = .ok (some (readU d)) := by
    rw [show stokesName "U" = "U".toList by decide]; rfl
  have e4 : stokesOne d (stokesName "V") = .ok (some (readV d)) := by
    rw [show stokesName "V" = "V".toList by decide]; rfl
  unfold computeStokes
  rw [if_neg (by simp)]
  simp only [List.mapM_cons, List.mapM_nil, e1, e2, e3, e4]
  rfl

/-- **C45**: a rotation of hermitian data preserves `I` and `V` and turns `(Q, U)` by twice the angle. -/
theorem rotate_stokes (a : ℝ) (d : M2) (hd : Hermitian d) :
    readI (rotate a d) = readI d ∧ readV (rotate a d) = readV d ∧
    readQ (rotate a d) = Real.cos (2 * a) * readQ d - Real.sin (2 * a) * readU d ∧
    readU (rotate a d) = Real.sin (2 * a) * readQ d + Real.cos (2 * a) * readU d := by
  obtain ⟨h1, h2, h3, h4⟩ := rotate_elems a d
  obtain ⟨g1, g2, g3⟩ := hd
  have r10 : d.d10.re = d.d01.re := by rw [g3]; simp
  have i10 : d.d10.im = -d.d01.im := by rw [g3]; simp
  have hsq := Real.cos_sq_add_sin_sq a
  have hc2 := Real.cos_two_mul a
  have hs2 := Real.sin_two_mul a
  have hp : ∀ x : ℝ, ((x : ℂ) ^ 2) = ((x ^ 2 : ℝ) : ℂ) := by intro x; push_cast; ring
  have hm : ∀ x y : ℝ, ((x : ℂ) * (y : ℂ)) = ((x * y : ℝ) : ℂ) := by intro x y; push_cast; ring
  simp only [hp, hm] at h1 h2 h3 h4
  unfold readI readV readQ readU
  rw [h1, h2, h4]
  simp only [Complex.add_re, Complex.sub_re, Complex.re_ofReal_mul, Complex.im_ofReal_mul, Complex.add_im, Complex.sub_im,
    r10, i10, g1, g2, hc2, hs2]
  refine ⟨?_, ?_, ?_, ?_⟩
  · linear_combination (d.d00.re + d.d11.re) * hsq
  · linear_combination (-2 * d.d01.im) * hsq
  · linear_combination (d.d11.re - d.d00.re) * hsq
  · linear_combination (-2 * d.d01.re) * hsq

/-- **C45**: de-rotation preserves `I` and `V` and turns `(Q, U)` by `-2 RM λ²`. -/
theorem faraday_stokes (rm w : ℝ) (d : M2) (hd : Hermitian d) :
    readI (deFaraday rm w d) = readI d ∧ readV (deFaraday rm w d) = readV d ∧
    readQ (deFaraday rm w d) = Real.cos (2 * (rm * w ^ 2)) * readQ d + Real.sin (2 * (rm * w ^ 2)) * readU d ∧
    readU (deFaraday rm w d) = -Real.sin (2 * (rm * w ^ 2)) * readQ d + Real.cos (2 * (rm * w ^ 2)) * readU d := by
  rw [deFaraday_rotate]
  obtain ⟨h1, h2, h3, h4⟩ := rotate_stokes (-(rm * w ^ 2)) d hd
  have e : 2 * -(rm * w ^ 2) = -(2 * (rm * w ^ 2)) := by ring
  rw [e, Real.cos_neg, Real.sin_neg] at h3 h4
  exact ⟨h1, h2, by rw [h3]; ring, by rw [h4]⟩

/-- Recorded data are hermitian, with both readers. -/
theorem recorded_hermitian (p q r s : ℝ) : Hermitian (specMatrix p q r s) ∧ Hermitian (ejones p q r s) := by
  refine ⟨⟨?_, ?_, ?_⟩, ⟨?_, ?_, ?_⟩⟩
  · simp [specMatrix]
  · simp [specMatrix]
  · simp only [specMatrix, Complex.star_def, map_sub, map_mul, Complex.conj_ofReal, Complex.conj_I]; ring
  · simp [ejones]
  · simp [ejones]
  · simp only [ejones, Complex.star_def, map_add, map_mul, Complex.conj_ofReal, Complex.conj_I]; ring

/-- **C45**: both readers de-rotate in the same way. -/
theorem faraday_readers_agree (rm w p q r s : ℝ) :
    readI (deFaradayOld rm w (ejones p q r s)) = readI (deFaraday rm w (specMatrix p q r s)) ∧
    readQ (deFaradayOld rm w (ejones p q r s)) = readQ (deFaraday rm w (specMatrix p q r s)) ∧
    readU (deFaradayOld rm w (ejones p q r s)) = readU (deFaraday rm w (specMatrix p q r s)) ∧
    -readV (deFaradayOld rm w (ejones p q r s)) = readV (deFaraday rm w (specMatrix p q r s)) := by
  have e : ∀ d, deFaradayOld rm w d = deFaraday rm w d := by
    intro d
    unfold deFaradayOld deFaraday rotMatrix M2.transpose
    rfl
  rw [e]
  obtain ⟨a1, a2, a3, a4⟩ := faraday_stokes rm w _ (recorded_hermitian p q r s).2
  obtain ⟨b1, b2, b3, b4⟩ := faraday_stokes rm w _ (recorded_hermitian p q r s).1
  have c1 : readI (ejones p q r s) = readI (specMatrix p q r s) := rfl
  have c2 : readQ (ejones p q r s) = readQ (specMatrix p q r s) := rfl
  have c3 : readU (ejones p q r s) = readU (specMatrix p q r s) := by simp [readU, ejones, specMatrix]
  have c4 : -readV (ejones p q r s) = readV (specMatrix p q r s) := by simp [readV, ejones, specMatrix]
  rw [a1, a2, a3, a4, b1, b2, b3, b4, c1, c2, c3, c4]
  exact ⟨rfl, rfl, rfl, rfl⟩

/-- On data which are not hermitian, the `V` that is read is not preserved. -/
theorem faraday_nonhermitian_violated : ∃ (rm w : ℝ) (d : M2), readV (deFaraday rm w d) ≠ readV d := by
  refine ⟨Real.pi / 2, 1, ⟨0, I, 0, 0⟩, ?_⟩
  rw [deFaraday_rotate]
  obtain ⟨h1, h2, h3, h4⟩ := rotate_elems (-(Real.pi / 2 * 1 ^ 2)) ⟨0, I, 0, 0⟩
  unfold readV
  rw [h2]
  have e : -(Real.pi / 2 * 1 ^ 2) = -(Real.pi / 2) := by ring
  rw [e, Real.cos_neg, Real.cos_pi_div_two]
  simp

/-- Wrong shapes are refused. -/
theorem faraday_dims (shape : List Nat) (n : Nat) : faradayDims shape n = .ok () ↔ ∃ t, shape = [t, n, 2, 2] := by
  unfold faradayDims
  constructor
  · intro h
    split at h
    · cases h
    · rename_i hc
      push Not at hc
      obtain ⟨t, l, rfl⟩ : ∃ t l, shape = t :: l := by
        cases shape with
        | nil => simp at hc
        | cons t l => exact ⟨t, l, rfl⟩
      refine ⟨t, ?_⟩
      rw [← hc.2]; rfl
  · rintro ⟨t, rfl⟩
    rw [if_neg]
    push Not
    exact ⟨rfl, rfl⟩

/-- The parallactic correction preserves `I` and `V` too. -/
theorem parallactic_stokes (a : ℝ) (d : M2) (hd : Hermitian d) :
    readI (applyJones (parallacticJones a) d) = readI d ∧ readV (applyJones (parallacticJones a) d) = readV d := by
  have e : applyJones (parallacticJones a) d = rotate (-a) d := by
    obtain ⟨h1, h2, h3, h4⟩ := rotate_elems (-a) d
    rw [Real.cos_neg, Real.sin_neg] at h1 h2 h3 h4
    push_cast at h1 h2 h3 h4
    unfold applyJones parallacticJones rotMatrix M2.transpose M2.mul
    ext
    · rw [h1]; simp only [Complex.star_def, Complex.conj_ofReal]; push_cast; ring
    · rw [h2]; simp only [Complex.star_def, map_neg, Complex.conj_ofReal]; push_cast; ring
    · rw [h3]; simp only [Complex.star_def, Complex.conj_ofReal]; push_cast; ring
    · rw [h4]; simp only [Complex.star_def, map_neg, Complex.conj_ofReal]; push_cast; ring
  rw [e]
  exact ⟨(rotate_stokes _ d hd).1, (rotate_stokes _ d hd).2.1⟩

end

/-- The groups of time samples cover the data: `m` groups of `g` samples, and fewer than `g` samples left over. -/
theorem time_groups_cover (n : Nat) (dt step : ℚ) (m g r : Nat) (h : timeGroups n dt step = .ok (m, g, r)) (h0 : 0 < n) :
    m * g + r = n ∧ r < g ∧ 0 < m := by
  unfold timeGroups at h
  dsimp only at h
  split at h
  · cases h
  · rename_i hg
    split at h
    · simp only [Except.ok.injEq, Prod.mk.injEq] at h
      obtain ⟨rfl, rfl, rfl⟩ := h
      omega
    · rename_i hm
      simp only [Except.ok.injEq, Prod.mk.injEq] at h
      obtain ⟨rfl, rfl, rfl⟩ := h
      exact ⟨Nat.div_add_mod' _ _, Nat.mod_lt _ (by omega), Nat.pos_of_ne_zero hm⟩

/-- Every sample is corrected with the matrix of the start of its group; samples left over with the matrix of the end of the last group. -/
theorem parallactic_rank (n : Nat) (dt step : ℚ) (m g r t : Nat) (h : timeGroups n dt step = .ok (m, g, r)) (h0 : 0 < n)
    (ht : t < n) :
    parallacticRank (m, g, r) n t * g ≤ t ∧ t < (parallacticRank (m, g, r) n t + 1) * g ∧
      parallacticRank (m, g, r) n t < m + 1 := by
  obtain ⟨h1, h2, h3⟩ := time_groups_cover n dt step m g r h h0
  unfold parallacticRank
  dsimp only
  split
  · rename_i hlt
    have hg : 0 < g := by omega
    refine ⟨Nat.div_mul_le_self _ _, ?_, ?_⟩
    · have := Nat.div_add_mod' t g
      have := Nat.mod_lt t hg
      rw [Nat.add_mul, Nat.one_mul]; omega
    · have : t / g < m := (Nat.div_lt_iff_lt_mul hg).mpr (by omega)
      omega
  · rename_i hge
    refine ⟨by omega, ?_, by omega⟩
    rw [Nat.add_mul, Nat.one_mul]; omega

example : timeGroups 10 1 3 = .ok (3, 3, 1) := by
  unfold timeGroups
  rw [show (rint (3 / 1)).toNat = 3 by decide +kernel]
  rfl

/-- A time step of less than half a sample is not handled: division by zero. -/
theorem time_groups_violated (n : Nat) (dt step : ℚ) (h0 : 0 < dt) (h1 : 0 ≤ step) (h2 : step < dt / 2) : timeGroups n dt step = .error .zeroDivision := by
  have h3 : 0 ≤ step / dt := div_nonneg h1 h0.le
  have h4 : step / dt < 1 / 2 := by rw [div_lt_iff₀ h0]; linarith
  have h5 := abs_le.1 (rint_near (step / dt))
  have h6 : (rint (step / dt) : ℚ) < 1 := by linarith
  have h7 : rint (step / dt) < 1 := by exact_mod_cast h6
  unfold timeGroups
  rw [show (rint (step / dt)).toNat = 0 by omega]
  rfl

example : timeGroups 10 1 (1 / 4) = .error .zeroDivision := time_groups_violated 10 1 (1 / 4) (by norm_num) (by norm_num) (by norm_num)

end Verif.TF
