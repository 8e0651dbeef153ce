import Verif.TF.PropsRun
import Mathlib.Tactic.Ring

/-!
# C80: tasks placed after an average use the recorded steps
-/

namespace Verif.TF

/-- **C80**, violated in general: a de-dispersion placed after an average of `w` samples in time moves a channel whose delay is `d` by a time which is
wrong by at least `(w - 1) d`, less half of a sample, whatever the data and the dispersion measure. -/
theorem dedisperse_after_violated (big : Frame → Bool) (p : RunPars) (x dm : ℚ) (hx : p.rebinDt = some x) (hm : p.dm = some dm) (hdt : 0 < p.dt) (hle : p.dt ≤ x)
    (fr : Frame) (h1 : fr.rows = fr.nt) (h2 : fr.cols = fr.nf) (h3 : 0 < fr.nf) (h4 : ⌊x / p.dt⌋.toNat ≤ fr.nt) (w : Nat) (hw : w = ⌊x / p.dt⌋.toNat)
    (hb : ∀ g, big g = false) :
    (∃ r, runAll big p [.timeRebin, .dedisperse] fr = .ok r ∧ r.tBin = fr.tBin * w) ∧
    ∀ f fref d : ℚ, d = dispDelay f dm - dispDelay fref dm →
      (w - 1) * d - w * p.dt / 2 ≤ |(cellDelay f fref dm p.dt : ℚ) * (w * p.dt) - d| := by
  constructor
  · have h := rebin_twice_violated big p x hx hdt hle 1 fr h1 (by simpa using h4)
    rw [List.replicate_one, pow_one, ← hw] at h
    have h' : runTask big p .timeRebin fr = .ok { fr with nt := fr.nt / w, rows := fr.nt / w, tBin := fr.tBin * w } := by
      cases hr : runTask big p .timeRebin fr with
      | error e =>
        have : runAll big p [.timeRebin] fr = .error e := by
          show (runTask big p .timeRebin fr).bind _ = _
          rw [hr]; rfl
        rw [this] at h; cases h
      | ok y =>
        have : runAll big p [.timeRebin] fr = .ok y := by
          show (runTask big p .timeRebin fr).bind _ = _
          rw [hr]; rfl
        rw [this] at h; exact h
    refine ⟨{ fr with nt := fr.nt / w, rows := fr.nt / w, tBin := fr.tBin * w }, ?_, rfl⟩
    show (runTask big p .timeRebin fr).bind _ = _
    rw [h']
    show (runTask big p .dedisperse _).bind _ = _
    generalize hfr : ({ fr with nt := fr.nt / w, rows := fr.nt / w, tBin := fr.tBin * w } : Frame) = g
    have hg1 : g.cols = g.nf := by rw [← hfr]; exact h2
    have hg2 : g.nf ≠ 0 := by rw [← hfr]; exact h3.ne'
    have : runTask big p .dedisperse g = .ok g := by
      unfold runTask
      rw [if_neg (by show ¬ (p.dm.isNone || (big g && _)) = true; rw [hm, hb g]; simp)]
      show dedisperseShape g = _
      unfold dedisperseShape
      rw [if_neg (not_not.2 hg1), if_neg hg2]
    rw [this]
    rfl
  · intro f fref d hd
    have h := cell_delay_near f fref dm p.dt hdt
    rw [← hd] at h
    generalize (cellDelay f fref dm p.dt : ℚ) = c at h ⊢
    have hw0 : (0 : ℚ) ≤ w := Nat.cast_nonneg w
    have h5 := (abs_le.1 h).1
    have h6 : (w : ℚ) * (-(p.dt / 2)) ≤ w * (c * p.dt - d) := mul_le_mul_of_nonneg_left h5 hw0
    refine le_trans ?_ (le_abs_self _)
    linarith

/-- **C80**, violated in general: when channels were averaged by `w` before, the sample which holds the first channel of sub-band number `s` is taken out
only if `s` is a multiple of `w`; the first channel was asked for in all of them. -/
theorem remove_after_violated {α : Type} (n w m s : Nat) (hw : 0 < w) (hn : 0 < n) (hd : w ∣ n) (hk : n ∣ m) (row : Nat → Option α) (hs : ∀ k, row k ≠ none) :
    ∃ out, removeChannels m n (some [0]) row = .ok out ∧ (out (s * n / w) = none ↔ w ∣ s) := by
  obtain ⟨q, rfl⟩ := hd
  have hq : 0 < q := Nat.pos_of_mul_pos_left hn
  refine ⟨fun k => if k % (w * q) = 0 then none else row k, ?_, ?_⟩
  · unfold removeChannels
    have hok : subbandsOk m (w * q) = .ok () := by
      unfold subbandsOk
      simp [hn.ne', Nat.mod_eq_zero_of_dvd hk]
    rw [hok, if_neg (by simp), if_neg (by simp; omega)]
    show Except.ok _ = Except.ok _
    congr 1
    funext k
    have : wrapIdx (w * q) 0 = some 0 := by
      unfold wrapIdx
      rw [if_pos ⟨le_refl _, by exact_mod_cast hn⟩]
      rfl
    simp only [Option.getD_some, List.any_cons, List.any_nil, Bool.or_false, this, Option.some.injEq, decide_eq_true_eq]
    by_cases h0 : k % (w * q) = 0
    · rw [if_pos h0, if_pos h0.symm]
    · rw [if_neg h0, if_neg (fun h => h0 h.symm)]
  · have e : s * (w * q) / w = s * q := by
      rw [show s * (w * q) = w * (s * q) by ring, Nat.mul_div_cancel_left _ hw]
    show (if s * (w * q) / w % (w * q) = 0 then none else row _) = none ↔ _
    rw [e]
    have hdv : w * q ∣ s * q ↔ w ∣ s := Nat.mul_dvd_mul_iff_right hq
    by_cases h : w ∣ s
    · rw [if_pos (Nat.mod_eq_zero_of_dvd (hdv.2 h))]; simp [h]
    · rw [if_neg (fun hc => h (hdv.1 (Nat.dvd_of_mod_eq_zero hc)))]
      simp [h, hs]

example : four.rebinDt = some 4 ∧ four.dm = some 10 ∧ 0 < four.dt ∧ four.dt ≤ 4 ∧ ⌊(4 : ℚ) / four.dt⌋.toNat = 4 := by decide +kernel

example : 0 < 2 ∧ 2 ∣ 16 ∧ 16 ∣ 32 ∧ ¬ 2 ∣ 1 := by decide

end Verif.TF
