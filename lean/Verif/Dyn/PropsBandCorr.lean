import Verif.Dyn.BandCorr
import Verif.Dyn.PropsClean
import Verif.TF.Lna
import Verif.TF.PropsLna

/-!
# Properties of the correction of the sub-bands of dynamic spectra
-/

namespace Verif.Dyn

open Verif.TF (medianBy midReal bandpass medianBy_map medianBy_const correctBandpass correct_plain)

/-! ## Names -/

/-- **Names of corrections**: the four documented ones. -/
theorem mode_names (b : String) : (∃ m, bandMode (some b) = .ok m) ↔ b = "standard" ∨ b = "median" ∨ b = "none" ∨ b = "adjusted" := by
  show (∃ m, (if b = "standard" then Except.ok BandMode.standard else if b = "median" then Except.ok BandMode.median else if b = "none" then Except.ok BandMode.none
    else if b = "adjusted" then Except.ok BandMode.adjusted else Except.error Err.valueError) = Except.ok m) ↔ _
  by_cases h1 : b = "standard"
  · rw [if_pos h1]; exact ⟨fun _ => .inl h1, fun _ => ⟨_, rfl⟩⟩
  rw [if_neg h1]
  by_cases h2 : b = "median"
  · rw [if_pos h2]; exact ⟨fun _ => .inr (.inl h2), fun _ => ⟨_, rfl⟩⟩
  rw [if_neg h2]
  by_cases h3 : b = "none"
  · rw [if_pos h3]; exact ⟨fun _ => .inr (.inr (.inl h3)), fun _ => ⟨_, rfl⟩⟩
  rw [if_neg h3]
  by_cases h4 : b = "adjusted"
  · rw [if_pos h4]; exact ⟨fun _ => .inr (.inr (.inr h4)), fun _ => ⟨_, rfl⟩⟩
  rw [if_neg h4]
  refine ⟨fun ⟨m, h⟩ => (nomatch h), fun h => ?_⟩
  rcases h with h | h | h | h
  · exact absurd h h1
  · exact absurd h h2
  · exact absurd h h3
  · exact absurd h h4

theorem mode_kept : bandMode (some "standard") = .ok .standard ∧ bandMode (some "median") = .ok .median ∧ bandMode (some "none") = .ok .none ∧
    bandMode (some "adjusted") = .ok .adjusted ∧ bandMode none = .error .typeError := by
  refine ⟨rfl, ?_, ?_, ?_, rfl⟩ <;> decide +kernel

/-- Without correction the values are kept, whatever the sizes. -/
theorem none_kept (coeffs : List ℝ) (nt nf np n : Nat) (d : Nat → Nat → Nat → Option ℝ) : bandCorrect coeffs .none nt nf np n d = .ok d := rfl

/-- **Standard correction**: the values are those given by the correction of the other reader (`correct_bandpass`) for the same data. -/
theorem standard_agrees (coeffs : List ℝ) (nt nf np n : Nat) (x : Nat → Nat → Nat → ℝ) (p : Nat) :
    (bandCorrect coeffs .standard nt nf np n fun t k p => some (x t k p)).map (fun r t k => r t k p) =
      (correctBandpass coeffs n nf none none fun t k => x t k p).map (fun r t k => some (r t k)) := by
  show ((bandpass coeffs n).bind _).map _ = _
  cases hb : bandpass coeffs n with
  | error e =>
    unfold correctBandpass Verif.TF.bandFactor
    rw [hb]
    rfl
  | ok bp =>
    by_cases hn : nf % n = 0
    · rw [correct_plain coeffs n nf none bp hb hn]
      show Except.map _ (if nf % n ≠ 0 then _ else _) = _
      rw [if_neg (by omega)]
      rfl
    · unfold correctBandpass Verif.TF.bandFactor
      rw [hb]
      show Except.map _ (if nf % n ≠ 0 then _ else _) = Except.map _ (Except.map _ (if nf % n ≠ 0 then _ else _))
      rw [if_pos hn, if_pos hn]
      rfl

/-! ## Median -/

theorem ratio_some (x y : ℝ) (hy : y ≠ 0) : ratioOf (some x) (some y) = some (x / y) := if_neg hy

theorem median_factor (nt n : Nat) (d : Nat → Nat → Option ℝ) (k : Nat) (m b : ℝ) (hm : freqMed nt d k = some m) (hb : bandLevel n (freqMed nt d) (k / n) = some b)
    (h0 : m ≠ 0) (t : Nat) : medianCorr nt n d t k = (d t k).map fun x => b / m * x := by
  unfold medianCorr
  rw [hm, hb]
  cases d t k with
  | none => rfl
  | some x =>
    show ratioOf (some (x * b)) (some m) = some (b / m * x)
    rw [ratio_some _ _ h0]
    congr 1
    ring

/-- **After the median correction all channels of a sub-band have the same level**, which is the level the sub-band had. -/
theorem median_level (nt n : Nat) (d : Nat → Nat → Option ℝ) (k : Nat) (m b : ℝ) (hm : freqMed nt d k = some m) (hb : bandLevel n (freqMed nt d) (k / n) = some b)
    (h0 : 0 < m) (hb0 : 0 < b) : freqMed nt (medianCorr nt n d) k = some b := by
  have hf := median_factor nt n d k m b hm hb h0.ne'
  unfold freqMed
  rw [show (fun t => medianCorr nt n d t k) = fun t => (d t k).map ((b / m) * ·) from funext fun t => hf t, filterMap_scaled, median_scaled _ (by positivity)]
  have hm' : medianBy midReal ((List.range nt).filterMap fun t => d t k) = some m := hm
  rw [hm']
  show some (b / m * m) = some b
  rw [div_mul_cancel₀ _ h0.ne']

/-- **Doing it again changes nothing.** The levels are positive, as for powers. -/
theorem median_again (nt n : Nat) (hn : 0 < n) (d : Nat → Nat → Option ℝ) (m : Nat → ℝ) (hm : ∀ k, freqMed nt d k = some (m k)) (h0 : ∀ k, 0 < m k) (t k : Nat) :
    medianCorr nt n (medianCorr nt n d) t k = medianCorr nt n d t k := by
  have hlev : ∀ s, ∃ b, bandLevel n (freqMed nt d) s = some b ∧ 0 < b := by
    intro s
    have := median_over n 0 (fun c => m (s * n + c)) (fun c => freqMed nt d (s * n + c)) hn (fun i _ => h0 _) (fun i _ => hm _)
    exact this
  choose b hb hb0 using hlev
  have h1 : ∀ k, freqMed nt (medianCorr nt n d) k = some (b (k / n)) := fun k => median_level nt n d k (m k) (b (k / n)) (hm k) (hb _) (h0 k) (hb0 _)
  have h2 : ∀ s, bandLevel n (freqMed nt (medianCorr nt n d)) s = some (b s) := by
    intro s
    refine median_flat n (b s) _ hn fun i hi => ?_
    rw [h1, show (s * n + i) / n = s by rw [Nat.mul_comm, Nat.mul_add_div hn, Nat.div_eq_of_lt hi, Nat.add_zero]]
  rw [median_factor nt n (medianCorr nt n d) k _ _ (h1 k) (h2 _) (hb0 _).ne', div_self (hb0 _).ne']
  simp

/-- The median correction is refused for several polarisations at once: two or more, with full sub-bands. -/
theorem median_polarisations_violated (coeffs : List ℝ) (nt nsb np n : Nat) (hn : 0 < n) (hs : 0 < nsb) (hp : 2 ≤ np) (d : Nat → Nat → Nat → Option ℝ) :
    bandCorrect coeffs .median nt (nsb * n) np n d = .error .valueError := by
  show (medianBandpass (nsb * n) np n).map _ = _
  unfold medianBandpass
  rw [if_neg (by omega), if_pos]
  · rfl
  · rw [show nsb * n * np = nsb * np * n by ring, Nat.mul_div_cancel _ hn]
    intro h
    have h2 : nsb * np * n * np = nsb * np * n * 1 := by rw [h, mul_one]
    have := Nat.eq_of_mul_eq_mul_left (by positivity) h2
    omega

/-- With one polarisation it is made. -/
theorem median_made (coeffs : List ℝ) (nt nsb n : Nat) (hn : 0 < n) (d : Nat → Nat → Nat → Option ℝ) :
    bandCorrect coeffs .median nt (nsb * n) 1 n d = .ok fun t k p => medianCorr nt n (fun t k => d t k p) t k := by
  show (medianBandpass (nsb * n) 1 n).map _ = _
  unfold medianBandpass
  rw [if_neg (by omega), if_neg]
  · rfl
  · simp only [mul_one]
    rw [Nat.mul_div_cancel _ hn]
    exact fun h => h rfl

/-! ## Adjusted -/

theorem adjusted_made (coeffs : List ℝ) (nt nsb np n : Nat) (hn : 0 < n) (d : Nat → Nat → Nat → Option ℝ) :
    bandCorrect coeffs .adjusted nt (nsb * n) np n d = .ok fun t k p => adjustedCorr nt (nsb * n) n (fun t k => d t k p) t k := by
  show (if n = 0 then _ else if nsb * n % n ≠ 0 then _ else _) = _
  rw [if_neg (by omega), if_neg (by rw [Nat.mul_mod_left]; exact fun h => h rfl)]

/-- **The adjusted correction takes the shape of the sub-bands out** and keeps the rest: for data which are a signal (any function of time and sub-band) times a response
common to all sub-bands, the result is the signal, times the median of the response. -/
theorem adjusted_product (nt nsb n : Nat) (hn : 0 < n) (hnt : 0 < nt) (hs : 0 < nsb) (g : Nat → Nat → ℝ) (hg : ∀ t s, 0 < g t s) (r : Nat → ℝ) (hr : ∀ c, 0 < r c) :
    ∃ R, medianBy midReal ((List.range n).map r) = some R ∧ 0 < R ∧
      ∀ t k, adjustedCorr nt (nsb * n) n (fun t k => some (g t (k / n) * r (k % n))) t k = some (g t (k / n) * R) := by
  obtain ⟨R, hR, hR0⟩ := median_over n 0 r (fun c => some (r c)) hn (fun i _ => hr i) (fun i _ => rfl)
  have hR' : medianBy midReal ((List.range n).map r) = some R := by
    rw [← hR, ← List.filterMap_eq_map]; rfl
  refine ⟨R, hR', hR0, ?_⟩
  have hG : ∀ s, ∃ G, medianBy midReal ((List.range nt).filterMap fun t => some (g t s)) = some G ∧ 0 < G :=
    fun s => median_over nt 0 (fun t => g t s) (fun t => some (g t s)) hnt (fun i _ => hg i s) (fun i _ => rfl)
  choose G hG hG0 using hG
  have hspec : ∀ k, freqMed nt (fun t k => some (g t (k / n) * r (k % n))) k = some (r (k % n) * G (k / n)) := by
    intro k
    unfold freqMed
    rw [show (fun t => some (g t (k / n) * r (k % n))) = fun t => (some (g t (k / n))).map (r (k % n) * ·) from
      funext fun t => congrArg some (mul_comm _ _), filterMap_scaled, median_scaled _ (hr _), hG]
    rfl
  have hdiv : ∀ s c, c < n → (s * n + c) / n = s ∧ (s * n + c) % n = c := by
    intro s c hc
    rw [Nat.mul_comm, Nat.mul_add_div hn, Nat.div_eq_of_lt hc, Nat.mul_add_mod, Nat.mod_eq_of_lt hc]
    exact ⟨rfl, rfl⟩
  have hlev : ∀ s, bandLevel n (freqMed nt fun t k => some (g t (k / n) * r (k % n))) s = some (G s * R) := by
    intro s
    unfold bandLevel
    have e : (List.range n).filterMap (fun c => freqMed nt (fun t k => some (g t (k / n) * r (k % n))) (s * n + c)) =
        (List.range n).filterMap fun c => (some (r c)).map (G s * ·) := by
      refine List.filterMap_congr fun c hc => ?_
      rw [hspec, (hdiv s c (List.mem_range.1 hc)).1, (hdiv s c (List.mem_range.1 hc)).2]
      exact congrArg some (mul_comm _ _)
    rw [e, filterMap_scaled, median_scaled _ (hG0 s), hR]
    rfl
  have hprof : ∀ c, c < n → bandProfile nt (nsb * n) n (fun t k => some (g t (k / n) * r (k % n))) c = some (r c / R) := by
    intro c hc
    unfold bandProfile
    rw [Nat.mul_div_cancel _ hn]
    refine median_flat nsb (r c / R) _ hs fun s _ => ?_
    rw [hspec, hlev, (hdiv s c hc).1, (hdiv s c hc).2, ratio_some _ _ (mul_pos (hG0 s) hR0).ne']
    congr 1
    have := (hG0 s).ne'
    field_simp
  intro t k
  unfold adjustedCorr
  rw [hprof _ (Nat.mod_lt _ hn), ratio_some _ _ (div_pos (hr _) hR0).ne']
  congr 1
  have := (hr (k % n)).ne'
  field_simp

/-- Missing values stay missing, and no value is lost at the channels whose rank has a profile other than zero. -/
theorem adjusted_missing (nt nf n : Nat) (d : Nat → Nat → Option ℝ) (t k : Nat) :
    (d t k = none → adjustedCorr nt nf n d t k = none) ∧
    ∀ y, bandProfile nt nf n d (k % n) = some y → y ≠ 0 → adjustedCorr nt nf n d t k = (d t k).map fun x => x / y := by
  constructor
  · intro h
    unfold adjustedCorr
    rw [h]
    rfl
  · intro y hy h0
    unfold adjustedCorr
    rw [hy]
    cases d t k with
    | none => rfl
    | some x => exact ratio_some x y h0

/-- **The shape is the one of most sub-bands**: a sub-band with another shape, for example with interferences in one channel, does not change it when three sub-bands or more
have levels and the others agree. -/
theorem adjusted_robust (nt nsb n s0 c : Nat) (hs : 3 ≤ nsb) (hs0 : s0 < nsb) (hn : 0 < n) (d : Nat → Nat → Option ℝ) (y z : ℝ) (hyz : y ≤ z)
    (h : ∀ s < nsb, s ≠ s0 → ratioOf (freqMed nt d (s * n + c)) (bandLevel n (freqMed nt d) s) = some y)
    (h0 : ratioOf (freqMed nt d (s0 * n + c)) (bandLevel n (freqMed nt d) s0) = some z) : bandProfile nt (nsb * n) n d c = some y := by
  unfold bandProfile
  rw [Nat.mul_div_cancel _ hn]
  exact median_peak nsb s0 y z _ hs hs0 hyz ⟨h0, fun i hi hne => h i hi hne⟩

/-- Three sub-bands of two channels, whose response is 1 and 3, with a signal which grows. -/
example : ∃ R, ∀ t k, adjustedCorr 2 (3 * 2) 2 (fun t k => some (((t : ℝ) + ((k / 2 : Nat) : ℝ) + 1) * (if k % 2 = 0 then 1 else 3))) t k =
    some (((t : ℝ) + ((k / 2 : Nat) : ℝ) + 1) * R) := by
  obtain ⟨R, -, -, h⟩ := adjusted_product 2 3 2 (by decide) (by decide) (by decide) (fun t s => (t : ℝ) + (s : ℝ) + 1) (fun t s => by positivity)
    (fun c => if c = 0 then 1 else 3) (fun c => by split_ifs <;> norm_num)
  exact ⟨R, h⟩

end Verif.Dyn
