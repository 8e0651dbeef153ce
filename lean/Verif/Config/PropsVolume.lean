import Mathlib.Data.Finset.Prod
import Mathlib.Data.Finset.Sigma
import Mathlib.Tactic.Ring
import Mathlib.Tactic.FieldSimp
import Mathlib.Tactic.Positivity
import Mathlib.Algebra.BigOperators.Intervals
import Verif.Config.Props

/-! # C156 The estimated volume is the number of values written, times their size

The values are counted as elements of a set: one element per value that the backend writes, with no reference to the formula of the code. -/

namespace Verif.Config

open Finset

/-! ## Specification -/

/-- Pairs of mini-arrays: each with itself and with each other one, in one order. -/
def pairsOf (n : Nat) : Finset (Nat × Nat) := (range n ×ˢ range n).filter (fun p => p.2 ≤ p.1)

/-- Values of a beamlet statistics file: second, beamlet, polarization. -/
def bstValues (seconds beamlets pols : Nat) : Finset (Nat × Nat × Nat) := range seconds ×ˢ range beamlets ×ˢ range pols

/-- Values of the correlator: time integration, pair of mini-arrays, sub-band, channel, polarization. -/
def visValues (ints mas sbs chans pols : Nat) : Finset (Nat × (Nat × Nat) × Nat × Nat × Nat) := range ints ×ˢ pairsOf mas ×ˢ range sbs ×ˢ range chans ×ˢ range pols

/-- Values of a dynamic spectrum or of a folded profile: time, sub-band, channel (or phase bin), polarization. -/
def specValues (times sbs chans pols : Nat) : Finset (Nat × Nat × Nat × Nat) := range times ×ˢ range sbs ×ˢ range chans ×ˢ range pols

/-- Values of waveforms: sample, sub-band, polarization. -/
def waveValues (samples sbs pols : Nat) : Finset (Nat × Nat × Nat) := range samples ×ˢ range sbs ×ˢ range pols

/-! ## Counts -/

theorem pairs_card : ∀ n : Nat, (pairsOf n).card * 2 = n * (n + 1)
  | 0 => by simp [pairsOf]
  | n + 1 => by
    have h : pairsOf (n + 1) = pairsOf n ∪ (range (n + 1)).image (fun j : Nat => (n, j)) := by
      ext ⟨i, j⟩
      simp only [pairsOf, mem_filter, mem_product, mem_range, mem_union, mem_image, Prod.mk.injEq]
      constructor
      · rintro ⟨⟨h1, h2⟩, h3⟩
        by_cases e : i = n
        · exact Or.inr ⟨j, by omega, e.symm, rfl⟩
        · exact Or.inl ⟨⟨by omega, by omega⟩, h3⟩
      · rintro (⟨⟨h1, h2⟩, h3⟩ | ⟨a, h1, h2, h3⟩)
        · exact ⟨⟨by omega, by omega⟩, h3⟩
        · subst h2; subst h3
          exact ⟨⟨by omega, by omega⟩, by omega⟩
    have hd : Disjoint (pairsOf n) ((range (n + 1)).image (fun j : Nat => (n, j))) := by
      rw [disjoint_left]
      rintro ⟨i, j⟩ h1 h2
      simp only [pairsOf, mem_filter, mem_product, mem_range, mem_image, Prod.mk.injEq] at h1 h2
      obtain ⟨a, -, h2, -⟩ := h2
      omega
    rw [h, card_union_of_disjoint hd, card_image_of_injective _ (fun a b h => (Prod.mk.inj h).2), card_range, Nat.add_mul, pairs_card n]
    ring

theorem pairs_cast (n : Nat) : ((pairsOf n).card : ℚ) = n * (n - 1) / 2 + n := by
  have h := pairs_card n
  have : ((pairsOf n).card : ℚ) * 2 = n * (n + 1) := by exact_mod_cast h
  linarith

/-! ## Volumes -/

/-- Beamlet statistics: four bytes per value. -/
theorem bst_volume (x : Beam) (s b p : Nat) (hb : x.backend = .bst) (hs : x.duration = s) (hn : x.attr .nSubBands = b) (hp : x.attr .nPolars = p) :
    x.volume = 4 * (bstValues s b p).card := by
  unfold Beam.volume
  rw [hb]
  simp only [hs, hn, hp, bstValues, card_product, card_range]
  push_cast
  ring

/-- Correlator: eight bytes per visibility. -/
theorem nickel_volume (x : Beam) (t m s c p : Nat) (hb : x.backend = .nickel) (hr : x.attr .timeRes ≠ 0) (ht : x.duration = t * x.attr .timeRes) (hm : x.attr .nMAs = m)
    (hs : x.attr .nSubBands = s) (hc : x.attr .nChannels = c) (hp : x.attr .nPolars = p) : x.volume = 8 * (visValues t m s c p).card := by
  unfold Beam.volume
  rw [hb]
  simp only [hs, hm, hp, hc, ht, visValues, card_product, card_range]
  push_cast
  rw [pairs_cast]
  field_simp

/-- Time-frequency receiver: four bytes per value, for all resolutions which the receiver can do. -/
theorem tf_volume (x : Beam) (t k s p : Nat) (hb : x.backend = .tf) (hr : x.attr .timeRes ≠ 0) (ht : x.duration = t * x.attr .timeRes) (hf : x.attr .freqRes = 1 / tick / 2 ^ k)
    (hs : x.attr .nSubBands = s) (hp : x.attr .nPolars = p) : x.volume = 4 * (specValues t s (2 ^ k) p).card := by
  unfold Beam.volume
  rw [hb]
  simp only [hs, hp, hf, ht, specValues, card_product, card_range, tick]
  push_cast
  field_simp
  ring

/-- Whatever resolutions are asked for, those taken give whole channels, and the volume is the number of values. -/
theorem tf_volume_asked (x : Beam) (dt df : ℚ) (t s p : Nat) (hb : x.backend = .tf) (hr : (x.attr .timeRes, x.attr .freqRes) = checkDFvsDT dt df)
    (ht : x.duration = t * x.attr .timeRes) (hs : x.attr .nSubBands = s) (hp : x.attr .nPolars = p) :
    ∃ k : Nat, 2 ^ k * x.attr .freqRes = 200000000 / 1024 ∧ x.volume = 4 * (specValues t s (2 ^ k) p).card := by
  have e1 : x.attr .timeRes = (checkDFvsDT dt df).1 := by rw [← hr]
  have e2 : x.attr .freqRes = (checkDFvsDT dt df).2 := by rw [← hr]
  obtain ⟨k, j, -, -, -, -, h1, h2⟩ := resolutions_realisable dt df
  rw [← e2] at h1
  rw [← e1] at h2
  have hf : x.attr .freqRes = 1 / tick / 2 ^ k := by
    rw [h1]
    unfold tick
    field_simp
    norm_num
  refine ⟨k, ?_, tf_volume x t k s p hb (by rw [h2]; positivity) ht hf hs hp⟩
  rw [hf]
  unfold tick
  field_simp
  norm_num

/-- Waveforms: the bits of each sample, one sample every 5.12 microseconds after the first minute. -/
theorem raw_volume (x : Beam) (n s p b : Nat) (hb : x.backend = .raw) (hn : x.duration = 60 + n * tick) (hs : x.attr .nSubBands = s) (hp : x.attr .nPolars = p)
    (hbits : x.attr .nBits = b) : 8 * x.volume = b * (waveValues n s p).card := by
  unfold Beam.volume
  rw [hb]
  simp only [hs, hp, hbits, hn, waveValues, card_product, card_range, tick]
  push_cast
  field_simp
  ring

theorem afterBurn_of {d r : ℚ} (h : d = 60 + r) (hr : 0 ≤ r) : afterBurn d = r := by
  unfold afterBurn
  rw [if_neg (by linarith)]
  linarith

/-- Folded profiles: four bytes per phase bin of each sub-integration after the first minute. -/
theorem fold_volume (x : Beam) (n s p b : Nat) (hb : x.backend = .fold) (hr : 0 < x.attr .tFold) (hn : x.duration = 60 + n * x.attr .tFold) (hs : x.attr .nSubBands = s)
    (hp : x.attr .nPolars = p) (hbins : x.attr .nBins = b) : x.volume = 4 * (specValues n s b p).card := by
  unfold Beam.volume
  rw [hb]
  simp only [afterBurn_of hn (by positivity), hs, hp, hbins, specValues, card_product, card_range]
  push_cast
  field_simp

/-- Single pulses: the bits of each averaged sample after the first minute. -/
theorem single_volume (x : Beam) (n s p b d : Nat) (hb : x.backend = .single) (hd : x.attr .dsTime = d) (hd0 : 0 < d) (hn : x.duration = 60 + n * (d * tick)) (hs : x.attr .nSubBands = s)
    (hp : x.attr .nPolars = p) (hbits : x.attr .nBits = b) : 8 * x.volume = b * (waveValues n s p).card := by
  have h0 : (0 : ℚ) < d := by exact_mod_cast hd0
  have ht : (0 : ℚ) < tick := by norm_num [tick]
  unfold Beam.volume
  rw [hb]
  simp only [afterBurn_of hn (by positivity), hs, hp, hbits, hd, waveValues, card_product, card_range]
  push_cast
  field_simp

/-- Pulsar waveforms: a fixed number of bytes per second and sub-band after the first minute. -/
theorem waveolaf_volume (x : Beam) (n s : Nat) (hb : x.backend = .waveolaf) (hn : x.duration = 60 + n) (hs : x.attr .nSubBands = s) : x.volume = 451590 * (n * s : Nat) := by
  unfold Beam.volume
  rw [hb]
  simp only [afterBurn_of hn (by positivity), hs]
  push_cast
  ring

/-- Nothing is written by the pulsar modes during the first minute. -/
theorem pulsar_minute (x : Beam) (hb : x.backend = .fold ∨ x.backend = .waveolaf ∨ x.backend = .single) (hd : x.duration ≤ 60) : x.volume = 0 := by
  have h : afterBurn x.duration = 0 := by
    unfold afterBurn
    by_cases h : x.duration - 60 < 0
    · rw [if_pos h]
    · rw [if_neg h]; linarith
  unfold Beam.volume
  rcases hb with hb | hb | hb <;> rw [hb] <;> simp only [h, mul_zero]

/-- A longer observation never gives a smaller volume. -/
theorem volume_longer (x y : Beam) (hf : x.Fine) (hb : y.backend = x.backend) (ha : y.attr = x.attr) (hd : x.duration ≤ y.duration) : x.volume ≤ y.volume := by
  obtain ⟨b, a, d⟩ := x
  obtain ⟨b', a', d'⟩ := y
  dsimp only at hb ha hd
  subst hb ha
  have pos : ∀ k r, table b' k = some r → 0 ≤ r.min → 0 ≤ a' k := fun k r h h0 => le_trans h0 (hf k r h).1
  have hbn : afterBurn d ≤ afterBurn d' := by unfold afterBurn; split_ifs <;> linarith
  have ht : (0 : ℚ) < tick := by norm_num [tick]
  cases b'
  case bst =>
    have h1 := pos .nPolars _ rfl (by norm_num)
    have h2 := pos .nSubBands _ rfl (by norm_num)
    unfold Beam.volume
    dsimp only
    gcongr
  case nickel =>
    have h1 := pos .nPolars _ rfl (by norm_num)
    have h2 := pos .nSubBands _ rfl (by norm_num)
    have h3 := pos .nChannels _ rfl (by norm_num)
    have h4 := pos .timeRes _ rfl (by norm_num)
    have h5 : 1 ≤ a' .nMAs := le_trans (by norm_num) (hf .nMAs _ rfl).1
    have h6 : 0 ≤ a' .nMAs - 1 := by linarith
    unfold Beam.volume
    dsimp only
    gcongr
  case tf =>
    have h1 := pos .nPolars _ rfl (by norm_num)
    have h2 := pos .nSubBands _ rfl (by norm_num)
    have h3 := pos .freqRes _ rfl (by norm_num)
    have h4 := pos .timeRes _ rfl (by norm_num)
    unfold Beam.volume
    dsimp only
    gcongr
  case raw =>
    have h1 := pos .nPolars _ rfl (by norm_num)
    have h2 := pos .nSubBands _ rfl (by norm_num)
    have h3 := pos .nBits _ rfl (by norm_num)
    unfold Beam.volume
    dsimp only
    gcongr
  case fold =>
    have h1 := pos .nPolars _ rfl (by norm_num)
    have h2 := pos .nSubBands _ rfl (by norm_num)
    have h3 := pos .nBins _ rfl (by norm_num)
    have h4 := pos .tFold _ rfl (by norm_num)
    unfold Beam.volume
    dsimp only
    gcongr
  case waveolaf =>
    have h2 := pos .nSubBands _ rfl (by norm_num)
    unfold Beam.volume
    dsimp only
    gcongr
  case single =>
    have h1 := pos .nPolars _ rfl (by norm_num)
    have h2 := pos .nSubBands _ rfl (by norm_num)
    have h3 := pos .nBits _ rfl (by norm_num)
    have h4 := pos .dsTime _ rfl (by norm_num)
    unfold Beam.volume
    dsimp only
    gcongr

/-! ## Examples -/

/-- A beam with these values, the same of all attributes which are not in the list. -/
def plainBeam (b : Backend) (l : List (Attr × ℚ)) (d : ℚ) : Beam := ⟨b, fun k => (l.find? (fun p => decide (p.1 = k))).elim 1 Prod.snd, d⟩

example : ∃ x : Beam, x.backend = .nickel ∧ x.attr .timeRes ≠ 0 ∧ x.duration = (60 : Nat) * x.attr .timeRes ∧ x.attr .nMAs = (3 : Nat) ∧ x.attr .nSubBands = (2 : Nat)
    ∧ x.attr .nChannels = (64 : Nat) ∧ x.attr .nPolars = (4 : Nat) ∧ x.volume = 8 * (60 * 6 * 2 * 64 * 4) :=
  ⟨plainBeam .nickel [(.timeRes, 1 / 2), (.nMAs, 3), (.nSubBands, 2), (.nChannels, 64), (.nPolars, 4)] 30, by decide +kernel⟩

example : ∃ x : Beam, x.backend = .tf ∧ (x.attr .timeRes, x.attr .freqRes) = checkDFvsDT (5 / 1000) 6100 ∧ x.duration = (100 : Nat) * x.attr .timeRes ∧ x.attr .nSubBands = (2 : Nat)
    ∧ x.attr .nPolars = (4 : Nat) :=
  ⟨plainBeam .tf [(.timeRes, (checkDFvsDT (5 / 1000) 6100).1), (.freqRes, (checkDFvsDT (5 / 1000) 6100).2), (.nSubBands, 2), (.nPolars, 4)] (100 * (checkDFvsDT (5 / 1000) 6100).1),
    by decide +kernel⟩

example : ∃ x : Beam, x.backend = .fold ∧ 0 < x.attr .tFold ∧ x.duration = 60 + (3 : Nat) * x.attr .tFold ∧ x.attr .nSubBands = (2 : Nat) ∧ x.attr .nPolars = (4 : Nat)
    ∧ x.attr .nBins = (16 : Nat) ∧ x.volume = 4 * (3 * 2 * 16 * 4) :=
  ⟨plainBeam .fold [(.tFold, 10), (.nSubBands, 2), (.nPolars, 4), (.nBins, 16)] 90, by decide +kernel⟩

example : ∃ x : Beam, x.backend = .single ∧ x.attr .dsTime = (128 : Nat) ∧ x.duration = 60 + (3 : Nat) * ((128 : Nat) * tick) ∧ x.attr .nSubBands = (2 : Nat) ∧ x.attr .nPolars = (4 : Nat)
    ∧ x.attr .nBits = (32 : Nat) ∧ x.volume = 4 * (3 * 2 * 4) :=
  ⟨plainBeam .single [(.dsTime, 128), (.nSubBands, 2), (.nPolars, 4), (.nBits, 32)] (60 + 3 * (128 * tick)), by decide +kernel⟩

example : ∃ x : Beam, x.backend = .raw ∧ x.duration = 60 + (3 : Nat) * tick ∧ x.attr .nSubBands = (2 : Nat) ∧ x.attr .nPolars = (4 : Nat) ∧ x.attr .nBits = (8 : Nat) ∧ x.volume = 3 * 2 * 4 :=
  ⟨plainBeam .raw [(.nSubBands, 2), (.nPolars, 4), (.nBits, 8)] (60 + 3 * tick), by decide +kernel⟩

end Verif.Config
