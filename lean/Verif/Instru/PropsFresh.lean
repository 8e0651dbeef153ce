import Verif.Instru.PropsLayout
import Verif.Instru.PropsRadio

/-!
# New interferometers, orders and wavelengths (properties C37, C39, C118, C159)
-/

namespace Verif.Instru

/-- **C37**: a new interferometer takes each antenna once, with weight one and no delay. -/
theorem fresh_exact {P Gn : Type} (names : List String) (pos : List P) (gains : List Gn) :
    (Interf.new names pos gains).size = pos.length ∧ (Interf.new names pos gains).names = names ∧ (Interf.new names pos gains).pos = pos
    ∧ (Interf.new names pos gains).gains = gains
    ∧ ((Interf.new names pos gains).weights.length = pos.length ∧ ∀ w ∈ (Interf.new names pos gains).weights, w = 1)
    ∧ (Interf.new names pos gains).delays.length = pos.length ∧ ∀ d ∈ (Interf.new names pos gains).delays, d = 0 := by
  refine ⟨rfl, rfl, rfl, rfl, ⟨List.length_replicate, ?_⟩, List.length_replicate, ?_⟩
  · intro w hw; exact List.eq_of_mem_replicate hw
  · intro d hd; exact List.eq_of_mem_replicate hd

/-- **C39**: the order `63` is sent for the two middle rows of the grid, and every later row has the order of the row before. -/
theorem ma_order_rows (sep : Int → Int → ℚ) :
    ((maOrder sep).1 = 63 ↔ (argminGrid fun r c => sep (step1 r) (step2 c)).1 = 63 ∨ (argminGrid fun r c => sep (step1 r) (step2 c)).1 = 64)
    ∧ (64 ≤ (argminGrid fun r c => sep (step1 r) (step2 c)).1 → (maOrder sep).1 + 1 = (argminGrid fun r c => sep (step1 r) (step2 c)).1)
    ∧ ((argminGrid fun r c => sep (step1 r) (step2 c)).1 < 64 → (maOrder sep).1 = (argminGrid fun r c => sep (step1 r) (step2 c)).1) := by
  unfold maOrder
  simp only
  generalize (argminGrid fun r c => sep (step1 r) (step2 c)).1 = x
  unfold fixWrong
  split <;> omega

/-- **C118**: a wavelength and its frequency, in MHz, multiply to the speed of light. -/
theorem wave_speed (f : ℝ) (hf : f ≠ 0) : waveOf f * (f * 1000000) = 299792458 := by
  unfold waveOf; field_simp

/-- **C159**: the key of a mini-array has three digits at least, filled up with zeros on the left. -/
theorem key_width (w n : Nat) : (zeroPad w n).length = max w (Nat.digits 10 n).length
    ∧ ∀ i, i + (Nat.digits 10 n).length < w → (zeroPad w n)[i]? = some '0' := by
  constructor
  · unfold zeroPad
    rw [List.length_append, List.length_replicate, List.length_map, List.length_reverse]
    omega
  · intro i hi
    unfold zeroPad
    rw [List.getElem?_append_left (by rw [List.length_replicate]; omega), List.getElem?_replicate, if_pos (by omega)]

example : (zeroPad 3 7).length = 3 := by decide +kernel

end Verif.Instru
