import Verif.Contam.Model

/-! Lemmas on maxima with NaN and on the normalised array factor. -/

namespace Verif.Contam

theorem nanMax_cons (x y : Option ℚ) (l : List (Option ℚ)) :
    nanMax x (y :: l) = nanMax (x.bind fun u => y.map fun v => max u v) l := rfl

theorem nanMax_none : ∀ (l : List (Option ℚ)), nanMax none l = none
  | [] => rfl
  | _ :: l => nanMax_none l

theorem nanMax_mem_none : ∀ (l : List (Option ℚ)) (x : Option ℚ), none ∈ l → nanMax x l = none
  | y :: l, x, h => by
    rw [nanMax_cons]
    rcases List.mem_cons.1 h with h | h
    · rw [← h]; cases x <;> exact nanMax_none l
    · exact nanMax_mem_none l _ h

theorem nanMax_spec : ∀ (l : List (Option ℚ)) (a : ℚ), (∀ y ∈ l, ∃ v, y = some v) →
    ∃ m, nanMax (some a) l = some m ∧ (m = a ∨ some m ∈ l) ∧ a ≤ m ∧ ∀ v, some v ∈ l → v ≤ m
  | [], a, _ => ⟨a, rfl, Or.inl rfl, le_refl _, fun v h => absurd h (List.not_mem_nil)⟩
  | y :: l, a, h => by
    obtain ⟨v, rfl⟩ := h y List.mem_cons_self
    obtain ⟨m, hm, hin, ha, hl⟩ := nanMax_spec l (max a v) fun z hz => h z (List.mem_cons_of_mem _ hz)
    refine ⟨m, by rw [nanMax_cons]; exact hm, ?_, le_trans (le_max_left _ _) ha, ?_⟩
    · rcases hin with rfl | hin
      · rcases max_choice a v with e | e
        · exact Or.inl e
        · rw [e]; exact Or.inr List.mem_cons_self
      · exact Or.inr (List.mem_cons_of_mem _ hin)
    · intro w hw
      rcases List.mem_cons.1 hw with e | hw
      · injection e with e; subst e; exact le_trans (le_max_right _ _) ha
      · exact hl w hw

theorem bindC {α β : Type} {x : Except Err α} {k : α → Except Err β} {b : β} (h : x.bind k = .ok b) : ∃ a, x = .ok a ∧ k a = .ok b := by
  cases x with
  | error e => cases h
  | ok a => exact ⟨a, rfl, h⟩

theorem mapC {α β : Type} {x : Except Err α} {k : α → β} {b : β} (h : x.map k = .ok b) : ∃ a, x = .ok a ∧ k a = b := by
  cases x with
  | error e => cases h
  | ok a => injection h with h; exact ⟨a, rfl, h⟩

/-- What is known of a new `BeamLobes`. -/
theorem newBeam_inv {s : Setup} {rots : Option (List Int)} {g : Bool} {b : Beam} (h : newBeam s rots g = .ok b) :
    b.setup = s ∧ b.moc = .nothing ∧ b.shown = .nothing ∧ ∃ r, setRotations rots = .ok r ∧ selectedMas r ≠ [] ∧
      ¬ ((s.ptAlt.any fun a => decide (a ≤ 0)) = true ∧ s.ptAlt.length ≠ s.time.length) ∧
      b.map = fun t f p => divMax (maskedAf s (selectedMas r) g t f p) (pixMax (maskedAf s (selectedMas r) g t f) s.nPix) := by
  obtain ⟨r, hr, h⟩ := bindC h
  obtain ⟨m, hm, rfl⟩ := mapC h
  unfold arrayFactor at hm
  by_cases h1 : selectedMas r = []
  · rw [if_pos h1] at hm; cases g <;> cases hm
  rw [if_neg h1] at hm
  by_cases h2 : (s.ptAlt.any fun a => decide (a ≤ 0)) = true ∧ s.ptAlt.length ≠ s.time.length
  · rw [if_pos h2] at hm; cases hm
  rw [if_neg h2] at hm
  injection hm with hm
  exact ⟨rfl, rfl, rfl, r, hr, h1, h2, hm.symm⟩

/-- The pointing is above the horizon at that time: not masked. -/
theorem maskedAf_up {s : Setup} {mas : List Nat} {g : Bool} (hup : ∀ a ∈ s.ptAlt, 0 < a) (t f p : Nat) :
    maskedAf s mas g t f p = some (rawAf s mas g t f p) := by
  unfold maskedAf
  rw [if_neg]
  intro h
  obtain ⟨a, ha, h⟩ := (Option.any_eq_true _ _).1 h
  have := hup a (List.mem_of_getElem? ha)
  have h := of_decide_eq_true h
  linarith

theorem pixMax_up {s : Setup} {mas : List Nat} {g : Bool} (hup : ∀ a ∈ s.ptAlt, 0 < a) (t f : Nat) (hn : 0 < s.nPix) :
    ∃ m, pixMax (maskedAf s mas g t f) s.nPix = some m ∧ (∃ p, p < s.nPix ∧ rawAf s mas g t f p = m) ∧
      ∀ p, p < s.nPix → rawAf s mas g t f p ≤ m := by
  unfold pixMax
  rw [maskedAf_up hup]
  obtain ⟨m, hm, hin, ha, hl⟩ := nanMax_spec ((List.range s.nPix).map (maskedAf s mas g t f)) (rawAf s mas g t f 0) (by
    intro y hy
    obtain ⟨p, _, rfl⟩ := List.mem_map.1 hy
    exact ⟨_, maskedAf_up hup t f p⟩)
  refine ⟨m, hm, ?_, ?_⟩
  · rcases hin with rfl | hin
    · exact ⟨0, hn, rfl⟩
    · obtain ⟨p, hp, e⟩ := List.mem_map.1 hin
      rw [maskedAf_up hup] at e
      injection e with e
      exact ⟨p, List.mem_range.1 hp, e⟩
  · intro p hp
    refine hl _ (List.mem_map.2 ⟨p, List.mem_range.2 hp, maskedAf_up hup t f p⟩)

/-- The normalised map, for pointings above the horizon and a map which is not zero. -/
theorem map_up {s : Setup} {mas : List Nat} {g : Bool} (hup : ∀ a ∈ s.ptAlt, 0 < a) {t f : Nat}
    (hlit : ∃ p, p < s.nPix ∧ 0 < rawAf s mas g t f p) :
    ∃ m, 0 < m ∧ (∃ p, p < s.nPix ∧ rawAf s mas g t f p = m) ∧ (∀ p, p < s.nPix → rawAf s mas g t f p ≤ m) ∧
      ∀ p, divMax (maskedAf s mas g t f p) (pixMax (maskedAf s mas g t f) s.nPix) = some (rawAf s mas g t f p / m) := by
  obtain ⟨p, hp, hpos⟩ := hlit
  obtain ⟨m, hm, hin, hl⟩ := pixMax_up (s := s) (mas := mas) (g := g) hup t f (by omega)
  have hm0 : 0 < m := lt_of_lt_of_le hpos (hl p hp)
  refine ⟨m, hm0, hin, hl, fun q => ?_⟩
  rw [hm, maskedAf_up hup]
  exact if_neg (ne_of_gt hm0)

end Verif.Contam
