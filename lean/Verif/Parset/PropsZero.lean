import Verif.Parset.PropsAccepted

/-!
# Sub-band 0 in lists: property C99
-/

namespace Verif.Parset

/-- **C99**, violated: whatever the list of sub-bands, a lone 0 anywhere after the first place makes it refused, although it is read as the sub-bands it stands for; in the first place, before other sub-bands, it is accepted. -/
theorem sb_zero_place_violated (e : Elem) (l : List Elem) (he : e.Ok Sub Sub) (hl : ∀ x ∈ l, x.Ok Sub Sub) :
    (Elem.one ['0'] ∈ l → ¬Accepts beamRows "subbandList".toList (Elem.textAll (e :: l)) ∧ 0 ∈ (e :: l).flatMap Elem.indices) ∧
      ((∀ x ∈ l, x.Ok (fun w => Sub w ∧ w ≠ ['0']) (fun w => Sub w ∧ w ≠ ['0'])) →
        Accepts beamRows "subbandList".toList (Elem.textAll (Elem.one ['0'] :: l))) := by
  refine ⟨fun hz => ⟨fun hacc => ?_, ?_⟩, fun h => ?_⟩
  · obtain ⟨e', l', ht, he', hl'⟩ := (sb_list_accepted _).1 hacc
    have hw : ∀ x ∈ e' :: l', x.Ok Sub Sub := by
      intro x hx
      rcases List.mem_cons.1 hx with rfl | hx
      · cases x with
        | one a => exact he'
        | range a b => exact ⟨he'.1, he'.2.1⟩
      · have := hl' x hx
        cases x with
        | one a => exact this.1
        | range a b => exact ⟨this.1.1, this.2.1⟩
    have hj : join ',' ((e :: l).map Elem.text) = join ',' ((e' :: l').map Elem.text) := by
      unfold Elem.textAll at ht
      exact List.append_cancel_right (List.cons.inj ht).2
    have hs : ∀ m : List Elem, m ≠ [] → (∀ x ∈ m, x.Ok Sub Sub) → splitOn ',' (join ',' (m.map Elem.text)) = m.map Elem.text := by
      intro m hm h
      refine splitOn_join ',' _ (by simpa using hm) ?_
      intro s hs
      obtain ⟨x, hx, rfl⟩ := List.mem_map.1 hs
      exact elem_notMem (h x hx) (by decide) (by decide)
    have hall : ∀ x ∈ e :: l, x.Ok Sub Sub := by
      intro x hx
      rcases List.mem_cons.1 hx with rfl | hx
      · exact he
      · exact hl x hx
    have hmap : (e :: l).map Elem.text = (e' :: l').map Elem.text := by
      rw [← hs _ (by simp) hall, ← hs _ (by simp) hw, hj]
    rw [List.map_cons, List.map_cons] at hmap
    have hmem : ['0'] ∈ l'.map Elem.text := by
      rw [← (List.cons.inj hmap).2]
      exact List.mem_map.2 ⟨_, hz, rfl⟩
    obtain ⟨x, hx, hxt⟩ := List.mem_map.1 hmem
    have hok := hl' x hx
    cases x with
    | one a => exact hok.2 hxt
    | range a b =>
      have := congrArg List.length hxt
      simp [Elem.text] at this
      omega
  · exact List.mem_flatMap.2 ⟨_, List.mem_cons_of_mem _ hz, by decide +kernel⟩
  · exact (sb_list_accepted _).2 ⟨_, l, rfl, by show Sub ['0']; unfold Sub; decide, h⟩

example : Elem.one ['0'] ∈ [Elem.one ['0']] ∧ Elem.Ok Sub Sub (.range ['5'] ['9']) ∧ ∀ x ∈ [Elem.one ['0']], x.Ok Sub Sub := by
  refine ⟨List.mem_cons_self, ⟨by unfold Sub; decide, by unfold Sub; decide⟩, ?_⟩
  intro x hx
  rw [List.mem_singleton.1 hx]
  show Sub ['0']; unfold Sub; decide

end Verif.Parset
