import Verif.Config.PropsText

/-!
# Values glued to the mode: property C94
-/

namespace Verif.Config

open Verif.Parset

/-- Text of a time-frequency beam whose first value follows the colon without a blank. -/
def gluedText (mode k v : Str) (l : List (Opt × Str)) (tail : Str) : Str :=
  ((mode ++ ':' :: k) ++ '=' :: v) ++ ((l.map (fun o => (o.1.body, o.2))).flatMap (fun o => o.2 ++ o.1) ++ tail)

/-- Without a blank after the colon the first value of a time-frequency beam is never found, whatever the mode, the value and the words which follow. -/
theorem glued_lost_violated (mode k v tail : Str) (l : List (Opt × Str)) (hm : '=' ∉ mode ∧ NoBlank mode) (hk : '=' ∉ k ∧ ':' ∉ k ∧ NoBlank k)
    (hv : NoBlank v) (htail : Blanks tail) (hl : ∀ o ∈ l, o.1.Fine ∧ Blanks o.2 ∧ o.2 ≠ []) (hno : ∀ o ∈ l, o.1.key ≠ k)
    (hdash : ¬ ['-', '-'] <:+: gluedText mode k v l tail) (hlow : lower (gluedText mode k v l tail) = gluedText mode k v l tail) :
    find (paramsOf false (gluedText mode k v l tail)) k = none := by
  have hwords : words (gluedText mode k v l tail) = ((mode ++ ':' :: k) ++ '=' :: v) :: l.map (fun o => o.1.body) := by
    unfold words gluedText
    have hmn : NoBlank ((mode ++ ':' :: k) ++ '=' :: v) := by
      intro c hc
      simp only [List.mem_append, List.mem_cons] at hc
      rcases hc with (h | rfl | h) | rfl | h
      · exact hm.2 c h
      · decide
      · exact hk.2.2 c h
      · decide
      · exact hv c h
    rw [wordsFrom_append _ [] _ hmn, List.nil_append, words_text _ _ tail (by simp) htail]
    · rw [List.map_map]; rfl
    · intro o ho
      obtain ⟨p, hp, rfl⟩ := List.mem_map.mp ho
      obtain ⟨⟨f1, f2, -⟩, h2, h3⟩ := hl p hp
      exact ⟨f1, f2, h2, h3⟩
  have heq : '=' ∈ gluedText mode k v l tail := by
    unfold gluedText
    simp
  have hd : paramsOf false (gluedText mode k v l tail) = valued (((mode ++ ':' :: k) ++ '=' :: v) :: l.map (fun o => o.1.body)) := by
    unfold paramsOf
    rw [if_neg (by simp), hlow, hwords, splitDash_none _ hdash]
    have h1 : flags [gluedText mode k v l tail] = [] := by
      unfold flags
      rw [List.filter_cons_of_neg (by simpa using heq)]
      rfl
    rw [h1, List.append_nil]
  have hmk : '=' ∉ mode ++ ':' :: k := by
    simp only [List.mem_append, List.mem_cons, not_or]
    exact ⟨hm.1, by decide, hk.1⟩
  rw [hd]
  apply find_none
  intro w hw
  obtain ⟨p, hp, h1, h2, -⟩ := mem_valued hw
  rcases List.mem_cons.1 hp with rfl | hp
  · rw [splitOn_append '=' _ _ hmk] at h2
    have h2 : mode ++ ':' :: k = k := h2
    exact hk.2.1 (by rw [← h2]; simp)
  · obtain ⟨o, ho, rfl⟩ := List.mem_map.mp hp
    obtain ⟨⟨-, -, -, f3, f4⟩, -⟩ := hl _ ho
    obtain ⟨o, g⟩ := o
    cases o with
    | val k' v' =>
      have e : splitOn '=' (Opt.val k' v').body = [k', v'] := split_val k' v' f3 (f4 k' v' rfl)
      simp only at h2
      rw [e] at h2
      exact hno _ ho h2
    | word f => exact f3 h1

/-- A beam written in this way, starting with its time step, cannot be built. -/
theorem glued_refused_violated (F : Str → Option ℚ) (x : DBeam) (mode v tail : Str) (l : List (Opt × Str)) (hm : '=' ∉ mode ∧ NoBlank mode)
    (hv : NoBlank v) (htail : Blanks tail) (hl : ∀ o ∈ l, o.1.Fine ∧ Blanks o.2 ∧ o.2 ≠ []) (hno : ∀ o ∈ l, o.1.key ≠ "dt".toList)
    (hdash : ¬ ['-', '-'] <:+: gluedText mode "dt".toList v l tail)
    (hlow : lower (gluedText mode "dt".toList v l tail) = gluedText mode "dt".toList v l tail) :
    tfBeam F x (gluedText mode "dt".toList v l tail) = .error .keyError := by
  have h := glued_lost_violated mode "dt".toList v tail l hm ⟨by decide, by decide, noBlank_of (by decide +kernel)⟩ hv htail hl hno hdash hlow
  unfold tfBeam floatAt
  rw [h]
  rfl

example : ∃ l : List (Opt × Str), gluedText "tf".toList "dt".toList "10.0".toList l [] = "tf:dt=10.0 df=3.05".toList
    ∧ (∀ o ∈ l, o.1.Fine ∧ Blanks o.2 ∧ o.2 ≠ []) ∧ (∀ o ∈ l, o.1.key ≠ "dt".toList) ∧ ¬ ['-', '-'] <:+: gluedText "tf".toList "dt".toList "10.0".toList l []
    ∧ lower (gluedText "tf".toList "dt".toList "10.0".toList l []) = gluedText "tf".toList "dt".toList "10.0".toList l [] := by
  refine ⟨[(.val "df".toList "3.05".toList, " ".toList)], by decide +kernel, ?_, ?_, by decide +kernel, by decide +kernel⟩
  · intro o ho
    rw [List.mem_singleton.1 ho]
    refine ⟨⟨noBlank_of (by decide +kernel), by decide, by decide, by decide, ?_⟩, blanks_of (by decide +kernel), by decide⟩
    intro k v e; injection e with e1 e2; subst e2; decide
  · intro o ho
    rw [List.mem_singleton.1 ho]
    decide

end Verif.Config
