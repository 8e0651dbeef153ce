import Verif.Cal.Summary
import Verif.Cal.PropsFiles
import Verif.Parset.PropsText

/-!
# Summary of a calendar
-/

namespace Verif.Cal

open Verif.Parset (splitOn splitOn_none splitOn_append)

variable {iso : ℚ → Txt}

/-! ## Specification -/

/-- The first project found in the name is that of the calendar. -/
def Consistent (x : NEvent) : Prop := kpSearch x.name = some x.kp

/-- The line expected for an event. -/
def expected (iso : ℚ → Txt) (x : NEvent) : Txt := iso x.b ++ ',' :: (iso x.e ++ ',' :: (x.kp ++ ',' :: x.name))

/-! ## Lines -/

theorem line_ok (x : NEvent) (h : Consistent x) : summaryLine iso x = .ok (expected iso x) := by
  unfold summaryLine
  rw [h]
  exact if_neg (fun h => h rfl)

theorem line_error (x : NEvent) (h : ¬ Consistent x) : summaryLine iso x = .error .exception := by
  unfold summaryLine
  cases hk : kpSearch x.name with
  | none => rfl
  | some k => exact if_pos (fun e => h (by unfold Consistent; rw [hk, e]))

theorem loop_ok (x : NEvent) (r : List NEvent) (h : Consistent x) : summaryLoop iso (x :: r) = (expected iso x :: (summaryLoop iso r).1, (summaryLoop iso r).2) := by
  rw [summaryLoop, line_ok x h]

theorem loop_error (x : NEvent) (r : List NEvent) (h : ¬ Consistent x) : summaryLoop iso (x :: r) = ([], some .exception) := by
  rw [summaryLoop, line_error x h]

theorem loop_spec (l : List NEvent) : (∀ x ∈ l, Consistent x) ∧ summaryLoop iso l = (l.map (expected iso), none) ∨
    ∃ a x b, l = a ++ x :: b ∧ (∀ y ∈ a, Consistent y) ∧ ¬ Consistent x ∧ summaryLoop iso l = (a.map (expected iso), some .exception) := by
  induction l with
  | nil => exact .inl ⟨(fun x h => nomatch h), rfl⟩
  | cons x r ih =>
    by_cases hx : Consistent x
    · rw [loop_ok x r hx]
      rcases ih with ⟨h1, h2⟩ | ⟨a, y, b, h1, h2, h3, h4⟩
      · left
        rw [h2]
        exact ⟨List.forall_mem_cons.2 ⟨hx, h1⟩, rfl⟩
      · right
        rw [h4]
        exact ⟨x :: a, y, b, by rw [h1]; rfl, List.forall_mem_cons.2 ⟨hx, h2⟩, h3, rfl⟩
    · right
      exact ⟨[], x, r, rfl, (fun y h => nomatch h), hx, loop_error x r hx⟩

theorem order_perm (l : List NEvent) : (orderEvents l).Perm l := List.perm_insertionSort _ _

/-! ## Order -/

theorem insert_apart (a : NEvent) (l : List NEvent) (ha : a.b < a.e) (hl : ∀ x ∈ l, x.b < x.e) (hd : ∀ x ∈ l, a.e ≤ x.b ∨ x.e ≤ a.b)
    (h : l.Pairwise fun x y => x.e ≤ y.b) : (l.orderedInsert NEvent.before a).Pairwise fun x y => x.e ≤ y.b := by
  induction l with
  | nil => exact List.pairwise_singleton _ _
  | cons x r ih =>
    obtain ⟨h1, h2⟩ := List.pairwise_cons.1 h
    have hx := hl x List.mem_cons_self
    by_cases hc : NEvent.before a x
    · rw [List.orderedInsert, if_pos hc]
      have hax : a.e ≤ x.b := by
        rcases hd x List.mem_cons_self with h3 | h3
        · exact h3
        · have : a.b < x.e := hc
          exact absurd this (not_lt.2 h3)
      refine List.pairwise_cons.2 ⟨fun y hy => ?_, h⟩
      rcases List.mem_cons.1 hy with rfl | hy
      · exact hax
      · have := h1 y hy
        linarith
    · rw [List.orderedInsert, if_neg hc]
      refine List.pairwise_cons.2 ⟨fun y hy => ?_, ih (fun y hy => hl y (List.mem_cons_of_mem _ hy)) (fun y hy => hd y (List.mem_cons_of_mem _ hy)) h2⟩
      rcases (List.mem_orderedInsert _).1 hy with rfl | hy
      · exact not_lt.1 hc
      · exact h1 y hy

/-- The events are sorted when they do not overlap. -/
theorem summary_order_partial (events : List NEvent) (hp : ∀ x ∈ events, x.b < x.e) (hd : events.Pairwise fun x y => x.e ≤ y.b ∨ y.e ≤ x.b) :
    (orderEvents events).Pairwise fun x y => x.e ≤ y.b := by
  induction events with
  | nil => exact List.Pairwise.nil
  | cons a l ih =>
    obtain ⟨h1, h2⟩ := List.pairwise_cons.1 hd
    have hm : ∀ x, x ∈ orderEvents l → x ∈ l := fun x h => (order_perm l).mem_iff.1 h
    exact insert_apart a (orderEvents l) (hp a List.mem_cons_self) (fun x h => hp x (List.mem_cons_of_mem _ (hm x h))) (fun x h => h1 x (hm x h))
      (ih (fun x h => hp x (List.mem_cons_of_mem _ h)) h2)

/-- Two events that overlap are left in the order in which they are, even if the second one starts and ends before. -/
theorem summary_order_violated (x y : NEvent) (hb : y.b < x.b) (he : y.e < x.e) (ho : x.b < y.e) : orderEvents [x, y] = [x, y] ∧ orderEvents [y, x] = [y, x] := by
  have h2 : y.b < x.e := by linarith
  constructor
  · exact List.Pairwise.insertionSort_eq (by simp only [List.pairwise_cons, List.mem_singleton, forall_eq, List.not_mem_nil, false_imp_iff, implies_true, List.Pairwise.nil, and_true]; exact ho)
  · exact List.Pairwise.insertionSort_eq (by simp only [List.pairwise_cons, List.mem_singleton, forall_eq, List.not_mem_nil, false_imp_iff, implies_true, List.Pairwise.nil, and_true]; exact h2)

example : orderEvents [⟨1, 3, [], []⟩, ⟨0, 2, [], []⟩] = [⟨1, 3, [], []⟩, ⟨0, 2, [], []⟩] := (summary_order_violated ⟨1, 3, [], []⟩ ⟨0, 2, [], []⟩ (by decide +kernel) (by decide +kernel) (by decide +kernel)).1

/-! ## Summary -/

/-- **The summary succeeds exactly when each name begins with (or first mentions) the project of its calendar**; then it has the header and exactly one line for each event, with its
times, project and name, in the order of the times if the events do not overlap. -/
theorem summary_exact (path filename : Txt) (events : List NEvent) {n : Txt} {ls : List Txt} {e : Option Err} (h : writeSummary iso path filename events = .ok (n, ls, e)) :
    (e = none ↔ ∀ x ∈ events, Consistent x) ∧ (e = none → ∃ r : List NEvent, r.Perm events ∧
      ((∀ x ∈ events, x.b < x.e) → (events.Pairwise fun x y => x.e ≤ y.b ∨ y.e ≤ x.b) → r.Pairwise fun x y => x.e ≤ y.b) ∧ ls = "start_iso,stop_iso,kp_code,name".toList :: r.map (expected iso)) := by
  obtain ⟨n', -, h⟩ : ∃ n', summaryName path filename = .ok n' ∧ (n', summaryHeader :: (summaryLoop iso (orderEvents events)).1, (summaryLoop iso (orderEvents events)).2) = (n, ls, e) := by
    unfold writeSummary at h
    cases hs : summaryName path filename with
    | error a => rw [hs] at h; exact nomatch h
    | ok a => rw [hs] at h; exact ⟨a, rfl, Except.ok.inj h⟩
  have h1 : summaryHeader :: (summaryLoop iso (orderEvents events)).1 = ls := congrArg (fun t => t.2.1) h
  have h2 : (summaryLoop iso (orderEvents events)).2 = e := congrArg (fun t => t.2.2) h
  have hp := order_perm events
  rcases loop_spec (iso := iso) (orderEvents events) with ⟨h3, h4⟩ | ⟨a, x, b, h3, h4, h5, h6⟩
  · rw [h4] at h1 h2
    exact ⟨⟨fun _ x hx => h3 x (hp.mem_iff.2 hx), fun _ => h2.symm⟩, fun _ => ⟨orderEvents events, hp, summary_order_partial events, h1.symm⟩⟩
  · rw [h6] at h2
    have hne : e ≠ none := by rw [← h2]; exact fun h => nomatch h
    refine ⟨⟨fun he => absurd he hne, fun hall => absurd (hall x (hp.mem_iff.1 ?_)) h5⟩, fun he => absurd he hne⟩
    rw [h3]
    simp

/-- An inconsistent event stops the summary, but the file stays on the disk with the lines of the events before it only. -/
theorem summary_stop_violated (path filename : Txt) (events : List NEvent) {n : Txt} (hn : summaryName path filename = .ok n) (hx : ∃ x ∈ events, ¬ Consistent x) :
    ∃ a x b, (a ++ x :: b).Perm events ∧ ¬ Consistent x ∧
      writeSummary iso path filename events = .ok (n, "start_iso,stop_iso,kp_code,name".toList :: a.map (expected iso), some .exception) := by
  have hp := order_perm events
  rcases loop_spec (iso := iso) (orderEvents events) with ⟨h3, -⟩ | ⟨a, x, b, h3, h4, h5, h6⟩
  · obtain ⟨x, h1, h2⟩ := hx
    exact absurd (h3 x (hp.mem_iff.2 h1)) h2
  · refine ⟨a, x, b, by rw [← h3]; exact hp, h5, ?_⟩
    unfold writeSummary
    rw [hn, h6]
    rfl

/-! ## Fields -/

/-- **A line has four fields**, the times, the project and the name, if the name has no comma. -/
theorem summary_fields_partial (hi : ∀ t, ',' ∉ iso t) (x : NEvent) (hk : ',' ∉ x.kp) (hn : ',' ∉ x.name) : splitOn ',' (expected iso x) = [iso x.b, iso x.e, x.kp, x.name] := by
  unfold expected
  rw [splitOn_append ',' _ _ (hi _), splitOn_append ',' _ _ (hi _), splitOn_append ',' _ _ hk, splitOn_none ',' _ hn]

theorem splitOn_two (c : Char) : ∀ s : Txt, c ∈ s → 2 ≤ (splitOn c s).length
  | [], h => nomatch h
  | a :: s, h => by
    have h1 : ∀ t, 1 ≤ (splitOn c t).length := by
      intro t
      induction t with
      | nil => exact le_rfl
      | cons b t ih =>
        rw [splitOn]
        split_ifs
        · exact Nat.le_add_left _ _
        · rw [List.length_modifyHead]
          exact ih
    by_cases ha : a = c
    · rw [splitOn, if_pos ha]
      have := h1 s
      rw [List.length_cons]
      omega
    · have hs : c ∈ s := by
        rcases List.mem_cons.1 h with rfl | h
        · exact absurd rfl ha
        · exact h
      have ih := splitOn_two c s hs
      rw [splitOn, if_neg ha, List.length_modifyHead]
      exact ih

/-- A comma in the name of an event gives a line of more than four fields: nothing is quoted. -/
theorem summary_comma_violated (hi : ∀ t, ',' ∉ iso t) (x : NEvent) (hk : ',' ∉ x.kp) (hn : ',' ∈ x.name) : 5 ≤ (splitOn ',' (expected iso x)).length := by
  unfold expected
  rw [splitOn_append ',' _ _ (hi _), splitOn_append ',' _ _ (hi _), splitOn_append ',' _ _ hk]
  have := splitOn_two ',' x.name hn
  simp only [List.length_cons]
  omega

example : Consistent ⟨0, 1, "ES02".toList, "ES02 beam, test".toList⟩ ∧ ',' ∈ "ES02 beam, test".toList ∧ ',' ∉ "ES02".toList := by
  unfold Consistent
  decide +kernel

/-! ## Name of the file -/

theorem base_noslash (s : Txt) : '/' ∉ baseName s := by
  unfold baseName
  rw [List.mem_reverse]
  intro h
  have := take_all _ _ h
  simp at this

theorem base_suffix (s : Txt) : baseName s <:+ s := by
  unfold baseName
  rw [← List.reverse_prefix, List.reverse_reverse]
  exact List.takeWhile_prefix _

/-- **The file is in the folder asked**, whatever folders are in the name given, and its name ends with `.csv`; other names are refused. -/
theorem summary_name (path filename : Txt) : (filename = [] → summaryName path filename = .ok (joinPath path "calendar_summary.csv".toList)) ∧
    (filename ≠ [] → ¬ ".csv".toList <:+ filename → summaryName path filename = .error .assertion) ∧
    (filename ≠ [] → ".csv".toList <:+ filename → ∃ b, summaryName path filename = .ok (joinPath path b) ∧ '/' ∉ b ∧ b <:+ filename ∧ ".csv".toList <:+ b) := by
  unfold summaryName
  refine ⟨fun h => if_neg (fun hn => hn h), fun h1 h2 => ?_, fun h1 h2 => ?_⟩
  · rw [if_pos h1]
    exact if_neg (fun h => h2 (List.isSuffixOf_iff_suffix.1 h))
  · rw [if_pos h1]
    refine ⟨baseName filename, if_pos (List.isSuffixOf_iff_suffix.2 h2), base_noslash _, base_suffix _, ?_⟩
    obtain ⟨t, rfl⟩ := h2
    unfold baseName
    rw [← List.reverse_prefix, List.reverse_reverse, List.reverse_append]
    have h3 : ∀ u : Txt, (".csv".toList.reverse) <+: (".csv".toList.reverse ++ u).takeWhile (fun c => c ≠ '/') := by
      intro u
      rw [List.takeWhile_append_of_pos (by decide +kernel)]
      exact List.prefix_append _ _
    exact h3 _

/-- The folder and the name are separated by exactly one slash. -/
theorem path_joined (path name : Txt) : joinPath [] name = name ∧ joinPath (path ++ ['/']) name = path ++ '/' :: name ∧
    (∀ c, c ≠ '/' → joinPath (path ++ [c]) name = path ++ c :: '/' :: name) := by
  unfold joinPath
  refine ⟨if_pos (Or.inl rfl), ?_, fun c hc => ?_⟩
  · rw [if_pos (Or.inr (by simp))]
    simp
  · rw [if_neg (by simp [hc])]
    simp

example : summaryName "out".toList "some/where.csv".toList = .ok "out/where.csv".toList := by decide +kernel

end Verif.Cal
