import Verif.Cal.PropsSheets

/-!
# C114: calendars read from several files, events moved by a sidereal day, pages of a calendar
-/

namespace Verif.Cal

variable {α : Type}

/-! ## Projects of the files -/

/-- **C114**: a file whose name begins with a project is a file of that project. -/
theorem name_project {kp : Txt} (h : IsKp kp) (rest : Txt) : kpSearch (kp ++ rest) = some kp := by
  have hk : kpAt (kp ++ rest) = some (kp, rest) := (kpAt_iff _ _ _).2 ⟨rfl, h⟩
  obtain ⟨a, b, c, d, rfl, _⟩ := h
  show ((kpAt ([a, b, c, d] ++ rest)).map Prod.fst).or _ = _
  rw [hk]
  rfl

example : IsKp "ES11".toList := ⟨'E', 'S', '1', '1', rfl, Or.inl ⟨rfl, rfl⟩, by decide, by decide⟩

/-- **C114**, violated: a name can contain the letters of a project before the project itself. -/
theorem name_violated (rest : Txt) : kpSearch ("RESULTS_".toList ++ rest) = some "ESUL".toList := rfl

/-! ## Dictionaries of calendars -/

/-- Every project has one calendar. -/
def OneEach (c : Cals α) : Prop := (c.map Prod.fst).Nodup

theorem putCal_keys (k : Txt) (v : List α) : ∀ c : Cals α, ∀ x, x ∈ (putCal k v c).map Prod.fst ↔ x = k ∨ x ∈ c.map Prod.fst
  | [], x => by simp [putCal]
  | y :: l, x => by
    unfold putCal
    by_cases h : y.1 = k
    · rw [if_pos h, List.map_cons, List.map_cons, List.mem_cons, List.mem_cons, h]
      tauto
    · rw [if_neg h, List.map_cons, List.map_cons, List.mem_cons, List.mem_cons, putCal_keys k v l x]
      tauto

theorem putCal_one (k : Txt) (v : List α) : ∀ c : Cals α, OneEach c → OneEach (putCal k v c)
  | [], _ => List.nodup_singleton _
  | y :: l, h => by
    unfold OneEach at h ⊢
    rw [List.map_cons, List.nodup_cons] at h
    unfold putCal
    by_cases hy : y.1 = k
    · rw [if_pos hy, List.map_cons, List.nodup_cons, ← hy]
      exact h
    · rw [if_neg hy, List.map_cons, List.nodup_cons]
      refine ⟨?_, putCal_one k v l h.2⟩
      rw [putCal_keys]
      rintro (e | e)
      · exact hy e
      · exact h.1 e

theorem getCal_put (k : Txt) (v : List α) (k' : Txt) : ∀ c : Cals α, getCal k' (putCal k v c) = if k' = k then v else getCal k' c
  | [] => by
    unfold putCal getCal
    by_cases h : k' = k
    · subst h; simp
    · have : k ≠ k' := fun e => h e.symm
      simp [h, this]
  | y :: l => by
    unfold putCal
    have ih := getCal_put k v k' l
    unfold getCal at ih ⊢
    by_cases hy : y.1 = k
    · rw [if_pos hy]
      by_cases h : k' = k
      · subst h; simp
      · have h1 : k ≠ k' := fun e => h e.symm
        have h2 : y.1 ≠ k' := by rw [hy]; exact h1
        rw [List.find?_cons_of_neg (by simpa using h1), if_neg h, List.find?_cons_of_neg (by simpa using h2)]
    · rw [if_neg hy]
      by_cases h2 : y.1 = k'
      · have : ¬ k' = k := by rintro rfl; exact hy h2
        rw [List.find?_cons_of_pos (by simpa using h2), if_neg this, List.find?_cons_of_pos (by simpa using h2)]
      · rw [List.find?_cons_of_neg (by simpa using h2), ih, List.find?_cons_of_neg (by simpa using h2)]

theorem getCal_mem : ∀ {c : Cals α}, OneEach c → ∀ {k : Txt} {v : List α}, (k, v) ∈ c → getCal k c = v
  | [], _, _, _, h => by cases h
  | y :: l, hc, k, v, h => by
    unfold OneEach at hc
    rw [List.map_cons, List.nodup_cons] at hc
    unfold getCal
    rcases List.mem_cons.1 h with rfl | h
    · rw [List.find?_cons_of_pos (by simp)]; rfl
    · have : y.1 ≠ k := by rintro rfl; exact hc.1 (List.mem_map.2 ⟨_, h, rfl⟩)
      rw [List.find?_cons_of_neg (by simpa using this)]
      exact getCal_mem (c := l) hc.2 h

theorem getCal_some {c : Cals α} {k : Txt} {e : α} (h : e ∈ getCal k c) : ∃ v, (k, v) ∈ c ∧ e ∈ v := by
  unfold getCal at h
  cases hf : c.find? fun x => decide (x.1 = k) with
  | none => rw [hf] at h; cases h
  | some y =>
    rw [hf] at h
    have h1 : y.1 = k := by simpa using List.find?_some hf
    refine ⟨y.2, ?_, h⟩
    have := List.mem_of_find?_eq_some hf
    rw [← h1]; exact this

theorem calEvents_mem {c : Cals α} (hc : OneEach c) (k : Txt) (e : α) : (k, e) ∈ calEvents c ↔ e ∈ getCal k c := by
  unfold calEvents
  rw [List.mem_flatMap]
  constructor
  · rintro ⟨y, hy, h⟩
    obtain ⟨e', he, h⟩ := List.mem_map.1 h
    injection h with h1 h2
    subst h1; subst h2
    rw [getCal_mem (v := y.2) hc hy]; exact he
  · intro h
    obtain ⟨v, hv, he⟩ := getCal_some h
    exact ⟨(k, v), hv, List.mem_map.2 ⟨e, he, rfl⟩⟩

/-! ## The CSV files -/

/-- The calendars after some files, one way or the other. -/
theorem fold_files (upd : Cals α → Txt → List α → List α) : ∀ (files : List (Txt × List α)) (c c' : Cals α), OneEach c →
    files.foldl (fun (acc : Except Err (Cals α)) f => acc.bind fun c => (kpSearch f.1).elim (.error .valueError) fun k => .ok (putCal k (upd c k f.2) c)) (.ok c) = .ok c' →
    OneEach c' ∧ ∀ f ∈ files, ∃ k, kpSearch f.1 = some k
  | [], c, c', hc, h => by injection h with h; subst h; exact ⟨hc, fun f hf => by cases hf⟩
  | f :: files, c, c', hc, h => by
    rw [List.foldl_cons] at h
    cases hk : kpSearch f.1 with
    | none =>
      rw [hk] at h
      have hstuck : ∀ l : List (Txt × List α), l.foldl (fun (acc : Except Err (Cals α)) f => acc.bind fun c => (kpSearch f.1).elim (.error .valueError)
          fun k => .ok (putCal k (upd c k f.2) c)) (.error .valueError) = .error .valueError := by
        intro l
        induction l with
        | nil => rfl
        | cons x l ih => rw [List.foldl_cons]; exact ih
      have h' : files.foldl (fun (acc : Except Err (Cals α)) f => acc.bind fun c => (kpSearch f.1).elim (.error .valueError)
          fun k => .ok (putCal k (upd c k f.2) c)) (.error .valueError) = .ok c' := h
      rw [hstuck] at h'
      cases h'
    | some k =>
      rw [hk] at h
      obtain ⟨h1, h2⟩ := fold_files upd files (putCal k (upd c k f.2) c) c' (putCal_one _ _ _ hc) h
      refine ⟨h1, fun g hg => ?_⟩
      rcases List.mem_cons.1 hg with rfl | hg
      · exact ⟨k, hk⟩
      · exact h2 g hg

theorem fold_csv : ∀ (files : List (Txt × List α)) (c c' : Cals α),
    files.foldl (fun (acc : Except Err (Cals α)) f => acc.bind fun c => (kpSearch f.1).elim (.error .valueError) fun k => .ok (putCal k (getCal k c ++ f.2) c)) (.ok c) = .ok c' →
    ∀ k e, e ∈ getCal k c' ↔ e ∈ getCal k c ∨ ∃ f ∈ files, kpSearch f.1 = some k ∧ e ∈ f.2
  | [], c, c', h, k, e => by injection h with h; subst h; simp
  | f :: files, c, c', h, k, e => by
    rw [List.foldl_cons] at h
    obtain ⟨k0, hk⟩ : ∃ k0, kpSearch f.1 = some k0 := by
      cases hk : kpSearch f.1 with
      | some k0 => exact ⟨k0, rfl⟩
      | none =>
        have hstuck : ∀ l : List (Txt × List α), l.foldl (fun (acc : Except Err (Cals α)) f => acc.bind fun c => (kpSearch f.1).elim (.error .valueError)
            fun k => .ok (putCal k (getCal k c ++ f.2) c)) (.error .valueError) = .error .valueError := by
          intro l
          induction l with
          | nil => rfl
          | cons x l ih => rw [List.foldl_cons]; exact ih
        rw [hk] at h
        have h' : files.foldl (fun (acc : Except Err (Cals α)) f => acc.bind fun c => (kpSearch f.1).elim (.error .valueError)
          fun k => .ok (putCal k (getCal k c ++ f.2) c)) (.error .valueError) = .ok c' := h
        rw [hstuck] at h'
        cases h'
    rw [hk] at h
    rw [fold_csv files (putCal k0 (getCal k0 c ++ f.2) c) c' h k e, getCal_put]
    clear h
    by_cases hkk : k = k0
    · subst hkk
      rw [if_pos rfl, List.mem_append]
      constructor
      · rintro ((h | h) | ⟨g, hg, h⟩)
        · exact Or.inl h
        · exact Or.inr ⟨f, List.mem_cons_self, hk, h⟩
        · exact Or.inr ⟨g, List.mem_cons_of_mem _ hg, h⟩
      · rintro (h | ⟨g, hg, h⟩)
        · exact Or.inl (Or.inl h)
        · rcases List.mem_cons.1 hg with rfl | hg
          · exact Or.inl (Or.inr h.2)
          · exact Or.inr ⟨g, hg, h⟩
    · rw [if_neg hkk]
      constructor
      · rintro (h | ⟨g, hg, h⟩)
        · exact Or.inl h
        · exact Or.inr ⟨g, List.mem_cons_of_mem _ hg, h⟩
      · rintro (h | ⟨g, hg, h⟩)
        · exact Or.inl h
        · rcases List.mem_cons.1 hg with rfl | hg
          · rw [hk] at h; injection h.1 with h1; exact absurd h1.symm hkk
          · exact Or.inr ⟨g, hg, h⟩

/-- **C114**: the events read from CSV files are the events of all the files, each with the project of its file; every file has one. -/
theorem csv_exact (files : List (Txt × List α)) (out : List (Txt × α)) (h : fromCsv files = .ok out) :
    (∀ f ∈ files, ∃ k, kpSearch f.1 = some k) ∧ ∀ k e, (k, e) ∈ out ↔ ∃ f ∈ files, kpSearch f.1 = some k ∧ e ∈ f.2 := by
  unfold fromCsv at h
  cases hr : files.foldl (fun (acc : Except Err (Cals α)) f => acc.bind fun c => (kpSearch f.1).elim (.error .valueError)
      fun k => .ok (putCal k (getCal k c ++ f.2) c)) (.ok []) with
  | error e => rw [hr] at h; cases h
  | ok c' =>
    rw [hr] at h
    injection h with h
    subst h
    obtain ⟨h1, h2⟩ := fold_files (fun c k v => getCal k c ++ v) files [] c' List.nodup_nil hr
    refine ⟨h2, fun k e => ?_⟩
    rw [calEvents_mem h1, fold_csv files [] c' hr k e]
    simp [getCal]

/-- **C114**: CSV files are read when each of their names contains a project. -/
theorem csv_read (files : List (Txt × List α)) (h : ∀ f ∈ files, ∃ k, kpSearch f.1 = some k) : ∃ out, fromCsv files = .ok out := by
  have key : ∀ (l : List (Txt × List α)) (c : Cals α), (∀ f ∈ l, ∃ k, kpSearch f.1 = some k) →
      ∃ c', l.foldl (fun (acc : Except Err (Cals α)) f => acc.bind fun c => (kpSearch f.1).elim (.error .valueError)
        fun k => .ok (putCal k (getCal k c ++ f.2) c)) (.ok c) = .ok c' := by
    intro l
    induction l with
    | nil => intro c _; exact ⟨c, rfl⟩
    | cons f l ih =>
      intro c hl
      obtain ⟨k, hk⟩ := hl f List.mem_cons_self
      rw [List.foldl_cons]
      obtain ⟨c', hc'⟩ := ih (putCal k (getCal k c ++ f.2) c) fun g hg => hl g (List.mem_cons_of_mem _ hg)
      refine ⟨c', ?_⟩
      rw [← hc', hk]
      rfl
  obtain ⟨c', hc'⟩ := key files [] h
  refine ⟨calEvents c', ?_⟩
  unfold fromCsv
  rw [hc']
  rfl

example : (fromCsv [("ES01.csv".toList, [1, 2]), ("LT02.csv".toList, [3]), ("ES01_b.csv".toList, [4])]).toOption
    = some [("ES01".toList, 1), ("ES01".toList, 2), ("ES01".toList, 4), ("LT02".toList, 3)] := by decide +kernel

/-! ## The calendars and the spreadsheets -/

/-- The last file of a project. -/
def LastOf (files : List (Txt × List α)) (k : Txt) (v : List α) : Prop :=
  ∃ pre f post, files = pre ++ f :: post ∧ kpSearch f.1 = some k ∧ f.2 = v ∧ ∀ g ∈ post, kpSearch g.1 ≠ some k

theorem fold_ics : ∀ (files : List (Txt × List α)) (c c' : Cals α),
    files.foldl (fun (acc : Except Err (Cals α)) f => acc.bind fun c => (kpSearch f.1).elim (.error .valueError) fun k => .ok (putCal k f.2 c)) (.ok c) = .ok c' →
    ∀ k e, e ∈ getCal k c' ↔ (∃ v, LastOf files k v ∧ e ∈ v) ∨ ((∀ f ∈ files, kpSearch f.1 ≠ some k) ∧ e ∈ getCal k c)
  | [], c, c', h, k, e => by
    injection h with h
    subst h
    refine ⟨fun h => Or.inr ⟨(fun f hf => by cases hf), h⟩, ?_⟩
    rintro (⟨v, ⟨pre, f, post, e1, _⟩, _⟩ | ⟨_, h⟩)
    · exact absurd e1 (by cases pre <;> simp)
    · exact h
  | f :: files, c, c', h, k, e => by
    rw [List.foldl_cons] at h
    obtain ⟨k0, hk⟩ : ∃ k0, kpSearch f.1 = some k0 := by
      cases hk : kpSearch f.1 with
      | some k0 => exact ⟨k0, rfl⟩
      | none =>
        have hstuck : ∀ l : List (Txt × List α), l.foldl (fun (acc : Except Err (Cals α)) f => acc.bind fun c => (kpSearch f.1).elim (.error .valueError)
            fun k => .ok (putCal k f.2 c)) (.error .valueError) = .error .valueError := by
          intro l
          induction l with
          | nil => rfl
          | cons x l ih => rw [List.foldl_cons]; exact ih
        rw [hk] at h
        have h' : files.foldl (fun (acc : Except Err (Cals α)) f => acc.bind fun c => (kpSearch f.1).elim (.error .valueError)
          fun k => .ok (putCal k f.2 c)) (.error .valueError) = .ok c' := h
        rw [hstuck] at h'
        cases h'
    rw [hk] at h
    rw [fold_ics files (putCal k0 f.2 c) c' h k e, getCal_put]
    constructor
    · rintro (⟨v, ⟨pre, g, post, e1, h1⟩, hv⟩ | ⟨hn, h⟩)
      · exact Or.inl ⟨v, ⟨f :: pre, g, post, by rw [e1]; rfl, h1⟩, hv⟩
      · by_cases hkk : k = k0
        · subst hkk
          rw [if_pos rfl] at h
          exact Or.inl ⟨f.2, ⟨[], f, files, rfl, hk, rfl, hn⟩, h⟩
        · rw [if_neg hkk] at h
          refine Or.inr ⟨fun g hg => ?_, h⟩
          rcases List.mem_cons.1 hg with rfl | hg
          · rw [hk]; intro e; injection e with e; exact hkk e.symm
          · exact hn g hg
    · rintro (⟨v, ⟨pre, g, post, e1, h1, h2, h3⟩, hv⟩ | ⟨hn, h⟩)
      · cases pre with
        | nil =>
          injection e1 with e1 e2
          subst e1; subst e2
          rw [hk] at h1
          injection h1 with h1
          subst h1
          exact Or.inr ⟨h3, by rw [if_pos rfl, h2]; exact hv⟩
        | cons y pre =>
          injection e1 with e1 e2
          exact Or.inl ⟨v, ⟨pre, g, post, e2, h1, h2, h3⟩, hv⟩
      · refine Or.inr ⟨fun g hg => hn g (List.mem_cons_of_mem _ hg), ?_⟩
        have : k ≠ k0 := by rintro rfl; exact hn f List.mem_cons_self hk
        rw [if_neg this]
        exact h

/-- **C114**: the events read from calendar files are, for each project, those of its last file. -/
theorem ics_last (files : List (Txt × List α)) (out : List (Txt × α)) (h : fromIcs files = .ok out) :
    (∀ f ∈ files, ∃ k, kpSearch f.1 = some k) ∧ ∀ k e, (k, e) ∈ out ↔ ∃ v, LastOf files k v ∧ e ∈ v := by
  unfold fromIcs at h
  cases hr : files.foldl (fun (acc : Except Err (Cals α)) f => acc.bind fun c => (kpSearch f.1).elim (.error .valueError)
      fun k => .ok (putCal k f.2 c)) (.ok []) with
  | error e => rw [hr] at h; cases h
  | ok c' =>
    rw [hr] at h
    injection h with h
    subst h
    obtain ⟨h1, h2⟩ := fold_files (fun _ _ v => v) files [] c' List.nodup_nil hr
    refine ⟨h2, fun k e => ?_⟩
    rw [calEvents_mem h1, fold_ics files [] c' hr k e]
    simp [getCal]

/-- **C114**, partial: nothing is lost when the files are for different projects. -/
theorem ics_partial (files : List (Txt × List α)) (out : List (Txt × α)) (h : fromIcs files = .ok out)
    (hd : files.Pairwise fun f g => kpSearch f.1 ≠ kpSearch g.1) (k : Txt) (e : α) :
    (k, e) ∈ out ↔ ∃ f ∈ files, kpSearch f.1 = some k ∧ e ∈ f.2 := by
  rw [(ics_last files out h).2]
  constructor
  · rintro ⟨v, ⟨pre, f, post, rfl, h1, h2, _⟩, hv⟩
    exact ⟨f, List.mem_append_right _ List.mem_cons_self, h1, by rw [h2]; exact hv⟩
  · rintro ⟨f, hf, h1, he⟩
    obtain ⟨pre, post, rfl⟩ := List.append_of_mem hf
    refine ⟨f.2, ⟨pre, f, post, rfl, h1, rfl, fun g hg => ?_⟩, he⟩
    have := (List.pairwise_cons.1 (List.pairwise_append.1 hd).2.1).1 g hg
    rw [h1] at this
    exact this.symm

example : ∃ out, fromIcs [("ES01.ics".toList, [1, 2]), ("LT02.ics".toList, [3])] = .ok out ∧
    ([("ES01.ics".toList, [1, 2]), ("LT02.ics".toList, [3])] : List (Txt × List Nat)).Pairwise fun f g => kpSearch f.1 ≠ kpSearch g.1 :=
  ⟨[("ES01".toList, 1), ("ES01".toList, 2), ("LT02".toList, 3)], by decide +kernel, by decide +kernel⟩

/-- **C114**, violated: with two calendar files of the same project, the events of the first one are lost. -/
theorem ics_violated (k n1 n2 : Txt) (h1 : kpSearch n1 = some k) (h2 : kpSearch n2 = some k) (v w : List α) :
    fromIcs [(n1, v), (n2, w)] = .ok (w.map fun e => (k, e)) := by
  unfold fromIcs
  rw [List.foldl_cons, List.foldl_cons, List.foldl_nil]
  dsimp only
  rw [h1, h2]
  show Except.ok (calEvents (putCal k w (putCal k v []))) = _
  have : putCal k w (putCal k v []) = [(k, w)] := if_pos rfl
  rw [this]
  unfold calEvents
  rw [List.flatMap_singleton]

theorem put_all : ∀ (f : Cals α) (c : Cals α) (k : Txt), OneEach f →
    getCal k (f.foldl (fun c x => putCal x.1 x.2 c) c) = if k ∈ f.map Prod.fst then getCal k f else getCal k c
  | [], c, k, _ => by simp
  | x :: f, c, k, hf => by
    unfold OneEach at hf
    rw [List.map_cons, List.nodup_cons] at hf
    rw [List.foldl_cons, put_all f (putCal x.1 x.2 c) k hf.2, getCal_put, List.map_cons]
    by_cases h1 : k ∈ f.map Prod.fst
    · have : x.1 ≠ k := by rintro rfl; exact hf.1 h1
      rw [if_pos h1, if_pos (List.mem_cons_of_mem _ h1)]
      unfold getCal
      rw [List.find?_cons_of_neg (by simpa using this)]
    · rw [if_neg h1]
      by_cases h2 : k = x.1
      · subst h2
        rw [if_pos rfl, if_pos List.mem_cons_self]
        unfold getCal
        rw [List.find?_cons_of_pos (by simp)]
        rfl
      · rw [if_neg h2, if_neg]
        intro h
        rcases List.mem_cons.1 h with h | h
        · exact h2 h
        · exact h1 h

theorem put_all_one : ∀ (f : Cals α) (c : Cals α), OneEach c → OneEach (f.foldl (fun c x => putCal x.1 x.2 c) c)
  | [], _, h => h
  | x :: f, c, h => by
    rw [List.foldl_cons]
    exact put_all_one f _ (putCal_one _ _ _ h)

/-- **C114**: the events read from spreadsheets are, for each project, those of the last file which has the project. -/
theorem xls_last (files : List (Cals α)) (hf : ∀ f ∈ files, OneEach f) (k : Txt) (e : α) :
    (k, e) ∈ fromXls files ↔ ∃ pre f post, files = pre ++ f :: post ∧ e ∈ getCal k f ∧ k ∈ f.map Prod.fst ∧ ∀ g ∈ post, k ∉ g.map Prod.fst := by
  have key : ∀ (l : List (Cals α)) (c : Cals α), (∀ f ∈ l, OneEach f) → OneEach c →
      OneEach (l.foldl (fun c f => f.foldl (fun c x => putCal x.1 x.2 c) c) c) ∧
      (e ∈ getCal k (l.foldl (fun c f => f.foldl (fun c x => putCal x.1 x.2 c) c) c) ↔
        (∃ pre f post, l = pre ++ f :: post ∧ e ∈ getCal k f ∧ k ∈ f.map Prod.fst ∧ ∀ g ∈ post, k ∉ g.map Prod.fst) ∨
          ((∀ g ∈ l, k ∉ g.map Prod.fst) ∧ e ∈ getCal k c)) := by
    intro l
    induction l with
    | nil =>
      intro c _ hc
      refine ⟨hc, fun h => Or.inr ⟨(fun g hg => by cases hg), h⟩, ?_⟩
      rintro (⟨pre, f, post, e1, _⟩ | ⟨_, h⟩)
      · exact absurd e1 (by cases pre <;> simp)
      · exact h
    | cons f l ih =>
      intro c hl hc
      rw [List.foldl_cons]
      obtain ⟨h1, h2⟩ := ih (f.foldl (fun c x => putCal x.1 x.2 c) c) (fun g hg => hl g (List.mem_cons_of_mem _ hg)) (put_all_one f c hc)
      refine ⟨h1, ?_⟩
      rw [h2, put_all f c k (hl f List.mem_cons_self)]
      constructor
      · rintro (⟨pre, g, post, e1, h⟩ | ⟨hn, h⟩)
        · exact Or.inl ⟨f :: pre, g, post, by rw [e1]; rfl, h⟩
        · by_cases hk : k ∈ f.map Prod.fst
          · rw [if_pos hk] at h
            exact Or.inl ⟨[], f, l, rfl, h, hk, hn⟩
          · rw [if_neg hk] at h
            refine Or.inr ⟨fun g hg => ?_, h⟩
            rcases List.mem_cons.1 hg with rfl | hg
            · exact hk
            · exact hn g hg
      · rintro (⟨pre, g, post, e1, h3, h4, h5⟩ | ⟨hn, h⟩)
        · cases pre with
          | nil =>
            injection e1 with e1 e2
            subst e1; subst e2
            exact Or.inr ⟨h5, by rw [if_pos h4]; exact h3⟩
          | cons y pre =>
            injection e1 with e1 e2
            exact Or.inl ⟨pre, g, post, e2, h3, h4, h5⟩
        · refine Or.inr ⟨fun g hg => hn g (List.mem_cons_of_mem _ hg), ?_⟩
          rw [if_neg (hn f List.mem_cons_self)]
          exact h
  obtain ⟨h1, h2⟩ := key files [] hf List.nodup_nil
  unfold fromXls
  rw [calEvents_mem h1, h2]
  simp [getCal]

/-- **C114**, violated: with two spreadsheets which have the same project, its events in the first one are lost. -/
theorem xls_violated (k : Txt) (v w : List α) : fromXls [[(k, v)], [(k, w)]] = w.map fun e => (k, e) := by
  show calEvents (putCal k w (putCal k v [])) = _
  have : putCal k w (putCal k v []) = [(k, w)] := if_pos rfl
  rw [this]
  unfold calEvents
  rw [List.flatMap_singleton]

/-! ## Moving events -/

theorem sidereal_pos : 0 < siderealDay := by unfold siderealDay; norm_num

/-- **C114**: the bounds of an event are moved exactly if they stay in order. -/
theorem slot_bounds (x : Slot) (v : ℚ) :
    (v ≤ x.e → x.setBegin v = .ok ⟨v, x.e⟩) ∧ (x.e < v → x.setBegin v = .error .valueError) ∧
    (x.b ≤ v → x.setEnd v = .ok ⟨x.b, v⟩) ∧ (v < x.b → x.setEnd v = .error .valueError) :=
  ⟨fun h => if_neg (not_lt.2 h), fun h => if_pos h, fun h => if_neg (not_lt.2 h), fun h => if_pos h⟩

/-- **C114**: an event moves one sidereal day earlier or later, and keeps its duration, whatever it is. -/
theorem shift_exact (x : Slot) (h : x.b ≤ x.e) :
    x.earlier = .ok ⟨x.b - siderealDay, x.e - siderealDay⟩ ∧ x.later = .ok ⟨x.b + siderealDay, x.e + siderealDay⟩ := by
  have := sidereal_pos
  constructor
  · unfold Slot.earlier Slot.setBegin
    rw [if_neg (by linarith)]
    show Slot.setEnd ⟨x.b - siderealDay, x.e⟩ (x.e - siderealDay) = _
    unfold Slot.setEnd
    rw [if_neg (by dsimp only; linarith)]
  · unfold Slot.later Slot.setEnd
    rw [if_neg (by linarith)]
    show Slot.setBegin ⟨x.b, x.e + siderealDay⟩ (x.b + siderealDay) = _
    unfold Slot.setBegin
    rw [if_neg (by dsimp only; linarith)]

/-- **C114**: moving an event earlier and then later leaves it where it was, and the other way round; the move is a sidereal day of a year of 365.2422 days, within a millisecond. -/
theorem shift_back (x : Slot) (h : x.b ≤ x.e) :
    (x.earlier.bind Slot.later) = .ok x ∧ (x.later.bind Slot.earlier) = .ok x ∧
      |siderealDay - 24 * (3652422 / 3662422)| < 1 / 3600 / 1000 := by
  refine ⟨?_, ?_, by unfold siderealDay; rw [abs_lt]; norm_num⟩
  · rw [(shift_exact x h).1]
    show Slot.later ⟨x.b - siderealDay, x.e - siderealDay⟩ = _
    rw [(shift_exact _ (by dsimp only; linarith)).2]
    dsimp only
    rw [sub_add_cancel, sub_add_cancel]
  · rw [(shift_exact x h).2]
    show Slot.earlier ⟨x.b + siderealDay, x.e + siderealDay⟩ = _
    rw [(shift_exact _ (by dsimp only; linarith)).1]
    dsimp only
    rw [add_sub_cancel_right, add_sub_cancel_right]

/-- **C114**, violated: moving the selected event with the keyboard moves it, and then raises an error; no key press on a selected event draws it where it is. -/
theorem key_violated (x : Slot) (h : x.b ≤ x.e) :
    keyPress true .up x = (⟨x.b - siderealDay, x.e - siderealDay⟩, some .typeError) ∧
    keyPress true .down x = (⟨x.b + siderealDay, x.e + siderealDay⟩, some .typeError) ∧
    keyPress true .other x = (x, none) ∧ ∀ k, keyPress false k x = (x, none) := by
  refine ⟨?_, ?_, if_pos (Or.inr rfl), fun k => if_pos (Or.inl rfl)⟩
  · unfold keyPress
    rw [if_neg (by rintro (h | h) <;> cases h), if_pos rfl, (shift_exact x h).1]
    rfl
  · unfold keyPress
    rw [if_neg (by rintro (h | h) <;> cases h), if_neg (by intro h; cases h), (shift_exact x h).2]
    rfl

example : keyPress true .up ⟨100, 102⟩ = (⟨100 - siderealDay, 102 - siderealDay⟩, some .typeError) := (key_violated _ (by norm_num)).1

/-! ## Pages -/

/-- **C114**, partial: an event whose months are at most two consecutive ones is drawn on the lines of the days it has in common, and on no others. -/
theorem page_partial (month : ℚ → Int) (hm : Monotone month) (b e : ℚ) (hbe : b < e) (h2 : month e ≤ month b + 1) (page : Int) (d0 d1 : ℚ) (hd : d0 < d1)
    (hday : ∀ t, d0 ≤ t → t < d1 → month t = page) :
    drawnOn month b e page d0 d1 = true ↔ b < d1 ∧ d0 < e := by
  unfold drawnOn
  rw [Bool.and_eq_true]
  have hti : timeIntersection b e d0 d1 = true ↔ b < d1 ∧ d0 < e := by
    rw [intersection_exact b e d0 d1 hbe hd]
    constructor
    · rintro ⟨t, h1, h2, h3, h4⟩
      exact ⟨by linarith, by linarith⟩
    · rintro ⟨h1, h2⟩
      obtain ⟨t, h3, h4⟩ := exists_between (show max b d0 < min e d1 by
        rw [max_lt_iff, lt_min_iff, lt_min_iff]
        exact ⟨⟨hbe, h1⟩, ⟨h2, hd⟩⟩)
      rw [max_lt_iff] at h3
      rw [lt_min_iff] at h4
      exact ⟨t, h3.1, h4.1, h3.2, h4.2⟩
  rw [hti]
  refine ⟨fun h => h.2, fun h => ⟨?_, h⟩⟩
  have hmm : max b d0 < min e d1 := by
    rw [max_lt_iff, lt_min_iff, lt_min_iff]
    exact ⟨⟨hbe, h.1⟩, ⟨h.2, hd⟩⟩
  have hp : month (max b d0) = page := hday _ (le_max_right _ _) (lt_of_lt_of_le hmm (min_le_right _ _))
  have l1 : month b ≤ page := by rw [← hp]; exact hm (le_max_left _ _)
  have l2 : page ≤ month e := by rw [← hp]; exact hm (le_of_lt (lt_of_lt_of_le hmm (min_le_left _ _)))
  unfold onPage
  rw [Bool.or_eq_true, Bool.and_eq_true, decide_eq_true_iff, decide_eq_true_iff, decide_eq_true_iff]
  rcases (by omega : page = month b ∨ (page = month e ∧ month e = month b + 1)) with h | ⟨h, h'⟩
  · exact Or.inl h
  · exact Or.inr ⟨by omega, h⟩

example : drawnOn (fun t => ⌊t / 720⌋) 700 730 1 720 744 = true :=
  (page_partial (fun t => ⌊t / 720⌋) (fun x y h => Int.floor_le_floor (by linarith)) 700 730 (by norm_num) (by norm_num) 1 720 744 (by norm_num)
    (fun t h1 h2 => by rw [Int.floor_eq_iff]; constructor <;> push_cast <;> linarith)).2 ⟨by norm_num, by norm_num⟩

/-- **C114**, violated: an event over more than two months is not drawn in the months between the first and the last; an event ending in the month of the same name, a year
later, is not drawn after the month in which it begins. -/
theorem page_violated (month : ℚ → Int) (b e d0 d1 : ℚ) (page : Int) :
    (month b < page → page < month e → drawnOn month b e page d0 d1 = false) ∧
    (month e = month b + 12 → page ≠ month b → drawnOn month b e page d0 d1 = false) := by
  constructor
  · intro h1 h2
    unfold drawnOn onPage
    rw [decide_eq_false (by omega), decide_eq_false (p := page = month e) (by omega), Bool.and_false]
    rfl
  · intro h1 h2
    unfold drawnOn onPage
    rw [decide_eq_false h2, decide_eq_false (p := month b % 12 ≠ month e % 12) (by omega)]
    rfl

end Verif.Cal
