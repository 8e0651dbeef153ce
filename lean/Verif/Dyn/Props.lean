import Verif.Dyn.Model
import Verif.IO.PropsSlices
import Mathlib.Tactic.Linarith
import Mathlib.Tactic.NormNum
import Mathlib.Tactic.Push
import Mathlib.Data.List.GetD

/-!
# Settings of the older reader, gathering of the lanes, writing and corrections (C86 to C92)
-/

namespace Verif.Dyn

/-! ## C86: settings -/

/-- What a user may rely on: the beam exists, the ranges are in order, and the channels removed at both edges fit in a sub-band. -/
structure Valid (r : Reader) : Prop where
  beam : r.beam ∈ beamsOf r
  times : ∀ p, r.trange = some p → p.1 < p.2
  freqs : ∀ p, r.frange = some p → p.1 < p.2
  edges : 0 ≤ r.edges ∧ r.edges * 2 ≤ nchan r

theorem foldl_min_mem : ∀ (l : List Nat) (a : Nat), l.foldl min a = a ∨ l.foldl min a ∈ l
  | [], _ => .inl rfl
  | x :: l, a => by
    rw [List.foldl_cons]
    rcases foldl_min_mem l (min a x) with h | h
    · rw [h]
      rcases min_choice a x with h | h
      · exact .inl h
      · exact .inr (by rw [h]; exact List.mem_cons_self ..)
    · exact .inr (List.mem_cons_of_mem _ h)

theorem least_mem {l : List Nat} (h : l ≠ []) : least l ∈ l := by
  unfold least
  rcases foldl_min_mem l (l.headD 0) with h' | h'
  · rw [h']
    cases l with
    | nil => exact absurd rfl h
    | cons x l => exact List.mem_cons_self ..
  · exact h'

theorem setBeam_int (r : Reader) (b : Int) : setBeam r (.int b) =
    if 0 ≤ b ∧ b.toNat ∈ beamsOf r then .ok { r with beam := b.toNat }
    else if beamsOf r = [] then .error .indexError
    else .ok { r with beam := least (beamsOf r) } := rfl

theorem setEdges_int (r : Reader) (n : Int) : setEdges r (.int n) =
    if (nchan r : Int) < n * 2 then { r with edges := 0 }
    else if n < 0 then { r with edges := 0 }
    else { r with edges := n } := rfl

theorem setBeam_beam {r s : Reader} {a : Arg} (h : setBeam r a = .ok s) :
    s.beam ∈ beamsOf r ∧ s = { r with beam := s.beam } := by
  cases a with
  | other => cases h
  | int b =>
    rw [setBeam_int] at h
    by_cases h1 : 0 ≤ b ∧ b.toNat ∈ beamsOf r
    · rw [if_pos h1] at h
      cases h
      exact ⟨h1.2, rfl⟩
    · rw [if_neg h1] at h
      by_cases h2 : beamsOf r = []
      · rw [if_pos h2] at h
        cases h
      · rw [if_neg h2] at h
        cases h
        exact ⟨least_mem h2, rfl⟩

theorem setEdges_fields (r : Reader) (a : Arg) :
    (setEdges r a).lanes = r.lanes ∧ (setEdges r a).beam = r.beam ∧ (setEdges r a).trange = r.trange ∧ (setEdges r a).frange = r.frange ∧
      0 ≤ (setEdges r a).edges ∧ (setEdges r a).edges * 2 ≤ nchan r := by
  cases a with
  | other => simp [setEdges]
  | int n =>
    rw [setEdges_int]
    split_ifs with h1 h2
    · simp
    · simp
    · exact ⟨rfl, rfl, rfl, rfl, by push Not at h2; exact h2, by push Not at h1; exact h1⟩

theorem applySet_valid {r : Reader} (h : Valid r) (s : Set) : Valid (applySet r s) ∧ (applySet r s).lanes = r.lanes := by
  cases s with
  | times t =>
    show Valid (((setTimes r t).toOption).getD r) ∧ (((setTimes r t).toOption).getD r).lanes = _
    unfold setTimes
    split_ifs with h1 h2
    · exact ⟨h, rfl⟩
    · exact ⟨h, rfl⟩
    · refine ⟨⟨h.beam, ?_, h.freqs, h.edges⟩, rfl⟩
      intro p hp
      cases hp
      push Not at h2
      exact h2
  | freqs f =>
    show Valid (((setFreqs r f).toOption).getD r) ∧ (((setFreqs r f).toOption).getD r).lanes = _
    unfold setFreqs
    split_ifs with h1 h2
    · exact ⟨h, rfl⟩
    · exact ⟨h, rfl⟩
    · refine ⟨⟨h.beam, h.times, ?_, h.edges⟩, rfl⟩
      intro p hp
      cases hp
      push Not at h2
      exact h2
  | beam b =>
    show Valid (((setBeam r b).toOption).getD r) ∧ (((setBeam r b).toOption).getD r).lanes = _
    cases hs : setBeam r b with
    | error e => exact ⟨h, rfl⟩
    | ok s =>
      obtain ⟨h1, h2⟩ := setBeam_beam hs
      show Valid s ∧ s.lanes = r.lanes
      rw [h2]
      exact ⟨⟨h1, h.times, h.freqs, h.edges⟩, rfl⟩
  | edges n =>
    obtain ⟨h1, h2, h3, h4, h5, h6⟩ := setEdges_fields r n
    show Valid (setEdges r n) ∧ _
    refine ⟨⟨?_, by rw [h3]; exact h.times, by rw [h4]; exact h.freqs, ?_⟩, h1⟩
    · unfold beamsOf
      rw [h1, h2]
      exact h.beam
    · unfold nchan
      rw [h1]
      exact ⟨h5, h6⟩

/-- **C86.** Whatever the settings made on a reader, accepted or refused, and in any order: the beam is one of the file,
both ranges have a positive extent, and the channels removed at both edges are not more than those of a sub-band. -/
theorem settings_valid (lanes : List Lane) (files : List Nat) (r : Reader) (h : create lanes files = .ok r) (sets : List Set) :
    Valid (sets.foldl applySet r) ∧ (sets.foldl applySet r).lanes = lanes := by
  have hr : Valid r ∧ r.lanes = lanes := by
    unfold create at h
    cases hb : setBeam ⟨lanes, files, none, none, 0, 0⟩ (.int 0) with
    | error e => rw [hb] at h; cases h
    | ok s =>
      rw [hb] at h
      cases h
      obtain ⟨h1, h2⟩ := setBeam_beam hb
      obtain ⟨g1, g2, g3, g4, g5, g6⟩ := setEdges_fields s (.int 0)
      have hl : s.lanes = lanes := by rw [h2]
      refine ⟨⟨?_, ?_, ?_, ?_⟩, by rw [g1, hl]⟩
      · unfold beamsOf
        rw [g1, g2, hl]
        exact h1
      · rw [g3, h2]
        intro p hp
        cases hp
      · rw [g4, h2]
        intro p hp
        cases hp
      · unfold nchan
        rw [g1]
        exact ⟨g5, g6⟩
  induction sets generalizing r with
  | nil => exact hr
  | cons s sets ih =>
    rw [List.foldl_cons]
    have : ∀ r : Reader, Valid r ∧ r.lanes = lanes → Valid (sets.foldl applySet r) ∧ (sets.foldl applySet r).lanes = lanes := by
      clear ih h hr
      intro r hr
      induction sets generalizing r with
      | nil => exact hr
      | cons s sets ih =>
        rw [List.foldl_cons]
        refine ih _ ?_
        obtain ⟨a, b⟩ := applySet_valid hr.1 s
        exact ⟨a, b.trans hr.2⟩
    refine this _ ?_
    obtain ⟨a, b⟩ := applySet_valid hr.1 s
    exact ⟨a, b.trans hr.2⟩

/-- **C86.** A range which is accepted is the one used, and a list which is not two increasing values is refused. -/
theorem range_set (r : Reader) (t : List ℚ) :
    (∀ s, setTimes r t = .ok s → ∃ a b, t = [a, b] ∧ a < b ∧ timeRange s = (a, b) ∧ freqRange s = freqRange r) ∧
      (∀ s, setFreqs r t = .ok s → ∃ a b, t = [a, b] ∧ a < b ∧ freqRange s = (a, b) ∧ timeRange s = timeRange r) ∧
      ((∀ a b, t = [a, b] → b ≤ a) → setTimes r t = .error .valueError ∧ setFreqs r t = .error .valueError) := by
  have two : ∀ t : List ℚ, t.length = 2 → t = [t.getD 0 0, t.getD 1 0] := by
    intro t h
    match t, h with
    | [a, b], _ => rfl
  refine ⟨?_, ?_, ?_⟩
  · intro s h
    unfold setTimes at h
    split_ifs at h with h1 h2
    cases h
    push Not at h1 h2
    exact ⟨_, _, two t h1, h2, rfl, rfl⟩
  · intro s h
    unfold setFreqs at h
    split_ifs at h with h1 h2
    cases h
    push Not at h1 h2
    exact ⟨_, _, two t h1, h2, rfl, rfl⟩
  · intro h
    unfold setTimes setFreqs
    by_cases h1 : t.length = 2
    · have := h _ _ (two t h1)
      rw [if_neg (by simp [h1]), if_pos this, if_neg (by simp [h1]), if_pos this]
      exact ⟨rfl, rfl⟩
    · rw [if_pos h1, if_pos h1]
      exact ⟨rfl, rfl⟩

/-- A reader on a lane with beams 2 and 3, after some settings, of which two are refused. -/
example : ∃ r, create [⟨16, [10, 11], [3, 2], 0, 1, 10, 1⟩] [1] = .ok r ∧ r.beam = 2 ∧
    ([Set.beam (.int 3), .beam (.int 7), .edges (.int 9), .edges (.int 4), .times [3, 1], .times [1, 3]].foldl applySet r).beam = 2 ∧
    ([Set.beam (.int 3), .beam (.int 7), .edges (.int 9), .edges (.int 4), .times [3, 1], .times [1, 3]].foldl applySet r).edges = 4 ∧
    ([Set.beam (.int 3), .beam (.int 7), .edges (.int 9), .edges (.int 4), .times [3, 1], .times [1, 3]].foldl applySet r).trange = some (1, 3) :=
  ⟨_, rfl, rfl, rfl, rfl, by decide +kernel⟩

/-! ## C87: edge channels -/

/-- **C87.** With fewer channels removed than there are in a sub-band, those at the edges are missing and the other ones are unchanged. -/
theorem edges_exact_partial {α : Type} (r : Reader) (n : Nat) (hn : 0 < n) (h : 2 * n < nchan r) (nFreq : Nat) (hd : nchan r ∣ nFreq)
    (row : Nat → Option α) :
    ∃ out, removeEdges (setEdges r (.int n)) nFreq row = .ok out ∧
      ∀ k, out k = if k % nchan r < n ∨ nchan r - n ≤ k % nchan r then none else row k := by
  have e : setEdges r (.int n) = { r with edges := n } := by
    rw [setEdges_int, if_neg (by omega), if_neg (by omega)]
  rw [e]
  unfold removeEdges
  have hc : nchan { r with edges := n } = nchan r := rfl
  rw [if_neg (by show ¬ (n : Int) ≤ 0; omega), hc, if_neg (by omega), if_neg (by have := Nat.mod_eq_zero_of_dvd hd; omega)]
  refine ⟨_, rfl, fun k => ?_⟩
  have hk : k % nchan r < nchan r := Nat.mod_lt _ (by omega)
  have hs : (inSlice (nchan r) 0 n (k % nchan r) = true ∨ inSlice (nchan r) (-(n : Int)) (nchan r) (k % nchan r) = true) ↔
      (k % nchan r < n ∨ nchan r - n ≤ k % nchan r) := by
    unfold inSlice
    simp only [Bool.and_eq_true, decide_eq_true_iff]
    unfold pyBound
    rw [if_neg (by omega), if_neg (by omega), if_pos (by omega), if_neg (by omega)]
    omega
  by_cases hcase : k % nchan r < n ∨ nchan r - n ≤ k % nchan r
  · rw [if_pos hcase]
    exact if_pos (hs.mpr hcase)
  · rw [if_neg hcase]
    exact if_neg (fun h' => hcase (hs.mp h'))

/-- **C87, violated.** Half of the channels at both edges is accepted, against the purpose of the check: no data are left. -/
theorem half_edges_violated {α : Type} (r : Reader) (n : Nat) (hn : 0 < n) (h : nchan r = 2 * n) (nFreq : Nat) (hd : nchan r ∣ nFreq)
    (row : Nat → Option α) :
    (setEdges r (.int n)).edges = n ∧ ∃ out, removeEdges (setEdges r (.int n)) nFreq row = .ok out ∧ ∀ k, out k = none := by
  have e : setEdges r (.int n) = { r with edges := n } := by
    rw [setEdges_int, if_neg (by omega), if_neg (by omega)]
  rw [e]
  refine ⟨rfl, ?_⟩
  unfold removeEdges
  have hc : nchan { r with edges := n } = nchan r := rfl
  rw [if_neg (by show ¬ (n : Int) ≤ 0; omega), hc, if_neg (by omega), if_neg (by have := Nat.mod_eq_zero_of_dvd hd; omega)]
  refine ⟨_, rfl, fun k => ?_⟩
  have hk : k % nchan r < nchan r := Nat.mod_lt _ (by omega)
  refine if_pos ?_
  show inSlice (nchan r) 0 n (k % nchan r) = true ∨ inSlice (nchan r) (-(n : Int)) (nchan r) (k % nchan r) = true
  unfold inSlice
  simp only [Bool.and_eq_true, decide_eq_true_iff]
  unfold pyBound
  rw [if_neg (by omega), if_neg (by omega), if_pos (by omega), if_neg (by omega)]
  omega

/-- **C87, violated.** The number of channels is the one of the first lane: a lane with another number, whose data are not a multiple
of it, cannot be treated. -/
theorem other_lane_violated {α : Type} (r : Reader) (L : Lane) (rest : List Lane) (hl : r.lanes = L :: rest) (nFreq : Nat) (row : Nat → Option α) (h : 0 < r.edges)
    (h0 : L.nChan ≠ 0) (hd : ¬ L.nChan ∣ nFreq) : removeEdges r nFreq row = .error .valueError := by
  have e : nchan r = L.nChan := by unfold nchan; rw [hl]; rfl
  rw [← e] at h0 hd
  unfold removeEdges
  rw [if_neg (by omega), if_neg h0, if_pos (fun h => hd (Nat.dvd_of_mod_eq_zero h))]

example : nchan ⟨[⟨16, [10], [0], 0, 1, 10, 1⟩, ⟨8, [11], [0], 0, 1, 10, 1⟩], [1, 2], none, none, 0, 2⟩ = 16 ∧ ¬ 16 ∣ 8 := by decide

/-! ## C88: files -/

theorem readAll_ok (disk : Nat → Except Err Lane) (g : Nat → Lane) : ∀ (l : List Nat) (acc : List Lane), (∀ f ∈ l, disk f = .ok (g f)) →
    readAll disk acc l = (acc ++ l.map g, none)
  | [], acc, _ => by rw [List.map_nil, List.append_nil]; rfl
  | f :: fs, acc, h => by
    unfold readAll
    rw [h f (List.mem_cons_self ..)]
    show readAll disk (acc ++ [g f]) fs = _
    rw [readAll_ok disk g fs _ (fun x hx => h x (List.mem_cons_of_mem _ hx)), List.map_cons, List.append_assoc]
    rfl

theorem readAll_err (disk : Nat → Except Err Lane) (g : Nat → Lane) (bad : Nat) (e : Err) (hb : disk bad = .error e) :
    ∀ (l m : List Nat) (acc : List Lane), (∀ f ∈ l, disk f = .ok (g f)) → readAll disk acc (l ++ bad :: m) = (acc ++ l.map g, some e)
  | [], m, acc, _ => by
    show readAll disk acc (bad :: m) = _
    unfold readAll
    rw [hb, List.map_nil, List.append_nil]
  | f :: fs, m, acc, h => by
    show readAll disk acc (f :: (fs ++ bad :: m)) = _
    unfold readAll
    rw [h f (List.mem_cons_self ..)]
    show readAll disk (acc ++ [g f]) (fs ++ bad :: m) = _
    rw [readAll_err disk g bad e hb fs m _ (fun x hx => h x (List.mem_cons_of_mem _ hx)), List.map_cons, List.append_assoc]
    rfl

/-- **C88.** On a reader without lanes, the lanes are those of the files, in the order given. -/
theorem files_first_partial (disk : Nat → Except Err Lane) (g : Nat → Lane) (r : Reader) (l : List Nat) (h0 : r.lanes = [])
    (h : ∀ f ∈ l, disk f = .ok (g f)) :
    setFiles disk r l = ({ r with lanes := l.map g, files := l }, none) := by
  unfold setFiles
  rw [readAll_ok disk g l _ h, h0]
  rfl

/-- **C88, violated.** On a reader with lanes, the new ones are added: data of the former files are still read, while the list of files
has the new ones only. -/
theorem files_append_violated (disk : Nat → Except Err Lane) (g : Nat → Lane) (r : Reader) (l : List Nat) (h : ∀ f ∈ l, disk f = .ok (g f)) :
    (setFiles disk r l).1.files = l ∧ (setFiles disk r l).1.lanes = r.lanes ++ l.map g := by
  unfold setFiles
  rw [readAll_ok disk g l _ h]
  exact ⟨rfl, rfl⟩

/-- **C88, violated.** When a file is refused, the ones before it are read nevertheless, and the list of files stays as it was. -/
theorem files_refused_violated (disk : Nat → Except Err Lane) (g : Nat → Lane) (r : Reader) (l m : List Nat) (bad : Nat) (e : Err)
    (h : ∀ f ∈ l, disk f = .ok (g f)) (hb : disk bad = .error e) :
    setFiles disk r (l ++ bad :: m) = ({ r with lanes := r.lanes ++ l.map g }, some e) := by
  unfold setFiles
  rw [readAll_err disk g bad e hb l m _ h]
  rfl

example : ∃ (disk : Nat → Except Err Lane) (g : Nat → Lane), (∀ f ∈ [1, 2], disk f = .ok (g f)) ∧ disk 5 = .error .exception :=
  ⟨fun f => if f < 3 then .ok ⟨16, [f], [0], 0, 1, 10, 1⟩ else .error .exception, fun f => ⟨16, [f], [0], 0, 1, 10, 1⟩,
    by decide, rfl⟩

/-! ## C89: gathering the lanes -/

/-- Data of one lane: well formed, with given times and polarisations. -/
def Good (ts : List ℚ) (pol : List (List Char)) (s : IO.SData) : Prop := s.WF ∧ s.time = ts ∧ s.polar = pol ∧ s.freq ≠ []

theorem mkSData_inv {t f : List ℚ} {p : List (List Char)} {d : List (List (List ℚ))} {r : IO.SData} (h : IO.mkSData t f p d = .ok r) :
    r = ⟨t, f, p, d⟩ ∧ r.WF := by
  have h' := h
  unfold IO.mkSData at h
  split_ifs at h with hc
  cases h
  exact ⟨rfl, h'⟩

theorem sdataAnd_fields {s o r : IO.SData} (h : IO.sdataAnd s o = .ok r) :
    r.WF ∧ r.time = s.time ∧ r.polar = s.polar ∧ r.freq = if IO.allBefore s.freq o.freq then s.freq ++ o.freq else o.freq ++ s.freq := by
  unfold IO.sdataAnd at h
  by_cases h1 : s.polar ≠ o.polar
  · rw [if_pos h1] at h
    cases h
  rw [if_neg h1] at h
  cases hc : IO.closeTimes s.time o.time with
  | error e => rw [hc] at h; cases h
  | ok b =>
    rw [hc] at h
    change (if !b then _ else _) = _ at h
    split_ifs at h with h2 h3 h4
    · cases hd : IO.hstack3 s.data o.data with
      | error e => rw [hd] at h; cases h
      | ok d =>
        rw [hd] at h
        obtain ⟨rfl, hw⟩ := mkSData_inv h
        exact ⟨hw, rfl, rfl, by rw [if_pos h4]⟩
    · cases hd : IO.hstack3 o.data s.data with
      | error e => rw [hd] at h; cases h
      | ok d =>
        rw [hd] at h
        obtain ⟨rfl, hw⟩ := mkSData_inv h
        exact ⟨hw, rfl, rfl, by rw [if_neg h4]⟩

/-- Two good data sets are joined, with the samples of both. -/
theorem and_good {ts : List ℚ} {pol : List (List Char)} (h2 : 2 ≤ ts.length) (hinc : ts.getD 0 0 ≤ ts.getD 1 0) {a s : IO.SData}
    (ha : Good ts pol a) (hs : Good ts pol s) :
    ∃ r, IO.sdataAnd a s = .ok r ∧ Good ts pol r ∧ r.samples.Perm (a.samples ++ s.samples) := by
  obtain ⟨r, hr, hp⟩ := IO.sdata_and_partial a s ha.1 hs.1 (ha.2.2.1.trans hs.2.2.1.symm) (ha.2.1.trans hs.2.1.symm)
    (by rw [ha.2.1]; exact h2) (by rw [ha.2.1]; exact hinc) ha.2.2.2 hs.2.2.2
  obtain ⟨w, t, p, f⟩ := sdataAnd_fields hr
  refine ⟨r, hr, ⟨w, t.trans ha.2.1, p.trans ha.2.2.1, ?_⟩, hp⟩
  rw [f]
  split_ifs
  · simp [ha.2.2.2]
  · simp [ha.2.2.2]

/-- Samples of something which may be missing. -/
def samplesOpt (o : Option IO.SData) : List (IO.Sample (List ℚ)) := (o.map IO.SData.samples).getD []

/-- **C89.** When the lanes give data on the same times, two or more, the data gathered have exactly the samples of all lanes:
each value with its time and its frequency. -/
theorem gather_samples {α : Type} (piece : α → Option IO.SData) (ts : List ℚ) (pol : List (List Char)) (h2 : 2 ≤ ts.length)
    (hinc : ts.getD 0 0 ≤ ts.getD 1 0) :
    ∀ (lanes : List α) (acc : Option IO.SData), (∀ L ∈ lanes, ∀ s, piece L = some s → Good ts pol s) → (∀ s, acc = some s → Good ts pol s) →
      ∃ o, gather (fun L => .ok (piece L)) acc lanes = .ok o ∧ (∀ s, o = some s → Good ts pol s) ∧
        (samplesOpt o).Perm (samplesOpt acc ++ lanes.flatMap fun L => samplesOpt (piece L))
  | [], acc, _, hacc => ⟨acc, rfl, hacc, by simp⟩
  | L :: Ls, acc, h, hacc => by
    have hLs : ∀ K ∈ Ls, ∀ s, piece K = some s → Good ts pol s := fun K hK => h K (List.mem_cons_of_mem _ hK)
    cases hp : piece L with
    | none =>
      obtain ⟨o, ho, hg, hperm⟩ := gather_samples piece ts pol h2 hinc Ls acc hLs hacc
      refine ⟨o, ?_, hg, ?_⟩
      · unfold gather
        rw [hp]
        exact ho
      · rw [List.flatMap_cons, hp]
        exact hperm
    | some s =>
      have hs := h L (List.mem_cons_self ..) s hp
      have hj : ∃ r, join acc s = .ok (some r) ∧ Good ts pol r ∧ r.samples.Perm (samplesOpt acc ++ s.samples) := by
        cases acc with
        | none => exact ⟨s, rfl, hs, by simp [samplesOpt]⟩
        | some a =>
          obtain ⟨r, hr, hg, hperm⟩ := and_good h2 hinc (hacc a rfl) hs
          refine ⟨r, ?_, hg, hperm⟩
          show (IO.sdataAnd a s).map some = _
          rw [hr]
          rfl
      obtain ⟨r, hr, hrg, hrp⟩ := hj
      obtain ⟨o, ho, hg, hperm⟩ := gather_samples piece ts pol h2 hinc Ls (some r) hLs (fun s hs => by cases hs; exact hrg)
      refine ⟨o, ?_, hg, ?_⟩
      · unfold gather
        rw [hp]
        show (join acc s).bind _ = _
        rw [hr]
        exact ho
      · refine hperm.trans ?_
        rw [List.flatMap_cons, hp, ← List.append_assoc]
        exact List.Perm.append_right _ hrp

/-- **C89.** With lanes in order of frequency, the frequencies gathered are those of the lanes, in the same order. -/
theorem gather_order_partial {α : Type} (piece : α → Option IO.SData) (ts : List ℚ) (pol : List (List Char)) (h2 : 2 ≤ ts.length)
    (hinc : ts.getD 0 0 ≤ ts.getD 1 0) :
    ∀ (lanes : List α) (a : IO.SData), (∀ L ∈ lanes, ∀ s, piece L = some s → Good ts pol s) → Good ts pol a →
      (∀ L ∈ lanes, ∀ s, piece L = some s → ∀ x ∈ a.freq, ∀ y ∈ s.freq, x < y) →
      lanes.Pairwise (fun K L => ∀ s o, piece K = some s → piece L = some o → ∀ x ∈ s.freq, ∀ y ∈ o.freq, x < y) →
      ∃ o, gather (fun L => .ok (piece L)) (some a) lanes = .ok (some o) ∧
        o.freq = a.freq ++ lanes.flatMap fun L => ((piece L).map IO.SData.freq).getD []
  | [], a, _, _, _, _ => ⟨a, rfl, by simp⟩
  | L :: Ls, a, h, ha, hb, hord => by
    have hLs : ∀ K ∈ Ls, ∀ s, piece K = some s → Good ts pol s := fun K hK => h K (List.mem_cons_of_mem _ hK)
    obtain ⟨ho1, ho2⟩ := List.pairwise_cons.mp hord
    cases hp : piece L with
    | none =>
      obtain ⟨o, ho, hf⟩ := gather_order_partial piece ts pol h2 hinc Ls a hLs ha (fun K hK => hb K (List.mem_cons_of_mem _ hK)) ho2
      refine ⟨o, ?_, ?_⟩
      · unfold gather
        rw [hp]
        exact ho
      · rw [List.flatMap_cons, hp]
        exact hf
    | some s =>
      have hs := h L (List.mem_cons_self ..) s hp
      obtain ⟨r, hr, hg, _⟩ := and_good h2 hinc ha hs
      have hf := (sdataAnd_fields hr).2.2.2
      have hbef : IO.allBefore a.freq s.freq = true := by
        unfold IO.allBefore
        rw [List.all_eq_true]
        intro x hx
        rw [List.all_eq_true]
        intro y hy
        rw [decide_eq_true_iff]
        exact hb L (List.mem_cons_self ..) s hp x hx y hy
      rw [if_pos hbef] at hf
      obtain ⟨o, ho, hfo⟩ := gather_order_partial piece ts pol h2 hinc Ls r hLs hg
        (by
          intro K hK t ht x hx y hy
          rw [hf] at hx
          rcases List.mem_append.mp hx with hx | hx
          · exact hb K (List.mem_cons_of_mem _ hK) t ht x hx y hy
          · exact ho1 K hK s t hp ht x hx y hy) ho2
      refine ⟨o, ?_, ?_⟩
      · unfold gather
        rw [hp]
        show ((IO.sdataAnd a s).map some).bind _ = _
        rw [hr]
        exact ho
      · rw [hfo, hf, List.flatMap_cons, hp, List.append_assoc]
        rfl

/-- Data of one frequency on two times. -/
def single (f : ℚ) : IO.SData := ⟨[0, 1], [f], [['I']], [[[f]], [[f]]]⟩

/-- A lane known by its first sub-band. -/
def laneAt (c : Nat) : Lane := ⟨2, [c], [0], 0, 1, 10, 1⟩

/-- Piece of a lane: one frequency, the number of the sub-band. -/
def pieceAt (L : Lane) : Option IO.SData := some (single (L.chans.headD 0 : Nat))

theorem single_good (f : ℚ) : Good [0, 1] [['I']] (single f) :=
  ⟨IO.mkSData_of ⟨rfl, by simp [single]⟩ (by simp [single]), rfl, rfl, by simp [single]⟩

/-- **C89, violated.** With any three lanes which do not overlap and whose second one is the highest, the frequencies gathered are not increasing, although each lane has
increasing ones. -/
theorem gather_order_violated (piece : Lane → Option IO.SData) (ts : List ℚ) (pol : List (List Char)) (h2 : 2 ≤ ts.length) (hinc : ts.getD 0 0 ≤ ts.getD 1 0)
    (A B C : Lane) (a b c : IO.SData) (ha : piece A = some a) (hb : piece B = some b) (hc : piece C = some c) (ga : Good ts pol a) (gb : Good ts pol b)
    (gc : Good ts pol c) (hab : ∀ x ∈ a.freq, ∀ y ∈ b.freq, x < y) (hac : ∀ x ∈ a.freq, ∀ y ∈ c.freq, x < y) (hcb : ∀ x ∈ c.freq, ∀ y ∈ b.freq, x < y)
    (na : a.freq ≠ []) (nb : b.freq ≠ []) (nc : c.freq ≠ []) :
    ∃ o, gather (fun L => .ok (piece L)) none [A, B, C] = .ok (some o) ∧ o.freq = c.freq ++ (a.freq ++ b.freq) ∧ ¬o.freq.Pairwise (· < ·) := by
  obtain ⟨r, hr, hg, _⟩ := and_good h2 hinc ga gb
  have hf := (sdataAnd_fields hr).2.2.2
  have e1 : IO.allBefore a.freq b.freq = true := by
    unfold IO.allBefore
    rw [List.all_eq_true]
    intro x hx
    rw [List.all_eq_true]
    intro y hy
    rw [decide_eq_true_iff]
    exact hab x hx y hy
  rw [if_pos e1] at hf
  obtain ⟨q, hq, _, _⟩ := and_good h2 hinc hg gc
  have hf2 := (sdataAnd_fields hq).2.2.2
  obtain ⟨x, hx⟩ := List.exists_mem_of_ne_nil _ na
  obtain ⟨y, hy⟩ := List.exists_mem_of_ne_nil _ nb
  obtain ⟨z, hz⟩ := List.exists_mem_of_ne_nil _ nc
  have e2 : ¬IO.allBefore (a.freq ++ b.freq) c.freq = true := by
    unfold IO.allBefore
    intro h
    rw [List.all_eq_true] at h
    have h := h y (List.mem_append_right _ hy)
    rw [List.all_eq_true] at h
    have h := of_decide_eq_true (h z hz)
    exact absurd (hcb z hz y hy) (not_lt.2 (le_of_lt h))
  rw [hf, if_neg e2] at hf2
  refine ⟨q, ?_, hf2, ?_⟩
  · simp only [gather, ha, hb, hc, Except.bind, join, hr, hq, Except.map]
  · rw [hf2]
    intro h
    have := (List.pairwise_append.1 h).2.2 z hz x (List.mem_append_left _ hx)
    exact absurd (hac x hx z hz) (not_lt.2 (le_of_lt this))

/-- Its hypotheses, with sub-bands 10, 30 and 20. -/
example : ∃ o, gather (fun L => .ok (pieceAt L)) none [laneAt 10, laneAt 30, laneAt 20] = .ok (some o) ∧ o.freq = [20, 10, 30] := by
  obtain ⟨o, h1, h2, _⟩ := gather_order_violated pieceAt [0, 1] [['I']] (by decide) (by decide +kernel) (laneAt 10) (laneAt 30) (laneAt 20) (single 10) (single 30)
    (single 20) rfl rfl rfl (single_good 10) (single_good 30) (single_good 20) (by decide +kernel) (by decide +kernel) (by decide +kernel) (by decide) (by decide) (by decide)
  exact ⟨o, h1, h2⟩

/-- Hypotheses of `gather_samples` and `gather_order_partial`. -/
example : (∀ L ∈ [laneAt 20, laneAt 30], ∀ s, pieceAt L = some s → Good [0, 1] [['I']] s) ∧ Good [0, 1] [['I']] (single 10) ∧
    [laneAt 20, laneAt 30].Pairwise (fun K L => ∀ s o, pieceAt K = some s → pieceAt L = some o → ∀ x ∈ s.freq, ∀ y ∈ o.freq, x < y) := by
  refine ⟨?_, single_good 10, ?_⟩
  · intro L _ s hs
    cases hs
    exact single_good _
  · refine List.pairwise_pair.mpr ?_
    intro s o hs ho
    cases hs
    cases ho
    decide +kernel

/-! ## C90: writing -/

/-- The shape of the data for a text is that of one polarisation. -/
theorem text_shape {nt nf : Nat} {s : List Char} {sh : List Nat} (h : stokesShape nt nf (.text s) = .ok sh) : s.length = 1 ∧ sh = [nt, nf, 1] := by
  unfold stokesShape at h
  split_ifs at h with h1 h2 h3
  push Not at h3
  have : s.length = 1 := by
    change 1 = (s.map fun c => [c]).length at h3
    rw [List.length_map] at h3
    exact h3.symm
  cases h
  refine ⟨this, ?_⟩
  show [nt, nf, (s.map fun c => [c]).length] = _
  rw [List.length_map, this]

theorem writeStokes_fails (chunk : Stokes → Except Err (Option (List Nat)))
    (hc : ∀ s sh, chunk s = .ok (some sh) → ∃ nt nf, stokesShape nt nf s = .ok sh) (s : Stokes) :
    ∃ e, writeStokes chunk s = .error e := by
  unfold writeStokes
  cases h : chunk s with
  | error e => exact ⟨e, rfl⟩
  | ok c =>
    cases s with
    | texts l => exact ⟨_, rfl⟩
    | text s =>
      cases c with
      | none => exact ⟨_, rfl⟩
      | some sh =>
        obtain ⟨nt, nf, hsh⟩ := hc _ _ h
        obtain ⟨_, rfl⟩ := text_shape hsh
        refine ⟨.indexError, ?_⟩
        show firstPol [nt, nf, 1] = _
        unfold firstPol
        rw [if_pos]
        unfold squeeze
        rw [show [nt, nf, 1] = [nt, nf] ++ [1] from rfl, List.filter_append]
        have := List.length_filter_le (fun n => decide (n ≠ 1)) [nt, nf]
        rw [show [1].filter (fun n => decide (n ≠ 1)) = [] from rfl, List.append_nil]
        exact Nat.lt_succ_of_le this

/-- **C90, violated.** Writing never succeeds: whatever the data, the beams (one or more) and the Stokes parameters (one or more), an
exception is raised. -/
theorem write_violated (chunk : Reader → Stokes → Except Err (Option (List Nat)))
    (hc : ∀ r s sh, chunk r s = .ok (some sh) → ∃ nt nf, stokesShape nt nf s = .ok sh) (r : Reader) (beams : List Int) (stokes : List Stokes)
    (hb : beams ≠ []) (hs : stokes ≠ []) : ∃ e, (writeHdf5 chunk stokes r beams).2 = some e := by
  cases beams with
  | nil => exact absurd rfl hb
  | cons b bs =>
    cases stokes with
    | nil => exact absurd rfl hs
    | cons s ss =>
      unfold writeHdf5
      split_ifs with h
      · obtain ⟨e, he⟩ := writeStokes_fails (chunk { r with beam := b.toNat }) (hc _) s
        have : writeAll (chunk { r with beam := b.toNat }) (s :: ss) = .error e := by
          unfold writeAll
          rw [he]
          rfl
        rw [this]
        exact ⟨e, rfl⟩
      · exact ⟨_, rfl⟩

/-- **C90, violated.** The exception tells nothing about the cause: a list of parameters has no `upper`, the data of one parameter have no third axis left, and when
nothing is within the ranges the missing data have no attribute. -/
theorem write_raises_violated (chunk : Reader → Stokes → Except Err (Option (List Nat))) (r : Reader) (b : Nat) (bs : List Int) (s : Stokes) (ss : List Stokes)
    (hk : b ∈ beamsOf r) (c : Option (List Nat)) (h : chunk { r with beam := b } s = .ok c) :
    (∀ l, s = .texts l → (writeHdf5 chunk (s :: ss) r (b :: bs)).2 = some .attributeError)
    ∧ (c = none → (writeHdf5 chunk (s :: ss) r (b :: bs)).2 = some .attributeError)
    ∧ (∀ t nt nf, s = .text t → c = some [nt, nf, 1] → (writeHdf5 chunk (s :: ss) r (b :: bs)).2 = some .indexError) := by
  have key : ∀ e, writeStokes (chunk { r with beam := b }) s = .error e → (writeHdf5 chunk (s :: ss) r (b :: bs)).2 = some e := by
    intro e he
    have : writeAll (chunk { r with beam := b }) (s :: ss) = .error e := by
      unfold writeAll
      rw [he]
      rfl
    unfold writeHdf5
    rw [if_neg (not_not.mpr ⟨Int.natCast_nonneg b, by rw [Int.toNat_natCast]; exact hk⟩), Int.toNat_natCast, this]
  have hw : writeStokes (chunk { r with beam := b }) s = Stokes.casesOn (motive := fun _ => Except Err (List Nat)) s
      (fun _ => Option.casesOn (motive := fun _ => Except Err (List Nat)) c (.error .attributeError) firstPol) (fun _ => .error .attributeError) := by
    unfold writeStokes
    rw [h]
    rfl
  refine ⟨fun l hs => key _ ?_, fun hn => key _ ?_, fun t nt nf hs hc => key _ ?_⟩
  · rw [hw, hs]
  · rw [hw, hn]
    cases s <;> rfl
  · rw [hw, hs, hc]
    show firstPol [nt, nf, 1] = _
    unfold firstPol
    rw [if_pos]
    unfold squeeze
    rw [show [nt, nf, 1] = [nt, nf] ++ [1] from rfl, List.filter_append]
    have := List.length_filter_le (fun n => decide (n ≠ 1)) [nt, nf]
    rw [show [1].filter (fun n => decide (n ≠ 1)) = [] from rfl, List.append_nil]
    exact Nat.lt_succ_of_le this

example : 0 ∈ beamsOf ⟨[⟨16, [10], [0], 0, 1, 10, 1⟩], [1], none, none, 0, 0⟩ ∧ (stokesShape 100 32 (.text "I".toList)).map some = .ok (some [100, 32, 1]) := by decide +kernel

/-- **C90, violated.** The beam set by the user is changed by the attempt. -/
theorem write_beam_violated (chunk : Reader → Stokes → Except Err (Option (List Nat)))
    (hc : ∀ r s sh, chunk r s = .ok (some sh) → ∃ nt nf, stokesShape nt nf s = .ok sh) (r : Reader) (b : Nat) (bs : List Int) (s : Stokes) (ss : List Stokes)
    (hb : b ∈ beamsOf r) : (writeHdf5 chunk (s :: ss) r (b :: bs)).1.beam = b := by
  unfold writeHdf5
  rw [if_neg (by simpa using hb)]
  obtain ⟨e, he⟩ := writeStokes_fails (chunk { r with beam := (b : Int).toNat }) (hc _) s
  have : writeAll (chunk { r with beam := (b : Int).toNat }) (s :: ss) = .error e := by
    unfold writeAll
    rw [he]
    rfl
  rw [this]
  rfl

/-- **C90.** A beam which is not in the data is refused, and the reader is unchanged when it is the first one. -/
theorem write_unknown_beam (chunk : Reader → Stokes → Except Err (Option (List Nat))) (r : Reader) (b : Int) (bs : List Int) (ss : List Stokes)
    (hb : ¬ (0 ≤ b ∧ b.toNat ∈ beamsOf r)) : writeHdf5 chunk ss r (b :: bs) = (r, some .indexError) := by
  unfold writeHdf5
  rw [if_pos hb]

/-- The shape of the data as `get` gives it for 100 spectra of 32 channels. -/
example : ∀ s sh, (fun s : Stokes => (stokesShape 100 32 s).map some) s = .ok (some sh) → ∃ nt nf, stokesShape nt nf s = .ok sh := by
  intro s sh h
  change (stokesShape 100 32 s).map some = _ at h
  cases hs : stokesShape 100 32 s with
  | error e => rw [hs] at h; cases h
  | ok x =>
    rw [hs] at h
    cases h
    exact ⟨100, 32, hs⟩

/-- Several parameters given as one text are refused, and accepted as a list. -/
theorem text_refused (nt nf : Nat) (s : List Char) (hs : 2 ≤ s.length) (hk : ∀ c ∈ s, known [c] = true) :
    stokesShape nt nf (.text s) = .error .assertion ∧ stokesShape nt nf (.texts (s.map fun c => [c])) = .ok [nt, nf, s.length] := by
  have ha : (stokesItems (.text s)).all known = true := by
    rw [List.all_eq_true]
    intro x hx
    obtain ⟨c, hc, rfl⟩ := List.mem_map.mp hx
    exact hk c hc
  have hne : stokesItems (.text s) ≠ [] := by
    intro h
    have := congrArg List.length h
    change (s.map fun c => [c]).length = 0 at this
    rw [List.length_map] at this
    omega
  have hl : (stokesItems (.text s)).length = s.length := by
    show (s.map fun c => [c]).length = _
    rw [List.length_map]
  constructor
  · unfold stokesShape
    rw [if_neg (by rw [ha]; simp), if_neg hne, if_pos]
    rw [hl]
    show 1 ≠ s.length
    omega
  · show (if ¬ (stokesItems (.text s)).all known then _ else if stokesItems (.text s) = [] then _
      else if (stokesItems (.text s)).length ≠ (stokesItems (.text s)).length then _ else _) = _
    rw [if_neg (by rw [ha]; simp), if_neg hne, if_neg (by simp)]
    show Except.ok [nt, nf, (stokesItems (.text s)).length] = _
    rw [hl]

/-- **C90, violated.** Three of the values documented for the Stokes parameters are refused. -/
theorem documented_stokes_violated (nt nf : Nat) :
    stokesShape nt nf (.text ['L']) = .error .notImplemented ∧ stokesShape nt nf (.text ['X', 'X']) = .error .notImplemented ∧
      stokesShape nt nf (.text ['Y', 'Y']) = .error .notImplemented := ⟨rfl, rfl, rfl⟩

example : 2 ≤ ['I', 'V'].length ∧ ∀ c ∈ ['I', 'V'], known [c] = true := by decide

end Verif.Dyn
