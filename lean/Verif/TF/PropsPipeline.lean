import Verif.TF.Pipeline
import Mathlib.Tactic.NormNum

/-!
# Pipeline parameters, reading with options, and task lists (properties C48, C49 and C50)
-/

namespace Verif.TF

/-! ## Specification: the values a parameter may hold -/

/-- The rule of a parameter with bounds: numbers are within them, up to half the resolution. -/
def Within (min max : Option ℚ) (res : ℚ) (v : PyVal) : Prop :=
  ∀ q, v = .num q → (∀ m, min = some m → m - res / 2 ≤ q) ∧ (∀ m, max = some m → q ≤ m + res / 2)

/-- The rule of a parameter with available values: a number among them, or a list of numbers among them. -/
def Among (avail : List ℚ) (v : PyVal) : Prop :=
  (∀ q, v = .num q → q ∈ avail) ∧ (∀ l, v = .list l → ∀ q ∈ l, q ∈ avail) ∧ v ≠ .nan ∧ ∀ k, v ≠ .other k

/-- The values that a parameter of a kind may hold; `init` is its first value. -/
def Rule (init : PyVal) : Kind → PyVal → Prop
  | .fixed, v => v = init
  | .value min max res, v => v = .none ∨ Within min max res v
  | .restricted avail, v => v = .none ∨ Among avail v
  | .boolean, v => v = .none ∨ ∃ b, v = .bool b

/-! ## Parameters -/

theorem expected_rule (init : PyVal) (k : Kind) (v : PyVal) (h : expected k v = .ok true) : Rule init k v := by
  cases k with
  | fixed => cases h
  | value min max res =>
    right
    rintro q rfl
    change ((belowMin min res (.num q)).bind fun b => if b then .ok false else (aboveMax max res (.num q)).map fun c => !c) = .ok true at h
    constructor
    · rintro m rfl
      have e : belowMin (some m) res (.num q) = .ok (decide (q < m - res / 2)) := rfl
      rw [e] at h
      by_contra hc
      have : decide (q < m - res / 2) = true := by rw [decide_eq_true_iff]; linarith
      rw [this] at h
      cases h
    · rintro m rfl
      have e : aboveMax (some m) res (.num q) = .ok (decide (m + res / 2 < q)) := rfl
      rw [e] at h
      by_contra hc
      have : decide (m + res / 2 < q) = true := by rw [decide_eq_true_iff]; linarith
      rw [this] at h
      cases hb : belowMin min res (.num q) with
      | error e => rw [hb] at h; cases h
      | ok b => rw [hb] at h; cases b <;> cases h
  | restricted avail =>
    right
    change Except.ok (allAvailable avail v) = .ok true at h
    have h' : allAvailable avail v = true := by injection h
    refine ⟨?_, ?_, ?_, ?_⟩
    · rintro q rfl
      exact of_decide_eq_true h'
    · rintro l rfl q hq
      have h'' : (l.all fun q => decide (q ∈ avail)) = true := h'
      exact of_decide_eq_true (List.all_eq_true.mp h'' q hq)
    · rintro rfl; cases h'
    · rintro k rfl; cases h'
  | boolean =>
    right
    cases v with
    | bool b => exact ⟨b, rfl⟩
    | none => cases h
    | num q => cases h
    | nan => cases h
    | text s => cases h
    | list l => cases h
    | other k => cases h

theorem checked_rule (init : PyVal) (p : Param) (v w : PyVal) (h : checked p v = .ok w) : Rule init p.kind w := by
  unfold checked at h
  split at h
  · cases h
  · rename_i hk
    split at h
    · cases h
      cases hkk : p.kind with
      | fixed => exact absurd hkk hk
      | value => exact Or.inl rfl
      | restricted => exact Or.inl rfl
      | boolean => exact Or.inl rfl
    · cases hc : p.conv v with
      | none => rw [hc] at h; cases h
      | some x =>
        rw [hc] at h
        change ((expected p.kind x).bind fun b => if b then .ok x else .error .valueError) = .ok w at h
        cases he : expected p.kind x with
        | error e => rw [he] at h; cases h
        | ok b =>
          rw [he] at h
          cases b with
          | false => cases h
          | true => cases h; exact expected_rule init _ _ he

/-- A list of parameters is the initial one, up to values which follow the rules. -/
def Valid (init ps : List Param) : Prop :=
  List.Forall₂ (fun a b => b.name = a.name ∧ b.kind = a.kind ∧ b.conv = a.conv ∧ Rule a.val a.kind b.val) init ps

theorem assign_valid (a p : Param) (v : PyVal)
    (h : p.name = a.name ∧ p.kind = a.kind ∧ p.conv = a.conv ∧ Rule a.val a.kind p.val) :
    (p.assign v).2.name = a.name ∧ (p.assign v).2.kind = a.kind ∧ (p.assign v).2.conv = a.conv ∧
      Rule a.val a.kind (p.assign v).2.val := by
  unfold Param.assign
  cases hc : checked p v with
  | error e => exact h
  | ok w =>
    have := checked_rule a.val p v w hc
    rw [h.2.1] at this
    exact ⟨h.1, h.2.1, h.2.2.1, this⟩

theorem assignFirst_valid {init ps : List Param} (h : Valid init ps) (name : List Char) (v : PyVal) :
    Valid init (assignFirst name v ps).2 := by
  unfold Valid at h ⊢
  induction h with
  | nil => exact List.Forall₂.nil
  | cons h1 h2 ih =>
    rw [assignFirst]
    split
    · exact List.Forall₂.cons (assign_valid _ _ v h1) h2
    · exact List.Forall₂.cons h1 ih

/-- The parameters as they are created hold values which follow the rules. -/
def Sound (ps : List Param) : Prop := ∀ p ∈ ps, Rule p.val p.kind p.val

theorem valid_self {ps : List Param} (h : Sound ps) : Valid ps ps := by
  unfold Valid
  induction ps with
  | nil => exact List.Forall₂.nil
  | cons p ps ih =>
    exact List.Forall₂.cons ⟨rfl, rfl, rfl, h p (List.mem_cons_self ..)⟩
      (ih fun q hq => h q (List.mem_cons_of_mem _ hq))

/-- **C48**: after any history of assignments, accepted or not, and resets, every parameter holds a value which follows its rule,
under its name, and the values restored by a reset are still the initial ones. -/
theorem params_valid (ps : List Param) (hs : Sound ps) (ops : List ParOp) :
    Valid ps (ops.foldl Pars.apply (Pars.mk' ps)).params ∧ (ops.foldl Pars.apply (Pars.mk' ps)).original = ps := by
  suffices h : ∀ s : Pars, Valid ps s.params → s.original = ps →
      Valid ps (ops.foldl Pars.apply s).params ∧ (ops.foldl Pars.apply s).original = ps from
    h (Pars.mk' ps) (valid_self hs) rfl
  induction ops with
  | nil => exact fun s h1 h2 => ⟨h1, h2⟩
  | cons op ops ih =>
    intro s h1 h2
    rw [List.foldl_cons]
    apply ih
    · cases op with
      | set n v => exact assignFirst_valid h1 n v
      | reset =>
        show Valid ps s.original
        rw [h2]; exact valid_self hs
    · cases op <;> exact h2

/-- **C48**: a reset restores the initial parameters, whatever happened before. -/
theorem params_reset (ps : List Param) (hs : Sound ps) (ops : List ParOp) :
    ((ops.foldl Pars.apply (Pars.mk' ps)).reset).params = ps := (params_valid ps hs ops).2

theorem assignFirst_error {name : List Char} {v : PyVal} {ps : List Param} {e : Err}
    (h : (assignFirst name v ps).1 = some e) : (assignFirst name v ps).2 = ps := by
  induction ps with
  | nil => rfl
  | cons p ps ih =>
    rw [assignFirst] at h ⊢
    split
    · rename_i hn
      rw [if_pos hn] at h
      unfold Param.assign at h ⊢
      cases hc : checked p v with
      | error e' => rfl
      | ok w => rw [hc] at h; cases h
    · rename_i hn
      rw [if_neg hn] at h
      dsimp only at h ⊢
      rw [ih h]

/-- **C48**: a refused assignment changes nothing. -/
theorem params_rejected (s : Pars) (name : List Char) (v : PyVal) (e : Err) (h : (s.set name v).1 = some e) :
    (s.set name v).2 = s := by
  unfold Pars.set at h ⊢
  dsimp only at h ⊢
  rw [assignFirst_error h]

theorem assignFirst_ok {name : List Char} {v : PyVal} {ps : List Param} (h : (assignFirst name v ps).1 = none) :
    ∃ a p b w, ps = a ++ p :: b ∧ p.name = lowerName name ∧ (∀ q ∈ a, q.name ≠ lowerName name) ∧
      checked p v = .ok w ∧ (assignFirst name v ps).2 = a ++ { p with val := w } :: b := by
  induction ps with
  | nil => cases h
  | cons p ps ih =>
    rw [assignFirst] at h ⊢
    split
    · rename_i hn
      rw [if_pos hn] at h
      unfold Param.assign at h ⊢
      cases hc : checked p v with
      | error e' => rw [hc] at h; cases h
      | ok w => exact ⟨[], p, ps, w, rfl, hn, fun q hq => absurd hq (by simp), hc, rfl⟩
    · rename_i hn
      rw [if_neg hn] at h
      obtain ⟨a, q, b, w, h1, h2, h3, h4, h5⟩ := ih h
      refine ⟨p :: a, q, b, w, by rw [h1]; rfl, h2, ?_, h4, ?_⟩
      · intro x hx
        rcases List.mem_cons.mp hx with rfl | hx
        · exact hn
        · exact h3 x hx
      · dsimp only
        rw [h5]; rfl

/-- **C48**: an accepted assignment changes the value of the parameter of that name (in lower case), and nothing else. -/
theorem params_accepted (s : Pars) (name : List Char) (v : PyVal) (h : (s.set name v).1 = none) :
    ∃ a p b w, s.params = a ++ p :: b ∧ p.name = lowerName name ∧ checked p v = .ok w ∧
      (s.set name v).2 = ⟨a ++ { p with val := w } :: b, s.original⟩ ∧ (s.set name v).2.get name = .ok w := by
  obtain ⟨a, p, b, w, h1, h2, h3, h4, h5⟩ := assignFirst_ok h
  refine ⟨a, p, b, w, h1, h2, h4, ?_, ?_⟩
  · unfold Pars.set; rw [h5]
  · unfold Pars.get Pars.set
    dsimp only
    rw [h5]
    have hn : (a.find? fun p => decide (p.name = lowerName name)) = none := by
      rw [List.find?_eq_none]
      intro q hq
      rw [decide_eq_true_iff]
      exact h3 q hq
    rw [List.find?_append, hn, Option.none_or, List.find?_cons]
    have : decide (({ p with val := w } : Param).name = lowerName name) = true := by
      rw [decide_eq_true_iff]; exact h2
    rw [this]
    rfl

/-- **C48**: a fixed parameter and an unknown one are refused. -/
theorem params_refused (s : Pars) (name : List Char) (v : PyVal) :
    ((∀ p ∈ s.params, p.name ≠ lowerName name) → (s.set name v).1 = some .keyError) ∧
    (∀ p a b, s.params = a ++ p :: b → (∀ q ∈ a, q.name ≠ lowerName name) → p.name = lowerName name → p.kind = .fixed →
      (s.set name v).1 = some .exception) := by
  constructor
  · intro h
    show (assignFirst name v s.params).1 = _
    generalize s.params = ps at h
    induction ps with
    | nil => rfl
    | cons p ps ih =>
      rw [assignFirst, if_neg (h p (List.mem_cons_self ..))]
      exact ih fun q hq => h q (List.mem_cons_of_mem _ hq)
  · intro p a b hs ha hp hk
    show (assignFirst name v s.params).1 = _
    rw [hs]
    clear hs
    induction a with
    | nil =>
      rw [List.nil_append, assignFirst, if_pos hp]
      unfold Param.assign checked
      rw [if_pos hk]
    | cons q a ih =>
      rw [List.cons_append, assignFirst, if_neg (ha q (List.mem_cons_self ..))]
      exact ih fun x hx => ha x (List.mem_cons_of_mem _ hx)

/-- A value which is not a number passes the bounds: frequencies and times may be set to NaN. -/
theorem params_nan_violated (min max : Option ℚ) (res : ℚ) (p : Param) (hk : p.kind = .value min max res)
    (hc : p.conv .nan = some .nan) : p.assign .nan = (none, { p with val := .nan }) := by
  have : checked p .nan = .ok .nan := by
    unfold checked
    rw [if_neg (by rw [hk]; exact fun h => by cases h), if_neg (by exact fun h => by cases h), hc, hk]
    show ((belowMin min res .nan).bind fun b => if b then Except.ok false else (aboveMax max res .nan).map fun c => !c).bind
      (fun b => if b then Except.ok PyVal.nan else .error .valueError) = _
    have e1 : belowMin min res .nan = .ok false := by unfold belowMin; split <;> rfl
    have e2 : aboveMax max res .nan = .ok false := by unfold aboveMax; split <;> rfl
    rw [e1]
    show (Except.map (fun c => !c) (aboveMax max res .nan)).bind _ = _
    rw [e2]
    rfl
  unfold Param.assign
  rw [this]

/-- Parameters like those of a file between 20 and 80 MHz, with beams 0 and 1. -/
def someParams : List Param :=
  [⟨"channels".toList, .fixed, fun v => some v, .num 16⟩,
   ⟨"fmin".toList, .value (some 20) (some 80) (1 / 100), fun v => some v, .num 20⟩,
   ⟨"fmax".toList, .value (some 20) (some 80) (1 / 100), fun v => some v, .num 80⟩,
   ⟨"beam".toList, .restricted [0, 1], fun v => some v, .num 0⟩,
   ⟨"overwrite".toList, .boolean, fun v => some v, .bool false⟩]

theorem someParams_sound : Sound someParams := by
  intro p hp
  simp only [someParams, List.mem_cons, List.not_mem_nil, or_false] at hp
  rcases hp with rfl | rfl | rfl | rfl | rfl
  · rfl
  · refine Or.inr fun q hq => ?_
    cases hq
    constructor <;> (rintro m ⟨⟩; norm_num)
  · refine Or.inr fun q hq => ?_
    cases hq
    constructor <;> (rintro m ⟨⟩; norm_num)
  · exact expected_rule _ _ _ (by rfl)
  · exact expected_rule _ _ _ (by rfl)

example : ((Pars.mk' someParams).set "FMIN".toList (.num 30)).1 = none ∧
    ((Pars.mk' someParams).set "fmin".toList (.num 90)).1 = some .valueError := by
  decide +kernel

/-! ## Reading with options -/

theorem setAll_error {s : Pars} {opts : List (List Char × PyVal)} {e : Err} (h : (setAll s opts).1 = some e) :
    ∃ a o b, opts = a ++ o :: b ∧ (setAll s a).1 = none ∧ (setAll s opts).2 = (setAll s a).2 := by
  induction opts generalizing s with
  | nil => cases h
  | cons o os ih =>
    rw [setAll] at h
    by_cases hc : (s.set o.1 o.2).1 = none
    · rw [if_pos hc] at h
      obtain ⟨a, x, b, h1, h2, h3⟩ := ih h
      refine ⟨o :: a, x, b, by rw [h1]; rfl, ?_, ?_⟩
      · rw [setAll, if_pos hc]; exact h2
      · rw [setAll, if_pos hc, h3, setAll, if_pos hc]
    · rw [if_neg hc] at h
      refine ⟨[], o, os, rfl, rfl, ?_⟩
      have e1 : (setAll s (o :: os)).2 = (s.set o.1 o.2).2 := by rw [setAll, if_neg hc]
      rw [e1]
      exact params_rejected s o.1 o.2 e h

/-- **C49**: when every option is accepted and the call ends by returning or storing data, or with an ordinary exception,
the parameters of the reader are those before the call. -/
theorem get_pure_partial (body : Pars → Outcome) (s : Pars) (opts : List (List Char × PyVal))
    (h : (setAll s opts).1 = none) (hb : body (setAll s opts).2 ≠ .tooLarge)
    (hi : body (setAll s opts).2 ≠ .interrupted) : (spectraGet body s opts).2 = s := by
  unfold spectraGet
  rw [h]
  dsimp only
  cases hbo : body (setAll s opts).2 with
  | returned => rfl
  | stored => rfl
  | tooLarge => exact absurd hbo hb
  | raised e => rfl
  | interrupted => exact absurd hbo hi

/-- **C49**: a refused option leaves the options before it in the reader: it keeps exactly them. -/
theorem get_refused_exact (body : Pars → Outcome) (s : Pars) (opts : List (List Char × PyVal)) (e : Err)
    (h : (setAll s opts).1 = some e) :
    ∃ a o b, opts = a ++ o :: b ∧ (setAll s a).1 = none ∧ spectraGet body s opts = (some e, (setAll s a).2) := by
  obtain ⟨a, o, b, h1, h2, h3⟩ := setAll_error h
  refine ⟨a, o, b, h1, h2, ?_⟩
  unfold spectraGet
  rw [h]
  dsimp only
  rw [h3]

/-- A single refused option leaves the reader unchanged. -/
theorem get_one_refused_partial (body : Pars → Outcome) (s : Pars) (name : List Char) (v : PyVal) (e : Err)
    (h : (s.set name v).1 = some e) : (spectraGet body s [(name, v)]).2 = s := by
  have h1 : setAll s [(name, v)] = s.set name v := by
    rw [setAll]
    dsimp only
    rw [if_neg (by rw [h]; simp)]
  unfold spectraGet
  rw [h1, h]
  exact params_rejected s name v e h

/-- A call with a valid and an invalid option changes the reader although it fails. -/
theorem get_refused_violated :
    ∃ (s : Pars) (opts : List (List Char × PyVal)), ∀ body, (spectraGet body s opts).1 = some .valueError ∧
      ((spectraGet body s opts).2.get "fmin".toList).toOption = some (.num 30) ∧
      (s.get "fmin".toList).toOption = some (.num 20) := by
  refine ⟨Pars.mk' someParams, [("fmin".toList, .num 30), ("fmax".toList, .num 90)], fun body => ?_⟩
  have h1 : (setAll (Pars.mk' someParams) [("fmin".toList, .num 30), ("fmax".toList, .num 90)]).1 = some .valueError := by
    decide +kernel
  unfold spectraGet
  rw [h1]
  refine ⟨rfl, ?_, ?_⟩
  · show ((setAll (Pars.mk' someParams) [("fmin".toList, .num 30), ("fmax".toList, .num 90)]).2.get "fmin".toList).toOption = _
    decide +kernel
  · decide +kernel

/-- A call which gives up because of the volume of the data leaves all its options in the reader; so does an interruption. -/
theorem get_volume_violated (body : Pars → Outcome) (s : Pars) (opts : List (List Char × PyVal))
    (h : (setAll s opts).1 = none)
    (hb : body (setAll s opts).2 = .tooLarge ∨ body (setAll s opts).2 = .interrupted) :
    (spectraGet body s opts).2 = (setAll s opts).2 := by
  unfold spectraGet
  rw [h]
  dsimp only
  rcases hb with hb | hb <;> rw [hb]

example : (setAll (Pars.mk' someParams) [("fmin".toList, .num 30)]).1 = none ∧
    ((setAll (Pars.mk' someParams) [("fmin".toList, .num 30)]).2.get "fmin".toList).toOption = some (.num 30) := by
  decide +kernel

/-! ## Tasks -/

/-- The tasks which may not be repeated are not. -/
def Unique (ts : List Task) : Prop :=
  ∀ t ∈ ts, t.repeatable = false → (ts.filter fun u => decide (u.name = t.name)).length = 1

/-- The name of a task tells if it can be repeated. -/
def Named (rep : List Char → Bool) (ts : List Task) : Prop := ∀ t ∈ ts, t.repeatable = rep t.name

theorem containsTask_iff {ts : List Task} {n : List Char} : containsTask ts n = true ↔ ∃ t ∈ ts, t.name = n := by
  unfold containsTask
  rw [List.any_eq_true]
  simp only [decide_eq_true_iff]

theorem filter_nil_of_not_contains {ts : List Task} {n : List Char} (h : containsTask ts n = false) :
    (ts.filter fun u => decide (u.name = n)) = [] := by
  rw [List.filter_eq_nil_iff]
  intro u hu hd
  have : containsTask ts n = true := containsTask_iff.mpr ⟨u, hu, of_decide_eq_true hd⟩
  rw [h] at this; cases this

theorem count_perm_insert (ts : List Task) (k : Nat) (t : Task) (n : List Char) :
    ((ts.take k ++ t :: ts.drop k).filter fun u => decide (u.name = n)).length
      = (ts.filter fun u => decide (u.name = n)).length + if t.name = n then 1 else 0 := by
  rw [List.filter_append, List.length_append, List.filter_cons]
  have h : (ts.filter fun u => decide (u.name = n)).length
      = ((ts.take k).filter fun u => decide (u.name = n)).length + ((ts.drop k).filter fun u => decide (u.name = n)).length := by
    conv_lhs => rw [← List.take_append_drop k ts]
    rw [List.filter_append, List.length_append]
  rw [h]
  by_cases hn : t.name = n
  · simp only [hn, decide_true, if_true, List.length_cons]; omega
  · simp only [hn, decide_false, if_false]
    simp

theorem unique_insert {rep : List Char → Bool} {ts : List Task} (hu : Unique ts) (hn : Named rep ts) (t : Task)
    (ht : t.repeatable = rep t.name) (k : Nat) (hc : ¬ (containsTask ts t.name && !t.repeatable) = true) :
    Unique (ts.take k ++ t :: ts.drop k) ∧ Named rep (ts.take k ++ t :: ts.drop k) := by
  have hmem : ∀ x, x ∈ ts.take k ++ t :: ts.drop k → x = t ∨ x ∈ ts := by
    intro x hx
    rcases List.mem_append.mp hx with h | h
    · exact Or.inr (List.mem_of_mem_take h)
    · rcases List.mem_cons.mp h with h | h
      · exact Or.inl h
      · exact Or.inr (List.mem_of_mem_drop h)
  constructor
  · intro x hx hr
    rw [count_perm_insert]
    rcases hmem x hx with rfl | h
    · have h0 : containsTask ts x.name = false := by
        cases h0 : containsTask ts x.name with
        | false => rfl
        | true => rw [h0, hr] at hc; simp at hc
      rw [filter_nil_of_not_contains h0]
      simp
    · have h1 := hu x h hr
      have hne : ¬ t.name = x.name := by
        intro he
        apply hc
        have : containsTask ts t.name = true := containsTask_iff.mpr ⟨x, h, he.symm⟩
        rw [this, ht, he, ← hn x h, hr]
        rfl
      rw [h1, if_neg hne]
  · intro x hx
    rcases hmem x hx with rfl | h
    · exact ht
    · exact hn x h

theorem unique_sublist {rep : List Char → Bool} {ts us : List Task} (hs : us.Sublist ts) (hu : Unique ts) (hn : Named rep ts) :
    Unique us ∧ Named rep us := by
  constructor
  · intro t ht hr
    have h1 := hu t (hs.subset ht) hr
    have h2 : (us.filter fun u => decide (u.name = t.name)).length ≤ (ts.filter fun u => decide (u.name = t.name)).length :=
      (hs.filter _).length_le
    have h3 : 0 < (us.filter fun u => decide (u.name = t.name)).length :=
      List.length_pos_of_mem (List.mem_filter.mpr ⟨ht, by simp⟩)
    omega
  · exact fun t ht => hn t (hs.subset ht)

theorem removeOne_sublist (ts : List Task) (a : RmArg) : (removeOne ts a).2.Sublist ts := by
  cases a with
  | name s => exact List.eraseP_sublist
  | index i =>
    show (((pyIndex ts.length i).map ts.eraseIdx).getD ts).Sublist ts
    cases pyIndex ts.length i with
    | none => exact List.Sublist.refl _
    | some k => exact List.eraseIdx_sublist _ _
  | other => exact List.Sublist.refl _

theorem removeTasks_sublist (ts : List Task) (as : List RmArg) : (removeTasks ts as).2.Sublist ts := by
  induction as generalizing ts with
  | nil => exact List.Sublist.refl _
  | cons a as ih =>
    rw [removeTasks]
    split
    · exact (ih _).trans (removeOne_sublist ts a)
    · exact removeOne_sublist ts a

/-- The tasks inserted or appended by an operation. -/
def TaskOp.added : TaskOp → List Task
  | .insert t _ => [t]
  | .append t => [t]
  | _ => []

/-- **C50**: from a list without repeated non-repeatable task, any history of insertions, additions, removals and returns to the
default keeps this, when the names tell which tasks are repeatable. -/
theorem tasks_unique_partial (rep : List Char → Bool) (ts : List Task) (ops : List TaskOp) (hu : Unique ts) (hn : Named rep ts)
    (hd : Named rep defaultTasks) (ho : ∀ op ∈ ops, Named rep op.added) : Unique (ops.foldl applyTask ts) := by
  suffices h : ∀ ts, Unique ts → Named rep ts → Unique (ops.foldl applyTask ts) ∧ Named rep (ops.foldl applyTask ts) from
    (h ts hu hn).1
  clear hu hn ts
  induction ops with
  | nil => exact fun ts h1 h2 => ⟨h1, h2⟩
  | cons op ops ih =>
    intro ts hu hn
    rw [List.foldl_cons]
    have hop := ho op (List.mem_cons_self ..)
    have key : Unique (applyTask ts op) ∧ Named rep (applyTask ts op) := by
      cases op with
      | insert t i =>
        show Unique (insertTask ts t i) ∧ Named rep (insertTask ts t i)
        unfold insertTask
        split
        · exact ⟨hu, hn⟩
        · rename_i hc
          exact unique_insert hu hn t (hop t (List.mem_singleton.mpr rfl)) _ hc
      | append t =>
        show Unique (appendTask ts t) ∧ Named rep (appendTask ts t)
        unfold appendTask
        split
        · exact ⟨hu, hn⟩
        · rename_i hc
          have := unique_insert hu hn t (hop t (List.mem_singleton.mpr rfl)) ts.length hc
          rwa [List.take_length, List.drop_length] at this
      | remove as => exact unique_sublist (removeTasks_sublist ts as) hu hn
      | default =>
        refine ⟨?_, hd⟩
        show Unique defaultTasks
        intro t ht _
        revert t
        decide
    exact ih (fun o h => ho o (List.mem_cons_of_mem _ h)) _ key.1 key.2

example : Unique defaultTasks ∧ Named (fun n => decide (n = "Rebin in time".toList ∨ n = "Rebin in frequency".toList)) defaultTasks := by
  constructor
  · intro t ht _
    revert t
    decide
  · intro t ht
    revert t
    decide

/-- **C50**: an insertion which is not refused puts the task at the requested place and keeps the others in order;
a refused one changes nothing. -/
theorem insert_exact (ts : List Task) (t : Task) (i : Nat) (hi : i ≤ ts.length) :
    ((containsTask ts t.name = false ∨ t.repeatable = true) →
      insertTask ts t i = ts.take i ++ t :: ts.drop i ∧ (insertTask ts t i)[i]? = some t) ∧
    ((containsTask ts t.name = true ∧ t.repeatable = false) → insertTask ts t i = ts) := by
  constructor
  · intro h
    have hc : ¬ (containsTask ts t.name && !t.repeatable) = true := by
      rcases h with h | h <;> rw [h] <;> simp
    have e : insertTask ts t i = ts.take i ++ t :: ts.drop i := by
      unfold insertTask
      rw [if_neg hc]
      unfold pyInsert
      rw [pyBound_nat, Nat.min_eq_left hi]
    refine ⟨e, ?_⟩
    rw [e, List.getElem?_append_right (by rw [List.length_take]; omega), List.length_take, Nat.min_eq_left hi, Nat.sub_self]
    rfl
  · intro h
    unfold insertTask
    rw [h.1, h.2]
    rfl

/-- **C50**: the same for an addition, at the end. -/
theorem append_exact (ts : List Task) (t : Task) :
    ((containsTask ts t.name = false ∨ t.repeatable = true) → appendTask ts t = ts ++ [t]) ∧
    ((containsTask ts t.name = true ∧ t.repeatable = false) → appendTask ts t = ts) := by
  constructor
  · intro h
    unfold appendTask
    rw [if_neg]
    rcases h with h | h <;> rw [h] <;> simp
  · intro h
    unfold appendTask
    rw [h.1, h.2]
    rfl

/-- **C50**: removing by name removes the first task of that name and nothing else; an unknown name changes nothing. -/
theorem remove_name_exact (ts : List Task) (n : List Char) :
    (∀ a t b, ts = a ++ t :: b → t.name = n → (∀ u ∈ a, u.name ≠ n) → removeTasks ts [.name n] = (none, a ++ b)) ∧
    (containsTask ts n = false → removeTasks ts [.name n] = (none, ts)) := by
  have e : removeTasks ts [.name n] = (none, ts.eraseP fun t => decide (t.name = n)) := by
    rw [removeTasks, if_pos (by rfl), removeTasks]
    rfl
  rw [e]
  constructor
  · rintro a t b rfl ht ha
    rw [List.eraseP_append_right _ (by intro u hu; simpa using ha u hu), List.eraseP_cons_of_pos (by simpa using ht)]
  · intro h
    rw [List.eraseP_of_forall_not]
    intro u hu hd
    have : containsTask ts n = true := containsTask_iff.mpr ⟨u, hu, of_decide_eq_true hd⟩
    rw [h] at this; cases this

/-- **C50**: removing by position removes this task and nothing else; a position which does not exist is refused. -/
theorem remove_index_exact (ts : List Task) (i : Nat) :
    (∀ a t b, ts = a ++ t :: b → a.length = i → removeTasks ts [.index i] = (none, a ++ b)) ∧
    (ts.length ≤ i → removeTasks ts [.index i] = (some .indexError, ts)) := by
  constructor
  · rintro a t b rfl rfl
    have hi : pyIndex (a ++ t :: b).length (a.length : Int) = some a.length := by
      unfold pyIndex
      rw [if_pos ⟨by omega, by rw [List.length_append, List.length_cons]; omega⟩]
      simp
    have h1 : removeOne (a ++ t :: b) (.index a.length) = (none, a ++ b) := by
      show ((if (pyIndex (a ++ t :: b).length (a.length : Int)).isSome then none else some Err.indexError),
        ((pyIndex (a ++ t :: b).length (a.length : Int)).map (a ++ t :: b).eraseIdx).getD (a ++ t :: b)) = _
      rw [hi]
      show (none, (a ++ t :: b).eraseIdx a.length) = _
      rw [List.eraseIdx_append_of_length_le (le_refl _), Nat.sub_self]
      rfl
    rw [removeTasks, h1, if_pos rfl, removeTasks]
  · intro h
    have hi : pyIndex ts.length (i : Int) = none := by
      unfold pyIndex
      rw [if_neg (by omega), if_neg (by omega)]
    have h1 : removeOne ts (.index i) = (some .indexError, ts) := by
      show ((if (pyIndex ts.length (i : Int)).isSome then none else some Err.indexError),
        ((pyIndex ts.length (i : Int)).map ts.eraseIdx).getD ts) = _
      rw [hi]
      rfl
    rw [removeTasks, h1, if_neg (by simp)]

/-- **C50**: a negative position counts from the end: -1 is the last task; one before the first task is refused. -/
theorem remove_negative_exact (ts : List Task) (i : Nat) :
    (∀ a t b, ts = a ++ t :: b → b.length = i → removeTasks ts [.index (-(i + 1 : Int))] = (none, a ++ b)) ∧
    (ts.length ≤ i → removeTasks ts [.index (-(i + 1 : Int))] = (some .indexError, ts)) := by
  constructor
  · rintro a t b rfl rfl
    have hi : pyIndex (a ++ t :: b).length (-(b.length + 1 : Int)) = some a.length := by
      unfold pyIndex
      rw [List.length_append, List.length_cons, if_neg (by omega), if_pos (by push_cast; omega)]
      congr 1
      push_cast
      omega
    have h1 : removeOne (a ++ t :: b) (.index (-(b.length + 1 : Int))) = (none, a ++ b) := by
      show ((if (pyIndex (a ++ t :: b).length (-(b.length + 1 : Int))).isSome then none else some Err.indexError),
        ((pyIndex (a ++ t :: b).length (-(b.length + 1 : Int))).map (a ++ t :: b).eraseIdx).getD (a ++ t :: b)) = _
      rw [hi]
      show (none, (a ++ t :: b).eraseIdx a.length) = _
      rw [List.eraseIdx_append_of_length_le (le_refl _), Nat.sub_self]
      rfl
    rw [removeTasks, h1, if_pos rfl, removeTasks]
  · intro h
    have hi : pyIndex ts.length (-(i + 1 : Int)) = none := by
      unfold pyIndex
      rw [if_neg (by omega), if_neg (by omega)]
    have h1 : removeOne ts (.index (-(i + 1 : Int))) = (some .indexError, ts) := by
      show ((if (pyIndex ts.length (-(i + 1 : Int))).isSome then none else some Err.indexError),
        ((pyIndex ts.length (-(i + 1 : Int))).map ts.eraseIdx).getD ts) = _
      rw [hi]
      rfl
    rw [removeTasks, h1, if_neg (by simp)]

example : removeTasks [⟨['a'], false⟩, ⟨['b'], true⟩] [.index (-1)] = (none, [⟨['a'], false⟩]) := by decide

/-- **C50** (violated): removing positions 0 and 1 in one call removes the tasks at 0 and 2: positions are those after the previous removals. -/
theorem remove_two_violated (a b c : Task) (ts : List Task) : removeTasks (a :: b :: c :: ts) [.index 0, .index 1] = (none, b :: ts) := by
  have p0 : pyIndex (a :: b :: c :: ts).length 0 = some 0 := by
    unfold pyIndex
    rw [if_pos (by simp only [List.length_cons]; omega)]
    rfl
  have p1 : pyIndex (b :: c :: ts).length 1 = some 1 := by
    unfold pyIndex
    rw [if_pos (by simp only [List.length_cons]; omega)]
    rfl
  have e0 : removeOne (a :: b :: c :: ts) (.index 0) = (none, b :: c :: ts) := by
    show ((if (pyIndex (a :: b :: c :: ts).length 0).isSome then none else some Err.indexError),
      ((pyIndex (a :: b :: c :: ts).length 0).map (a :: b :: c :: ts).eraseIdx).getD (a :: b :: c :: ts)) = _
    rw [p0]
    rfl
  have e1 : removeOne (b :: c :: ts) (.index 1) = (none, b :: ts) := by
    show ((if (pyIndex (b :: c :: ts).length 1).isSome then none else some Err.indexError),
      ((pyIndex (b :: c :: ts).length 1).map (b :: c :: ts).eraseIdx).getD (b :: c :: ts)) = _
    rw [p1]
    rfl
  rw [removeTasks, e0, if_pos rfl, removeTasks, e1, if_pos rfl]
  rfl

/-- Tasks given to the constructor are not checked: any non-repeatable one can be given twice, anywhere. -/
theorem tasks_ctor_violated (t : Task) (ht : t.repeatable = false) (a b c : List Task) : ¬ Unique (a ++ t :: b ++ t :: c) := by
  intro h
  have := h t (List.mem_append_left _ (List.mem_append_right _ List.mem_cons_self)) ht
  simp only [List.filter_append, List.filter_cons, List.length_append, decide_true, if_true, List.length_cons] at this
  omega

example : ¬ Unique [⟨['a'], false⟩, ⟨['a'], false⟩] := tasks_ctor_violated ⟨['a'], false⟩ rfl [] [] []

/-- **C50**: running the tasks is running the first ones, then the others on their result. -/
theorem run_append {D : Type} (step : Task → D → Except Err D) (a b : List Task) (d : D) :
    runTasks step (a ++ b) d = (runTasks step a d).bind (runTasks step b) := by
  induction a generalizing d with
  | nil => rfl
  | cons t a ih =>
    rw [List.cons_append, runTasks, runTasks]
    cases step t d with
    | error e => rfl
    | ok x => exact ih x

/-- **C50**: when no task fails, running is applying the tasks in order, each once. -/
theorem run_order {D : Type} (f : Task → D → D) (ts : List Task) (d : D) :
    runTasks (fun t d => .ok (f t d)) ts d = .ok (ts.foldl (fun d t => f t d) d) := by
  induction ts generalizing d with
  | nil => rfl
  | cons t ts ih => exact ih (f t d)

end Verif.TF
