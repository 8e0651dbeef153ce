import Verif.Config.Props
import Verif.Config.PropsText

/-!
# Configurations read from parset files: properties C95 to C97
-/

namespace Verif.Config

open Verif.Parset (Str PVal Item lower pyInt setItem IsFloat natStr)

/-! ## What a constructed object holds -/

theorem setAttr_inv {b : Backend} {k : Attr} {v : Val} {st st' : State} (h : setAttr b k v st = .ok st') :
    ∃ r, table b k = some r ∧ st' k = some (checkAttr r v) ∧ ∀ i, i ≠ k → st' i = st i := by
  unfold setAttr at h
  by_cases h1 : accepted k v = false
  · rw [if_pos h1] at h; cases h
  rw [if_neg h1] at h
  by_cases h2 : pow2Ok k v = false
  · rw [if_pos h2] at h; cases h
  rw [if_neg h2] at h
  cases ht : table b k with
  | none => rw [ht] at h; cases h
  | some r =>
    rw [ht] at h
    injection h with h
    refine ⟨r, rfl, ?_, ?_⟩
    · rw [← h]; simp
    · intro i hi
      rw [← h]; simp [hi]

theorem initLoop_holds (b : Backend) (kw : Attr → Option Val) : ∀ (l : List Attr) (st st' : State), l.Nodup → initLoop b kw l st = .ok st' →
    (∀ k ∈ l, ∀ r, table b k = some r → st' k = some (checkAttr r ((kw k).getD r.default))) ∧ ∀ k, k ∉ l → st' k = st k
  | [], st, st', _, h => by
    rw [initLoop] at h; injection h with h; subst h
    exact ⟨fun k hk => absurd hk (by simp), fun _ _ => rfl⟩
  | a :: l, st, st', hn, h => by
    rw [initLoop] at h
    rw [List.nodup_cons] at hn
    cases ht : table b a with
    | none =>
      rw [ht] at h
      obtain ⟨h1, h2⟩ := initLoop_holds b kw l st st' hn.2 h
      refine ⟨fun k hk r hr => ?_, fun k hk => h2 k (fun e => hk (by simp [e]))⟩
      rcases List.mem_cons.mp hk with rfl | hk
      · rw [ht] at hr; cases hr
      · exact h1 k hk r hr
    | some r0 =>
      rw [ht] at h
      change (setAttr b a ((kw a).getD r0.default) st).bind (initLoop b kw l) = _ at h
      cases hs : setAttr b a ((kw a).getD r0.default) st with
      | error e => rw [hs] at h; cases h
      | ok st1 =>
        rw [hs] at h
        obtain ⟨h1, h2⟩ := initLoop_holds b kw l st1 st' hn.2 h
        obtain ⟨r1, e1, e2, e3⟩ := setAttr_inv hs
        rw [ht] at e1; injection e1 with e1; subst e1
        refine ⟨fun k hk r hr => ?_, fun k hk => ?_⟩
        · rcases List.mem_cons.mp hk with rfl | hk
          · rw [ht] at hr; injection hr with hr; subst hr
            rw [h2 k hn.1, e2]
          · exact h1 k hk r hr
        · rw [h2 k (fun e => hk (by simp [e])), e3 k (fun e => hk (by simp [e]))]

theorem construct_holds {b : Backend} {kw : Attr → Option Val} {st : State} (h : construct b kw = .ok st) (k : Attr) (r : Range) (ht : table b k = some r) :
    st k = some (checkAttr r ((kw k).getD r.default)) :=
  (initLoop_holds b kw allAttrs (fun _ => none) st (by decide) h).1 k (by cases k <;> decide) r ht

/-- A value given and within bounds. -/
def Given (b : Backend) (kw : Attr → Option Val) (k : Attr) (q : ℚ) : Prop := ∃ r v, table b k = some r ∧ kw k = some v ∧ v.num = some q ∧ r.min ≤ q ∧ q ≤ r.max

theorem checkAttr_within {r : Range} {v : Val} {q : ℚ} (hv : v.num = some q) (h1 : r.min ≤ q) (h2 : q ≤ r.max) : checkAttr r v = v := by
  unfold checkAttr
  rw [hv]
  rw [if_neg (by simp; exact h2), if_neg (by simp; exact h1)]

theorem mkBeam_given {b : Backend} {kw : Attr → Option Val} {d : Int} {y : Beam} (h : mkBeam b kw d = .ok y) :
    y.backend = b ∧ y.duration = d ∧ (∀ k q, Given b kw k q → y.attr k = q)
      ∧ ∀ k r q, table b k = some r → kw k = none → r.default.num = some q → y.attr k = q := by
  unfold mkBeam at h
  cases hc : construct b kw with
  | error e => rw [hc] at h; cases h
  | ok st =>
    rw [hc] at h
    injection h with h
    subst h
    refine ⟨rfl, rfl, ?_, ?_⟩
    · rintro k q ⟨r, v, ht, hk, hv, h1, h2⟩
      show ((st k).bind Val.num).getD 0 = q
      rw [construct_holds hc k r ht, hk, Option.getD_some, checkAttr_within hv h1 h2, Option.bind_some, hv]
      rfl
    · intro k r q ht hk hq
      show ((st k).bind Val.num).getD 0 = q
      obtain ⟨⟨q', h1, h2, h3⟩, -⟩ := defaults_fine b k r ht
      rw [h1] at hq
      injection hq with hq
      subst hq
      rw [construct_holds hc k r ht, hk, Option.getD_none, checkAttr_within h1 h2 h3, Option.bind_some, h1]
      rfl

theorem setAttr_accepts {b : Backend} {k : Attr} {v : Val} {r : Range} (ht : table b k = some r) (ha : accepted k v = true) (hp : pow2Ok k v = true) (st : State) :
    ∃ st', setAttr b k v st = .ok st' := by
  unfold setAttr
  rw [ha, hp, ht]
  exact ⟨_, rfl⟩

/-- The constructor succeeds exactly when all the values given are of the right type, and powers of two where asked. -/
theorem construct_ok {b : Backend} {kw : Attr → Option Val} (h : ∀ k v, kw k = some v → accepted k v = true ∧ pow2Ok k v = true) : ∃ st, construct b kw = .ok st := by
  unfold construct
  have : ∀ (l : List Attr) (st : State), ∃ st', initLoop b kw l st = .ok st' := by
    intro l
    induction l with
    | nil => intro st; exact ⟨st, rfl⟩
    | cons k l ih =>
      intro st
      rw [initLoop]
      cases ht : table b k with
      | none => exact ih st
      | some r =>
        have : ∃ st1, setAttr b k ((kw k).getD r.default) st = .ok st1 := by
          cases hk : kw k with
          | none => exact setAttr_default ht st
          | some v => exact setAttr_accepts ht (h k v hk).1 (h k v hk).2 st
        obtain ⟨st1, h1⟩ := this
        obtain ⟨st2, h2⟩ := ih st1
        refine ⟨st2, ?_⟩
        show (setAttr b k ((kw k).getD r.default) st).bind _ = _
        rw [h1]
        exact h2
  exact this _ _

theorem bindE {α β : Type} {x : Except Err α} {f : α → Except Err β} {y : β} (h : x.bind f = .ok y) : ∃ a, x = .ok a ∧ f a = .ok y := by
  cases x with
  | error e => cases h
  | ok a => exact ⟨a, rfl, h⟩

theorem mapEx {α β : Type} {x : Except Err α} {f : α → β} {y : β} (h : x.map f = .ok y) : ∃ a, x = .ok a ∧ f a = y := by
  cases x with
  | error e => cases h
  | ok a => injection h with h; exact ⟨a, rfl, h⟩

/-! ## C95 Each digital beam is counted once, by the backend it is meant for -/

/-- The backend a digital beam is recorded with, as the observer understands the file. -/
def kind (x : DBeam) : Option Backend :=
  if lower x.toDo = "waveform".toList then some .raw
  else if lower x.toDo = "dynamicspectrum".toList then x.params.bind fun s => if modeOf s = "tf".toList then some .tf else none
  else if lower x.toDo = "pulsar".toList then x.params.bind fun s =>
    if modeOf s = "fold".toList then some .fold else if modeOf s = "waveolaf".toList then some .waveolaf else if modeOf s = "single".toList then some .single else none
  else none

/-- What the volume of a digital beam should be computed from: its duration and its sub-bands. -/
def Stands (b : Backend) (x : DBeam) (y : Beam) : Prop :=
  y.backend = b ∧ (∃ n, seconds x.duration = .ok n ∧ y.duration = n)
    ∧ ∀ r, table b .nSubBands = some r → r.min ≤ (x.subbands.length : ℚ) → (x.subbands.length : ℚ) ≤ r.max → y.attr .nSubBands = x.subbands.length

theorem given_len {b : Backend} {l : List Item} {kws : List (Attr × Val)} (hk : kwOf kws .nSubBands = some (lenVal l)) {r : Range} (ht : table b .nSubBands = some r)
    (h1 : r.min ≤ (l.length : ℚ)) (h2 : (l.length : ℚ) ≤ r.max) : Given b (kwOf kws) .nSubBands l.length :=
  ⟨r, lenVal l, ht, hk, by unfold lenVal Val.num; simp, h1, h2⟩

theorem stands_of {b : Backend} {x : DBeam} {kws : List (Attr × Val)} {n : Int} {y : Beam} (hs : seconds x.duration = .ok n) (hk : kwOf kws .nSubBands = some (lenVal x.subbands))
    (h : mkBeam b (kwOf kws) n = .ok y) : Stands b x y := by
  obtain ⟨h1, h2, h3, -⟩ := mkBeam_given h
  exact ⟨h1, ⟨n, hs, h2⟩, fun r ht a c => h3 _ _ (given_len hk ht a c)⟩

theorem tf_stands {F : Str → Option ℚ} {x : DBeam} {s : Str} {y : Beam} (h : tfBeam F x s = .ok y) : Stands .tf x y := by
  unfold tfBeam at h
  obtain ⟨dt, -, h⟩ := bindE h
  obtain ⟨df, -, h⟩ := bindE h
  obtain ⟨n, hn, h⟩ := bindE h
  exact stands_of hn rfl h

theorem raw_stands {x : DBeam} {y : Beam} (h : rawBeam x = .ok y) : Stands .raw x y := by
  unfold rawBeam at h
  obtain ⟨n, hn, h⟩ := bindE h
  exact stands_of hn rfl h

theorem fold_stands {F : Str → Option ℚ} {x : DBeam} {s : Str} {y : Beam} (h : foldBeam F x s = .ok y) : Stands .fold x y := by
  unfold foldBeam at h
  obtain ⟨dt, -, h⟩ := bindE h
  obtain ⟨n, hn, h⟩ := bindE h
  obtain ⟨df, -, h⟩ := bindE h
  exact stands_of hn rfl h

theorem wave_stands {x : DBeam} {y : Beam} (h : waveBeam x = .ok y) : Stands .waveolaf x y := by
  unfold waveBeam at h
  obtain ⟨n, hn, h⟩ := bindE h
  exact stands_of hn rfl h

theorem single_stands {x : DBeam} {s : Str} {y : Beam} (h : singleBeam x s = .ok y) : Stands .single x y := by
  unfold singleBeam at h
  obtain ⟨dt, -, h⟩ := bindE h
  obtain ⟨n, hn, h⟩ := bindE h
  obtain ⟨df, -, h⟩ := bindE h
  exact stands_of hn rfl h

theorem inMode_inv {todo mode : Str} {f : Str → Except Err Beam} {x : DBeam} {o : Option Beam} (h : inMode todo mode f x = .ok o) :
    (∃ s y, lower x.toDo = todo ∧ x.params = some s ∧ modeOf s = mode ∧ f s = .ok y ∧ o = some y)
      ∨ (o = none ∧ ∀ s, lower x.toDo = todo → x.params = some s → modeOf s ≠ mode) := by
  unfold inMode at h
  by_cases h1 : lower x.toDo = todo
  · rw [if_pos h1] at h
    cases hp : x.params with
    | none =>
      rw [hp] at h
      injection h with h
      exact Or.inr ⟨h.symm, fun s _ e => by cases e⟩
    | some s =>
      rw [hp] at h
      change (if modeOf s = mode then (f s).map some else .ok none) = _ at h
      by_cases h2 : modeOf s = mode
      · rw [if_pos h2] at h
        obtain ⟨y, hy, e⟩ := mapEx h
        exact Or.inl ⟨s, y, h1, rfl, h2, hy, e.symm⟩
      · rw [if_neg h2] at h
        injection h with h
        exact Or.inr ⟨h.symm, fun t _ e => by injection e with e; rwa [← e]⟩
  · rw [if_neg h1] at h
    injection h with h
    exact Or.inr ⟨h.symm, fun s e => absurd e h1⟩

theorem kind_raw (x : DBeam) : kind x = some .raw ↔ lower x.toDo = "waveform".toList := by
  unfold kind
  by_cases h1 : lower x.toDo = "waveform".toList
  · rw [if_pos h1]; simp [h1]
  rw [if_neg h1]
  refine iff_of_false (fun h => ?_) h1
  by_cases h2 : lower x.toDo = "dynamicspectrum".toList
  · rw [if_pos h2] at h
    obtain ⟨s, -, h⟩ := Option.bind_eq_some_iff.mp h
    split_ifs at h
    cases h
  rw [if_neg h2] at h
  split_ifs at h
  obtain ⟨s, -, h⟩ := Option.bind_eq_some_iff.mp h
  split_ifs at h <;> cases h

theorem kind_tf (x : DBeam) : kind x = some .tf ↔ lower x.toDo = "dynamicspectrum".toList ∧ ∃ s, x.params = some s ∧ modeOf s = "tf".toList := by
  unfold kind
  by_cases h1 : lower x.toDo = "waveform".toList
  · rw [if_pos h1]
    refine iff_of_false (fun h => by cases h) (fun h => ?_)
    rw [h1] at h
    exact absurd h.1 (by decide)
  rw [if_neg h1]
  by_cases h2 : lower x.toDo = "dynamicspectrum".toList
  · rw [if_pos h2, Option.bind_eq_some_iff]
    constructor
    · rintro ⟨s, hs, h⟩
      split_ifs at h with h3
      exact ⟨h2, s, hs, h3⟩
    · rintro ⟨-, s, hs, h3⟩
      exact ⟨s, hs, by rw [if_pos h3]⟩
  rw [if_neg h2]
  refine iff_of_false (fun h => ?_) (fun h => h2 h.1)
  split_ifs at h
  obtain ⟨s, -, h⟩ := Option.bind_eq_some_iff.mp h
  split_ifs at h <;> cases h

theorem kind_pulsar (x : DBeam) (b : Backend) (m : Str) (hb : (b, m) = (.fold, "fold".toList) ∨ (b, m) = (.waveolaf, "waveolaf".toList) ∨ (b, m) = (.single, "single".toList)) :
    kind x = some b ↔ lower x.toDo = "pulsar".toList ∧ ∃ s, x.params = some s ∧ modeOf s = m := by
  have hb1 : b ≠ .raw ∧ b ≠ .tf := by
    rcases hb with h | h | h <;> injection h with h _ <;> subst h <;> exact ⟨by decide, by decide⟩
  unfold kind
  by_cases h1 : lower x.toDo = "waveform".toList
  · rw [if_pos h1]
    refine iff_of_false (fun h => hb1.1 (Option.some.inj h).symm) (fun h => ?_)
    rw [h1] at h
    exact absurd h.1 (by decide)
  rw [if_neg h1]
  by_cases h2 : lower x.toDo = "dynamicspectrum".toList
  · rw [if_pos h2]
    refine iff_of_false (fun h => ?_) (fun h => ?_)
    · obtain ⟨s, -, h⟩ := Option.bind_eq_some_iff.mp h
      split_ifs at h
      exact hb1.2 (Option.some.inj h).symm
    · rw [h2] at h
      exact absurd h.1 (by decide)
  rw [if_neg h2]
  by_cases h3 : lower x.toDo = "pulsar".toList
  · rw [if_pos h3, Option.bind_eq_some_iff]
    constructor
    · rintro ⟨s, hs, h⟩
      refine ⟨h3, s, hs, ?_⟩
      split_ifs at h with h4 h5 h6
      · injection h with h; subst h
        rcases hb with h | h | h <;> injection h with e1 e2
        · rw [h4, e2]
        · cases e1
        · cases e1
      · injection h with h; subst h
        rcases hb with h | h | h <;> injection h with e1 e2
        · cases e1
        · rw [h5, e2]
        · cases e1
      · injection h with h; subst h
        rcases hb with h | h | h <;> injection h with e1 e2
        · cases e1
        · cases e1
        · rw [h6, e2]
    · rintro ⟨-, s, hs, h⟩
      refine ⟨s, hs, ?_⟩
      rcases hb with e | e | e <;> injection e with e1 e2 <;> subst e1 e2
      · rw [if_pos h]
      · rw [h, if_neg (by decide), if_pos rfl]
      · rw [h, if_neg (by decide), if_neg (by decide), if_pos rfl]
  rw [if_neg h3]
  exact iff_of_false (fun h => by cases h) (fun h => h3 h.1)

theorem beamOf_inv {F : Str → Option ℚ} {b : Backend} {x : DBeam} {o : Option Beam} (h : beamOf F b x = .ok o) :
    (kind x = some b ∧ ∃ y, o = some y ∧ Stands b x y) ∨ (kind x ≠ some b ∧ o = none) := by
  have mode : ∀ (todo m : Str) (f : Str → Except Err Beam), inMode todo m f x = .ok o → (∀ s y, f s = .ok y → Stands b x y) →
      (kind x = some b ↔ lower x.toDo = todo ∧ ∃ s, x.params = some s ∧ modeOf s = m) →
      (kind x = some b ∧ ∃ y, o = some y ∧ Stands b x y) ∨ (kind x ≠ some b ∧ o = none) := by
    intro todo m f h hf hk
    rcases inMode_inv h with ⟨s, y, h1, h2, h3, h4, h5⟩ | ⟨h1, h2⟩
    · exact Or.inl ⟨hk.mpr ⟨h1, s, h2, h3⟩, y, h5, hf s y h4⟩
    · refine Or.inr ⟨fun e => ?_, h1⟩
      obtain ⟨a, s, c, d⟩ := hk.mp e
      exact h2 s a c d
  cases b with
  | tf => exact mode _ _ _ h (fun s y => tf_stands) (kind_tf x)
  | fold => exact mode _ _ _ h (fun s y => fold_stands) (kind_pulsar x _ _ (Or.inl rfl))
  | waveolaf => exact mode _ _ _ h (fun s y => wave_stands) (kind_pulsar x _ _ (Or.inr (Or.inl rfl)))
  | single => exact mode _ _ _ h (fun s y => single_stands) (kind_pulsar x _ _ (Or.inr (Or.inr rfl)))
  | raw =>
    change (if lower x.toDo = "waveform".toList then (rawBeam x).map some else .ok none) = _ at h
    by_cases h1 : lower x.toDo = "waveform".toList
    · rw [if_pos h1] at h
      obtain ⟨y, hy, e⟩ := mapEx h
      exact Or.inl ⟨(kind_raw x).mpr h1, y, e.symm, raw_stands hy⟩
    · rw [if_neg h1] at h
      injection h with h
      exact Or.inr ⟨fun e => h1 ((kind_raw x).mp e), h.symm⟩
  | bst =>
    injection h with h
    refine Or.inr ⟨fun e => ?_, h.symm⟩
    unfold kind at e
    split_ifs at e
    all_goals try cases e
    all_goals
      obtain ⟨s, -, e⟩ := Option.bind_eq_some_iff.mp e
      split_ifs at e <;> cases e
  | nickel =>
    injection h with h
    refine Or.inr ⟨fun e => ?_, h.symm⟩
    unfold kind at e
    split_ifs at e
    all_goals try cases e
    all_goals
      obtain ⟨s, -, e⟩ := Option.bind_eq_some_iff.mp e
      split_ifs at e <;> cases e

theorem collect_stands {F : Str → Option ℚ} {b : Backend} : ∀ {l : List DBeam} {r : List Beam}, collect (beamOf F b) l = .ok r →
    List.Forall₂ (Stands b) (l.filter (fun x => decide (kind x = some b))) r
  | [], r, h => by
    rw [collect] at h; injection h with h; subst h
    exact List.Forall₂.nil
  | x :: l, r, h => by
    rw [collect] at h
    obtain ⟨o, ho, h⟩ := bindE h
    obtain ⟨r', hr, e⟩ := mapEx h
    have ih := collect_stands hr
    rcases beamOf_inv ho with ⟨h1, y, rfl, h2⟩ | ⟨h1, rfl⟩
    · rw [List.filter_cons_of_pos (by simpa using h1), ← e]
      exact List.Forall₂.cons h2 ih
    · rw [List.filter_cons_of_neg (by simpa using h1), ← e]
      exact ih

/-- When the beamformer output is recorded, the beams of a configuration are, one for one and in order, the digital beams meant for this backend, with their durations and
their numbers of sub-bands. -/
theorem beams_match_partial (F : Str → Option ℚ) (b : Backend) (p : PSet) (hd : PVal) (r : List Beam) (h0 : p.hd = some hd) (h1 : contains "undysputed".toList hd = .ok true)
    (h : undysputed F b p = .ok r) : List.Forall₂ (Stands b) (p.digis.filter (fun x => decide (kind x = some b))) r := by
  unfold undysputed at h
  obtain ⟨v, hv, h⟩ := bindE h
  obtain ⟨on, hon, h⟩ := bindE h
  rw [h0] at hv
  injection hv with hv
  subst hv
  rw [h1] at hon
  injection hon with hon
  subst hon
  rw [if_pos rfl] at h
  exact collect_stands h

/-- No digital beam is counted by two backends. -/
theorem counted_once (F : Str → Option ℚ) (p : PSet) (hd : PVal) (h0 : p.hd = some hd) (h1 : contains "undysputed".toList hd = .ok true) (r : Backend → List Beam)
    (h : ∀ b ∈ [Backend.tf, .raw, .fold, .waveolaf, .single], undysputed F b p = .ok (r b)) :
    (r .tf).length + (r .raw).length + (r .fold).length + (r .waveolaf).length + (r .single).length = (p.digis.filter (fun x => (kind x).isSome)).length := by
  have len : ∀ b ∈ [Backend.tf, .raw, .fold, .waveolaf, .single], (r b).length = (p.digis.filter (fun x => decide (kind x = some b))).length :=
    fun b hb => (beams_match_partial F b p hd (r b) h0 h1 (h b hb)).length_eq.symm
  rw [len .tf (by simp), len .raw (by simp), len .fold (by simp), len .waveolaf (by simp), len .single (by simp)]
  clear len h h1 h0
  induction p.digis with
  | nil => rfl
  | cons x l ih =>
    have hk : kind x = none ∨ ∃ b ∈ [Backend.tf, .raw, .fold, .waveolaf, .single], kind x = some b := by
      unfold kind
      by_cases h1 : lower x.toDo = "waveform".toList
      · rw [if_pos h1]; exact Or.inr ⟨.raw, by simp, rfl⟩
      rw [if_neg h1]
      cases x.params with
      | none => split_ifs <;> exact Or.inl rfl
      | some s =>
        simp only [Option.bind_some]
        split_ifs
        · exact Or.inr ⟨.tf, by simp, rfl⟩
        · exact Or.inl rfl
        · exact Or.inr ⟨.fold, by simp, rfl⟩
        · exact Or.inr ⟨.waveolaf, by simp, rfl⟩
        · exact Or.inr ⟨.single, by simp, rfl⟩
        · exact Or.inl rfl
        · exact Or.inl rfl
    rcases hk with hk | ⟨b, hb, hk⟩
    · simp only [List.filter_cons, hk]
      simpa using ih
    · simp only [List.mem_cons, List.not_mem_nil, or_false] at hb
      rcases hb with rfl | rfl | rfl | rfl | rfl <;> simp [hk] <;> omega

example : ∃ x : DBeam, kind x = some .fold ∧ seconds x.duration = .ok 7140 ∧ ∃ y, beamOf (fun _ => some 10) .fold x = .ok (some y) ∧ 0 < y.volume :=
  ⟨⟨"pulsar".toList, some "FOLD: --TFOLD=10.737 --SRC=J0944-1354".toList, "7140s".toList, (List.range 192).map (fun n : Nat => Item.int n), 0⟩, by decide +kernel, rfl, _, rfl,
    by decide +kernel⟩

theorem initLoop_accepts (b : Backend) (kw : Attr → Option Val) : ∀ (l : List Attr) (st st' : State), initLoop b kw l st = .ok st' →
    ∀ k ∈ l, ∀ r, table b k = some r → accepted k ((kw k).getD r.default) = true ∧ pow2Ok k ((kw k).getD r.default) = true
  | [], _, _, _, k, hk, _, _ => absurd hk (by simp)
  | a :: l, st, st', h, k, hk, r, hr => by
    rw [initLoop] at h
    cases ht : table b a with
    | none =>
      rw [ht] at h
      rcases List.mem_cons.mp hk with rfl | hk
      · rw [ht] at hr; cases hr
      · exact initLoop_accepts b kw l st st' h k hk r hr
    | some r0 =>
      rw [ht] at h
      change (setAttr b a ((kw a).getD r0.default) st).bind (initLoop b kw l) = _ at h
      obtain ⟨st1, hs, h⟩ := bindE h
      rcases List.mem_cons.mp hk with rfl | hk
      · rw [ht] at hr; injection hr with hr; subst hr
        unfold setAttr at hs
        by_cases h1 : accepted k ((kw k).getD r0.default) = false
        · rw [if_pos h1] at hs; cases hs
        rw [if_neg h1] at hs
        by_cases h2 : pow2Ok k ((kw k).getD r0.default) = false
        · rw [if_pos h2] at hs; cases hs
        exact ⟨by simpa using h1, by simpa using h2⟩
      · exact initLoop_accepts b kw l st1 st' h k hk r hr

theorem mkBeam_accepts {b : Backend} {kw : Attr → Option Val} {d : Int} {y : Beam} (h : mkBeam b kw d = .ok y) (k : Attr) (r : Range) (ht : table b k = some r) :
    accepted k ((kw k).getD r.default) = true ∧ pow2Ok k ((kw k).getD r.default) = true := by
  unfold mkBeam at h
  obtain ⟨st, hc, -⟩ := mapEx h
  exact initLoop_accepts b kw allAttrs _ st hc k (by cases k <;> decide) r ht

/-- Number of sub-bands above the largest one of a lane: the default, which is the largest, is used. -/
theorem wide_beam_violated (F : Str → Option ℚ) (b : Backend) (hb : b = .raw ∨ b = .fold ∨ b = .waveolaf ∨ b = .single) (x : DBeam) (hw : 192 < x.subbands.length) (y : Beam)
    (h : beamOf F b x = .ok (some y)) : y.attr .nSubBands = 192 ∧ (y.attr .nSubBands : ℚ) ≠ x.subbands.length := by
  have key : ∀ (kws : List (Attr × Val)) (n : Int) (y : Beam), kwOf kws .nSubBands = some (lenVal x.subbands) → mkBeam b (kwOf kws) n = .ok y → y.attr .nSubBands = 192 := by
    intro kws n y hk hy
    unfold mkBeam at hy
    obtain ⟨st, hc, e⟩ := mapEx hy
    subst e
    show ((st .nSubBands).bind Val.num).getD 0 = 192
    have ht : table b .nSubBands = some ⟨1, 192, .int 192⟩ := by
      rcases hb with rfl | rfl | rfl | rfl <;> rfl
    rw [construct_holds hc .nSubBands _ ht, hk, Option.getD_some]
    have : checkAttr ⟨1, 192, .int 192⟩ (lenVal x.subbands) = .int 192 := by
      unfold checkAttr lenVal
      rw [if_pos]
      simp only [Val.num, Option.any_some, decide_eq_true_eq]
      push_cast
      exact_mod_cast hw
    rw [this]
    rfl
  have main : y.attr .nSubBands = 192 := by
    rcases hb with rfl | rfl | rfl | rfl
    · change (if lower x.toDo = "waveform".toList then (rawBeam x).map some else .ok none) = _ at h
      split_ifs at h
      swap
      · injection h with h; cases h
      obtain ⟨y', hy, e⟩ := mapEx h
      injection e with e; subst e
      unfold rawBeam at hy
      obtain ⟨n, -, hy⟩ := bindE hy
      exact key _ _ _ rfl hy
    · rcases inMode_inv h with ⟨s, y', -, -, -, hy, e⟩ | ⟨e, -⟩
      · injection e with e; subst e
        unfold foldBeam at hy
        obtain ⟨_, -, hy⟩ := bindE hy
        obtain ⟨n, -, hy⟩ := bindE hy
        obtain ⟨_, -, hy⟩ := bindE hy
        exact key _ _ _ rfl hy
      · cases e
    · rcases inMode_inv h with ⟨s, y', -, -, -, hy, e⟩ | ⟨e, -⟩
      · injection e with e; subst e
        unfold waveBeam at hy
        obtain ⟨n, -, hy⟩ := bindE hy
        exact key _ _ _ rfl hy
      · cases e
    · rcases inMode_inv h with ⟨s, y', -, -, -, hy, e⟩ | ⟨e, -⟩
      · injection e with e; subst e
        unfold singleBeam at hy
        obtain ⟨_, -, hy⟩ := bindE hy
        obtain ⟨n, -, hy⟩ := bindE hy
        obtain ⟨_, -, hy⟩ := bindE hy
        exact key _ _ _ rfl hy
      · cases e
  refine ⟨main, ?_⟩
  rw [main]
  intro e
  have : (192 : Nat) = x.subbands.length := by exact_mod_cast e
  omega

/-- A file that names no receiver of the beamformer output: the whole estimate is refused, also for the correlator. -/
theorem no_receivers_violated (F : Str → Option ℚ) (p : PSet) (h0 : p.hd = none) (n : Beam) (hn : nickelOf p = .ok n) : obsOf F p = .error .keyError := by
  unfold obsOf order obsLoop
  have h1 : confOf F p .nickel = .ok ⟨n, [], p.start⟩ := by
    show (nickelOf p).map _ = _
    rw [hn]; rfl
  rw [h1]
  show (obsLoop F p [.raw, .tf, .bst, .fold, .waveolaf, .single] _) = _
  unfold obsLoop
  have h2 : confOf F p .raw = .error .keyError := by
    show (undysputed F .raw p).map _ = _
    unfold undysputed need
    rw [h0]; rfl
  rw [h2]
  rfl

/-- A blank before the name of the receiver in the list: nothing is counted. -/
theorem receiver_blank_violated (isTime : Str → Bool) (isFloat : IsFloat) (F : Str → Option ℚ) (b : Backend) (p : PSet) (v : PVal)
    (hv : setItem isTime isFloat "hd_receivers".toList "[seti, undysputed]".toList = .ok v) (h0 : p.hd = some v) : undysputed F b p = .ok [] := by
  have e : setItem isTime isFloat "hd_receivers".toList "[seti, undysputed]".toList = .ok (.list [.str "seti".toList, .str " undysputed".toList]) := rfl
  rw [e] at hv
  injection hv with hv
  subst hv
  unfold undysputed need
  rw [h0]
  rfl

theorem collect_all {f : DBeam → Except Err (Option Beam)} : ∀ {l : List DBeam} {r : List Beam}, collect f l = .ok r → ∀ x ∈ l, ∃ o, f x = .ok o
  | [], _, _, x, hx => absurd hx (by simp)
  | a :: l, r, h, x, hx => by
    rw [collect] at h
    obtain ⟨o, ho, h⟩ := bindE h
    obtain ⟨r', hr, e⟩ := mapEx h
    rcases List.mem_cons.mp hx with rfl | hx
    · exact ⟨o, ho⟩
    · exact collect_all hr x hx

/-- One time-frequency beam without its resolutions: no beam of the file is counted, the estimate is refused. -/
theorem no_resolution_violated (F : Str → Option ℚ) (p : PSet) (hd : PVal) (h0 : p.hd = some hd) (h1 : contains "undysputed".toList hd = .ok true) (x : DBeam) (hx : x ∈ p.digis)
    (s : Str) (hs : x.params = some s) (hk : kind x = some .tf) (hf : find (paramsOf false s) "dt".toList = none) : ∀ r, undysputed F .tf p ≠ .ok r := by
  intro r h
  unfold undysputed at h
  obtain ⟨v, hv, h⟩ := bindE h
  obtain ⟨on, hon, h⟩ := bindE h
  rw [h0] at hv
  injection hv with hv
  subst hv
  rw [h1] at hon
  injection hon with hon
  subst hon
  rw [if_pos rfl] at h
  obtain ⟨o, ho⟩ := collect_all h x hx
  rcases inMode_inv ho with ⟨t, y, -, h2, -, h4, -⟩ | ⟨-, h2⟩
  · rw [hs] at h2
    injection h2 with h2
    subst h2
    unfold tfBeam floatAt at h4
    rw [hf] at h4
    cases h4
  · obtain ⟨a, t, ht, c⟩ := (kind_tf x).mp hk
    exact h2 t a ht c

example : ∃ x : DBeam, kind x = some .tf ∧ x.params = some "TF: HAMM".toList ∧ find (paramsOf false "TF: HAMM".toList) "dt".toList = none :=
  ⟨⟨"dynamicspectrum".toList, some "TF: HAMM".toList, "600s".toList, [], 0⟩, by decide +kernel, rfl, by decide +kernel⟩

/-- Resolutions of a time-frequency beam: those that the receiver can do, from the milliseconds and kilohertz that are written. -/
theorem tf_values (F : Str → Option ℚ) (x : DBeam) (s a c : Str) (dt df : ℚ) (y : Beam) (ha : find (paramsOf false s) "dt".toList = some (.text a))
    (hc : find (paramsOf false s) "df".toList = some (.text c)) (hdt : F a = some dt) (hdf : F c = some df) (hmax : dt ≤ 8389 / 100) (h : tfBeam F x s = .ok y) :
    (y.attr .timeRes, y.attr .freqRes) = checkDFvsDT (dt / 1000) (df * 1000) ∧ y.attr .nPolars = 4 := by
  unfold tfBeam floatAt at h
  rw [ha, hc] at h
  change (pvFloat F (.text a)).bind _ = _ at h
  obtain ⟨dt', e1, h⟩ := bindE h
  change (F a).elim (Except.error Err.valueError) Except.ok = _ at e1
  rw [hdt] at e1
  injection e1 with e1
  subst e1
  obtain ⟨df', e1, h⟩ := bindE h
  change (F c).elim (Except.error Err.valueError) Except.ok = _ at e1
  rw [hdf] at e1
  injection e1 with e1
  subst e1
  obtain ⟨n, hn, h⟩ := bindE h
  obtain ⟨-, -, h3, h4⟩ := mkBeam_given h
  obtain ⟨⟨r1, r2⟩, r3, r4⟩ := resolutions_in_range (dt / 1000) (df * 1000) (by linarith)
  refine ⟨Prod.ext ?_ ?_, h4 .nPolars _ 4 rfl rfl rfl⟩
  · exact h3 .timeRes _ ⟨_, _, rfl, rfl, rfl, r1, r2⟩
  · exact h3 .freqRes _ ⟨_, _, rfl, rfl, rfl, r3, r4⟩

/-- Channels of no width are not refused: the widest ones that the receiver can do are counted. -/
theorem zero_width_violated (F : Str → Option ℚ) (x : DBeam) (s a c : Str) (dt : ℚ) (y : Beam) (ha : find (paramsOf false s) "dt".toList = some (.text a))
    (hc : find (paramsOf false s) "df".toList = some (.text c)) (hdt : F a = some dt) (hdf : F c = some 0) (hmax : dt ≤ 8389 / 100) (h : tfBeam F x s = .ok y) :
    y.attr .freqRes = 200000000 / 1024 / 16 := by
  have e := (tf_values F x s a c dt 0 y ha hc hdt hdf hmax h).1
  have e2 : y.attr .freqRes = (checkDFvsDT (dt / 1000) (0 * 1000)).2 := congrArg Prod.snd e
  have e3 : fftlen (0 * 1000) = 16 := by decide +kernel
  rw [e2]
  show 1 / tick / ((fftlen (0 * 1000) : Nat) : ℚ) = _
  rw [e3]
  unfold tick
  norm_num

example : ∃ y : Beam, (tfBeam (fun s => if s = "10".toList then some 10 else if s = "0".toList then some 0 else none)
    ⟨"dynamicspectrum".toList, some "TF: DT=10 DF=0".toList, "600s".toList, [], 0⟩ "TF: DT=10 DF=0".toList).toOption.isSome = true ∧ y.backend = .tf :=
  ⟨bare .tf, by decide +kernel, rfl⟩

/-- Values of a folding beam. -/
theorem fold_values (F : Str → Option ℚ) (x : DBeam) (s : Str) (y : Beam) (h : foldBeam F x s = .ok y) :
    y.attr .nPolars = (if (find (paramsOf true s) "onlyi".toList).isSome then 1 else 4)
    ∧ (∀ w n, find (paramsOf true s) "nbin".toList = some (.text w) → pyInt w = .ok n → 16 ≤ n → n ≤ 8096 → y.attr .nBins = n)
    ∧ (find (paramsOf true s) "nbin".toList = none → y.attr .nBins = 2048)
    ∧ (∀ w t, find (paramsOf true s) "tfold".toList = some (.text w) → F w = some t → 536870912 / 100000000 ≤ t → t ≤ 2147483648 / 100000000 → y.attr .tFold = t)
    ∧ (find (paramsOf true s) "tfold".toList = none → y.attr .tFold = 1073741824 / 100000000) := by
  unfold foldBeam at h
  obtain ⟨t, ht, h⟩ := bindE h
  obtain ⟨n, hn, h⟩ := bindE h
  obtain ⟨bins, hb, h⟩ := bindE h
  obtain ⟨-, -, h3, -⟩ := mkBeam_given h
  refine ⟨?_, ?_, ?_, ?_, ?_⟩
  · by_cases hp : (find (paramsOf true s) "onlyi".toList).isSome
    · rw [if_pos hp]
      exact h3 .nPolars 1 ⟨_, polVal (paramsOf true s), rfl, rfl, by unfold polVal; rw [if_pos hp]; rfl, by norm_num, by norm_num⟩
    · rw [if_neg hp]
      exact h3 .nPolars 4 ⟨_, polVal (paramsOf true s), rfl, rfl, by unfold polVal; rw [if_neg hp]; rfl, by norm_num, by norm_num⟩
  · intro w m hw hm h1 h2
    unfold intOr at hb
    rw [hw] at hb
    change pyInt w = _ at hb
    rw [hm] at hb
    injection hb with hb
    subst hb
    exact h3 .nBins m ⟨_, .int m, rfl, rfl, rfl, by dsimp only; exact_mod_cast h1, by dsimp only; exact_mod_cast h2⟩
  · intro hw
    unfold intOr at hb
    rw [hw] at hb
    injection hb with hb
    subst hb
    exact h3 .nBins _ ⟨_, .int 2048, rfl, rfl, rfl, by norm_num, by norm_num⟩
  · intro w q hw hq h1 h2
    unfold floatOr at ht
    rw [hw] at ht
    change (F w).elim (Except.error Err.valueError) Except.ok = _ at ht
    rw [hq] at ht
    injection ht with ht
    subst ht
    exact h3 .tFold q ⟨_, .flt q, rfl, rfl, rfl, h1, h2⟩
  · intro hw
    unfold floatOr at ht
    rw [hw] at ht
    injection ht with ht
    subst ht
    exact h3 .tFold _ ⟨_, .flt _, rfl, rfl, rfl, by norm_num, by norm_num⟩

/-- Values of a single-pulse beam. -/
theorem single_values (x : DBeam) (s : Str) (y : Beam) (h : singleBeam x s = .ok y) :
    y.attr .nPolars = (if (find (paramsOf true s) "onlyi".toList).isSome then 1 else 4)
    ∧ (∀ w n, find (paramsOf true s) "dstime".toList = some (.text w) → pyInt w = .ok n → 1 ≤ n → n ≤ 4096 → y.attr .dsTime = n)
    ∧ (find (paramsOf true s) "dstime".toList = none → y.attr .dsTime = 128)
    ∧ (∀ w n, find (paramsOf true s) "nbits".toList = some (.text w) → pyInt w = .ok n → 8 ≤ n → n ≤ 64 → y.attr .nBits = n)
    ∧ (find (paramsOf true s) "nbits".toList = none → y.attr .nBits = 32) := by
  unfold singleBeam at h
  obtain ⟨ds, ht, h⟩ := bindE h
  obtain ⟨n, hn, h⟩ := bindE h
  obtain ⟨bits, hb, h⟩ := bindE h
  obtain ⟨-, -, h3, -⟩ := mkBeam_given h
  refine ⟨?_, ?_, ?_, ?_, ?_⟩
  · by_cases hp : (find (paramsOf true s) "onlyi".toList).isSome
    · rw [if_pos hp]
      exact h3 .nPolars 1 ⟨_, polVal (paramsOf true s), rfl, rfl, by unfold polVal; rw [if_pos hp]; rfl, by norm_num, by norm_num⟩
    · rw [if_neg hp]
      exact h3 .nPolars 4 ⟨_, polVal (paramsOf true s), rfl, rfl, by unfold polVal; rw [if_neg hp]; rfl, by norm_num, by norm_num⟩
  · intro w m hw hm h1 h2
    unfold intOr at ht
    rw [hw] at ht
    change pyInt w = _ at ht
    rw [hm] at ht
    injection ht with ht
    subst ht
    exact h3 .dsTime m ⟨_, .int m, rfl, rfl, rfl, by dsimp only; exact_mod_cast h1, by dsimp only; exact_mod_cast h2⟩
  · intro hw
    unfold intOr at ht
    rw [hw] at ht
    injection ht with ht
    subst ht
    exact h3 .dsTime _ ⟨_, .int 128, rfl, rfl, rfl, by norm_num, by norm_num⟩
  · intro w m hw hm h1 h2
    unfold intOr at hb
    rw [hw] at hb
    change pyInt w = _ at hb
    rw [hm] at hb
    injection hb with hb
    subst hb
    exact h3 .nBits m ⟨_, .int m, rfl, rfl, rfl, by dsimp only; exact_mod_cast h1, by dsimp only; exact_mod_cast h2⟩
  · intro hw
    unfold intOr at hb
    rw [hw] at hb
    injection hb with hb
    subst hb
    exact h3 .nBits _ ⟨_, .int 32, rfl, rfl, rfl, by norm_num, by norm_num⟩

/-- A parameter written without a value counts as one instead of being refused: the time resolution of a time-frequency beam becomes the one closest to a millisecond. -/
theorem tf_flag_violated (F : Str → Option ℚ) (x : DBeam) (s c : Str) (df : ℚ) (y : Beam) (ha : find (paramsOf false s) "dt".toList = some .flag)
    (hc : find (paramsOf false s) "df".toList = some (.text c)) (hdf : F c = some df) (h : tfBeam F x s = .ok y) :
    (y.attr .timeRes, y.attr .freqRes) = checkDFvsDT (1 / 1000) (df * 1000) := by
  unfold tfBeam floatAt at h
  rw [ha, hc] at h
  change (Except.ok (1 : ℚ)).bind _ = _ at h
  obtain ⟨dt', e1, h⟩ := bindE h
  injection e1 with e1
  subst e1
  obtain ⟨df', e1, h⟩ := bindE h
  change (F c).elim (Except.error Err.valueError) Except.ok = _ at e1
  rw [hdf] at e1
  injection e1 with e1
  subst e1
  obtain ⟨n, hn, h⟩ := bindE h
  obtain ⟨-, -, h3, h4⟩ := mkBeam_given h
  obtain ⟨⟨r1, r2⟩, r3, r4⟩ := resolutions_in_range (1 / 1000) (df * 1000) (by norm_num)
  refine Prod.ext ?_ ?_
  · exact h3 .timeRes _ ⟨_, _, rfl, rfl, rfl, r1, r2⟩
  · exact h3 .freqRes _ ⟨_, _, rfl, rfl, rfl, r3, r4⟩

example : find (paramsOf false "TF: DF=0 --DT".toList) "dt".toList = some .flag
    ∧ find (paramsOf false "TF: DF=0 --DT".toList) "df".toList = some (.text "0".toList)
    ∧ (tfBeam (fun s => if s = "0".toList then some 0 else none) ⟨"dynamicspectrum".toList, some "TF: DF=0 --DT".toList, "600s".toList, [], 0⟩ "TF: DF=0 --DT".toList).toOption.isSome = true := by
  decide +kernel

/-- So do the samples averaged by a single-pulse beam: a bare `dstime` asks for no averaging. -/
theorem single_flag_violated (x : DBeam) (s : Str) (y : Beam) (hf : find (paramsOf true s) "dstime".toList = some .flag) (h : singleBeam x s = .ok y) :
    y.attr .dsTime = 1 := by
  unfold singleBeam at h
  obtain ⟨ds, ht, h⟩ := bindE h
  obtain ⟨n, hn, h⟩ := bindE h
  obtain ⟨bits, hb, h⟩ := bindE h
  obtain ⟨-, -, h3, -⟩ := mkBeam_given h
  unfold intOr at ht
  rw [hf] at ht
  change Except.ok (1 : Int) = _ at ht
  injection ht with ht
  subst ht
  exact h3 .dsTime 1 ⟨_, .int 1, rfl, rfl, by norm_num [Val.num], by norm_num, by norm_num⟩

example : find (paramsOf true "SINGLE: --dstime".toList) "dstime".toList = some .flag
    ∧ (singleBeam ⟨"pulsar".toList, some "SINGLE: --dstime".toList, "600s".toList, [], 0⟩ "SINGLE: --dstime".toList).toOption.isSome = true := by
  decide +kernel

/-- A file gives one configuration of each backend, with the start of the observation, and the volumes are theirs. -/
theorem obs_one_each (F : Str → Option ℚ) (p : PSet) (o : Obs) (h : obsOf F p = .ok o) (b : Backend) :
    ∃ c, confOf F p b = .ok c ∧ o b = [c] ∧ c.start = p.start ∧ o.volume b = c.volume := by
  unfold obsOf order at h
  simp only [obsLoop] at h
  obtain ⟨c1, h1, h⟩ := bindE h
  obtain ⟨c2, h2, h⟩ := bindE h
  obtain ⟨c3, h3, h⟩ := bindE h
  obtain ⟨c4, h4, h⟩ := bindE h
  obtain ⟨c5, h5, h⟩ := bindE h
  obtain ⟨c6, h6, h⟩ := bindE h
  obtain ⟨c7, h7, h⟩ := bindE h
  injection h with h
  subst h
  have st : ∀ b c, confOf F p b = .ok c → c.start = p.start := by
    intro b c hc
    cases b <;> obtain ⟨_, -, e⟩ := mapEx hc <;> rw [← e]
  cases b
  · exact ⟨c1, h1, rfl, st _ _ h1, by simp [Obs.volume, Obs.empty]⟩
  · exact ⟨c2, h2, rfl, st _ _ h2, by simp [Obs.volume, Obs.empty]⟩
  · exact ⟨c3, h3, rfl, st _ _ h3, by simp [Obs.volume, Obs.empty]⟩
  · exact ⟨c4, h4, rfl, st _ _ h4, by simp [Obs.volume, Obs.empty]⟩
  · exact ⟨c5, h5, rfl, st _ _ h5, by simp [Obs.volume, Obs.empty]⟩
  · exact ⟨c6, h6, rfl, st _ _ h6, by simp [Obs.volume, Obs.empty]⟩
  · exact ⟨c7, h7, rfl, st _ _ h7, by simp [Obs.volume, Obs.empty]⟩

/-! ## C96 The correlator volume covers the whole observation -/

/-- With one analog beam, all the values of the correlation are those of the file when they are within bounds. -/
theorem nickel_one_partial (p : PSet) (a : ABeam) (n : Int) (dt ch : Nat) (sb : List Item) (y : Beam) (hon : nickelOn p = .ok true) (ha : p.anas = [a])
    (hn : seconds a.duration = .ok n) (hdt : p.dump = some (.int dt)) (hsb : p.nriSub = some sb) (hch : p.chan = some (.int ch)) (h : nickelOf p = .ok y) :
    y.backend = .nickel ∧ y.duration = n ∧ y.attr .nPolars = 4 ∧ (dt ≤ 10 → y.attr .timeRes = dt) ∧ (1 ≤ sb.length → sb.length ≤ 384 → y.attr .nSubBands = sb.length)
      ∧ (1 ≤ ch → ch ≤ 64 → y.attr .nChannels = ch) ∧ (2 ≤ a.mas.length → a.mas.length ≤ 102 → y.attr .nMAs = a.mas.length) := by
  unfold nickelOf at h
  rw [hon] at h
  change nickelBeam p = _ at h
  unfold nickelBeam need at h
  rw [ha, hdt, hsb, hch] at h
  change (seconds a.duration).bind _ = _ at h
  rw [hn] at h
  change mkBeam .nickel (kwOf [(.timeRes, .int dt), (.nSubBands, lenVal sb), (.nChannels, .int ch), (.nMAs, lenVal a.mas)]) n = _ at h
  obtain ⟨h1, h2, h3, h4⟩ := mkBeam_given h
  refine ⟨h1, h2, h4 .nPolars _ 4 rfl rfl rfl, fun e => ?_, fun e1 e2 => ?_, fun e1 e2 => ?_, fun e1 e2 => ?_⟩
  · exact h3 .timeRes dt ⟨_, .int dt, rfl, rfl, rfl, by positivity, by dsimp only; exact_mod_cast e⟩
  · exact h3 .nSubBands sb.length ⟨_, lenVal sb, rfl, rfl, rfl, by dsimp only; exact_mod_cast e1, by dsimp only; exact_mod_cast e2⟩
  · exact h3 .nChannels ch ⟨_, .int ch, rfl, rfl, rfl, by dsimp only; exact_mod_cast e1, by dsimp only; exact_mod_cast e2⟩
  · exact h3 .nMAs a.mas.length ⟨_, lenVal a.mas, rfl, rfl, rfl, by dsimp only; exact_mod_cast e1, by dsimp only; exact_mod_cast e2⟩

/-- A dump time written as a boolean counts as a number of seconds: `true` is one second, `false` is none. -/
theorem nickel_flag_violated (p : PSet) (a : ABeam) (b : Bool) (v : PVal) (sb : List Item) (y : Beam) (hon : nickelOn p = .ok true) (ha : p.anas = [a])
    (hdt : p.dump = some (.bool b)) (hsb : p.nriSub = some sb) (hch : p.chan = some v) (h : nickelOf p = .ok y) :
    y.attr .timeRes = if b then 1 else 0 := by
  unfold nickelOf at h
  rw [hon] at h
  change nickelBeam p = _ at h
  unfold nickelBeam need at h
  rw [ha, hdt, hsb, hch] at h
  change (seconds a.duration).bind _ = _ at h
  obtain ⟨n, hn, h⟩ := bindE h
  change mkBeam .nickel (kwOf [(.timeRes, .int (if b then 1 else 0)), (.nSubBands, lenVal sb), (.nChannels, toVal v), (.nMAs, lenVal a.mas)]) n = _ at h
  obtain ⟨-, -, h3, -⟩ := mkBeam_given h
  cases b
  · exact h3 .timeRes _ ⟨_, .int 0, rfl, rfl, by norm_num [Val.num], by norm_num, by norm_num⟩
  · exact h3 .timeRes _ ⟨_, .int 1, rfl, rfl, by norm_num [Val.num], by norm_num, by norm_num⟩

/-- A file without the correlator gives no correlator volume. -/
theorem nickel_off (p : PSet) (hon : nickelOn p = .ok false) : ∃ y, nickelOf p = .ok y ∧ y.volume = 0 := by
  obtain ⟨st, hs⟩ := construct_default .nickel
  refine ⟨toBeam .nickel (0 : Int) st, ?_, ?_⟩
  · unfold nickelOf
    rw [hon]
    change mkBeam .nickel (kwOf []) 0 = _
    unfold mkBeam
    have : (kwOf [] : Attr → Option Val) = fun _ => none := rfl
    rw [this, hs]
    rfl
  · simp [Beam.volume, toBeam]

/-- Only the first analog beam counts: the others change nothing. -/
theorem nickel_first_violated (p : PSet) (a : ABeam) (rest : List ABeam) (h : p.anas = a :: rest) :
    nickelOf p = nickelOf { p with anas := [a] } ∧ ∀ y n, nickelOn p = .ok true → seconds a.duration = .ok n → nickelOf p = .ok y → y.duration = n := by
  constructor
  · unfold nickelOf nickelBeam nickelOn
    rw [h]
    rfl
  · intro y n hon hn hy
    unfold nickelOf at hy
    rw [hon] at hy
    change nickelBeam p = _ at hy
    unfold nickelBeam at hy
    rw [h] at hy
    obtain ⟨a', e, hy⟩ := bindE hy
    injection e with e
    subst e
    obtain ⟨n', e, hy⟩ := bindE hy
    rw [hn] at e
    injection e with e
    subst e
    obtain ⟨_, -, hy⟩ := bindE hy
    obtain ⟨_, -, hy⟩ := bindE hy
    obtain ⟨_, -, hy⟩ := bindE hy
    exact (mkBeam_given hy).2.1

/-- A dump time that is not a whole number of seconds is refused. -/
theorem nickel_fraction_violated (isTime : Str → Bool) (isFloat : IsFloat) (p : PSet) (v : PVal) (hv : setItem isTime isFloat "nri_dumpTime".toList "0.5".toList = .ok v)
    (hd : p.dump = some v) (hon : nickelOn p = .ok true) : ∀ y, nickelOf p ≠ .ok y := by
  intro y hy
  have e : setItem isTime isFloat "nri_dumpTime".toList "0.5".toList = .ok (.str "0.5".toList) := rfl
  rw [e] at hv
  injection hv with hv
  subst hv
  unfold nickelOf at hy
  rw [hon] at hy
  change nickelBeam p = _ at hy
  unfold nickelBeam at hy
  obtain ⟨_, -, hy⟩ := bindE hy
  obtain ⟨_, -, hy⟩ := bindE hy
  obtain ⟨dt, e, hy⟩ := bindE hy
  rw [hd] at e
  injection e with e
  subst e
  obtain ⟨_, -, hy⟩ := bindE hy
  obtain ⟨_, -, hy⟩ := bindE hy
  have := (mkBeam_accepts hy .timeRes _ rfl).1
  change false = true at this
  cases this

/-- The file of the example: a correlation of two hours on 57 mini-arrays. -/
def nickelExample : PSet :=
  ⟨0, some (.list [.str "seti".toList]), some (.list [.str "nickel".toList]), some (.int 1), some ((List.range 32).map (fun n : Nat => Item.int n)), some (.int 64),
    [⟨"7200s".toList, (List.range 57).map (fun n : Nat => Item.int n)⟩], []⟩

example : nickelOn nickelExample = .ok true ∧ seconds "7200s".toList = .ok 7200 ∧ ∃ y, nickelOf nickelExample = .ok y ∧ 0 < y.volume :=
  ⟨rfl, rfl, _, rfl, by decide +kernel⟩

example : nickelOn { nickelExample with dump := some (.bool true) } = .ok true ∧ ∃ y, nickelOf { nickelExample with dump := some (.bool true) } = .ok y :=
  ⟨rfl, _, rfl⟩

/-! ## C97 The beamlet statistics last as long as the digital beams -/

theorem mem_allTimes : ∀ {l : List DBeam} {t : Finset ℚ}, allTimes l = .ok t → ∀ q, q ∈ t ↔ ∃ x ∈ l, ∃ n : Int, seconds x.duration = .ok n ∧ ∃ i : Nat, (i : Int) < n ∧ q = x.start + i
  | [], t, h, q => by
    rw [allTimes] at h; injection h with h; subst h
    simp
  | x :: l, t, h, q => by
    rw [allTimes] at h
    obtain ⟨n, hn, h⟩ := bindE h
    obtain ⟨r, hr, e⟩ := mapEx h
    subst e
    rw [Finset.mem_union, List.mem_toFinset, mem_allTimes hr q]
    unfold beamTimes
    rw [List.mem_map]
    constructor
    · rintro (⟨i, hi, rfl⟩ | ⟨y, hy, h⟩)
      · rw [List.mem_range] at hi
        exact ⟨x, by simp, n, hn, i, by omega, rfl⟩
      · exact ⟨y, by simp [hy], h⟩
    · rintro ⟨y, hy, m, hm, i, hi, rfl⟩
      rcases List.mem_cons.mp hy with rfl | hy
      · left
        rw [hn] at hm; injection hm with hm; subst hm
        exact ⟨i, List.mem_range.mpr (by omega), rfl⟩
      · exact Or.inr ⟨y, hy, m, hm, i, hi, rfl⟩

theorem bst_duration {p : PSet} {y : Beam} (h : bstOf p = .ok y) : ∃ t, allTimes p.digis = .ok t ∧ y.duration = t.card ∧ y.attr .nSubBands = 768 ∧ y.attr .nPolars = 2 := by
  unfold bstOf at h
  obtain ⟨t, ht, h⟩ := bindE h
  obtain ⟨h1, h2, h3, h4⟩ := mkBeam_given h
  refine ⟨t, ht, ?_, h4 .nSubBands _ _ rfl rfl rfl, h4 .nPolars _ _ rfl rfl rfl⟩
  rw [h2]
  push_cast
  rfl

/-- With beams that start on whole seconds, the duration is the number of seconds covered by at least one beam; seconds shared by several beams count once. -/
theorem bst_seconds_partial (p : PSet) (y : Beam) (h : bstOf p = .ok y) (hs : ∀ x ∈ p.digis, ∃ k : Int, x.start = k) (S : Finset Int)
    (hS : ∀ k : Int, k ∈ S ↔ ∃ x ∈ p.digis, ∃ n : Int, seconds x.duration = .ok n ∧ x.start ≤ k ∧ (k : ℚ) < x.start + n) : y.duration = S.card := by
  obtain ⟨t, ht, hd, -⟩ := bst_duration h
  rw [hd]
  have : t = S.image (fun k : Int => (k : ℚ)) := by
    ext q
    rw [mem_allTimes ht q, Finset.mem_image]
    constructor
    · rintro ⟨x, hx, n, hn, i, hi, rfl⟩
      obtain ⟨k, hk⟩ := hs x hx
      refine ⟨k + i, (hS _).mpr ⟨x, hx, n, hn, ?_, ?_⟩, by rw [hk]; push_cast; rfl⟩
      · rw [hk]; exact_mod_cast (by omega : k ≤ k + (i : Int))
      · rw [hk]; exact_mod_cast (by omega : k + (i : Int) < k + n)
    · rintro ⟨k, hk, rfl⟩
      obtain ⟨x, hx, n, hn, h1, h2⟩ := (hS k).mp hk
      obtain ⟨j, hj⟩ := hs x hx
      rw [hj] at h1 h2
      have a : j ≤ k := by exact_mod_cast h1
      have c : k < j + n := by exact_mod_cast h2
      refine ⟨x, hx, n, hn, (k - j).toNat, by omega, ?_⟩
      rw [hj]
      have : ((k - j).toNat : Int) = k - j := Int.toNat_of_nonneg (by omega)
      have e : (((k - j).toNat : Nat) : ℚ) = k - j := by exact_mod_cast this
      rw [e]; ring
  rw [this, Finset.card_image_of_injective _ Int.cast_injective]

/-- Two simultaneous beams that start half a second apart count twice. -/
theorem bst_half_second_violated (p : PSet) (x z : DBeam) (n : Nat) (hp : p.digis = [x, z]) (hx : seconds x.duration = .ok n) (hz : seconds z.duration = .ok n)
    (hs : z.start = x.start + 1 / 2) (y : Beam) (h : bstOf p = .ok y) : y.duration = 2 * n := by
  obtain ⟨t, ht, hd, -⟩ := bst_duration h
  rw [hd]
  rw [hp] at ht
  simp only [allTimes] at ht
  rw [hx, hz] at ht
  change Except.ok ((beamTimes x.start n).toFinset ∪ ((beamTimes z.start n).toFinset ∪ ∅)) = _ at ht
  injection ht with ht
  rw [← ht, Finset.union_empty, Finset.card_union_of_disjoint]
  · have card : ∀ s : ℚ, (beamTimes s n).toFinset.card = n := by
      intro s
      unfold beamTimes
      rw [List.toFinset_card_of_nodup, List.length_map, List.length_range]
      · simp
      · refine List.Nodup.map ?_ List.nodup_range
        intro i j e
        have : (i : ℚ) = j := by linarith
        exact_mod_cast this
    rw [card, card]
    push_cast
    ring
  · rw [Finset.disjoint_left]
    intro q h1 h2
    rw [List.mem_toFinset] at h1 h2
    unfold beamTimes at h1 h2
    obtain ⟨i, -, e1⟩ := List.mem_map.mp h1
    obtain ⟨j, -, e2⟩ := List.mem_map.mp h2
    rw [hs] at e2
    have e3 : (2 * i : ℚ) = 2 * j + 1 := by linarith
    have e4 : 2 * i = 2 * j + 1 := by exact_mod_cast e3
    omega

example : ∃ p : PSet, ∃ y, bstOf p = .ok y ∧ (∀ x ∈ p.digis, ∃ k : Int, x.start = k) ∧ y.duration = 3 := by
  refine ⟨⟨0, none, none, none, none, none, [], [⟨"tbd".toList, none, "2s".toList, [], 10⟩, ⟨"tbd".toList, none, "2s".toList, [], 11⟩]⟩, _, rfl, ?_, by decide +kernel⟩
  intro x hx
  simp only [List.mem_cons, List.not_mem_nil, or_false] at hx
  rcases hx with rfl | rfl
  · exact ⟨10, by norm_num⟩
  · exact ⟨11, by norm_num⟩

/-- Durations in minutes, as users may write them, stop the estimate. -/
theorem minutes_refused_violated (isTime : Str → Bool) (isFloat : IsFloat) (p : PSet) (x : DBeam) (hx : x ∈ p.digis)
    (hv : setItem isTime isFloat "duration".toList "10m".toList = .ok (.str x.duration)) : ∀ y, bstOf p ≠ .ok y := by
  have e : setItem isTime isFloat "duration".toList "10m".toList = .ok (.str "10ms".toList) := rfl
  rw [e] at hv
  injection hv with hv
  injection hv with hv
  intro y h
  obtain ⟨t, ht, -⟩ := bst_duration h
  have : ∀ (l : List DBeam) (t : Finset ℚ), allTimes l = .ok t → x ∈ l → ∃ n, seconds x.duration = .ok n := by
    intro l
    induction l with
    | nil => intro t _ h; cases h
    | cons a l ih =>
      intro t h hx
      rw [allTimes] at h
      obtain ⟨n, hn, h⟩ := bindE h
      obtain ⟨r, hr, -⟩ := mapEx h
      rcases List.mem_cons.mp hx with rfl | hx
      · exact ⟨n, hn⟩
      · exact ih r hr hx
  obtain ⟨n, hn⟩ := this _ _ ht hx
  rw [← hv] at hn
  cases hn

/-! ## What the whole file gives -/

/-- When the beamformer output is recorded, each of its backends gets in the observation the digital beams of the file meant for it, one for one. -/
theorem obs_beams (F : Str → Option ℚ) (p : PSet) (o : Obs) (h : obsOf F p = .ok o) (hd : PVal) (h0 : p.hd = some hd) (h1 : contains "undysputed".toList hd = .ok true)
    (b : Backend) (hb : b ∈ [Backend.tf, .raw, .fold, .waveolaf, .single]) :
    ∃ c, o b = [c] ∧ List.Forall₂ (Stands b) (p.digis.filter (fun x => decide (kind x = some b))) c.beams := by
  obtain ⟨c, hc, ho, -, -⟩ := obs_one_each F p o h b
  refine ⟨c, ho, ?_⟩
  have : ∃ r, undysputed F b p = .ok r ∧ c.beams = r := by
    cases b with
    | bst => simp at hb
    | nickel => simp at hb
    | tf => obtain ⟨r, hr, rfl⟩ := mapEx hc; exact ⟨r, hr, rfl⟩
    | raw => obtain ⟨r, hr, rfl⟩ := mapEx hc; exact ⟨r, hr, rfl⟩
    | fold => obtain ⟨r, hr, rfl⟩ := mapEx hc; exact ⟨r, hr, rfl⟩
    | waveolaf => obtain ⟨r, hr, rfl⟩ := mapEx hc; exact ⟨r, hr, rfl⟩
    | single => obtain ⟨r, hr, rfl⟩ := mapEx hc; exact ⟨r, hr, rfl⟩
  obtain ⟨r, hr, e⟩ := this
  rw [e]
  exact beams_match_partial F b p hd r h0 h1 hr

/-- The correlator is recorded exactly when it is named among the receivers; it is not when no receivers are given. -/
theorem nickel_named (p : PSet) : (p.nri = none → nickelOn p = .ok false) ∧ (∀ l, p.nri = some (.list l) → nickelOn p = .ok (decide (Item.str "nickel".toList ∈ l))) := by
  refine ⟨fun h => ?_, fun l h => ?_⟩ <;> unfold nickelOn <;> rw [h] <;> rfl

end Verif.Config
