import Verif.Astro.Db
import Mathlib.Tactic.Linarith
import Mathlib.Tactic.FieldSimp
import Mathlib.Tactic.Positivity

/-!
# Queries of the observation database (property C68)
-/

namespace Verif.Astro

/-- An observation of the table: times, wavelengths, direction. -/
structure ObsRow where
  tMin : ℚ
  tMax : ℚ
  emMin : ℚ
  emMax : ℚ
  ra : ℚ
  dec : ℚ

/-- What the service answers for a condition; `within` is its test of directions. -/
def Cond.holds (within : ℚ → ℚ → ℚ → ℚ → ℚ → Prop) (o : ObsRow) : Cond → Prop
  | .time a b => a ≤ o.tMin ∧ o.tMax ≤ b
  | .freq a b => a ≤ o.emMin ∧ o.emMax ≤ b
  | .pos ra dec r => within o.ra o.dec ra dec r

/-- Specification: the conditions a user expects from the attributes shown. -/
def Db.expected (d : Db) : List Cond :=
  [d.timeRange.map fun p => Cond.time p.1 p.2, d.freqRange.map fun p => Cond.freq (wavelengthOf p.2) (wavelengthOf p.1),
    d.center.map fun p => Cond.pos p.1 p.2 d.radius].filterMap id

/-- What holds whatever the history; `r` is the radius at the last assignment of the centre. -/
def Db.Fits (d : Db) (r : ℚ) : Prop :=
  d.condTime = d.timeRange.map (fun p => Cond.time p.1 p.2) ∧
    d.condFreq = d.freqRange.map (fun p => Cond.freq (wavelengthOf p.2) (wavelengthOf p.1)) ∧
    d.condPos = d.center.map fun p => Cond.pos p.1 p.2 r

theorem time_fits {d : Db} {r : ℚ} (h : d.Fits r) (x : RangeArg) : (setTimeRange d x).1.Fits r := by
  unfold setTimeRange
  cases checkRange .valueError x with
  | error e => exact h
  | ok o =>
    cases o with
    | none => exact ⟨rfl, h.2⟩
    | some p => exact ⟨rfl, h.2⟩

theorem freq_fits {d : Db} {r : ℚ} (h : d.Fits r) (x : RangeArg) : (setFreqRange d x).1.Fits r := by
  unfold setFreqRange
  cases checkRange .typeError x with
  | error e => exact h
  | ok o =>
    cases o with
    | none => exact ⟨h.1, rfl, h.2.2⟩
    | some p => exact ⟨h.1, rfl, h.2.2⟩

theorem radius_fits {d : Db} {r : ℚ} (h : d.Fits r) (x : RadiusArg) : (setRadius d x).1.Fits r := by
  cases x <;> exact h

theorem meta_fits {d : Db} {r : ℚ} (known : List String) (h : d.Fits r) (x : Option (List String)) : (setMeta known d x).1.Fits r := by
  cases x with
  | none => exact h
  | some m =>
    unfold setMeta
    by_cases hm : m.any (fun x => !known.contains x) = true
    · simp only [hm, if_true]; exact h
    · simp only [hm]; exact h

theorem center_fits {d : Db} {r : ℚ} (h : d.Fits r) (x : CenterArg) : ∃ r', (setCenter d x).1.Fits r' := by
  cases x with
  | none => exact ⟨r, h.1, h.2.1, rfl⟩
  | coord ra dec => exact ⟨d.radius, h.1, h.2.1, rfl⟩
  | coords => exact ⟨r, h⟩
  | other => exact ⟨r, h⟩

theorem step_fits {d : Db} {r : ℚ} (known : List String) (h : d.Fits r) (o : DbOp) : ∃ r', (o.step known d).Fits r' := by
  cases o with
  | names m => exact ⟨r, meta_fits known h m⟩
  | time x => exact ⟨r, time_fits h x⟩
  | freq x => exact ⟨r, freq_fits h x⟩
  | radius x => exact ⟨r, radius_fits h x⟩
  | center x => exact center_fits h x
  | reset => exact center_fits (radius_fits (freq_fits (time_fits (meta_fits known h _) _) _) _) _

/-- **C68**, for all histories of assignments, failed or not: the query has exactly the conditions on times and frequencies of the
attributes, and the one on positions for the current centre, with some radius. -/
theorem query_partial (known : List String) (ops : List DbOp) :
    ∃ r, (ops.foldl (DbOp.step known) Db.new).conditions = ({ ops.foldl (DbOp.step known) Db.new with radius := r } : Db).expected := by
  have key : ∀ (ops : List DbOp) (d : Db) (r : ℚ), d.Fits r → ∃ r', (ops.foldl (DbOp.step known) d).Fits r' := by
    intro ops
    induction ops with
    | nil => intro d r h; exact ⟨r, h⟩
    | cons o os ih =>
      intro d r h
      obtain ⟨r', h'⟩ := step_fits known h o
      exact ih _ _ h'
  obtain ⟨r, h⟩ := key ops Db.new 180 ⟨rfl, rfl, rfl⟩
  refine ⟨r, ?_⟩
  unfold Db.conditions Db.expected
  rw [h.1, h.2.1, h.2.2]

/-- The radius is only assigned while there is no centre. -/
def RadiusFirst (known : List String) : Db → List DbOp → Prop
  | _, [] => True
  | d, o :: os => (∀ x, o = .radius x → d.center = none) ∧ RadiusFirst known (o.step known d) os

/-- **C68** in full for the histories where the radius is only assigned while there is no centre. -/
theorem query_radius_partial (known : List String) (ops : List DbOp) (h : RadiusFirst known Db.new ops) :
    (ops.foldl (DbOp.step known) Db.new).conditions = (ops.foldl (DbOp.step known) Db.new).expected := by
  have key : ∀ (ops : List DbOp) (d : Db), d.Fits d.radius → RadiusFirst known d ops →
      (ops.foldl (DbOp.step known) d).Fits (ops.foldl (DbOp.step known) d).radius := by
    intro ops
    induction ops with
    | nil => intro d h _; exact h
    | cons o os ih =>
      intro d h hr
      refine ih _ ?_ hr.2
      cases o with
      | names m =>
        have e : (DbOp.step known d (.names m)).radius = d.radius := by
          show (setMeta known d m).1.radius = _
          cases m with
          | none => rfl
          | some m =>
            unfold setMeta
            by_cases hm : m.any (fun x => !known.contains x) = true
            · simp only [hm, if_true]
            · simp only [hm]; rfl
        rw [e]
        exact meta_fits known h m
      | time x =>
        have e : (DbOp.step known d (.time x)).radius = d.radius := by
          show (setTimeRange d x).1.radius = _
          unfold setTimeRange
          cases checkRange .valueError x with
          | error e => rfl
          | ok o => cases o <;> rfl
        rw [e]
        exact time_fits h x
      | freq x =>
        have e : (DbOp.step known d (.freq x)).radius = d.radius := by
          show (setFreqRange d x).1.radius = _
          unfold setFreqRange
          cases checkRange .typeError x with
          | error e => rfl
          | ok o => cases o <;> rfl
        rw [e]
        exact freq_fits h x
      | radius x =>
        have hc := hr.1 x rfl
        have hp := h.2.2
        rw [hc] at hp
        cases x with
        | none => exact ⟨h.1, h.2.1, by show d.condPos = d.center.map _; rw [hc, hp]; rfl⟩
        | value r => exact ⟨h.1, h.2.1, by show d.condPos = d.center.map _; rw [hc, hp]; rfl⟩
        | array => exact h
      | center x =>
        cases x with
        | none => exact ⟨h.1, h.2.1, rfl⟩
        | coord ra dec => exact ⟨h.1, h.2.1, rfl⟩
        | coords => exact h
        | other => exact h
      | reset =>
        have h1 := freq_fits (time_fits (meta_fits known h (some defaultMeta)) .nones) .nones
        exact ⟨h1.1, h1.2.1, rfl⟩
  have hf := key ops Db.new ⟨rfl, rfl, rfl⟩ h
  unfold Db.conditions Db.expected
  rw [hf.1, hf.2.1, hf.2.2]

example : RadiusFirst [] Db.new [.time (.pair (some 1) (some 2)), .radius (.value 3), .center (.coord 10 20), .reset, .radius (.value 5)] := by
  refine ⟨by simp, ⟨fun _ _ => rfl, ⟨by simp, ⟨by simp, ⟨fun _ _ => rfl, trivial⟩⟩⟩⟩⟩

/-- **C68**: after any history, a radius and then a centre are the circle of the query; without a radius it is the whole sky, and a refused radius leaves the one before. -/
theorem query_circle (known : List String) (ops : List DbOp) (x : RadiusArg) (ra dec : ℚ) :
    Cond.pos ra dec (match x with | .none => 180 | .value r => r | .array => (ops.foldl (DbOp.step known) Db.new).radius)
      ∈ ((ops ++ [DbOp.radius x, DbOp.center (.coord ra dec)]).foldl (DbOp.step known) Db.new).conditions := by
  rw [List.foldl_append]
  generalize ops.foldl (DbOp.step known) Db.new = d
  show _ ∈ (DbOp.step known (DbOp.step known d (.radius x)) (.center (.coord ra dec))).conditions
  unfold Db.conditions
  rw [List.mem_filterMap]
  refine ⟨(DbOp.step known (DbOp.step known d (.radius x)) (.center (.coord ra dec))).condPos, by simp, ?_⟩
  cases x <;> rfl

theorem last_of_three {α : Type} (a b : Option α) (c : α) : ([a, b, some c].filterMap id).getLast? = some c := by
  cases a <;> cases b <;> rfl

/-- **C68** fails when the radius is assigned after the centre: whatever was done before, the query keeps the previous radius. -/
theorem query_violated (known : List String) (ops : List DbOp) (ra dec r : ℚ) (hr : r ≠ (ops.foldl (DbOp.step known) Db.new).radius)
    (d : Db) (hd : (ops ++ [DbOp.center (.coord ra dec), DbOp.radius (.value r)]).foldl (DbOp.step known) Db.new = d) :
    d.radius = r ∧ Cond.pos ra dec (ops.foldl (DbOp.step known) Db.new).radius ∈ d.conditions ∧ Cond.pos ra dec r ∈ d.expected ∧
      d.conditions ≠ d.expected := by
  rw [List.foldl_append] at hd
  generalize ops.foldl (DbOp.step known) Db.new = d0 at *
  subst hd
  have h1 : ([DbOp.center (.coord ra dec), DbOp.radius (.value r)].foldl (DbOp.step known) d0).conditions.getLast?
      = some (Cond.pos ra dec d0.radius) := last_of_three _ _ _
  have h2 : ([DbOp.center (.coord ra dec), DbOp.radius (.value r)].foldl (DbOp.step known) d0).expected.getLast?
      = some (Cond.pos ra dec r) := last_of_three _ _ _
  refine ⟨rfl, List.mem_of_getLast? h1, List.mem_of_getLast? h2, fun e => ?_⟩
  rw [e, h2] at h1
  injection h1 with h1
  injection h1 with _ _ h3
  exact hr h3

example : (3 : ℚ) ≠ (([DbOp.radius (.value 2)] : List DbOp).foldl (DbOp.step []) Db.new).radius := by decide +kernel

/-- A failed assignment changes nothing. -/
theorem failed_unchanged (d : Db) (known : List String) :
    (∀ x, (setTimeRange d x).2 ≠ .ok () → (setTimeRange d x).1 = d) ∧ (∀ x, (setFreqRange d x).2 ≠ .ok () → (setFreqRange d x).1 = d) ∧
      (∀ x, (setRadius d x).2 ≠ .ok () → (setRadius d x).1 = d) ∧ (∀ x, (setCenter d x).2 ≠ .ok () → (setCenter d x).1 = d) ∧
      ∀ x, (setMeta known d x).2 ≠ .ok () → (setMeta known d x).1 = d := by
  refine ⟨fun x => ?_, fun x => ?_, fun x => ?_, fun x => ?_, fun x => ?_⟩
  · unfold setTimeRange
    cases checkRange .valueError x with
    | error e => intro _; rfl
    | ok o => cases o <;> exact fun h => absurd rfl h
  · unfold setFreqRange
    cases checkRange .typeError x with
    | error e => intro _; rfl
    | ok o => cases o <;> exact fun h => absurd rfl h
  · cases x <;> first | exact fun h => absurd rfl h | exact fun _ => rfl
  · cases x <;> first | exact fun h => absurd rfl h | exact fun _ => rfl
  · cases x with
    | none => exact fun _ => rfl
    | some m =>
      unfold setMeta
      by_cases hm : m.any (fun x => !known.contains x) = true
      · simp only [hm, if_true]; exact fun _ => trivial
      · simp only [hm]; exact fun h => absurd rfl h

/-- Columns asked for are always known ones. -/
theorem names_known (known : List String) (hd : ∀ x ∈ defaultMeta, x ∈ known) (ops : List DbOp) :
    ∀ x ∈ (ops.foldl (DbOp.step known) Db.new).names, x ∈ known := by
  have hmeta : ∀ (d : Db) (m : Option (List String)), (∀ x ∈ d.names, x ∈ known) → ∀ x ∈ (setMeta known d m).1.names, x ∈ known := by
    intro d m h
    cases m with
    | none => exact h
    | some m =>
      unfold setMeta
      by_cases hm : m.any (fun x => !known.contains x) = true
      · simp only [hm, if_true]; exact h
      · simp only [hm]
        intro x hx
        change x ∈ m at hx
        by_contra hc
        exact hm (List.any_eq_true.2 ⟨x, hx, by simp [hc]⟩)
  have htime : ∀ (d : Db) (x : RangeArg), (setTimeRange d x).1.names = d.names := by
    intro d x
    unfold setTimeRange
    cases checkRange .valueError x with
    | error e => rfl
    | ok o => cases o <;> rfl
  have hfreq : ∀ (d : Db) (x : RangeArg), (setFreqRange d x).1.names = d.names := by
    intro d x
    unfold setFreqRange
    cases checkRange .typeError x with
    | error e => rfl
    | ok o => cases o <;> rfl
  have key : ∀ (ops : List DbOp) (d : Db), (∀ x ∈ d.names, x ∈ known) → ∀ x ∈ (ops.foldl (DbOp.step known) d).names, x ∈ known := by
    intro ops
    induction ops with
    | nil => intro d h; exact h
    | cons o os ih =>
      intro d h
      refine ih _ ?_
      cases o with
      | names m => exact hmeta d m h
      | time x =>
        show ∀ y ∈ (setTimeRange d x).1.names, y ∈ known
        rw [htime]; exact h
      | freq x =>
        show ∀ y ∈ (setFreqRange d x).1.names, y ∈ known
        rw [hfreq]; exact h
      | radius x => cases x <;> exact h
      | center x => cases x <;> exact h
      | reset =>
        show ∀ y ∈ (setFreqRange (setTimeRange (setMeta known d (some defaultMeta)).1 .nones).1 .nones).1.names, y ∈ known
        rw [hfreq, htime]
        exact hmeta d _ h
  exact key ops Db.new hd

example : ∀ x ∈ defaultMeta, x ∈ defaultMeta := fun _ h => h

/-- **C68**: a search is refused exactly when no condition is set; otherwise it sends all of them. -/
theorem search_exact (d : Db) : dbSearch d = if d.condTime = none ∧ d.condFreq = none ∧ d.condPos = none then .error .valueError
    else .ok (d.names, d.conditions) := by
  unfold dbSearch Db.conditions
  cases d.condTime <;> cases d.condFreq <;> cases d.condPos <;> simp

/-- **C68**: resetting gives the object back as new. -/
theorem reset_exact (known : List String) (hd : ∀ x ∈ defaultMeta, x ∈ known) (d : Db) : dbReset known d = Db.new := by
  have hm : defaultMeta.any (fun x => !known.contains x) = false := by
    rw [List.any_eq_false]
    intro x hx
    simp [hd x hx]
  unfold dbReset setMeta
  simp only [hm]
  rfl

/-- **C68**: the condition on wavelengths selects the observations inside of the interval of frequencies. -/
theorem freq_condition (within : ℚ → ℚ → ℚ → ℚ → ℚ → Prop) (o : ObsRow) (f0 f1 g0 g1 : ℚ) (h0 : 0 < f0) (h1 : 0 < f1) (hg0 : 0 < g0) (hg1 : 0 < g1)
    (hmin : o.emMin = wavelengthOf g1) (hmax : o.emMax = wavelengthOf g0) :
    (Cond.freq (wavelengthOf f1) (wavelengthOf f0)).holds within o ↔ f0 ≤ g0 ∧ g1 ≤ f1 := by
  have key : ∀ a b : ℚ, 0 < a → 0 < b → (wavelengthOf a ≤ wavelengthOf b ↔ b ≤ a) := by
    intro a b ha hb
    unfold wavelengthOf
    rw [div_le_div_iff₀ ha hb]
    constructor
    · intro h; nlinarith
    · intro h; nlinarith
  show wavelengthOf f1 ≤ o.emMin ∧ o.emMax ≤ wavelengthOf f0 ↔ _
  rw [hmin, hmax, key _ _ h1 hg1, key _ _ hg0 h0, and_comm]

/-- The wavelength times the frequency (in Hz) is the speed of light. -/
theorem wavelength_exact (f : ℚ) (hf : f ≠ 0) : wavelengthOf f * (f * 1000000) = 299792458 := by
  unfold wavelengthOf
  field_simp

/-- **C68**: what each assignment of an interval does. Two readable values are kept, `[None, None]` removes the condition, and anything else is
refused and changes nothing: unreadable times and lists of another length with a `ValueError`, unreadable frequencies and other objects with a
`TypeError`. -/
theorem ranges_assigned (d : Db) :
    (∀ a b, (setTimeRange d (.pair (some a) (some b))).2 = .ok () ∧ (setTimeRange d (.pair (some a) (some b))).1.timeRange = some (a, b)) ∧
    (∀ a b, (setFreqRange d (.pair (some a) (some b))).2 = .ok () ∧ (setFreqRange d (.pair (some a) (some b))).1.freqRange = some (a, b)) ∧
    ((setTimeRange d .nones).2 = .ok () ∧ (setTimeRange d .nones).1.timeRange = none) ∧
    ((setFreqRange d .nones).2 = .ok () ∧ (setFreqRange d .nones).1.freqRange = none) ∧
    (∀ a b, (a = none ∨ b = none) → setTimeRange d (.pair a b) = (d, .error .valueError) ∧ setFreqRange d (.pair a b) = (d, .error .typeError)) ∧
    (∀ n, setTimeRange d (.listOf n) = (d, .error .valueError) ∧ setFreqRange d (.listOf n) = (d, .error .valueError)) ∧
    setTimeRange d .other = (d, .error .typeError) ∧ setFreqRange d .other = (d, .error .typeError) := by
  refine ⟨fun _ _ => ⟨rfl, rfl⟩, fun _ _ => ⟨rfl, rfl⟩, ⟨rfl, rfl⟩, ⟨rfl, rfl⟩, ?_, fun _ => ⟨rfl, rfl⟩, rfl, rfl⟩
  intro a b h
  cases a <;> cases b
  · exact ⟨rfl, rfl⟩
  · exact ⟨rfl, rfl⟩
  · exact ⟨rfl, rfl⟩
  · rcases h with h | h <;> cases h

end Verif.Astro
