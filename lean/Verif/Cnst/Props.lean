import Verif.Cnst.LemmasEval

/-!
# Properties of constraints (C15 to C18)

The specification is `Satisfied` below: what each constraint asks of a slot, in plain terms.
-/

namespace Verif.Cnst

/-! ## C16: periodic windows -/

/-- **C16.** A periodic constraint accepts exactly the times within the tolerance of one of the instants `start + k * period`, `k` any integer. -/
theorem periodic_exact (start period tol t : ℚ) (hp : 0 < period) (ht : 0 ≤ tol) :
    periodicMask start period tol t = true ↔ ∃ k : ℤ, |t - (start + k * period)| ≤ tol := by
  unfold periodicMask pyMod
  rw [Bool.or_eq_true, decide_eq_true_iff, decide_eq_true_iff]
  have h1 : (⌊(t - start) / period⌋ : ℚ) * period ≤ t - start := (le_div_iff₀ hp).1 (Int.floor_le _)
  have h2 : t - start < ((⌊(t - start) / period⌋ : ℚ) + 1) * period := (div_lt_iff₀ hp).1 (Int.lt_floor_add_one _)
  generalize ⌊(t - start) / period⌋ = q at h1 h2
  constructor
  · rintro (h | h)
    · exact ⟨q, abs_le.2 ⟨by linarith, by linarith⟩⟩
    · exact ⟨q + 1, abs_le.2 ⟨by push_cast; linarith, by push_cast; linarith⟩⟩
  · rintro ⟨k, hk⟩
    obtain ⟨ha, hb⟩ := abs_le.1 hk
    rcases le_or_gt k q with h | h
    · left
      have : (k : ℚ) * period ≤ q * period := mul_le_mul_of_nonneg_right (by exact_mod_cast h) hp.le
      linarith
    · right
      have : ((q : ℚ) + 1) * period ≤ k * period := mul_le_mul_of_nonneg_right (by exact_mod_cast h) hp.le
      linarith

example : periodicMask 10 2 (1 / 4) (3 + 7 / 8) = true := by decide +kernel
example : periodicMask 10 2 (1 / 4) 15 = false := by decide +kernel

/-! ## C17: hour windows -/

/-- **C17.** An hour window that does not cross midnight accepts exactly the hours between its bounds, bounds included. -/
theorem hour_window_plain (hMin hMax h : ℚ) (hle : hMin ≤ hMax) : hourMask hMin hMax h = true ↔ hMin ≤ h ∧ h ≤ hMax := by
  unfold hourMask
  rw [if_neg (not_lt.2 hle), Bool.and_eq_true, decide_eq_true_iff, decide_eq_true_iff]

/-- **C17**, partial: a window across midnight accepts the hours after its start or before its end; the bounds themselves are missing. -/
theorem hour_window_midnight_partial (hMin hMax h : ℚ) (hlt : hMax < hMin) :
    hourMask hMin hMax h = true ↔ hMin < h ∨ h < hMax := by
  unfold hourMask
  rw [if_pos hlt, Bool.not_eq_true', Bool.and_eq_false_iff, decide_eq_false_iff_not, decide_eq_false_iff_not, not_le, not_le]

/-- **C17** is false of the bounds of a window across midnight: for every such window, neither bound is accepted, although the bounds
of the other windows are. -/
theorem hour_window_bounds_violated (hMin hMax : ℚ) (hlt : hMax < hMin) :
    hourMask hMin hMax hMin = false ∧ hourMask hMin hMax hMax = false := by
  unfold hourMask
  rw [if_pos hlt, if_pos hlt]
  simp [hlt.le]

/-- Local hours are computed with the wrong offset after a change to summer time: between 1h and 3h UTC the offset is one hour short, so
that a slot at 02:30 UTC (04:30 in Paris) is seen at 03:30 and accepted by a window which ends at 4h. -/
theorem local_hour_violated :
    (∀ u, 1 ≤ u → u < 3 → usedOffset u + 1 = trueOffset u) ∧
    hourMask 3 4 (5 / 2 + usedOffset (5 / 2)) = true ∧ hourMask 3 4 (5 / 2 + trueOffset (5 / 2)) = false := by
  refine ⟨fun u h1 h3 => ?_, by decide +kernel, by decide +kernel⟩
  unfold usedOffset trueOffset
  rw [if_pos h3, if_neg (not_lt.2 h1)]; norm_num

/-- Outside these two hours the offset is right. -/
theorem local_hour_partial (u : ℚ) (h : u < 1 ∨ 3 ≤ u) : usedOffset u = trueOffset u := by
  unfold usedOffset trueOffset
  rcases h with h | h
  · rw [if_pos h, if_pos (by linarith)]
  · rw [if_neg (by linarith), if_neg (by linarith)]

/-! ## C15: combined scores -/

/-- A window of `nslots` slots around slot `i` (half of them, rounded down, before) holds a slot `k` with `hit k`. -/
def Near (E : Env) (hit : Nat → Prop) (i : Nat) : Prop :=
  ∃ k, k < E.n ∧ hit k ∧ k ≤ i + E.nslots / 2 ∧ i + E.nslots / 2 < k + E.nslots

/-- Hours in a daily window, as the code understands it (see C17). -/
def InHours (hMin hMax h : ℚ) : Prop := (hMin ≤ hMax ∧ hMin ≤ h ∧ h ≤ hMax) ∨ (hMax < hMin ∧ (hMin < h ∨ h < hMax))

/-- What a constraint asks of slot `i`, for a target with ephemerides `T` and Sun elevations `sun`. -/
def Satisfied (E : Env) (T : Ephem) (sun : Nat → ℚ) (c : Cn) (i : Nat) : Prop :=
  match c with
  | .elevation m _ => m < (T.elev i + T.elev (i + 1)) / 2
  | .transit => Near E (fun k => T.hourAngle (k + 1) < T.hourAngle k) i
  | .azimuth az => Near E (fun k =>
      if T.circumpolar then azHitCircum az T.azimuth k = true else T.azimuth k ≤ az ∧ az ≤ T.azimuth (k + 1)) i
  | .lst l => Near E (fun k => lstHit l T.lst k = true) i
  | .localTime a b => InHours a b (E.localHour i)
  | .utcHour a b => InHours a b (E.utcHour i)
  | .timeRange rs => ∃ r ∈ rs, r.1 ≤ E.time i ∧ E.time i ≤ r.2
  | .periodic s p tol => ∃ k : ℤ, |E.time i - (s + k * p)| ≤ tol
  | .night m _ => sun i ≤ m
  | .solar _ _ a b => (∀ x, a = some x → x < T.sunSep i) ∧ (∀ y, b = some y → T.sunSep i ≤ y)

/-- Parameters for which the claims hold: those that the setters check, a positive period and tolerance, and a Sun below the horizon. -/
def Sound (p : ℚ × Cn) : Prop :=
  ValidCn p ∧ match p.2 with
    | .periodic _ p tol => 0 < p ∧ 0 ≤ tol
    | .night m _ => m < 0
    | _ => True

theorem near_iff {E : Env} (hn : 0 < E.nslots) {hit : Nat → Bool} {P : Nat → Prop} (hP : ∀ k, hit k = true ↔ P k) {i : Nat} (hi : i < E.n) :
    crossScore E.n E.nslots hit i = 0 ↔ ¬ Near E P i := by
  rw [crossScore_zero_iff]
  apply not_congr
  constructor
  · rintro (h | ⟨k, h1, h2, h3⟩)
    · exact ⟨i, hi, (hP i).1 h, by omega, by omega⟩
    · exact ⟨k, h1, (hP k).1 h2, h3⟩
  · rintro ⟨k, h1, h2, h3⟩
    exact Or.inr ⟨k, h1, (hP k).2 h2, h3⟩

theorem hourMask_iff (a b h : ℚ) : hourMask a b h = true ↔ InHours a b h := by
  unfold InHours
  rcases le_or_gt a b with hle | hlt
  · rw [hour_window_plain a b h hle]
    constructor
    · exact fun x => Or.inl ⟨hle, x⟩
    · rintro (x | x)
      · exact x.2
      · exact absurd x.1 (not_lt.2 hle)
  · rw [hour_window_midnight_partial a b h hlt]
    constructor
    · exact fun x => Or.inr ⟨hlt, x⟩
    · rintro (x | x)
      · exact absurd x.1 (not_le.2 hlt)
      · exact x.2

/-- One constraint at one slot, with Sun elevations `cur` that earlier constraints may have masked. -/
theorem evalOne_spec {E : Env} {T : Ephem} {sun : Nat → ℚ} {cur cur' : Nat → Option ℚ} {w : ℚ} {c : Cn}
    {row : Option (Nat → Option ℚ)}
    (hE : E.target = some T) (hn : 0 < E.nslots) (hsep : ∀ k, 0 < T.sunSep k) (hs : Sound (w, c))
    (hcur : ∀ i, cur i = some (sun i) ∨ cur i = none) (h : evalOne E cur c = (cur', .ok row)) :
    (∀ i, cur' i = some (sun i) ∨ cur' i = none) ∧ ∃ f, row = some f ∧ ∀ i, i < E.n →
      (∀ v, f i = some v → 0 ≤ v ∧ v ≤ 1) ∧
      ((f i = none ∨ f i = some 0) ↔ ¬ (Satisfied E T sun c i ∧ (cur i ≠ none ∨ ∀ m s, c ≠ .night m s))) ∧
      (cur' i = none → cur i = none ∨ ¬ Satisfied E T sun c i) := by
  have cross : ∀ (hit : Nat → Bool) (P : Nat → Prop), (∀ k, hit k = true ↔ P k) → ∀ i, i < E.n →
      ((∀ v, some (crossScore E.n E.nslots hit i) = some v → 0 ≤ v ∧ v ≤ 1) ∧
      ((some (crossScore E.n E.nslots hit i) = none ∨ some (crossScore E.n E.nslots hit i) = some 0) ↔ ¬ Near E P i)) := by
    intro hit P hP i hi
    refine ⟨fun v hv => ?_, ?_⟩
    · obtain rfl := Option.some.inj hv
      exact crossScore_unit _ _ _ _
    · rw [← near_iff hn hP hi]; simp
  have mask : ∀ (b : Bool) (P : Prop), (b = true ↔ P) →
      ((∀ v, maskScore b = some v → 0 ≤ v ∧ v ≤ 1) ∧ ((maskScore b = none ∨ maskScore b = some 0) ↔ ¬ P)) := by
    intro b P hb
    refine ⟨fun v hv => by rw [maskScore_unit hv]; norm_num, ?_⟩
    rw [maskScore_zero_iff, hb]
  cases c with
  | elevation m s =>
    simp only [evalOne, hE, Option.map_some, Prod.mk.injEq, Except.ok.injEq] at h
    obtain ⟨rfl, rfl⟩ := h
    refine ⟨hcur, _, rfl, fun i hi => ⟨fun v hv => elevScore_unit hs.1.2.1 hi hv, ?_, Or.inl⟩⟩
    rw [elevScore_pos_iff hs.1.2.1 hi]
    simp [Satisfied]
  | transit =>
    simp only [evalOne, hE, Option.map_some, Prod.mk.injEq, Except.ok.injEq] at h
    obtain ⟨rfl, rfl⟩ := h
    refine ⟨hcur, _, rfl, fun i hi => ?_⟩
    have := cross (transitHit T.hourAngle) (fun k => T.hourAngle (k + 1) < T.hourAngle k)
      (fun k => by unfold transitHit; rw [decide_eq_true_iff]; constructor <;> intro h <;> linarith) i hi
    exact ⟨this.1, by rw [this.2]; simp [Satisfied], Or.inl⟩
  | azimuth az =>
    simp only [evalOne, hE, Option.map_some, Prod.mk.injEq, Except.ok.injEq] at h
    obtain ⟨rfl, rfl⟩ := h
    refine ⟨hcur, _, rfl, fun i hi => ?_⟩
    have := cross (if T.circumpolar then azHitCircum az T.azimuth else azHit az T.azimuth)
      (fun k => if T.circumpolar then azHitCircum az T.azimuth k = true else T.azimuth k ≤ az ∧ az ≤ T.azimuth (k + 1))
      (fun k => by cases T.circumpolar <;> simp [azHit]) i hi
    exact ⟨this.1, by rw [this.2]; simp [Satisfied], Or.inl⟩
  | lst l =>
    simp only [evalOne, hE, Option.map_some, Prod.mk.injEq, Except.ok.injEq] at h
    obtain ⟨rfl, rfl⟩ := h
    refine ⟨hcur, _, rfl, fun i hi => ?_⟩
    have := cross (lstHit l T.lst) (fun k => lstHit l T.lst k = true) (fun k => Iff.rfl) i hi
    exact ⟨this.1, by rw [this.2]; simp [Satisfied], Or.inl⟩
  | localTime a b =>
    simp only [evalOne, Prod.mk.injEq, Except.ok.injEq] at h
    obtain ⟨rfl, rfl⟩ := h
    refine ⟨hcur, _, rfl, fun i hi => ?_⟩
    have := mask _ _ (hourMask_iff a b (E.localHour i))
    exact ⟨this.1, by rw [this.2]; simp [Satisfied], Or.inl⟩
  | utcHour a b =>
    simp only [evalOne, Prod.mk.injEq, Except.ok.injEq] at h
    obtain ⟨rfl, rfl⟩ := h
    refine ⟨hcur, _, rfl, fun i hi => ?_⟩
    have := mask _ _ (hourMask_iff a b (E.utcHour i))
    exact ⟨this.1, by rw [this.2]; simp [Satisfied], Or.inl⟩
  | timeRange rs =>
    simp only [evalOne, Prod.mk.injEq, Except.ok.injEq] at h
    obtain ⟨rfl, rfl⟩ := h
    refine ⟨hcur, _, rfl, fun i hi => ?_⟩
    have := mask (timeRangeMask rs (E.time i)) (∃ r ∈ rs, r.1 ≤ E.time i ∧ E.time i ≤ r.2) (by
      unfold timeRangeMask; rw [List.any_eq_true]; simp)
    exact ⟨this.1, by rw [this.2]; simp [Satisfied], Or.inl⟩
  | periodic a p tol =>
    simp only [evalOne, Prod.mk.injEq, Except.ok.injEq] at h
    obtain ⟨rfl, rfl⟩ := h
    refine ⟨hcur, _, rfl, fun i hi => ?_⟩
    have := mask _ _ (periodic_exact a p tol (E.time i) hs.2.1 hs.2.2)
    exact ⟨this.1, by rw [this.2]; simp [Satisfied], Or.inl⟩
  | night m s =>
    simp only [evalOne] at h
    rcases hne : nightEval m s E.n cur with ⟨cur2, r⟩
    rw [hne] at h
    cases r with
    | error e => simp at h
    | ok f =>
      simp only [Prod.mk.injEq, Except.ok.injEq] at h
      obtain ⟨rfl, rfl⟩ := h
      have h1 : ∀ i, cur2 i = nightMask m (cur i) := by
        have : (nightEval m s E.n cur).1 = cur2 := by rw [hne]
        intro i; rw [← this]; rfl
      have h2 : (nightEval m s E.n cur).2 = .ok f := by rw [hne]
      have hm : m < 0 := hs.2
      refine ⟨fun i => ?_, f, rfl, fun i hi => ⟨fun v hv => night_unit hm.le hi h2 hv, ?_, ?_⟩⟩
      · rw [h1]
        rcases hcur i with h | h
        · rw [h]
          by_cases hle : sun i ≤ m
          · left; exact nightMask_some.2 ⟨rfl, hle⟩
          · right
            cases hq : nightMask m (some (sun i)) with
            | none => rfl
            | some e =>
              have := nightMask_some.1 hq
              rw [Option.some.injEq] at this
              rw [this.1] at hle
              exact absurd this.2 hle
        · rw [h]; right; rfl
      · rw [night_zero_iff hm hi h2]
        apply not_congr
        simp only [Satisfied]
        rcases hcur i with h | h
        · rw [h]; simp
        · rw [h]; simp
      · rw [h1]
        intro hnone
        rcases hcur i with h | h
        · right
          intro hle
          simp only [Satisfied] at hle
          rw [h, nightMask_some.2 ⟨rfl, hle⟩] at hnone
          cases hnone
        · exact Or.inl h
  | solar cl sc a b =>
    simp only [evalOne, hE, Option.elim_some, Prod.mk.injEq] at h
    obtain ⟨rfl, h⟩ := h
    have hb : ¬ T.byName = true := by
      intro hb
      rw [Ephem.separation, if_pos hb] at h
      cases h
    rw [Ephem.separation, if_neg hb] at h
    obtain rfl := Except.ok.inj h
    refine ⟨hcur, _, rfl, fun i hi => ⟨fun v hv => sunScore_unit (fun k => (hsep k).le) hi hv, ?_, Or.inl⟩⟩
    rw [sunScore_zero_iff hsep hi]
    simp [Satisfied]

/-- All the constraints at one slot. -/
theorem evalRows_spec {E : Env} {T : Ephem} {sun : Nat → ℚ} (hE : E.target = some T) (hn : 0 < E.nslots) (hsep : ∀ k, 0 < T.sunSep k) :
    ∀ {cs : List (ℚ × Cn)} {cur cur' : Nat → Option ℚ} {rows : List (ℚ × Option (Nat → Option ℚ))}, (∀ p ∈ cs, Sound p) →
    (∀ i, cur i = some (sun i) ∨ cur i = none) → evalRows E cs cur = (cur', .ok rows) →
    rows.map (fun r => r.1) = cs.map (fun p => p.1) ∧ (∀ r ∈ rows, r.2 ≠ none) ∧ (∀ r ∈ rows, 0 < r.1) ∧
    (∀ i, i < E.n → ∀ r ∈ slotRows rows i, ∀ v, r.2 = some (some v) → 0 ≤ v ∧ v ≤ 1) ∧
    ∀ i, i < E.n → (cur i ≠ none →
      ((∃ r ∈ slotRows rows i, r.2 = some none ∨ r.2 = some (some 0)) ↔ ∃ p ∈ cs, ¬ Satisfied E T sun p.2 i))
  | [], cur, cur', rows, _, _, h => by
    simp only [evalRows, Prod.mk.injEq, Except.ok.injEq] at h
    obtain ⟨rfl, rfl⟩ := h
    simp [slotRows]
  | (w, c) :: cs, cur, cur', rows, hs, hcur, h => by
    rw [evalRows] at h
    rcases h1 : evalOne E cur c with ⟨cur1, r1⟩
    rw [h1] at h
    cases r1 with
    | error e => simp at h
    | ok row =>
      simp only at h
      rcases h2 : evalRows E cs cur1 with ⟨cur2, r2⟩
      rw [h2] at h
      cases r2 with
      | error e => simp at h
      | ok rows' =>
        simp only [Prod.mk.injEq, Except.ok.injEq] at h
        obtain ⟨rfl, rfl⟩ := h
        have hsc := hs (w, c) List.mem_cons_self
        obtain ⟨hc1, f, rfl, hf⟩ := evalOne_spec hE hn hsep hsc hcur h1
        obtain ⟨i1, i2, i3, i4, i5⟩ := evalRows_spec hE hn hsep (fun p hp => hs p (List.mem_cons_of_mem _ hp)) hc1 h2
        refine ⟨by simp [i1], ?_, ?_, ?_, ?_⟩
        · intro r hr
          rcases List.mem_cons.1 hr with rfl | hr
          · simp
          · exact i2 r hr
        · intro r hr
          rcases List.mem_cons.1 hr with rfl | hr
          · exact hsc.1.1
          · exact i3 r hr
        · intro i hi r hr v hv
          rw [slotRows, List.map_cons] at hr
          rcases List.mem_cons.1 hr with rfl | hr
          · simp only [Option.map_some, Option.some.injEq] at hv
            exact (hf i hi).1 v hv
          · exact i4 i hi r hr v hv
        · intro i hi hne
          have hrow := (hf i hi).2.1
          have hnext := (hf i hi).2.2
          simp only [slotRows, List.map_cons, List.mem_cons, exists_eq_or_imp, Option.map_some, Option.some.injEq]
          rw [show (f i = none ∨ f i = some 0) ↔ ¬ Satisfied E T sun c i from by
            rw [hrow]; apply not_congr; simp [hne]]
          by_cases hc2 : cur1 i = none
          · have := (hnext hc2).resolve_left hne
            simp [this]
          · have := i5 i hi hc2
            rw [slotRows] at this
            rw [this]

/-- **C15.** The combined score of every slot is in `[0, 1]`, and is zero exactly when some constraint is not satisfied at that slot; this holds for any
number of constraints of any classes and any weights. -/
theorem slot_score_range_and_veto {E : Env} {T : Ephem} {sun : Nat → ℚ} {sun' : Nat → Option ℚ} {cs : List (ℚ × Cn)} {score : Nat → ℚ}
    (hE : E.target = some T) (hn : 0 < E.nslots) (hsep : ∀ k, 0 < T.sunSep k) (hs : ∀ p ∈ cs, Sound p) (hne : cs ≠ [])
    (h : evaluate E cs (fun i => some (sun i)) = (sun', .ok score)) (i : Nat) (hi : i < E.n) :
    0 ≤ score i ∧ score i ≤ 1 ∧ (score i = 0 ↔ ∃ p ∈ cs, ¬ Satisfied E T sun p.2 i) := by
  unfold evaluate at h
  rcases hr : evalRows E cs (fun i => some (sun i)) with ⟨s1, r⟩
  rw [hr] at h
  cases r with
  | error e => simp at h
  | ok rows =>
    simp only [Prod.mk.injEq, Except.ok.injEq] at h
    obtain ⟨rfl, rfl⟩ := h
    obtain ⟨i1, i2, i3, i4, i5⟩ := evalRows_spec hE hn hsep hs (fun i => Or.inl rfl) hr
    have hlen : rows ≠ [] := by
      rintro rfl
      simp only [List.map_nil] at i1
      exact hne (List.map_eq_nil_iff.1 i1.symm)
    have hsl : slotRows rows i ≠ [] := by simp [slotRows, hlen]
    have hev : ∀ r ∈ slotRows rows i, r.2 ≠ none := by
      intro r hr
      obtain ⟨a, ha, rfl⟩ := List.mem_map.1 hr
      simpa using i2 a ha
    have hw : ∀ r ∈ slotRows rows i, 0 < r.1 := by
      intro r hr
      obtain ⟨a, ha, rfl⟩ := List.mem_map.1 hr
      exact i3 a ha
    have hval := i4 i hi
    have hz := i5 i hi (by simp)
    show 0 ≤ combine (slotRows rows i) ∧ combine (slotRows rows i) ≤ 1 ∧ (combine (slotRows rows i) = 0 ↔ _)
    generalize slotRows rows i = L at hsl hev hw hval hz ⊢
    rw [combine_evaluated hsl hev]
    by_cases hc : ∃ r ∈ L, r.2 = some none ∨ r.2 = some (some 0)
    · rw [if_pos hc]
      exact ⟨le_refl _, by norm_num, by simp only [true_iff]; exact hz.1 hc⟩
    · rw [if_neg hc]
      have hpos : ∀ r ∈ L, 0 < r.1 ∧ 0 < (r.2.bind id).getD 0 ∧ (r.2.bind id).getD 0 ≤ 1 := by
        intro r hr
        refine ⟨hw r hr, ?_⟩
        cases h1 : r.2 with
        | none => exact absurd h1 (hev r hr)
        | some o => cases o with
          | none => exact absurd ⟨r, hr, Or.inl h1⟩ hc
          | some v =>
            have hv := hval r hr v h1
            simp only [Option.bind_some, id, Option.getD_some]
            refine ⟨lt_of_le_of_ne hv.1 ?_, hv.2⟩
            rintro rfl
            exact hc ⟨r, hr, Or.inr h1⟩
      have hW : 0 < (L.map fun r => r.1).sum := by
        have := weights_pos (l := L.map fun r => (r.1, (0 : ℚ))) (by
          intro r hr; obtain ⟨a, ha, rfl⟩ := List.mem_map.1 hr; exact hw a ha) (by simpa using hsl)
        simpa [List.map_map, Function.comp_def] using this
      have hle := wsum_le (c := 1) (l := L.map fun r => (r.1, (r.2.bind id).getD 0)) (by
        intro r hr; obtain ⟨a, ha, rfl⟩ := List.mem_map.1 hr; exact ⟨(hpos a ha).1, (hpos a ha).2.2⟩)
      have hgt : 0 < (L.map fun r => r.1 * (r.2.bind id).getD 0).sum := by
        cases L with
        | nil => exact absurd rfl hsl
        | cons a L =>
          rw [List.map_cons, List.sum_cons]
          have ha := hpos a List.mem_cons_self
          have : 0 ≤ (L.map fun r => r.1 * (r.2.bind id).getD 0).sum := by
            apply List.sum_nonneg
            intro x hx
            obtain ⟨b, hb, rfl⟩ := List.mem_map.1 hx
            have hb := hpos b (List.mem_cons_of_mem _ hb)
            exact mul_nonneg hb.1.le hb.2.1.le
          have := mul_pos ha.1 ha.2.1
          linarith
      simp only [List.map_map, Function.comp_def] at hle
      have hq := div_pos hgt hW
      refine ⟨hq.le, (div_le_one hW).2 (by linarith), ?_⟩
      constructor
      · intro h0; exact absurd h0 hq.ne'
      · intro h0; exact absurd (hz.2 h0) hc

/-- **C15.** When every constraint was evaluated with a positive score, the combined score is the weighted mean of the scores. -/
theorem combined_score_is_weighted_mean {l : List (ℚ × ℚ)} (hne : l ≠ []) (hp : ∀ p ∈ l, 0 < p.2) :
    combine (l.map fun p => (p.1, some (some p.2))) = (l.map fun p => p.1 * p.2).sum / (l.map fun p => p.1).sum := by
  rw [combine_evaluated (by simpa using hne) (by
    intro r hr; obtain ⟨a, _, rfl⟩ := List.mem_map.1 hr; simp)]
  rw [if_neg]
  · simp [List.map_map, Function.comp_def]
  · rintro ⟨r, hr, h⟩
    obtain ⟨a, ha, rfl⟩ := List.mem_map.1 hr
    have := hp a ha
    simp at h
    linarith

/-- The weighted mean lies between the smallest and the largest score. -/
theorem combined_score_between {l : List (ℚ × ℚ)} {lo hi : ℚ} (hne : l ≠ []) (hw : ∀ p ∈ l, 0 < p.1)
    (hp : ∀ p ∈ l, 0 < p.2 ∧ lo ≤ p.2 ∧ p.2 ≤ hi) :
    lo ≤ combine (l.map fun p => (p.1, some (some p.2))) ∧ combine (l.map fun p => (p.1, some (some p.2))) ≤ hi := by
  rw [combined_score_is_weighted_mean hne fun p h => (hp p h).1]
  have hW := weights_pos hw hne
  exact ⟨(le_div_iff₀ hW).2 (le_wsum fun p h => ⟨hw p h, (hp p h).2.1⟩),
    (div_le_iff₀ hW).2 (wsum_le fun p h => ⟨hw p h, (hp p h).2.2⟩)⟩

example : combine [(1, some (some (1 / 2))), (3, some (some 1))] = 7 / 8 := by decide +kernel

/-- A block with no target and no other constraint than target constraints scores 1 everywhere. -/
theorem no_target_scores_one {rows : List Row} (hne : rows ≠ []) (hw : ∀ r ∈ rows, 0 < r.1) (hu : ∀ r ∈ rows, r.2 = none) :
    combine rows = 1 := combine_all_unevaluated hne hw hu

/-- Without a target, exactly the constraints on targets are not evaluated. -/
theorem no_target_rows (E : Env) (hE : E.target = none) (sun : Nat → Option ℚ) (c : Cn) :
    (evalOne E sun c).2 = .ok none ↔ c.onTarget = true := by
  cases c with
  | night m s =>
    simp only [evalOne, Cn.onTarget]
    rcases nightEval m s E.n sun with ⟨a, b | b⟩ <;> simp
  | _ => simp [evalOne, hE, Cn.onTarget, Except.map]

theorem evalRows_untargeted (E : Env) (hE : E.target = none) (sun : Nat → Option ℚ) :
    ∀ cs : List (ℚ × Cn), (∀ p ∈ cs, p.2.onTarget = true) → evalRows E cs sun = (sun, .ok (cs.map fun p => (p.1, none)))
  | [], _ => rfl
  | (w, c) :: cs, h => by
    have h1 : evalOne E sun c = (sun, .ok none) := by
      have := h (w, c) (List.mem_cons_self ..)
      cases c <;> simp_all [evalOne, Cn.onTarget]
    have h2 := evalRows_untargeted E hE sun cs fun p hp => h p (List.mem_cons_of_mem _ hp)
    rw [evalRows, h1]
    dsimp only
    rw [h2]
    rfl

/-- A block without a target which has constraints on targets only scores 1 in all slots, and uses no elevation of the Sun. -/
theorem no_target_evaluate (E : Env) (hE : E.target = none) (sun : Nat → Option ℚ) (cs : List (ℚ × Cn)) (hne : cs ≠ [])
    (hw : ∀ p ∈ cs, 0 < p.1) (h : ∀ p ∈ cs, p.2.onTarget = true) : ∃ f, evaluate E cs sun = (sun, .ok f) ∧ ∀ i, f i = 1 := by
  refine ⟨_, by rw [evaluate, evalRows_untargeted E hE sun cs h], fun i => ?_⟩
  apply no_target_scores_one
  · simpa [slotRows] using hne
  · intro r hr
    simp only [slotRows, List.map_map, List.mem_map] at hr
    obtain ⟨p, hp, rfl⟩ := hr
    exact hw p hp
  · intro r hr
    simp only [slotRows, List.map_map, List.mem_map] at hr
    obtain ⟨p, hp, rfl⟩ := hr
    rfl

/-- **C15** is false when some constraints of a block cannot be evaluated and others can. A block with no target always carries the default
elevation constraint, which needs one; adding any satisfied constraint on time then turns its score to zero in every slot, although no
evaluated constraint is violated: such a block can never be booked. -/
theorem unevaluated_vetoes_violated (E : Env) (w w' a b : ℚ) (sun : Nat → Option ℚ) (hE : E.target = none) :
    ∃ f, evaluate E [(w, .utcHour a b), (w', .elevation 0 true)] sun = (sun, .ok f) ∧ ∀ i, f i = 0 := by
  refine ⟨_, by simp only [evaluate, evalRows, evalOne, hE]; rfl, fun i => ?_⟩
  apply combine_mixed (a := (w', none)) (b := (w, some (maskScore (hourMask a b (E.utcHour i))))) <;> simp [slotRows]

/-- **C15** is false of night constraints with a positive maximal Sun elevation: as soon as the Sun is below the horizon in one slot, every slot with
the Sun above the horizon, though allowed, gets a negative score. -/
theorem night_positive_violated (m : ℚ) (n : Nat) (sun : Nat → ℚ) (i j : Nat) (hj : j < n) (hm : 0 < m) (h1 : 0 < sun i) (h2 : sun i ≤ m)
    (h3 : sun j < 0) : ∃ f v, (nightEval m true n fun i => some (sun i)).2 = .ok f ∧ f i = some v ∧ v < 0 := by
  have hs : ∀ k, sun k ≤ m → nightMask m (some (sun k)) = some (sun k) := fun k hk => by
    unfold nightMask
    rw [Option.filter_some, if_pos (by simpa using hk)]
  obtain ⟨lo, e, hlo⟩ := nanmin_le (fun k => nightMask m (some (sun k))) hj (hs j (h3.le.trans hm.le))
  have hneg : lo < 0 := lt_of_le_of_lt hlo h3
  refine ⟨fun k => nightSlot true lo (nightMask m (some (sun k))), sun i / lo, ?_, ?_, div_neg_of_pos_of_neg h1 hneg⟩
  · unfold nightEval
    dsimp only
    rw [e]
  · show nightSlot true lo (nightMask m (some (sun i))) = _
    rw [hs i h2]
    show npDiv (sun i) lo = _
    unfold npDiv
    rw [if_neg hneg.ne]

/-- The Sun at -1 and then +10 degrees, both allowed: the second slot scores -10. -/
example : ∃ f, (nightEval 12 true 2 (fun i => some (if i = 0 then -1 else 10))).2 = .ok f ∧ f 1 = some (-10) := ⟨_, rfl, by decide +kernel⟩

/-- A night constraint that no slot satisfies raises instead of giving zero scores, whatever the number of slots except two. -/
theorem night_never_violated (m : ℚ) (sc : Bool) (n : Nat) (sun : Nat → ℚ) (hn : n ≠ 2) (h : ∀ i, i < n → m < sun i) :
    (nightEval m sc n fun i => some (sun i)).2 = .error .valueError := by
  unfold nightEval
  have : nanmin (fun i => nightMask m (some (sun i))) n = none := by
    cases hq : nanmin (fun i => nightMask m (some (sun i))) n with
    | none => rfl
    | some v =>
      obtain ⟨i, hi, h2⟩ := nanmin_mem _ hq
      have h3 := nightMask_some.1 h2
      rw [Option.some.injEq] at h3
      have := h i hi
      rw [h3.1] at this
      exact absurd h3.2 (not_le.2 this)
  simp only [this]
  rw [if_neg hn]

/-- The score of a booked block raises `TypeError` as soon as one of its constraints was never evaluated (a block without target). -/
theorem block_score_violated (rows : List Row) (h : ∃ r ∈ rows, r.2 = none) : blockScore rows = .error .typeError := by
  obtain ⟨r, hr, h⟩ := h
  unfold blockScore
  rw [if_pos]
  rw [List.any_eq_true]
  exact ⟨r, hr, by rw [h]; rfl⟩

theorem evalRows_planet {E : Env} {T : Ephem} (hE : E.target = some T) (hT : T.byName = true) :
    ∀ {cs : List (ℚ × Cn)} (sun : Nat → Option ℚ), (∃ p ∈ cs, ∃ cl sc a b, p.2 = Cn.solar cl sc a b) →
    (∀ p ∈ cs, ∀ m s, p.2 ≠ .night m s) → (evalRows E cs sun).2 = .error .attributeError := by
  intro cs
  induction cs with
  | nil => rintro sun ⟨p, hp, _⟩; cases hp
  | cons p cs ih =>
    intro sun hs hn
    obtain ⟨w, c⟩ := p
    have hcn := hn (w, c) List.mem_cons_self
    have tail : ∀ (s1 : Nat → Option ℚ) (row : Option (Nat → Option ℚ)), evalOne E sun c = (s1, .ok row) → (∀ cl sc a b, c ≠ Cn.solar cl sc a b) →
        (evalRows E ((w, c) :: cs) sun).2 = .error .attributeError := by
      intro s1 row h1 h2
      have := ih s1 (by
        obtain ⟨q, hq, cl, sc, a, b, hq2⟩ := hs
        rcases List.mem_cons.1 hq with rfl | hq
        · exact absurd hq2 (h2 cl sc a b)
        · exact ⟨q, hq, cl, sc, a, b, hq2⟩) fun q hq => hn q (List.mem_cons_of_mem _ hq)
      rw [evalRows, h1]
      rcases h3 : evalRows E cs s1 with ⟨s2, r⟩
      rw [h3] at this
      obtain rfl : r = .error .attributeError := this
      simp only [h3]
    cases c with
    | night m s => exact absurd rfl (hcn m s)
    | solar cl sc a b =>
      have : evalOne E sun (.solar cl sc a b) = (sun, .error .attributeError) := by
        simp only [evalOne, hE, Option.elim_some, Ephem.separation]
        rw [if_pos hT]
        rfl
      rw [evalRows, this]
    | elevation m s => exact tail _ _ rfl (fun _ _ _ _ h => nomatch h)
    | transit => exact tail _ _ rfl (fun _ _ _ _ h => nomatch h)
    | azimuth z => exact tail _ _ rfl (fun _ _ _ _ h => nomatch h)
    | lst l => exact tail _ _ rfl (fun _ _ _ _ h => nomatch h)
    | localTime x y => exact tail _ _ rfl (fun _ _ _ _ h => nomatch h)
    | utcHour x y => exact tail _ _ rfl (fun _ _ _ _ h => nomatch h)
    | timeRange l => exact tail _ _ rfl (fun _ _ _ _ h => nomatch h)
    | periodic x y z => exact tail _ _ rfl (fun _ _ _ _ h => nomatch h)

/-- **C15** is false of blocks on a Solar System target: as soon as the distance to the Sun is constrained, with whatever limits and whatever other
constraints (but for the night, which may fail before), the evaluation raises an `AttributeError`. -/
theorem planet_proximity_violated {E : Env} {T : Ephem} (hE : E.target = some T) (hT : T.byName = true) {cs : List (ℚ × Cn)} (sun : Nat → Option ℚ)
    (hs : ∃ p ∈ cs, ∃ cl sc a b, p.2 = Cn.solar cl sc a b) (hn : ∀ p ∈ cs, ∀ m s, p.2 ≠ .night m s) :
    (evaluate E cs sun).2 = .error .attributeError := by
  have := evalRows_planet hE hT sun hs hn
  unfold evaluate
  rcases h : evalRows E cs sun with ⟨s1, r⟩
  rw [h] at this
  obtain rfl : r = .error .attributeError := this
  rfl

/-! A concrete case for the hypotheses of `slot_score_range_and_veto`: three slots, four constraints. -/

/-- A target rising from 10 to 40 degrees. -/
def demoT : Ephem := ⟨fun i => 10 * (i + 1), fun i => i, fun i => 100 + i, fun i => i, false, fun _ => 50, false⟩
/-- Three slots of one hour. -/
def demoE : Env := ⟨3, 2, fun i => i / 24, fun i => i, fun i => i + 1, some demoT⟩
/-- Constraints. -/
def demoCs : List (ℚ × Cn) := [(1, .elevation 20 true), (2, .utcHour 22 2), (1, .night (-5) true), (3, .solar true true (some 10) none)]
/-- Sun. -/
def demoSun : Nat → ℚ := fun i => -10 - i

/-- The score of a slot, if the evaluation succeeded. -/
def scoreAt (r : Except Err (Nat → ℚ)) (i : Nat) : Option ℚ := match r with
  | .ok f => some (f i)
  | .error _ => none

example : (List.range 3).map (scoreAt (evaluate demoE demoCs fun i => some (demoSun i)).2) =
    [some 0, some (557 / 588), some 0] := by decide +kernel
example : (∀ p ∈ demoCs, Sound p) ∧ (∀ k, 0 < demoT.sunSep k) := by
  refine ⟨fun p hp => ?_, fun _ => by norm_num [demoT]⟩
  simp only [demoCs, List.mem_cons, List.not_mem_nil, or_false] at hp
  rcases hp with rfl | rfl | rfl | rfl <;> norm_num [Sound, ValidCn]

/-- Hypotheses of `planet_proximity_violated`: the same target as a planet, above 20 degrees and away from the Sun. -/
example : (∃ p ∈ ([(1, .elevation 20 true), (3, .solar true true (some 10) none)] : List (ℚ × Cn)), ∃ cl sc a b, p.2 = Cn.solar cl sc a b) ∧
    (∀ p ∈ ([(1, .elevation 20 true), (3, .solar true true (some 10) none)] : List (ℚ × Cn)), ∀ m s, p.2 ≠ .night m s) ∧
    ({ demoT with byName := true } : Ephem).byName = true := by
  refine ⟨⟨_, List.mem_cons_of_mem _ List.mem_cons_self, _, _, _, _, rfl⟩, fun p hp m s => ?_, rfl⟩
  simp only [List.mem_cons, List.not_mem_nil, or_false] at hp
  rcases hp with rfl | rfl <;> exact fun h => nomatch h

/-! ## C18: side effects -/

/-- **C18** is false of the night constraint: evaluating it masks the schedule's own array of Sun elevations, so that another block with a looser
constraint, evaluated later, loses the slots that the first one excluded. For every Sun elevation `e` between the two limits the slot is
satisfied by the second constraint alone, and undefined after the first one was evaluated. -/
theorem night_leak_violated (m1 m2 e : ℚ) (sc : Bool) (n i : Nat) (sun : Nat → Option ℚ) (hi : i < n) (h1 : m1 < e) (h2 : e ≤ m2) (hm : m2 < 0)
    (hs : sun i = some e) :
    (∀ f, (nightEval m2 sc n sun).2 = .ok f → ¬ (f i = none ∨ f i = some 0)) ∧
    ∀ f, (nightEval m2 sc n (nightEval m1 sc n sun).1).2 = .ok f → (f i = none ∨ f i = some 0) := by
  constructor
  · intro f hf h
    exact (night_zero_iff hm hi hf).1 h ⟨e, hs, h2⟩
  · intro f hf
    rw [night_zero_iff hm hi hf]
    rintro ⟨x, hx, _⟩
    have := nightMask_some.1 (show nightMask m1 (sun i) = some x from hx)
    rw [hs, Option.some.injEq] at this
    linarith [this.1, this.2]

/-- **C18**, partial: evaluating constraints none of which is a night constraint leaves the Sun elevations unchanged. -/
theorem evaluation_pure_partial {E : Env} : ∀ {cs : List (ℚ × Cn)} (sun : Nat → Option ℚ), (∀ p ∈ cs, ∀ m s, p.2 ≠ .night m s) →
    (evaluate E cs sun).1 = sun := by
  have key : ∀ {cs : List (ℚ × Cn)} (sun : Nat → Option ℚ), (∀ p ∈ cs, ∀ m s, p.2 ≠ .night m s) → (evalRows E cs sun).1 = sun := by
    intro cs
    induction cs with
    | nil => intro sun _; rfl
    | cons p cs ih =>
      intro sun h
      obtain ⟨w, c⟩ := p
      have h1 : (evalOne E sun c).1 = sun := by
        have := h (w, c) List.mem_cons_self
        cases c with
        | night m s => exact absurd rfl (this m s)
        | solar a b c d => rfl
        | _ => rfl
      rw [evalRows]
      rcases h2 : evalOne E sun c with ⟨s1, r⟩
      rw [h2] at h1
      obtain rfl : s1 = sun := h1
      cases r with
      | error e => rfl
      | ok row =>
        simp only
        have := ih s1 fun p hp => h p (List.mem_cons_of_mem _ hp)
        rcases h3 : evalRows E cs s1 with ⟨s2, r2⟩
        rw [h3] at this
        obtain rfl : s2 = s1 := this
        cases r2 <;> rfl
  intro cs sun h
  have := key sun h
  unfold evaluate
  rcases h3 : evalRows E cs sun with ⟨s2, r2⟩
  rw [h3] at this
  obtain rfl : s2 = sun := this
  cases r2 <;> rfl

/-- **C18**, partial: evaluating the same night constraint again gives the same scores. -/
theorem night_idempotent_partial (m : ℚ) (sc : Bool) (n : Nat) (sun : Nat → Option ℚ) :
    nightEval m sc n (nightEval m sc n sun).1 = nightEval m sc n sun := by
  have : ∀ o, nightMask m (nightMask m o) = nightMask m o := by
    intro o
    unfold nightMask
    cases o with
    | none => rfl
    | some e => by_cases h : m < e <;> simp [Option.filter, h]
  simp only [nightEval, this]

/-- **C18** is false of the addition of constraints: adding an elevation constraint to a set which still holds its default one removes the default
from the left operand, for every such set. -/
theorem add_mutates_violated (l : List C) (v : Nat) (hn : (l.map C.kind).Nodup) (he : Kind.elevation ∉ l.map C.kind) :
    ∃ cs, mkCs l = .ok cs ∧ (addCs cs ⟨.elevation, v⟩).1 ≠ cs ∧ (addCs cs ⟨.elevation, v⟩).1.items = l ∧
      (addCs cs ⟨.elevation, v⟩).2 = .ok ⟨l ++ [⟨.elevation, v⟩], false⟩ := by
  have herase : (l ++ [⟨.elevation, 0⟩] : List C).eraseP (fun c => decide (c.kind = .elevation)) = l := by
    rw [List.eraseP_append_right]
    · simp
    · intro a ha
      simp only [decide_eq_true_eq]
      intro h; exact he (List.mem_map.2 ⟨a, ha, h⟩)
  refine ⟨⟨l ++ [⟨.elevation, 0⟩], true⟩, by simp [mkCs, hn, he], ?_, ?_, ?_⟩
  · intro h
    have := congrArg Cs.defaultEl h
    simp [addCs] at this
  · simp only [addCs, and_self, if_true, herase]
  · simp only [addCs, and_self, if_true, herase]
    have h2 : (((l ++ [⟨.elevation, v⟩] : List C).map C.kind)).Nodup := by
      rw [List.map_append, List.nodup_append]
      refine ⟨hn, by simp, ?_⟩
      intro a ha b hb
      simp only [List.map_cons, List.map_nil, List.mem_singleton] at hb
      rintro rfl
      subst hb
      exact he ha
    have h3 : mkCs (l ++ [⟨.elevation, v⟩]) = .ok ⟨l ++ [⟨.elevation, v⟩], false⟩ := by
      unfold mkCs
      rw [if_neg (not_not.2 h2), if_pos (by simp)]
    rw [h3]

/-- **C18**, partial: adding a constraint of any other class, or to a set whose elevation constraint was given by the user, leaves the left operand unchanged. -/
theorem add_pure_partial (cs : Cs) (o : C) (h : o.kind ≠ .elevation ∨ cs.defaultEl = false) : (addCs cs o).1 = cs := by
  unfold addCs
  rcases h with h | h
  · simp [h]
  · simp [h]

/-- Sets of constraints obtained by construction and additions. -/
inductive Built : Cs → Prop
  | mk {l cs} : mkCs l = .ok cs → Built cs
  | add {cs o r} : Built cs → (addCs cs o).2 = .ok r → Built r

/-- Every set of constraints holds at most one constraint of each class, and exactly one on elevation; for any history of additions. -/
theorem built_one_of_each {cs : Cs} (h : Built cs) :
    (cs.items.map C.kind).Nodup ∧ Kind.elevation ∈ cs.items.map C.kind := by
  have key : ∀ {l cs}, mkCs l = .ok cs → (cs.items.map C.kind).Nodup ∧ Kind.elevation ∈ cs.items.map C.kind := by
    intro l cs h
    unfold mkCs at h
    split at h
    · cases h
    · rename_i hn
      rw [not_not] at hn
      split at h
      · rename_i he
        obtain rfl := Except.ok.inj h
        exact ⟨hn, he⟩
      · rename_i he
        obtain rfl := Except.ok.inj h
        refine ⟨?_, by simp⟩
        simp only [List.map_append, List.map_cons, List.map_nil]
        rw [List.nodup_append]
        refine ⟨hn, by simp, ?_⟩
        intro a ha b hb
        rw [List.mem_singleton] at hb
        rintro rfl
        exact he (hb ▸ ha)
  cases h with
  | mk h => exact key h
  | add _ h =>
    simp only [addCs] at h
    split at h
    · cases h
    · rename_i h2
      obtain rfl := Except.ok.inj h
      have := key h2
      exact this

end Verif.Cnst
