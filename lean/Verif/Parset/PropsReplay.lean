import Verif.Parset.Replay
import Verif.Parset.PropsLoad

/-!
# Replays of parset files (property C102)
-/

namespace Verif.Parset

/-! ## The new start -/

/-- **C102**: the new start is on the day of the given time, at the time of day of the old one. -/
theorem start_same_hour (f t : Int) : newStart f t / 86400 = f / 86400 ∧ newStart f t % 86400 = t % 86400 := by
  unfold newStart daySec; omega

/-- **C102**: so a replay is refused exactly when the day of the given time is before the day of the old start. -/
theorem shift_exact (s : Sky) (f : Int) (p : PSet) (t : Int) (h : startOf s p = .ok t) :
    replayShift s f false p = if f / 86400 < t / 86400 then .error .valueError else .ok ((f / 86400 - t / 86400) * 86400) := by
  unfold replayShift
  rw [h]
  show (if newStart f t - t < 0 then Except.error Err.valueError else Except.ok (newStart f t - t)) = _
  have e : newStart f t - t = (f / 86400 - t / 86400) * 86400 := by unfold newStart daySec; omega
  rw [e]
  by_cases hlt : f / 86400 < t / 86400
  · rw [if_pos hlt, if_pos (by omega)]
  · rw [if_neg hlt, if_neg (by omega)]

/-- **C102** fails: "from" a time, but whenever the time of day asked for is later than that of the old start, the new start is in the past of the time asked for. -/
theorem replay_past_violated (f t : Int) (h : t % 86400 < f % 86400) : newStart f t < f := by unfold newStart daySec; omega

/-- Otherwise it is not before it. -/
theorem replay_start_partial (f t : Int) (h : f % 86400 ≤ t % 86400) : f ≤ newStart f t ∧ newStart f t < f + 86400 := by unfold newStart daySec; omega

example : newStart (20 * 86400 + 50000) (3 * 86400 + 40000) < 20 * 86400 + 50000 := replay_past_violated _ _ (by norm_num)

/-- **C102** fails: replays at the same sidereal time never succeed. -/
theorem same_lst_violated (s : Sky) (f : Int) (dur : Option ℚ) (p : PSet) : ∃ e, replay s f dur true p = .error e := by
  unfold replay replayShift
  cases startOf s p with
  | error e => exact ⟨e, rfl⟩
  | ok t => exact ⟨.typeError, rfl⟩

/-! ## The new properties -/

theorem lastGiven_dict {kw : List (Str × UVal)} (h : (kw.map Prod.fst).Nodup) (k : Str) : lastGiven kw k = dictGet kw k := by
  unfold lastGiven
  cases hg : dictGet kw k with
  | none =>
    rw [List.find?_eq_none.mpr]
    · rfl
    · intro p hp
      have hp := (dictGet_mem h p).mp (List.mem_reverse.mp hp)
      simp only [decide_eq_true_eq]
      rintro rfl
      rw [hg] at hp; cases hp
  | some v =>
    have hm : (k, v) ∈ kw.reverse := List.mem_reverse.mpr ((dictGet_mem h (k, v)).mpr hg)
    cases hf : List.find? (fun p => decide (p.1 = k)) kw.reverse with
    | none => have := List.find?_eq_none.mp hf _ hm; simp at this
    | some q =>
      have hq := (dictGet_mem h q).mp (List.mem_reverse.mp (List.mem_of_find?_eq_some hf))
      have hqk := List.find?_some hf
      simp only [decide_eq_true_eq] at hqk
      rw [hqk, hg] at hq
      exact hq.symm

theorem dictGet_filter (d : Props) (q : Str → Bool) (k : Str) : dictGet (d.filter fun p => q p.1) k = if q k = true then dictGet d k else none := by
  induction d with
  | nil => by_cases h : q k = true <;> simp [h, dictGet]
  | cons p d ih =>
    by_cases hp : q p.1 = true
    · rw [List.filter_cons_of_pos (p := fun p : Str × PVal => q p.1) hp, dictGet_cons, dictGet_cons, ih]
      by_cases e : p.1 = k
      · subst e; rw [if_pos rfl, if_pos rfl, if_pos hp]
      · rw [if_neg e, if_neg e]
    · rw [List.filter_cons_of_neg (p := fun p : Str × PVal => q p.1) hp, ih, dictGet_cons]
      by_cases e : p.1 = k
      · subst e; rw [if_neg hp, if_neg hp]
      · rw [if_neg e]

theorem dictGet_map (f : PVal → UVal) (d : Props) (k : Str) : dictGet (d.map fun p => (p.1, f p.2)) k = (dictGet d k).map f := by
  induction d with
  | nil => rfl
  | cons p d ih =>
    rw [List.map_cons, dictGet_cons, dictGet_cons, ih]
    by_cases e : p.1 = k
    · rw [if_pos e, if_pos e]; rfl
    · rw [if_neg e, if_neg e]

/-- The value of a key in the copied fields. -/
theorem copy_get (isot : Str → Str) (rows : List Row) (d : Props) (k : Str) :
    dictGet (copyFields isot rows d) k = if k ∈ rows.map Row.key then (dictGet d k).map (PVal.toU isot) else none := by
  unfold copyFields
  rw [dictGet_map, dictGet_filter d (fun k => decide (k ∈ rows.map Row.key))]
  by_cases h : k ∈ rows.map Row.key
  · rw [if_pos (by simpa using h), if_pos h]
  · rw [if_neg (by simpa using h), if_neg h]; rfl

theorem copy_nodup (isot : Str → Str) (rows : List Row) {d : Props} (h : (d.map Prod.fst).Nodup) : ((copyFields isot rows d).map Prod.fst).Nodup := by
  unfold copyFields
  rw [List.map_map]
  exact (List.Sublist.map Prod.fst List.filter_sublist).nodup h

theorem replaceIf_ok {d : Props} {k : Str} {f : PVal → Except Err UVal} {p p' : Params} (h : replaceIf d k f p = .ok p') (hn : (p.map Prod.fst).Nodup) :
    (p'.map Prod.fst).Nodup ∧ (∀ j, j ≠ k → dictGet p' j = dictGet p j) ∧ (∀ v, dictGet d k = some v → ∃ u, f v = .ok u ∧ dictGet p' k = some u) ∧
      (dictGet d k = none → p' = p) := by
  unfold replaceIf at h
  cases hg : dictGet d k with
  | none =>
    rw [hg] at h
    injection h with h
    subst h
    exact ⟨hn, fun j _ => rfl, fun v hv => (by cases hv), fun _ => rfl⟩
  | some v =>
    rw [hg] at h
    change (f v).map _ = _ at h
    cases hf : f v with
    | error e => rw [hf] at h; cases h
    | ok u =>
      rw [hf] at h
      injection h with h
      subst h
      refine ⟨dictSet_nodup hn k u, fun j hj => by rw [dictGet_set, if_neg hj], fun w hw => ?_, fun hx => by cases hx⟩
      injection hw with hw
      rw [← hw]
      exact ⟨u, hf, by rw [dictGet_set, if_pos rfl]⟩

/-- The target of a tracked beam: a body of the solar system named by the type of direction, or the direction given, which is expected when this type is missing (or is "J2000", which
no file gives). -/
def Target (s : Sky) (d : Props) (a : Aim) : Prop :=
  (∃ n, dictGet d "directionType".toList = some (.str n) ∧ n ∈ s.bodies ∧ a = .body n) ∨
    ((dictGet d "directionType".toList).getD (.str "J2000".toList) = .str "J2000".toList ∧ ∃ q, fixedOf s d = .ok q ∧ a = .fixed q.1 q.2)

theorem aimOf_ok {s : Sky} {d : Props} {p q : Params} {a : Aim} (ha : aimOf s d p = .ok (a, q)) (hn : (p.map Prod.fst).Nodup) :
    (q.map Prod.fst).Nodup ∧ (∀ j, j ≠ "ra".toList → j ≠ "dec".toList → dictGet q j = dictGet p j) ∧ Target s d a := by
  unfold aimOf at ha
  by_cases hj : (dictGet d "directionType".toList).getD (.str "J2000".toList) = .str "J2000".toList
  · rw [if_pos hj] at ha
    cases hf : fixedOf s d with
    | error e => rw [hf] at ha; cases ha
    | ok x =>
      rw [hf] at ha
      injection ha with ha
      injection ha with ha0 ha
      rw [← ha]
      exact ⟨dictSet_nodup (dictSet_nodup hn _ _) _ _, fun j h1 h2 => by rw [dictGet_set, if_neg h2, dictGet_set, if_neg h1], Or.inr ⟨hj, x, hf, ha0.symm⟩⟩
  · rw [if_neg hj] at ha
    cases hd : dictGet d "directionType".toList with
    | none => rw [hd] at ha; cases ha
    | some v =>
      rw [hd] at ha
      cases v with
      | str n =>
        change (if n ∈ s.bodies then _ else _) = _ at ha
        by_cases hb : n ∈ s.bodies
        · rw [if_pos hb] at ha
          injection ha with ha
          injection ha with ha0 ha
          rw [← ha]
          exact ⟨hn, fun j _ _ => rfl, Or.inl ⟨n, hd, hb, ha0.symm⟩⟩
        · rw [if_neg hb] at ha; cases ha
      | _ => cases ha

theorem trackParams_ok {s : Sky} {δ : Int} {d : Props} {p p' : Params} (h : trackParams s δ d p = .ok p') (hn : (p.map Prod.fst).Nodup) :
    (p'.map Prod.fst).Nodup ∧ (∀ j, j ≠ "ra".toList → j ≠ "dec".toList → j ≠ "transitDate".toList → dictGet p' j = dictGet p j) ∧
      ∃ a t, Target s d a ∧ dictGet d "startTime".toList = some (.time t) ∧ dictGet p' "transitDate".toList = some (.time (s.iso (transitOf s a (s.inst t + δ)))) := by
  unfold trackParams at h
  cases ha : aimOf s d p with
  | error e => rw [ha] at h; cases h
  | ok aq =>
    obtain ⟨a, q⟩ := aq
    rw [ha] at h
    change (dictGet d "startTime".toList).elim _ _ = _ at h
    obtain ⟨hq1, hq2, ht⟩ := aimOf_ok ha hn
    cases hd : dictGet d "startTime".toList with
    | none => rw [hd] at h; cases h
    | some v =>
      rw [hd] at h
      cases v with
      | time t =>
        injection h with h
        rw [← h]
        refine ⟨dictSet_nodup hq1 _ _, fun j h1 h2 h3 => ?_, a, t, ht, rfl, ?_⟩
        · rw [dictGet_set, if_neg h3, hq2 j h1 h2]
        · rw [dictGet_set, if_pos rfl]
      | _ => cases h

/-- **C102**: in a replay, the properties of a block with a direction: its start is moved by the shift; its duration is the one given (that of the file if none is); the filter times are
moved; a tracked source has its transit at the new start; and all but these, the right ascension and the declination are as in the file. -/
theorem beam_replayed {s : Sky} {δ : Int} {dur : Option ℚ} {rows : List Row} {d : Props} {p : Params} (hn : (d.map Prod.fst).Nodup)
    (hs : "startTime".toList ∈ rows.map Row.key) (h : beamParams s δ dur rows d = .ok p) :
    (p.map Prod.fst).Nodup ∧
    (∀ t, dictGet d "startTime".toList = some (.time t) → dictGet p "startTime".toList = some (.time (s.iso (s.inst t + δ)))) ∧
    (∀ q, dur = some q → dictGet p "duration".toList = some (.delta q)) ∧
    (∀ l, "filterTime".toList ∈ rows.map Row.key → dictGet d "filterTime".toList = some (.list l) → ∃ r, mapE (shiftItem s δ) l = .ok r ∧ dictGet p "filterTime".toList = some (.list r)) ∧
    (∀ v, dictGet d "trackingType".toList = some v → v = .str "tracking".toList ∧ ∃ a t, Target s d a ∧ dictGet d "startTime".toList = some (.time t) ∧
      dictGet p "transitDate".toList = some (.time (s.iso (transitOf s a (s.inst t + δ))))) ∧
    ∀ k ∈ rows.map Row.key, k ∉ ["startTime".toList, "filterTime".toList, "ra".toList, "dec".toList, "transitDate".toList] → (k = "duration".toList → dur = none) →
      dictGet p k = (dictGet d k).map (PVal.toU fun t => s.iso (s.inst t)) := by
  unfold beamParams at h
  simp only at h
  have hff : ∀ k ∈ rows.map Row.key, dictGet (d.filter fun p => decide (p.1 ∈ rows.map Row.key)) k = dictGet d k := by
    intro k hk
    rw [dictGet_filter d (fun k => decide (k ∈ rows.map Row.key)), if_pos (by simpa using hk)]
  generalize hf : (d.filter fun p => decide (p.1 ∈ rows.map Row.key)) = f at *
  have hc0 := copy_nodup (fun t => s.iso (s.inst t)) rows hn
  have hcg := copy_get (fun t => s.iso (s.inst t)) rows d
  generalize copyFields (fun t => s.iso (s.inst t)) rows d = p0 at *
  cases h1 : replaceIf f "startTime".toList (shiftTime s δ) p0 with
  | error e => rw [h1] at h; cases h
  | ok p1 =>
    rw [h1] at h
    obtain ⟨a1, a2, a3, -⟩ := replaceIf_ok h1 hc0
    have hp2 : ∃ p2, (dur.elim p1 fun q => dictSet p1 "duration".toList (.delta q)) = p2 ∧ (p2.map Prod.fst).Nodup ∧ (∀ j, (j = "duration".toList → dur = none) → dictGet p2 j = dictGet p1 j) ∧
        ∀ q, dur = some q → dictGet p2 "duration".toList = some (.delta q) := by
      cases dur with
      | none => exact ⟨p1, rfl, a1, fun _ _ => rfl, fun q hq => by cases hq⟩
      | some q =>
        refine ⟨_, rfl, dictSet_nodup a1 _ _, fun j hj => ?_, fun r hr => ?_⟩
        · show dictGet (dictSet p1 "duration".toList (.delta q)) j = _
          rw [dictGet_set, if_neg]
          intro e; cases hj e
        · injection hr with hr
          show dictGet (dictSet p1 "duration".toList (.delta q)) _ = _
          rw [dictGet_set, if_pos rfl, hr]
    obtain ⟨p2, e2, b1, b2, b3⟩ := hp2
    change (replaceIf f "filterTime".toList (shiftList s δ) (dur.elim p1 fun q => dictSet p1 "duration".toList (.delta q))).bind _ = _ at h
    rw [e2] at h
    cases h2 : replaceIf f "filterTime".toList (shiftList s δ) p2 with
    | error e => rw [h2] at h; cases h
    | ok p3 =>
      rw [h2] at h
      change (dictGet d "trackingType".toList).elim (Except.ok p3) (fun v => if v = .str "tracking".toList then trackParams s δ d p3 else .error .notImplemented) = _ at h
      obtain ⟨c1, c2, c3, -⟩ := replaceIf_ok h2 b1
      have hst : ∀ t, dictGet d "startTime".toList = some (.time t) → dictGet p3 "startTime".toList = some (.time (s.iso (s.inst t + δ))) := by
        intro t ht
        obtain ⟨u, hu, hg⟩ := a3 (.time t) (by rw [hff _ hs]; exact ht)
        have hu : UVal.time (s.iso (s.inst t + δ)) = u := by injection hu
        rw [c2 _ (by decide), b2 _ (fun e => absurd e (by decide)), hg, hu]
      have hfl : ∀ l, "filterTime".toList ∈ rows.map Row.key → dictGet d "filterTime".toList = some (.list l) → ∃ r, mapE (shiftItem s δ) l = .ok r ∧ dictGet p3 "filterTime".toList = some (.list r) := by
        intro l hr hl
        obtain ⟨u, hu, hg⟩ := c3 (.list l) (by rw [hff _ hr]; exact hl)
        change (mapE (shiftItem s δ) l).map UVal.list = .ok u at hu
        cases hm : mapE (shiftItem s δ) l with
        | error e => rw [hm] at hu; cases hu
        | ok r =>
          rw [hm] at hu
          have hu : UVal.list r = u := by injection hu
          exact ⟨r, rfl, by rw [hg, ← hu]⟩
      have hother : ∀ k ∈ rows.map Row.key, k ∉ ["startTime".toList, "filterTime".toList, "ra".toList, "dec".toList, "transitDate".toList] → (k = "duration".toList → dur = none) →
          dictGet p3 k = (dictGet d k).map (PVal.toU fun t => s.iso (s.inst t)) := by
        intro k hk hne hd
        rw [c2 _ (fun e => hne (by rw [e]; decide)), b2 k hd, a2 k (fun e => hne (by rw [e]; decide)), hcg, if_pos hk]
      have hdu : ∀ q, dur = some q → dictGet p3 "duration".toList = some (.delta q) := fun q hq => by rw [c2 _ (by decide), b3 q hq]
      cases ht : dictGet d "trackingType".toList with
      | none =>
        rw [ht] at h
        have h : p3 = p := by injection h
        subst h
        exact ⟨c1, hst, hdu, hfl, fun v hv => (by cases hv), hother⟩
      | some v =>
        rw [ht] at h
        change (if v = .str "tracking".toList then trackParams s δ d p3 else .error .notImplemented) = _ at h
        by_cases hv : v = .str "tracking".toList
        · rw [if_pos hv] at h
          obtain ⟨g1, g2, a, t, g3, g4, g5⟩ := trackParams_ok h c1
          refine ⟨g1, fun t ht => ?_, fun q hq => ?_, fun l hr hl => ?_, fun w hw => ?_, fun k hk hne hd => ?_⟩
          · rw [g2 _ (by decide) (by decide) (by decide)]; exact hst t ht
          · rw [g2 _ (by decide) (by decide) (by decide)]; exact hdu q hq
          · obtain ⟨r, hr1, hr2⟩ := hfl l hr hl
            exact ⟨r, hr1, by rw [g2 _ (by decide) (by decide) (by decide)]; exact hr2⟩
          · injection hw with hw
            exact ⟨by rw [← hw]; exact hv, a, t, g3, g4, g5⟩
          · rw [g2 _ (fun e => hne (by rw [e]; decide)) (fun e => hne (by rw [e]; decide)) (fun e => hne (by rw [e]; decide))]
            exact hother k hk hne hd
        · rw [if_neg hv] at h; cases h

/-! ## Whole replays -/

theorem mapE_inv {α β : Type} {f : α → Except Err β} : ∀ {l : List α} {r : List β}, mapE f l = .ok r → ∀ (i : Nat) (x : α), l[i]? = some x → ∃ y, f x = .ok y ∧ r[i]? = some y
  | [], r, _, i, x, hx => by simp at hx
  | a :: l, r, h, i, x, hx => by
    change (f a).bind _ = _ at h
    cases ha : f a with
    | error e => rw [ha] at h; cases h
    | ok b =>
      rw [ha] at h
      change (mapE f l).map _ = _ at h
      cases hl : mapE f l with
      | error e => rw [hl] at h; cases h
      | ok m =>
        rw [hl] at h
        have h : b :: m = r := by injection h
        subst h
        cases i with
        | zero => injection hx with hx; rw [← hx]; exact ⟨b, ha, rfl⟩
        | succ i => exact mapE_inv hl i x hx

/-- The steps of a replay that succeeds. -/
theorem replay_steps {s : Sky} {f : Int} {dur : Option ℚ} {sl : Bool} {p : PSet} {u : UFile} (h : replay s f dur sl p = .ok u) :
    ∃ δ as l, replayShift s f sl p = .ok δ ∧ newBlock s δ dur obsRows p.obs = .ok u.obs ∧ mapE (fun a : Nat × Props => newBlock s δ dur anaRows a.2) p.anas = .ok as ∧
      newBeams s δ dur p.digis (as.map fun a => (a, [], [])) = .ok l ∧ newCenters s δ dur p.pcs l = .ok u.anas ∧ newBlock s δ dur outRows p.out = .ok u.out := by
  unfold replay at h
  cases h1 : replayShift s f sl p with
  | error e => rw [h1] at h; cases h
  | ok δ =>
    rw [h1] at h
    change (newBlock s δ dur obsRows p.obs).bind _ = _ at h
    cases h2 : newBlock s δ dur obsRows p.obs with
    | error e => rw [h2] at h; cases h
    | ok o =>
      rw [h2] at h
      change (mapE (fun a : Nat × Props => newBlock s δ dur anaRows a.2) p.anas).bind _ = _ at h
      cases h3 : mapE (fun a : Nat × Props => newBlock s δ dur anaRows a.2) p.anas with
      | error e => rw [h3] at h; cases h
      | ok as =>
        rw [h3] at h
        change (newBeams s δ dur p.digis (as.map fun a => (a, [], []))).bind _ = _ at h
        cases h4 : newBeams s δ dur p.digis (as.map fun a => (a, [], [])) with
        | error e => rw [h4] at h; cases h
        | ok l =>
          rw [h4] at h
          change (newCenters s δ dur p.pcs l).bind _ = _ at h
          cases h5 : newCenters s δ dur p.pcs l with
          | error e => rw [h5] at h; cases h
          | ok m =>
            rw [h5] at h
            change (newBlock s δ dur outRows p.out).map _ = _ at h
            cases h6 : newBlock s δ dur outRows p.out with
            | error e => rw [h6] at h; cases h
            | ok t =>
              rw [h6] at h
              have h : (⟨o, t, m⟩ : UFile) = u := by injection h
              subst h
              exact ⟨δ, as, l, rfl, h2, h3, h4, h5, h6⟩

theorem newBeams_first {s : Sky} {δ : Int} {dur : Option ℚ} : ∀ {ds : List (Nat × Props)} {l l' : List (Block × List Block × List Block)}, newBeams s δ dur ds l = .ok l' →
    (l'.map Prod.fst = l.map Prod.fst) ∧ ∀ d ∈ ds, ∃ b, newBlock s δ dur beamRows d.2 = .ok b
  | [], l, l', h => by injection h with h; rw [h]; exact ⟨rfl, fun d hd => by cases hd⟩
  | d :: ds, l, l', h => by
    change (newBlock s δ dur beamRows d.2).bind _ = _ at h
    cases hb : newBlock s δ dur beamRows d.2 with
    | error e => rw [hb] at h; cases h
    | ok b =>
      rw [hb] at h
      change (noBeamOf d.2).bind _ = _ at h
      cases hn : noBeamOf d.2 with
      | error e => rw [hn] at h; cases h
      | ok n =>
        rw [hn] at h
        change (addBlock n b l).bind _ = _ at h
        cases ha : addBlock n b l with
        | error e => rw [ha] at h; cases h
        | ok m =>
          rw [ha] at h
          obtain ⟨h1, h2⟩ := newBeams_first (show newBeams s δ dur ds m = .ok l' from h)
          refine ⟨h1.trans ?_, fun e he => ?_⟩
          · unfold addBlock at ha
            by_cases e : l.length ≤ n
            · rw [if_pos e] at ha; cases ha
            · rw [if_neg e] at ha
              injection ha with ha
              rw [← ha]
              apply List.ext_getElem?
              intro i
              rw [List.getElem?_map, List.getElem?_modify, List.getElem?_map]
              cases l[i]? with
              | none => rfl
              | some a =>
                by_cases e : n = i
                · simp only [if_pos e, Option.map_eq_map, Option.map_some, propagate]
                · simp only [if_neg e, Option.map_eq_map, Option.map_some]
          · rcases List.mem_cons.mp he with he | he
            · rw [he]; exact ⟨b, hb⟩
            · exact h2 e he

theorem newCenters_first {s : Sky} {δ : Int} {dur : Option ℚ} : ∀ {ds : List (Nat × Props)} {l l' : List (Block × List Block × List Block)}, newCenters s δ dur ds l = .ok l' →
    (l'.map Prod.fst = l.map Prod.fst) ∧ ∀ d ∈ ds, ∃ b, newBlock s δ dur pcRows d.2 = .ok b
  | [], l, l', h => by injection h with h; rw [h]; exact ⟨rfl, fun d hd => by cases hd⟩
  | d :: ds, l, l', h => by
    change (newBlock s δ dur pcRows d.2).bind _ = _ at h
    cases hb : newBlock s δ dur pcRows d.2 with
    | error e => rw [hb] at h; cases h
    | ok b =>
      rw [hb] at h
      change (noBeamOf d.2).bind _ = _ at h
      cases hn : noBeamOf d.2 with
      | error e => rw [hn] at h; cases h
      | ok n =>
        rw [hn] at h
        change (addCenter n b l).bind _ = _ at h
        cases ha : addCenter n b l with
        | error e => rw [ha] at h; cases h
        | ok m =>
          rw [ha] at h
          obtain ⟨h1, h2⟩ := newCenters_first (show newCenters s δ dur ds m = .ok l' from h)
          refine ⟨h1.trans ?_, fun e he => ?_⟩
          · unfold addCenter at ha
            by_cases e : l.length ≤ n
            · rw [if_pos e] at ha; cases ha
            · rw [if_neg e] at ha
              injection ha with ha
              rw [← ha]
              apply List.ext_getElem?
              intro i
              rw [List.getElem?_map, List.getElem?_modify, List.getElem?_map]
              cases l[i]? with
              | none => rfl
              | some a =>
                by_cases e : n = i
                · simp only [if_pos e, Option.map_eq_map, Option.map_some, propagate]
                · simp only [if_neg e, Option.map_eq_map, Option.map_some]
          · rcases List.mem_cons.mp he with he | he
            · rw [he]; exact ⟨b, hb⟩
            · exact h2 e he

/-- **C102**: all analog beams of a replay start the same whole number of days later than in the file, from the day of the first one's start to the day asked for; the line of the
start is written so, and that of the duration if one is given. -/
theorem replay_analog_partial {s : Sky} {f : Int} {dur : Option ℚ} {p : PSet} {u : UFile} (h : replay s f dur false p = .ok u) {t0 : Int} (h0 : startOf s p = .ok t0)
    {i n : Nat} {a : Props} (hn : (a.map Prod.fst).Nodup) (hi : p.anas[i]? = some (n, a)) {t : Str} (ht : dictGet a "startTime".toList = some (.time t)) :
    (⟨.anabeam i, "startTime".toList, s.iso (s.inst t + (f / 86400 - t0 / 86400) * 86400) ++ ['Z']⟩ : Entry) ∈ u.entries ∧
      ∀ q, dur = some q → (⟨.anabeam i, "duration".toList, (UVal.delta q).stored⟩ : Entry) ∈ u.entries := by
  obtain ⟨δ, as, l, h1, -, h3, h4, h5, -⟩ := replay_steps h
  rw [shift_exact s f p t0 h0] at h1
  by_cases hlt : f / 86400 < t0 / 86400
  · rw [if_pos hlt] at h1; cases h1
  rw [if_neg hlt] at h1
  have h1 : (f / 86400 - t0 / 86400) * 86400 = δ := by injection h1
  obtain ⟨b, hb, hbi⟩ := mapE_inv h3 i (n, a) hi
  change newBlock s δ dur anaRows a = .ok b at hb
  have hfst : (u.anas.map Prod.fst)[i]? = some b := by
    rw [(newCenters_first h5).1, (newBeams_first h4).1, List.map_map]
    show (as.map id)[i]? = some b
    rw [List.map_id]; exact hbi
  unfold newBlock at hb
  cases hp : newParams s δ dur anaRows a with
  | error e => rw [hp] at hb; cases hb
  | ok q =>
    rw [hp] at hb
    have hb : modify (fresh anaRows) q = b := by injection hb
    unfold newParams at hp
    rw [if_pos (by decide)] at hp
    obtain ⟨g1, g2, g3, -⟩ := beam_replayed hn (by decide) hp
    have key : ∀ k v, k ∈ anaRows.map Row.key → dictGet q k = some v → (⟨.anabeam i, k, v.stored⟩ : Entry) ∈ u.entries := by
      intro k v hk hv
      obtain ⟨r, hr, rfl⟩ := List.mem_map.mp hk
      have hw : (r.key, v.stored) ∈ written b := by
        rw [← hb, written_exact _ _ (fresh_plain anaRows)]
        exact ⟨⟨r.key, r.value, false, r.required⟩, List.mem_map.mpr ⟨r, hr, rfl⟩, rfl, Or.inl ⟨v, by rw [lastGiven_dict g1]; exact hv, rfl⟩⟩
      unfold UFile.entries
      refine List.mem_append_left _ (List.mem_append_left _ (List.mem_append_left _ (List.mem_append_right _ ?_)))
      exact (numbered_mem _ _ _ _).mpr ⟨i, b, hfst, by rw [Nat.zero_add]; exact mem_blockEntries hw⟩
    refine ⟨?_, fun q hq => key _ _ (by decide) (g3 q hq)⟩
    rw [h1]
    exact key _ _ (by decide) (g2 t ht)

/-! ## What cannot be replayed -/

/-- A beam tracked along a direction said to be "J2000" in the file cannot be replayed. -/
theorem track_fails {s : Sky} {δ : Int} {dur : Option ℚ} {rows : List Row} {d : Props} (hn : (d.map Prod.fst).Nodup) (hs : "startTime".toList ∈ rows.map Row.key)
    (hr : "trackingType".toList ∈ rows.map Row.key) (ht : dictGet d "trackingType".toList = some (.str "tracking".toList)) {n : Str} (hd : dictGet d "directionType".toList = some (.str n))
    (hb : n ∉ s.bodies) (hj : n ≠ "J2000".toList) : ¬∃ b, newBlock s δ dur rows d = .ok b := by
  rintro ⟨b, h⟩
  unfold newBlock newParams at h
  rw [if_pos hr] at h
  cases hp : beamParams s δ dur rows d with
  | error e => rw [hp] at h; cases h
  | ok q =>
    obtain ⟨-, -, -, -, g, -⟩ := beam_replayed hn hs hp
    obtain ⟨-, a, t, hT, -⟩ := g _ ht
    rcases hT with ⟨m, hm, hmb, -⟩ | ⟨hx, -⟩
    · rw [hd] at hm
      have hm : n = m := by injection hm with hm; injection hm
      rw [← hm] at hmb
      exact hb hmb
    · rw [hd] at hx
      have hx : n = "J2000".toList := by injection hx
      exact hj hx

/-- **C102** fails: in a file the usual direction type is "J2000", which is read in lower case; it is not recognised as such, and a file with such a beam cannot be replayed. -/
theorem replay_j2000_violated (isTime : Str → Bool) (isFloat : IsFloat) (s : Sky) (hb : "j2000".toList ∉ s.bodies) (f : Int) (dur : Option ℚ) (sl : Bool) (p : PSet) (n : Nat) (a : Props)
    (ha : (n, a) ∈ p.anas) (hn : (a.map Prod.fst).Nodup) (ht : dictGet a "trackingType".toList = some (.str "tracking".toList)) (v : PVal)
    (hv : setItem isTime isFloat "directionType".toList "J2000".toList = .ok v) (hd : dictGet a "directionType".toList = some v) : ¬∃ u, replay s f dur sl p = .ok u := by
  have : v = .str "j2000".toList := by
    have e : setItem isTime isFloat "directionType".toList "J2000".toList = .ok (.str "j2000".toList) := rfl
    rw [e] at hv; injection hv with hv; exact hv.symm
  subst this
  rintro ⟨u, hu⟩
  obtain ⟨δ, as, l, -, -, h3, -⟩ := replay_steps hu
  obtain ⟨i, hi⟩ := List.mem_iff_getElem?.mp ha
  obtain ⟨b, hb', -⟩ := mapE_inv h3 i (n, a) hi
  exact track_fails hn (by decide) (by decide) ht hd hb (by decide) ⟨b, hb'⟩

/-- The same for numerical beams. -/
theorem replay_beam_violated (s : Sky) (hb : "j2000".toList ∉ s.bodies) (f : Int) (dur : Option ℚ) (sl : Bool) (p : PSet) (d : Nat × Props) (hd : d ∈ p.digis)
    (hn : (d.2.map Prod.fst).Nodup) (ht : dictGet d.2 "trackingType".toList = some (.str "tracking".toList)) (hj : dictGet d.2 "directionType".toList = some (.str "j2000".toList)) :
    ¬∃ u, replay s f dur sl p = .ok u := by
  rintro ⟨u, hu⟩
  obtain ⟨δ, as, l, -, -, -, h4, -⟩ := replay_steps hu
  exact track_fails hn (by decide) (by decide) ht hj hb (by decide) ((newBeams_first h4).2 d hd)

/-- **C102** fails: pointings at a fixed azimuth and elevation, and any other kind of tracking, are refused. -/
theorem replay_pointing_violated (s : Sky) (f : Int) (dur : Option ℚ) (sl : Bool) (p : PSet) (n : Nat) (a : Props) (ha : (n, a) ∈ p.anas) (hn : (a.map Prod.fst).Nodup) (v : PVal)
    (ht : dictGet a "trackingType".toList = some v) (hv : v ≠ .str "tracking".toList) : ¬∃ u, replay s f dur sl p = .ok u := by
  rintro ⟨u, hu⟩
  obtain ⟨δ, as, l, -, -, h3, -⟩ := replay_steps hu
  obtain ⟨i, hi⟩ := List.mem_iff_getElem?.mp ha
  obtain ⟨b, hb, -⟩ := mapE_inv h3 i (n, a) hi
  change newBlock s δ dur anaRows a = .ok b at hb
  unfold newBlock newParams at hb
  rw [if_pos (by decide)] at hb
  cases hp : beamParams s δ dur anaRows a with
  | error e => rw [hp] at hb; cases hb
  | ok q =>
    obtain ⟨-, -, -, -, g, -⟩ := beam_replayed hn (by decide) hp
    exact hv (g _ ht).1

/-- The transit is always the next one. -/
theorem transit_next (s : Sky) (a : Aim) (t : Int) : transitOf s a t = s.next a t := by
  unfold transitOf; simp

/-- Transits every 86164 seconds: the next one. -/
def nextEvery (τ t : Int) : Int := t + (τ - t) % 86164

/-- **C102** fails: the transit written is not the nearest. For a source that passed the meridian `k` seconds before the start, with `k` less than half a turn, it is one turn later. -/
theorem transit_nearest_violated (s : Sky) (a : Aim) (τ t : Int) (hs : s.next a = nextEvery τ) (k : Int) (hk : 0 < k) (hk2 : 2 * k < 86164) (ht : t = τ + k) :
    transitOf s a t = τ + 86164 ∧ |τ - t| < |transitOf s a t - t| := by
  have h : transitOf s a t = τ + 86164 := by
    rw [transit_next, hs]
    unfold nextEvery
    have : (τ - t) % 86164 = 86164 - k := by
      rw [ht, show τ - (τ + k) = (86164 - k) + 86164 * (-1) by ring, Int.add_mul_emod_self_left]
      exact Int.emod_eq_of_lt (by omega) (by omega)
    rw [this]; omega
  refine ⟨h, ?_⟩
  rw [h, abs_of_nonpos (by omega), abs_of_pos (by omega)]
  omega

/-- **C102**: without repetitions, "seti" and "codalema" are no longer receivers, and the others are. -/
theorem receivers_exact (isot : Str → Str) (l : List Item) (hn : l.Nodup) (hs : ∀ x ∈ l, ∃ r, x = .str r) : ∃ r, receiversOf isot (.list l) = .ok (.list r) ∧
    ∀ x, x ∈ r ↔ Item.str x ∈ l ∧ x ≠ "seti".toList ∧ x ≠ "codalema".toList := by
  refine ⟨_, rfl, fun x => ?_⟩
  rw [List.mem_map]
  have hm : ∀ y, y ∈ (l.erase (.str "seti".toList)).erase (.str "codalema".toList) ↔ y ≠ .str "codalema".toList ∧ y ≠ .str "seti".toList ∧ y ∈ l := fun y => by
    rw [List.Nodup.mem_erase_iff (hn.erase _), List.Nodup.mem_erase_iff hn]
  constructor
  · rintro ⟨y, hy, rfl⟩
    obtain ⟨h1, h2, h3⟩ := (hm y).mp hy
    obtain ⟨r, rfl⟩ := hs y h3
    exact ⟨h3, fun e => h2 (by rw [show r = "seti".toList from e]), fun e => h1 (by rw [show r = "codalema".toList from e])⟩
  · rintro ⟨h1, h2, h3⟩
    exact ⟨.str x, (hm _).mpr ⟨fun e => h3 (by injection e), fun e => h2 (by injection e), h1⟩, rfl⟩

/-- A sky and a file that can be replayed. -/
example : ∃ (s : Sky) (p : PSet) (u : UFile), "j2000".toList ∉ s.bodies ∧ startOf s p = .ok 40000 ∧ replay s 90000 (some 60) false p = .ok u ∧
    p.anas = [(0, [("anaIdx".toList, .int 0), ("trackingType".toList, .str "tracking".toList), ("directionType".toList, .str "sun".toList), ("startTime".toList, .time noon)])] := by
  let s : Sky := ⟨fun _ => 40000, fun _ => noon, fun _ _ => .error .keyError, fun _ _ => .error .keyError, ["sun".toList], fun _ t => t + 5⟩
  let p : PSet := ⟨[], [], [(0, [("anaIdx".toList, .int 0), ("trackingType".toList, .str "tracking".toList), ("directionType".toList, .str "sun".toList), ("startTime".toList, .time noon)])], [], []⟩
  have h : (replay s 90000 (some 60) false p).toBool = true := by decide +kernel
  cases hr : replay s 90000 (some 60) false p with
  | error e => rw [hr] at h; cases h
  | ok u => exact ⟨s, p, u, by decide, by decide +kernel, hr, rfl⟩

/-- **C102**: the filter times of a replayed block are those of the file, each moved by the shift. -/
theorem filter_times_replayed {s : Sky} {δ : Int} {dur : Option ℚ} {rows : List Row} {d : Props} {p : Params} (hn : (d.map Prod.fst).Nodup)
    (hs : "startTime".toList ∈ rows.map Row.key) (hf : "filterTime".toList ∈ rows.map Row.key) (h : beamParams s δ dur rows d = .ok p) (ts : List Str)
    (ht : dictGet d "filterTime".toList = some (.list (ts.map Item.time))) :
    dictGet p "filterTime".toList = some (.list (ts.map fun t => s.iso (s.inst t + δ))) := by
  obtain ⟨-, -, -, k, -⟩ := beam_replayed hn hs h
  obtain ⟨r, hr, e⟩ := k _ hf ht
  have : ∀ l : List Str, mapE (shiftItem s δ) (l.map Item.time) = .ok (l.map fun t => s.iso (s.inst t + δ)) := by
    intro l
    induction l with
    | nil => rfl
    | cons x xs ih =>
      rw [List.map_cons, mapE, ih]; rfl
  rw [this] at hr
  rw [e, ← Except.ok.inj hr]

/-- **C102**: a tracked direction given by two angles is written as right ascension and declination, in this order, between quotes. -/
theorem aim_written (s : Sky) (d : Props) (p : Params) (a b : PVal) (ra dec : Str)
    (hd : dictGet d "directionType".toList = none ∨ dictGet d "directionType".toList = some (.str "J2000".toList))
    (ha : dictGet d "angle1".toList = some a) (hb : dictGet d "angle2".toList = some b) (hq : s.degrees a b = .ok (ra, dec)) :
    ∃ q, aimOf s d p = .ok (.fixed ra dec, q) ∧ dictGet q "ra".toList = some (.text ('\'' :: ra ++ ['\''])) ∧
      dictGet q "dec".toList = some (.text ('\'' :: dec ++ ['\''])) := by
  have e : fixedOf s d = .ok (ra, dec) := by unfold fixedOf; rw [ha, hb]; exact hq
  have c : (dictGet d "directionType".toList).getD (.str "J2000".toList) = .str "J2000".toList := by
    rcases hd with hd | hd <;> rw [hd] <;> rfl
  refine ⟨dictSet (dictSet p "ra".toList (.text ('\'' :: ra ++ ['\'']))) "dec".toList (.text ('\'' :: dec ++ ['\''])), ?_, ?_, ?_⟩
  · unfold aimOf; rw [if_pos c, e]; rfl
  · rw [dictGet_set, if_neg (by decide), dictGet_set, if_pos rfl]
  · rw [dictGet_set, if_pos rfl]

end Verif.Parset
