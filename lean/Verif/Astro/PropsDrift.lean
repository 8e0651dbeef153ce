import Verif.Astro.Drift
import Verif.Astro.PropsPointing

/-!
# C152: drift scans, zenith and target tracking
-/

namespace Verif.Astro

/-! ## Specification -/

/-- Duration of step number `i`: one second if none was given, a single one is for all the steps. -/
def stepDur (dur : Option (List ℚ)) (i : Nat) : ℚ := dur.elim 1 fun l => if l.length = 1 then l.headD 0 else l.getD i 0

/-- Step number `i` holds `t`. -/
def Held (times : List ℚ) (dur : Option (List ℚ)) (t : ℚ) (i : Nat) : Prop :=
  i < times.length ∧ times.getD i 0 ≤ t ∧ t < times.getD i 0 + stepDur dur i

/-- Step number `i` is the last one which holds `t`. -/
def HeldLast (times : List ℚ) (dur : Option (List ℚ)) (t : ℚ) (i : Nat) : Prop := Held times dur t i ∧ ∀ j, i < j → ¬ Held times dur t j

/-! ## Look-ups -/

theorem last_hit {D : Type} (p : Pointing D) (t : ℚ) :
    ((∀ i, ¬ p.Active t i) ∧ (p.hits t).getLast? = none) ∨
    ∃ i, p.Active t i ∧ (∀ j, i < j → ¬ p.Active t j) ∧ (p.hits t).getLast? = some i := by
  cases hq : (p.hits t).getLast? with
  | none =>
    left
    rw [List.getLast?_eq_none_iff] at hq
    refine ⟨fun i hi => ?_, rfl⟩
    have := mem_hits.mpr hi
    rw [hq] at this
    cases this
  | some i =>
    right
    obtain ⟨ys, hys⟩ := List.getLast?_eq_some_iff.mp hq
    refine ⟨i, mem_hits.mp (List.mem_of_getLast? hq), fun j hij hj => ?_, rfl⟩
    have hm := mem_hits.mpr hj
    have hs := hits_sorted p t
    rw [hys] at hs hm
    rcases List.mem_append.mp hm with hm | hm
    · have := (List.pairwise_append.mp hs).2.2 j hm i (List.mem_cons_self ..)
      omega
    · rw [List.mem_singleton.mp hm] at hij
      omega

theorem dur_eq {D : Type} {dirs : Dirs D} {time : List ℚ} {dur : Option (List ℚ)} {p : Pointing D} (h : mkPointing dirs time dur = .ok p) :
    p = ⟨dirs, time, dur.getD [1]⟩ := by
  unfold mkPointing at h
  by_cases hc : (dur.any fun d => decide (d.length ≠ 1) && decide (d.length ≠ time.length)) = true
  · rw [if_pos hc] at h
    cases h
  · rw [if_neg hc] at h
    cases h
    rfl

theorem active_held {D : Type} (dirs : Dirs D) (time : List ℚ) (dur : Option (List ℚ)) (t : ℚ) (i : Nat) :
    (⟨dirs, time, dur.getD [1]⟩ : Pointing D).Active t i ↔ Held time dur t i := by
  unfold Pointing.Active Held Pointing.durOf stepDur
  cases dur with
  | none => exact Iff.rfl
  | some l => exact Iff.rfl

/-- Durations are refused exactly if their number is neither one nor that of the times. -/
theorem pointing_refused {D : Type} (dirs : Dirs D) (time : List ℚ) (dur : Option (List ℚ)) :
    (∃ p, mkPointing dirs time dur = .ok p) ↔ ∀ l, dur = some l → l.length = 1 ∨ l.length = time.length := by
  unfold mkPointing
  cases dur with
  | none => exact ⟨(fun _ l hl => nomatch hl), fun _ => ⟨_, rfl⟩⟩
  | some l =>
    show (∃ p, (if (decide (l.length ≠ 1) && decide (l.length ≠ time.length)) = true then Except.error Err.indexError else
      Except.ok (⟨dirs, time, l⟩ : Pointing D)) = .ok p) ↔ _
    by_cases h1 : l.length = 1
    · rw [if_neg (by simp [h1])]
      exact ⟨fun _ m hm => by cases hm; exact Or.inl h1, fun _ => ⟨_, rfl⟩⟩
    · by_cases h2 : l.length = time.length
      · rw [if_neg (by simp [h2])]
        exact ⟨fun _ m hm => by cases hm; exact Or.inr h2, fun _ => ⟨_, rfl⟩⟩
      · rw [if_pos (by simp [h1, h2])]
        refine ⟨(fun ⟨p, hp⟩ => nomatch hp), fun h => ?_⟩
        rcases h l rfl with h | h
        · exact absurd h h1
        · exact absurd h h2

theorem shaped_list {E : Type} (pos : ℚ → E) (time : TimeArg) (d : List ℚ) :
    (⟨shaped pos time, time.list, d⟩ : Pointing E).dirList = time.list.map pos := by
  cases time <;> rfl

/-- What is found at a time, for coordinates of the shape of the times. -/
theorem look_shaped {E H : Type} (toSky : Nat → ℚ → H → E) (zen : H) (pos : ℚ → E) (time : TimeArg) (dur : Option (List ℚ)) (site : Nat)
    (custom : Option (List H)) (t : ℚ) :
    ((∀ i, ¬ Held time.list dur t i) →
      (⟨⟨shaped pos time, time.list, dur.getD [1]⟩, custom, site⟩ : SitePointing E H).look toSky zen t =
        .ok (toSky site t zen, custom.map fun _ => zen)) ∧
    (∀ i, HeldLast time.list dur t i →
      (⟨⟨shaped pos time, time.list, dur.getD [1]⟩, custom, site⟩ : SitePointing E H).look toSky zen t =
        custom.elim (.ok (pos (time.list.getD i 0), none)) fun c => (customAt c time.list.length i).map fun h => (pos (time.list.getD i 0), some h)) := by
  have hA := fun i => active_held (shaped pos time) time.list dur t i
  rcases last_hit (⟨shaped pos time, time.list, dur.getD [1]⟩ : Pointing E) t with ⟨h, e⟩ | ⟨i, h1, h2, e⟩
  · constructor
    · intro _
      unfold SitePointing.look
      rw [e]
      rfl
    · intro i hi
      exact absurd ((hA i).2 hi.1) (h i)
  · constructor
    · intro hn
      exact absurd ((hA i).1 h1) (hn i)
    · intro j hj
      have hij : i = j := by
        by_contra hne
        rcases Nat.lt_or_gt_of_ne hne with hlt | hlt
        · exact h2 j hlt ((hA j).2 hj.1)
        · exact hj.2 i hlt ((hA i).1 h1)
      subst hij
      unfold SitePointing.look
      rw [e]
      show lookIn _ i = _
      have hi : i < time.list.length := h1.1
      unfold lookIn
      dsimp only
      rw [shaped_list, if_neg (by rw [List.length_map]; exact fun h => h rfl), List.getElem?_map, List.getElem?_eq_getElem hi,
        List.getD_eq_getElem _ _ hi]
      rfl

theorem customAt_replicate {H : Type} (h : H) (n i : Nat) (hi : i < n) : customAt (List.replicate n h) n i = .ok h := by
  unfold customAt
  rw [List.length_replicate, if_pos rfl]
  by_cases h1 : n = 1
  · subst h1
    rfl
  · rw [if_neg h1, List.getElem?_replicate, if_pos hi]
    rfl

theorem held_last {times : List ℚ} {dur : Option (List ℚ)} {t : ℚ} (h : ∃ i, Held times dur t i) : ∃ i, HeldLast times dur t i := by
  have hA := fun i => active_held (D := Unit) (.one ()) times dur t i
  rcases last_hit (⟨.one (), times, dur.getD [1]⟩ : Pointing Unit) t with ⟨h', _⟩ | ⟨i, h1, h2, _⟩
  · obtain ⟨i, hi⟩ := h
    exact absurd ((hA i).2 hi) (h' i)
  · exact ⟨i, (hA i).1 h1, fun j hj hh => h2 j hj ((hA j).2 hh)⟩

theorem drift_eq {E H : Type} {toSky : Nat → ℚ → H → E} {h : H} {time : TimeArg} {dur : Option (List ℚ)} {site : Nat} {p : SitePointing E H}
    (hp : azelDrift toSky h time dur site = .ok p) :
    p = ⟨⟨shaped (fun t => toSky site t h) time, time.list, dur.getD [1]⟩, some (List.replicate time.list.length h), site⟩ := by
  unfold azelDrift at hp
  cases hm : mkPointing (shaped (fun t => toSky site t h) time) time.list dur with
  | error e => rw [hm] at hp; cases hp
  | ok q =>
    rw [hm] at hp
    cases hp
    rw [dur_eq hm]

theorem track_eq {E H : Type} {pos : ℚ → E} {time : TimeArg} {dur : Option (List ℚ)} {site : Nat} {p : SitePointing E H}
    (hp : targetTracking pos time dur site = .ok p) : p = ⟨⟨shaped pos time, time.list, dur.getD [1]⟩, none, site⟩ := by
  unfold targetTracking at hp
  cases hm : mkPointing (shaped pos time) time.list dur with
  | error e => rw [hm] at hp; cases hp
  | ok q =>
    rw [hm] at hp
    cases hp
    rw [dur_eq hm]

/-! ## Property -/

/-- **C152**: a drift scan is made, like the tracking of a target, exactly if there is one duration, one per time, or none. -/
theorem drift_made {E H : Type} (toSky : Nat → ℚ → H → E) (h : H) (pos : ℚ → E) (time : TimeArg) (dur : Option (List ℚ)) (site : Nat) :
    ((∃ p, azelDrift toSky h time dur site = .ok p) ↔ ∀ l, dur = some l → l.length = 1 ∨ l.length = time.list.length) ∧
    ((∃ p : SitePointing E H, targetTracking pos time dur site = .ok p) ↔ ∀ l, dur = some l → l.length = 1 ∨ l.length = time.list.length) := by
  constructor
  · rw [← pointing_refused (shaped (fun t => toSky site t h) time)]
    unfold azelDrift
    cases mkPointing (shaped (fun t => toSky site t h) time) time.list dur with
    | error e => exact ⟨(fun ⟨p, hp⟩ => nomatch hp), (fun ⟨p, hp⟩ => nomatch hp)⟩
    | ok q => exact ⟨fun _ => ⟨q, rfl⟩, fun _ => ⟨_, rfl⟩⟩
  · rw [← pointing_refused (shaped pos time)]
    unfold targetTracking
    cases mkPointing (shaped pos time) time.list dur with
    | error e => exact ⟨(fun ⟨p, hp⟩ => nomatch hp), (fun ⟨p, hp⟩ => nomatch hp)⟩
    | ok q => exact ⟨fun _ => ⟨q, rfl⟩, fun _ => ⟨_, rfl⟩⟩

/-- **C152**: during its steps a drift scan is seen at the horizontal direction which was asked; the rest of the time at the zenith. -/
theorem drift_ground {E H : Type} (toSky : Nat → ℚ → H → E) (toGround : Nat → ℚ → E → H) (zen h : H) (time : TimeArg) (dur : Option (List ℚ))
    (site : Nat) (p : SitePointing E H) (hp : azelDrift toSky h time dur site = .ok p) (t : ℚ) :
    ((∃ i, Held time.list dur t i) → p.seen toSky toGround zen t = .ok h) ∧
    ((∀ i, ¬ Held time.list dur t i) → p.seen toSky toGround zen t = .ok zen) := by
  rw [drift_eq hp]
  obtain ⟨a, b⟩ := look_shaped toSky zen (fun t => toSky site t h) time dur site (some (List.replicate time.list.length h)) t
  unfold SitePointing.seen
  constructor
  · intro hh
    obtain ⟨i, hi⟩ := held_last hh
    rw [b i hi]
    show Except.map _ (Except.map _ (customAt _ _ _)) = _
    rw [customAt_replicate h _ _ hi.1.1]
    rfl
  · intro hn
    rw [a hn]
    rfl

/-- **C152**: on the sky a drift scan is where its direction was at the beginning of the step, until the end of the step. -/
theorem drift_sky {E H : Type} (toSky : Nat → ℚ → H → E) (zen h : H) (time : TimeArg) (dur : Option (List ℚ)) (site : Nat)
    (p : SitePointing E H) (hp : azelDrift toSky h time dur site = .ok p) (t : ℚ) (i : Nat) (hi : HeldLast time.list dur t i) :
    p.look toSky zen t = .ok (toSky site (time.list.getD i 0) h, some h) := by
  rw [drift_eq hp, (look_shaped toSky zen (fun t => toSky site t h) time dur site (some (List.replicate time.list.length h)) t).2 i hi]
  show Except.map _ (customAt _ _ _) = _
  rw [customAt_replicate h _ _ hi.1.1]
  rfl

/-- **C152** (violated): as soon as the sky has moved since the beginning of the step, the direction on the sky which is found is not that of
the horizontal direction found with it. -/
theorem drift_sky_violated {E H : Type} (toSky : Nat → ℚ → H → E) (zen h : H) (time : TimeArg) (dur : Option (List ℚ)) (site : Nat)
    (p : SitePointing E H) (hp : azelDrift toSky h time dur site = .ok p) (t : ℚ) (i : Nat) (hi : HeldLast time.list dur t i)
    (hm : toSky site (time.list.getD i 0) h ≠ toSky site t h) :
    ∃ e, p.look toSky zen t = .ok (e, some h) ∧ e ≠ toSky site t h :=
  ⟨_, drift_sky toSky zen h time dur site p hp t i hi, hm⟩

/-- **C152**: the tracking of the zenith is at the zenith, at all times. -/
theorem zenith_always {E H : Type} (toSky : Nat → ℚ → H → E) (toGround : Nat → ℚ → E → H) (zen : H) (time : TimeArg) (dur : Option (List ℚ))
    (site : Nat) (p : SitePointing E H) (hp : zenithTracking toSky zen time dur site = .ok p) (t : ℚ) :
    p.seen toSky toGround zen t = .ok zen := by
  obtain ⟨a, b⟩ := drift_ground toSky toGround zen zen time dur site p hp t
  by_cases h : ∃ i, Held time.list dur t i
  · exact a h
  · exact b fun i hi => h ⟨i, hi⟩

/-- **C152**: the tracking of the zenith is, on the sky, at the zenith of the beginning of the step; it is made like other drift scans. -/
theorem zenith_sky {E H : Type} (toSky : Nat → ℚ → H → E) (zen : H) (time : TimeArg) (dur : Option (List ℚ)) (site : Nat) :
    ((∃ p, zenithTracking toSky zen time dur site = .ok p) ↔ ∀ l, dur = some l → l.length = 1 ∨ l.length = time.list.length) ∧
    ∀ p, zenithTracking toSky zen time dur site = .ok p →
      (∀ t i, HeldLast time.list dur t i → p.look toSky zen t = .ok (toSky site (time.list.getD i 0) zen, some zen)) ∧
      ∀ t, (∀ i, ¬ Held time.list dur t i) → p.look toSky zen t = .ok (toSky site t zen, some zen) := by
  refine ⟨(drift_made toSky zen (fun t => toSky site t zen) time dur site).1, fun p hp => ⟨fun t i hi => drift_sky toSky zen zen time dur site p hp t i hi,
    fun t hn => ?_⟩⟩
  rw [drift_eq hp]
  exact (look_shaped toSky zen (fun t => toSky site t zen) time dur site (some (List.replicate time.list.length zen)) t).1 hn

/-- **C152**: with a single time and a single duration, given as a scalar or as an array of one, there is one step. -/
theorem drift_single {E H : Type} (toSky : Nat → ℚ → H → E) (toGround : Nat → ℚ → E → H) (zen h : H) (t₀ d : ℚ) (time : TimeArg)
    (ht : time = .one t₀ ∨ time = .many [t₀]) (site : Nat) :
    ∃ p, azelDrift toSky h time (some [d]) site = .ok p ∧
      ∀ t, p.seen toSky toGround zen t = .ok (if t₀ ≤ t ∧ t < t₀ + d then h else zen) := by
  have hl : time.list = [t₀] := by rcases ht with rfl | rfl <;> rfl
  obtain ⟨p, hp⟩ := (drift_made toSky h (fun t => toSky site t h) time (some [d]) site).1.2 (fun l hl => by cases hl; exact Or.inl rfl)
  refine ⟨p, hp, fun t => ?_⟩
  obtain ⟨a, b⟩ := drift_ground toSky toGround zen h time (some [d]) site p hp t
  rw [hl] at a b
  by_cases hc : t₀ ≤ t ∧ t < t₀ + d
  · rw [if_pos hc]
    exact a ⟨0, Nat.one_pos, hc.1, hc.2⟩
  · rw [if_neg hc]
    refine b fun i hi => hc ?_
    obtain ⟨h1, h2, h3⟩ := hi
    have : i = 0 := by simpa using h1
    subst this
    exact ⟨h2, h3⟩

/-- **C152**: during a step a target is followed on the sky from where it was at the beginning of the step, and seen from NenuFAR. -/
theorem track_exact {E H : Type} (toSky : Nat → ℚ → H → E) (toGround : Nat → ℚ → E → H) (zen : H) (pos : ℚ → E) (time : TimeArg)
    (dur : Option (List ℚ)) (site : Nat) (p : SitePointing E H) (hp : targetTracking pos time dur site = .ok p) (t : ℚ) (i : Nat)
    (hi : HeldLast time.list dur t i) :
    p.look toSky zen t = .ok (pos (time.list.getD i 0), none) ∧ p.seen toSky toGround zen t = .ok (toGround 0 t (pos (time.list.getD i 0))) := by
  have e : p.look toSky zen t = .ok (pos (time.list.getD i 0), none) := by
    rw [track_eq hp, (look_shaped toSky zen pos time dur site none t).2 i hi]
    rfl
  refine ⟨e, ?_⟩
  unfold SitePointing.seen
  rw [e]
  rfl

/-- **C152**: a target which does not move on the sky is seen from NenuFAR where it is, at each time of the steps. -/
theorem track_fixed {E H : Type} (toSky : Nat → ℚ → H → E) (toGround : Nat → ℚ → E → H) (zen : H) (e : E) (time : TimeArg)
    (dur : Option (List ℚ)) (site : Nat) (p : SitePointing E H) (hp : targetTracking (fun _ => e) time dur site = .ok p) (t : ℚ)
    (h : ∃ i, Held time.list dur t i) : p.seen toSky toGround zen t = .ok (toGround 0 t e) := by
  obtain ⟨i, hi⟩ := held_last h
  exact (track_exact toSky toGround zen (fun _ => e) time dur site p hp t i hi).2

/-- **C152**: out of the steps, a pointing on a target is at the zenith of its site. -/
theorem track_out {E H : Type} (toSky : Nat → ℚ → H → E) (zen : H) (pos : ℚ → E) (time : TimeArg) (dur : Option (List ℚ)) (site : Nat)
    (p : SitePointing E H) (hp : targetTracking pos time dur site = .ok p) (t : ℚ) (h : ∀ i, ¬ Held time.list dur t i) :
    p.look toSky zen t = .ok (toSky site t zen, none) := by
  rw [track_eq hp, (look_shaped toSky zen pos time dur site none t).1 h]
  rfl

/-- **C152** (violated): the site of a pointing is lost. Seen from another site, a target is found where NenuFAR sees it. -/
theorem track_site_violated {E H : Type} (toSky : Nat → ℚ → H → E) (toGround : Nat → ℚ → E → H) (zen : H) (e : E) (time : TimeArg)
    (dur : Option (List ℚ)) (site : Nat) (p : SitePointing E H) (hp : targetTracking (fun _ => e) time dur site = .ok p) (t : ℚ)
    (h : ∃ i, Held time.list dur t i) (hs : toGround 0 t e ≠ toGround site t e) :
    ∃ d, p.seen toSky toGround zen t = .ok d ∧ d ≠ toGround site t e :=
  ⟨_, track_fixed toSky toGround zen e time dur site p hp t h, hs⟩

theorem held_none {times : List ℚ} (hs : times.Pairwise (· < ·)) {k : Nat} (hk : k + 1 < times.length) {t : ℚ} (h1 : times.getD k 0 + 1 ≤ t)
    (h2 : t < times.getD (k + 1) 0) (i : Nat) : ¬ Held times none t i := by
  rintro ⟨a, b, c⟩
  change t < times.getD i 0 + 1 at c
  rcases Nat.lt_or_ge k i with hi | hi
  · rcases Nat.lt_or_ge (k + 1) i with hj | hj
    · have := sorted_getD hs hj a
      linarith
    · have : i = k + 1 := by omega
      subst this
      linarith
  · rcases Nat.lt_or_ge i k with hj | hj
    · have := sorted_getD hs hj (by omega)
      linarith
    · have : i = k := by omega
      subst this
      linarith

/-- **C152** (violated): without durations, each step should last until the next one. It lasts one second: then, until the next step, drift
scans and targets are replaced by the zenith. -/
theorem default_duration_violated {E H : Type} (toSky : Nat → ℚ → H → E) (toGround : Nat → ℚ → E → H) (zen h : H) (pos : ℚ → E)
    (times : List ℚ) (hs : times.Pairwise (· < ·)) (k : Nat) (hk : k + 1 < times.length) (t : ℚ) (h1 : times.getD k 0 + 1 ≤ t)
    (h2 : t < times.getD (k + 1) 0) (site : Nat) :
    (∃ p, azelDrift toSky h (.many times) none site = .ok p ∧ p.seen toSky toGround zen t = .ok zen) ∧
    ∃ p : SitePointing E H, targetTracking pos (.many times) none site = .ok p ∧ p.look toSky zen t = .ok (toSky site t zen, none) := by
  have hn := held_none hs hk h1 h2
  obtain ⟨p, hp⟩ := (drift_made toSky h pos (.many times) none site).1.2 (fun l hl => nomatch hl)
  obtain ⟨q, hq⟩ := (drift_made toSky h pos (.many times) none site).2.2 (fun l hl => nomatch hl)
  exact ⟨⟨p, hp, (drift_ground toSky toGround zen h (.many times) none site p hp t).2 hn⟩,
    ⟨q, hq, track_out toSky zen pos (.many times) none site q hq t hn⟩⟩

/-! ## The hypotheses can be met -/

/-- A sky which turns by one unit per second, seen from sites ten units apart. -/
def turning (site : Nat) (t h : ℚ) : ℚ := h + t + 10 * site

/-- The other way. -/
def settled (site : Nat) (t e : ℚ) : ℚ := e - t - 10 * site

example (site : Nat) (t h : ℚ) : settled site t (turning site t h) = h := by unfold settled turning; ring

example : HeldLast [0, 60] (some [60]) 30 0 := by
  refine ⟨⟨by decide, by decide +kernel, by decide +kernel⟩, fun j hj h => ?_⟩
  obtain ⟨a, b, _⟩ := h
  have : j = 1 := by simp at a; omega
  subst this
  exact absurd b (by decide +kernel)

example : turning 0 0 45 ≠ turning 0 30 45 ∧ settled 0 5 45 ≠ settled 2 5 45 := by decide +kernel

/-- Drift scan of two steps of a minute: same ground direction, sky direction of the beginning; zenith after the end; zenith after one second
without durations. -/
example : ((azelDrift turning 45 (.many [0, 60]) (some [60]) 0).bind fun p => p.seen turning settled 90 30).toOption = some 45 ∧
    ((azelDrift turning 45 (.many [0, 60]) (some [60]) 0).bind fun p => (p.look turning 90 70).map Prod.fst).toOption = some 105 ∧
    ((azelDrift turning 45 (.many [0, 60]) (some [60]) 0).bind fun p => p.seen turning settled 90 120).toOption = some 90 ∧
    ((azelDrift turning 45 (.many [0, 60]) none 0).bind fun p => p.seen turning settled 90 30).toOption = some 90 := by decide +kernel

end Verif.Astro
