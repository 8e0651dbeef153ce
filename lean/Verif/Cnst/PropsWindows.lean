import Verif.Cnst.Windows
import Verif.Cnst.Props
import Verif.Sched.LemmasGA
import Verif.Sched.Demo

/-!
# C106: extending observations keeps their constraints
-/

namespace Verif.Cnst

open Verif.Scheduler (extWindow mem_extWindow)

/-! ## Specification -/

/-- What a constraint asks of slot `x` of an observation which fills the slots from `a` to `a + m`, excluded: a crossing must be in one of these slots, anything else holds
at `x`. -/
def Met (E : Env) (T : Ephem) (sun : Nat → ℚ) (a m : Nat) (c : Cn) (x : Nat) : Prop :=
  match c with
  | .transit => ∃ k, a ≤ k ∧ k < a + m ∧ T.hourAngle (k + 1) < T.hourAngle k
  | .azimuth az => ∃ k, a ≤ k ∧ k < a + m ∧ if T.circumpolar then azHitCircum az T.azimuth k = true else T.azimuth k ≤ az ∧ az ≤ T.azimuth (k + 1)
  | .lst l => ∃ k, a ≤ k ∧ k < a + m ∧ lstHit l T.lst k = true
  | c => Satisfied E T sun c x

/-- Same positions from time `a` to time `a + m`, included. -/
structure SameSky (a m : Nat) (T T' : Ephem) : Prop where
  elev : ∀ i, i ≤ m → T.elev (a + i) = T'.elev (a + i)
  ha : ∀ i, i ≤ m → T.hourAngle (a + i) = T'.hourAngle (a + i)
  az : ∀ i, i ≤ m → T.azimuth (a + i) = T'.azimuth (a + i)
  lst : ∀ i, i ≤ m → T.lst (a + i) = T'.lst (a + i)
  circ : T.circumpolar = T'.circumpolar
  sep : ∀ i, i < m → T.sunSep (a + i) = T'.sunSep (a + i)
  name : T.byName = T'.byName

/-- Same dates and hours of the `m` slots from slot `a` on, and same positions until the end of the last of them. -/
structure SameSlots (a m : Nat) (E E' : Env) : Prop where
  time : ∀ i, i < m → E.time (a + i) = E'.time (a + i)
  utc : ∀ i, i < m → E.utcHour (a + i) = E'.utcHour (a + i)
  loc : ∀ i, i < m → E.localHour (a + i) = E'.localHour (a + i)
  tgt : (E.target = none ∧ E'.target = none) ∨ ∃ T T', E.target = some T ∧ E'.target = some T' ∧ SameSky a m T T'

/-- The score of each window, a window whose evaluation fails being left out. -/
def scoreOf (E : Env) (cs : List (ℚ × Cn)) (sun : Nat → ℚ) (w : List Nat) : Option ℚ := (windowScore E cs (fun i => some (sun i)) w).toOption.join

/-! ## The windows -/

theorem range'_filterMap (size : Nat) (c : Int) : ∀ (n k : Nat),
    (List.range' k n).filterMap (fun (j : Nat) => if 0 ≤ (j : Int) + c ∧ (j : Int) + c < size then some ((j : Int) + c).toNat else none) =
      List.range' ((k : Int) + c).toNat (min size ((k : Int) + n + c).toNat - ((k : Int) + c).toNat) := by
  intro n
  induction n with
  | zero =>
    intro k
    have : min size ((k : Int) + (0 : Nat) + c).toNat - ((k : Int) + c).toNat = 0 := by
      have : min size ((k : Int) + (0 : Nat) + c).toNat ≤ ((k : Int) + (0 : Nat) + c).toNat := min_le_right _ _
      omega
    rw [this]
    rfl
  | succ n ih =>
    intro k
    rw [List.range'_succ, List.filterMap_cons, ih (k + 1)]
    by_cases h : 0 ≤ (k : Int) + c ∧ (k : Int) + c < size
    · rw [if_pos h]
      have e : min size ((k : Int) + ((n + 1 : Nat) : Int) + c).toNat - ((k : Int) + c).toNat =
          (min size (((k + 1 : Nat) : Int) + n + c).toNat - (((k + 1 : Nat) : Int) + c).toNat) + 1 := by
        have : ((k : Int) + ((n + 1 : Nat) : Int) + c).toNat = (((k + 1 : Nat) : Int) + n + c).toNat := by congr 1; push_cast; ring
        rw [this]
        omega
      have e2 : ((k : Int) + c).toNat + 1 = (((k + 1 : Nat) : Int) + c).toNat := by omega
      rw [e, List.range'_succ, e2]
    · rw [if_neg h]
      dsimp only
      have e0 : ((k : Int) + ((n + 1 : Nat) : Int) + c).toNat = (((k + 1 : Nat) : Int) + n + c).toNat := by congr 1; push_cast; ring
      rw [e0]
      rcases lt_or_ge ((k : Int) + c) 0 with h0 | h0
      · have e1 : ((k : Int) + c).toNat = 0 := by omega
        have e2 : (((k + 1 : Nat) : Int) + c).toNat = 0 := by omega
        rw [e1, e2]
      · have e1 : min size (((k + 1 : Nat) : Int) + n + c).toNat - ((k : Int) + c).toNat = 0 := by omega
        have e2 : min size (((k + 1 : Nat) : Int) + n + c).toNat - (((k + 1 : Nat) : Int) + c).toNat = 0 := by omega
        rw [e1, e2]
        rfl

/-- The slots of a window: `w` of them around the middle of the block, cut at the ends of the schedule. -/
theorem window_slots (size s0 n0 w : Nat) :
    extWindow size s0 n0 w = List.range' (s0 + n0 / 2 - w / 2) (min size (s0 + n0 / 2 + w - w / 2) - (s0 + n0 / 2 - w / 2)) := by
  have := range'_filterMap size ((s0 : Int) + ((n0 / 2 : Nat) : Int) - ((w / 2 : Nat) : Int)) w 0
  have e : (((0 : Nat) : Int) + ((s0 : Int) + ((n0 / 2 : Nat) : Int) - ((w / 2 : Nat) : Int))).toNat = s0 + n0 / 2 - w / 2 := by omega
  have e3 : (((0 : Nat) : Int) + w + ((s0 : Int) + ((n0 / 2 : Nat) : Int) - ((w / 2 : Nat) : Int))).toNat = s0 + n0 / 2 + w - w / 2 := by omega
  rw [e, e3, ← List.range_eq_range'] at this
  rw [← this]
  unfold extWindow
  congr 1
  funext k
  dsimp only
  have e2 : (k : Int) + ((s0 : Int) + ((n0 / 2 : Nat) : Int) - ((w / 2 : Nat) : Int)) = (k : Int) - ((w / 2 : Nat) : Int) + s0 + ((n0 / 2 : Nat) : Int) := by ring
  rw [e2]

/-! ## Blindness to the last slot -/

theorem nanmax_congr {f g : Nat → Option ℚ} : ∀ {n : Nat}, (∀ i, i < n → f i = g i) → nanmax f n = nanmax g n
  | 0, _ => rfl
  | n + 1, h => by rw [nanmax, nanmax, nanmax_congr fun i hi => h i (by omega), h n (by omega)]

theorem nanmin_congr {f g : Nat → Option ℚ} : ∀ {n : Nat}, (∀ i, i < n → f i = g i) → nanmin f n = nanmin g n
  | 0, _ => rfl
  | n + 1, h => by rw [nanmin, nanmin, nanmin_congr fun i hi => h i (by omega), h n (by omega)]

theorem crossScore_congr {n k : Nat} {f g : Nat → Bool} (h : ∀ i, i < n → f i = g i) {i : Nat} (hi : i < n) : crossScore n k f i = crossScore n k g i := by
  have : ((List.range n).any fun j => f j && (List.range k).any fun d => decide (i + k / 2 = j + d)) =
      (List.range n).any fun j => g j && (List.range k).any fun d => decide (i + k / 2 = j + d) := by
    rw [Bool.eq_iff_iff]
    simp only [List.any_eq_true, List.mem_range]
    constructor
    · rintro ⟨j, hj, hh⟩; exact ⟨j, hj, by rwa [← h j hj]⟩
    · rintro ⟨j, hj, hh⟩; exact ⟨j, hj, by rwa [h j hj]⟩
  unfold crossScore
  rw [h i hi, this]

theorem elevScore_congr {m : ℚ} {s : Bool} {n : Nat} {f g : Nat → ℚ} (h : ∀ i, i ≤ n → f i = g i) {i : Nat} (hi : i < n) : elevScore m s n f i = elevScore m s n g i := by
  have key : ∀ i, i < n → elevMean m f i = elevMean m g i := fun i hi => by unfold elevMean; rw [h i (by omega), h (i + 1) (by omega)]
  unfold elevScore
  rw [nanmax_congr key, key i hi]

theorem sunScore_congr {cl sc : Bool} {a b : Option ℚ} {n : Nat} {f g : Nat → ℚ} (h : ∀ i, i < n → f i = g i) {i : Nat} (hi : i < n) :
    sunScore cl sc a b n f i = sunScore cl sc a b n g i := by
  have key : ∀ i, i < n → sunMask a b f i = sunMask a b g i := fun i hi => by unfold sunMask; rw [h i hi]
  unfold sunScore sunRaw
  rw [nanmax_congr key, key i hi]
  refine congrArg _ ?_
  funext mx
  rw [nanmax_congr fun i hi => by rw [key i hi]]

/-- Two rows agree on the first `m` slots. -/
def RowEq (m : Nat) (r r' : Option (Nat → Option ℚ)) : Prop := ∀ i, i < m → r.map (fun f => f i) = r'.map fun f => f i

theorem windowOne_blind {E E' : Env} {a m : Nat} (h : SameSlots a m E E') {s s' : Nat → Option ℚ} (hs : ∀ i, i < m → s i = s' i) (c : Cn) :
    (∀ i, i < m → (windowOne (windowEnv E a m) s c).1 i = (windowOne (windowEnv E' a m) s' c).1 i) ∧
    ((∃ e, (windowOne (windowEnv E a m) s c).2 = .error e ∧ (windowOne (windowEnv E' a m) s' c).2 = .error e) ∨
      ∃ r r', (windowOne (windowEnv E a m) s c).2 = .ok r ∧ (windowOne (windowEnv E' a m) s' c).2 = .ok r' ∧ RowEq m r r') := by
  have tg : ∀ F : Ephem → Nat → Option ℚ, (∀ T T', SameSky a m T T' → ∀ i, i < m → F (shiftEphem a T) i = F (shiftEphem a T') i) →
      RowEq m ((windowEnv E a m).target.map F) ((windowEnv E' a m).target.map F) := by
    intro F hF i hi
    rcases h.tgt with ⟨h1, h2⟩ | ⟨T, T', h1, h2, h3⟩
    · simp only [windowEnv, h1, h2, Option.map_none]
    · simp only [windowEnv, h1, h2, Option.map_some]
      rw [hF T T' h3 i hi]
  cases c with
  | elevation mn sc =>
    exact ⟨hs, Or.inr ⟨_, _, rfl, rfl, tg _ fun T T' hT i hi => elevScore_congr hT.elev hi⟩⟩
  | transit =>
    refine ⟨hs, Or.inr ⟨_, _, rfl, rfl, tg _ fun T T' hT i hi => congrArg some (crossScore_congr (fun k hk => ?_) hi)⟩⟩
    unfold transitHit
    show decide (T.hourAngle (a + (k + 1)) - T.hourAngle (a + k) < 0) = decide (T'.hourAngle (a + (k + 1)) - T'.hourAngle (a + k) < 0)
    have hk' : k < m := hk
    rw [hT.ha k (by omega), hT.ha (k + 1) hk]
  | azimuth az =>
    refine ⟨hs, Or.inr ⟨_, _, rfl, rfl, tg _ fun T T' hT i hi => congrArg some (crossScore_congr (fun k hk => ?_) hi)⟩⟩
    show (if T.circumpolar = true then azHitCircum az (fun i => T.azimuth (a + i)) else azHit az fun i => T.azimuth (a + i)) k =
      (if T'.circumpolar = true then azHitCircum az (fun i => T'.azimuth (a + i)) else azHit az fun i => T'.azimuth (a + i)) k
    rw [hT.circ]
    by_cases hc : T'.circumpolar = true
    · rw [if_pos hc, if_pos hc]
      unfold azHitCircum
      have hk' : k < m := hk
      dsimp only
      simp only [hT.az k (by omega), hT.az (k + 1) hk]
    · rw [if_neg hc, if_neg hc]
      unfold azHit
      have hk' : k < m := hk
      dsimp only
      simp only [hT.az k (by omega), hT.az (k + 1) hk]
  | lst l =>
    refine ⟨hs, Or.inr ⟨_, _, rfl, rfl, tg _ fun T T' hT i hi => congrArg some (crossScore_congr (fun k hk => ?_) hi)⟩⟩
    show lstHit l (fun i => T.lst (a + i)) k = lstHit l (fun i => T'.lst (a + i)) k
    unfold lstHit
    have hk' : k < m := hk
    dsimp only
    simp only [hT.lst k (by omega), hT.lst (k + 1) hk]
  | localTime x y =>
    refine ⟨hs, Or.inr ⟨_, _, rfl, rfl, fun i hi => ?_⟩⟩
    show some (maskScore (hourMask x y (E.localHour (a + i)))) = some (maskScore (hourMask x y (E'.localHour (a + i))))
    rw [h.loc i hi]
  | utcHour x y =>
    refine ⟨hs, Or.inr ⟨_, _, rfl, rfl, fun i hi => ?_⟩⟩
    show some (maskScore (hourMask x y (E.utcHour (a + i)))) = some (maskScore (hourMask x y (E'.utcHour (a + i))))
    rw [h.utc i hi]
  | timeRange rs =>
    refine ⟨hs, Or.inr ⟨_, _, rfl, rfl, fun i hi => ?_⟩⟩
    show some (maskScore (timeRangeMask rs (E.time (a + i)))) = some (maskScore (timeRangeMask rs (E'.time (a + i))))
    rw [h.time i hi]
  | periodic x y z =>
    refine ⟨hs, Or.inr ⟨_, _, rfl, rfl, fun i hi => ?_⟩⟩
    show some (maskScore (periodicMask x y z (E.time (a + i)))) = some (maskScore (periodicMask x y z (E'.time (a + i))))
    rw [h.time i hi]
  | night mx sc =>
    have key : ∀ i, i < m → nightMask mx (s i) = nightMask mx (s' i) := fun i hi => by rw [hs i hi]
    have hm : nanmin (fun i => nightMask mx (s i)) m = nanmin (fun i => nightMask mx (s' i)) m := nanmin_congr key
    have e1 : ∀ (F : Env) (t : Nat → Option ℚ), (windowOne (windowEnv F a m) t (.night mx sc)).1 = fun i => nightMask mx (t i) := by
      intro F t
      show (match nightEval mx sc m t with
        | (sun', .ok f) => ((sun', .ok (some f)) : (Nat → Option ℚ) × Except Err (Option (Nat → Option ℚ)))
        | (sun', .error e) => (sun', .error e)).1 = _
      unfold nightEval
      cases nanmin (fun i => nightMask mx (t i)) m with
      | none => by_cases h2 : m = 2 <;> simp [h2]
      | some v => rfl
    have e2 : ∀ (F : Env) (t : Nat → Option ℚ), (windowOne (windowEnv F a m) t (.night mx sc)).2 =
        (match nanmin (fun i => nightMask mx (t i)) m with
        | none => if m = 2 then .ok (some fun _ => none) else .error .valueError
        | some v => .ok (some fun i => nightSlot sc v (nightMask mx (t i)))) := by
      intro F t
      show (match nightEval mx sc m t with
        | (sun', .ok f) => ((sun', .ok (some f)) : (Nat → Option ℚ) × Except Err (Option (Nat → Option ℚ)))
        | (sun', .error e) => (sun', .error e)).2 = _
      unfold nightEval
      cases nanmin (fun i => nightMask mx (t i)) m with
      | none => by_cases h2 : m = 2 <;> simp [h2]
      | some v => rfl
    refine ⟨fun i hi => by rw [e1, e1]; exact key i hi, ?_⟩
    rw [e2, e2, hm]
    cases nanmin (fun i => nightMask mx (s' i)) m with
    | none =>
      by_cases h2 : m = 2
      · exact Or.inr ⟨some fun _ => none, some fun _ => none, by simp [h2], by simp [h2], fun i _ => rfl⟩
      · exact Or.inl ⟨.valueError, by simp [h2], by simp [h2]⟩
    | some v => exact Or.inr ⟨_, _, rfl, rfl, fun i hi => by simp only [Option.map_some]; rw [key i hi]⟩
  | solar cl sc x y =>
    refine ⟨hs, ?_⟩
    have e : ∀ (F : Env) (t : Nat → Option ℚ), (windowOne (windowEnv F a m) t (.solar cl sc x y)).2 =
      (F.target.map (shiftEphem a)).elim (.ok none) fun T => T.separation.map fun f => some (sunScore cl sc x y m f) := fun _ _ => rfl
    rw [e, e]
    rcases h.tgt with ⟨h1, h2⟩ | ⟨T, T', h1, h2, h3⟩
    · rw [h1, h2]
      exact Or.inr ⟨none, none, rfl, rfl, fun _ _ => rfl⟩
    · rw [h1, h2]
      have e2 : ∀ S : Ephem, ((some S).map (shiftEphem a)).elim (.ok none) (fun T => T.separation.map fun f => some (sunScore cl sc x y m f)) =
        (if S.byName then Except.error Err.attributeError else Except.ok fun i => S.sunSep (a + i)).map fun f => some (sunScore cl sc x y m f) := fun _ => rfl
      rw [e2, e2, ← h3.name]
      by_cases hb : T.byName = true
      · rw [if_pos hb, if_pos hb]
        exact Or.inl ⟨_, rfl, rfl⟩
      · rw [if_neg hb, if_neg hb]
        exact Or.inr ⟨_, _, rfl, rfl, fun i hi => congrArg some (sunScore_congr h3.sep hi)⟩

theorem windowRows_blind {E E' : Env} {a m : Nat} (h : SameSlots a m E E') : ∀ (cs : List (ℚ × Cn)) (s s' : Nat → Option ℚ), (∀ i, i < m → s i = s' i) →
    (∃ e, windowRows (windowEnv E a m) cs s = .error e ∧ windowRows (windowEnv E' a m) cs s' = .error e) ∨
    ∃ r r', windowRows (windowEnv E a m) cs s = .ok r ∧ windowRows (windowEnv E' a m) cs s' = .ok r' ∧ ∀ i, i < m → slotRows r i = slotRows r' i := by
  intro cs
  induction cs with
  | nil => intro s s' _; exact Or.inr ⟨[], [], rfl, rfl, fun _ _ => rfl⟩
  | cons p cs ih =>
    intro s s' hs
    have hw := windowOne_blind h hs p.2
    have eq : ∀ (F : Env) (t : Nat → Option ℚ), windowRows F (p :: cs) t =
      (windowOne F t p.2).2.bind fun row => (windowRows F cs (windowOne F t p.2).1).map fun rows => (p.1, row) :: rows := fun _ _ => rfl
    rw [eq, eq]
    rcases hw.2 with ⟨e, h1, h2⟩ | ⟨r, r', h1, h2, h3⟩
    · rw [h1, h2]; exact Or.inl ⟨e, rfl, rfl⟩
    · rw [h1, h2]
      rcases ih _ _ hw.1 with ⟨e, h4, h5⟩ | ⟨q, q', h4, h5, h6⟩
      · exact Or.inl ⟨e, by show (windowRows _ cs _).map _ = _; rw [h4]; rfl, by show (windowRows _ cs _).map _ = _; rw [h5]; rfl⟩
      · refine Or.inr ⟨(p.1, r) :: q, (p.1, r') :: q', by show (windowRows _ cs _).map _ = _; rw [h4]; rfl, by show (windowRows _ cs _).map _ = _; rw [h5]; rfl, ?_⟩
        intro i hi
        show (p.1, r.map fun f => f i) :: slotRows q i = (p.1, r'.map fun f => f i) :: slotRows q' i
        rw [h3 i hi, h6 i hi]

/-- **C106, what is looked at.** The scores of `m` slots depend on the dates of these slots only, and on the positions until the end of the last one. -/
theorem window_blind {E E' : Env} {a m : Nat} (h : SameSlots a m E E') (cs : List (ℚ × Cn)) {s s' : Nat → Option ℚ} (hs : ∀ i, i < m → s (a + i) = s' (a + i)) :
    windowScores E cs s a m = windowScores E' cs s' a m := by
  unfold windowScores
  rcases windowRows_blind h cs (fun i => s (a + i)) (fun i => s' (a + i)) hs with ⟨e, h1, h2⟩ | ⟨r, r', h1, h2, h3⟩
  · rw [h1, h2]
  · rw [h1, h2]
    refine congrArg Except.ok (List.map_congr_left fun i hi => ?_)
    rw [h3 i (List.mem_range.1 hi)]

/-! ## The slots which are looked at -/

theorem windowRows_eval {E : Env} {T : Ephem} (hT : E.target = some T) : ∀ (cs : List (ℚ × Cn)) (s : Nat → Option ℚ), windowRows E cs s = (evalRows E cs s).2 := by
  have one : ∀ (s : Nat → Option ℚ) (c : Cn), windowOne E s c = evalOne E s c := by
    intro s c
    cases c <;> try rfl
    simp only [windowOne, evalOne, hT, Option.elim_some]
  intro cs
  induction cs with
  | nil => intro s; rfl
  | cons p cs ih =>
    intro s
    obtain ⟨w, c⟩ := p
    show (windowOne E s c).2.bind (fun row => (windowRows E cs (windowOne E s c).1).map fun rows => (w, row) :: rows) = _
    rw [one, evalRows]
    rcases he : evalOne E s c with ⟨s1, r⟩
    cases r with
    | error e => rfl
    | ok row =>
      show (windowRows E cs s1).map _ = _
      rw [ih s1]
      rcases hr : evalRows E cs s1 with ⟨s2, q⟩
      simp only [hr]
      cases q <;> rfl

/-- For a block with a target, the scores of a window are those of `evaluate` for the slots of the window. -/
theorem window_evaluate {E : Env} {T : Ephem} (hT : E.target = some T) (cs : List (ℚ × Cn)) (s : Nat → Option ℚ) (a m : Nat) :
    windowScores E cs s a m = (evaluate (windowEnv E a m) cs fun i => s (a + i)).2.map fun f => (List.range m).map f := by
  have ht : (windowEnv E a m).target = some (shiftEphem a T) := by simp [windowEnv, hT]
  unfold windowScores
  rw [windowRows_eval ht]
  unfold evaluate
  rcases evalRows (windowEnv E a m) cs (fun i => s (a + i)) with ⟨s1, r⟩
  cases r <;> rfl

theorem met_of_satisfied {E : Env} {T : Ephem} {sun : Nat → ℚ} {a m k : Nat} {c : Cn}
    (h : Satisfied (windowEnv E a m) (shiftEphem a T) (fun i => sun (a + i)) c k) : Met E T sun a m c (a + k) := by
  cases c with
  | transit =>
    obtain ⟨j, hj, h1, _⟩ := h
    exact ⟨a + j, by omega, by have : j < m := hj; omega, h1⟩
  | azimuth az =>
    obtain ⟨j, hj, h1, _⟩ := h
    refine ⟨a + j, by omega, by have : j < m := hj; omega, ?_⟩
    replace h1 : if T.circumpolar = true then azHitCircum az (fun i => T.azimuth (a + i)) j = true else T.azimuth (a + j) ≤ az ∧ az ≤ T.azimuth (a + (j + 1)) := h1
    by_cases hc : T.circumpolar = true
    · rw [if_pos hc] at h1 ⊢; exact h1
    · rw [if_neg hc] at h1 ⊢; exact h1
  | lst l =>
    obtain ⟨j, hj, h1, _⟩ := h
    exact ⟨a + j, by omega, by have : j < m := hj; omega, h1⟩
  | _ => exact h

theorem treat_cases {l : List ℚ} {v : ℚ} (h : treat l = some v) : (v = 0 ∧ (0 : ℚ) ∈ l) ∨ ((0 : ℚ) ∉ l ∧ l ≠ [] ∧ v = l.sum / l.length) := by
  unfold treat at h
  by_cases h0 : (0 : ℚ) ∈ l
  · rw [if_pos h0] at h; exact Or.inl ⟨(Option.some.inj h).symm, h0⟩
  · rw [if_neg h0] at h
    unfold npDiv at h
    by_cases hl : (l.length : ℚ) = 0
    · rw [if_pos hl] at h; cases h
    · rw [if_neg hl] at h
      exact Or.inr ⟨h0, fun hn => hl (by simp [hn]), (Option.some.inj h).symm⟩

theorem sum_bounds {l : List ℚ} (h : ∀ x ∈ l, 0 ≤ x ∧ x ≤ 1) : 0 ≤ l.sum ∧ l.sum ≤ l.length := by
  induction l with
  | nil => simp
  | cons a l ih =>
    obtain ⟨h1, h2⟩ := ih fun x hx => h x (List.mem_cons_of_mem _ hx)
    have := h a (List.mem_cons_self ..)
    rw [List.sum_cons, List.length_cons]
    push_cast
    constructor <;> linarith

theorem scoreOf_spec {E : Env} {T : Ephem} {sun : Nat → ℚ} {cs : List (ℚ × Cn)} (hT : E.target = some T) (hsep : ∀ k, 0 < T.sunSep k) (hs : ∀ p ∈ cs, Sound p)
    (hne : cs ≠ []) {w : List Nat} {v : ℚ} (h : scoreOf E cs sun w = some v) :
    0 ≤ v ∧ v ≤ 1 ∧ (v ≠ 0 → ∀ k, k + 1 < w.length → ∀ p ∈ cs, Met E T sun (w.headD 0) (w.length - 1) p.2 (w.headD 0 + k)) := by
  unfold scoreOf windowScore at h
  rw [window_evaluate hT] at h
  rcases he : evaluate (windowEnv E (w.headD 0) (w.length - 1)) cs (fun i => some (sun (w.headD 0 + i))) with ⟨s1, r⟩
  rw [he] at h
  cases r with
  | error e => cases h
  | ok f =>
    replace h : treat ((List.range (w.length - 1)).map f) = some v := h
    have ht : (windowEnv E (w.headD 0) (w.length - 1)).target = some (shiftEphem (w.headD 0) T) := by simp [windowEnv, hT]
    have hall : ∀ i, i < w.length - 1 → 0 ≤ f i ∧ f i ≤ 1 ∧ (f i = 0 ↔ ∃ p ∈ cs,
        ¬ Satisfied (windowEnv E (w.headD 0) (w.length - 1)) (shiftEphem (w.headD 0) T) (fun i => sun (w.headD 0 + i)) p.2 i) := fun i hi =>
      slot_score_range_and_veto ht (by show 0 < w.length - 1; omega) (fun k => hsep _) hs hne he i hi
    rcases treat_cases h with ⟨rfl, _⟩ | ⟨h0, hn, rfl⟩
    · exact ⟨le_refl _, by norm_num, fun h => absurd rfl h⟩
    · have hb := sum_bounds (l := (List.range (w.length - 1)).map f) (fun x hx => by
        obtain ⟨i, hi, rfl⟩ := List.mem_map.1 hx
        have := hall i (List.mem_range.1 hi)
        exact ⟨this.1, this.2.1⟩)
      have hp : (0 : ℚ) < ((List.range (w.length - 1)).map f).length := by exact_mod_cast List.length_pos_iff.2 hn
      refine ⟨div_nonneg hb.1 hp.le, (div_le_one hp).2 hb.2, fun _ k hk p hpc => met_of_satisfied ?_⟩
      by_contra hc
      exact h0 (List.mem_map.2 ⟨k, List.mem_range.2 (by omega), (hall k (by omega)).2.2.2 ⟨p, hpc, hc⟩⟩)

/-- **C106, partial.** For every schedule and block, all sound constraints and thresholds, a window which is kept has a mean score between 0 and 1, higher than
the threshold times that of the smallest window, and every slot but the last one meets all the constraints (crossings being in the window). -/
theorem extension_slots_partial {E : Env} {T : Ephem} {sun : Nat → ℚ} {cs : List (ℚ × Cn)} (hT : E.target = some T) (hsep : ∀ k, 0 < T.sunSep k)
    (hs : ∀ p ∈ cs, Sound p) (hne : cs ≠ []) {thr : ℚ} (hthr : 0 ≤ thr) {size s0 n0 w : Nat} (h : keepSize (scoreOf E cs sun) thr size s0 n0 w = true) :
    ∃ f v, scoreOf E cs sun (extWindow size s0 n0 (n0 + 1)) = some f ∧ scoreOf E cs sun (extWindow size s0 n0 w) = some v ∧
      0 ≤ f ∧ f * thr < v ∧ v ≤ 1 ∧
      ∀ k, k + 1 < (extWindow size s0 n0 w).length → ∀ p ∈ cs,
        Met E T sun ((extWindow size s0 n0 w).headD 0) ((extWindow size s0 n0 w).length - 1) p.2 ((extWindow size s0 n0 w).headD 0 + k) := by
  unfold keepSize better at h
  obtain ⟨f, hf, h⟩ := (Option.any_eq_true _ _).1 h
  obtain ⟨v, hv, h⟩ := (Option.any_eq_true _ _).1 h
  have h := of_decide_eq_true h
  have h1 := scoreOf_spec hT hsep hs hne hf
  have h2 := scoreOf_spec hT hsep hs hne hv
  have h3 := mul_nonneg h1.1 hthr
  exact ⟨f, v, hf, hv, h1.1, h, h2.2.1, h2.2.2 (by intro h0; rw [h0] at h; linarith)⟩

/-! ## What is wrong -/

/-- **C106 violated.** For any block of an even number of slots with a non-null mean score, and any threshold below 1, the extension by the slot which follows is
kept, though nothing of this slot is looked at (`window_blind`): it may not meet any of the constraints. -/
theorem last_slot_violated {E : Env} {cs : List (ℚ × Cn)} {sun : Nat → ℚ} {thr f : ℚ} (hthr : thr < 1) {size s0 n0 : Nat} (he : n0 % 2 = 0) (hsz : s0 + n0 < size)
    (hf : (windowScores E cs (fun i => some (sun i)) s0 n0).toOption.bind treat = some f) (h0 : 0 < f) :
    extWindow size s0 n0 (n0 + 1) = List.range' s0 (n0 + 1) ∧ keepSize (scoreOf E cs sun) thr size s0 n0 (n0 + 1) = true := by
  have hw : extWindow size s0 n0 (n0 + 1) = List.range' s0 (n0 + 1) := by
    rw [window_slots]
    congr 1 <;> omega
  refine ⟨hw, ?_⟩
  have hsc : scoreOf E cs sun (extWindow size s0 n0 (n0 + 1)) = some f := by
    unfold scoreOf windowScore
    rw [hw]
    have e1 : (List.range' s0 (n0 + 1)).headD 0 = s0 := rfl
    have e2 : (List.range' s0 (n0 + 1)).length - 1 = n0 := by simp
    rw [e1, e2, ← hf]
    cases windowScores E cs (fun i => some (sun i)) s0 n0 <;> rfl
  unfold keepSize better
  rw [hsc]
  exact decide_eq_true (by nlinarith)

/-- **C106 violated, by default.** With a threshold of 1, the extension by one slot is never kept, whatever the scores. -/
theorem one_slot_violated {E : Env} {T : Ephem} {sun : Nat → ℚ} {cs : List (ℚ × Cn)} (hT : E.target = some T) (hsep : ∀ k, 0 < T.sunSep k)
    (hs : ∀ p ∈ cs, Sound p) (hne : cs ≠ []) {thr : ℚ} (hthr : 1 ≤ thr) (size s0 n0 : Nat) : keepSize (scoreOf E cs sun) thr size s0 n0 (n0 + 1) = false := by
  by_contra h
  obtain ⟨f, v, h1, h2, h3, h4, _⟩ := extension_slots_partial hT hsep hs hne (le_trans zero_le_one hthr) (Bool.eq_true_of_not_eq_false h)
  rw [h1] at h2
  have := Option.some.inj h2
  nlinarith

/-- **C106 violated, by default.** With a threshold of 1, an observation of which the smallest extension is perfect is never extended. -/
theorem perfect_violated {E : Env} {T : Ephem} {sun : Nat → ℚ} {cs : List (ℚ × Cn)} (hT : E.target = some T) (hsep : ∀ k, 0 < T.sunSep k)
    (hs : ∀ p ∈ cs, Sound p) (hne : cs ≠ []) {thr : ℚ} (hthr : 1 ≤ thr) {size s0 n0 : Nat} (hp : scoreOf E cs sun (extWindow size s0 n0 (n0 + 1)) = some 1) (w : Nat) :
    keepSize (scoreOf E cs sun) thr size s0 n0 w = false := by
  by_contra h
  obtain ⟨f, v, h1, h2, h3, h4, h5, _⟩ := extension_slots_partial hT hsep hs hne (le_trans zero_le_one hthr) (Bool.eq_true_of_not_eq_false h)
  rw [h1] at hp
  have := Option.some.inj hp
  nlinarith

/-- **C106 violated.** The smallest window of a block with an odd number of slots starts one slot before it, so that what is evaluated holds this slot and not the last one of
the block: a block at the very beginning of what its constraints allow is never extended. -/
theorem odd_first_violated {E : Env} {T : Ephem} {sun : Nat → ℚ} {cs : List (ℚ × Cn)} (hT : E.target = some T) (hsep : ∀ k, 0 < T.sunSep k)
    (hs : ∀ p ∈ cs, Sound p) (hne : cs ≠ []) {thr : ℚ} (hthr : 0 ≤ thr) {size s0 n0 w : Nat} (ho : n0 % 2 = 1) (h1 : 0 < s0) (hsz : s0 + n0 ≤ size)
    (hwn : n0 < w) {a b : ℚ} {wt : ℚ} (hc : (wt, Cn.timeRange [(a, b)]) ∈ cs) (hbad : ∀ x, x < s0 → E.time x < a) :
    extWindow size s0 n0 (n0 + 1) = List.range' (s0 - 1) (n0 + 1) ∧ keepSize (scoreOf E cs sun) thr size s0 n0 w = false := by
  have hw : extWindow size s0 n0 (n0 + 1) = List.range' (s0 - 1) (n0 + 1) := by
    rw [window_slots]
    congr 1 <;> omega
  refine ⟨hw, ?_⟩
  by_contra h
  obtain ⟨f, v, _, _, _, _, _, h6⟩ := extension_slots_partial hT hsep hs hne hthr (Bool.eq_true_of_not_eq_false h)
  have hl : (extWindow size s0 n0 w).length = min size (s0 + n0 / 2 + w - w / 2) - (s0 + n0 / 2 - w / 2) := by rw [window_slots, List.length_range']
  have hhead : (extWindow size s0 n0 w).headD 0 = s0 + n0 / 2 - w / 2 := by
    rw [window_slots]
    obtain ⟨q, hq⟩ : ∃ q, min size (s0 + n0 / 2 + w - w / 2) - (s0 + n0 / 2 - w / 2) = q + 1 := ⟨_, (Nat.succ_pred (by omega)).symm⟩
    rw [hq]
    rfl
  obtain ⟨r, hr, h7, _⟩ := h6 0 (by rw [hl]; omega) _ hc
  rw [List.mem_singleton] at hr
  rw [hr] at h7
  have := hbad ((extWindow size s0 n0 w).headD 0) (by omega)
  exact absurd (lt_of_lt_of_le this h7) (lt_irrefl _)

/-! ## Witnesses -/

/-- A target always at 45 degrees of elevation, 90 degrees away from the Sun. -/
def highTarget : Ephem := ⟨fun _ => 45, fun _ => 0, fun _ => 180, fun _ => 0, true, fun _ => 90, false⟩

/-- Twelve slots at the times 0, 1, … -/
def twelve : Env := ⟨12, 2, fun i => i, fun _ => 0, fun _ => 0, some highTarget⟩

/-- The default constraint on the elevation and a range of dates which holds slots 4 and 5 only. -/
def fourFive : List (ℚ × Cn) := [(1, .elevation 0 true), (1, .timeRange [(4, 5)])]

/-- The schedule where the block of two slots with these constraints, that may last 3 slots, has been booked. -/
def booked45 : Scheduler.Sched := (Scheduler.demo 12).run [.insertObs [Scheduler.obsOn 2 none (some 3) [4, 5]], .book (Scheduler.plain [0])]

/-- The scores of the block are those of its constraints. -/
example : (evaluate twelve fourFive fun _ => some (-20)).2.toOption.map (fun f => (List.range 12).map f) =
    some ((List.range 12).map (Scheduler.obsOn 2 none (some 3) [4, 5]).cnst) := by decide +kernel

/-- **C106 violated on a schedule.** The block booked in slots 4 and 5, which are the only ones that its constraints allow, is extended to slot 6 with a threshold
of 9/10. -/
theorem extension_violated : Scheduler.Reachable booked45 ∧ booked45.starts = [some 4] ∧
    (extendWith booked45 none (9 / 10) fun _ => scoreOf twelve fourFive fun _ => -20).2 = none ∧
    (extendWith booked45 none (9 / 10) fun _ => scoreOf twelve fourFive fun _ => -20).1.blocks.map (fun b => (b.start, b.nSlots)) = [(some 4, 3)] ∧
    ¬ Met twelve highTarget (fun _ => -20) 4 3 (.timeRange [(4, 5)]) 6 := by
  refine ⟨Scheduler.reachable_demo 12 (by norm_num) _ ⟨Scheduler.legal_obsOn ?_, trivial, trivial⟩, by decide +kernel, by decide +kernel, by decide +kernel, ?_⟩
  · intro o ho
    exact ⟨2, none, some 3, [4, 5], by simpa using ho, by norm_num⟩
  · rintro ⟨r, hr, h1, h2⟩
    rw [List.mem_singleton] at hr
    subst hr
    replace h2 : ((6 : Nat) : ℚ) ≤ 5 := h2
    norm_num at h2

/-- The hypotheses of the theorems hold for this block. -/
example : twelve.target = some highTarget ∧ (∀ k, 0 < highTarget.sunSep k) ∧ (∀ p ∈ fourFive, Sound p) ∧ fourFive ≠ [] ∧
    keepSize (scoreOf twelve fourFive fun _ => -20) (9 / 10) 12 4 2 3 = true ∧ keepSize (scoreOf twelve fourFive fun _ => -20) (9 / 10) 12 4 2 4 = false := by
  refine ⟨rfl, fun k => by norm_num [highTarget], ?_, by simp [fourFive], by decide +kernel, by decide +kernel⟩
  intro p hp
  simp only [fourFive, List.mem_cons, List.not_mem_nil, or_false] at hp
  rcases hp with rfl | rfl
  · exact ⟨⟨by norm_num, by norm_num, by norm_num⟩, trivial⟩
  · exact ⟨⟨by norm_num, trivial⟩, trivial⟩

/-- With a longer range, windows of several sizes are kept, and none with the default threshold. -/
example : (List.range 8).map (fun w => keepSize (scoreOf twelve [(1, .elevation 0 true), (1, .timeRange [(2, 9)])] fun _ => -20) (9 / 10) 12 4 2 (w + 3)) =
    [true, true, true, true, true, false, false, false] ∧
    scoreOf twelve [(1, .elevation 0 true), (1, .timeRange [(2, 9)])] (fun _ => -20) (extWindow 12 4 2 3) = some 1 := by
  constructor <;> decide +kernel

/-- A block of one slot at the beginning of its range: hypotheses of `odd_first_violated`. -/
example : (1, Cn.timeRange [(4, 9)]) ∈ [(1, Cn.elevation 0 true), (1, .timeRange [(4, 9)])] ∧ ∀ x, x < 4 → twelve.time x < 4 := by
  refine ⟨by simp, fun x hx => ?_⟩
  show (x : ℚ) < 4
  exact_mod_cast hx

/-- Slot 6 is not looked at: the scores of the window 4, 5, 6 stay the same when its date changes. -/
example : SameSlots 4 2 twelve { twelve with time := fun i => if i = 6 then 100 else i } := by
  refine ⟨fun i hi => ?_, fun _ _ => rfl, fun _ _ => rfl, Or.inr ⟨_, _, rfl, rfl, ⟨fun _ _ => rfl, fun _ _ => rfl, fun _ _ => rfl, fun _ _ => rfl, rfl, fun _ _ => rfl, rfl⟩⟩⟩
  show ((4 + i : Nat) : ℚ) = if 4 + i = 6 then 100 else ((4 + i : Nat) : ℚ)
  rw [if_neg (by omega)]

end Verif.Cnst
