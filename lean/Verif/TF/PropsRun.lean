import Verif.TF.Run
import Verif.TF.PropsShift
import Mathlib.Tactic.Linarith

/-!
# Running a pipeline (properties C78 and C79)
-/

namespace Verif.TF

/-! ## C78: what the display of the pipeline says -/

theorem update_kind (p : RunPars) (t : TaskSt) : (t.update p).kind = t.kind := by unfold TaskSt.update; split <;> rfl

theorem foldl_active (h : List RunPars) : ∀ (t : TaskSt),
    (h.foldl TaskSt.update t).active = true ↔ t.active = true ∨ ∃ p ∈ h, missing t.kind p = false := by
  induction h with
  | nil => intro t; simp
  | cons p h ih =>
    intro t
    rw [List.foldl_cons, ih, update_kind]
    cases hm : missing t.kind p with
    | true =>
      have e : t.update p = t := by unfold TaskSt.update; rw [if_pos hm]
      rw [e]
      constructor
      · rintro (h1 | ⟨q, hq, h2⟩)
        · exact Or.inl h1
        · exact Or.inr ⟨q, List.mem_cons_of_mem _ hq, h2⟩
      · rintro (h1 | ⟨q, hq, h2⟩)
        · exact Or.inl h1
        · rcases List.mem_cons.1 hq with rfl | hq
          · rw [hm] at h2; cases h2
          · exact Or.inr ⟨q, hq, h2⟩
    | false =>
      have e : (t.update p).active = true := by unfold TaskSt.update; rw [if_neg (by rw [hm]; exact Bool.false_ne_true)]
      exact ⟨fun _ => Or.inr ⟨p, List.mem_cons_self .., hm⟩, fun _ => Or.inl e⟩

/-- **C78**, what is shown: a task is displayed without parentheses exactly if all its parameters were set at some display or run so far. -/
theorem shown_exact (k : PTask) (h : List RunPars) : shownActive k h = true ↔ ∃ p ∈ h, missing k p = false := by
  unfold shownActive
  rw [foldl_active]
  show (false = true ∨ _) ↔ _
  simp [TaskSt.new]

/-- The tasks whose display can be wrong at the first update. -/
def Honest : PTask → Prop
  | .bandpass | .flatten | .dedisperse | .remove | .stokes => False
  | _ => True

/-- **C78**, partial: at the first display of a pipeline, the corrections of polarisation, of the parallactic angle and of the Faraday rotation,
the averages and the mitigations are displayed without parentheses exactly if they do something. -/
theorem shown_runs_partial (big : Bool) (k : PTask) (p : RunPars) (hk : Honest k) : shownActive k [p] = true ↔ idle big k p = false := by
  rw [shown_exact]
  have : (∃ q ∈ [p], missing k q = false) ↔ missing k p = false := by simp
  rw [this]
  cases k <;> first
    | exact absurd hk id
    | (unfold missing idle; exact Iff.rfl)
    | (unfold missing idle; simp; tauto)

/-- The other tasks: parameters for which the first display is right. -/
theorem shown_runs_others (big : Bool) (p : RunPars) :
    ((shownActive .bandpass [p] = true ↔ idle big .bandpass p = false) ↔ p.lna ≠ none) ∧
      ((shownActive .flatten [p] = true ↔ idle big .flatten p = false) ↔ p.smooth ≠ none) ∧
      ((shownActive .remove [p] = true ↔ idle big .remove p = false) ↔ p.removeCh ≠ some []) ∧
      ((shownActive .stokes [p] = true ↔ idle big .stokes p = false) ↔ p.stokes ≠ some []) ∧
      ((shownActive .dedisperse [p] = true ↔ idle big .dedisperse p = false) ↔
        (p.dm = none ∨ (p.ignoreVolume = none ∧ big = true) ∨ p.ignoreVolume = some true ∨ (p.ignoreVolume = some false ∧ big = false))) := by
  have one : ∀ k, (∃ q ∈ [p], missing k q = false) ↔ missing k p = false := fun k => by simp
  simp only [shown_exact, one]
  unfold missing idle
  refine ⟨?_, ?_, ?_, ?_, ?_⟩
  · cases h : p.lna <;> simp [h]
  · cases h : p.smooth <;> simp [h]
  · cases h : p.removeCh <;> simp [h]
  · cases h : p.stokes <;> simp [h]
  · cases h : p.dm with
    | none => simp [h]
    | some d =>
      cases h' : p.ignoreVolume with
      | none => cases big <;> simp [h, h']
      | some b => cases b <;> cases big <;> simp [h, h']

/-- **C78**, disagreement: with the default parameters the bandpass correction is displayed as inactive, whatever the data, but it is applied. -/
theorem bandpass_hidden_violated (big : Bool) (c : Nat) (dt df : ℚ) (n : Nat) :
    shownActive .bandpass (List.replicate n (RunPars.default c dt df)) = false ∧ idle big .bandpass (RunPars.default c dt df) = false := by
  refine ⟨?_, rfl⟩
  rw [Bool.eq_false_iff]
  intro h
  obtain ⟨p, hp, hm⟩ := (shown_exact _ _).1 h
  rw [List.eq_of_mem_replicate hp] at hm
  cases hm

/-- **C78**, disagreement: once a task was displayed or run with its parameters set, it is displayed as active for ever. After a reset, the
de-dispersion is displayed as active but does nothing. -/
theorem sticky_violated (c : Nat) (dt df dm : ℚ) (n : Nat) (big : Bool) :
    let p := RunPars.default c dt df
    shownActive .dedisperse ({ p with dm := some dm } :: List.replicate (n + 1) p) = true ∧ idle big .dedisperse p = true := by
  refine ⟨(shown_exact _ _).2 ⟨_, List.mem_cons_self .., rfl⟩, rfl⟩

/-- **C78**: a task that does nothing leaves the data and the axes as they are. -/
theorem idle_same (big : Frame → Bool) (p : RunPars) (k : PTask) (fr : Frame) (h : idle (big fr) k p = true) :
    runTask big p k fr = .ok fr := by
  unfold runTask
  rw [if_pos h]

/-! ## C79: axes and labels after a run -/

/-- The axes have the sizes of the data. -/
def Frame.Ok (fr : Frame) : Prop := fr.nt = fr.rows ∧ fr.nf = fr.cols

theorem bind_some {α β : Type} {x : Except Err α} {f : α → Except Err β} {r : β} (h : x.bind f = .ok r) : ∃ a, x = .ok a ∧ f a = .ok r := by
  cases x with
  | error e => cases h
  | ok a => exact ⟨a, rfl, h⟩

theorem map_same {α : Type} {x : Except Err α} {fr r : Frame} (h : x.map (fun _ => fr) = .ok r) : r = fr := by
  cases x with
  | error e => cases h
  | ok a => exact (Except.ok.inj h).symm

theorem bandpassShape_ok {p : RunPars} {fr r : Frame} (h : bandpassShape p fr = .ok r) :
    r = { fr with rest := [2, 2] } ∧ fr.rest.length = 2 := by
  unfold bandpassShape at h
  split_ifs at h
  exact ⟨(Except.ok.inj h).symm, by omega⟩

theorem removeShape_ok {p : RunPars} {fr r : Frame} (h : removeShape p fr = .ok r) : r = fr := by
  unfold removeShape at h
  split_ifs at h
  exact map_same h

theorem jonesShape_ok {p : RunPars} {fr r : Frame} (h : jonesShape p fr = .ok r) :
    r = { fr with rest := [2, 2] } ∧ fr.rows * fr.cols * size fr.rest = fr.rows * fr.cols * 4 := by
  unfold jonesShape at h
  split_ifs at h with h1 h2 h3
  · obtain ⟨a, -, h⟩ := bind_some h
    obtain ⟨b, -, h⟩ := bind_some h
    cases h
  · obtain ⟨a, -, h⟩ := bind_some h
    obtain ⟨b, -, h⟩ := bind_some h
    exact ⟨(Except.ok.inj h).symm, not_not.1 h3⟩

theorem faradayShape_ok {fr r : Frame} (h : faradayShape fr = .ok r) : r = fr ∧ fr.rest = [2, 2] := by
  unfold faradayShape at h
  split_ifs at h with h1
  push Not at h1
  exact ⟨(Except.ok.inj h).symm, h1.2⟩

theorem dedisperseShape_ok {fr r : Frame} (h : dedisperseShape fr = .ok r) : r = fr := by
  unfold dedisperseShape at h
  split_ifs at h
  exact (Except.ok.inj h).symm

theorem stokesShape_ok {names : List String} {fr r : Frame} (h : stokesShape names fr = .ok r) :
    r = { fr with rest := [names.length] } ∧ fr.rest = [2, 2] := by
  unfold stokesShape at h
  split_ifs at h with h1 h2
  exact ⟨(Except.ok.inj h).symm, not_not.1 h1⟩

theorem timeRebinShape_ok {p : RunPars} {fr r : Frame} {x : ℚ} (h : timeRebinShape p fr x = .ok r) :
    r = { fr with nt := (rebinSizes fr.nt p.dt x).2, rows := (rebinSizes fr.nt p.dt x).2, tBin := fr.tBin * rebinWidth fr.nt p.dt x } := by
  unfold timeRebinShape at h
  split_ifs at h
  exact (Except.ok.inj h).symm

theorem freqRebinShape_ok {p : RunPars} {fr r : Frame} {x : ℚ} (h : freqRebinShape p fr x = .ok r) :
    r = { fr with nf := (rebinSizes fr.nf p.df x).2, cols := (rebinSizes fr.nf p.df x).2, fBin := fr.fBin * rebinWidth fr.nf p.df x } := by
  unfold freqRebinShape at h
  split_ifs at h
  exact (Except.ok.inj h).symm

theorem runTask_ok {big : Frame → Bool} {p : RunPars} {k : PTask} {fr r : Frame} (ho : fr.Ok) (h : runTask big p k fr = .ok r) : r.Ok := by
  unfold runTask at h
  split at h
  · rw [← Except.ok.inj h]; exact ho
  · split at h
    · rw [(bandpassShape_ok h).1]; exact ho
    · rw [map_same h]; exact ho
    · rw [removeShape_ok h]; exact ho
    · rw [(jonesShape_ok h).1]; exact ho
    · rw [(jonesShape_ok h).1]; exact ho
    · rw [(faradayShape_ok h).1]; exact ho
    · rw [dedisperseShape_ok h]; exact ho
    · rw [timeRebinShape_ok h]; exact ⟨rfl, ho.2⟩
    · rw [freqRebinShape_ok h]; exact ⟨ho.1, rfl⟩
    · rw [(stokesShape_ok h).1]; exact ho
    · rw [← Except.ok.inj h]; exact ho
    · rw [← Except.ok.inj h]; exact ho

/-- **C79**: whatever the tasks, their order and the parameters, the axes given with the result of a run have the sizes of the data. -/
theorem run_axes (big : Frame → Bool) (p : RunPars) : ∀ (ks : List PTask) (fr r : Frame), fr.Ok → runAll big p ks fr = .ok r → r.Ok
  | [], fr, r, ho, h => by rw [← Except.ok.inj h]; exact ho
  | k :: ks, fr, r, ho, h => by
    obtain ⟨a, h1, h2⟩ := bind_some h
    exact run_axes big p ks a r (runTask_ok ho h1) h2

theorem runAll_append (big : Frame → Bool) (p : RunPars) : ∀ (ks ls : List PTask) (fr : Frame),
    runAll big p (ks ++ ls) fr = (runAll big p ks fr).bind (runAll big p ls)
  | [], _, _ => rfl
  | k :: ks, ls, fr => by
    show (runTask big p k fr).bind _ = ((runTask big p k fr).bind _).bind _
    cases runTask big p k fr with
    | error e => rfl
    | ok a => exact runAll_append big p ks ls a

/-- Tasks that keep the polarisations. -/
theorem runTask_rest {big : Frame → Bool} {p : RunPars} {k : PTask} {fr r : Frame} (h : runTask big p k fr = .ok r) (hs : k ≠ .stokes) :
    r.rest = fr.rest ∨ r.rest = [2, 2] := by
  unfold runTask at h
  split at h
  · rw [← Except.ok.inj h]; exact Or.inl rfl
  · split at h
    · rw [(bandpassShape_ok h).1]; exact Or.inr rfl
    · rw [map_same h]; exact Or.inl rfl
    · rw [removeShape_ok h]; exact Or.inl rfl
    · rw [(jonesShape_ok h).1]; exact Or.inr rfl
    · rw [(jonesShape_ok h).1]; exact Or.inr rfl
    · rw [(faradayShape_ok h).1]; exact Or.inl rfl
    · rw [dedisperseShape_ok h]; exact Or.inl rfl
    · rw [timeRebinShape_ok h]; exact Or.inl rfl
    · rw [freqRebinShape_ok h]; exact Or.inl rfl
    · exact absurd rfl hs
    · rw [← Except.ok.inj h]; exact Or.inl rfl
    · rw [← Except.ok.inj h]; exact Or.inl rfl

theorem run_matrices (big : Frame → Bool) (p : RunPars) : ∀ (ks : List PTask) (fr r : Frame), fr.rest = [2, 2] →
    PTask.stokes ∉ ks → runAll big p ks fr = .ok r → r.rest = [2, 2]
  | [], fr, r, ho, _, h => by rw [← Except.ok.inj h]; exact ho
  | k :: ks, fr, r, ho, hn, h => by
    obtain ⟨a, h1, h2⟩ := bind_some h
    refine run_matrices big p ks a r ?_ (fun hm => hn (List.mem_cons_of_mem _ hm)) h2
    rcases runTask_rest h1 (fun e => hn (e ▸ List.mem_cons_self ..)) with h3 | h3
    · rw [h3]; exact ho
    · exact h3

/-- The corrections by Jones matrices. -/
def IsJones (k : PTask) : Prop := k = .dreambeam ∨ k = .parallactic

theorem run_after_stokes (big : Frame → Bool) (p : RunPars) (n : Nat) : ∀ (ks : List PTask) (fr r : Frame), fr.rest = [n] →
    PTask.stokes ∉ ks → (∀ k ∈ ks, ¬ IsJones k) → runAll big p ks fr = .ok r → r.rest = [n]
  | [], fr, r, ho, _, _, h => by rw [← Except.ok.inj h]; exact ho
  | k :: ks, fr, r, ho, hn, hj, h => by
    obtain ⟨a, h1, h2⟩ := bind_some h
    refine run_after_stokes big p n ks a r ?_ (fun hm => hn (List.mem_cons_of_mem _ hm)) (fun x hx => hj x (List.mem_cons_of_mem _ hx)) h2
    have hk := hj k (List.mem_cons_self ..)
    have hs : k ≠ .stokes := fun e => hn (e ▸ List.mem_cons_self ..)
    unfold runTask at h1
    split at h1
    · rw [← Except.ok.inj h1]; exact ho
    · split at h1
      · have := (bandpassShape_ok h1).2
        rw [ho] at this
        simp at this
      · rw [map_same h1]; exact ho
      · rw [removeShape_ok h1]; exact ho
      · exact absurd (Or.inl rfl) hk
      · exact absurd (Or.inr rfl) hk
      · rw [(faradayShape_ok h1).1]; exact ho
      · rw [dedisperseShape_ok h1]; exact ho
      · rw [timeRebinShape_ok h1]; exact ho
      · rw [freqRebinShape_ok h1]; exact ho
      · exact absurd rfl hs
      · rw [← Except.ok.inj h1]; exact ho
      · rw [← Except.ok.inj h1]; exact ho

/-- **C79**: without a Stokes task, the result of every run that ends holds the four products, which get their four labels. -/
theorem labels_matrices (big : Frame → Bool) (p : RunPars) (ks : List PTask) (fr r : Frame) (h22 : fr.rest = [2, 2])
    (hn : PTask.stokes ∉ ks) (h : runAll big p ks fr = .ok r) : labels ks p r = .ok ["XX", "XY", "YX", "YY"] := by
  unfold labels
  rw [if_neg hn, run_matrices big p ks fr r h22 hn h]
  exact if_neg (by decide)

/-- **C79**, partial: with one Stokes task, not followed by a correction by Jones matrices, and at least one name, the result of every run that
ends holds one plane per name, labelled with it. -/
theorem labels_stokes_partial (big : Frame → Bool) (p : RunPars) (ks ls : List PTask) (fr r : Frame) (names : List String)
    (h22 : fr.rest = [2, 2]) (hp : p.stokes = some names) (hne : names ≠ []) (h1 : PTask.stokes ∉ ks) (h2 : PTask.stokes ∉ ls)
    (hj : ∀ k ∈ ls, ¬ IsJones k) (h : runAll big p (ks ++ .stokes :: ls) fr = .ok r) :
    labels (ks ++ .stokes :: ls) p r = .ok names ∧ r.rest = [names.length] := by
  rw [runAll_append] at h
  obtain ⟨a, ha, h⟩ := bind_some h
  have hm := run_matrices big p ks fr a h22 h1 ha
  obtain ⟨b, hb, h⟩ := bind_some h
  have hid : idle (big a) .stokes p = false := by
    show decide (p.stokes.getD [] = []) = false
    rw [hp]
    simpa using hne
  have hb' : stokesShape names a = .ok b := by
    unfold runTask at hb
    rw [if_neg (by rw [hid]; exact Bool.false_ne_true)] at hb
    simpa [hp] using hb
  have hr := run_after_stokes big p names.length ls b r (by rw [(stokesShape_ok hb').1]) h2 hj h
  refine ⟨?_, hr⟩
  unfold labels
  rw [if_pos (List.mem_append_right _ (List.mem_cons_self ..)), hp, hr]
  simp

/-- **C79**: the default pipeline, with default parameters, ends for all selections of whole sub-bands of at least 16 channels in even number, and
gives the intensity on the recorded samples. -/
theorem default_run (big : Frame → Bool) (c nt nsb : Nat) (dt df : ℚ) (hc : 16 ≤ c) (h2 : c % 2 = 0) :
    runAll big (RunPars.default c dt df) defaultKinds ⟨nt, nsb * c, nt, nsb * c, [2, 2], 1, 1⟩ =
      .ok ⟨nt, nsb * c, nt, nsb * c, [1], 1, 1⟩ := by
  have hb : bandpassShape (RunPars.default c dt df) ⟨nt, nsb * c, nt, nsb * c, [2, 2], 1, 1⟩ =
      .ok ⟨nt, nsb * c, nt, nsb * c, [2, 2], 1, 1⟩ := by
    unfold bandpassShape RunPars.default
    simp only
    rw [if_neg (by omega), if_neg (by decide), if_neg (by rw [Nat.mul_mod_left]; decide), if_neg (not_not.2 (by rfl)), if_neg (by decide),
      if_neg (by simp)]
  show (bandpassShape _ _).bind _ = _
  rw [hb]
  rfl

/-- **C79**, disagreement: files with fewer than 16 channels per sub-band cannot be read with the default pipeline. -/
theorem few_channels_violated (big : Frame → Bool) (c : Nat) (dt df : ℚ) (fr : Frame) (hc : c < 16) :
    runAll big (RunPars.default c dt df) defaultKinds fr = .error .valueError := by
  have hb : bandpassShape (RunPars.default c dt df) fr = .error .valueError := by
    unfold bandpassShape RunPars.default
    simp only
    rw [if_pos (Or.inl hc)]
  show (bandpassShape _ _).bind _ = _
  rw [hb]
  rfl

/-- **C79**, disagreement: after the computation of four Stokes parameters the parallactic correction, if it accepts the matrices, takes the
parameters for a matrix, and the run ends; the result cannot be labelled. -/
theorem jones_after_stokes_violated (big : Frame → Bool) (p : RunPars) (fr r : Frame) (names : List String) (hr : fr.rest = [2, 2])
    (hp : p.stokes = some names) (h4 : names.length = 4) (hk : ∀ s ∈ names, stokesKnown s = true)
    (hs : idle (big fr) .parallactic p = false) (h : runTask big p .parallactic fr = .ok r) :
    runAll big p [.stokes, .parallactic] fr = .ok r ∧ labels [.stokes, .parallactic] p r = .error .valueError := by
  have hs' : ∀ b, idle b .parallactic p = false := fun _ => hs
  have e0 : ∀ fr', runTask big p .parallactic fr' = jonesShape p fr' := by
    intro fr'
    unfold runTask
    rw [hs' (big fr'), if_neg Bool.false_ne_true]
  have e1 : runTask big p .stokes fr = .ok { fr with rest := [4] } := by
    have hid : idle (big fr) .stokes p = false := by
      show decide (p.stokes.getD [] = []) = false
      rw [hp, decide_eq_false_iff_not]
      intro e
      change names = [] at e
      rw [e] at h4
      cases h4
    unfold runTask
    rw [hid, if_neg Bool.false_ne_true]
    show stokesShape (p.stokes.getD []) fr = _
    unfold stokesShape
    rw [if_neg (not_not.2 hr), hp, if_neg]
    · show Except.ok ({ fr with rest := [names.length] } : Frame) = _
      rw [h4]
    · show ¬ (names.any _ = true)
      rw [List.any_eq_true]
      rintro ⟨s, hs1, hs2⟩
      rw [hk s hs1] at hs2
      cases hs2
  have e2 : jonesShape p { fr with rest := [4] } = jonesShape p fr := by
    unfold jonesShape
    simp only [hr]
    rfl
  rw [e0] at h
  have hrest : r.rest = [2, 2] := by rw [(jonesShape_ok h).1]
  refine ⟨?_, ?_⟩
  · show (runTask big p .stokes fr).bind _ = _
    rw [e1]
    show (runTask big p .parallactic _).bind _ = _
    rw [e0, e2, h]
    rfl
  · unfold labels
    rw [if_pos (List.mem_cons_self ..), if_neg (by rw [hp]; simp), hrest, if_pos (by decide)]

/-- Observation with the given Stokes parameters and correction step. -/
def iquv : RunPars := { RunPars.default 16 1 1 with stokes := some ["I", "Q", "U", "V"], skycoord := some (), calibDt := some 2 }

example : (∀ s ∈ ["I", "Q", "U", "V"], stokesKnown s = true) ∧ idle false .parallactic iquv = false ∧
    runTask (fun _ => false) iquv .parallactic ⟨4, 32, 4, 32, [2, 2], 1, 1⟩ = .ok ⟨4, 32, 4, 32, [2, 2], 1, 1⟩ := by
  refine ⟨by decide, rfl, ?_⟩
  have hg : timeGroups 4 1 2 = .ok (2, 2, 0) := by
    have : (rint (2 / 1)).toNat = 2 := by decide +kernel
    unfold timeGroups
    simp only [this]
    rfl
  show jonesShape iquv ⟨4, 32, 4, 32, [2, 2], 1, 1⟩ = _
  unfold jonesShape iquv RunPars.default
  simp only [Option.getD_some, hg]
  rfl

/-! ## C80: resolution of the data and steps given to the tasks -/

theorem rebinWidth_eq {n : Nat} {dx ndx : ℚ} (hdx : 0 < dx) (h : dx ≤ ndx) (hn : ⌊ndx / dx⌋.toNat ≤ n) :
    rebinSizes n dx ndx = (⌊ndx / dx⌋.toNat, n / ⌊ndx / dx⌋.toNat) ∧ rebinWidth n dx ndx = ⌊ndx / dx⌋.toNat := by
  have hp := bin_pos hdx h
  have hb : 0 < ⌊ndx / dx⌋.toNat := by omega
  have hm : 1 ≤ n / ⌊ndx / dx⌋.toNat := (Nat.one_le_div_iff hb).mpr hn
  have es : rebinSizes n dx ndx = (⌊ndx / dx⌋.toNat, n / ⌊ndx / dx⌋.toNat) := by
    unfold rebinSizes
    rw [if_neg (by omega)]
  refine ⟨es, ?_⟩
  unfold rebinWidth
  rw [es]
  simp only
  rw [mod_mul_div n _ hb hn]
  have h1 := Nat.div_add_mod' n ⌊ndx / dx⌋.toNat
  have : n - n % ⌊ndx / dx⌋.toNat = n / ⌊ndx / dx⌋.toNat * ⌊ndx / dx⌋.toNat := by omega
  rw [this, Nat.mul_div_cancel_left _ (by omega)]

/-- **C80**: one average in time of recorded samples gives the largest multiple of the sampling step that does not exceed the request. -/
theorem rebin_once_partial (big : Frame → Bool) (p : RunPars) (fr r : Frame) (x : ℚ) (hx : p.rebinDt = some x) (hdt : 0 < p.dt)
    (h1 : fr.tBin = 1) (hn : ⌊x / p.dt⌋.toNat ≤ fr.nt) (h : runTask big p .timeRebin fr = .ok r) :
    (r.tBin : ℚ) * p.dt ≤ x ∧ x < ((r.tBin : ℚ) + 1) * p.dt ∧ r.nt = fr.nt / r.tBin := by
  have h' : timeRebinShape p fr x = .ok r := by
    have hid : idle (big fr) .timeRebin p = false := by show p.rebinDt.isNone = false; rw [hx]; rfl
    unfold runTask at h
    rw [if_neg (by rw [hid]; exact Bool.false_ne_true)] at h
    simpa [hx] using h
  have hle : p.dt ≤ x := by
    unfold timeRebinShape at h'
    split_ifs at h' with h2 h3 h4
    exact not_lt.1 h3
  obtain ⟨e1, e2⟩ := rebinWidth_eq hdt hle hn
  rw [timeRebinShape_ok h', e1, e2, h1]
  obtain ⟨b1, b2⟩ := bin_size_spec hdt hle
  simp only [Nat.one_mul]
  exact ⟨b1, b2, trivial⟩

/-- The tasks before the first average in time leave the samples at the recorded step, which is the step they are given. -/
theorem fresh_step (big : Frame → Bool) (p : RunPars) : ∀ (ks : List PTask) (fr r : Frame), fr.tBin = 1 → PTask.timeRebin ∉ ks →
    runAll big p ks fr = .ok r → r.tBin = 1
  | [], fr, r, ho, _, h => by rw [← Except.ok.inj h]; exact ho
  | k :: ks, fr, r, ho, hn, h => by
    obtain ⟨a, h1, h2⟩ := bind_some h
    refine fresh_step big p ks a r ?_ (fun hm => hn (List.mem_cons_of_mem _ hm)) h2
    have hs : k ≠ .timeRebin := fun e => hn (e ▸ List.mem_cons_self ..)
    unfold runTask at h1
    split at h1
    · rw [← Except.ok.inj h1]; exact ho
    · split at h1
      · rw [(bandpassShape_ok h1).1]; exact ho
      · rw [map_same h1]; exact ho
      · rw [removeShape_ok h1]; exact ho
      · rw [(jonesShape_ok h1).1]; exact ho
      · rw [(jonesShape_ok h1).1]; exact ho
      · rw [(faradayShape_ok h1).1]; exact ho
      · rw [dedisperseShape_ok h1]; exact ho
      · exact absurd rfl hs
      · rw [freqRebinShape_ok h1]; exact ho
      · rw [(stokesShape_ok h1).1]; exact ho
      · rw [← Except.ok.inj h1]; exact ho
      · rw [← Except.ok.inj h1]; exact ho

/-- Sampling step 1, requested step 4. -/
def four : RunPars := { RunPars.default 16 1 1 with rebinDt := some 4, rebinDf := some 2, removeCh := some [0], dm := some 10 }

theorem four_once : runTask (fun _ => false) four .timeRebin ⟨64, 64, 64, 64, [2, 2], 1, 1⟩ = .ok ⟨16, 64, 16, 64, [2, 2], 4, 1⟩ := by
  have h : timeRebinShape four ⟨64, 64, 64, 64, [2, 2], 1, 1⟩ 4 = .ok ⟨16, 64, 16, 64, [2, 2], 4, 1⟩ := by
    have es : rebinSizes 64 1 4 = (4, 16) := by decide +kernel
    have ew : rebinWidth 64 1 4 = 4 := by decide +kernel
    unfold timeRebinShape four RunPars.default
    simp only [es, ew]
    rw [if_neg (not_not.2 rfl), if_neg (by decide +kernel), if_neg (by decide)]
  exact h

/-- **C80**, disagreement: the average, which can be repeated, always compares the request with the recorded step. If one average joins `w`
samples, `n` of them join `w ^ n`, whatever the request. -/
theorem rebin_twice_violated (big : Frame → Bool) (p : RunPars) (x : ℚ) (hx : p.rebinDt = some x) (hdt : 0 < p.dt) (hle : p.dt ≤ x) :
    ∀ (n : Nat) (fr : Frame), fr.rows = fr.nt → ⌊x / p.dt⌋.toNat ^ n ≤ fr.nt →
      runAll big p (List.replicate n .timeRebin) fr = .ok { fr with
        nt := fr.nt / ⌊x / p.dt⌋.toNat ^ n, rows := fr.nt / ⌊x / p.dt⌋.toNat ^ n, tBin := fr.tBin * ⌊x / p.dt⌋.toNat ^ n }
  | 0, fr, h1, _ => by
    simp only [pow_zero, Nat.div_one, Nat.mul_one, List.replicate_zero]
    show Except.ok fr = Except.ok _
    obtain ⟨nt, nf, rows, cols, rest, tb, fb⟩ := fr
    change rows = nt at h1
    subst h1
    rfl
  | n + 1, fr, h1, h2 => by
    have hw : 0 < ⌊x / p.dt⌋.toNat := by have := bin_pos hdt hle; omega
    have hn : ⌊x / p.dt⌋.toNat ≤ fr.nt := le_trans (Nat.le_self_pow (by omega) _) h2
    obtain ⟨es, ew⟩ := rebinWidth_eq hdt hle hn
    have hm : 1 ≤ fr.nt / ⌊x / p.dt⌋.toNat := (Nat.one_le_div_iff hw).mpr hn
    have e1 : runTask big p .timeRebin fr = .ok { fr with
        nt := fr.nt / ⌊x / p.dt⌋.toNat, rows := fr.nt / ⌊x / p.dt⌋.toNat, tBin := fr.tBin * ⌊x / p.dt⌋.toNat } := by
      have hid : idle (big fr) .timeRebin p = false := by show p.rebinDt.isNone = false; rw [hx]; rfl
      unfold runTask
      rw [hid, if_neg Bool.false_ne_true]
      show timeRebinShape p fr (p.rebinDt.getD 0) = _
      rw [hx]
      unfold timeRebinShape
      rw [Option.getD_some, es, ew, if_neg (not_not.2 h1), if_neg (not_lt.2 hle), if_neg]
      exact Nat.ne_of_gt (Nat.mul_pos hm hw)
    have ih := rebin_twice_violated big p x hx hdt hle n { fr with
      nt := fr.nt / ⌊x / p.dt⌋.toNat, rows := fr.nt / ⌊x / p.dt⌋.toNat, tBin := fr.tBin * ⌊x / p.dt⌋.toNat } rfl
      (by show _ ≤ fr.nt / _; rw [Nat.le_div_iff_mul_le hw, ← pow_succ]; exact h2)
    rw [List.replicate_succ]
    show (runTask big p .timeRebin fr).bind _ = _
    rw [e1]
    show runAll big p _ _ = _
    rw [ih]
    simp only [Nat.div_div_eq_div_mul, pow_succ', Nat.mul_assoc]

/-- Two averages to a step of four samples give samples sixteen times longer than the recorded ones. -/
example : runAll (fun _ => false) four (List.replicate 2 .timeRebin) ⟨64, 64, 64, 64, [2, 2], 1, 1⟩ = .ok ⟨4, 64, 4, 64, [2, 2], 16, 1⟩ := by
  have hw : ⌊(4 : ℚ) / four.dt⌋.toNat = 4 := by decide +kernel
  have := rebin_twice_violated (fun _ => false) four 4 rfl (by decide +kernel) (by decide +kernel) 2 ⟨64, 64, 64, 64, [2, 2], 1, 1⟩ rfl
    (by rw [hw]; decide)
  rw [hw] at this
  exact this

/-- **C80**, disagreement: a de-dispersion placed after an average in time is given the recorded step: here the samples are four times longer, and
a channel at 50 MHz is moved by 10 samples instead of 3. -/
theorem dedisperse_step_violated :
    (∃ r, runAll (fun _ => false) four [.timeRebin, .dedisperse] ⟨64, 64, 64, 64, [2, 2], 1, 1⟩ = .ok r ∧ r.tBin = 4) ∧
      cellDelay 50 80 four.dm.get! four.dt = 10 ∧ cellDelay 50 80 four.dm.get! (4 * four.dt) = 3 := by
  refine ⟨⟨⟨16, 64, 16, 64, [2, 2], 4, 1⟩, ?_, rfl⟩, by decide +kernel, by decide +kernel⟩
  show (runTask _ _ _ _).bind _ = _
  rw [four_once]
  rfl

/-- **C80**, disagreement: channels removed after an average in frequency are not the requested ones. The 64 channels of four sub-bands are averaged
by two and the first channel of each sub-band is to be removed; the sample which holds channel 16, the first one of the second sub-band, is kept. -/
theorem remove_after_rebin_violated :
    (∃ r, runAll (fun _ => false) four [.freqRebin, .remove] ⟨64, 64, 64, 64, [2, 2], 1, 1⟩ = .ok r ∧ r.fBin = 2 ∧ r.cols = 32) ∧
      ∃ out, removeChannels 32 16 four.removeCh (fun k => some k) = .ok out ∧ out 0 = none ∧ out (16 / 2) = some (16 / 2) := by
  have h : freqRebinShape four ⟨64, 64, 64, 64, [2, 2], 1, 1⟩ 2 = .ok ⟨64, 32, 64, 32, [2, 2], 1, 2⟩ := by
    have es : rebinSizes 64 1 2 = (2, 32) := by decide +kernel
    have ew : rebinWidth 64 1 2 = 2 := by decide +kernel
    unfold freqRebinShape four RunPars.default
    simp only [es, ew]
    rw [if_neg (not_not.2 rfl), if_neg (by decide +kernel), if_neg (by decide)]
  refine ⟨⟨⟨64, 32, 64, 32, [2, 2], 1, 2⟩, ?_, rfl, rfl⟩, ⟨_, rfl, rfl, rfl⟩⟩
  show (freqRebinShape four ⟨64, 64, 64, 64, [2, 2], 1, 1⟩ 2).bind _ = _
  rw [h]
  rfl

/-! ## The hypotheses can be met -/

example : Frame.Ok ⟨64, 64, 64, 64, [2, 2], 1, 1⟩ := ⟨rfl, rfl⟩

example : Honest .faraday ∧ Honest .timeRebin ∧ shownActive .timeRebin [four] = true ∧ shownActive .faraday [four, iquv] = false :=
  ⟨trivial, trivial, rfl, rfl⟩

example : (runAll (fun _ => false) four [.bandpass, .remove, .timeRebin, .stokes] ⟨64, 64, 64, 64, [2, 2], 1, 1⟩).toOption =
    some ⟨16, 64, 16, 64, [1], 4, 1⟩ := by decide +kernel

end Verif.TF
