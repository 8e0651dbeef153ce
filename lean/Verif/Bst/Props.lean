import Verif.Bst.Model
import Mathlib.Tactic.Linarith
import Mathlib.Data.List.Basic
import Mathlib.Data.List.Nodup

/-!
# Files of beam statistics: property C133
-/

namespace Verif.Bst

open Verif

/-! ## Positions -/

theorem positions_cons {α : Type} (p : α → Bool) (a : α) (l : List α) :
    positions p (a :: l) = (if p a then [0] else []) ++ (positions p l).map Nat.succ := by
  unfold positions
  rw [List.length_cons, List.range_succ_eq_map, List.filter_cons, List.filter_map]
  have e : ((fun i => ((a :: l)[i]?).any p) ∘ Nat.succ) = fun i => (l[i]?).any p := rfl
  rw [e]
  by_cases h : p a = true
  · rw [if_pos h, if_pos (show ((a :: l)[0]?).any p = true from h)]
    rfl
  · rw [if_neg h, if_neg (show ¬ ((a :: l)[0]?).any p = true from h)]
    rfl

theorem pickAt_succ {α : Type} (a : α) (l : List α) (idx : List Nat) : pickAt (a :: l) (idx.map Nat.succ) = pickAt l idx := by
  unfold pickAt
  rw [List.filterMap_map]
  rfl

theorem pickAt_append {α : Type} (l : List α) (i j : List Nat) : pickAt l (i ++ j) = pickAt l i ++ pickAt l j := List.filterMap_append

/-- Masks: the items at the positions where a condition holds in another list of the same length. -/
theorem pickAt_positions {α β : Type} (p : β → Bool) : ∀ (l : List α) (m : List β), l.length = m.length →
    pickAt l (positions p m) = ((l.zip m).filter fun x => p x.2).map Prod.fst
  | [], [], _ => rfl
  | a :: l, b :: m, h => by
    have ih := pickAt_positions p l m (Nat.succ.inj h)
    rw [positions_cons, pickAt_append, pickAt_succ, ih, List.zip_cons_cons, List.filter_cons]
    by_cases hb : p b = true
    · rw [if_pos hb, if_pos hb]
      rfl
    · rw [if_neg hb, if_neg hb]
      rfl

theorem zip_self_filter {α : Type} (p : α → Bool) : ∀ l : List α, ((l.zip l).filter fun x => p x.2).map Prod.fst = l.filter p
  | [] => rfl
  | a :: l => by
    rw [List.zip_cons_cons, List.filter_cons, List.filter_cons]
    by_cases h : p a = true
    · rw [if_pos h, if_pos h, List.map_cons, zip_self_filter p l]
    · rw [if_neg h, if_neg h, zip_self_filter p l]

theorem pickAt_self {α : Type} (p : α → Bool) (l : List α) : pickAt l (positions p l) = l.filter p := by
  rw [pickAt_positions p l l rfl, zip_self_filter]

theorem mem_positions {α : Type} (p : α → Bool) (l : List α) (i : Nat) : i ∈ positions p l ↔ ∃ a, l[i]? = some a ∧ p a = true := by
  unfold positions
  rw [List.mem_filter, List.mem_range, Option.any_eq_true]
  constructor
  · rintro ⟨-, a, ha, hp⟩
    exact ⟨a, ha, hp⟩
  · rintro ⟨a, ha, hp⟩
    exact ⟨(List.getElem?_eq_some_iff.1 ha).1, a, ha, hp⟩

/-- Frequencies announced for the columns of a condition on frequencies, when the columns of the beam differ. -/
theorem freq_filter (p : ℚ → Bool) : ∀ (bl : List Nat) (fr : List ℚ), bl.length = fr.length → bl.Nodup →
    ∀ idx : List Nat, (∀ c ∈ bl, c ∈ idx ↔ c ∈ pickAt bl (positions p fr)) →
    (bl.zip fr).filterMap (fun x => if x.1 ∈ idx then some x.2 else none) = fr.filter p
  | [], [], _, _, _, _ => rfl
  | c :: bl, x :: fr, h, hn, idx, hi => by
    obtain ⟨hc, hn'⟩ := List.nodup_cons.1 hn
    have hl : bl.length = fr.length := Nat.succ.inj h
    have e : pickAt (c :: bl) (positions p (x :: fr)) = (if p x then [c] else []) ++ pickAt bl (positions p fr) := by
      rw [positions_cons, pickAt_append, pickAt_succ]
      by_cases hx : p x = true
      · rw [if_pos hx, if_pos hx]; rfl
      · rw [if_neg hx, if_neg hx]; rfl
    have hsub : ∀ c ∈ pickAt bl (positions p fr), c ∈ bl := by
      intro d hd
      obtain ⟨i, -, hi⟩ := List.mem_filterMap.1 hd
      exact List.mem_of_getElem? hi
    have ih := freq_filter p bl fr hl hn' idx (by
      intro d hd
      rw [hi d (List.mem_cons_of_mem _ hd), e]
      have hne : d ≠ c := fun h => hc (h ▸ hd)
      by_cases hx : p x = true
      · rw [if_pos hx, List.singleton_append, List.mem_cons]
        exact ⟨fun h => h.resolve_left hne, Or.inr⟩
      · rw [if_neg hx, List.nil_append])
    have hci : c ∈ idx ↔ p x = true := by
      rw [hi c List.mem_cons_self, e]
      by_cases hx : p x = true
      · rw [if_pos hx]
        exact ⟨fun _ => hx, fun _ => List.mem_cons_self⟩
      · rw [if_neg hx, List.nil_append]
        exact ⟨fun h => absurd (hsub c h) hc, fun h => absurd h hx⟩
    rw [List.zip_cons_cons, List.filterMap_cons, List.filter_cons, ih]
    by_cases hx : p x = true
    · rw [if_pos hx]
      simp only [if_pos (hci.2 hx)]
    · rw [if_neg hx]
      simp only [if_neg (fun h => hx (hci.1 h))]

/-! ## Files -/

/-- A file whose tables agree. -/
structure Sound (f : File) : Prop where
  beams : f.bea.length = f.nbBeam
  anas : ∀ b ∈ f.bea, b.ana < f.nbAna
  lists : ∀ b ∈ f.bea, b.beamlets.length = b.freqs.length
  distinct : ∀ b ∈ f.bea, (b.beamlets.take b.count).Nodup
  columns : ∀ b ∈ f.bea, ∀ c ∈ b.beamlets.take b.count, c < f.cols

/-- The frequency of beamlet `j` of a digital beam: the centre of a sub-band whose top is in the list of the file. -/
def Centre (b : Digital) (j : Nat) (x : ℚ) : Prop := j < b.count ∧ b.freqs[j]? = some (x + 1953125 / 20000000)

/-- Data of one beam: `v` is what the file has at time `t` and frequency `x` in polarisation `p`. -/
def Recorded (f : File) (b : Digital) (t x : ℚ) (p : String) (v : ℚ) : Prop :=
  ∃ i j q c, f.times[i]? = some t ∧ Centre b j x ∧ b.beamlets[j]? = some c ∧ f.pols[q]? = some p ∧ v = f.data i q c

theorem freqs_length (f : File) (h : Sound f) (d : Nat) : (beamBeamlets f d).length = (beamFreqs f d).length := by
  unfold beamBeamlets beamFreqs
  rcases hb : f.bea[d]? with _ | b
  · rfl
  · show (b.beamlets.take b.count).length = ((b.freqs.take b.count).map _).length
    rw [List.length_map, List.length_take, List.length_take, h.lists b (List.mem_of_getElem? hb)]

theorem freqs_mem (f : File) (d : Nat) (b : Digital) (hb : f.bea[d]? = some b) (j : Nat) (x : ℚ) : (beamFreqs f d)[j]? = some x ↔ Centre b j x := by
  unfold beamFreqs Centre
  rw [hb]
  show ((b.freqs.take b.count).map fun x => x - halfWidth)[j]? = some x ↔ _
  rw [List.getElem?_map, List.getElem?_take]
  unfold halfWidth
  by_cases hj : j < b.count
  · rw [if_pos hj]
    rcases b.freqs[j]? with _ | y
    · simp
    · simp only [Option.map_some, Option.some.injEq, hj, true_and]
      constructor <;> intro h <;> linarith
  · rw [if_neg hj]
    simp [hj]

/-- The selection of two ranges, a beam and a polarisation. -/
def four (d : Nat) (lo hi t0 t1 : ℚ) (p : String) : Kwargs := ⟨some (.int d), some (.inl [lo, hi]), some (.inl [t0, t1]), some (some p)⟩

/-- The state it leaves. -/
def fourState (f : File) (d a : Nat) (lo hi t0 t1 : ℚ) (p : String) : State :=
  ⟨d, a, p.toUpper, positions (fun x => decide (x = p.toUpper)) f.pols, positions (fun t => decide (t0 ≤ t) && decide (t ≤ t1)) f.times,
    pickAt (beamBeamlets f d) (positions (fun x => decide (lo ≤ x) && decide (x ≤ hi)) (beamFreqs f d))⟩

theorem set_beam (f : File) (h : Sound f) (s : State) (d : Nat) (b : Digital) (hb : f.bea[d]? = some b) :
    setDbeam f s (.int d) = ({ s with dbeam := d, abeam := b.ana }, none) := by
  have hd : d < f.nbBeam := h.beams ▸ (List.getElem?_eq_some_iff.1 hb).1
  have ha := h.anas b (List.mem_of_getElem? hb)
  have e : setDbeam f s (.int d) = if (0 : Int) ≤ d ∧ (d : Int) < f.nbBeam then followAbeam f { s with dbeam := (d : Int).toNat } else (s, some .indexError) := rfl
  rw [e, if_pos (by omega)]
  unfold followAbeam
  rw [Int.toNat_natCast, hb]
  show setAbeam f { s with dbeam := d } (.int b.ana) = _
  have e2 : setAbeam f { s with dbeam := d } (.int b.ana) = if (0 : Int) ≤ b.ana ∧ (b.ana : Int) < f.nbAna then ({ s with dbeam := d, abeam := (b.ana : Int).toNat }, none)
      else ({ s with dbeam := d }, some .indexError) := rfl
  rw [e2, if_pos (by omega), Int.toNat_natCast]

theorem fill_four (f : File) (h : Sound f) (s : State) (d : Nat) (b : Digital) (hb : f.bea[d]? = some b) (lo hi t0 t1 : ℚ) (p : String)
    (hp : p.toUpper ∈ f.pols) : fillAttr f s (four d lo hi t0 t1 p) = (fourState f d b.ana lo hi t0 t1 p, none) := by
  have e1 : thenSet (setDbeam f) (some (.int d)) (s, none) = ({ s with dbeam := d, abeam := b.ana }, none) := set_beam f h s d b hb
  show thenSet (setPolar f) (some (some p)) (thenSet (setTime f) (some (.inl [t0, t1])) (thenSet (setFreq f) (some (.inl [lo, hi]))
    (thenSet (setDbeam f) (some (.int d)) (s, none)))) = _
  rw [e1]
  show (if p.toUpper ∈ f.pols then _ else _) = _
  rw [if_pos hp]
  rfl

/-- **Selections**: whatever was selected before, asking for a beam, two ranges and a polarisation gives exactly the times and the frequencies of
the ranges, in their order, and at each of them what the file has. -/
theorem select_exact_partial (f : File) (h : Sound f) (s : State) (d : Nat) (b : Digital) (hb : f.bea[d]? = some b) (lo hi t0 t1 : ℚ) (p : String)
    (hp : p.toUpper ∈ f.pols) :
    ∃ r : Selected, (select f s (four d lo hi t0 t1 p)).2 = .ok r ∧ r.pol = p.toUpper ∧
      r.time = f.times.filter (fun t => decide (t0 ≤ t) && decide (t ≤ t1)) ∧
      r.freq = (beamFreqs f d).filter (fun x => decide (lo ≤ x) && decide (x ≤ hi)) ∧
      r.value.length = r.time.length ∧ (∀ row ∈ r.value, row.length = r.freq.length) ∧
      ∀ (i j : Nat) (t x : ℚ), r.time[i]? = some t → r.freq[j]? = some x → ∃ (row : List (List ℚ)) (cell : List ℚ), r.value[i]? = some row ∧ row[j]? = some cell ∧ cell ≠ [] ∧
        ∀ v ∈ cell, Recorded f b t x p.toUpper v := by
  have hm := List.mem_of_getElem? hb
  have hl := freqs_length f h d
  have hnd : (beamBeamlets f d).Nodup := by
    unfold beamBeamlets; rw [hb]; exact h.distinct b hm
  have hbl : beamBeamlets f d = b.beamlets.take b.count := by unfold beamBeamlets; rw [hb]; rfl
  set F : ℚ → Bool := fun x => decide (lo ≤ x) && decide (x ≤ hi) with hF
  set T : ℚ → Bool := fun t => decide (t0 ≤ t) && decide (t ≤ t1) with hT
  set S := fourState f d b.ana lo hi t0 t1 p with hS
  have hidx : S.freqIdx = pickAt (beamBeamlets f d) (positions F (beamFreqs f d)) := rfl
  have hfreq : freqOf f S = (beamFreqs f d).filter F :=
    freq_filter F (beamBeamlets f d) (beamFreqs f d) hl hnd S.freqIdx (fun c _ => by rw [hidx])
  have hpick := pickAt_positions F (beamBeamlets f d) (beamFreqs f d) hl
  have hpick2 : (beamFreqs f d).filter F = (((beamBeamlets f d).zip (beamFreqs f d)).filter fun x => F x.2).map Prod.snd := by
    generalize beamBeamlets f d = bl at hl
    generalize beamFreqs f d = fr at hl
    clear * - hl
    induction bl generalizing fr with
    | nil => cases fr with
      | nil => rfl
      | cons => cases hl
    | cons c bl ih => cases fr with
      | nil => cases hl
      | cons x fr =>
        rw [List.zip_cons_cons, List.filter_cons, List.filter_cons]
        by_cases hx : F x = true
        · rw [if_pos hx, if_pos hx, List.map_cons, ih fr (Nat.succ.inj hl)]
        · rw [if_neg hx, if_neg hx, ih fr (Nat.succ.inj hl)]
  have hlen : (freqOf f S).length = S.freqIdx.length := by
    rw [hfreq, hidx, hpick, hpick2, List.length_map, List.length_map]
  have hcol : ¬ (S.freqIdx.any fun c => decide (f.cols ≤ c)) = true := by
    rw [List.any_eq_true]
    rintro ⟨c, hc, hge⟩
    rw [decide_eq_true_iff] at hge
    rw [hidx] at hc
    obtain ⟨k, -, hk⟩ := List.mem_filterMap.1 hc
    have := h.columns b hm c (hbl ▸ List.mem_of_getElem? hk)
    omega
  have hread : readState f S = .ok ⟨pickAt f.times S.timeIdx, freqOf f S, S.pol, readAt f S⟩ := by
    unfold readState
    rw [if_neg hcol, if_neg (by rw [hlen]; exact fun h => h rfl)]
  have htime : pickAt f.times S.timeIdx = f.times.filter T := pickAt_self T f.times
  have hsel : (select f s (four d lo hi t0 t1 p)).2 = .ok ⟨pickAt f.times S.timeIdx, freqOf f S, S.pol, readAt f S⟩ := by
    unfold select
    rw [fill_four f h s d b hb lo hi t0 t1 p hp]
    exact hread
  have htl : S.timeIdx.length = (f.times.filter T).length := by
    rw [← htime]
    unfold pickAt
    rw [List.length_filterMap_eq_countP, eq_comm, List.countP_eq_length]
    intro i hi
    obtain ⟨a, ha, -⟩ := (mem_positions T f.times i).1 hi
    rw [ha]; rfl
  refine ⟨_, hsel, rfl, htime, hfreq, ?_, ?_, ?_⟩
  · show (readAt f S).length = (pickAt f.times S.timeIdx).length
    unfold readAt
    rw [List.length_map, htime, htl]
  · intro row hrow
    obtain ⟨i, -, rfl⟩ := List.mem_map.1 (show row ∈ readAt f S from hrow)
    show (List.map _ S.freqIdx).length = (freqOf f S).length
    rw [List.length_map, hlen]
  · intro i j t x hi hj
    have hi' : (pickAt f.times S.timeIdx)[i]? = some t := hi
    have hj' : (freqOf f S)[j]? = some x := hj
    -- position of the time
    have hpt : ∃ k, S.timeIdx[i]? = some k ∧ f.times[k]? = some t := by
      have hall : ∀ k ∈ S.timeIdx, ∃ a, f.times[k]? = some a := fun k hk => by
        obtain ⟨a, ha, -⟩ := (mem_positions T f.times k).1 hk
        exact ⟨a, ha⟩
      generalize S.timeIdx = idx at hall hi'
      clear * - hall hi'
      induction idx generalizing i with
      | nil => simp [pickAt] at hi'
      | cons k idx ih =>
        obtain ⟨a, ha⟩ := hall k List.mem_cons_self
        have e : pickAt f.times (k :: idx) = a :: pickAt f.times idx := by
          unfold pickAt; rw [List.filterMap_cons, ha]
        rw [e] at hi'
        cases i with
        | zero => exact ⟨k, rfl, by rw [ha]; exact hi'⟩
        | succ i => exact ih i (fun k hk => hall k (List.mem_cons_of_mem _ hk)) hi'
    obtain ⟨k, hk, hkt⟩ := hpt
    -- column of the frequency
    rw [hfreq, hpick2, List.getElem?_map, Option.map_eq_some_iff] at hj'
    obtain ⟨⟨c, x'⟩, hcx, hx'⟩ := hj'
    have hcj : S.freqIdx[j]? = some c := by
      rw [hidx, hpick, List.getElem?_map, hcx]; rfl
    have hmem := (List.mem_filter.1 (List.mem_of_getElem? hcx)).1
    obtain ⟨m, hm'⟩ := List.mem_iff_getElem?.1 hmem
    have hx2 : x' = x := hx'
    subst hx2
    obtain ⟨hm1, hm2⟩ := List.getElem?_zip_eq_some.1 hm'
    have hcen := (freqs_mem f d b hb m x').1 hm2
    have hblm : b.beamlets[m]? = some c := by
      rw [hbl, List.getElem?_take] at hm1
      by_cases hlt : m < b.count
      · rw [if_pos hlt] at hm1; exact hm1
      · rw [if_neg hlt] at hm1; cases hm1
    refine ⟨S.freqIdx.map fun c => S.polIdx.map fun q => f.data k q c, S.polIdx.map fun q => f.data k q c, ?_, ?_, ?_, ?_⟩
    · show (readAt f S)[i]? = _
      unfold readAt
      rw [List.getElem?_map, hk]; rfl
    · rw [List.getElem?_map, hcj]; rfl
    · obtain ⟨q, hq⟩ := List.mem_iff_getElem?.1 hp
      have : q ∈ S.polIdx := (mem_positions _ _ q).2 ⟨_, hq, decide_eq_true rfl⟩
      intro hnil
      rw [List.map_eq_nil_iff.1 hnil] at this
      cases this
    · intro v hv
      obtain ⟨q, hq, rfl⟩ := List.mem_map.1 hv
      obtain ⟨pp, hpq, hpp⟩ := (mem_positions _ _ q).1 hq
      exact ⟨k, m, q, c, hkt, hcen, hblm, by rw [hpq, of_decide_eq_true hpp], rfl⟩

/-- A selection of the four does not depend on those which were made before, nor does what it leaves. -/
theorem select_history (f : File) (h : Sound f) (s s' : State) (d : Nat) (b : Digital) (hb : f.bea[d]? = some b) (lo hi t0 t1 : ℚ) (p : String)
    (hp : p.toUpper ∈ f.pols) : select f s (four d lo hi t0 t1 p) = select f s' (four d lo hi t0 t1 p) := by
  unfold select
  rw [fill_four f h s d b hb lo hi t0 t1 p hp, fill_four f h s' d b hb lo hi t0 t1 p hp]

/-- Asking again without arguments gives the same data. -/
theorem select_again (f : File) (s : State) (k : Kwargs) (r : Selected) (hr : (select f s k).2 = .ok r) :
    select f (select f s k).1 ⟨none, none, none, none⟩ = ((select f s k).1, .ok r) := by
  unfold select at hr ⊢
  rcases hf : fillAttr f s k with ⟨s', _ | e⟩
  · rw [hf] at hr
    have e2 : fillAttr f s' ⟨none, none, none, none⟩ = (s', none) := rfl
    dsimp only
    rw [e2]
    exact congrArg (Prod.mk s') hr
  · rw [hf] at hr
    cases hr

/-- **Violated**: a selection that is refused is not forgotten. With a list of bounds which are not two an
exception is raised but the beam is changed. -/
theorem select_refused_violated (f : File) (h : Sound f) (s : State) (d : Nat) (b : Digital) (hb : f.bea[d]? = some b) (ts : List ℚ)
    (hts : ts.length ≠ 2) : (select f s ⟨some (.int d), none, some (.inl ts), none⟩).2 = .error .valueError ∧
    (select f s ⟨some (.int d), none, some (.inl ts), none⟩).1 = { s with dbeam := d, abeam := b.ana } := by
  have e1 : thenSet (setDbeam f) (some (.int d)) (s, none) = ({ s with dbeam := d, abeam := b.ana }, none) := set_beam f h s d b hb
  have ec : chosenIn f.times (.inl ts) = .error .valueError := by
    rcases ts with _ | ⟨a, _ | ⟨c, _ | ⟨e, l⟩⟩⟩
    · rfl
    · rfl
    · exact absurd rfl hts
    · rfl
  have e2 : fillAttr f s ⟨some (.int d), none, some (.inl ts), none⟩ = ({ s with dbeam := d, abeam := b.ana }, some .valueError) := by
    show thenSet (setPolar f) none (thenSet (setTime f) (some (.inl ts)) (thenSet (setFreq f) none (thenSet (setDbeam f) (some (.int d)) (s, none)))) = _
    rw [e1]
    show thenSet (setPolar f) none (setTime f { s with dbeam := d, abeam := b.ana } (.inl ts)) = _
    unfold setTime
    rw [ec]
    rfl
  unfold select
  rw [e2]
  exact ⟨rfl, rfl⟩

/-! ## Histories -/

/-- What a user may do. -/
inductive Act where
  | dbeam (g : Given)
  | abeam (g : Given)
  | pol (p : Option String)
  | time (t : List ℚ ⊕ ℚ)
  | freq (x : List ℚ ⊕ ℚ)
  | select (k : Kwargs)

/-- The state left by an action, accepted or refused. -/
def act (f : File) (s : State) : Act → State
  | .dbeam g => (setDbeam f s g).1
  | .abeam g => (setAbeam f s g).1
  | .pol p => (setPolar f s p).1
  | .time t => (setTime f s t).1
  | .freq x => (setFreq f s x).1
  | .select k => (select f s k).1

/-- A selection that can be read: beams of the file, times of the file, a polarisation of the file. -/
structure Usable (f : File) (s : State) : Prop where
  digital : s.dbeam < f.nbBeam
  analog : s.abeam < f.nbAna
  pol : s.pol ∈ f.pols
  polIdx : ∀ q, q ∈ s.polIdx ↔ f.pols[q]? = some s.pol
  times : ∀ i ∈ s.timeIdx, i < f.times.length

theorem usable_abeam (f : File) (s : State) (g : Given) (h : Usable f s) : Usable f (setAbeam f s g).1 := by
  cases g with
  | int i =>
    have e : setAbeam f s (.int i) = if 0 ≤ i ∧ i < f.nbAna then ({ s with abeam := i.toNat }, none) else (s, some .indexError) := rfl
    rw [e]
    by_cases hi : 0 ≤ i ∧ i < f.nbAna
    · rw [if_pos hi]
      exact ⟨h.digital, by show i.toNat < f.nbAna; omega, h.pol, h.polIdx, h.times⟩
    · rw [if_neg hi]; exact h
  | real q => exact h
  | other => exact h

theorem usable_dbeam (f : File) (s : State) (g : Given) (h : Usable f s) : Usable f (setDbeam f s g).1 := by
  cases g with
  | int i =>
    have e : setDbeam f s (.int i) = if 0 ≤ i ∧ i < f.nbBeam then followAbeam f { s with dbeam := i.toNat } else (s, some .indexError) := rfl
    rw [e]
    by_cases hi : 0 ≤ i ∧ i < f.nbBeam
    · rw [if_pos hi]
      have h' : Usable f { s with dbeam := i.toNat } := ⟨by show i.toNat < f.nbBeam; omega, h.analog, h.pol, h.polIdx, h.times⟩
      unfold followAbeam
      rcases f.bea[i.toNat]? with _ | b
      · exact h'
      · exact usable_abeam f _ (.int b.ana) h'
    · rw [if_neg hi]; exact h
  | real q => exact h
  | other => exact h

theorem usable_pol (f : File) (s : State) (p : Option String) (h : Usable f s) : Usable f (setPolar f s p).1 := by
  cases p with
  | none => exact h
  | some p =>
    have e : setPolar f s (some p) = if p.toUpper ∈ f.pols then ({ s with pol := p.toUpper, polIdx := positions (fun x => decide (x = p.toUpper)) f.pols }, none)
        else (s, some .valueError) := rfl
    rw [e]
    by_cases hp : p.toUpper ∈ f.pols
    · rw [if_pos hp]
      refine ⟨h.digital, h.analog, hp, ?_, h.times⟩
      intro q
      show q ∈ positions (fun x => decide (x = p.toUpper)) f.pols ↔ f.pols[q]? = some p.toUpper
      rw [mem_positions]
      constructor
      · rintro ⟨a, ha, hd⟩
        rw [ha, of_decide_eq_true hd]
      · intro ha
        exact ⟨_, ha, decide_eq_true rfl⟩
    · rw [if_neg hp]; exact h

theorem chosen_lt (l : List ℚ) (x : List ℚ ⊕ ℚ) (r : List Nat) (h : chosenIn l x = .ok r) : ∀ i ∈ r, i < l.length := by
  intro i hi
  rcases x with ts | x
  · rcases ts with _ | ⟨a, _ | ⟨b, _ | ⟨c, m⟩⟩⟩
    · cases h
    · cases h
    · cases h
      obtain ⟨v, hv, -⟩ := (mem_positions _ _ i).1 hi
      exact (List.getElem?_eq_some_iff.1 hv).1
    · cases h
  · have e : chosenIn l (.inr x) = if l = [] then .error .valueError else .ok [nearest l x] := rfl
    rw [e] at h
    by_cases hl : l = []
    · rw [if_pos hl] at h; cases h
    · rw [if_neg hl] at h
      cases h
      rw [List.mem_singleton.1 hi]
      exact argmax_lt _ (List.length_pos_of_ne_nil hl)

theorem usable_time (f : File) (s : State) (t : List ℚ ⊕ ℚ) (h : Usable f s) : Usable f (setTime f s t).1 := by
  unfold setTime
  rcases ht : chosenIn f.times t with e | l
  · exact h
  · exact ⟨h.digital, h.analog, h.pol, h.polIdx, chosen_lt _ _ _ ht⟩

theorem usable_freq (f : File) (s : State) (t : List ℚ ⊕ ℚ) (h : Usable f s) : Usable f (setFreq f s t).1 := by
  unfold setFreq
  rcases ht : chosenIn (beamFreqs f s.dbeam) t with e | l
  · exact h
  · exact ⟨h.digital, h.analog, h.pol, h.polIdx, h.times⟩

theorem usable_then {α : Type} (f : File) (set : State → α → Left) (hset : ∀ s v, Usable f s → Usable f (set s v).1) (x : Option α) (l : Left)
    (h : Usable f l.1) : Usable f (thenSet set x l).1 := by
  unfold thenSet
  by_cases hl : l.2.isSome = true
  · rw [if_pos hl]; exact h
  · rw [if_neg hl]
    cases x with
    | none => exact h
    | some v => exact hset l.1 v h

theorem usable_fill (f : File) (s : State) (k : Kwargs) (h : Usable f s) : Usable f (fillAttr f s k).1 :=
  usable_then f _ (fun s v => usable_pol f s v) _ _ (usable_then f _ (fun s v => usable_time f s v) _ _
    (usable_then f _ (fun s v => usable_freq f s v) _ _ (usable_then f _ (fun s v => usable_dbeam f s v) _ _ h)))

/-- **Histories**: whatever is asked, accepted or refused, the selection stays one of beams, times and a polarisation of the file. -/
theorem history_usable (f : File) (s : State) (h : Usable f s) (l : List Act) : Usable f (l.foldl (act f) s) := by
  induction l generalizing s with
  | nil => exact h
  | cons a l ih =>
    apply ih
    cases a with
    | dbeam g => exact usable_dbeam f s g h
    | abeam g => exact usable_abeam f s g h
    | pol p => exact usable_pol f s p h
    | time t => exact usable_time f s t h
    | freq x => exact usable_freq f s x h
    | select k => exact usable_fill f s k h

/-- A new reader of a sound file with the polarisation NW is usable. -/
theorem start_usable (f : File) (h : Sound f) (hb : 0 < f.nbBeam) (hp : "NW" ∈ f.pols) (t0 t1 f0 f1 : ℚ) :
    (start f t0 t1 f0 f1).2 = none ∧ Usable f (start f t0 t1 f0 f1).1 := by
  obtain ⟨b, hb'⟩ : ∃ b, f.bea[0]? = some b := ⟨f.bea[0]'(by rw [h.beams]; exact hb), List.getElem?_eq_getElem _⟩
  have hu : "NW".toUpper = "NW" := by decide +kernel
  have e : start f t0 t1 f0 f1 = (fourState f 0 b.ana f0 f1 t0 t1 "NW", none) := by
    have e1 : thenSet (setDbeam f) (some (.int 0)) (⟨0, 0, "NW", [], [], []⟩, none) = (⟨0, b.ana, "NW", [], [], []⟩, none) := set_beam f h _ 0 b hb'
    have e2 : setPolar f ⟨0, b.ana, "NW", [], [], []⟩ (some "NW") =
        (⟨0, b.ana, "NW".toUpper, positions (fun x => decide (x = "NW".toUpper)) f.pols, [], []⟩, none) := if_pos (by rw [hu]; exact hp)
    have e3 : thenSet (setPolar f) (some (some "NW")) (⟨0, b.ana, "NW", [], [], []⟩, none) =
        (⟨0, b.ana, "NW".toUpper, positions (fun x => decide (x = "NW".toUpper)) f.pols, [], []⟩, none) := e2
    unfold start
    rw [e1, e3]
    rfl
  rw [e]
  refine ⟨rfl, hb, h.anas b (List.mem_of_getElem? hb'), ?_, ?_, ?_⟩
  · show "NW".toUpper ∈ f.pols
    rw [hu]; exact hp
  · intro q
    show q ∈ positions (fun x => decide (x = "NW".toUpper)) f.pols ↔ f.pols[q]? = some "NW".toUpper
    rw [mem_positions]
    constructor
    · rintro ⟨a, ha, hd⟩
      rw [ha, of_decide_eq_true hd]
    · intro ha
      exact ⟨_, ha, decide_eq_true rfl⟩
  · intro i hi
    obtain ⟨v, hv, -⟩ := (mem_positions _ _ i).1 (show i ∈ positions _ f.times from hi)
    exact (List.getElem?_eq_some_iff.1 hv).1

/-- Choosing a digital beam chooses its analog beam. -/
theorem beam_follows (f : File) (h : Sound f) (s : State) (d : Nat) (b : Digital) (hb : f.bea[d]? = some b) :
    (setDbeam f s (.int d)).2 = none ∧ (setDbeam f s (.int d)).1.dbeam = d ∧ (setDbeam f s (.int d)).1.abeam = b.ana := by
  rw [set_beam f h s d b hb]
  exact ⟨rfl, rfl, rfl⟩

/-- Beams which are not in the file are refused and change nothing; so is anything but an integer. -/
theorem beam_refused (f : File) (s : State) (g : Given) (hg : ∀ d : Nat, d < f.nbBeam → g ≠ .int d) : (setDbeam f s g).1 = s ∧ (setDbeam f s g).2.isSome := by
  cases g with
  | int i =>
    have e : setDbeam f s (.int i) = if 0 ≤ i ∧ i < f.nbBeam then followAbeam f { s with dbeam := i.toNat } else (s, some .indexError) := rfl
    have : ¬ (0 ≤ i ∧ i < f.nbBeam) := by
      rintro ⟨h0, h1⟩
      exact hg i.toNat (by omega) (by rw [Int.toNat_of_nonneg h0])
    rw [e, if_neg this]
    exact ⟨rfl, rfl⟩
  | real q => exact ⟨rfl, rfl⟩
  | other => exact ⟨rfl, rfl⟩

/-- **Violated** for a file whose tables disagree: a beam whose analog beam does not exist is refused, but chosen all the same. -/
theorem beam_kept_violated (f : File) (s : State) (d : Nat) (b : Digital) (hb : f.bea[d]? = some b) (hd : d < f.nbBeam) (ha : f.nbAna ≤ b.ana) :
    setDbeam f s (.int d) = ({ s with dbeam := d }, some .indexError) := by
  have e : setDbeam f s (.int d) = if (0 : Int) ≤ d ∧ (d : Int) < f.nbBeam then followAbeam f { s with dbeam := (d : Int).toNat } else (s, some .indexError) := rfl
  rw [e, if_pos (by omega)]
  unfold followAbeam
  rw [Int.toNat_natCast, hb]
  have e2 : setAbeam f { s with dbeam := d } (.int b.ana) = if (0 : Int) ≤ b.ana ∧ (b.ana : Int) < f.nbAna then ({ s with dbeam := d, abeam := (b.ana : Int).toNat }, none)
      else ({ s with dbeam := d }, some .indexError) := rfl
  exact e2.trans (if_neg (by omega))

/-- One time: that of the file which is nearest to the one asked, the first of them. -/
theorem nearest_time (f : File) (s : State) (t : ℚ) (hne : f.times ≠ []) :
    ∃ i v, (setTime f s (.inr t)) = ({ s with timeIdx := [i] }, none) ∧ f.times[i]? = some v ∧
      (∀ w ∈ f.times, |v - t| ≤ |w - t|) ∧ ∀ j w, j < i → f.times[j]? = some w → |v - t| < |w - t| := by
  have hlt : nearest f.times t < f.times.length := argmax_lt _ (List.length_pos_of_ne_nil hne)
  have hget : ∀ j w, f.times[j]? = some w → f.times.getD j 0 = w := fun j w h => by
    rw [List.getD_eq_getElem?_getD, h]; rfl
  have hv : f.times[nearest f.times t]? = some (f.times[nearest f.times t]'hlt) := List.getElem?_eq_getElem hlt
  refine ⟨nearest f.times t, f.times[nearest f.times t]'hlt, ?_, hv, ?_, ?_⟩
  · unfold setTime
    have e : chosenIn f.times (.inr t) = .ok [nearest f.times t] := (if_neg hne : (if f.times = [] then _ else _) = _)
    rw [e]
  · intro w hw
    obtain ⟨j, hj⟩ := List.mem_iff_getElem?.1 hw
    have := argmax_max (fun i => - |f.times.getD i 0 - t|) (List.getElem?_eq_some_iff.1 hj).1
    have e1 := hget _ _ hv
    have e2 := hget _ _ hj
    unfold nearest at e1
    rw [e1, e2] at this
    unfold nearest
    linarith
  · intro j w hj hw
    have := argmax_first (fun i => - |f.times.getD i 0 - t|) hj
    have e1 := hget _ _ hv
    have e2 := hget _ _ hw
    unfold nearest at e1
    rw [e1, e2] at this
    unfold nearest
    linarith

/-! ## Pointings -/

/-- Times that increase. -/
def Rising (l : List ℚ) : Prop := l.Pairwise (· < ·)

theorem ranges_length (rows : List Aim) (last : ℚ) : (ranges rows last).length = rows.length := by
  unfold ranges
  rw [List.length_zip, List.length_append, List.length_tail, List.length_map, List.length_singleton]
  cases rows with
  | nil => rfl
  | cons => simp

/-- Each range begins with its row, and ends where the next one begins or at the last time. -/
theorem ranges_get (rows : List Aim) (last : ℚ) (i : Nat) (r : Aim) (hr : rows[i]? = some r) :
    (ranges rows last)[i]? = some (r.time, ((rows[i + 1]?).map Aim.time).getD last) := by
  unfold ranges
  rw [List.getElem?_zip_eq_some, List.getElem?_map, hr]
  refine ⟨rfl, ?_⟩
  have hi := (List.getElem?_eq_some_iff.1 hr).1
  rcases hn : rows[i + 1]? with _ | n
  · have hlast : rows.length = i + 1 := by
      have := List.getElem?_eq_none_iff.1 hn
      omega
    rw [List.getElem?_append_right (by rw [List.length_tail, List.length_map]; omega), List.length_tail, List.length_map]
    have : i - (rows.length - 1) = 0 := by omega
    rw [this]
    rfl
  · have hi1 := (List.getElem?_eq_some_iff.1 hn).1
    rw [List.getElem?_append_left (by rw [List.length_tail, List.length_map]; omega), List.getElem?_tail, List.getElem?_map, hn]
    rfl

/-- At any time from the first row to the last time, one range and only one is on: that of the last row before. -/
theorem ranges_cover (rows : List Aim) (last : ℚ) (hs : Rising (rows.map Aim.time)) (hl : ∀ r ∈ rows, r.time ≤ last) (t : ℚ) (r0 : Aim)
    (h0 : rows.head? = some r0) (ht0 : r0.time ≤ t) (ht1 : t < last) :
    ∃ (i : Nat) (r : Aim) (x : ℚ × ℚ), rows[i]? = some r ∧ (ranges rows last)[i]? = some x ∧ x.1 = r.time ∧ x.1 ≤ t ∧ t < x.2 ∧
      ∀ (j : Nat) (y : ℚ × ℚ), (ranges rows last)[j]? = some y → y.1 ≤ t → t < y.2 → j = i := by
  induction rows generalizing r0 with
  | nil => cases h0
  | cons a rows ih =>
    have ha : a = r0 := Option.some.inj h0
    subst ha
    rw [List.map_cons] at hs
    obtain ⟨hfirst, hrest⟩ := List.pairwise_cons.1 hs
    cases rows with
    | nil =>
      refine ⟨0, a, (a.time, last), rfl, rfl, rfl, ht0, ht1, ?_⟩
      intro j y hj _ _
      have := (List.getElem?_eq_some_iff.1 hj).1
      rw [ranges_length] at this
      simp at this
      exact this
    | cons b rows =>
      have hc : ranges (a :: b :: rows) last = (a.time, b.time) :: ranges (b :: rows) last := rfl
      have hb : a.time < b.time := hfirst b.time (List.mem_cons_self)
      rcases lt_or_ge t b.time with hlt | hge
      · refine ⟨0, a, (a.time, b.time), rfl, by rw [hc]; rfl, rfl, ht0, hlt, ?_⟩
        intro j y hj hy1 _
        cases j with
        | zero => rfl
        | succ j =>
          exfalso
          rw [hc, List.getElem?_cons_succ] at hj
          have hj1 := (List.getElem?_eq_some_iff.1 hj).1
          rw [ranges_length] at hj1
          have hg := ranges_get (b :: rows) last j _ (List.getElem?_eq_getElem hj1)
          rw [hj] at hg
          have hy : y.1 = ((b :: rows)[j]).time := congrArg Prod.fst (Option.some.inj hg)
          have hbj : b.time ≤ ((b :: rows)[j]).time := by
            cases j with
            | zero => exact le_refl _
            | succ j =>
              have hm : ((b :: rows)[j + 1]).time ∈ rows.map Aim.time := List.mem_map.2 ⟨rows[j]'(by simpa using hj1), List.getElem_mem _, rfl⟩
              exact ((List.pairwise_cons.1 hrest).1 _ hm).le
          linarith
      · obtain ⟨i, r, x, h1, h2, h3, h4, h5, h6⟩ := ih hrest (fun r hr => hl r (List.mem_cons_of_mem _ hr)) b rfl hge
        refine ⟨i + 1, r, x, h1, by rw [hc]; exact h2, h3, h4, h5, ?_⟩
        intro j y hj hy1 hy2
        cases j with
        | zero =>
          rw [hc] at hj
          have : y = (a.time, b.time) := (Option.some.inj hj).symm
          rw [this] at hy2
          exact absurd hy2 (not_lt.2 hge)
        | succ j =>
          rw [hc, List.getElem?_cons_succ] at hj
          rw [h6 j y hj hy1 hy2]

theorem stacked_ok (rows : List Aim) (last : ℚ) (h : rows ≠ []) : stacked rows last = .ok (ranges rows last) := if_neg h

theorem utana_ok (f : File) (a : Nat) (e : Aim) (he : f.pan.getLast? = some e) (h : rowsOf f.pan.dropLast a ≠ []) :
    utana f a = .ok (ranges (rowsOf f.pan.dropLast a) e.time) := by
  unfold utana
  rw [he]
  exact stacked_ok _ _ h

theorem utdig_ok (f : File) (d : Nat) (e : Aim) (he : f.pan.getLast? = some e) (h : rowsOf f.pbe d ≠ []) :
    utdig f d = .ok (ranges (rowsOf f.pbe d) e.time) := by
  unfold utdig
  rw [he]
  exact stacked_ok _ _ h

/-- Reading the times of the pointings is refused exactly when the table of the analog ones is empty, or when it has no row of the beam (the last row of
the analog table does not count). -/
theorem times_refused (f : File) (b : Nat) :
    (utana f b = .error .indexError ↔ f.pan = []) ∧ (utana f b = .error .valueError ↔ f.pan ≠ [] ∧ ∀ r ∈ f.pan.dropLast, r.beam ≠ b) ∧
      (utdig f b = .error .indexError ↔ f.pan = []) ∧ (utdig f b = .error .valueError ↔ f.pan ≠ [] ∧ ∀ r ∈ f.pbe, r.beam ≠ b) := by
  have hrow : ∀ l : List Aim, rowsOf l b = [] ↔ ∀ r ∈ l, r.beam ≠ b := by
    intro l
    unfold rowsOf
    rw [List.filter_eq_nil_iff]
    simp only [decide_eq_true_iff]
  rcases he : f.pan.getLast? with _ | e
  · have hn := List.getLast?_eq_none_iff.1 he
    have e1 : utana f b = .error .indexError := by unfold utana; rw [he]; rfl
    have e2 : utdig f b = .error .indexError := by unfold utdig; rw [he]; rfl
    rw [e1, e2]
    refine ⟨⟨fun _ => hn, fun _ => rfl⟩, ⟨fun h => (by cases h), fun h => absurd hn h.1⟩, ⟨fun _ => hn, fun _ => rfl⟩,
      ⟨fun h => (by cases h), fun h => absurd hn h.1⟩⟩
  · have hn : f.pan ≠ [] := by intro h; rw [h] at he; cases he
    have e1 : utana f b = stacked (rowsOf f.pan.dropLast b) e.time := by unfold utana; rw [he]; rfl
    have e2 : utdig f b = stacked (rowsOf f.pbe b) e.time := by unfold utdig; rw [he]; rfl
    have key : ∀ rows : List Aim, ¬ stacked rows e.time = .error .indexError ∧ (stacked rows e.time = .error .valueError ↔ rows = []) := by
      intro rows
      unfold stacked
      by_cases h : rows = []
      · rw [if_pos h]
        exact ⟨fun x => (by cases x), fun _ => h, fun _ => rfl⟩
      · rw [if_neg h]
        exact ⟨fun x => (by cases x), fun x => (by cases x), fun x => absurd x h⟩
    rw [e1, e2]
    refine ⟨⟨fun h => absurd h (key _).1, fun h => absurd h hn⟩, ?_, ⟨fun h => absurd h (key _).1, fun h => absurd h hn⟩, ?_⟩
    · rw [(key _).2, hrow]
      exact ⟨fun h => ⟨hn, h⟩, fun h => h.2⟩
    · rw [(key _).2, hrow]
      exact ⟨fun h => ⟨hn, h⟩, fun h => h.2⟩

/-- **Analog pointings**: from the first row of the beam to the last row of the table, exactly one pointing is on at any time, and there are as
many ranges as directions. -/
theorem analog_cover (f : File) (a : Nat) (e : Aim) (he : f.pan.getLast? = some e) (hs : Rising ((rowsOf f.pan.dropLast a).map Aim.time))
    (hle : ∀ r ∈ f.pan, r.time ≤ e.time) (r0 : Aim) (h0 : (rowsOf f.pan.dropLast a).head? = some r0) (t : ℚ) (ht0 : r0.time ≤ t) (ht1 : t < e.time) :
    ∃ l : List (ℚ × ℚ), utana f a = .ok l ∧ l.length = (anaAims f a).length ∧ ∃ (i : Nat) (r : Aim) (x : ℚ × ℚ), (rowsOf f.pan.dropLast a)[i]? = some r ∧ l[i]? = some x ∧ x.1 = r.time ∧
      (anaAims f a)[i]? = some (r.az, r.el) ∧ x.1 ≤ t ∧ t < x.2 ∧ ∀ (j : Nat) (y : ℚ × ℚ), l[j]? = some y → y.1 ≤ t → t < y.2 → j = i := by
  refine ⟨ranges (rowsOf f.pan.dropLast a) e.time, utana_ok f a e he (by intro h; rw [h] at h0; cases h0), ?_, ?_⟩
  · rw [ranges_length]
    unfold anaAims
    rw [List.length_map]
  · obtain ⟨i, r, x, h1, h2, h3, h4, h5, h6⟩ := ranges_cover (rowsOf f.pan.dropLast a) e.time hs
      (fun r hr => hle r (List.dropLast_subset _ (List.mem_filter.1 hr).1)) t r0 h0 ht0 ht1
    exact ⟨i, r, x, h1, h2, h3, by unfold anaAims; rw [List.getElem?_map, h1]; rfl, h4, h5, h6⟩

theorem rows_last (f : File) (a : Nat) (e : Aim) (he : f.pan.getLast? = some e) :
    rowsOf f.pan a = rowsOf f.pan.dropLast a ++ (if e.beam = a then [e] else []) := by
  have hp : f.pan = f.pan.dropLast ++ [e] := by
    rw [List.getLast?_eq_some_iff] at he
    obtain ⟨ys, h⟩ := he
    rw [h, List.dropLast_concat]
  conv_lhs => rw [hp]
  unfold rowsOf
  rw [List.filter_append]
  by_cases h : e.beam = a
  · rw [if_pos h, List.filter_cons, if_pos (decide_eq_true h)]; rfl
  · rw [if_neg h, List.filter_cons, if_neg (by rw [decide_eq_true_iff]; exact h)]; rfl

/-- The two readers agree on the analog pointings of a beam unless the last row of the table is of this beam: then `BST` has it and `BST_Data` has
not. -/
theorem analog_readers (f : File) (a : Nat) (e : Aim) (he : f.pan.getLast? = some e) (hr : ∃ r ∈ f.pan.dropLast, r.beam = a) :
    ∃ l, utana f a = .ok l ∧ (aimed f.pan a).1 = l.map Prod.fst ++ (if e.beam = a then [e.time] else []) := by
  obtain ⟨r, hm, hb⟩ := hr
  refine ⟨ranges (rowsOf f.pan.dropLast a) e.time,
    utana_ok f a e he (List.ne_nil_of_mem (List.mem_filter.2 ⟨hm, decide_eq_true hb⟩ : r ∈ rowsOf f.pan.dropLast a)), ?_⟩
  have hr : (ranges (rowsOf f.pan.dropLast a) e.time).map Prod.fst = (rowsOf f.pan.dropLast a).map Aim.time := by
    unfold ranges
    rw [List.map_fst_zip]
    rw [List.length_append, List.length_tail, List.length_map, List.length_singleton]
    omega
  unfold aimed
  rw [hr, rows_last f a e he, List.map_append]
  by_cases h : e.beam = a
  · rw [if_pos h, if_pos h]; rfl
  · rw [if_neg h, if_neg h]; rfl

/-- **Violated**: the only pointing of an analog beam is read by `BST` but makes `BST_Data` raise when it is the last row of the table. -/
theorem analog_single_violated (f : File) (a : Nat) (e : Aim) (he : f.pan.getLast? = some e) (hb : e.beam = a) (hr : ∀ r ∈ f.pan.dropLast, r.beam ≠ a) :
    (aimed f.pan a).1 = [e.time] ∧ utana f a = .error .valueError := by
  have hn : f.pan ≠ [] := by intro h; rw [h] at he; cases he
  refine ⟨?_, (times_refused f a).2.1.2 ⟨hn, hr⟩⟩
  have h0 : rowsOf f.pan.dropLast a = [] := by
    unfold rowsOf
    rw [List.filter_eq_nil_iff]
    simp only [decide_eq_true_iff]
    exact hr
  unfold aimed
  rw [rows_last f a e he, h0, if_pos hb]
  rfl

/-- The two readers agree on the digital pointings. -/
theorem digital_readers (f : File) (d : Nat) (hp : f.pan ≠ []) (hr : ∃ r ∈ f.pbe, r.beam = d) : ∃ l, utdig f d = .ok l ∧ (digitalPointing f (.int d)).1 = l.map Prod.fst := by
  rcases he : f.pan.getLast? with _ | e
  · exact absurd (List.getLast?_eq_none_iff.1 he) hp
  · obtain ⟨r, hm, hb⟩ := hr
    refine ⟨ranges (rowsOf f.pbe d) e.time,
      utdig_ok f d e he (List.ne_nil_of_mem (List.mem_filter.2 ⟨hm, decide_eq_true hb⟩ : r ∈ rowsOf f.pbe d)), ?_⟩
    unfold ranges
    rw [List.map_fst_zip]
    · rfl
    · rw [List.length_append, List.length_tail, List.length_map, List.length_singleton]
      omega

/-- **Violated**: the last digital pointing ends with the table of the *analog* ones. When it begins after the last row of that table, it ends
before it begins. -/
theorem digital_reversed_violated (f : File) (d : Nat) (e r : Aim) (he : f.pan.getLast? = some e) (hr : (rowsOf f.pbe d).getLast? = some r)
    (hlate : e.time < r.time) : ∃ l x, utdig f d = .ok l ∧ l.getLast? = some x ∧ x.1 = r.time ∧ x.2 < x.1 := by
  have hne : rowsOf f.pbe d ≠ [] := by intro h; rw [h] at hr; cases hr
  have hn : (rowsOf f.pbe d).length ≠ 0 := fun h => hne (List.length_eq_zero_iff.1 h)
  rw [List.getLast?_eq_getElem?] at hr
  have hg := ranges_get (rowsOf f.pbe d) e.time _ r hr
  have hnone : (rowsOf f.pbe d)[(rowsOf f.pbe d).length - 1 + 1]? = none := List.getElem?_eq_none_iff.2 (by omega)
  rw [hnone] at hg
  refine ⟨ranges (rowsOf f.pbe d) e.time, (r.time, e.time), utdig_ok f d e he hne, ?_, rfl, hlate⟩
  rw [List.getLast?_eq_getElem?, ranges_length]
  exact hg

/-! ## `BST` -/

/-- **Slices**: for any condition on frequencies and times, the slice has exactly the times and frequencies of the beam which meet them, in order,
and at each of them what the file has. -/
theorem get_exact (f : File) (h : Sound f) (cur : Given) (d : Nat) (b : Digital) (hb : f.bea[d]? = some b) (fsel tsel : ℚ → Bool) (p : String)
    (hp : p ∈ f.pols) :
    ∃ r : Slice, get f cur (some (.int d)) fsel tsel p = (.int d, .ok r) ∧ r.pol = p ∧ r.time = f.times.filter tsel ∧
      r.freq = (beamFreqs f d).filter fsel ∧ r.anaTimes = (aimed f.pan b.ana).1 ∧ r.digTimes = (aimed f.pbe d).1 ∧
      r.value.length = (positions tsel f.times).length ∧
      ∀ plane ∈ r.value, ∀ row ∈ plane, row.length = r.freq.length ∧
        ∃ t ∈ r.time, ∀ (j : Nat) (x v : ℚ), r.freq[j]? = some x → row[j]? = some v → Recorded f b t x p v := by
  have hm := List.mem_of_getElem? hb
  have hd : d < f.bea.length := (List.getElem?_eq_some_iff.1 hb).1
  have hl := freqs_length f h d
  have hbl : beamBeamlets f d = b.beamlets.take b.count := by unfold beamBeamlets; rw [hb]; rfl
  have hpg : polGot f p = p := if_pos hp
  have hpick := pickAt_positions fsel (beamBeamlets f d) (beamFreqs f d) hl
  have hpick2 : pickAt (beamFreqs f d) (positions fsel (beamFreqs f d)) = (((beamBeamlets f d).zip (beamFreqs f d)).filter fun x => fsel x.2).map Prod.snd := by
    rw [pickAt_self]
    generalize beamBeamlets f d = bl at hl
    generalize beamFreqs f d = fr at hl
    clear * - hl
    induction bl generalizing fr with
    | nil => cases fr with
      | nil => rfl
      | cons => cases hl
    | cons c bl ih => cases fr with
      | nil => cases hl
      | cons x fr =>
        rw [List.zip_cons_cons, List.filter_cons, List.filter_cons]
        by_cases hx : fsel x = true
        · rw [if_pos hx, if_pos hx, List.map_cons, ih fr (Nat.succ.inj hl)]
        · rw [if_neg hx, if_neg hx, ih fr (Nat.succ.inj hl)]
  have hcol : ¬ ((pickAt (beamBeamlets f d) (positions fsel (beamFreqs f d))).any fun c => decide (f.cols ≤ c)) = true := by
    rw [List.any_eq_true]
    rintro ⟨c, hc, hge⟩
    rw [decide_eq_true_iff] at hge
    obtain ⟨k, -, hk⟩ := List.mem_filterMap.1 hc
    have := h.columns b hm c (hbl ▸ List.mem_of_getElem? hk)
    omega
  have hc : checkBeam f (.int d) = .ok (.int d) := (if_pos (by omega) : (if (0 : Int) ≤ d ∧ (d : Int) < f.bea.length then _ else _) = _)
  have hg : get f cur (some (.int d)) fsel tsel p = (.int d, getBeam f d b fsel tsel p) := by
    unfold get
    rw [show (some (Given.int d)).getD (.int 0) = .int d from rfl, hc]
    show (Given.int d, (Except.ok (d : Int).toNat).bind _) = _
    rw [Int.toNat_natCast, show ∀ g : Nat → Except Err Slice, (Except.ok d).bind g = g d from fun _ => rfl, hb]
    rfl
  refine ⟨_, hg.trans (congrArg (Prod.mk (Given.int d)) (if_neg hcol)), hpg, pickAt_self _ _, pickAt_self _ _, rfl, rfl, ?_, ?_⟩
  · show (List.map _ (positions tsel f.times)).length = _
    rw [List.length_map]
  · intro plane hplane row hrow
    obtain ⟨k, hk, rfl⟩ := List.mem_map.1 hplane
    obtain ⟨q, hq, rfl⟩ := List.mem_map.1 hrow
    obtain ⟨t, htk, hts⟩ := (mem_positions _ _ k).1 hk
    obtain ⟨pp, hpq, hpp⟩ := (mem_positions _ _ q).1 hq
    have hpp' : pp = p := by rw [of_decide_eq_true hpp, hpg]
    subst hpp'
    refine ⟨?_, t, ?_, ?_⟩
    · show (List.map _ (pickAt (beamBeamlets f d) _)).length = (pickAt (beamFreqs f d) _).length
      rw [List.length_map, hpick, hpick2, List.length_map, List.length_map]
    · show t ∈ pickAt f.times (positions tsel f.times)
      rw [pickAt_self]
      exact List.mem_filter.2 ⟨List.mem_of_getElem? htk, hts⟩
    · intro j x v hj hv
      have hj' : (pickAt (beamFreqs f d) (positions fsel (beamFreqs f d)))[j]? = some x := hj
      rw [hpick2, List.getElem?_map, Option.map_eq_some_iff] at hj'
      obtain ⟨⟨c, x'⟩, hcx, hx'⟩ := hj'
      have hx2 : x' = x := hx'
      subst hx2
      rw [List.getElem?_map, hpick, List.getElem?_map, hcx] at hv
      have hv' : v = f.data k q c := (Option.some.inj hv).symm
      have hmem := (List.mem_filter.1 (List.mem_of_getElem? hcx)).1
      obtain ⟨m, hm'⟩ := List.mem_iff_getElem?.1 hmem
      obtain ⟨hm1, hm2⟩ := List.getElem?_zip_eq_some.1 hm'
      have hblm : b.beamlets[m]? = some c := by
        rw [hbl, List.getElem?_take] at hm1
        by_cases hlt : m < b.count
        · rw [if_pos hlt] at hm1; exact hm1
        · rw [if_neg hlt] at hm1; cases hm1
      exact ⟨k, m, q, c, htk, (freqs_mem f d b hb m x').1 hm2, hblm, hpq, hv'⟩

/-- **Violated**: the beam chosen for the reader, when it is built or later, is not the one which is read: without `beam`, `get` reads beam 0 and
makes it the current one. -/
theorem get_forgets_beam_violated (f : File) (hb : f.bea ≠ []) (cur : Given) (fsel tsel : ℚ → Bool) (p : String) :
    get f cur none fsel tsel p = get f (.int 0) (some (.int 0)) fsel tsel p ∧ (get f cur none fsel tsel p).1 = .int 0 := by
  have hl : 0 < f.bea.length := List.length_pos_of_ne_nil hb
  have hc : checkBeam f (.int 0) = .ok (.int 0) := (if_pos (by omega) : (if (0 : Int) ≤ 0 ∧ (0 : Int) < f.bea.length then _ else _) = _)
  unfold get
  rw [show (none : Option Given).getD (.int 0) = .int 0 from rfl, show (some (Given.int 0)).getD (.int 0) = .int 0 from rfl, hc]
  exact ⟨rfl, rfl⟩

/-- A beam out of the file is refused and the current one is kept. -/
theorem get_refused (f : File) (cur : Given) (i : Int) (hi : i < 0 ∨ (f.bea.length : Int) ≤ i) (fsel tsel : ℚ → Bool) (p : String) :
    get f cur (some (.int i)) fsel tsel p = (cur, .error .indexError) := by
  have hc : checkBeam f (.int i) = .error .indexError := (if_neg (by omega) : (if 0 ≤ i ∧ i < f.bea.length then _ else _) = _)
  unfold get
  rw [show (some (Given.int i)).getD (.int 0) = .int i from rfl, hc]

/-- **Violated**: a float equal to the index of a beam is accepted as beam, and then nothing can be read. -/
theorem get_float_violated (f : File) (cur : Given) (d : Nat) (hd : d < f.bea.length) (fsel tsel : ℚ → Bool) (p : String) :
    checkBeam f (.real d) = .ok (.real d) ∧ get f cur (some (.real d)) fsel tsel p = (.real d, .error .indexError) ∧
    analogPointing f (.real d) = .error .indexError := by
  have hc : checkBeam f (.real d) = .ok (.real d) := (if_pos ⟨d, hd, rfl⟩ : (if ∃ i : Nat, i < f.bea.length ∧ (d : ℚ) = i then _ else _) = _)
  refine ⟨hc, ?_, rfl⟩
  unfold get
  rw [show (some (Given.real d)).getD (.int 0) = .real d from rfl, hc]
  rfl

/-- A polarisation which is not in the file is replaced by NW, and the slice says so. -/
theorem get_unknown_polarisation (f : File) (p : String) (hp : p ∉ f.pols) : polGot f p = "NW" := if_neg hp

/-- **Violated**: with one time or one frequency the slice loses an axis. -/
theorem get_squeezed_violated (t n : Nat) : squeezed [t, 1, n] = [t, n] ↔ t ≠ 1 ∧ n ≠ 1 := by
  have e : squeezed [t, 1, n] = [t, n].filter fun n => decide (n ≠ 1) := by
    unfold squeezed
    by_cases ht : t = 1
    · simp [ht]
    · simp [ht]
  rw [e, List.filter_eq_self]
  constructor
  · intro h
    exact ⟨of_decide_eq_true (h t (by simp)), of_decide_eq_true (h n (by simp))⟩
  · rintro ⟨h1, h2⟩ a ha
    rcases List.mem_cons.1 ha with rfl | ha
    · exact decide_eq_true h1
    · rw [List.mem_singleton.1 ha]; exact decide_eq_true h2

/-- The mini-arrays of the analog beam followed by `BST_Data` are those of `BST`. -/
theorem mini_arrays_agree (f : File) (h : Sound f) (s : State) (d : Nat) (b : Digital) (hb : f.bea[d]? = some b) :
    analogBeam f (.int d) = .ok (setDbeam f s (.int d)).1.abeam := by
  rw [set_beam f h s d b hb]
  unfold analogBeam
  show (Except.ok (d : Int).toNat).bind _ = _
  rw [Int.toNat_natCast, show ∀ g : Nat → Except Err Nat, (Except.ok d).bind g = g d from fun _ => rfl, hb]
  rfl

/-- Only the mini-arrays used are given. -/
theorem mini_arrays_used (f : File) (a : Nat) (r : Analog) (hr : f.ana[a]? = some r) (hu : r.used ≤ r.mas.length) :
    (masOf f a).length = r.used ∧ ∀ i, i < r.used → (masOf f a)[i]? = r.mas[i]? := by
  have e : masOf f a = r.mas.take r.used := by unfold masOf; rw [hr]; rfl
  rw [e]
  refine ⟨by rw [List.length_take]; omega, fun i hi => by rw [List.getElem?_take, if_pos hi]⟩

/-! ## A file -/

/-- Two digital beams of one analog beam, three times, two polarisations. -/
def sample : File :=
  ⟨1, 2, [⟨2, [3, 5, 0]⟩], [⟨2, 0, [0, 1, 0], [20, 30, 0]⟩, ⟨1, 0, [2, 0, 0], [40, 0, 0]⟩], [⟨0, 0, 10, 20⟩, ⟨5, 0, 11, 21⟩, ⟨9, 0, 12, 22⟩],
    [⟨0, 0, 1, 2⟩, ⟨1, 1, 3, 4⟩, ⟨10, 1, 5, 6⟩], ["NW", "NE"], [1, 2, 3], 3, fun t p c => 100 * t + 10 * p + c⟩

/-- It is sound. -/
example : Sound sample ∧ sample.bea[1]? = some ⟨1, 0, [2, 0, 0], [40, 0, 0]⟩ ∧ "ne".toUpper ∈ sample.pols ∧ 0 < sample.nbBeam := by
  refine ⟨⟨rfl, ?_, ?_, ?_, ?_⟩, rfl, by decide +kernel, by decide⟩ <;> decide

/-- A selection in it. -/
example : (select sample ⟨0, 0, "NW", [], [], []⟩ (four 1 30 50 2 3 "ne")).2 = .ok ⟨[2, 3], [40 - halfWidth], "NE", [[[112]], [[212]]]⟩ := by decide +kernel

/-- A beam whose only pointing is the last row. -/
example : let f : File := { sample with pan := [⟨0, 0, 10, 20⟩, ⟨9, 1, 12, 22⟩] }
    f.pan.getLast? = some ⟨9, 1, 12, 22⟩ ∧ (∀ r ∈ f.pan.dropLast, r.beam ≠ 1) ∧ utana f 1 = .error .valueError ∧ ∃ r ∈ f.pan.dropLast, r.beam = 0 := by
  refine ⟨rfl, by decide, by decide +kernel, ⟨0, 0, 10, 20⟩, by decide, rfl⟩

/-- Its pointings: increasing, and the last digital one begins after the last analog one. -/
example : Rising ((rowsOf sample.pan.dropLast 0).map Aim.time) ∧ utana sample 0 = .ok [(0, 5), (5, 9)] ∧ utdig sample 1 = .ok [(1, 10), (10, 9)] := by
  refine ⟨?_, by decide +kernel, by decide +kernel⟩
  unfold Rising
  decide +kernel

end Verif.Bst
