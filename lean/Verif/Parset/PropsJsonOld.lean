import Verif.Parset.JsonOld
import Verif.Parset.PropsJson

/-!
# Properties of the former export of parsets: `Parset.to_json_old`
-/

namespace Verif.Parset

open Verif.Config (PV paramsOf modeOf pvInt)

variable {C : Type} {F : Str → Option ℚ} {center : Props → ℚ → Except Err C} {zenith : Str × ℚ → C} {isot : Str → Str} {p : PSet} {j : OldJson C}

/-- What is known of an exported parset. -/
theorem old_steps (h : toJsonOld F center zenith isot p = .ok j) : ∃ tp hd fovs bs fs, textOf ((dictGet p.obs "topic".toList).getD (.str "ES00 DEBUG".toList)) = .ok tp ∧
    j.topic = oldTopic tp ∧ dictGet p.out "hd_receivers".toList = some hd ∧ oldReceivers hd ((dictGet p.out "nri_receivers".toList).getD (.list [])) = .ok j.receivers ∧
    mapE (fovOf F center isot) p.anas = .ok fovs ∧ mapE (oldBeam F center isot (fovs.map Fov.idx) p.out) p.digis = .ok bs ∧ mapE (oldFill zenith p bs) fovs.zipIdx = .ok fs ∧
    mapE oldRemote fs = .ok j.fovs := by
  unfold toJsonOld at h
  obtain ⟨t0, -, h⟩ := bindE h
  obtain ⟨t0', -, h⟩ := bindE h
  obtain ⟨t1, -, h⟩ := bindE h
  obtain ⟨t1', -, h⟩ := bindE h
  obtain ⟨tp, htp, h⟩ := bindE h
  obtain ⟨hd, hhd, h⟩ := bindE h
  obtain ⟨rs, hrs, h⟩ := bindE h
  obtain ⟨fovs, hf, h⟩ := bindE h
  obtain ⟨bs, hb, h⟩ := bindE h
  obtain ⟨fs, hfs, h⟩ := bindE h
  obtain ⟨gs, hgs, rfl⟩ := mapEx h
  exact ⟨tp, hd, fovs, bs, fs, htp, rfl, item_ok hhd, hrs, hf, hb, hfs, hgs⟩

theorem mapE_back {α β : Type} {f : α → Except Err β} {l : List α} {r : List β} (h : mapE f l = .ok r) {i : Nat} {y : β} (hy : r[i]? = some y) : ∃ x, l[i]? = some x ∧ f x = .ok y := by
  have hi : i < l.length := by
    rw [← mapE_length h]
    exact (List.getElem?_eq_some_iff.1 hy).1
  obtain ⟨z, h1, h2⟩ := mapE_inv h i l[i] (List.getElem?_eq_getElem hi)
  rw [hy] at h2
  cases h2
  exact ⟨l[i], List.getElem?_eq_getElem hi, h1⟩

/-! ## Specification -/

/-- The pointing is one of the imager. -/
def OfImager (q : OldPointing C) : Prop := ∃ ch du f, q.receiver = some (.nickel ch du f)

/-- The mini-array is a remote one. -/
def IsRemote (i : Item) : Prop := ∃ n, i = .int n ∧ 96 < n

theorem remote_iff (i : Item) : remoteItem i = true ↔ IsRemote i := by
  cases i with
  | int n =>
    show decide (96 < n) = true ↔ _
    rw [decide_eq_true_eq]
    exact ⟨fun h => ⟨n, rfl, h⟩, fun ⟨m, h1, h2⟩ => by cases h1; exact h2⟩
  | time s => exact ⟨(fun h => nomatch h), (fun ⟨m, h1, _⟩ => nomatch h1)⟩
  | str s => exact ⟨(fun h => nomatch h), (fun ⟨m, h1, _⟩ => nomatch h1)⟩

theorem imager_iff (q : OldPointing C) (b : Bool) (h : usesImager q = .ok b) : b = true ↔ OfImager q := by
  unfold usesImager at h
  unfold OfImager
  cases hr : q.receiver with
  | none => rw [hr] at h; exact nomatch h
  | some r =>
    rw [hr] at h
    have h2 := Except.ok.inj h
    cases r <;> (subst h2; simp)

/-- The removal of remote mini-arrays. -/
theorem remote_ok {f g : OldFov C} (h : oldRemote f = .ok g) : g.pointings = f.pointings ∧ ∃ l, g.fov = { f.fov with mas := l } ∧
    ((∃ q ∈ f.pointings, OfImager q) → l = f.fov.mas) ∧ ((¬ ∃ q ∈ f.pointings, OfImager q) → l = f.fov.mas.filter fun i => !remoteItem i) ∧
    ((∃ i ∈ f.fov.mas, IsRemote i) → ∀ q ∈ f.pointings, q.receiver ≠ none) := by
  unfold oldRemote at h
  obtain ⟨ns, -, h⟩ := bindE h
  by_cases hr : f.fov.mas.any remoteItem = true
  · rw [if_pos hr] at h
    obtain ⟨l, hl, rfl⟩ := mapEx h
    have hiff : true ∈ l ↔ ∃ q ∈ f.pointings, OfImager q := by
      constructor
      · intro h1
        obtain ⟨i, hi⟩ := List.getElem?_of_mem h1
        obtain ⟨q, h2, h3⟩ := mapE_back hl hi
        exact ⟨q, List.mem_of_getElem? h2, (imager_iff q true h3).1 rfl⟩
      · rintro ⟨q, h1, h2⟩
        obtain ⟨i, hi⟩ := List.getElem?_of_mem h1
        obtain ⟨b, h3, h4⟩ := mapE_inv hl i q hi
        rw [(imager_iff q b h3).2 h2] at h4
        exact List.mem_of_getElem? h4
    have hrec : ∀ q ∈ f.pointings, q.receiver ≠ none := by
      intro q h1 h2
      obtain ⟨i, hi⟩ := List.getElem?_of_mem h1
      obtain ⟨b, h3, -⟩ := mapE_inv hl i q hi
      unfold usesImager at h3
      rw [h2] at h3
      exact nomatch h3
    by_cases ht : true ∈ l
    · rw [if_pos ht]
      exact ⟨rfl, f.fov.mas, rfl, fun _ => rfl, fun h1 => absurd (hiff.1 ht) h1, fun _ => hrec⟩
    · rw [if_neg ht]
      exact ⟨rfl, _, rfl, fun h1 => absurd (hiff.2 h1) ht, fun _ => rfl, fun _ => hrec⟩
  · rw [if_neg hr] at h
    cases Except.ok.inj h
    have hall : ∀ i ∈ f.fov.mas, (!remoteItem i) = true := fun i hi => by
      have := mt (fun h2 => List.any_eq_true.2 ⟨i, hi, h2⟩) hr
      simpa using this
    refine ⟨rfl, f.fov.mas, rfl, fun _ => rfl, fun _ => (List.filter_eq_self.2 hall).symm, ?_⟩
    rintro ⟨i, hi, h2⟩
    have := hall i hi
    rw [(remote_iff i).2 h2] at this
    exact nomatch this

theorem fill_ok {bs : List (Option (Nat × OldPointing C))} {f : Fov C × Nat} {g : OldFov C} (h : oldFill zenith p bs f = .ok g) : g.fov = f.1 ∧
    ∃ x, oldXst zenith p f.1 f.2 = .ok x ∧ g.pointings = (bs.filterMap fun o => (o.filter fun q => q.1 = f.2).map Prod.snd) ++ x := by
  unfold oldFill at h
  obtain ⟨x, hx, rfl⟩ := mapEx h
  exact ⟨rfl, x, hx, rfl⟩

theorem mem_beams (bs : List (Option (Nat × OldPointing C))) (i : Nat) (q : OldPointing C) :
    (q ∈ bs.filterMap fun o => (o.filter fun r => r.1 = i).map Prod.snd) ↔ some (i, q) ∈ bs := by
  rw [List.mem_filterMap]
  constructor
  · rintro ⟨o, ho, h⟩
    cases o with
    | none => exact nomatch h
    | some r =>
      by_cases hr : r.1 = i
      · have h2 : (some r : Option (Nat × OldPointing C)).filter (fun r => decide (r.1 = i)) = some r := by simp [Option.filter, hr]
        rw [h2] at h
        have h3 : r.2 = q := Option.some.inj h
        rw [← hr, ← h3]
        exact ho
      · have h2 : (some r : Option (Nat × OldPointing C)).filter (fun r => decide (r.1 = i)) = none := by simp [Option.filter, hr]
        rw [h2] at h
        exact nomatch h
  · intro h
    refine ⟨some (i, q), h, ?_⟩
    simp [Option.filter]

/-- The field of view at position `i` of what is exported. -/
theorem old_at (h : toJsonOld F center zenith isot p = .ok j) : ∃ fovs bs, mapE (fovOf F center isot) p.anas = .ok fovs ∧
    mapE (oldBeam F center isot (fovs.map Fov.idx) p.out) p.digis = .ok bs ∧ j.fovs.length = fovs.length ∧
    ∀ i f, fovs[i]? = some f → ∃ g x, j.fovs[i]? = some g ∧ oldXst zenith p f i = .ok x ∧
      g.pointings = (bs.filterMap fun o => (o.filter fun q => q.1 = i).map Prod.snd) ++ x ∧ ∃ l, g.fov = { f with mas := l } ∧
      ((∃ q ∈ g.pointings, OfImager q) → l = f.mas) ∧ ((¬ ∃ q ∈ g.pointings, OfImager q) → l = f.mas.filter fun i => !remoteItem i) ∧
      ((∃ i ∈ f.mas, IsRemote i) → ∀ q ∈ g.pointings, q.receiver ≠ none) := by
  obtain ⟨tp, hd, fovs, bs, fs, -, -, -, -, hf, hb, hfs, hj⟩ := old_steps h
  refine ⟨fovs, bs, hf, hb, by rw [mapE_length hj, mapE_length hfs, List.length_zipIdx], fun i f hi => ?_⟩
  have hz : fovs.zipIdx[i]? = some (f, i) := by rw [List.getElem?_zipIdx, hi]; simp
  obtain ⟨g0, h1, h2⟩ := mapE_inv hfs i _ hz
  obtain ⟨h3, x, h4, h5⟩ := fill_ok h1
  obtain ⟨g, h6, h7⟩ := mapE_inv hj i g0 h2
  obtain ⟨h8, l, h9, h10, h11, h12⟩ := remote_ok h6
  rw [← h8] at h5 h10 h11 h12
  rw [h3] at h9 h10 h11 h12
  exact ⟨g, x, h7, h4, h5, l, h9, h10, h11, h12⟩

/-! ## Fields of view -/

/-- **One field of view for each analog beam**, in order, with its number, target, antennas, start and duration; **remote mini-arrays are kept exactly when a pointing of the field
uses the imager**. -/
theorem old_fields (h : toJsonOld F center zenith isot p = .ok j) : j.fovs.length = p.anas.length ∧ ∀ (i : Nat) (a : Nat × Props), p.anas[i]? = some a → ∃ f l, j.fovs[i]? = some f ∧
    f.fov.idx = a.1 ∧ dictGet a.2 "target".toList = some f.fov.name ∧ dictGet a.2 "antList".toList = some (.list f.fov.ants) ∧
    (∃ s, dictGet a.2 "startTime".toList = some (.time s) ∧ f.fov.place.2.1 = isot s) ∧ (∃ v, dictGet a.2 "duration".toList = some v ∧ secOf F v = .ok f.fov.place.2.2) ∧
    dictGet a.2 "maList".toList = some (.list l) ∧ f.fov.mas.Sublist l ∧ ((∃ q ∈ f.pointings, OfImager q) → f.fov.mas = l) ∧
    ((¬ ∃ q ∈ f.pointings, OfImager q) → ∀ i ∈ l, i ∈ f.fov.mas ↔ ¬ IsRemote i) := by
  obtain ⟨fovs, bs, hf, -, hlen, hat⟩ := old_at h
  refine ⟨by rw [hlen, mapE_length hf], fun i a ha => ?_⟩
  obtain ⟨f, h1, h2⟩ := mapE_inv hf i a ha
  obtain ⟨g1, g2, g3, g4, g5, g6⟩ := fov_ok h1
  obtain ⟨g, x, h3, -, -, l, h4, h5, h6, -⟩ := hat i f h2
  refine ⟨g, f.mas, h3, by rw [h4]; exact g1, by rw [h4]; exact g2, by rw [h4]; exact g4, by rw [h4]; exact g5, by rw [h4]; exact g6, g3, ?_, ?_, ?_⟩
  · rw [h4]
    show l.Sublist f.mas
    by_cases hi : ∃ q ∈ g.pointings, OfImager q
    · rw [h5 hi]
    · rw [h6 hi]; exact List.filter_sublist
  · intro hi
    rw [h4]
    exact h5 hi
  · intro hi k hk
    rw [h4]
    show k ∈ l ↔ _
    rw [h6 hi, List.mem_filter, ← remote_iff]
    simp [hk]

/-! ## Pointings -/

theorem beam_ok {fovs : List Nat} {out : Props} {d : Nat × Props} {o : Option (Nat × OldPointing C)} (h : oldBeam F center isot fovs out d = .ok o) :
    (oldReceiver F d.2 out = .ok none ∧ o = none) ∨ ∃ i q n b, o = some (i, q) ∧ oldReceiver F d.2 out = .ok (some q.receiver) ∧ q.idx = d.1 ∧ dictGet d.2 "target".toList = some q.name ∧
      dictGet d.2 "noBeam".toList = some b ∧ beamNumber b = some n ∧ fovs[i]? = some n := by
  unfold oldBeam at h
  obtain ⟨name, hname, h⟩ := bindE h
  obtain ⟨pl, -, h⟩ := bindE h
  obtain ⟨s, hs, h⟩ := bindE h
  cases s with
  | none => exact .inl ⟨hs, (Except.ok.inj h).symm⟩
  | some r =>
    right
    obtain ⟨nb, hnb, h⟩ := bindE h
    obtain ⟨i, hi, rfl⟩ := mapEx h
    cases hb : beamNumber nb with
    | none => rw [hb] at hi; cases hi
    | some n =>
      rw [hb] at hi
      exact ⟨i, _, n, nb, rfl, hs, rfl, item_ok hname, item_ok hnb, hb, fovPos_ok hi⟩

/-- **Each numerical beam is exported once**, in the field of view of its analog beam, with its number, target and receiver, unless it is left out for its parameters. -/
theorem old_beams (h : toJsonOld F center zenith isot p = .ok j) (d : Nat × Props) (hd : d ∈ p.digis) : oldReceiver F d.2 p.out = .ok none ∨
    ∃ f ∈ j.fovs, ∃ q ∈ f.pointings, ∃ b, oldReceiver F d.2 p.out = .ok (some q.receiver) ∧ q.idx = d.1 ∧ dictGet d.2 "target".toList = some q.name ∧
      dictGet d.2 "noBeam".toList = some b ∧ beamNumber b = some f.fov.idx := by
  obtain ⟨fovs, bs, -, hb, -, hat⟩ := old_at h
  obtain ⟨k, hk⟩ := List.getElem?_of_mem hd
  obtain ⟨o, h1, h2⟩ := mapE_inv hb k d hk
  rcases beam_ok h1 with ⟨h3, -⟩ | ⟨i, q, n, b, rfl, h4, h5, h6, h7, h8, h9⟩
  · exact .inl h3
  right
  rw [List.getElem?_map] at h9
  cases hf : fovs[i]? with
  | none => rw [hf] at h9; exact nomatch h9
  | some f =>
    rw [hf] at h9
    have h10 : f.idx = n := Option.some.inj h9
    obtain ⟨g, x, g1, -, g2, l, g3, -⟩ := hat i f hf
    refine ⟨g, List.mem_of_getElem? g1, q, ?_, b, h4, h5, h6, h7, ?_⟩
    · rw [g2, List.mem_append, mem_beams]
      exact .inl (List.mem_of_getElem? h2)
    · rw [g3, h8, ← h10]

/-- **Nothing else is exported**: a pointing of the field at position `i` is that of a numerical beam of this field, or that of cross-correlations. -/
theorem old_only (h : toJsonOld F center zenith isot p = .ok j) (i : Nat) (f : OldFov C) (hf : j.fovs[i]? = some f) (q : OldPointing C) (hq : q ∈ f.pointings) :
    (∃ d ∈ p.digis, ∃ b, q.idx = d.1 ∧ oldReceiver F d.2 p.out = .ok (some q.receiver) ∧ dictGet d.2 "noBeam".toList = some b ∧ beamNumber b = some f.fov.idx) ∨
    (pvTrue ((dictGet p.out "xst_userfile".toList).getD (.bool false)) = true ∧ q.idx = oldNext p.digis + i ∧ ∃ fr, freqOf p.out "xst_sbList".toList = .ok fr ∧
      q.receiver = some (.lanewba fr) ∧ q.place = (zenith f.fov.place.2, f.fov.place.2)) := by
  obtain ⟨fovs, bs, -, hb, hlen, hat⟩ := old_at h
  have hi : i < fovs.length := by rw [← hlen]; exact (List.getElem?_eq_some_iff.1 hf).1
  obtain ⟨g, x, g1, g2, g3, l, g4, -⟩ := hat i fovs[i] (List.getElem?_eq_getElem hi)
  rw [hf] at g1
  cases g1
  rw [g3, List.mem_append, mem_beams] at hq
  rcases hq with hq | hq
  · left
    obtain ⟨k, hk⟩ := List.getElem?_of_mem hq
    obtain ⟨d, h1, h2⟩ := mapE_back hb hk
    rcases beam_ok h2 with ⟨-, h3⟩ | ⟨i', q', n, b, h3, h4, h5, h6, h7, h8, h9⟩
    · exact nomatch h3
    · cases h3
      refine ⟨d, List.mem_of_getElem? h1, b, h5, h4, h7, ?_⟩
      rw [List.getElem?_map, List.getElem?_eq_getElem hi] at h9
      rw [h8, g4, ← Option.some.inj h9]
  · right
    unfold oldXst at g2
    by_cases hx : pvTrue ((dictGet p.out "xst_userfile".toList).getD (.bool false)) = true
    · rw [if_pos hx] at g2
      obtain ⟨fr, h1, rfl⟩ := mapEx g2
      rw [List.mem_singleton] at hq
      subst hq
      exact ⟨hx, rfl, fr, h1, rfl, by rw [g4]⟩
    · rw [if_neg hx] at g2
      cases Except.ok.inj g2
      exact nomatch hq

/-- A pulsar or time-frequency beam without parameters is not exported at all. -/
theorem old_skipped_violated (h : toJsonOld F center zenith isot p = .ok j) (hx : pvTrue ((dictGet p.out "xst_userfile".toList).getD (.bool false)) = false)
    (hn : (p.digis.map Prod.fst).Nodup) (d : Nat × Props) (hd : d ∈ p.digis) {s : Str} (hs : dictGet d.2 "toDo".toList = some (.str s))
    (ht : lower s = "pulsar".toList ∨ lower s = "dynamicspectrum".toList) (hp : dictGet d.2 "parameters".toList = none) :
    ∀ f ∈ j.fovs, ∀ q ∈ f.pointings, q.idx ≠ d.1 := by
  intro f hf q hq he
  obtain ⟨i, hi⟩ := List.getElem?_of_mem hf
  rcases old_only h i f hi q hq with ⟨e, hem, b, h1, h2, -, -⟩ | ⟨h1, -⟩
  · have hed : e = d := by
      have := List.inj_on_of_nodup_map hn hem hd (h1.symm.trans he)
      exact this
    subst hed
    have hW : ∀ g : Str → OldSetting, withParams e.2 g ≠ .ok (some q.receiver) := by
      intro g hg
      unfold withParams at hg
      rw [hp] at hg
      obtain ⟨v, -, h3⟩ := mapEx hg
      exact nomatch h3
    have hO : oldReceiver F e.2 p.out = oldToDo F (lower s) e.2 p.out := by
      unfold oldReceiver
      rw [hs]
      rfl
    rw [hO] at h2
    unfold oldToDo at h2
    rcases ht with ht | ht
    · rw [if_pos ht] at h2
      exact hW _ h2
    · rw [if_neg (by rw [ht]; decide), if_neg (by rw [ht]; decide), if_pos ht] at h2
      exact hW _ h2
  · rw [hx] at h1
    exact nomatch h1

/-! ## Numbers of the pointings -/

theorem next_gt (digis : List (Nat × Props)) (hs : (digis.map Prod.fst).Pairwise (· < ·)) (d : Nat × Props) (hd : d ∈ digis) : d.1 < oldNext digis := by
  unfold oldNext
  have hne : digis ≠ [] := List.ne_nil_of_mem hd
  rw [List.getLast?_eq_getLast_of_ne_nil hne]
  show d.1 < (digis.getLast hne).1 + 1
  obtain ⟨i, hi, rfl⟩ := List.getElem_of_mem hd
  rw [List.getLast_eq_getElem]
  rcases Nat.lt_or_ge i (digis.length - 1) with h | h
  · have := List.pairwise_iff_getElem.1 hs i (digis.length - 1) (by rw [List.length_map]; exact hi) (by rw [List.length_map]; omega) h
    simp only [List.getElem_map] at this
    omega
  · have : i = digis.length - 1 := by omega
    subst this
    omega

/-- Missing (see `old_numbers_violated`): **pointings have different numbers**, if the numbers of the numerical beams increase in the file. Two pointings with the same number are in the
same field and are the same. -/
theorem old_numbers_partial (h : toJsonOld F center zenith isot p = .ok j) (hs : (p.digis.map Prod.fst).Pairwise (· < ·)) (i i' : Nat) (f f' : OldFov C) (hf : j.fovs[i]? = some f)
    (hf' : j.fovs[i']? = some f') (q q' : OldPointing C) (hq : q ∈ f.pointings) (hq' : q' ∈ f'.pointings) (he : q.idx = q'.idx) : i = i' ∧ q = q' := by
  obtain ⟨fovs, bs, -, hb, hlen, hat⟩ := old_at h
  have hn : (p.digis.map Prod.fst).Nodup := hs.imp fun h => Nat.ne_of_lt h
  have hi : i < fovs.length := by rw [← hlen]; exact (List.getElem?_eq_some_iff.1 hf).1
  have hi' : i' < fovs.length := by rw [← hlen]; exact (List.getElem?_eq_some_iff.1 hf').1
  obtain ⟨g, x, g1, g2, g3, -⟩ := hat i fovs[i] (List.getElem?_eq_getElem hi)
  obtain ⟨g', x', g1', g2', g3', -⟩ := hat i' fovs[i'] (List.getElem?_eq_getElem hi')
  rw [hf] at g1
  rw [hf'] at g1'
  cases g1
  cases g1'
  rw [g3, List.mem_append, mem_beams] at hq
  rw [g3', List.mem_append, mem_beams] at hq'
  have hbeam : ∀ (k : Nat) (r : OldPointing C), some (k, r) ∈ bs → ∃ m : Nat, bs[m]? = some (some (k, r)) ∧ ∃ d, p.digis[m]? = some d ∧ r.idx = d.1 := by
    intro k r hr
    obtain ⟨m, hm⟩ := List.getElem?_of_mem hr
    obtain ⟨d, h1, h2⟩ := mapE_back hb hm
    rcases beam_ok h2 with ⟨-, h3⟩ | ⟨i', q', n, b, h3, h4, h5, -⟩
    · exact nomatch h3
    · cases h3
      exact ⟨m, hm, d, h1, h5⟩
  have hxst : ∀ (k : Nat) (f : Fov C) (x : List (OldPointing C)) (r : OldPointing C), oldXst zenith p f k = .ok x → r ∈ x → r.idx = oldNext p.digis + k ∧ x = [r] := by
    intro k f x r hx hr
    unfold oldXst at hx
    split_ifs at hx
    · obtain ⟨fr, h1, rfl⟩ := mapEx hx
      rw [List.mem_singleton] at hr
      subst hr
      exact ⟨rfl, rfl⟩
    · cases Except.ok.inj hx
      exact nomatch hr
  rcases hq with hq | hq <;> rcases hq' with hq' | hq'
  · obtain ⟨m, m1, d, m2, m3⟩ := hbeam _ _ hq
    obtain ⟨m', m1', d', m2', m3'⟩ := hbeam _ _ hq'
    have hmm : m = m' := by
      obtain ⟨a1, a2⟩ := List.getElem?_eq_some_iff.1 m2
      obtain ⟨b1, b2⟩ := List.getElem?_eq_some_iff.1 m2'
      have : (p.digis.map Prod.fst)[m]'(by rw [List.length_map]; exact a1) = (p.digis.map Prod.fst)[m']'(by rw [List.length_map]; exact b1) := by
        rw [List.getElem_map, List.getElem_map, a2, b2, ← m3, ← m3', he]
      exact hn.getElem_inj_iff.1 this
    subst hmm
    rw [m1] at m1'
    cases m1'
    exact ⟨rfl, rfl⟩
  · obtain ⟨m, m1, d, m2, m3⟩ := hbeam _ _ hq
    obtain ⟨h1, -⟩ := hxst _ _ _ _ g2' hq'
    have := next_gt p.digis hs d (List.mem_of_getElem? m2)
    omega
  · obtain ⟨m, m1, d, m2, m3⟩ := hbeam _ _ hq'
    obtain ⟨h1, -⟩ := hxst _ _ _ _ g2 hq
    have := next_gt p.digis hs d (List.mem_of_getElem? m2)
    omega
  · obtain ⟨h1, h2⟩ := hxst _ _ _ _ g2 hq
    obtain ⟨h1', h2'⟩ := hxst _ _ _ _ g2' hq'
    have hii : i = i' := by omega
    subst hii
    rw [g2] at g2'
    cases g2'
    rw [h2] at h2'
    exact ⟨rfl, (List.cons.inj h2').1⟩

/-! ## Failures of the whole export -/

/-- A beam of unknown task (such as `TBD` without the imager, or `none`), in a field of view with remote mini-arrays, makes the whole export fail. -/
theorem old_task_violated (d : Nat × Props) (hd : d ∈ p.digis) {s : Str} (hs : dictGet d.2 "toDo".toList = some (.str s)) (h1 : lower s ≠ "pulsar".toList)
    (h2 : lower s ≠ "waveform".toList) (h3 : lower s ≠ "dynamicspectrum".toList) (h4 : lower s = "tbd".toList → usesNickel p.out = .ok false) {n : Nat}
    (hb : dictGet d.2 "noBeam".toList = some (.int n)) (hr : ∀ a ∈ p.anas, a.1 = n → ∃ l, dictGet a.2 "maList".toList = some (.list l) ∧ ∃ i ∈ l, IsRemote i) :
    ∃ e, toJsonOld F center zenith isot p = .error e := by
  cases hj : toJsonOld F center zenith isot p with
  | error e => exact ⟨e, rfl⟩
  | ok j =>
    exfalso
    have hO : oldReceiver F d.2 p.out = .ok (some none) := by
      have : oldReceiver F d.2 p.out = oldToDo F (lower s) d.2 p.out := by
        unfold oldReceiver
        rw [hs]
        rfl
      rw [this]
      unfold oldToDo
      rw [if_neg h1, if_neg h2, if_neg h3]
      by_cases h5 : lower s = "tbd".toList
      · rw [if_pos h5, h4 h5]; rfl
      · rw [if_neg h5]
    rcases old_beams hj d hd with h5 | ⟨f, hf, q, hq, b, h5, -, -, h6, h7⟩
    · rw [hO] at h5
      exact nomatch h5
    · rw [hO] at h5
      have h8 : none = q.receiver := Option.some.inj (Except.ok.inj h5)
      rw [hb] at h6
      cases h6
      have h9 : n = f.fov.idx := Option.some.inj h7
      obtain ⟨i, hi⟩ := List.getElem?_of_mem hf
      obtain ⟨fovs, bs, hfo, -, hlen, hat⟩ := old_at hj
      have hlt : i < fovs.length := by rw [← hlen]; exact (List.getElem?_eq_some_iff.1 hi).1
      obtain ⟨g, x, g1, -, -, l, g3, -, -, g4⟩ := hat i fovs[i] (List.getElem?_eq_getElem hlt)
      rw [hi] at g1
      cases g1
      obtain ⟨a, ha, h10⟩ := mapE_back hfo (List.getElem?_eq_getElem hlt)
      obtain ⟨k1, -, k3, -⟩ := fov_ok h10
      rw [g3] at h9
      obtain ⟨l', hl', hrem⟩ := hr a (List.mem_of_getElem? ha) (k1.symm.trans h9.symm)
      rw [hl'] at k3
      cases k3
      exact g4 hrem q hq h8.symm

/-- A file without entry for the high rate receivers cannot be exported. -/
theorem old_receivers_violated (hh : dictGet p.out "hd_receivers".toList = none) : ∃ e, toJsonOld F center zenith isot p = .error e := by
  cases hj : toJsonOld F center zenith isot p with
  | error e => exact ⟨e, rfl⟩
  | ok j =>
    obtain ⟨tp, hd, fovs, bs, fs, -, -, h1, -⟩ := old_steps hj
    rw [hh] at h1
    exact nomatch h1

/-! ## Receivers -/

theorem todo_str {d out : Props} {t : Str} (ht : dictGet d "toDo".toList = some (.str t)) : oldReceiver F d out = oldToDo F (lower t) d out := by
  unfold oldReceiver
  rw [ht]
  rfl

/-- **The receiver of a pulsar beam** follows the mode written in its parameters, with the source and the frequencies of the beam. -/
theorem old_modes_exact {d out : Props} {t s : Str} (ht : dictGet d "toDo".toList = some (.str t)) (hl : lower t = "pulsar".toList) (hp : dictGet d "parameters".toList = some (.str s))
    {src : PV} (hs : Config.find (paramsOf true s) "src".toList = some src) {f : List (ℚ × ℚ)} (hf : beamFreq d = .ok f) :
    (modeOf s = "fold".toList → oldReceiver F d out = .ok (some (some (.fold src (polarsOf (paramsOf true s)) f)))) ∧
    (modeOf s = "single".toList → ∀ v n, Config.find (paramsOf true s) "dstime".toList = some v → pvInt v = .ok n →
      oldReceiver F d out = .ok (some (some (.single src n (polarsOf (paramsOf true s)) f)))) ∧
    (modeOf s = "waveolaf".toList → oldReceiver F d out = .ok (some (some (.waveolaf src f)))) ∧ (modeOf s = "wave".toList → oldReceiver F d out = .ok (some (some (.wave src f)))) ∧
    (modeOf s ∉ ["fold".toList, "single".toList, "waveolaf".toList, "wave".toList] → oldReceiver F d out = .ok (some none)) := by
  have hO : oldReceiver F d out = (oldPulsar d (modeOf s) (paramsOf true s)).map some := by
    rw [todo_str ht]
    unfold oldToDo
    rw [if_pos hl]
    unfold withParams
    rw [hp]
    rfl
  have hsrc : oldSrc (paramsOf true s) = .ok src := by unfold oldSrc; rw [hs]; rfl
  have n1 : "single".toList ≠ "fold".toList := by decide +kernel
  have n2 : "waveolaf".toList ≠ "fold".toList := by decide +kernel
  have n3 : "waveolaf".toList ≠ "single".toList := by decide +kernel
  have n4 : "wave".toList ≠ "fold".toList := by decide +kernel
  have n5 : "wave".toList ≠ "single".toList := by decide +kernel
  have n6 : "wave".toList ≠ "waveolaf".toList := by decide +kernel
  rw [hO]
  unfold oldPulsar
  refine ⟨fun h => ?_, fun h v n hv hn => ?_, fun h => ?_, fun h => ?_, fun h => ?_⟩
  · rw [if_pos h, hsrc, hf]
    rfl
  · rw [h, if_neg n1, if_pos rfl, hsrc, hf, hv]
    show Except.map some ((pvInt v).bind _) = _
    rw [hn]
    rfl
  · rw [h, if_neg n2, if_neg n3, if_pos rfl, hsrc, hf]
    rfl
  · rw [h, if_neg n4, if_neg n5, if_neg n6, if_pos rfl, hsrc, hf]
    rfl
  · rw [if_neg (fun e => h (by rw [e]; simp)), if_neg (fun e => h (by rw [e]; simp)), if_neg (fun e => h (by rw [e]; simp)), if_neg (fun e => h (by rw [e]; simp))]
    rfl

/-- **The receiver of a beam of dynamic spectra** has the resolutions of its parameters; the beam is left out if one of them is missing. -/
theorem old_spectra_exact {d out : Props} {t s : Str} (ht : dictGet d "toDo".toList = some (.str t)) (hl : lower t = "dynamicspectrum".toList)
    (hp : dictGet d "parameters".toList = some (.str s)) {f : List (ℚ × ℚ)} (hf : beamFreq d = .ok f) :
    (∀ dt df, Config.floatAt F (paramsOf false s) "dt".toList = .ok dt → Config.floatAt F (paramsOf false s) "df".toList = .ok df → oldReceiver F d out = .ok (some (some (.tf dt df f)))) ∧
    (Config.find (paramsOf false s) "dt".toList = none → oldReceiver F d out = .ok none) := by
  have n1 : "dynamicspectrum".toList ≠ "pulsar".toList := by decide +kernel
  have n2 : "dynamicspectrum".toList ≠ "waveform".toList := by decide +kernel
  have hO : oldReceiver F d out = orSkip ((Config.floatAt F (paramsOf false s) "dt".toList).bind fun dt => (Config.floatAt F (paramsOf false s) "df".toList).bind fun df =>
      (beamFreq d).map fun f => some (some (.tf dt df f))) := by
    rw [todo_str ht]
    unfold oldToDo
    rw [hl, if_neg n1, if_neg n2, if_pos rfl]
    unfold withParams
    rw [hp]
    rfl
  rw [hO]
  refine ⟨fun dt df h1 h2 => ?_, fun h => ?_⟩
  · rw [h1, h2, hf]
    rfl
  · have h1 : Config.floatAt F (paramsOf false s) "dt".toList = .error .keyError := by unfold Config.floatAt; rw [h]; rfl
    rw [h1]
    rfl

/-- **Each field of view has a pointing for cross-correlations** when they are taken, on the zenith, with their sub-bands. -/
theorem old_xst_exact (h : toJsonOld F center zenith isot p = .ok j) (hx : pvTrue ((dictGet p.out "xst_userfile".toList).getD (.bool false)) = true) (i : Nat) (f : OldFov C)
    (hf : j.fovs[i]? = some f) : ∃ q ∈ f.pointings, ∃ fr, q.idx = oldNext p.digis + i ∧ freqOf p.out "xst_sbList".toList = .ok fr ∧ q.receiver = some (.lanewba fr) ∧
      q.place = (zenith f.fov.place.2, f.fov.place.2) := by
  obtain ⟨fovs, bs, -, -, hlen, hat⟩ := old_at h
  have hi : i < fovs.length := by rw [← hlen]; exact (List.getElem?_eq_some_iff.1 hf).1
  obtain ⟨g, x, g1, g2, g3, l, g4, -⟩ := hat i fovs[i] (List.getElem?_eq_getElem hi)
  rw [hf] at g1
  cases g1
  unfold oldXst at g2
  rw [if_pos hx] at g2
  obtain ⟨fr, h1, rfl⟩ := mapEx g2
  refine ⟨⟨oldNext p.digis + i, .str [], (zenith fovs[i].place.2, fovs[i].place.2), some (.lanewba fr)⟩, ?_, fr, rfl, h1, rfl, ?_⟩
  · rw [g3]
    exact List.mem_append_right _ (List.mem_singleton.2 rfl)
  · rw [g4]

/-- **The receivers exported are those of the file**, when given as lists. -/
theorem old_receivers_exact (h : toJsonOld F center zenith isot p = .ok j) {a : List Item} (ha : dictGet p.out "hd_receivers".toList = some (.list a)) :
    (dictGet p.out "nri_receivers".toList = none → j.receivers = a) ∧ ∀ b, dictGet p.out "nri_receivers".toList = some (.list b) → j.receivers = a ++ b := by
  obtain ⟨tp, hd, fovs, bs, fs, -, -, h1, h2, -⟩ := old_steps h
  rw [ha] at h1
  cases h1
  constructor
  · intro h3
    rw [h3] at h2
    have h4 : Except.ok (a ++ []) = Except.ok j.receivers := h2
    rw [← Except.ok.inj h4, List.append_nil]
  · intro b h3
    rw [h3] at h2
    exact (Except.ok.inj h2).symm

/-- The duration of a file is read as a text that ends with "s", which is refused: no file with an analog beam that has a duration can be exported (as with `to_json`). -/
theorem old_export_violated (hF : ∀ s, F (s ++ ['s']) = none) {isTime : Str → Bool} {isFloat : IsFloat} {lines : List Str} (hr : readFile isTime isFloat lines = .ok p) {n : Nat} {a : Props}
    (ha : (n, a) ∈ p.anas) {s : Str} (hs : dictGet a "duration".toList = some (.str s)) : ∃ e, toJsonOld F center zenith isot p = .error e := by
  cases hj : toJsonOld F center zenith isot p with
  | error e => exact ⟨e, rfl⟩
  | ok j =>
    exfalso
    obtain ⟨i, hi⟩ := List.getElem?_of_mem ha
    obtain ⟨f, l, -, -, -, -, -, ⟨v, hv, hsec⟩, -⟩ := (old_fields hj).2 i _ hi
    have hv' : dictGet a "duration".toList = some v := hv
    rw [hs] at hv'
    cases hv'
    obtain ⟨w, hw⟩ : ∃ w, s = w ++ ['s'] := by
      obtain ⟨t, ht⟩ := ((readFile_valid hr).anas.2 (n, a) ha).2 _ _ hs
      unfold setItem at ht
      dsimp only at ht
      by_cases h1 : (clean t).head? = some '[' ∧ (clean t).getLast? = some ']'
      · rw [if_pos h1] at ht
        obtain ⟨l, -, h⟩ := mapEx ht
        cases h
      · rw [if_neg h1] at ht
        by_cases h2 : lower (clean t) = "true".toList
        · rw [if_pos h2] at ht; cases ht
        · rw [if_neg h2] at ht
          by_cases h3 : lower (clean t) = "false".toList
          · rw [if_pos h3] at ht; cases ht
          · rw [if_neg h3, if_neg (by decide), if_pos (by decide)] at ht
            injection ht with ht
            injection ht with ht
            exact ⟨_, ht.symm⟩
    have h2 : secOf F (.str s) = .error .valueError := by
      show (F s).elim _ _ = _
      rw [hw, hF]
      rfl
    rw [h2] at hsec
    cases hsec

/-! ## Topics -/

/-- **A code `ESxx` and a name are taken from the topic.** -/
theorem old_topic_exact (a b : Char) (name : Str) : oldTopic ('E' :: 'S' :: a :: b :: ' ' :: name) = (['E', 'S', a, b], name) := rfl

/-- But a topic read from a file is in lower case: its code is lost, and its text is exported as the name of `ES00`. -/
theorem old_topic_violated (isTime : Str → Bool) (isFloat : IsFloat) (t s : Str) (hv : setItem isTime isFloat "topic".toList t = .ok (.str s)) (hc : ':' ∉ s) :
    oldTopic s = ("ES00".toList, lower (clean t)) := by
  obtain ⟨-, h | h⟩ := stored_text (by decide) (by decide) hv
  · exact absurd h hc
  have hno : ¬ "ES".toList.isPrefixOf s = true := by
    intro hp
    have h2 : "ES".toList <+: s := List.isPrefixOf_iff_prefix.1 hp
    have h3 : 'E' ∈ s := h2.subset (by decide)
    rw [h] at h3
    exact no_cap _ 'E' h3 (by decide)
  unfold oldTopic
  rw [if_neg hno, h]

/-- Even as written in the file, topics of other kinds get the code `ES00`. -/
theorem old_topic_other_violated : oldTopic "LT02 COSMICDAWN".toList = ("ES00".toList, "LT02 COSMICDAWN".toList) ∧ decodeTopic "LT02 COSMICDAWN".toList = ("LT02".toList, "COSMICDAWN".toList) := by
  decide +kernel

/-! ## Concrete files -/

/-- A file with two beams, in decreasing order of their numbers, and cross-correlations. -/
def swappedFile : List Str :=
  ["Observation.startTime=2024-01-01T00:00:00Z\n".toList, "Observation.stopTime=2024-01-01T01:00:00Z\n".toList, "Observation.topic=ES02 Exoplanets\n".toList,
   "Anabeam[0].target=src\n".toList, "Anabeam[0].startTime=2024-01-01T00:00:00Z\n".toList, "Anabeam[0].duration=3600s\n".toList, "Anabeam[0].maList=[0..3,101]\n".toList,
   "Anabeam[0].antList=[1..19]\n".toList, "Anabeam[0].filter=[1]\n".toList, "Anabeam[0].filterTime=[2024-01-01T00:00:00Z]\n".toList,
   "Beam[1].target=src\n".toList, "Beam[1].noBeam=0\n".toList, "Beam[1].startTime=2024-01-01T00:00:00Z\n".toList, "Beam[1].duration=3600s\n".toList, "Beam[1].toDo=waveform\n".toList,
   "Beam[1].subbandList=[100..102]\n".toList,
   "Beam[0].target=src\n".toList, "Beam[0].noBeam=0\n".toList, "Beam[0].startTime=2024-01-01T00:00:00Z\n".toList, "Beam[0].duration=3600s\n".toList, "Beam[0].toDo=waveform\n".toList,
   "Beam[0].subbandList=[100..102]\n".toList,
   "Output.hd_receivers=[undysputed]\n".toList, "Output.xst_userfile=true\n".toList, "Output.xst_sbList=[200..201]\n".toList]

/-- The result for this file, if durations were read. -/
def swappedJson : Except Err (OldJson Unit) := (readFile (fun s => s.head? = some '2') (fun _ => false) swappedFile).bind fun p =>
  toJsonOld (fun s => some s.length) (fun _ _ => .ok ()) (fun _ => ()) id p

/-- The pointing of cross-correlations gets the number of a beam. -/
theorem old_numbers_violated : ∃ j, swappedJson = .ok j ∧ (j.fovs.map fun f => (f.fov.mas, f.pointings.map fun q => q.idx)) = [([.int 0, .int 1, .int 2, .int 3], [1, 0, 1])] := by
  have h : swappedJson.toOption.any (fun j => decide ((j.fovs.map fun f => (f.fov.mas, f.pointings.map fun q => q.idx)) = [([.int 0, .int 1, .int 2, .int 3], [1, 0, 1])])) = true := by
    decide +kernel
  generalize swappedJson = r at h
  cases r with
  | error e => cases h
  | ok j => exact ⟨j, rfl, of_decide_eq_true h⟩

/-- A file of the imager keeps its remote mini-arrays. -/
example : ((readFile (fun s => s.head? = some '2') (fun _ => false) (nickelFile.map (fun l => if l = "Beam[0].toDo=nickel\n".toList then "Beam[0].toDo=tbd\n".toList else l) ++
    ["Output.hd_receivers=[]\n".toList, "Output.nri_receivers=[nickel]\n".toList])).bind fun p =>
  toJsonOld (fun s => some s.length) (fun _ _ => .ok ()) (fun _ => ()) id p).toOption.map (fun j => j.fovs.map fun f => (f.fov.mas, f.pointings.length)) =
    some [([.int 0, .int 1, .int 2, .int 3, .int 101], 1)] := by decide +kernel

end Verif.Parset
