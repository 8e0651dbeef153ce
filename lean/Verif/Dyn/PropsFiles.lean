import Verif.Dyn.PropsFile
import Verif.TF.PropsLimits

/-!
# Several lane files read together (property C171)
-/

namespace Verif.Dyn

open Verif.Raw

/-! ## Specification -/

/-- The files of one observation: as many blocks in each, of the same shape, from the same date on. The numbers of sub-bands may differ. -/
structure Together (nt nc n : Nat) (N : Int) (D : ℚ) (files : List (List Block)) : Prop where
  lane : ∀ bs ∈ files, ∃ ns : Nat, LaneFile ns nt nc N bs
  blocks : ∀ bs ∈ files, bs.length = n
  date : ∀ bs ∈ files, ∀ b ∈ bs.head?, dateOf b.header = D

/-- The beam is in one of the files. -/
def Recorded (files : List (List Block)) (B : Nat) : Prop := ∃ bs ∈ files, ∃ b ∈ bs.head?, ∃ x ∈ b.data, x.beam = (B : Int)

/-- The settings used last do not change the beam. -/
def NoBeam (sets : List Set) : Prop := ∀ s ∈ sets, ∀ b : Arg, s ≠ .beam b

/-! ## Gathering -/

/-- Data sets on the same times are joined into the samples of both. -/
theorem and_perm {s o r : IO.SData} (h : IO.sdataAnd s o = .ok r) (ws : s.WF) (wo : o.WF) (ht : s.time = o.time) :
    r.samples.Perm (s.samples ++ o.samples) := by
  have t1 := ws.table
  have t2 := wo.table
  rw [← ht] at t2
  have eo : o.samples = IO.samples s.time o.freq o.data := by unfold IO.SData.samples; rw [ht]
  rw [eo]
  unfold IO.sdataAnd at h
  by_cases h1 : s.polar ≠ o.polar
  · rw [if_pos h1] at h
    cases h
  rw [if_neg h1] at h
  obtain ⟨b, _, h⟩ := bind_inv h
  split_ifs at h with h2 h3 h4
  · obtain ⟨d, hd, h⟩ := bind_inv h
    obtain ⟨rfl, _⟩ := mkSData_inv h
    unfold IO.hstack3 at hd
    rw [if_pos (by rw [t1.1.1, t2.1.1])] at hd
    cases hd
    exact IO.samples_hstack _ _ _ _ _ t1.1 t2.1
  · obtain ⟨d, hd, h⟩ := bind_inv h
    obtain ⟨rfl, _⟩ := mkSData_inv h
    unfold IO.hstack3 at hd
    rw [if_pos (by rw [t1.1.1, t2.1.1])] at hd
    cases hd
    exact (IO.samples_hstack _ _ _ _ _ t2.1 t1.1).trans List.perm_append_comm

/-- What holds for the samples of all lanes holds for those gathered, when the lanes have the same times. -/
theorem gather_from {α : Type} (piece : α → Except Err (Option IO.SData)) (P : IO.Sample (List ℚ) → Prop) (ts : List ℚ) :
    ∀ (lanes : List α) (acc : Option IO.SData) (d : IO.SData),
      (∀ L ∈ lanes, ∀ s : IO.SData, piece L = .ok (some s) → s.WF ∧ s.time = ts ∧ ∀ x ∈ s.samples, P x) →
      (∀ s : IO.SData, acc = some s → s.WF ∧ s.time = ts ∧ ∀ x ∈ s.samples, P x) → gather piece acc lanes = .ok (some d) →
      d.WF ∧ d.time = ts ∧ ∀ x ∈ d.samples, P x
  | [], acc, d, _, hacc, h => by
    cases h
    exact hacc d rfl
  | L :: Ls, acc, d, hp, hacc, h => by
    unfold gather at h
    obtain ⟨p, hpl, h⟩ := bind_inv h
    obtain ⟨a, ha, h⟩ := bind_inv h
    refine gather_from piece P ts Ls a d (fun K hK => hp K (List.mem_cons_of_mem _ hK)) ?_ h
    cases p with
    | none =>
      cases ha
      exact hacc
    | some s =>
      have hs := hp L List.mem_cons_self s hpl
      cases acc with
      | none =>
        cases ha
        intro s' e
        cases e
        exact hs
      | some z =>
        have hz := hacc z rfl
        change (IO.sdataAnd z s).map some = _ at ha
        obtain ⟨r, hr, e⟩ := map_inv ha
        subst e
        intro s' e
        cases e
        obtain ⟨w, t, _, _⟩ := sdataAnd_fields hr
        refine ⟨w, t.trans hz.2.1, ?_⟩
        intro x hx
        have := (and_perm hr hz.1 hs.1 (hz.2.1.trans hs.2.1.symm)).mem_iff.1 hx
        rcases List.mem_append.1 this with g | g
        · exact hz.2.2 x g
        · exact hs.2.2 x g

/-! ## Settings -/

theorem set_lanes (r : Reader) (s : Set) : (applySet r s).lanes = r.lanes := by
  cases s with
  | times t => unfold applySet setTimes; dsimp only; split_ifs <;> rfl
  | freqs t => unfold applySet setFreqs; dsimp only; split_ifs <;> rfl
  | beam b =>
    cases b with
    | other => rfl
    | int b => unfold applySet setBeam; dsimp only; split_ifs <;> rfl
  | edges b =>
    cases b with
    | other => rfl
    | int b => unfold applySet setEdges; dsimp only; split_ifs <;> rfl

theorem sets_lanes (sets : List Set) (r : Reader) : (sets.foldl applySet r).lanes = r.lanes := by
  induction sets generalizing r with
  | nil => rfl
  | cons s l ih => rw [List.foldl_cons, ih, set_lanes]

theorem set_beam {s : Set} (h : ∀ b : Arg, s ≠ .beam b) (r : Reader) : (applySet r s).beam = r.beam := by
  cases s with
  | times t => unfold applySet setTimes; dsimp only; split_ifs <;> rfl
  | freqs t => unfold applySet setFreqs; dsimp only; split_ifs <;> rfl
  | beam b => exact absurd rfl (h b)
  | edges b =>
    cases b with
    | other => rfl
    | int b => unfold applySet setEdges; dsimp only; split_ifs <;> rfl

theorem sets_beam {sets : List Set} (h : NoBeam sets) (r : Reader) : (sets.foldl applySet r).beam = r.beam := by
  induction sets generalizing r with
  | nil => rfl
  | cons s l ih => rw [List.foldl_cons, ih fun x hx => h x (List.mem_cons_of_mem _ hx), set_beam (h s List.mem_cons_self)]

theorem beam_given {r : Reader} {B : Nat} (h : B ∈ beamsOf r) : applySet r (.beam (.int B)) = { r with beam := B } := by
  show ((setBeam r (.int B)).toOption).getD r = _
  have : setBeam r (.int B) = .ok { r with beam := B } := by
    show (if 0 ≤ (B : Int) ∧ (B : Int).toNat ∈ beamsOf r then _ else _) = _
    rw [if_pos ⟨by omega, by rwa [Int.toNat_natCast]⟩, Int.toNat_natCast]
  rw [this]
  rfl

theorem mapM_map {α β : Type} {f : α → Except Err β} (g : α → β) : ∀ (l : List α), (∀ a ∈ l, f a = .ok (g a)) → l.mapM f = .ok (l.map g)
  | [], _ => rfl
  | a :: l, h => by
    rw [List.mapM_cons, h a List.mem_cons_self, mapM_map g l fun x hx => h x (List.mem_cons_of_mem _ hx)]
    rfl

/-- The axis of times only depends on the start, the step and the number of times. -/
theorem times_same {L K : Lane} (h1 : L.start = K.start) (h2 : L.dt = K.dt) (h3 : L.nt = K.nt) (tr : ℚ × ℚ) :
    laneTime L = laneTime K ∧ selTimes L tr = selTimes K tr := by
  have e : laneTime L = laneTime K := by
    funext k
    unfold laneTime
    rw [h1, h2]
  refine ⟨e, ?_⟩
  unfold selTimes
  rw [e, h3]

/-- The beams of the lanes are those of the files. -/
theorem lane_beams {nt nc n : Nat} {N : Int} {D : ℚ} {files : List (List Block)} (h : Together nt nc n N D files) {bs : List Block}
    (hb : bs ∈ files) (fl : Nat → ℚ) : ∃ (l : Loaded) (b0 : Block), loadLane fl (writeFile bs) = .ok l ∧ bs.head? = some b0 ∧
      l.lane.beams = (b0.data.map fun x => x.beam.toNat) ∧ l.lane.start = D ∧ l.lane.dt = sampleTime nc N ∧ l.lane.nt = n * nt
      ∧ l.lane = laneOf bs.length b0 := by
  obtain ⟨ns, hL⟩ := h.lane bs hb
  obtain ⟨l, b0, hl, hb0, hlane, _⟩ := load_exact hL fl
  obtain ⟨b0', hb0', _, _, _, _, e3, e4, e5, e6, _⟩ := lane_axes hL
  rw [hb0] at hb0'
  cases hb0'
  rw [← hlane] at e3 e4 e5 e6
  exact ⟨l, b0, hl, hb0, e3, by rw [e4, h.date bs hb b0 hb0], e5, by rw [e6, h.blocks bs hb], hlane⟩

/-- The lane of a file. -/
def loaded (fl : Nat → ℚ) (bs : List Block) : Loaded :=
  ((loadLane fl (writeFile bs)).toOption).getD ⟨⟨0, [], [], 0, 0, 0, 0⟩, ⟨[], fun _ => none⟩⟩

theorem loaded_eq {nt nc n : Nat} {N : Int} {D : ℚ} {files : List (List Block)} (h : Together nt nc n N D files) {bs : List Block}
    (hb : bs ∈ files) (fl : Nat → ℚ) : loadLane fl (writeFile bs) = .ok (loaded fl bs) := by
  obtain ⟨l, _, hl, _⟩ := lane_beams h hb fl
  unfold loaded
  rw [hl]
  rfl

theorem files_loaded {nt nc n : Nat} {N : Int} {D : ℚ} {files : List (List Block)} (h : Together nt nc n N D files) (fl : Nat → ℚ) :
    (files.map writeFile).mapM (loadLane fl) = .ok (files.map (loaded fl)) := by
  have := mapM_map (f := fun bs => loadLane fl (writeFile bs)) (loaded fl) files fun bs hb => loaded_eq h hb fl
  rw [← this, List.mapM_map]
  rfl

/-- **C171** What is read from lane files is what was recorded: when the files of one observation are read with any settings, each value of
the result is the one recorded in one of the files for the beam asked for, with its time and its frequency. -/
theorem read_sound {nt nc n : Nat} {N : Int} {D : ℚ} {files : List (List Block)} (h : Together nt nc n N D files) (fl : Nat → ℚ) (B : Nat)
    (hB : Recorded files B) (hc : ∀ bs ∈ files, ∀ b ∈ bs.head?, TF.Contiguous (b.data.map fun x => x.beam.toNat) B)
    (before after : List Set) (ha : NoBeam after) (d : IO.SData)
    (hd : readFiles fl (files.map writeFile) (before ++ .beam (.int B) :: after) allFour = .ok (some d)) :
    ∀ x ∈ d.samples, ∃ bs ∈ files, IsSample fl nt nc N bs B x := by
  unfold readFiles at hd
  obtain ⟨ls, hls, hd⟩ := bind_inv hd
  obtain ⟨r0, hr0, hd⟩ := bind_inv hd
  have hlanes : r0.lanes = ls.map Loaded.lane := by
    unfold create at hr0
    obtain ⟨r1, hr1, rfl⟩ := map_inv hr0
    have e1 : (setEdges r1 (.int 0)).lanes = r1.lanes := set_lanes r1 (.edges (.int 0))
    rw [e1]
    have := set_lanes ⟨ls.map Loaded.lane, List.range ls.length, none, none, 0, 0⟩ (.beam (.int 0))
    change ((setBeam _ (.int 0)).toOption.getD _).lanes = _ at this
    rw [hr1] at this
    exact this
  rw [files_loaded h fl] at hls
  cases hls
  have hfrom : ∀ l ∈ files.map (loaded fl), ∃ bs ∈ files, loadLane fl (writeFile bs) = .ok l := by
    intro l hl
    obtain ⟨bs, hbs, rfl⟩ := List.mem_map.1 hl
    exact ⟨bs, hbs, loaded_eq h hbs fl⟩
  have hmem : ∀ r : Reader, r.lanes = r0.lanes → B ∈ beamsOf r := by
    intro r hr
    obtain ⟨bs, hbs, b, hb, x, hx, hxB⟩ := hB
    obtain ⟨l', b0, e', hb0, e3, _⟩ := lane_beams h hbs fl
    rw [loaded_eq h hbs fl] at e'
    cases e'
    rw [hb0] at hb
    cases hb
    unfold beamsOf
    rw [hr, hlanes, List.mem_flatMap]
    refine ⟨(loaded fl bs).lane, List.mem_map_of_mem (List.mem_map_of_mem hbs), ?_⟩
    rw [e3]
    exact List.mem_map.2 ⟨x, hx, by omega⟩
  have hbeam : ((before ++ .beam (.int B) :: after).foldl applySet r0).beam = B := by
    rw [List.foldl_append, List.foldl_cons, sets_beam ha, beam_given (hmem _ (sets_lanes _ _))]
  unfold getLanes at hd
  generalize (before ++ .beam (.int B) :: after).foldl applySet r0 = r at hd hbeam
  let K : Lane := { nChan := 0, chans := [], beams := [], start := D, dt := sampleTime nc N, nt := n * nt, df := 0 }
  refine (gather_from _ (fun x => ∃ bs ∈ files, IsSample fl nt nc N bs B x)
    (((selTimes K (timeRange r)).map fun p => (List.range (p.2 - p.1)).map fun t => laneTime K (p.1 + t)).getD []) (files.map (loaded fl)) none d ?_ (fun s e => nomatch e) hd).2.2
  intro l hl s hs
  obtain ⟨bs, hbs, e⟩ := hfrom l hl
  obtain ⟨ns, hL⟩ := h.lane bs hbs
  obtain ⟨l', b0, e', hb0, _, f1, f2, f3, _⟩ := lane_beams h hbs fl
  rw [e] at e'
  cases e'
  obtain ⟨q, hq, w, _, ht, _, _⟩ := piece_some hs
  refine ⟨w, ?_, ?_⟩
  · obtain ⟨g1, g2⟩ := times_same (K := K) f1 f2 f3 (timeRange r)
    have hsel : selTimes l.lane (timeRange r) = some (q.t0, q.t1) := by
      unfold selectData at hq
      simp only [Option.bind_eq_some_iff, Option.map_eq_some_iff] at hq
      obtain ⟨_, _, ⟨a, c⟩, g, _, _, rfl⟩ := hq
      exact g
    rw [← g2, hsel, ht, g1]
    rfl
  · intro x hx
    have hc' : ∀ b ∈ bs.head?, TF.Contiguous (b.data.map fun x => x.beam.toNat) r.beam := by
      rw [hbeam]; exact hc bs hbs
    have := piece_sound hL fl r l e hc' s hs x hx
    rw [hbeam] at this
    exact ⟨bs, hbs, this⟩

/-- **C171** In terms of the fields received: the values are the Stokes parameters of the fields summed in this sample. -/
theorem read_fields {nt nc n : Nat} {N : Int} {D : ℚ} {files : List (List Block)} (h : Together nt nc n N D files) (fl : Nat → ℚ) (B : Nat)
    (hB : Recorded files B) (hc : ∀ bs ∈ files, ∀ b ∈ bs.head?, TF.Contiguous (b.data.map fun x => x.beam.toNat) B)
    (before after : List Set) (ha : NoBeam after) (d : IO.SData)
    (hd : readFiles fl (files.map writeFile) (before ++ .beam (.int B) :: after) allFour = .ok (some d))
    (E : List Block → Nat → Nat → Nat → Nat → List (ℂ × ℂ)) (hE : ∀ bs ∈ files, Written (fun w => ((fl w : ℚ) : ℝ)) nt nc bs (E bs)) :
    ∀ x ∈ d.samples, ∃ bs ∈ files, ∃ (i j t c : Nat) (b : Block) (y : Beamlet), bs[i]? = some b ∧ b.data[j]? = some y ∧ t < nt ∧ c < nc ∧
      y.beam = (B : Int) ∧ x.t = D + ((i * nt + t : Nat) : ℚ) * sampleTime nc N ∧
      x.f = TF.fftFreq ((y.channel : ℚ) * (390625 / 2)) nc (390625 / 2 / nc) c ∧
      x.v.map (fun v : ℚ => (v : ℝ)) = [(TF.stokesOf (E bs i j t c)).i, (TF.stokesOf (E bs i j t c)).q, (TF.stokesOf (E bs i j t c)).u,
        (TF.stokesOf (E bs i j t c)).v] := by
  intro x hx
  obtain ⟨bs, hbs, i, j, t, c, b, b0, y, hb0, hb, hy, ht, hcc, hyb, _, xt, xf, xv⟩ := read_sound h fl B hB hc before after ha d hd x hx
  obtain ⟨w1, w2, w3, w4⟩ := hE bs hbs i j t c b y hb hy ht hcc
  obtain ⟨r1, r2⟩ := TF.rec_cross (E bs i j t c)
  refine ⟨bs, hbs, i, j, t, c, b, y, hb, hy, ht, hcc, hyb, ?_, xf, ?_⟩
  · rw [xt, h.date bs hbs b0 hb0]
  · rw [xv]
    unfold recorded wordAt TF.stokesOf
    dsimp only
    rw [r1, r2, ← w1, ← w2, ← w3, ← w4]
    simp only [List.map_cons, List.map_nil, Nat.add_zero, List.cons.injEq, and_true]
    push_cast
    exact ⟨rfl, rfl, rfl, by ring⟩

/-! ## Everything -/

theorem gather_congr {α : Type} {f g : α → Except Err (Option IO.SData)} : ∀ (l : List α) (acc : Option IO.SData), (∀ a ∈ l, f a = g a) →
    gather f acc l = gather g acc l
  | [], _, _ => rfl
  | a :: l, acc, h => by
    unfold gather
    rw [h a List.mem_cons_self]
    congr 1
    funext p
    congr 1
    funext z
    exact gather_congr l z fun x hx => h x (List.mem_cons_of_mem _ hx)

theorem gather_map {α β : Type} {f : β → Except Err (Option IO.SData)} (g : α → β) : ∀ (l : List α) (acc : Option IO.SData),
    gather f acc (l.map g) = gather (fun a => f (g a)) acc l
  | [], _ => rfl
  | a :: l, acc => by
    rw [List.map_cons]
    unfold gather
    congr 1
    funext p
    congr 1
    funext z
    exact gather_map g l z

/-- Sub-bands side by side by increasing frequency: edges of the beam, and increasing frequencies of its channels. -/
theorem beam_lane {ns nt nc : Nat} {N : Int} {bs : List Block} (h : LaneFile ns nt nc N bs) {b0 : Block} (hb0 : bs.head? = some b0) {B first m : Nat}
    (hb : BeamAt b0 B first m) : TF.beamEdgesOld (laneOf bs.length b0).beams (laneOf bs.length b0).nChan B = some (first * nc, (first + m) * nc)
      ∧ TF.Contiguous (laneOf bs.length b0).beams B
      ∧ ∀ i j : Nat, first * nc ≤ i → i < j → j < (first + m) * nc → laneFreq (laneOf bs.length b0) i < laneFreq (laneOf bs.length b0) j := by
  obtain ⟨b0', hb0', hm, hlen, e1, e2, e3, e4, e5, e6, e7, e8, e9⟩ := lane_axes h
  rw [hb0] at hb0'
  cases hb0'
  generalize laneOf bs.length b0 = L at e1 e2 e3 e7 ⊢
  have hwithin := hb.within
  have hpos := hb.filled
  have hbn : ∀ s : Nat, L.beams[s]? = some B ↔ first ≤ s ∧ s < first + m := by
    intro s
    rw [e3, List.getElem?_map]
    by_cases hsn : s < b0.data.length
    · obtain ⟨x, hx⟩ : ∃ x, b0.data[s]? = some x := ⟨_, List.getElem?_eq_getElem hsn⟩
      have h0 := h.numbered b0 hm x (List.mem_of_getElem? hx)
      rw [← hb.held s x hx, hx, Option.map_some, Option.some.injEq]
      omega
    · rw [List.getElem?_eq_none (by omega)]
      simp only [Option.map_none, reduceCtorEq, false_iff]
      omega
  refine ⟨?_, ?_, ?_⟩
  · have hmem : B ∈ L.beams := List.mem_of_getElem? ((hbn first).2 ⟨le_rfl, by omega⟩)
    obtain ⟨i0, j0, hedge, hi0, hj0, hbetween⟩ := TF.edges_some L.beams L.nChan B hmem
    have a1 := hbetween first ((hbn first).2 ⟨le_rfl, by omega⟩)
    have a2 := hbetween (first + m - 1) ((hbn _).2 ⟨by omega, by omega⟩)
    rw [hbn] at hi0 hj0
    have hp : 0 < (first + m) * nc := Nat.mul_pos (by omega) h.channels
    rw [TF.beam_edges_old _ _ _ (by rw [e1]; exact h.channels), hedge, e1, show i0 = first by omega, show j0 + 1 = first + m by omega]
    show some (first * nc, (first + m) * nc - 1 + 1) = _
    rw [show (first + m) * nc - 1 + 1 = (first + m) * nc by omega]
  · intro i j k h1 h2 h3 h4
    rw [hbn] at *
    omega
  · have hch : ∀ (s : Nat) (x : Beamlet), b0.data[s]? = some x → ((L.chans.getD s 0 : Nat) : Int) = x.channel := by
      intro s x hx
      rw [e2, List.getD_eq_getElem?_getD, List.getElem?_map, hx]
      exact Int.toNat_of_nonneg (h.placed b0 hm x (List.mem_of_getElem? hx))
    have hstep : ∀ s : Nat, first ≤ s → s + 1 < first + m → L.chans.getD s 0 < L.chans.getD (s + 1) 0 := by
      intro s h1 h2
      obtain ⟨x, hx⟩ : ∃ x, b0.data[s]? = some x := ⟨_, List.getElem?_eq_getElem (by omega)⟩
      obtain ⟨y, hy⟩ : ∃ y, b0.data[s + 1]? = some y := ⟨_, List.getElem?_eq_getElem (by omega)⟩
      have := hb.sorted s x y h1 h2 hx hy
      have g1 := hch s x hx
      have g2 := hch (s + 1) y hy
      omega
    have hinc : ∀ k s : Nat, first ≤ s → s + k + 1 < first + m → L.chans.getD s 0 < L.chans.getD (s + k + 1) 0 := by
      intro k
      induction k with
      | zero => exact fun s h1 h2 => hstep s h1 h2
      | succ k ih =>
        intro s h1 h2
        exact lt_trans (ih s h1 (by omega)) (hstep (s + k + 1) (by omega) (by omega))
    intro i j hi hij hj
    have hcp := h.channels
    have ei : i = i / nc * nc + i % nc := by rw [Nat.mul_comm]; exact (Nat.div_add_mod _ _).symm
    have ej : j = j / nc * nc + j % nc := by rw [Nat.mul_comm]; exact (Nat.div_add_mod _ _).symm
    have mi : i % nc < nc := Nat.mod_lt _ hcp
    have mj : j % nc < nc := Nat.mod_lt _ hcp
    have d1 : first ≤ i / nc := (Nat.le_div_iff_mul_le hcp).2 hi
    have d2 : j / nc < first + m := (Nat.div_lt_iff_lt_mul hcp).2 hj
    have d3 : i / nc ≤ j / nc := Nat.div_le_div_right hij.le
    have f1 := chan_freq L (i / nc) (i % nc) (by rw [e1]; exact mi)
    have f2 := chan_freq L (j / nc) (j % nc) (by rw [e1]; exact mj)
    rw [e1, ← ei] at f1
    rw [e1, ← ej] at f2
    have hncq : (0 : ℚ) < nc := by exact_mod_cast hcp
    have hdf : 0 < L.df := by rw [e7]; positivity
    rw [f1, f2]
    rcases Nat.lt_or_ge (i / nc) (j / nc) with g | g
    · have := hinc (j / nc - i / nc - 1) (i / nc) d1 (by omega)
      rw [show i / nc + (j / nc - i / nc - 1) + 1 = j / nc by omega] at this
      have c1 : ((L.chans.getD (i / nc) 0 : Nat) : ℚ) + 1 ≤ ((L.chans.getD (j / nc) 0 : Nat) : ℚ) := by exact_mod_cast this
      have c2 : ((i % nc : Nat) : ℚ) + 1 ≤ nc := by exact_mod_cast mi
      have c3 : (0 : ℚ) ≤ ((j % nc : Nat) : ℚ) := Nat.cast_nonneg _
      have c4 := mul_le_mul_of_nonneg_left c1 (mul_pos hdf hncq).le
      have c5 := mul_le_mul_of_nonneg_right c2 hdf.le
      have c6 := mul_nonneg c3 hdf.le
      nlinarith
    · have e : i / nc = j / nc := le_antisymm d3 g
      have hlt : i % nc < j % nc := by rw [e] at ei; omega
      have c1 : ((i % nc : Nat) : ℚ) < ((j % nc : Nat) : ℚ) := by exact_mod_cast hlt
      rw [e]
      have := mul_lt_mul_of_pos_right c1 hdf
      linarith

theorem beam_count {b : Block} {B first m : Nat} (h : BeamAt b B first m) : b.data.countP (fun x => decide (x.beam = (B : Int))) = m := by
  have hw := h.within
  have e : b.data = b.data.take first ++ ((b.data.drop first).take m ++ (b.data.drop first).drop m) := by
    rw [List.take_append_drop, List.take_append_drop]
  rw [e, List.countP_append, List.countP_append]
  have c1 : (b.data.take first).countP (fun x => decide (x.beam = (B : Int))) = 0 := by
    rw [List.countP_eq_zero]
    intro x hx
    obtain ⟨s, hs, rfl⟩ := List.mem_iff_getElem.1 hx
    rw [List.length_take] at hs
    rw [List.getElem_take, decide_eq_true_iff, h.held s _ (List.getElem?_eq_getElem (by omega))]
    omega
  have c2 : ((b.data.drop first).take m).countP (fun x => decide (x.beam = (B : Int))) = m := by
    have hl : ((b.data.drop first).take m).length = m := by rw [List.length_take, List.length_drop]; omega
    conv_rhs => rw [← hl]
    rw [List.countP_eq_length]
    intro x hx
    obtain ⟨s, hs, rfl⟩ := List.mem_iff_getElem.1 hx
    rw [hl] at hs
    rw [List.getElem_take, List.getElem_drop, decide_eq_true_iff, h.held (first + s) _ (List.getElem?_eq_getElem (by omega))]
    omega
  have c3 : ((b.data.drop first).drop m).countP (fun x => decide (x.beam = (B : Int))) = 0 := by
    rw [List.countP_eq_zero]
    intro x hx
    obtain ⟨s, hs, rfl⟩ := List.mem_iff_getElem.1 hx
    rw [List.drop_drop] at hs
    rw [List.length_drop] at hs
    simp only [List.drop_drop, List.getElem_drop]
    rw [decide_eq_true_iff, h.held (first + m + s) _ (List.getElem?_eq_getElem (by omega))]
    omega
  omega

/-- A reader is made on lanes with beams, without ranges. -/
theorem create_ok (lanes : List Lane) (files : List Nat) (h : lanes.flatMap Lane.beams ≠ []) :
    ∃ r, create lanes files = .ok r ∧ r.lanes = lanes ∧ r.trange = none ∧ r.frange = none := by
  have hb : beamsOf ⟨lanes, files, none, none, 0, 0⟩ ≠ [] := h
  have hs : ∃ b : Nat, setBeam ⟨lanes, files, none, none, 0, 0⟩ (.int 0) = .ok ⟨lanes, files, none, none, b, 0⟩ := by
    unfold setBeam
    dsimp only
    split_ifs
    · exact ⟨_, rfl⟩
    · exact ⟨_, rfl⟩
  obtain ⟨b, hs⟩ := hs
  unfold create
  rw [hs]
  refine ⟨setEdges ⟨lanes, files, none, none, b, 0⟩ (.int 0), rfl, set_lanes _ (.edges (.int 0)), ?_, ?_⟩
  · unfold setEdges; dsimp only; split_ifs <;> rfl
  · unfold setEdges; dsimp only; split_ifs <;> rfl

/-- Number of sub-bands of the beam in a file. -/
def bandsOf (B : Nat) (bs : List Block) : Nat := bs.head?.elim 0 fun b => b.data.countP fun x => decide (x.beam = (B : Int))

/-- Without ranges, a lane gives all samples of its file for the beam, the last spectrum excepted. -/
theorem piece_default {ns nt nc : Nat} {N : Int} {bs : List Block} (hL : LaneFile ns nt nc N bs) (fl : Nat → ℚ) (r : Reader)
    (hrt : r.trange = none) (hrf : r.frange = none) (hsound : ∀ L ∈ r.lanes, L.Sound) (l : Loaded) (hld : loadLane fl (writeFile bs) = .ok l)
    (hmem : l.lane ∈ r.lanes) {b0 : Block} (hb0 : bs.head? = some b0) {first m : Nat} (hm' : BeamAt b0 r.beam first m) (h3 : 3 ≤ bs.length * nt) :
    ∃ d : IO.SData, pieceOf r allFour l = .ok (some d) ∧
      Good ((List.range (bs.length * nt - 1)).map fun k : Nat => dateOf b0.header + (k : ℚ) * sampleTime nc N) [['I'], ['Q'], ['U'], ['V']] d ∧
      d.samples.length = (bs.length * nt - 1) * (bandsOf r.beam bs * nc) ∧ ∀ x, IsSample fl nt nc N bs r.beam x → x ∈ d.samples := by
  obtain ⟨l', b0', hl', hb0', hlane, _⟩ := load_exact hL fl
  rw [hld] at hl'
  cases hl'
  rw [hb0] at hb0'
  cases hb0'
  obtain ⟨b0', hb0', hm, hlen, e1, e2, e3, e4, e5, e6, e7, e8, e9⟩ := lane_axes hL
  rw [hb0] at hb0'
  cases hb0'
  rw [← hlane] at e2 e3 e4 e5 e6
  obtain ⟨b1, _, b3⟩ := beam_lane hL hb0 hm'
  rw [← hlane] at b1 b3
  have hn2 : 2 ≤ nc := by
    have := hL.channels
    have := hL.even
    omega
  have hm1 := hm'.filled
  have hspan : (first + m) * nc = first * nc + m * nc := Nat.add_mul _ _ _
  have hmn : 2 ≤ m * nc := le_trans hn2 (Nat.le_mul_of_pos_left _ hm1)
  have hq := default_read_partial r l.lane r.beam (first * nc) ((first + m) * nc) hrt hrf hsound hmem
    (by rw [e2, e3, List.length_map, List.length_map]) b1 b3 (by omega) (by rw [e6]; omega)
  rw [e6] at hq
  obtain ⟨d, hd⟩ := piece_ok r l _ hq
  obtain ⟨q, hq2, w, hpol, htime, hfreq, hsam⟩ := piece_some hd
  rw [hq] at hq2
  cases hq2
  dsimp only at htime hfreq hsam
  refine ⟨d, hd, ⟨w, ?_, hpol, ?_⟩, ?_, ?_⟩
  · rw [htime, Nat.sub_zero]
    apply List.map_congr_left
    intro k _
    unfold laneTime
    rw [e4, e5, Nat.zero_add]
  · rw [hfreq, show (first + m) * nc - first * nc = m * nc by omega]
    intro e
    have := congrArg List.length e
    simp at this
    omega
  · have hbc : bandsOf r.beam bs = m := by
      unfold bandsOf
      rw [hb0]
      exact beam_count hm'
    rw [hsam, hbc, show (first + m) * nc - first * nc = m * nc by omega, Nat.sub_zero, List.length_flatMap]
    simp
  · intro x hx
    exact piece_complete hL fl r l hld hb0 hm' hq d hd x hx

/-- The lane of a file has steps and sub-bands. -/
theorem lane_sound {ns nt nc : Nat} {N : Int} {bs : List Block} (hL : LaneFile ns nt nc N bs) {b0 : Block} (hb0 : bs.head? = some b0) :
    (laneOf bs.length b0).Sound := by
  obtain ⟨b0', hb0', hm, hlen, e1, e2, e3, e4, e5, e6, e7, e8, e9⟩ := lane_axes hL
  rw [hb0] at hb0'
  cases hb0'
  have hncq : (0 : ℚ) < nc := by exact_mod_cast hL.channels
  have hNq : (0 : ℚ) < N := by exact_mod_cast hL.integrated
  refine ⟨by rw [e1]; exact hL.channels, ?_, by rw [e7]; positivity, by rw [e5]; unfold sampleTime; positivity, ?_⟩
  · intro e
    have := hL.bands
    have h0 : ((laneOf bs.length b0).chans).length = ns := by rw [e2, List.length_map, hlen]
    rw [e] at h0
    simp at h0
    omega
  · rw [e6]
    exact Nat.mul_pos (List.length_pos_of_mem hm) hL.times

/-- **C171** Without ranges, everything recorded for the beam in all files is read, each value once, the last spectrum excepted: the
sub-bands of the beam are side by side in each file which has some, by increasing frequency. -/
theorem read_default_partial {nt nc n : Nat} {N : Int} {D : ℚ} {files : List (List Block)} (h : Together nt nc n N D files) (fl : Nat → ℚ) (B : Nat)
    (hB : Recorded files B) (h3 : 3 ≤ n * nt)
    (hside : ∀ bs ∈ files, ∀ b ∈ bs.head?, (∃ first m : Nat, BeamAt b B first m) ∨ ∀ x ∈ b.data, x.beam ≠ (B : Int)) :
    ∃ d, readFiles fl (files.map writeFile) [.beam (.int B)] allFour = .ok (some d) ∧
      (∀ x, x ∈ d.samples ↔ ∃ bs ∈ files, IsSample fl nt nc N bs B x) ∧
      d.samples.length = (files.map fun bs => (n * nt - 1) * (bandsOf B bs * nc)).sum ∧
      d.time = (List.range (n * nt - 1)).map fun k : Nat => D + (k : ℚ) * sampleTime nc N := by
  have hcont : ∀ bs ∈ files, ∀ b ∈ bs.head?, TF.Contiguous (b.data.map fun x => x.beam.toNat) B := by
    intro bs hbs b hb
    obtain ⟨ns, hL⟩ := h.lane bs hbs
    rcases hside bs hbs b hb with ⟨first, m, hm⟩ | hno
    · have := (beam_lane hL hb hm).2.1
      exact this
    · intro i j k _ _ h3 _
      rw [List.getElem?_map] at h3
      obtain ⟨x, hx, e⟩ := Option.map_eq_some_iff.1 h3
      have h0 := hL.numbered b (List.mem_of_mem_head? hb) x (List.mem_of_getElem? hx)
      exact absurd (by omega) (hno x (List.mem_of_getElem? hx))
  have hmemB : B ∈ ((files.map (loaded fl)).map Loaded.lane).flatMap Lane.beams := by
    obtain ⟨bs, hbs, b, hb, x, hx, hxB⟩ := hB
    obtain ⟨l', b0, e', hb0, e3, _⟩ := lane_beams h hbs fl
    rw [loaded_eq h hbs fl] at e'
    cases e'
    rw [hb0] at hb
    cases hb
    rw [List.mem_flatMap]
    refine ⟨(loaded fl bs).lane, List.mem_map_of_mem (List.mem_map_of_mem hbs), ?_⟩
    rw [e3]
    exact List.mem_map.2 ⟨x, hx, by omega⟩
  obtain ⟨r0, hr0, hlanes, ht0, hf0⟩ := create_ok ((files.map (loaded fl)).map Loaded.lane) (List.range (files.map (loaded fl)).length)
    (List.ne_nil_of_mem hmemB)
  have hset : [Set.beam (.int B)].foldl applySet r0 = { r0 with beam := B } :=
    beam_given (by unfold beamsOf; rw [hlanes]; exact hmemB)
  have hrun : readFiles fl (files.map writeFile) [.beam (.int B)] allFour = gather (pieceOf { r0 with beam := B } allFour) none (files.map (loaded fl)) := by
    unfold readFiles
    rw [files_loaded h fl]
    show ((create _ _).bind _) = _
    rw [hr0]
    show getLanes ([Set.beam (.int B)].foldl applySet r0) allFour _ = _
    rw [hset]
    rfl
  generalize hr : ({ r0 with beam := B } : Reader) = r at hrun
  have hrl : r.lanes = (files.map (loaded fl)).map Loaded.lane := by rw [← hr]; exact hlanes
  have hrb : r.beam = B := by rw [← hr]
  have hrt : r.trange = none := by rw [← hr]; exact ht0
  have hrf : r.frange = none := by rw [← hr]; exact hf0
  -- the lanes
  have hsound : ∀ L ∈ r.lanes, L.Sound := by
    intro L hLm
    rw [hrl] at hLm
    obtain ⟨l, hl, rfl⟩ := List.mem_map.1 hLm
    obtain ⟨bs, hbs, rfl⟩ := List.mem_map.1 hl
    obtain ⟨ns, hL⟩ := h.lane bs hbs
    obtain ⟨l', b0, e', hb0, _, _, _, _, hlane⟩ := lane_beams h hbs fl
    rw [loaded_eq h hbs fl] at e'
    cases e'
    rw [hlane]
    exact lane_sound hL hb0
  -- one lane
  have hpiece : ∀ bs ∈ files, (∀ b ∈ bs.head?, ∀ x ∈ b.data, x.beam ≠ (B : Int)) ∧ pieceOf r allFour (loaded fl bs) = .ok none
      ∨ ∃ d : IO.SData, pieceOf r allFour (loaded fl bs) = .ok (some d) ∧
        Good ((List.range (n * nt - 1)).map fun k : Nat => D + (k : ℚ) * sampleTime nc N) [['I'], ['Q'], ['U'], ['V']] d ∧
        d.samples.length = (n * nt - 1) * (bandsOf B bs * nc) ∧ ∀ x, IsSample fl nt nc N bs B x → x ∈ d.samples := by
    intro bs hbs
    obtain ⟨ns, hL⟩ := h.lane bs hbs
    obtain ⟨l', b0, e', hb0, g1, g2, g3, g4, hlane⟩ := lane_beams h hbs fl
    have hld := loaded_eq h hbs fl
    rw [hld] at e'
    cases e'
    obtain ⟨b0', hb0', hm, hlen, e1, e2, e3, e4, e5, e6, e7, e8, e9⟩ := lane_axes hL
    rw [hb0] at hb0'
    cases hb0'
    rcases hside bs hbs b0 hb0 with ⟨first, m, hm'⟩ | hno
    · right
      have hlen' : bs.length = n := h.blocks bs hbs
      have hmem : (loaded fl bs).lane ∈ r.lanes := by rw [hrl]; exact List.mem_map_of_mem (List.mem_map_of_mem hbs)
      obtain ⟨d, d1, d2, d3, d4⟩ := piece_default hL fl r hrt hrf hsound (loaded fl bs) hld hmem hb0 (by rw [hrb]; exact hm') (by rw [hlen']; exact h3)
      rw [hrb, hlen'] at d3
      rw [h.date bs hbs b0 hb0, hlen'] at d2
      rw [hrb] at d4
      exact ⟨d, d1, d2, d3, d4⟩
    · left
      refine ⟨?_, ?_⟩
      · intro b hb
        rw [hb0] at hb
        cases hb
        exact hno
      · have hnone : selectData (loaded fl bs).lane r.beam (timeRange r) (freqRange r) = none := by
          unfold selectData
          have hnot : B ∉ (loaded fl bs).lane.beams := by
            rw [g1]
            intro hc
            obtain ⟨x, hx, e⟩ := List.mem_map.1 hc
            have h0 := hL.numbered b0 hm x hx
            exact hno x hx (by omega)
          have hnc : 0 < (loaded fl bs).lane.nChan := by rw [hlane, e1]; exact hL.channels
          rw [hrb, TF.beam_edges_old _ _ _ hnc]
          have : TF.beamEdges (loaded fl bs).lane.beams (loaded fl bs).lane.nChan B = none := by
            rw [← Option.not_isSome_iff_eq_none, TF.beam_edges_found]
            exact hnot
          rw [this]
          rfl
        unfold pieceOf
        rw [hnone]
        rfl
  -- all lanes
  have hgo : ∃ P : List Block → Option IO.SData, ∀ bs ∈ files, pieceOf r allFour (loaded fl bs) = .ok (P bs) := by
    refine ⟨fun bs => ((pieceOf r allFour (loaded fl bs)).toOption).getD none, ?_⟩
    intro bs hbs
    rcases hpiece bs hbs with ⟨_, e⟩ | ⟨d, e, _⟩ <;> (dsimp only; rw [e]; rfl)
  obtain ⟨P, hP⟩ := hgo
  have hgood : ∀ bs ∈ files, ∀ s, P bs = some s →
      Good ((List.range (n * nt - 1)).map fun k : Nat => D + (k : ℚ) * sampleTime nc N) [['I'], ['Q'], ['U'], ['V']] s := by
    intro bs hbs s hs
    have hp := hP bs hbs
    rcases hpiece bs hbs with ⟨_, e⟩ | ⟨d, e, g, _⟩
    · rw [hp, hs] at e
      cases e
    · rw [hp, hs] at e
      cases e
      exact g
  have hlen : ∀ bs ∈ files, (samplesOpt (P bs)).length = (n * nt - 1) * (bandsOf B bs * nc) := by
    intro bs hbs
    have hp := hP bs hbs
    rcases hpiece bs hbs with ⟨hno, e⟩ | ⟨d, e, _, g, _⟩
    · rw [hp] at e
      injection e with e
      rw [e]
      have : bandsOf B bs = 0 := by
        unfold bandsOf
        cases hh : bs.head? with
        | none => rfl
        | some b =>
          show b.data.countP _ = 0
          rw [List.countP_eq_zero]
          intro x hx
          rw [decide_eq_true_iff]
          exact hno b hh x hx
      rw [this, Nat.zero_mul, Nat.mul_zero]
      rfl
    · rw [hp] at e
      injection e with e
      rw [e]
      exact g
  have hNt : ((List.range (n * nt - 1)).map fun k : Nat => D + (k : ℚ) * sampleTime nc N).length = n * nt - 1 := by simp
  obtain ⟨bs1, hbs1, b1, hb1, x1, hx1, hx1B⟩ := hB
  obtain ⟨ns1, hL1⟩ := h.lane bs1 hbs1
  have hdt : 0 < sampleTime nc N := by
    have hncq : (0 : ℚ) < nc := by exact_mod_cast hL1.channels
    have hNq : (0 : ℚ) < N := by exact_mod_cast hL1.integrated
    unfold sampleTime
    positivity
  obtain ⟨o, ho, hog, hperm⟩ := gather_samples P ((List.range (n * nt - 1)).map fun k : Nat => D + (k : ℚ) * sampleTime nc N)
    [['I'], ['Q'], ['U'], ['V']] (by rw [hNt]; omega) (by
      rw [List.getD_eq_getElem _ _ (by rw [hNt]; omega), List.getD_eq_getElem _ _ (by rw [hNt]; omega), List.getElem_map, List.getElem_map,
        List.getElem_range, List.getElem_range]
      push_cast
      linarith) files none hgood (fun s e => nomatch e)
  have hall : readFiles fl (files.map writeFile) [.beam (.int B)] allFour = .ok o := by
    rw [hrun, gather_map, gather_congr files none hP, ho]
  have htot : (samplesOpt o).length = (files.map fun bs => (n * nt - 1) * (bandsOf B bs * nc)).sum := by
    rw [hperm.length_eq, List.length_append, List.length_flatMap]
    show 0 + _ = _
    rw [Nat.zero_add]
    congr 1
    exact List.map_congr_left hlen
  have hmem1 : ∃ x, x ∈ samplesOpt o := by
    have hne : bandsOf B bs1 ≠ 0 := by
      unfold bandsOf
      rw [hb1]
      show b1.data.countP _ ≠ 0
      rw [Ne, List.countP_eq_zero]
      intro hc
      exact hc x1 hx1 (by rw [decide_eq_true_iff]; exact hx1B)
    have hp1 : 0 < (samplesOpt (P bs1)).length := by
      rw [hlen bs1 hbs1]
      exact Nat.mul_pos (by omega) (Nat.mul_pos (by omega) hL1.channels)
    obtain ⟨x, hx⟩ := List.exists_mem_of_length_pos hp1
    exact ⟨x, hperm.mem_iff.2 (List.mem_append_right _ (List.mem_flatMap.2 ⟨bs1, hbs1, hx⟩))⟩
  cases o with
  | none =>
    obtain ⟨x, hx⟩ := hmem1
    cases hx
  | some d =>
    refine ⟨d, hall, ?_, htot, (hog d rfl).2.1⟩
    intro x
    constructor
    · exact read_sound h fl B ⟨bs1, hbs1, b1, hb1, x1, hx1, hx1B⟩ hcont [] [] (fun s hs => nomatch hs) d hall x
    · rintro ⟨bs, hbs, hx⟩
      refine hperm.mem_iff.2 (List.mem_append_right _ (List.mem_flatMap.2 ⟨bs, hbs, ?_⟩))
      have hp := hP bs hbs
      rcases hpiece bs hbs with ⟨hno, e⟩ | ⟨d', e, _, _, g⟩
      · obtain ⟨i, j, t, c, b, b0, y, hb0, hb, hy, _, _, hyb, _⟩ := hx
        obtain ⟨ns, hL⟩ := h.lane bs hbs
        have hm0 : b0 ∈ bs := List.mem_of_mem_head? hb0
        have hbm : b ∈ bs := List.mem_of_getElem? hb
        have hlay := congrArg (fun l => l[j]?) (hL.layout b hbm b0 hm0)
        simp only [List.getElem?_map, hy, Option.map_some] at hlay
        obtain ⟨z, hz, e2⟩ := Option.map_eq_some_iff.1 hlay.symm
        have e3 : z.beam = y.beam := congrArg Prod.fst e2
        exact absurd (by rw [e3, hyb]) (hno b0 hb0 z (List.mem_of_getElem? hz))
      · rw [hp] at e
        injection e with e
        rw [e]
        exact g x hx

/-! ## Violations -/

/-- **C171** (violated) The last spectrum is never returned, whatever the ranges. -/
theorem read_last_violated {nt nc n : Nat} {N : Int} {D : ℚ} {files : List (List Block)} (h : Together nt nc n N D files) (fl : Nat → ℚ) (B : Nat)
    (hB : Recorded files B) (hc : ∀ bs ∈ files, ∀ b ∈ bs.head?, TF.Contiguous (b.data.map fun x => x.beam.toNat) B)
    (before after : List Set) (ha : NoBeam after) (d : IO.SData)
    (hd : readFiles fl (files.map writeFile) (before ++ .beam (.int B) :: after) allFour = .ok (some d)) :
    ∀ x ∈ d.samples, x.t < D + ((n * nt - 1 : Nat) : ℚ) * sampleTime nc N := by
  intro x hx
  obtain ⟨bs, hbs, i, j, t, c, b, b0, y, hb0, hb, hy, ht, hcc, hyb, hlt, xt, _⟩ := read_sound h fl B hB hc before after ha d hd x hx
  obtain ⟨ns, hL⟩ := h.lane bs hbs
  rw [h.blocks bs hbs] at hlt
  have hdt : 0 < sampleTime nc N := by
    have hncq : (0 : ℚ) < nc := by exact_mod_cast hL.channels
    have hNq : (0 : ℚ) < N := by exact_mod_cast hL.integrated
    unfold sampleTime
    positivity
  rw [xt, h.date bs hbs b0 hb0]
  have : ((i * nt + t : Nat) : ℚ) < ((n * nt - 1 : Nat) : ℚ) := by exact_mod_cast (by omega : i * nt + t < n * nt - 1)
  have := mul_lt_mul_of_pos_right this hdt
  linarith

/-- **C171** (violated) The dates of the blocks after the first one are not looked at: when a block was not written right after the ones
before, its values are returned with times which are not its own. -/
theorem read_gap_violated {nt nc n : Nat} {N : Int} {D : ℚ} {files : List (List Block)} (h : Together nt nc n N D files) (fl : Nat → ℚ) (B : Nat)
    (hB : Recorded files B) (h3 : 3 ≤ n * nt)
    (hside : ∀ bs ∈ files, ∀ b ∈ bs.head?, (∃ first m : Nat, BeamAt b B first m) ∨ ∀ x ∈ b.data, x.beam ≠ (B : Int))
    (bs : List Block) (hbs : bs ∈ files) (i j t c : Nat) (b : Block) (y : Beamlet) (hb : bs[i]? = some b) (hy : b.data[j]? = some y)
    (hyb : y.beam = (B : Int)) (ht : t < nt) (hc : c < nc) (hlt : i * nt + t + 1 < n * nt)
    (hgap : dateOf b.header ≠ D + ((i * nt : Nat) : ℚ) * sampleTime nc N) :
    ∃ d, readFiles fl (files.map writeFile) [.beam (.int B)] allFour = .ok (some d) ∧ ∃ x ∈ d.samples, x.v = recorded fl nc y t c ∧
      x.f = TF.fftFreq ((y.channel : ℚ) * (390625 / 2)) nc (390625 / 2 / nc) c ∧
      x.t - (dateOf b.header + (t : ℚ) * sampleTime nc N) = D + ((i * nt : Nat) : ℚ) * sampleTime nc N - dateOf b.header ∧
      x.t ≠ dateOf b.header + (t : ℚ) * sampleTime nc N := by
  obtain ⟨d, hd, hiff, _⟩ := read_default_partial h fl B hB h3 hside
  obtain ⟨_, b0, _, hb0, _⟩ := lane_beams h hbs fl
  have e : D + ((i * nt + t : Nat) : ℚ) * sampleTime nc N - (dateOf b.header + (t : ℚ) * sampleTime nc N)
      = D + ((i * nt : Nat) : ℚ) * sampleTime nc N - dateOf b.header := by
    push_cast
    ring
  refine ⟨d, hd, ⟨D + ((i * nt + t : Nat) : ℚ) * sampleTime nc N, TF.fftFreq ((y.channel : ℚ) * (390625 / 2)) nc (390625 / 2 / nc) c,
    recorded fl nc y t c⟩, (hiff _).2 ⟨bs, hbs, i, j, t, c, b, b0, y, hb0, hb, hy, ht, hc, hyb, ?_, ?_, rfl, rfl⟩, rfl, rfl, e, ?_⟩
  · rw [h.blocks bs hbs]; exact hlt
  · rw [h.date bs hbs b0 hb0]
  · intro hx
    dsimp only at hx
    rw [hx, sub_self] at e
    exact hgap (by linarith)

theorem samples_shift {α : Type} (a : ℚ) (freq : List ℚ) : ∀ (ts : List ℚ) (rows : List (List α)),
    IO.samples (ts.map fun t => t + a) freq rows = (IO.samples ts freq rows).map fun x => ⟨x.t + a, x.f, x.v⟩
  | [], _ => rfl
  | _ :: _, [] => rfl
  | t :: ts, row :: rows => by
    have ih := samples_shift a freq ts rows
    unfold IO.samples at ih ⊢
    rw [List.map_cons, List.zipWith_cons_cons, List.zipWith_cons_cons, List.flatten_cons, List.flatten_cons, List.map_append, ih]
    congr 1
    unfold IO.rowSamples
    rw [List.map_zipWith]

/-- **C171** (violated) When a lane starts after the first one by one step or less, its values are returned with the times of the first
one: all too early. -/
theorem read_late_violated {ns1 ns2 nt nc n : Nat} {N : Int} {bs1 bs2 : List Block} (h1 : LaneFile ns1 nt nc N bs1) (h2 : LaneFile ns2 nt nc N bs2)
    (hn1 : bs1.length = n) (hn2 : bs2.length = n) (h3 : 3 ≤ n * nt) (fl : Nat → ℚ) (b1 b2 : Block) (hb1 : bs1.head? = some b1)
    (hb2 : bs2.head? = some b2) (B f1 m1 f2 m2 : Nat) (hB1 : BeamAt b1 B f1 m1) (hB2 : BeamAt b2 B f2 m2)
    (hlate : dateOf b1.header < dateOf b2.header) (hstep : dateOf b2.header ≤ dateOf b1.header + sampleTime nc N) :
    ∃ d, readFiles fl [writeFile bs1, writeFile bs2] [.beam (.int B)] allFour = .ok (some d) ∧
      ∀ x, IsSample fl nt nc N bs2 B x → (⟨x.t - (dateOf b2.header - dateOf b1.header), x.f, x.v⟩ : IO.Sample (List ℚ)) ∈ d.samples := by
  obtain ⟨l1, c1, hl1, hc1, hlane1, _⟩ := load_exact h1 fl
  obtain ⟨l2, c2, hl2, hc2, hlane2, _⟩ := load_exact h2 fl
  rw [hb1] at hc1
  cases hc1
  rw [hb2] at hc2
  cases hc2
  have hs1 := lane_sound h1 hb1
  have hs2 := lane_sound h2 hb2
  rw [← hlane1] at hs1
  rw [← hlane2] at hs2
  have hmemB : B ∈ ([l1, l2].map Loaded.lane).flatMap Lane.beams := by
    obtain ⟨x, hx⟩ : ∃ x, b1.data[f1]? = some x := ⟨_, List.getElem?_eq_getElem (by have := hB1.within; have := hB1.filled; omega)⟩
    have hxB := (hB1.held f1 x hx).2 ⟨le_refl _, by have := hB1.filled; omega⟩
    refine List.mem_flatMap.2 ⟨l1.lane, by simp, ?_⟩
    rw [hlane1]
    exact List.mem_map.2 ⟨x, List.mem_of_getElem? hx, by omega⟩
  obtain ⟨r0, hr0, hlanes, ht0, hf0⟩ := create_ok ([l1, l2].map Loaded.lane) (List.range [l1, l2].length) (List.ne_nil_of_mem hmemB)
  have hset : [Set.beam (.int B)].foldl applySet r0 = { r0 with beam := B } :=
    beam_given (by unfold beamsOf; rw [hlanes]; exact hmemB)
  have hrun : readFiles fl [writeFile bs1, writeFile bs2] [.beam (.int B)] allFour = gather (pieceOf { r0 with beam := B } allFour) none [l1, l2] := by
    have hm : [writeFile bs1, writeFile bs2].mapM (loadLane fl) = .ok [l1, l2] := by
      rw [List.mapM_cons, hl1, List.mapM_cons, hl2]
      rfl
    unfold readFiles
    rw [hm]
    show ((create _ _).bind _) = _
    rw [hr0]
    show getLanes ([Set.beam (.int B)].foldl applySet r0) allFour _ = _
    rw [hset]
    rfl
  generalize hr : ({ r0 with beam := B } : Reader) = r at hrun
  have hrl : r.lanes = [l1, l2].map Loaded.lane := by rw [← hr]; exact hlanes
  have hrb : r.beam = B := by rw [← hr]
  have hrt : r.trange = none := by rw [← hr]; exact ht0
  have hrf : r.frange = none := by rw [← hr]; exact hf0
  have hsound : ∀ L ∈ r.lanes, L.Sound := by
    intro L hL
    rw [hrl] at hL
    simp only [List.map_cons, List.map_nil, List.mem_cons, List.not_mem_nil, or_false] at hL
    rcases hL with e | e <;> rw [e] <;> assumption
  obtain ⟨d1, p1, g1, _, _⟩ := piece_default h1 fl r hrt hrf hsound l1 hl1 (by rw [hrl]; simp) hb1 (by rw [hrb]; exact hB1) (by rw [hn1]; exact h3)
  obtain ⟨d2, p2, g2, _, s2⟩ := piece_default h2 fl r hrt hrf hsound l2 hl2 (by rw [hrl]; simp) hb2 (by rw [hrb]; exact hB2) (by rw [hn2]; exact h3)
  rw [hn1] at g1
  rw [hn2] at g2
  have htimes : d1.time = d2.time.map fun t => t + (dateOf b1.header - dateOf b2.header) := by
    rw [g1.2.1, g2.2.1, List.map_map]
    apply List.map_congr_left
    intro k _
    show _ = _ + _ + _
    ring
  have hlen1 : d1.time.length = n * nt - 1 := by rw [g1.2.1]; simp
  have hlen2 : d2.time.length = n * nt - 1 := by rw [g2.2.1]; simp
  have hgap : d1.time.getD 1 0 - d1.time.getD 0 0 = sampleTime nc N := by
    rw [List.getD_eq_getElem _ _ (by rw [hlen1]; omega), List.getD_eq_getElem _ _ (by rw [hlen1]; omega)]
    simp only [g1.2.1, List.getElem_map, List.getElem_range]
    push_cast
    ring
  obtain ⟨d, hd, hperm⟩ := IO.sdata_and_shifted_violated d1 d2 g1.1 g2.1 (g1.2.2.1.trans g2.2.2.1.symm) (hlen1.trans hlen2.symm)
    (by rw [hlen1]; omega) (by
      intro p hp
      rw [hgap]
      rw [htimes, List.zip_map_left] at hp
      obtain ⟨z, hz, rfl⟩ := List.mem_map.1 hp
      have hzz : z.1 = z.2 := by
        rw [List.zip_eq_zipWith] at hz
        obtain ⟨i, hi, rfl⟩ := List.mem_iff_getElem.mp hz
        simp
      show |z.1 + (dateOf b1.header - dateOf b2.header) - z.2| ≤ _
      rw [hzz, abs_le]
      constructor <;> linarith) g1.2.2.2 g2.2.2.2
  refine ⟨d, ?_, ?_⟩
  · rw [hrun]
    unfold gather
    rw [p1]
    show gather _ (some d1) [l2] = _
    unfold gather
    rw [p2]
    show ((IO.sdataAnd d1 d2).map some).bind _ = _
    rw [hd]
    rfl
  · intro x hx
    refine hperm.mem_iff.2 (List.mem_append_right _ ?_)
    rw [htimes, samples_shift]
    refine List.mem_map.2 ⟨x, s2 x (by rw [hrb]; exact hx), ?_⟩
    show (⟨_, _, _⟩ : IO.Sample (List ℚ)) = ⟨_, _, _⟩
    rw [show x.t + (dateOf b1.header - dateOf b2.header) = x.t - (dateOf b2.header - dateOf b1.header) by ring]

theorem mapM_refused {α β : Type} {f : α → Except Err β} : ∀ (l : List α) (a : α), a ∈ l → (∃ e, f a = .error e) → ∃ e, l.mapM f = .error e
  | [], _, h, _ => nomatch h
  | b :: l, a, h, he => by
    rw [List.mapM_cons]
    show ∃ e, ((f b).bind fun x => (l.mapM f).bind fun y => Except.ok (x :: y)) = _
    cases hb : f b with
    | error e => exact ⟨e, rfl⟩
    | ok v =>
      have hm : a ∈ l := by
        rcases List.mem_cons.1 h with e | e
        · obtain ⟨e', he⟩ := he
          rw [e, hb] at he
          cases he
        · exact e
      obtain ⟨e, h2⟩ := mapM_refused l a hm he
      refine ⟨e, ?_⟩
      show ((l.mapM f).bind fun y => Except.ok (v :: y)) = _
      rw [h2]
      rfl

/-- **C171** (violated) One file with a single sub-band, or with an odd number of channels, and nothing can be read, whatever the other
files. -/
theorem read_refused_violated (fl : Nat → ℚ) (files : List (List Nat)) (sets : List Set) (s : Stokes) (bs : List Block) (hm : writeFile bs ∈ files)
    (hpos : ∀ b ∈ bs.head?, 0 ≤ b.header.nbchan)
    (h : (∃ nt nc : Nat, Recording 1 nt nc bs) ∨ ∃ ns nt nc : Nat, ns ≠ 1 ∧ nc % 2 = 1 ∧ Recording ns nt nc bs) :
    ∃ e, readFiles fl files sets s = .error e := by
  have hload : ∃ e, loadLane fl (writeFile bs) = .error e := by
    rcases h with ⟨nt, nc, h⟩ | ⟨ns, nt, nc, h1, ho, h⟩
    · unfold loadLane
      rw [lane_single_violated h hpos]
      exact ⟨_, rfl⟩
    · have hl := writeFile_length h
      obtain ⟨b, hb, hh⟩ := h.first
      have hne : 0 < bs.length := by
        cases bs with
        | nil => cases hb
        | cons a l => simp
      have hp := blockSize_pos ns nt nc
      have h2 := lane_cut_partial h h1 hpos (writeFile bs).length (by rw [hl]; exact Nat.le_mul_of_pos_left _ hne) (le_refl _)
      rw [List.take_length, hl, Nat.mul_div_cancel _ (by omega), List.take_length] at h2
      unfold loadLane
      rw [h2]
      show ∃ e, (bs.head?.elim _ _ : Except Err Loaded) = _
      rw [hb]
      show ∃ e, (TF.blocksToTf _ 2 b.header.nffte.toNat b.header.fftlen.toNat).map _ = _
      have hfl : b.header.fftlen.toNat = nc := by
        rw [hh.2.1]; rfl
      rw [hfl, TF.blocks_odd _ _ _ _ ho]
      exact ⟨_, rfl⟩
  unfold readFiles
  obtain ⟨e, he⟩ := mapM_refused files (writeFile bs) hm hload
  rw [he]
  exact ⟨e, rfl⟩

/-! ## Non-vacuity -/

/-- Three blocks, one after the other, of two sub-bands of beam 0. -/
def trioA : List Block :=
  [⟨⟨1, 1700000000, 12, 2, 1, 0, 0, 1, 2⟩, [⟨0, 0, 200, [1, 2, 3, 4], [5, 6, 7, 8]⟩, ⟨0, 0, 201, [9, 10, 11, 12], [13, 14, 15, 16]⟩]⟩,
   ⟨⟨2, 1700000000, 14, 2, 1, 0, 0, 1, 2⟩, [⟨0, 0, 200, [1, 1, 1, 1], [2, 2, 2, 2]⟩, ⟨0, 0, 201, [3, 3, 3, 3], [4, 4, 4, 4]⟩]⟩,
   ⟨⟨3, 1700000000, 16, 2, 1, 0, 0, 1, 2⟩, [⟨0, 0, 200, [5, 5, 5, 5], [6, 6, 6, 6]⟩, ⟨0, 0, 201, [7, 7, 7, 7], [8, 8, 8, 8]⟩]⟩]

/-- Three blocks of one sub-band of beam 0 and one of beam 1; the last block is late. -/
def trioB : List Block :=
  [⟨⟨1, 1700000000, 12, 2, 1, 0, 0, 1, 2⟩, [⟨1, 0, 202, [1, 2, 3, 4], [5, 6, 7, 8]⟩, ⟨1, 1, 300, [9, 10, 11, 12], [13, 14, 15, 16]⟩]⟩,
   ⟨⟨2, 1700000009, 14, 2, 1, 0, 0, 1, 2⟩, [⟨1, 0, 202, [1, 1, 1, 1], [2, 2, 2, 2]⟩, ⟨1, 1, 300, [3, 3, 3, 3], [4, 4, 4, 4]⟩]⟩,
   ⟨⟨3, 1700000009, 16, 2, 1, 0, 0, 1, 2⟩, [⟨1, 0, 202, [5, 5, 5, 5], [6, 6, 6, 6]⟩, ⟨1, 1, 300, [7, 7, 7, 7], [8, 8, 8, 8]⟩]⟩]

theorem trioA_file : LaneFile 2 1 2 1 trioA := by
  refine ⟨⟨⟨⟨trioA.head (by simp [trioA]), by simp [trioA], by simp [trioA]⟩, ?_⟩, ?_, by norm_num, by norm_num, by norm_num, by norm_num,
    by norm_num, ?_, ?_⟩, ?_, ?_, by norm_num, by norm_num⟩
  · intro b hb
    simp [trioA] at hb
    rcases hb with rfl | rfl | rfl <;> simp [Block.Valid, Header.Valid, Beamlet.Valid, Fits]
  · intro b hb
    simp [trioA] at hb
    subst hb
    rfl
  · intro b hb c hc
    simp [trioA] at hb hc
    rcases hb with rfl | rfl | rfl <;> rcases hc with rfl | rfl | rfl <;> rfl
  · intro b hb x hx
    simp [trioA] at hb
    rcases hb with rfl | rfl | rfl <;> (simp at hx; rcases hx with rfl | rfl <;> simp)
  · intro b hb
    simp [trioA] at hb
    subst hb
    norm_num
  · intro b hb x hx
    simp [trioA] at hb
    rcases hb with rfl | rfl | rfl <;> (simp at hx; rcases hx with rfl | rfl <;> simp)

theorem trioB_file : LaneFile 2 1 2 1 trioB := by
  refine ⟨⟨⟨⟨trioB.head (by simp [trioB]), by simp [trioB], by simp [trioB]⟩, ?_⟩, ?_, by norm_num, by norm_num, by norm_num, by norm_num,
    by norm_num, ?_, ?_⟩, ?_, ?_, by norm_num, by norm_num⟩
  · intro b hb
    simp [trioB] at hb
    rcases hb with rfl | rfl | rfl <;> simp [Block.Valid, Header.Valid, Beamlet.Valid, Fits]
  · intro b hb
    simp [trioB] at hb
    subst hb
    rfl
  · intro b hb c hc
    simp [trioB] at hb hc
    rcases hb with rfl | rfl | rfl <;> rcases hc with rfl | rfl | rfl <;> rfl
  · intro b hb x hx
    simp [trioB] at hb
    rcases hb with rfl | rfl | rfl <;> (simp at hx; rcases hx with rfl | rfl <;> simp)
  · intro b hb
    simp [trioB] at hb
    subst hb
    norm_num
  · intro b hb x hx
    simp [trioB] at hb
    rcases hb with rfl | rfl | rfl <;> (simp at hx; rcases hx with rfl | rfl <;> simp)

theorem trios_together : Together 1 2 3 1 (1700000000 + 12 / (390625 / 2)) [trioA, trioB] := by
  refine ⟨?_, ?_, ?_⟩
  · intro bs hb
    simp only [List.mem_cons, List.not_mem_nil, or_false] at hb
    rcases hb with rfl | rfl
    · exact ⟨2, trioA_file⟩
    · exact ⟨2, trioB_file⟩
  · intro bs hb
    simp only [List.mem_cons, List.not_mem_nil, or_false] at hb
    rcases hb with rfl | rfl <;> rfl
  · intro bs hb b hbb
    simp only [List.mem_cons, List.not_mem_nil, or_false] at hb
    rcases hb with rfl | rfl
    · simp [trioA] at hbb; subst hbb; norm_num [dateOf]
    · simp [trioB] at hbb; subst hbb; norm_num [dateOf]

theorem trioA_beam : BeamAt trioA[0] 0 0 2 := by
  refine ⟨by norm_num, by decide, ?_, ?_⟩
  · intro s x hx
    match s, hx with
    | 0, hx => simp [trioA] at hx; subst hx; simp
    | 1, hx => simp [trioA] at hx; subst hx; simp
    | s + 2, hx => simp [trioA] at hx
  · intro s x y h1 h2 hx hy
    match s, hx, hy with
    | 0, hx, hy => simp [trioA] at hx hy; subst hx hy; simp
    | s + 1, hx, hy => omega

theorem trioB_beam : BeamAt trioB[0] 0 0 1 := by
  refine ⟨by norm_num, by decide, ?_, ?_⟩
  · intro s x hx
    match s, hx with
    | 0, hx => simp [trioB] at hx; subst hx; simp
    | 1, hx => simp [trioB] at hx; subst hx; simp
    | s + 2, hx => simp [trioB] at hx
  · intro s x y h1 h2 hx hy
    omega

theorem trios_recorded : Recorded [trioA, trioB] 0 :=
  ⟨trioA, List.mem_cons_self, trioA[0], rfl, ⟨0, 0, 200, [1, 2, 3, 4], [5, 6, 7, 8]⟩, by simp [trioA], rfl⟩

theorem trios_side : ∀ bs ∈ [trioA, trioB], ∀ b ∈ bs.head?, (∃ first m : Nat, BeamAt b 0 first m) ∨ ∀ x ∈ b.data, x.beam ≠ ((0 : Nat) : Int) := by
  intro bs hb b hbb
  simp only [List.mem_cons, List.not_mem_nil, or_false] at hb
  rcases hb with rfl | rfl
  · have : b = trioA[0] := by simpa [trioA] using hbb.symm
    rw [this]; exact Or.inl ⟨0, 2, trioA_beam⟩
  · have : b = trioB[0] := by simpa [trioB] using hbb.symm
    rw [this]; exact Or.inl ⟨0, 1, trioB_beam⟩

/-- Twelve values are read, at two times. -/
example (fl : Nat → ℚ) : ∃ d, readFiles fl [writeFile trioA, writeFile trioB] [.beam (.int 0)] allFour = .ok (some d) ∧ d.samples.length = 12 := by
  obtain ⟨d, hd, _, hl, _⟩ := read_default_partial trios_together fl 0 trios_recorded (by norm_num) trios_side
  exact ⟨d, hd, hl⟩

/-- The second block of the second file is nine seconds later than what is returned. -/
example (fl : Nat → ℚ) : ∃ d, readFiles fl [writeFile trioA, writeFile trioB] [.beam (.int 0)] allFour = .ok (some d) ∧ ∃ x ∈ d.samples,
    x.v = recorded fl 2 ⟨1, 0, 202, [1, 1, 1, 1], [2, 2, 2, 2]⟩ 0 1 ∧ x.t - dateOf trioB[1].header = -9 := by
  obtain ⟨d, hd, x, hx, hv, _, ht, _⟩ := read_gap_violated trios_together fl 0 trios_recorded (by norm_num) trios_side trioB (by simp) 1 0 0 1
    trioB[1] ⟨1, 0, 202, [1, 1, 1, 1], [2, 2, 2, 2]⟩ rfl rfl rfl (by norm_num) (by norm_num) (by norm_num)
    (by norm_num [dateOf, trioB, sampleTime])
  refine ⟨d, hd, x, hx, hv, ?_⟩
  have e : (dateOf trioB[1].header + ((0 : Nat) : ℚ) * sampleTime 2 1) = dateOf trioB[1].header := by push_cast; ring
  rw [e] at ht
  rw [ht]
  norm_num [dateOf, trioB, sampleTime]

/-- Two more sub-bands of beam 0, one clock tick later. -/
def trioC : List Block :=
  [⟨⟨1, 1700000000, 13, 2, 1, 0, 0, 1, 2⟩, [⟨1, 0, 202, [1, 2, 3, 4], [5, 6, 7, 8]⟩, ⟨1, 0, 203, [9, 10, 11, 12], [13, 14, 15, 16]⟩]⟩,
   ⟨⟨2, 1700000000, 15, 2, 1, 0, 0, 1, 2⟩, [⟨1, 0, 202, [1, 1, 1, 1], [2, 2, 2, 2]⟩, ⟨1, 0, 203, [3, 3, 3, 3], [4, 4, 4, 4]⟩]⟩,
   ⟨⟨3, 1700000000, 17, 2, 1, 0, 0, 1, 2⟩, [⟨1, 0, 202, [5, 5, 5, 5], [6, 6, 6, 6]⟩, ⟨1, 0, 203, [7, 7, 7, 7], [8, 8, 8, 8]⟩]⟩]

theorem trioC_file : LaneFile 2 1 2 1 trioC := by
  refine ⟨⟨⟨⟨trioC.head (by simp [trioC]), by simp [trioC], by simp [trioC]⟩, ?_⟩, ?_, by norm_num, by norm_num, by norm_num, by norm_num,
    by norm_num, ?_, ?_⟩, ?_, ?_, by norm_num, by norm_num⟩
  · intro b hb
    simp [trioC] at hb
    rcases hb with rfl | rfl | rfl <;> simp [Block.Valid, Header.Valid, Beamlet.Valid, Fits]
  · intro b hb
    simp [trioC] at hb
    subst hb
    rfl
  · intro b hb c hc
    simp [trioC] at hb hc
    rcases hb with rfl | rfl | rfl <;> rcases hc with rfl | rfl | rfl <;> rfl
  · intro b hb x hx
    simp [trioC] at hb
    rcases hb with rfl | rfl | rfl <;> (simp at hx; rcases hx with rfl | rfl <;> simp)
  · intro b hb
    simp [trioC] at hb
    subst hb
    norm_num
  · intro b hb x hx
    simp [trioC] at hb
    rcases hb with rfl | rfl | rfl <;> (simp at hx; rcases hx with rfl | rfl <;> simp)

theorem trioC_beam : BeamAt trioC[0] 0 0 2 := by
  refine ⟨by norm_num, by decide, ?_, ?_⟩
  · intro s x hx
    match s, hx with
    | 0, hx => simp [trioC] at hx; subst hx; simp
    | 1, hx => simp [trioC] at hx; subst hx; simp
    | s + 2, hx => simp [trioC] at hx
  · intro s x y h1 h2 hx hy
    match s, hx, hy with
    | 0, hx, hy => simp [trioC] at hx hy; subst hx hy; simp
    | s + 1, hx, hy => omega

/-- The times of the second file are lost. -/
example (fl : Nat → ℚ) : ∃ d, readFiles fl [writeFile trioA, writeFile trioC] [.beam (.int 0)] allFour = .ok (some d) ∧
    ∀ x, IsSample fl 1 2 1 trioC 0 x → (⟨x.t - (dateOf trioC[0].header - dateOf trioA[0].header), x.f, x.v⟩ : IO.Sample (List ℚ)) ∈ d.samples :=
  read_late_violated (n := 3) trioA_file trioC_file rfl rfl (by norm_num) fl trioA[0] trioC[0] rfl rfl 0 0 2 0 2 trioA_beam trioC_beam
    (by norm_num [dateOf, trioA, trioC]) (by norm_num [dateOf, trioA, trioC, sampleTime])

end Verif.Dyn
