import Verif.Config.VolumePlot
import Verif.Config.Props
import Verif.Config.PropsFromParset
import Mathlib.Data.List.GetD

/-!
# Property C174: the total of the plotted volumes is that of all receivers
-/

namespace Verif.Config

/-- Volume of the configurations of one receiver which have started at time `t`. -/
def volumeUntil (l : List Conf) (t : ℚ) : ℚ := ((l.filter fun c => decide (c.start ≤ t)).map Conf.volume).sum

/-- Volume of the configurations of several receivers which have started at time `t`. -/
def totalUntil (bs : List Backend) (x : Obs) (t : ℚ) : ℚ := (bs.map fun b => volumeUntil (x b) t).sum

/-- A curve tells a quantity: at each of its times, the last point of this time has the value of the quantity. -/
def Tells (c : List ℚ × List ℚ) (f : ℚ → ℚ) : Prop :=
  c.2.length = c.1.length ∧ ∀ i t, c.1[i]? = some t → (∀ t', c.1[i + 1]? = some t' → t < t') → c.2[i]? = some (f t)

/-! ## Cumulated volumes -/

/-- The first configurations of a sorted list are those which have started. -/
theorem take_started (s : List Conf) (hs : s.Pairwise fun x y => x.start ≤ y.start) (i : Nat) (t : ℚ)
    (h1 : (s.map Conf.start)[i]? = some t) (h2 : ∀ t', (s.map Conf.start)[i + 1]? = some t' → t < t') :
    s.filter (fun c => decide (c.start ≤ t)) = s.take (i + 1) := by
  obtain ⟨hi, hv⟩ := List.getElem?_eq_some_iff.1 h1
  rw [List.length_map] at hi
  rw [List.getElem_map] at hv
  have hget := List.pairwise_iff_getElem.1 hs
  conv_lhs => rw [← List.take_append_drop (i + 1) s]
  rw [List.filter_append]
  have e1 : (s.take (i + 1)).filter (fun c => decide (c.start ≤ t)) = s.take (i + 1) := by
    rw [List.filter_eq_self]
    intro c hc
    obtain ⟨j, hj, rfl⟩ := List.getElem_of_mem hc
    rw [List.length_take] at hj
    rw [List.getElem_take, decide_eq_true_eq, ← hv]
    rcases Nat.lt_or_ge j i with h | h
    · exact hget j i (by omega) hi h
    · have : j = i := by omega
      subst this
      exact le_refl _
  have e2 : (s.drop (i + 1)).filter (fun c => decide (c.start ≤ t)) = [] := by
    rw [List.filter_eq_nil_iff]
    intro c hc
    obtain ⟨j, hj, rfl⟩ := List.getElem_of_mem hc
    rw [List.length_drop] at hj
    rw [List.getElem_drop, decide_eq_true_eq, not_le]
    have hlt := h2 (s[i + 1]'(by omega)).start (by rw [List.getElem?_map, List.getElem?_eq_getElem (by omega)]; rfl)
    rcases Nat.eq_zero_or_pos j with h | h
    · subst h; exact hlt
    · exact lt_of_lt_of_le hlt (hget (i + 1) (i + 1 + j) (by omega) (by omega) (by omega))
  rw [e1, e2, List.append_nil]

/-- **C174**: the curve of one receiver tells the volume of its configurations which have started. -/
theorem receiver_curve (b : Backend) (x : Obs) (hne : x b ≠ []) :
    ∃ c, getCumulative (some b) x = .ok c ∧ c.1 = (byStart (x b)).map Conf.start ∧ Tells c (volumeUntil (x b)) := by
  obtain ⟨hp, hs⟩ := byStart_sorted (x b)
  refine ⟨cumulative (byStart (x b)), if_neg hne, rfl, ?_⟩
  obtain ⟨-, h2, h3, -, h5, -⟩ := cumulative_exact_partial (x b) _ hp hs
  refine ⟨h3.trans h2.symm, ?_⟩
  intro i t hi hl
  have hlt : i < (x b).length := by
    obtain ⟨h, -⟩ := List.getElem?_eq_some_iff.1 hi
    rw [h2] at h
    exact h
  rw [h5 i hlt, ← take_started _ hs i t hi hl]
  unfold volumeUntil
  rw [((hp.filter _).map Conf.volume).sum_eq]

/-! ## The loop over receivers -/

/-- The cumulated volumes of a receiver, as drawn. -/
def drawnOf (x : Obs) (b : Backend) : List ℚ × List ℚ := cumulative (byStart (x b))

theorem get_drawn {x : Obs} {b : Backend} (h : x b ≠ []) : getCumulative (some b) x = .ok (drawnOf x b) := if_neg h

theorem drawn_lengths (x : Obs) (b : Backend) : (drawnOf x b).1.length = (x b).length ∧ (drawnOf x b).2.length = (x b).length := by
  obtain ⟨hp, hs⟩ := byStart_sorted (x b)
  obtain ⟨-, h2, h3, -⟩ := cumulative_exact_partial (x b) _ hp hs
  exact ⟨h2, h3⟩

theorem put_new (d : List (Backend × List ℚ)) (b : Backend) (v : List ℚ) (h : b ∉ d.map Prod.fst) : putCurve d b v = d ++ [(b, v)] := by
  unfold putCurve
  rw [if_neg]
  intro e
  obtain ⟨p, hp, hb⟩ := List.any_eq_true.1 e
  exact h (List.mem_map.2 ⟨p, hp, of_decide_eq_true hb⟩)

theorem draw_loop (x : Obs) : ∀ (bs : List Backend) (d : Drawn), bs.Nodup → (∀ b ∈ bs, x b ≠ []) → (∀ b ∈ bs, b ∉ d.dict.map Prod.fst) →
    drawLoop x (bs.map some) d = .ok ⟨d.dict ++ bs.map (fun b => (b, (drawnOf x b).2)),
      (bs.getLast?.map fun b => (drawnOf x b).1).or d.times, d.curves ++ bs.map (drawnOf x)⟩
  | [], d, _, _, _ => by simp [drawLoop]
  | b :: bs, d, hn, hx, hd => by
    obtain ⟨hb, hn'⟩ := List.nodup_cons.1 hn
    rw [List.map_cons, drawLoop, get_drawn (hx b List.mem_cons_self)]
    show drawLoop x (bs.map some) ⟨putCurve d.dict b (drawnOf x b).2, some (drawnOf x b).1, d.curves ++ [drawnOf x b]⟩ = _
    rw [put_new _ _ _ (hd b List.mem_cons_self)]
    rw [draw_loop x bs _ hn' (fun c hc => hx c (List.mem_cons_of_mem _ hc)) ?_]
    · congr 1
      simp only [Drawn.mk.injEq]
      refine ⟨by simp, ?_, by simp⟩
      rw [List.getLast?_cons]
      cases bs.getLast? with
      | none => simp
      | some c => simp
    · intro c hc
      rw [List.map_append, List.mem_append, not_or]
      refine ⟨hd c (List.mem_cons_of_mem _ hc), ?_⟩
      simp only [List.map_cons, List.map_nil, List.mem_singleton]
      intro e
      subst e
      exact hb hc

theorem add_same (a b : List ℚ) (h : a.length = b.length) : addCurves a b = .ok (List.zipWith (fun v w : ℚ => v + w) a b) := if_pos h

theorem sum_same (n : Nat) : ∀ (l : List (List ℚ)) (acc : List ℚ), acc.length = n → (∀ c ∈ l, c.length = n) →
    ∃ r, sumCurves acc l = .ok r ∧ r.length = n ∧ ∀ i, i < n → r.getD i 0 = acc.getD i 0 + (l.map fun c => c.getD i 0).sum
  | [], acc, ha, _ => ⟨acc, rfl, ha, fun i _ => by simp⟩
  | c :: l, acc, ha, hl => by
    have hc := hl c List.mem_cons_self
    obtain ⟨r, h1, h2, h3⟩ := sum_same n l (List.zipWith (fun v w : ℚ => v + w) acc c) (by rw [List.length_zipWith, ha, hc, Nat.min_self])
      (fun k hk => hl k (List.mem_cons_of_mem _ hk))
    refine ⟨r, ?_, h2, ?_⟩
    · rw [sumCurves, add_same _ _ (ha.trans hc.symm)]
      exact h1
    · intro i hi
      rw [h3 i hi, List.map_cons, List.sum_cons, ← add_assoc]
      congr 1
      rw [List.getD_eq_getElem _ _ (by rw [List.length_zipWith]; omega), List.getD_eq_getElem _ _ (by omega),
        List.getD_eq_getElem _ _ (by omega), List.getElem_zipWith]

/-! ## The total -/

/-- **C174** (partial): for any receivers whose configurations start at the same times, the total tells the volume of the configurations
of all of them which have started. Missing: receivers with other times (`total_times_violated`, `total_lengths_violated`,
`total_single_violated`). -/
theorem total_exact_partial (x : Obs) (bs : List Backend) (hb : bs ≠ []) (hn : bs.Nodup) (ts : List ℚ) (hts : ts ≠ [])
    (h : ∀ b ∈ bs, (byStart (x b)).map Conf.start = ts) :
    ∃ tot, plotVolume (bs.map some) x = .ok (bs.map (drawnOf x), (ts, tot)) ∧ Tells (ts, tot) (totalUntil bs x) := by
  have hx : ∀ b ∈ bs, x b ≠ [] := by
    intro b hb' e
    have := h b hb'
    rw [e] at this
    exact hts this.symm
  have hlen : ∀ b ∈ bs, (drawnOf x b).2.length = ts.length := by
    intro b hb'
    rw [(drawn_lengths x b).2, ← (drawn_lengths x b).1, ← h b hb']
    rfl
  obtain ⟨b0, rest, rfl⟩ := List.exists_cons_of_ne_nil hb
  obtain ⟨tot, h1, h2, h3⟩ := sum_same ts.length (rest.map fun b => (drawnOf x b).2) (drawnOf x b0).2 (hlen b0 List.mem_cons_self) (by
    intro c hc
    obtain ⟨b, hb', rfl⟩ := List.mem_map.1 hc
    exact hlen b (List.mem_cons_of_mem _ hb'))
  refine ⟨tot, ?_, h2, ?_⟩
  · unfold plotVolume
    rw [draw_loop x _ _ hn hx (fun b _ => by simp)]
    obtain ⟨bl, hbl⟩ : ∃ b, (b0 :: rest).getLast? = some b := ⟨_, List.getLast?_eq_some_getLast (by simp)⟩
    have hmem : bl ∈ b0 :: rest := List.mem_of_getLast? hbl
    have ht : (drawnOf x bl).1 = ts := h bl hmem
    rw [hbl]
    have e : totalCurve ⟨[] ++ (b0 :: rest).map (fun b => (b, (drawnOf x b).2)), (Option.map (fun b => (drawnOf x b).1) (some bl)).or none,
        [] ++ (b0 :: rest).map (drawnOf x)⟩ = .ok (ts, tot) := by
      unfold totalCurve
      rw [Option.map_some, Option.some_or, Option.elim_some, ht]
      have e2 : (([] ++ (b0 :: rest).map (fun b => (b, (drawnOf x b).2))).map Prod.snd) = (drawnOf x b0).2 :: rest.map fun b => (drawnOf x b).2 := by
        rw [List.nil_append, List.map_map, List.map_cons]
        rfl
      show (sumCurves ((([] ++ (b0 :: rest).map (fun b => (b, (drawnOf x b).2))).map Prod.snd).headD [])
        (([] ++ (b0 :: rest).map (fun b => (b, (drawnOf x b).2))).map Prod.snd).tail).bind _ = _
      rw [e2, List.headD_cons, List.tail_cons, h1]
      exact if_pos h2
    show (totalCurve _).map _ = _
    rw [e]
    rfl
  · intro i t hi hl
    have hit : i < ts.length := (List.getElem?_eq_some_iff.1 hi).1
    have e : ∀ b ∈ b0 :: rest, (drawnOf x b).2.getD i 0 = volumeUntil (x b) t := by
      intro b hb'
      obtain ⟨c, hc1, hc2, hc3⟩ := receiver_curve b x (hx b hb')
      rw [get_drawn (hx b hb')] at hc1
      injection hc1 with hc1
      subst hc1
      have ht : (drawnOf x b).1 = ts := h b hb'
      have := hc3.2 i t (by rw [ht]; exact hi) (by rw [ht]; exact hl)
      rw [List.getD_eq_getElem?_getD, this]
      rfl
    show tot[i]? = _
    have hi2 : i < tot.length := h2 ▸ hit
    have := h3 i hit
    rw [List.getD_eq_getElem _ _ hi2] at this
    rw [List.getElem?_eq_getElem hi2, this]
    unfold totalUntil
    rw [List.map_cons, List.sum_cons, e b0 List.mem_cons_self, List.map_map]
    congr 3
    exact List.map_congr_left fun b hb' => e b (List.mem_cons_of_mem _ hb')

/-! ## Observations read from files -/

theorem total_append (b : Backend) : ∀ (os : List Obs) (x : Obs), os.foldl Obs.add x b = x b ++ os.flatMap fun o => o b
  | [], x => by simp
  | o :: os, x => by
    rw [List.foldl_cons, total_append b os, List.flatMap_cons, ← List.append_assoc]
    rfl

theorem sorted_starts (l : List Conf) : (byStart l).map Conf.start = (l.map Conf.start).insertionSort (· ≤ ·) := by
  obtain ⟨hp, hs⟩ := byStart_sorted l
  refine List.Perm.eq_of_pairwise (fun a b _ _ h1 h2 => le_antisymm h1 h2) ?_ (List.pairwise_insertionSort (· ≤ ·) _) ?_
  · exact List.pairwise_map.2 hs
  · exact (hp.map Conf.start).trans (List.perm_insertionSort _ _).symm

/-- **C174**: for any list of files, in any order, the total of any receivers tells the volume of the observations which have started. -/
theorem total_files (F : Parset.Str → Option ℚ) (ps : List PSet) (os : List Obs) (hp : ps ≠ []) (h : List.Forall₂ (fun p o => obsOf F p = .ok o) ps os)
    (bs : List Backend) (hb : bs ≠ []) (hn : bs.Nodup) :
    ∃ c t, plotVolume (bs.map some) (Obs.total os) = .ok (c, t) ∧ t.1.Perm (ps.map PSet.start) ∧ Tells t (totalUntil bs (Obs.total os)) := by
  have hst : ∀ b, ((Obs.total os) b).map Conf.start = ps.map PSet.start := by
    intro b
    show ((os.foldl Obs.add Obs.empty) b).map Conf.start = _
    rw [total_append]
    show ([] ++ os.flatMap fun o : Obs => o b).map Conf.start = _
    rw [List.nil_append]
    clear hp
    induction h with
    | nil => rfl
    | cons h1 _ ih =>
      obtain ⟨c, -, e2, e3, -⟩ := obs_one_each F _ _ h1 b
      rw [List.flatMap_cons, List.map_append, ih, e2, List.map_cons, List.map_cons, List.map_nil, e3]
      rfl
  obtain ⟨tot, h1, h2⟩ := total_exact_partial (Obs.total os) bs hb hn ((ps.map PSet.start).insertionSort (· ≤ ·)) (by
      intro e
      have := congrArg List.length e
      rw [List.length_insertionSort, List.length_map] at this
      exact hp (List.length_eq_zero_iff.1 this))
    (fun b _ => by rw [sorted_starts, hst])
  exact ⟨_, _, h1, List.perm_insertionSort _ _, h2⟩

/-! ## Receivers with different configurations -/

theorem draw_two (x : Obs) (b c : Backend) (hbc : b ≠ c) (hb : x b ≠ []) (hc : x c ≠ []) :
    plotVolume [some b, some c] x = ((addCurves (drawnOf x b).2 (drawnOf x c).2).bind fun tot =>
      if tot.length = (x c).length then .ok ((drawnOf x c).1, tot) else .error .valueError).map fun t => ([drawnOf x b, drawnOf x c], t) := by
  have e := draw_loop x [b, c] ⟨[], none, []⟩ (by simp [hbc]) (by simp [hb, hc]) (by simp)
  unfold plotVolume
  rw [List.map_cons, List.map_cons, List.map_nil] at e
  rw [e]
  show (((addCurves (drawnOf x b).2 (drawnOf x c).2).bind fun a => sumCurves a []).bind fun tot =>
    if tot.length = (drawnOf x c).1.length then Except.ok ((drawnOf x c).1, tot) else .error Err.valueError).map _ = _
  rw [(drawn_lengths x c).1]
  cases addCurves (drawnOf x b).2 (drawnOf x c).2 with
  | error _ => rfl
  | ok a => rfl

/-- **C174** violated: two receivers with different numbers of configurations, more than one each, cannot be plotted together; neither can
they when the last one has a single configuration. -/
theorem total_lengths_violated (x : Obs) (b c : Backend) (hbc : b ≠ c) (hb : x b ≠ []) (hc : x c ≠ []) (hl : (x b).length ≠ (x c).length)
    (h1 : (x b).length ≠ 1) : plotVolume [some b, some c] x = .error .valueError := by
  rw [draw_two x b c hbc hb hc]
  have lb := (drawn_lengths x b).2
  have lc := (drawn_lengths x c).2
  unfold addCurves
  rw [if_neg (by rw [lb, lc]; exact hl), if_neg (by rw [lb]; exact h1)]
  by_cases h : (drawnOf x c).2.length = 1
  · rw [if_pos h]
    show ((if ((drawnOf x b).2.map _).length = (x c).length then Except.ok ((drawnOf x c).1, _) else .error Err.valueError) : Except Err _).map _ = _
    rw [if_neg (by rw [List.length_map, lb]; exact hl)]
    rfl
  · rw [if_neg h]
    rfl

/-- **C174** violated: the volume of a receiver with a single configuration is counted in all points of the total, also in those before
its start. -/
theorem total_single_violated (x : Obs) (b c : Backend) (hbc : b ≠ c) (k : Conf) (hb : x b = [k]) (hc : 2 ≤ (x c).length) :
    ∃ ts tot, plotVolume [some b, some c] x = .ok ([drawnOf x b, drawnOf x c], (ts, tot)) ∧
      ∀ i t, ts[i]? = some t → (∀ t', ts[i + 1]? = some t' → t < t') → t < k.start → tot[i]? = some (totalUntil [b, c] x t + k.volume) := by
  have hcn : x c ≠ [] := by intro e; rw [e] at hc; simp at hc
  have hbn : x b ≠ [] := by rw [hb]; simp
  have lc := (drawn_lengths x c).2
  have e1 : (drawnOf x b).2 = [k.volume] := by
    unfold drawnOf
    rw [hb]
    show [0 + k.volume] = _
    rw [zero_add]
  refine ⟨(drawnOf x c).1, (drawnOf x c).2.map fun w : ℚ => k.volume + w, ?_, ?_⟩
  · rw [draw_two x b c hbc hbn hcn]
    have e2 : addCurves (drawnOf x b).2 (drawnOf x c).2 = .ok ((drawnOf x c).2.map fun w : ℚ => k.volume + w) := by
      unfold addCurves
      rw [e1, if_neg (by rw [lc]; simp; omega), if_pos (by rfl)]
      rfl
    rw [e2]
    show ((if ((drawnOf x c).2.map fun w : ℚ => k.volume + w).length = (x c).length then Except.ok ((drawnOf x c).1, _) else .error Err.valueError) : Except Err _).map _ = _
    rw [if_pos (by rw [List.length_map, lc])]
    rfl
  · intro i t hi hl hk
    obtain ⟨cc, hc1, hc2, hc3⟩ := receiver_curve c x hcn
    rw [get_drawn hcn] at hc1
    injection hc1 with hc1
    subst hc1
    rw [List.getElem?_map, hc3.2 i t hi hl, Option.map_some]
    congr 1
    unfold totalUntil
    have e3 : volumeUntil (x b) t = 0 := by
      unfold volumeUntil
      rw [hb]
      simp [hk]
    simp only [List.map_cons, List.map_nil, List.sum_cons, List.sum_nil, e3]
    ring

/-- **C174** violated: with as many configurations of both receivers, the total is drawn at the times of the last receiver alone: volumes
of the first one are counted before their start. -/
theorem total_times_violated (x : Obs) (b c : Backend) (hbc : b ≠ c) (hb : x b ≠ []) (hl : (x b).length = (x c).length) :
    plotVolume [some b, some c] x = .ok ([drawnOf x b, drawnOf x c], ((byStart (x c)).map Conf.start,
      List.zipWith (fun v w : ℚ => v + w) (drawnOf x b).2 (drawnOf x c).2)) ∧
    ((∀ k ∈ x b, 0 < k.volume ∧ ∀ m ∈ x c, m.start < k.start) →
      ¬ Tells ((byStart (x c)).map Conf.start, List.zipWith (fun v w : ℚ => v + w) (drawnOf x b).2 (drawnOf x c).2) (totalUntil [b, c] x)) := by
  have hc : x c ≠ [] := by
    intro e
    rw [e] at hl
    exact hb (List.length_eq_zero_iff.1 hl)
  have lb := (drawn_lengths x b).2
  have lc := (drawn_lengths x c).2
  have lt := (drawn_lengths x c).1
  refine ⟨?_, ?_⟩
  · rw [draw_two x b c hbc hb hc, add_same _ _ (by rw [lb, lc]; exact hl)]
    show ((if (List.zipWith (fun v w : ℚ => v + w) (drawnOf x b).2 (drawnOf x c).2).length = (x c).length then Except.ok ((drawnOf x c).1, _)
      else .error Err.valueError) : Except Err _).map _ = _
    rw [if_pos (by rw [List.length_zipWith, lb, lc, hl, Nat.min_self])]
    rfl
  · intro hk ht
    have hpos : 0 < (x c).length := List.length_pos_of_ne_nil hc
    obtain ⟨i, hi⟩ : ∃ i, i + 1 = (x c).length := ⟨(x c).length - 1, by omega⟩
    obtain ⟨hp, hs⟩ := byStart_sorted (x b)
    obtain ⟨t, htt⟩ : ∃ t, ((byStart (x c)).map Conf.start)[i]? = some t := ⟨_, List.getElem?_eq_getElem (by
      show i < (drawnOf x c).1.length
      rw [lt]
      omega)⟩
    have hlast : ∀ t', ((byStart (x c)).map Conf.start)[i + 1]? = some t' → t < t' := by
      intro t' h'
      have h2 : i + 1 < (drawnOf x c).1.length := (List.getElem?_eq_some_iff.1 h').1
      omega
    have h1 := ht.2 i t htt hlast
    obtain ⟨cc, hc1, hc2, hc3⟩ := receiver_curve c x hc
    rw [get_drawn hc] at hc1
    injection hc1 with hc1
    subst hc1
    have h2 := hc3.2 i t htt hlast
    have h3 : (drawnOf x b).2[i]? = some (((x b).map Conf.volume).sum) := by
      obtain ⟨-, -, -, h4, -⟩ := cumulative_exact_partial (x b) _ hp hs
      have h5 := h4 hb
      rw [List.getLast?_eq_getElem?] at h5
      rw [← h5]
      show (drawnOf x b).2[i]? = (drawnOf x b).2[(drawnOf x b).2.length - 1]?
      rw [lb]
      congr 1
      omega
    have hsum : 0 < ((x b).map Conf.volume).sum := by
      refine List.sum_pos _ ?_ (by simpa using hb)
      intro v hv
      obtain ⟨k, hk', rfl⟩ := List.mem_map.1 hv
      exact (hk k hk').1
    have h0 : volumeUntil (x b) t = 0 := by
      unfold volumeUntil
      rw [List.filter_eq_nil_iff.2]
      · rfl
      · intro k hk'
        rw [decide_eq_true_eq, not_le]
        obtain ⟨hq, e⟩ := List.getElem?_eq_some_iff.1 htt
        rw [List.getElem_map] at e
        rw [← e]
        exact (hk k hk').2 _ ((byStart_sorted (x c)).1.subset (List.getElem_mem _))
    rw [List.getElem?_zipWith, h3, h2] at h1
    have h6 : ((x b).map Conf.volume).sum + volumeUntil (x c) t = totalUntil [b, c] x t := Option.some.inj h1
    unfold totalUntil at h6
    simp only [List.map_cons, List.map_nil, List.sum_cons, List.sum_nil, h0] at h6
    linarith

/-- **C174** violated: nothing can be plotted without saying which receivers, unless all of them have a configuration; without any
receiver a variable is not bound; an unknown receiver is refused. -/
theorem total_default_violated (x : Obs) :
    ((∃ b, x b = []) → plotVolumeAll x = .error .valueError) ∧ plotVolume [] x = .error .unboundLocal ∧
    ∀ l, plotVolume (none :: l) x = .error .valueError := by
  refine ⟨?_, rfl, fun l => rfl⟩
  rintro ⟨b, hb⟩
  have key : ∀ (bs : List Backend) (d : Drawn), b ∈ bs → drawLoop x (bs.map some) d = .error .valueError := by
    intro bs
    induction bs with
    | nil => intro d h; cases h
    | cons c bs ih =>
      intro d h
      rw [List.map_cons, drawLoop]
      by_cases hc : x c = []
      · have : getCumulative (some c) x = .error .valueError := if_pos hc
        rw [this]
        rfl
      · rw [get_drawn hc]
        have hbc : b ∈ bs := by
          rcases List.mem_cons.1 h with e | e
          · subst e; exact absurd hb hc
          · exact e
        exact ih _ hbc
  unfold plotVolumeAll plotVolume
  rw [key order _ (by cases b <;> simp [order])]
  rfl

/-! ## The hypotheses are met -/

/-- Two observations of the two receivers `bst` and `raw`, the first of which starts later for `bst`. -/
def lateObs : Obs := fun b =>
  if b = .bst then [Conf.new (defaultBeam .bst 100) 50, Conf.new (defaultBeam .bst 100) 60]
  else if b = .raw then [Conf.new (defaultBeam .raw 100) 10, Conf.new (defaultBeam .raw 100) 0] else []

example : (∀ k ∈ lateObs .bst, 0 < k.volume ∧ ∀ m ∈ lateObs .raw, m.start < k.start) ∧ lateObs .bst ≠ [] ∧
    (lateObs .bst).length = (lateObs .raw).length := by
  decide +kernel

example : ((plotVolume [some .bst, some .raw] lateObs).toOption.map fun r => r.2.1) = some [0, 10] := by decide +kernel

/-- Two files are read. -/
example (F : Parset.Str → Option ℚ) (a b : ℚ) : ∃ os, List.Forall₂ (fun p o => obsOf F p = .ok o)
    [⟨a, some (.str "undysputed".toList), none, none, none, none, [], [⟨"waveform".toList, none, "600s".toList, [], a⟩]⟩,
      ⟨b, some (.str "undysputed".toList), none, none, none, none, [], []⟩] os :=
  ⟨_, .cons rfl (.cons rfl .nil)⟩

example : plotVolume ([.bst, .tf].map some) lateObs = .error .valueError := by rfl

end Verif.Config
