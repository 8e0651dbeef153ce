/-
What is refused, and with which error: sets of SST files, slices, selection texts, saved near-fields; default bounds of BST files; values of fitted transits.
-/
import Verif.IO.PropsSst
import Verif.IO.PropsTransit
import Verif.IO.PropsTvFits
import Verif.IO.PropsBeamSelect

namespace Verif.IO

section
variable {F : Type} [LinearOrder F]

/-! ## Sets of SST files -/

/-- Subtracting from a set with a pointing file: `TypeError` if the other has one as well, `AttributeError` otherwise. -/
theorem sub_pointed_violated {B : Type} [DecidableEq B] (base : F → B) (isfile : F → Bool) (read : F → SstProps) (a b : Sst F) (hp : a.pointed = true)
    (hf : ∀ f : F, isfile f = true) : (b.pointed = true → subSst base isfile read a b = .error .typeError) ∧
      (b.pointed = false → subSst base isfile read a b = .error .attributeError) := by
  have ho : ∀ l : List F, ∃ n : Sst F, openSst isfile read l false false = .ok n := fun l => ⟨_, if_pos (List.all_eq_true.2 fun f _ => hf f)⟩
  constructor
  · intro hb
    obtain ⟨n, hn⟩ := ho ((b.names.map base).foldl (dropBase base) (a.names, a.props)).1
    show (openSst isfile read ((b.names.map base).foldl (dropBase base) (a.names, a.props)).1 false false).bind _ = _
    rw [hn]
    show (if a.pointed then (if b.pointed then Except.error Err.typeError else Except.error Err.attributeError) else Except.ok _) = _
    rw [if_pos hp, if_pos hb]
  · intro hb
    obtain ⟨n, hn⟩ := ho ((b.names.map base).foldl (dropBase base) (a.names, a.props)).1
    show (openSst isfile read ((b.names.map base).foldl (dropBase base) (a.names, a.props)).1 false false).bind _ = _
    rw [hn]
    show (if a.pointed then (if b.pointed then Except.error Err.typeError else Except.error Err.attributeError) else Except.ok _) = _
    rw [if_pos hp, if_neg (by rw [hb]; decide)]

/-- A set without properties has no limits: each of them is a `ValueError`, as are the default ranges. -/
theorem no_limits (s : Sst F) (h : s.props = []) : s.tMin = .error .valueError ∧ s.tMax = .error .valueError ∧ s.fMin = .error .valueError ∧ s.fMax = .error .valueError := by
  unfold Sst.tMin Sst.tMax Sst.fMin Sst.fMax
  rw [h]
  exact ⟨rfl, rfl, rfl, rfl⟩

/-- Choosing a mini-array: accepted without any check on a set without properties, refused by an exception on any other one. -/
theorem set_ma_exact (s : Sst F) (m : Int) : (s.props = [] → setMa s m = .ok { s with ma := some m }) ∧ (s.props ≠ [] → setMa s m = .error .exception) := by
  refine ⟨fun h => ?_, fun h => set_ma_violated s h m⟩
  unfold setMa
  rw [h]
  rfl

/-- The polarisation: the one chosen; else the first one of the file that was read first; else `IndexError`. -/
theorem polar_exact (s : Sst F) : (∀ p, s.polar = some p → getPolar s = .ok p) ∧
    (∀ (f : F) (q : SstProps) (l : List (F × SstProps)) (p : List Char) (ps : List (List Char)), s.polar = none → s.props = (f, q) :: l → q.polars = p :: ps → getPolar s = .ok p) ∧
    (s.polar = none → s.props = [] → getPolar s = .error .indexError) ∧
    (∀ (f : F) (q : SstProps) (l : List (F × SstProps)), s.polar = none → s.props = (f, q) :: l → q.polars = [] → getPolar s = .error .indexError) := by
  unfold getPolar
  refine ⟨fun p h => by rw [h]; rfl, fun f q l p ps h1 h2 h3 => ?_, fun h1 h2 => ?_, fun f q l h1 h2 h3 => ?_⟩
  · rw [h1, h2]
    show (((q.polars.head?).map Except.ok).getD (Except.error Err.indexError)) = _
    rw [h3]; rfl
  · rw [h1, h2]; rfl
  · rw [h1, h2]
    show (((q.polars.head?).map Except.ok).getD (Except.error Err.indexError)) = _
    rw [h3]; rfl

/-- A range of two values is kept in increasing order, and nothing else of the set changes. -/
theorem range_kept (upper : List Char → List Char) (s : Sst F) (a b : ℚ) :
    setArg upper s (.freqRange (some [a, b])) = .ok { s with freqRange := some [min a b, max a b] } ∧
    setArg upper s (.timeRange (some [a, b])) = .ok { s with timeRange := some [min a b, max a b] } := by
  have h := (range_bounds a b 0 []).1
  constructor
  · show (bounds [a, b]).map _ = _
    rw [h]; rfl
  · show (bounds [a, b]).map _ = _
    rw [h]; rfl

/-- `None` for a range puts back the limits of all files. -/
theorem range_reset (read : F → SstProps) (upper : List Char → List Char) (s : Sst F) (g : s.Good read) (lo hi : ℚ) (h : lo ≤ hi) :
    ((∃ f ∈ s.files, (read f).fMin = lo) → (∀ f ∈ s.files, lo ≤ (read f).fMin) → (∃ f ∈ s.files, (read f).fMax = hi) → (∀ f ∈ s.files, (read f).fMax ≤ hi) →
      setArg upper s (.freqRange none) = .ok { s with freqRange := some [lo, hi] }) ∧
    ((∃ f ∈ s.files, (read f).tMin = lo) → (∀ f ∈ s.files, lo ≤ (read f).tMin) → (∃ f ∈ s.files, (read f).tMax = hi) → (∀ f ∈ s.files, (read f).tMax ≤ hi) →
      setArg upper s (.timeRange none) = .ok { s with timeRange := some [lo, hi] }) := by
  have hb : bounds [lo, hi] = .ok [lo, hi] := by
    have := (range_bounds lo hi 0 []).1
    rwa [min_eq_left h, max_eq_right h] at this
  constructor
  · intro h1 h2 h3 h4
    have e1 := (limits_exact read s g lo).2.2.1.2 ⟨h1, h2⟩
    have e2 := (limits_exact read s g hi).2.2.2.2 ⟨h3, h4⟩
    show (s.fMin.bind fun a => s.fMax.bind fun b => bounds [a, b]).map _ = _
    rw [e1]
    show (s.fMax.bind fun b => bounds [lo, b]).map _ = _
    rw [e2]
    show (bounds [lo, hi]).map _ = _
    rw [hb]; rfl
  · intro h1 h2 h3 h4
    have e1 := (limits_exact read s g lo).1.2 ⟨h1, h2⟩
    have e2 := (limits_exact read s g hi).2.1.2 ⟨h3, h4⟩
    show (s.tMin.bind fun a => s.tMax.bind fun b => bounds [a, b]).map _ = _
    rw [e1]
    show (s.tMax.bind fun b => bounds [lo, b]).map _ = _
    rw [e2]
    show (bounds [lo, hi]).map _ = _
    rw [hb]; rfl

/-- An empty list is kept as a range by the setter, and stops every later selection on a set that has files: the bounds are looked up with an `IndexError`. -/
theorem range_empty_violated (upper : List Char → List Char) (content : F → SstContent) (s : Sst F) (tr : List ℚ) (m : Int) (pol : List Char) (hn : s.files ≠ [])
    (ht : s.timeRange = some tr) (h2 : tr.length = 2) (hm : s.ma = some m) (hp : s.polar = some pol) :
    setArg upper s (.freqRange (some [])) = .ok { s with freqRange := some [] } ∧
    selectSst upper content s [.freqRange (some [])] = .error .indexError := by
  have h1 : setArg upper s (.freqRange (some [])) = .ok { s with freqRange := some [] } := rfl
  refine ⟨h1, ?_⟩
  have hne : ({ s with freqRange := some [] } : Sst F).names ≠ [] := by
    intro e
    have := names_length ({ s with freqRange := some [] } : Sst F)
    rw [e] at this
    exact hn (List.length_eq_zero_iff.1 this.symm)
  obtain ⟨x, y, rfl⟩ : ∃ x y, tr = [x, y] := List.length_eq_two.1 h2
  show ((setArg upper s (.freqRange (some []))).bind fun t => setArgs upper t []).bind _ = _
  rw [h1]
  show ((getTimeRange ({ s with freqRange := some [] } : Sst F)).bind _) = _
  have e1 : getTimeRange ({ s with freqRange := some [] } : Sst F) = .ok [x, y] := by
    show ((s.timeRange.map Except.ok).getD _) = _
    rw [ht]; rfl
  have e2 : getMa ({ s with freqRange := some [] } : Sst F) = .ok m := by
    show ((s.ma.map Except.ok).getD _) = _
    rw [hm]; rfl
  have e3 : getPolar ({ s with freqRange := some [] } : Sst F) = .ok pol := (polar_exact _).1 pol hp
  rw [e1]
  show ((getMa ({ s with freqRange := some [] } : Sst F)).bind _) = _
  rw [e2]
  show ((getPolar ({ s with freqRange := some [] } : Sst F)).bind _) = _
  rw [e3]
  show (if ({ s with freqRange := some [] } : Sst F).names = [] then _ else _) = _
  rw [if_neg hne]
  rfl

end

/-! ## Slices -/

/-- Joining a row and a table, or tables of different heights, is a `ValueError`. -/
theorem join_refused (a : List ℚ) (b : List (List ℚ)) : hstack (.one a) (.two b) = .error .valueError ∧ hstack (.two b) (.one a) = .error .valueError := ⟨rfl, rfl⟩

/-- Operations on two curves or spectra over the same axes: sample by sample, for every pair of the same length, and never otherwise. -/
theorem op_curves (op : ℚ → ℚ → ℚ) (s o : Slice) (a b : List ℚ) (hs : s.value = .one a) (ho : o.value = .one b) (ht : s.time = o.time) (hf : s.freq = o.freq) :
    (a.length = b.length → ∃ r, sliceOp op s o = .ok r ∧ r.time = s.time ∧ r.freq = s.freq ∧ r.value = .one (List.zipWith op a b)) ∧
    (a.length ≠ b.length → sliceOp op s o = .error .valueError) := by
  have hu : sliceOp op s o = (mapVal op s.value o.value).map fun v =>
      { s with value := v, ana := if s.ana.length < o.ana.length then o.ana else s.ana, digi := if s.digi.length < o.digi.length then o.digi else s.digi } := by
    unfold sliceOp
    rw [if_neg (by rw [ht, hf]; simp), if_neg (by rw [ht, hf]; simp)]
  rw [hu, hs, ho]
  constructor
  · intro h
    have : mapVal op (.one a) (.one b) = .ok (.one (List.zipWith op a b)) := if_pos h
    rw [this]
    exact ⟨_, rfl, rfl, rfl, rfl⟩
  · intro h
    have : mapVal op (.one a) (.one b) = .error .valueError := if_neg h
    rw [this]; rfl

/-- An operation between a curve and a table is a `ValueError`. -/
theorem op_mixed (op : ℚ → ℚ → ℚ) (s o : Slice) (a : List ℚ) (b : List (List ℚ)) (h : (s.value = .one a ∧ o.value = .two b) ∨ (s.value = .two b ∧ o.value = .one a)) (ht : s.time = o.time) (hf : s.freq = o.freq) :
    sliceOp op s o = .error .valueError := by
  unfold sliceOp
  rw [if_neg (by rw [ht, hf]; simp), if_neg (by rw [ht, hf]; simp)]
  rcases h with ⟨h1, h2⟩ | ⟨h1, h2⟩
  · rw [h1, h2]; rfl
  · rw [h1, h2]; rfl

/-- Joining data of other polarisations is a `ValueError`, in both directions; joining data at other frequencies in time as well. -/
theorem sdata_join_refused (s o : SData) : (s.polar ≠ o.polar → sdataOr s o = .error .valueError ∧ sdataAnd s o = .error .valueError) ∧
    (s.polar = o.polar → s.freq.length = o.freq.length → s.freq ≠ o.freq → sdataOr s o = .error .valueError) ∧
    (∀ a b : List (List (List ℚ)), a.length ≠ b.length → hstack3 a b = .error .valueError) := by
  refine ⟨fun h => ⟨if_pos h, if_pos h⟩, fun hp hl hf => ?_, fun a b h => if_neg h⟩
  have he : eqAll s.freq o.freq = .ok false := by
    unfold eqAll
    rw [if_pos hl, decide_eq_false hf]
  unfold sdataOr
  rw [if_neg (by simp [hp]), he]
  rfl

/-! ## Selection texts -/

theorem findOp_none (tag : Char) (l : List Char) (h : ∀ c ∈ l, c ≠ '>' ∧ c ≠ '<' ∧ c ≠ '=') : findOp tag l = none := by
  induction l with
  | nil => rfl
  | cons c cs ih =>
    have h0 := h c List.mem_cons_self
    have he : ¬ (c = tag ∧ cs.take 2 = ['=', '=']) := by
      rintro ⟨-, e⟩
      have : '=' ∈ cs := List.mem_of_mem_take (i := 2) (by rw [e]; exact List.mem_cons_self)
      exact (h '=' (List.mem_cons_of_mem _ this)).2.2 rfl
    rw [findOp, if_neg (fun e => h0.1 e.1), if_neg (fun e => h0.2.1 e.1), if_neg he, if_neg h0.2.1, if_neg h0.1]
    exact ih fun x hx => h x (List.mem_cons_of_mem _ hx)

theorem tagEq_same (tag : Char) (l : List Char) (h : ∀ c ∈ l, c ≠ '=') : tagEq tag l = l := by
  induction l with
  | nil => rw [tagEq]
  | cons c cs ih =>
    rw [tagEq_cons (fun e => h c List.mem_cons_self e.1), ih fun x hx => h x (List.mem_cons_of_mem _ hx)]

theorem splitAmp_head (l : List Char) : ∃ x xs, splitAmp l = x :: xs ∧ ∀ c ∈ x, c ∈ l := by
  induction l with
  | nil => exact ⟨[], [], rfl, fun c h => h⟩
  | cons c cs ih =>
    obtain ⟨x, xs, hx, hm⟩ := ih
    rw [splitAmp]
    by_cases hc : c = '&'
    · rw [if_pos hc]; exact ⟨[], _, rfl, (fun c h => nomatch h)⟩
    · rw [if_neg hc, hx]
      refine ⟨c :: x, xs, rfl, fun d hd => ?_⟩
      rcases List.mem_cons.1 hd with rfl | hd
      · exact List.mem_cons_self
      · exact List.mem_cons_of_mem _ (hm d hd)

/-- A selection text without any comparison, the empty text for instance, is an `AttributeError`. -/
theorem parse_refused (tag : Char) (conv : List Char → Except Err ℚ) (text : List Char) (h : ∀ c ∈ text, c ≠ '>' ∧ c ≠ '<' ∧ c ≠ '=') :
    parseConds tag conv text = .error .attributeError := by
  unfold parseConds
  rw [tagEq_same tag text fun c hc => (h c hc).2.2]
  obtain ⟨x, xs, hx, hm⟩ := splitAmp_head (text.filter fun c => decide (c ≠ ' '))
  rw [hx]
  have hn : findOp tag x = none := findOp_none tag x fun c hc => h c (List.mem_of_mem_filter (hm c hc))
  have hr : readCond tag conv x = .error .attributeError := by
    unfold readCond
    rw [hn]; rfl
  show ((readCond tag conv x).bind _).bind _ = _
  rw [hr]; rfl

example : ∀ c ∈ "35 MHz".toList, c ≠ '>' ∧ c ≠ '<' ∧ c ≠ '=' := by decide +kernel

/-! ## Default bounds of a BST file -/

/-- The default selection runs from the lowest to the highest frequency of the file which is not zero, and yet leaves out the beamlet that has the lowest one: frequencies are moved
by half a sub-band after the bounds are known. -/
theorem bst_lowest_violated (f : BstFile) (lo hi : ℚ) (b : Nat) (hlo : minOf (listed f) = .ok lo) (hb : (b, lo) ∈ f.beams.getD 0 []) (hd : ((f.current 0).map Prod.fst).Nodup) :
    b ∉ (bstInit f lo hi).freqIdx ∧ lo ≠ 0 ∧ ∀ beam ∈ f.beams, ∀ p ∈ beam, p.2 ≠ 0 → lo ≤ p.2 := by
  obtain ⟨h1, h2⟩ := (minOf_spec _ _).1 hlo
  refine ⟨bst_default_violated f lo hi b lo hb le_rfl hd, ?_, fun beam hbe p hp h0 => h2 _ ?_⟩
  · have := (List.mem_filter.1 h1).2
    exact of_decide_eq_true this
  · exact List.mem_filter.2 ⟨List.mem_flatMap.2 ⟨beam, hbe, List.mem_map.2 ⟨p, hp, rfl⟩⟩, decide_eq_true h0⟩

example : minOf (listed ⟨[[(0, 30), (1, 31)], [(2, 0)]]⟩) = .ok 30 ∧ ((BstFile.current ⟨[[(0, 30), (1, 31)], [(2, 0)]]⟩ 0).map Prod.fst).Nodup :=
  ⟨by show Except.ok _ = Except.ok _; congr 1, by decide +kernel⟩

/-! ## Fitted transits -/

open Verif.Instru (npInterp)

theorem steps_get (n i : Nat) (hi : i < n) : (stepsOf n)[i]? = some ((i : ℝ) + 1) := by
  unfold stepsOf
  rw [List.getElem?_map, List.getElem?_range hi]
  rfl

section
variable {filt : List ℚ → List ℚ} {solve : List (ℝ × ℝ) → Except Err Fit} {v : List (Option ℚ)} {jd : List ℝ} {d : List (ℚ × Nat)}

/-- The curve returned with a background: at sample `i`, counted from 0, the gaussian and the straight line at `i + 1`, times the greatest value. -/
theorem transit_background_curve (hd : prepared none v = .ok d) (h0 : topOf (d.map Prod.fst) ≠ 0) (hj : jd.headD 0 < jd.getLastD 0) (hc : bottomOf (normed d) < topOf (normed d)) {p : Fit}
    (hs : solve (d.map fun q => ((q.2 : ℝ), ((q.1 / topOf (d.map Prod.fst) : ℚ) : ℝ))) = .ok p) :
    ∃ r, fitTransit filt solve "gaussian_bkg" none v jd = .ok r ∧ r.value.length = v.length ∧
      ∀ i < v.length, r.value[i]? = some ((topOf (d.map Prod.fst) : ℝ) *
        (p.amp * Real.exp (-((i : ℝ) + 1 - p.mu) ^ 2 / (2 * p.sig ^ 2)) + (p.c2 + ((i : ℝ) + 1) * p.c1))) := by
  obtain ⟨r, h1, -, h3, -⟩ := transit_background_partial (filt := filt) hd h0 hj hc hs
  refine ⟨r, h1, transit_values "gaussian_bkg" h1, fun i hi => ?_⟩
  rw [h3, List.getElem?_map, steps_get _ _ hi]
  show some _ = some _
  congr 2
  unfold backOf gaussOf
  ring

/-- The third method, without threshold: it works when all values divided by the greatest one are positive; at sample `i`, the gaussian, the straight line and the logarithm at `i + 1`. -/
theorem transit_loads_partial (hd : prepared none v = .ok d) (h0 : topOf (d.map Prod.fst) ≠ 0) (hj : jd.headD 0 < jd.getLastD 0) (hc : 0 < bottomOf (normed d)) {p : Fit}
    (hs : solve (d.map fun q => ((q.2 : ℝ), ((q.1 / topOf (d.map Prod.fst) : ℚ) : ℝ))) = .ok p) :
    ∃ r, fitTransit filt solve "loads" none v jd = .ok r ∧ r.popt = p ∧ r.value.length = v.length ∧
      ∀ i < v.length, r.value[i]? = some ((topOf (d.map Prod.fst) : ℝ) *
        (p.amp * Real.exp (-((i : ℝ) + 1 - p.mu) ^ 2 / (2 * p.sig ^ 2)) + (p.loadB + ((i : ℝ) + 1) * p.c1 + Real.logb 10 ((i : ℝ) + 1) * p.loadA))) := by
  have hb : boundsOk false d jd = .ok () := by
    unfold boundsOk
    rw [if_neg h0, if_neg (not_le.2 hj), if_neg (by decide), if_pos hc]
  have hnm : (normed d).map (fun y : ℚ => (y : ℝ)) = d.map fun q => ((q.1 / topOf (d.map Prod.fst) : ℚ) : ℝ) := by
    unfold normed
    rw [List.map_map]
    rfl
  have hsp : spread (d.map fun q => ((q.1 / topOf (d.map Prod.fst) : ℚ) : ℝ)) v.length = .ok (d.map fun q => ((q.1 / topOf (d.map Prod.fst) : ℚ) : ℝ)) := by
    unfold spread
    rw [if_pos (by rw [List.length_map, prepared_length hd])]
  have he : fitTransit filt solve "loads" none v jd = .ok ⟨modelled loadOf d v.length p, npInterp (d.map fun p => (p.2 : ℝ)) (d.map fun p => jd.getD (p.2 - 1) 0) p.mu,
     logChi (d.map fun q => ((q.1 / topOf (d.map Prod.fst) : ℚ) : ℝ)) (modelled loadOf d v.length p), p⟩ := by
    unfold fitTransit
    rw [if_neg (by decide +kernel), if_neg (by decide +kernel)]
    unfold otherFit
    rw [hd]
    show (boundsOk false d jd).bind _ = _
    rw [hb]
    show (solve _).bind _ = _
    rw [hnm, List.zip_map', hs]
    show (spread _ _).map _ = _
    rw [hsp]
    rfl
  refine ⟨_, he, rfl, transit_values "loads" he, fun i hi => ?_⟩
  show (modelled loadOf d v.length p)[i]? = _
  unfold modelled
  rw [List.getElem?_map, steps_get _ _ hi]
  show some _ = some _
  congr 2
  unfold loadOf gaussOf
  ring

end

/-! ## Near-fields and images in files -/

/-- A pixel is taken as missing exactly when it is within one part in a hundred thousand of the value −1.6375·10³⁰. -/
theorem missing_exact (q : ℚ) : maskBad (some q) = true ↔ |q + 1637500000000000000000000000000| ≤ 1 / 100000000 + 16375000000000000000000000 := by
  have h1 : unseen = -1637500000000000000000000000000 := by unfold unseen; norm_num
  have h2 : badMargin = 1 / 100000000 + 16375000000000000000000000 := by unfold badMargin; rw [h1]; norm_num
  show decide (|q - unseen| ≤ badMargin) = true ↔ _
  rw [decide_eq_true_iff, h1, h2, sub_neg_eq_add]

/-- The characters accepted in the name of a source or of a Stokes parameter: from the blank to the tilde. -/
theorem printable_exact (s : String) : printable s = true ↔ ∀ c ∈ s.toList, 32 ≤ c.toNat ∧ c.toNat < 127 := by
  unfold printable
  rw [List.all_eq_true]
  refine forall_congr' fun c => forall_congr' fun _ => ?_
  rw [decide_eq_true_iff]
  omega

/-- A file without the extension of the near-field, or without that of the mini-arrays, is refused with a `KeyError`. -/
theorem near_missing (l : List Hdu) (h : (∀ x ∈ l, x.name ≠ "NEAR-FIELD") ∨ (∀ x ∈ l, x.name ≠ "MINI-ARRAYS")) : readNear l = .error .keyError := by
  have none_of : ∀ n : String, (∀ x ∈ l, x.name ≠ n) → hduOf l n = .error .keyError := by
    intro n hn
    unfold hduOf
    rw [List.find?_eq_none.2 fun x hx => by simpa using hn x hx]
    rfl
  unfold readNear
  by_cases h1 : ∀ x ∈ l, x.name ≠ "NEAR-FIELD"
  · rw [none_of _ h1]; rfl
  · have h2 : ∀ x ∈ l, x.name ≠ "MINI-ARRAYS" := h.resolve_left h1
    cases e : hduOf l "NEAR-FIELD" with
    | error err =>
      have : err = .keyError := by
        unfold hduOf at e
        cases hf : l.find? fun h => h.name == "NEAR-FIELD" with
        | none => rw [hf] at e; exact (Except.error.inj e).symm
        | some x => rw [hf] at e; exact nomatch e
      rw [this]; rfl
    | ok x =>
      show (hduOf l "MINI-ARRAYS").bind _ = _
      rw [none_of _ h2]; rfl

example : ∀ x ∈ [primaryHdu], x.name ≠ "NEAR-FIELD" := by decide +kernel

end Verif.IO
