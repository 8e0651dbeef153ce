import Verif.Raw.Spectra
import Verif.Raw.PropsSpectraFile
import Verif.TF.PropsSelect
import Verif.TF.PropsStokes
import Verif.TF.PropsLimits
import Verif.TF.PropsRun

/-!
# From the bytes of a file to dated Stokes parameters (property C155)
-/

namespace Verif.Raw

open Verif.TF

noncomputable section

/-! ## Specification -/

/-- A recording of `ns` sub-bands in blocks of `nt` times and `nc` channels, each sample being the sum of `N` spectra: an even number of
channels, and the same beams and sub-bands in all blocks. -/
structure Observation (ns nt nc : Nat) (N : Int) (bs : List Block) : Prop extends Recording ns nt nc bs where
  sums : ∀ b ∈ bs.head?, b.header.nfft2int = N
  times : 0 < nt
  channels : 0 < nc
  even : nc % 2 = 0
  several : ns ≠ 1
  fits : ns ≠ 2147483648
  layout : ∀ b ∈ bs, ∀ c ∈ bs, b.data.map (fun x => (x.beam, x.channel)) = c.data.map fun x => (x.beam, x.channel)
  numbered : ∀ b ∈ bs, ∀ x ∈ b.data, 0 ≤ x.beam

/-- Duration of a sample: `N` spectra of `nc` channels of a sub-band of 195.3125 kHz. -/
def sampleTime (nc : Nat) (N : Int) : ℚ := (nc : ℚ) * (N : ℚ) / (390625 / 2)

/-- Date of a block by its header: whole seconds, and a number of clock ticks of 5.12 microseconds since then. -/
def dateOf (h : Header) : ℚ := (h.stamp : ℚ) + (h.seq : ℚ) / (390625 / 2)

/-- The start of block `i` can be trusted: its header is not damaged when missing data are looked for, and otherwise the blocks follow
each other without a gap up to it. -/
def Dated (check : Bool) (bs : List Block) (D : ℚ) (i : Nat) (b : Block) : Prop :=
  if check then 1 ≤ b.header.stamp ∧ (i ≠ 0 → b.header.idx ≠ 0) ∧ 0 ≤ b.header.nbchan
  else ∀ b0 ∈ bs.head?, dateOf b.header = dateOf b0.header + (i : ℚ) * D

/-- The recorder wrote the products of the fields `E` (block, sub-band, time, channel of the Fourier transform). -/
def Written (fl : Nat → ℝ) (nt nc : Nat) (bs : List Block) (E : Nat → Nat → Nat → Nat → List (ℂ × ℂ)) : Prop :=
  ∀ (i s t c : Nat) (b : Block) (x : Beamlet), bs[i]? = some b → b.data[s]? = some x → t < nt → c < nc →
    fl (x.fft0.getD ((t * nc + c) * 2) 0) = powX (E i s t c) ∧ fl (x.fft0.getD ((t * nc + c) * 2 + 1) 0) = powY (E i s t c) ∧
      fl (x.fft1.getD ((t * nc + c) * 2) 0) = recR (E i s t c) ∧ fl (x.fft1.getD ((t * nc + c) * 2 + 1) 0) = recS (E i s t c)

/-! ## Helpers -/

theorem bind_inv {α β : Type} {x : Except Err α} {f : α → Except Err β} {b : β} (h : x.bind f = .ok b) :
    ∃ a, x = .ok a ∧ f a = .ok b := by
  cases x with
  | error e => cases h
  | ok a => exact ⟨a, rfl, h⟩

theorem blockStart_eq (h : Header) : blockStart h = dateOf h := rfl

theorem map_inv {α β : Type} {x : Except Err α} {f : α → β} {b : β} (h : x.map f = .ok b) : ∃ a, x = .ok a ∧ f a = b := by
  cases x with
  | error e => cases h
  | ok a => exact ⟨a, rfl, by injection h⟩

theorem Observation.head {ns nt nc : Nat} {N : Int} {bs : List Block} (h : Observation ns nt nc N bs) :
    ∃ b, bs.head? = some b ∧ b.header.nffte.toNat = nt ∧ b.header.fftlen = nc ∧ b.header.nbchan.natAbs = ns ∧
      b.header.nfft2int = N ∧ b ∈ bs ∧ b.data.length = ns := by
  obtain ⟨b, hb, h1, h2, h3⟩ := h.first
  have hm : b ∈ bs := List.mem_of_mem_head? hb
  exact ⟨b, hb, by rw [h1]; rfl, h2, h3, h.sums b hb, hm, (h.valid b hm).2.1⟩

theorem headerOf_some {bs : List Block} {i : Nat} {b : Block} (h : bs[i]? = some b) : headerOf bs i = b.header := by
  unfold headerOf; rw [h]; rfl

/-- What is kept of an observation. -/
theorem open_some {ns nt nc : Nat} {N : Int} {bs : List Block} (h : Observation ns nt nc N bs) (fl : Nat → ℝ) (check : Bool)
    (o : Opened) (ho : openSpectra fl check (writeFile bs) = .ok o) :
    o.n = bs.length ∧ o.nt = nt ∧ o.nc = nc ∧ o.dt = sampleTime nc N ∧ o.df = bandWidth / nc ∧ o.beams.length = ns ∧
      startsOf check bs nt (sampleTime nc N) = .ok o.start ∧
      (∃ b, bs.head? = some b ∧ o.chan = b.data.map Beamlet.channel ∧ o.beams = b.data.map fun x => x.beam.toNat) ∧
      ∀ t k, t < bs.length * nt → k < ns * nc →
        o.data.get2 (ns * nc) t k = matrices fl check bs nc (t / nt) (k / nc) (t % nt) (rawChannel nc (k % nc)) := by
  obtain ⟨b, hb, h1, h2, h3, h4, hm, hl⟩ := h.head
  have h2' : b.header.fftlen.toNat = nc := by rw [h2]; rfl
  have hdt : (b.header.fftlen : ℚ) * (b.header.nfft2int : ℚ) / bandWidth = sampleTime nc N := by
    rw [h2, h4]; unfold sampleTime bandWidth; push_cast; rfl
  unfold openSpectra at ho
  rw [spectra_read_partial check h.toRecording h.several h.fits] at ho
  change (bs.head?.elim _ _ : Except Err Opened) = _ at ho
  rw [hb] at ho
  change ((startsOf check bs b.header.nffte.toNat ((b.header.fftlen : ℚ) * (b.header.nfft2int : ℚ) / bandWidth)).bind _) = _ at ho
  obtain ⟨s, hs, ho⟩ := bind_inv ho
  obtain ⟨d, hd, ho⟩ := map_inv ho
  rw [h1, hdt] at hs
  rw [h1, h2', h3] at hd
  obtain ⟨r, hr, _, hcell⟩ := blocks_exact bs.length ns nt nc 2 (matrices fl check bs nc) h.even (Or.inr rfl)
  rw [hr] at hd
  cases hd
  subst ho
  refine ⟨rfl, h1, h2', hdt, ?_, ?_, hs, ⟨b, hb, rfl, rfl⟩, hcell⟩
  · show bandWidth / (b.header.fftlen : ℚ) = _
    rw [h2]; push_cast; rfl
  · show (b.data.map fun x => x.beam.toNat).length = ns
    rw [List.length_map, hl]

/-- The blanking never happens. -/
theorem matrices_some (fl : Nat → ℝ) (check : Bool) (bs : List Block) (nc i j k l : Nat) (b : Block) (x : Beamlet)
    (hb : bs[i]? = some b) (hx : b.data[j]? = some x) : matrices fl check bs nc i j k l = some (matrixOf fl nc x k l) := by
  have hi : i < bs.length := (List.getElem?_eq_some_iff.1 hb).1
  unfold matrices
  rw [blank_never_violated _ _ _ i hi, hb]
  show (b.data[j]?).map _ = _
  rw [hx]
  rfl

/-- A known name gives a parameter of any matrix. -/
theorem stokesOne_known (m m' : M2) (name : List Char) (v : Option ℝ) (h : stokesOne m name = .ok v) :
    ∃ w, stokesOne m' name = .ok w := by
  unfold stokesOne at h ⊢
  split_ifs at h ⊢ <;> first | exact ⟨_, rfl⟩ | cases h

theorem cell_exact (m : M2) (names : List String) (z : List (Option ℝ)) (h : computeStokes true ⟨0, 0, 0, 0⟩ names = .ok z) :
    computeStokes true m names = .ok (stokesCell names (some m)) := by
  have h' : (names.mapM fun n => stokesOne ⟨0, 0, 0, 0⟩ (stokesName n)) = .ok z := h
  show (names.mapM fun n => stokesOne m (stokesName n)) = .ok (names.map fun s => (stokesOne m (stokesName s)).toOption.bind id)
  clear h
  induction names generalizing z with
  | nil => rfl
  | cons n l ih =>
    rw [List.mapM_cons] at h' ⊢
    obtain ⟨v, hv, h'⟩ := bind_inv h'
    obtain ⟨vs, hvs, _⟩ := bind_inv h'
    obtain ⟨w, hw⟩ := stokesOne_known _ m _ _ hv
    have e := ih vs hvs
    rw [e, hw, List.map_cons, hw]
    rfl

theorem starts_dated (check : Bool) (bs : List Block) (nt : Nat) (dt : ℚ) (s : Nat → ℚ) (h : startsOf check bs nt dt = .ok s)
    (i : Nat) (b : Block) (hb : bs[i]? = some b) (hd : Dated check bs (nt * dt) i b) : s i = dateOf b.header := by
  have hi : i < bs.length := (List.getElem?_eq_some_iff.1 hb).1
  unfold startsOf at h
  cases check with
  | true =>
    rw [if_pos rfl] at h
    have hd' : 1 ≤ b.header.stamp ∧ (i ≠ 0 → b.header.idx ≠ 0) ∧ 0 ≤ b.header.nbchan := hd
    have hm : maskOf bs i = false := by
      cases hc : maskOf bs i with
      | false => rfl
      | true =>
        exfalso
        have := (bad_exact _ i).1 hc
        dsimp only at this
        rw [headerOf_some hb] at this
        rcases this with h1 | ⟨h1, h2⟩ | h1
        · have h3 : (1 : ℚ) ≤ (b.header.stamp : ℚ) := by exact_mod_cast hd'.1
          linarith
        · exact hd'.2.1 h1 (by exact_mod_cast h2)
        · omega
    rw [(reconstruct_exact _ _ _ _ h i hi).1 hm, headerOf_some hb, blockStart_eq]
  | false =>
    rw [if_neg (by simp)] at h
    cases h
    have hd' : ∀ b0 ∈ bs.head?, dateOf b.header = dateOf b0.header + (i : ℚ) * (nt * dt) := hd
    cases bs with
    | nil => simp at hi
    | cons b0 l =>
      rw [hd' b0 rfl]
      unfold regularStart
      rw [headerOf_some (b := b0) rfl, blockStart_eq]
      ring

/-! ## Properties -/

/-- One element of a selection of an opened file. -/
theorem selected_sample {ns nt nc : Nat} {N : Int} {bs : List Block} (h : Observation ns nt nc N bs) (fl : Nat → ℝ) (check : Bool)
    (tmin tmax fmin fmax : ℚ) (beam : Nat) (hc : ∀ b ∈ bs.head?, Contiguous (b.data.map fun x => x.beam.toNat) beam) (o : Opened)
    (ho : openSpectra fl check (writeFile bs) = .ok o) (q : Sel)
    (hsel : selectRaw o.start o.n o.nt o.dt tmin tmax (subStart o.chan) o.nc o.df fmin fmax (beamEdges o.beams o.nc beam) = .ok (some q)) :
    q.nTime = q.nRow ∧ q.nFreq = q.nCol ∧ (∀ k : Nat, q.row k = q.row 0 + k) ∧ (∀ j : Nat, q.col j = q.col 0 + j) ∧
      ∀ k j : Nat, k < q.nRow → j < q.nCol → ∃ (b : Block) (x : Beamlet),
        bs[q.row k / nt]? = some b ∧ b.data[q.col j / nc]? = some x ∧ x.beam = (beam : Int) ∧
        (Dated check bs (nt * sampleTime nc N) (q.row k / nt) b →
          q.time k = dateOf b.header + ((q.row k % nt : Nat) : ℚ) * sampleTime nc N) ∧
        q.freq j = fftFreq ((x.channel : ℚ) * (390625 / 2)) nc (390625 / 2 / nc) (rawChannel nc (q.col j % nc)) ∧
        o.data.get2 (o.beams.length * o.nc) (q.row k) (q.col j)
          = some (matrixOf fl nc x (q.row k % nt) (rawChannel nc (q.col j % nc))) := by
  obtain ⟨e1, e2, e3, e4, e5, e6, hs, ⟨b0, hb0, hch, hbe⟩, hcell⟩ := open_some h fl check o ho
  have hmem : beam ∈ o.beams := by
    by_contra hnot
    obtain ⟨_, e, he, _⟩ := selectRaw_some hsel
    have : beamWhere o.beams beam = [] := by
      rw [List.eq_nil_iff_forall_not_mem]
      intro i hi
      exact hnot (List.mem_of_getElem? (mem_beamWhere.1 hi))
    unfold beamEdges at he
    rw [this] at he
    cases he
  obtain ⟨i0, j0, hedge, hi0, hj0, hbetween⟩ := edges_some o.beams o.nc beam hmem
  have hij : i0 ≤ j0 := (hbetween i0 hi0).2
  rw [hedge, e3, show (j0 + 1) * nc - 1 = (i0 + (j0 + 1 - i0)) * nc - 1 by rw [show i0 + (j0 + 1 - i0) = j0 + 1 by omega],
    e1, e2, e4, e5] at hsel
  obtain ⟨a1, a2, a3, a4⟩ := select_axes _ _ _ _ _ _ _ _ _ _ _ i0 (j0 + 1 - i0) h.times h.channels (by omega) q hsel
  have hrow : ∀ k, q.row k = q.row 0 + k := by
    obtain ⟨_, _, _, _, rfl⟩ := selectRaw_some hsel
    intro k; dsimp only; omega
  have hcol : ∀ k, q.col k = q.col 0 + k := by
    obtain ⟨_, _, _, _, rfl⟩ := selectRaw_some hsel
    intro k; dsimp only; omega
  refine ⟨a1, a2, hrow, hcol, ?_⟩
  intro k j hk hj
  obtain ⟨b1, b2⟩ := a3 k hk
  obtain ⟨c1, c2, c3⟩ := a4 j hj
  have hj0l : j0 < ns := by
    rw [← e6]; exact (List.getElem?_eq_some_iff.1 hj0).1
  have hblk : q.row k / nt < bs.length := by rw [Nat.div_lt_iff_lt_mul h.times]; exact b1
  rw [show i0 + (j0 + 1 - i0) = j0 + 1 by omega] at c2
  have hsl : q.col j / nc ≤ j0 := by
    have : q.col j / nc < j0 + 1 := by rw [Nat.div_lt_iff_lt_mul h.channels]; exact c2
    omega
  have hsg : i0 ≤ q.col j / nc := by rw [Nat.le_div_iff_mul_le h.channels]; exact c1
  obtain ⟨b, hb⟩ : ∃ b, bs[q.row k / nt]? = some b := ⟨_, List.getElem?_eq_getElem hblk⟩
  have hbm : b ∈ bs := List.mem_of_getElem? hb
  have hb0m : b0 ∈ bs := List.mem_of_mem_head? hb0
  have hbl : b.data.length = ns := (h.valid b hbm).2.1
  obtain ⟨x, hx⟩ : ∃ x, b.data[q.col j / nc]? = some x := ⟨_, List.getElem?_eq_getElem (by rw [hbl]; omega)⟩
  have hb0l : b0.data.length = ns := (h.valid b0 hb0m).2.1
  obtain ⟨y, hy⟩ : ∃ y, b0.data[q.col j / nc]? = some y := ⟨_, List.getElem?_eq_getElem (by rw [hb0l]; omega)⟩
  have hxy : x.beam = y.beam ∧ x.channel = y.channel := by
    have hlay := congrArg (fun l => l[q.col j / nc]?) (h.layout b hbm b0 hb0m)
    simp only [List.getElem?_map, hx, hy, Option.map_some, Option.some.injEq, Prod.mk.injEq] at hlay
    exact hlay
  have hyb : y.beam = (beam : Int) := by
    have hcont := hc b0 hb0
    rw [← hbe] at hcont
    have := hcont i0 (q.col j / nc) j0 hsg hsl hi0 hj0
    rw [hbe, List.getElem?_map, hy, Option.map_some, Option.some.injEq] at this
    have h0 := h.numbered b0 hb0m y (List.mem_of_getElem? hy)
    omega
  refine ⟨b, x, hb, hx, hxy.1.trans hyb, ?_, ?_, ?_⟩
  · intro hd
    rw [b2]
    unfold rowTime
    rw [starts_dated check bs nt _ _ hs _ b hb hd]
  · rw [c3, hxy.2]
    have : subStart o.chan (q.col j / nc) = (y.channel : ℚ) * (390625 / 2) := by
      unfold subStart
      rw [hch, List.getD_eq_getElem?_getD, List.getElem?_map, hy]
      rfl
    rw [this]
    have hf := freq_of_channel (fun _ => (y.channel : ℚ) * (390625 / 2)) nc (390625 / 2 / nc) (q.col j) h.even h.channels
    rw [← hf]
    unfold specFreq bandWidth
    ring
  · have hlt : q.col j < ns * nc := lt_of_lt_of_le c2 (Nat.mul_le_mul_right nc (by omega))
    rw [e6, e3, hcell _ _ b1 hlt, matrices_some fl check bs nc _ _ _ _ b x hb hx]

/-- **What is returned is what was recorded, at its time and frequency.** Row `k`, column `j` of the result are two positions of the
recording, which advance one by one; the element holds the parameters asked for of the sample recorded there, the column bears the
frequency of its channel, and the row bears its time when the start of its block can be trusted. -/
theorem read_sample {ns nt nc : Nat} {N : Int} {bs : List Block} (h : Observation ns nt nc N bs) (fl : Nat → ℝ) (check : Bool)
    (tmin tmax fmin fmax : ℚ) (beam : Nat) (names : List String)
    (hc : ∀ b ∈ bs.head?, Contiguous (b.data.map fun x => x.beam.toNat) beam) (r : Got)
    (hr : readSpectra fl check (writeFile bs) tmin tmax fmin fmax beam names = .ok r) :
    r.nTime = r.nRow ∧ r.nFreq = r.nCol ∧ r.polar = names ∧ ∃ row col : Nat → Nat, (∀ k : Nat, row k = row 0 + k) ∧
      (∀ j : Nat, col j = col 0 + j) ∧ ∀ k j : Nat, k < r.nRow → j < r.nCol → ∃ (b : Block) (x : Beamlet),
        bs[row k / nt]? = some b ∧ b.data[col j / nc]? = some x ∧ x.beam = (beam : Int) ∧
        (Dated check bs (nt * sampleTime nc N) (row k / nt) b →
          r.time k = dateOf b.header + ((row k % nt : Nat) : ℚ) * sampleTime nc N) ∧
        r.freq j = fftFreq ((x.channel : ℚ) * (390625 / 2)) nc (390625 / 2 / nc) (rawChannel nc (col j % nc)) ∧
        computeStokes true (matrixOf fl nc x (row k % nt) (rawChannel nc (col j % nc))) names = .ok (r.cell k j) := by
  obtain ⟨o, ho, hg⟩ := bind_inv hr
  unfold Opened.get at hg
  obtain ⟨sel, hsel, hg⟩ := bind_inv hg
  by_cases hn : names = []
  · rw [if_pos hn] at hg; cases hg
  rw [if_neg hn] at hg
  cases sel with
  | none => cases hg
  | some q =>
    change ((computeStokes true ⟨0, 0, 0, 0⟩ names).map _) = _ at hg
    obtain ⟨z, hz, hg⟩ := map_inv hg
    subst hg
    obtain ⟨a1, a2, a3, a4, a5⟩ := selected_sample h fl check tmin tmax fmin fmax beam hc o ho q hsel
    refine ⟨a1, a2, rfl, q.row, q.col, a3, a4, fun k j hk hj => ?_⟩
    obtain ⟨b, x, b1, b2, b3, b4, b5, b6⟩ := a5 k j hk hj
    refine ⟨b, x, b1, b2, b3, b4, b5, ?_⟩
    show _ = Except.ok (stokesCell names (o.data.get2 (o.beams.length * o.nc) (q.row k) (q.col j)))
    rw [b6]
    exact cell_exact _ _ _ hz

/-- **From the fields to the parameters.** When the recorder wrote the products of the fields of the two antennas, the element at row `k`,
column `j` holds the Stokes parameters of the fields of that time and channel. -/
theorem read_stokes {ns nt nc : Nat} {N : Int} {bs : List Block} (h : Observation ns nt nc N bs) (fl : Nat → ℝ) (check : Bool)
    (tmin tmax fmin fmax : ℚ) (beam : Nat) (hc : ∀ b ∈ bs.head?, Contiguous (b.data.map fun x => x.beam.toNat) beam)
    (E : Nat → Nat → Nat → Nat → List (ℂ × ℂ)) (hE : Written fl nt nc bs E) (r : Got)
    (hr : readSpectra fl check (writeFile bs) tmin tmax fmin fmax beam ["I", "q", " U", "V"] = .ok r) :
    ∃ row col : Nat → Nat, (∀ k : Nat, row k = row 0 + k) ∧ (∀ j : Nat, col j = col 0 + j) ∧ ∀ k j : Nat, k < r.nRow → j < r.nCol →
      r.cell k j = [some (stokesOf (E (row k / nt) (col j / nc) (row k % nt) (rawChannel nc (col j % nc)))).i,
        some (stokesOf (E (row k / nt) (col j / nc) (row k % nt) (rawChannel nc (col j % nc)))).q,
        some (stokesOf (E (row k / nt) (col j / nc) (row k % nt) (rawChannel nc (col j % nc)))).u,
        some (stokesOf (E (row k / nt) (col j / nc) (row k % nt) (rawChannel nc (col j % nc)))).v] := by
  obtain ⟨_, _, _, row, col, h1, h2, h3⟩ := read_sample h fl check tmin tmax fmin fmax beam _ hc r hr
  refine ⟨row, col, h1, h2, fun k j hk hj => ?_⟩
  obtain ⟨b, x, hb, hx, _, _, _, hcell⟩ := h3 k j hk hj
  have hch : rawChannel nc (col j % nc) < nc := rawChannel_lt h.even (Nat.mod_lt _ h.channels)
  obtain ⟨w1, w2, w3, w4⟩ := hE _ _ _ _ b x hb hx (Nat.mod_lt (row k) h.times) hch
  unfold matrixOf at hcell
  rw [w1, w2, w3, w4, stokes_exact] at hcell
  injection hcell with hcell
  exact hcell.symm

/-! ## The whole recording -/

theorem argmax_unique (f : Nat → ℚ) (n i : Nat) (hi : i < n) (h : ∀ j : Nat, j < n → j ≠ i → f j < f i) : argmax f n = i := by
  by_contra hne
  have h1 := argmax_max f hi
  have h2 := h _ (argmax_lt f (show 0 < n by omega)) hne
  linarith

theorem near_value (s : Nat → ℚ) (t : ℚ) (j : Nat) : |((⌈s j - t⌉ : Int) : ℚ)| = ((|⌈s j - t⌉| : Int) : ℚ) := by push_cast; rfl

/-- The first of values at least one apart is the nearest to anything below it. -/
theorem near_low (s : Nat → ℚ) (n : Nat) (D t : ℚ) (hn : 0 < n) (hb : Blocks s n D) (hD : 1 ≤ D) (ht : t ≤ s 0) :
    nearIdx s n t = 0 := by
  refine argmax_unique _ n 0 hn fun j hj hne => ?_
  have hs := hb.mono (by linarith) (show 0 < j by omega) hj
  have h0 : 0 ≤ ⌈s 0 - t⌉ := Int.ceil_nonneg (by linarith)
  have h1 : ⌈s 0 - t⌉ < ⌈s j - t⌉ := by
    have h2 := Int.ceil_lt_add_one (s 0 - t)
    have h3 := Int.le_ceil (s j - t)
    have : ((⌈s 0 - t⌉ : Int) : ℚ) < ((⌈s j - t⌉ : Int) : ℚ) := by linarith
    exact_mod_cast this
  rw [near_value, near_value, abs_of_nonneg h0, abs_of_nonneg (by omega)]
  have : ((⌈s 0 - t⌉ : Int) : ℚ) < ((⌈s j - t⌉ : Int) : ℚ) := by exact_mod_cast h1
  linarith

/-- The last of values at least one apart is the nearest to anything above it. -/
theorem near_high (s : Nat → ℚ) (n : Nat) (D t : ℚ) (hn : 0 < n) (hb : Blocks s n D) (hD : 1 ≤ D) (ht : s (n - 1) ≤ t) :
    nearIdx s n t = n - 1 := by
  refine argmax_unique _ n (n - 1) (by omega) fun j hj hne => ?_
  have hs := hb.mono (by linarith) (show j < n - 1 by omega) (by omega)
  have h0 : ⌈s (n - 1) - t⌉ ≤ 0 := Int.ceil_le.2 (by push_cast; linarith)
  have h1 : ⌈s j - t⌉ < ⌈s (n - 1) - t⌉ := by
    have h2 := Int.ceil_lt_add_one (s j - t)
    have h3 := Int.le_ceil (s (n - 1) - t)
    have : ((⌈s j - t⌉ : Int) : ℚ) < ((⌈s (n - 1) - t⌉ : Int) : ℚ) := by linarith
    exact_mod_cast this
  rw [near_value, near_value, abs_of_nonpos h0, abs_of_neg (by omega)]
  have : ((⌈s j - t⌉ : Int) : ℚ) < ((⌈s (n - 1) - t⌉ : Int) : ℚ) := by exact_mod_cast h1
  push_cast
  linarith

theorem inBlock_first (start : ℚ) (nt : Nat) (dt t : ℚ) (hdt : 0 < dt) (ht : t ≤ start) : inBlock start nt dt t = 0 := by
  have := inBlock_le start nt dt t hdt 0 (by push_cast; linarith)
  omega

theorem inBlock_last (start : ℚ) (nt : Nat) (dt t : ℚ) (hdt : 0 < dt) (hnt : 0 < nt) (ht : start + nt * dt ≤ t) :
    inBlock start nt dt t = nt - 1 := by
  have h1 := inBlock_lt start nt dt t hnt
  have h2 : ((nt - 1 : Nat) : ℚ) ≤ nt := by exact_mod_cast Nat.sub_le nt 1
  have := le_inBlock start nt dt t hdt (nt - 1) (by omega) (by nlinarith)
  omega

/-- The selection of everything: all rows, and all columns of the beam. -/
theorem select_whole (s : Nat → ℚ) (n nt : Nat) (dt tmin tmax : ℚ) (sb : Nat → ℚ) (nc : Nat) (df fmin fmax : ℚ) (first m : Nat)
    (D : ℚ) (hn : 0 < n) (hnt : 0 < nt) (h2 : 2 ≤ n * nt) (hnc : 0 < nc) (hm : 0 < m) (hdt : 0 < dt) (hb : Blocks s n D) (hD : 1 ≤ D)
    (hsb : Blocks (fun j => sb (first + j)) m 1) (ht0 : tmin ≤ s 0) (ht1 : s (n - 1) + nt * dt ≤ tmax) (hf0 : fmin ≤ sb first)
    (hf1 : sb (first + (m - 1)) ≤ fmax) :
    ∃ q : Sel, selectRaw s n nt dt tmin tmax sb nc df fmin fmax (some (first * nc, (first + m) * nc - 1)) = .ok (some q) ∧
      q.nRow = n * nt ∧ q.nCol = m * nc ∧ (∀ k : Nat, q.row k = k) ∧ ∀ k : Nat, q.col k = first * nc + k := by
  have hpos : 0 < (first + m) * nc := Nat.mul_pos (by omega) hnc
  have hsub : (first + m) * nc - 1 + 1 = (first + m) * nc := by omega
  have e0 : nearIdx s n tmin = 0 := near_low s n D tmin hn hb hD ht0
  have hnd : (0 : ℚ) < nt * dt := mul_pos (by exact_mod_cast hnt) hdt
  have e1 : nearIdx s n tmax = n - 1 := near_high s n D tmax hn hb hD (by linarith)
  have e2 : inBlock (s 0) nt dt tmin = 0 := inBlock_first _ _ _ _ hdt ht0
  have e3 : inBlock (s (n - 1)) nt dt tmax = nt - 1 := inBlock_last _ _ _ _ hdt hnt ht1
  have e4 : nearIdx (fun j => sb (first + j)) m fmin = 0 := near_low _ m 1 fmin hm hsb le_rfl hf0
  have e5 : nearIdx (fun j => sb (first + j)) m fmax = m - 1 := near_high _ m 1 fmax hm hsb le_rfl hf1
  have e6 : (n - 1) * nt + (nt - 1) + 1 = n * nt := by
    obtain ⟨a, rfl⟩ : ∃ a, n = a + 1 := ⟨n - 1, by omega⟩
    rw [Nat.add_sub_cancel, Nat.add_mul]; omega
  have e7 : (m - 1 + 1) * nc = m * nc := by rw [Nat.sub_add_cancel hm]
  have e8 : (first + m) * nc - first * nc = m * nc := by rw [Nat.add_mul, Nat.add_sub_cancel_left]
  obtain ⟨q, hq⟩ : ∃ q : Sel, selectRaw s n nt dt tmin tmax sb nc df fmin fmax (some (first * nc, (first + m) * nc - 1)) = .ok (some q) := by
    unfold selectRaw
    dsimp only
    rw [e0, e1, e2, e3, if_neg (by omega), if_neg (by omega), if_neg (by simp)]
    dsimp only [Option.getD_some]
    have hdiv : ((first + m) * nc - 1 + 1) / nc - first * nc / nc = m := by
      rw [hsub, Nat.mul_div_cancel _ hnc, Nat.mul_div_cancel _ hnc, Nat.add_sub_cancel_left]
    rw [if_neg (by omega)]
    exact ⟨_, rfl⟩
  refine ⟨q, hq, ?_⟩
  obtain ⟨_, e, he, _, rfl⟩ := selectRaw_some hq
  cases he
  dsimp only
  rw [hsub, Nat.mul_div_cancel _ hnc, Nat.mul_div_cancel _ hnc, Nat.add_sub_cancel_left, e0, e1, e2, e3, e4, e5, e6, e7, e8]
  refine ⟨by simp, by simp, fun k => by omega, fun k => by omega⟩

/-- The beam `beam` holds the `m` sub-bands of the block from number `first` on, by increasing frequency. -/
structure BeamAt (b : Block) (beam first m : Nat) : Prop where
  filled : 0 < m
  within : first + m ≤ b.data.length
  held : ∀ (s : Nat) (x : Beamlet), b.data[s]? = some x → (x.beam = (beam : Int) ↔ first ≤ s ∧ s < first + m)
  sorted : ∀ (s : Nat) (x y : Beamlet), first ≤ s → s + 1 < first + m → b.data[s]? = some x → b.data[s + 1]? = some y →
    x.channel < y.channel

theorem open_ok {ns nt nc : Nat} {N : Int} {bs : List Block} (h : Observation ns nt nc N bs) (fl : Nat → ℝ) (check : Bool)
    (b0 : Block) (hb0 : bs.head? = some b0) (hd : Dated check bs (nt * sampleTime nc N) 0 b0) :
    ∃ o, openSpectra fl check (writeFile bs) = .ok o := by
  obtain ⟨b, hb, h1, h2, h3, h4, hm, hl⟩ := h.head
  have h2' : b.header.fftlen.toNat = nc := by rw [h2]; rfl
  obtain ⟨r, hr, _, hcell⟩ := blocks_exact bs.length ns nt nc 2 (matrices fl check bs nc) h.even (Or.inr rfl)
  obtain ⟨s, hs⟩ : ∃ s, startsOf check bs b.header.nffte.toNat ((b.header.fftlen : ℚ) * (b.header.nfft2int : ℚ) / bandWidth) = .ok s := by
    unfold startsOf
    cases check with
    | false => exact ⟨_, rfl⟩
    | true =>
      rw [if_pos rfl]
      unfold reconstruct
      rw [if_neg]
      · exact ⟨_, rfl⟩
      · intro hall
        rw [List.all_eq_true] at hall
        have hlen : 0 < bs.length := by cases bs with
          | nil => cases hb0
          | cons a l => simp
        have h0 : bs[0]? = some b0 := by rw [← List.head?_eq_getElem?]; exact hb0
        have hbad := (bad_exact _ 0).1 (hall 0 (List.mem_range.2 hlen))
        dsimp only at hbad
        rw [headerOf_some h0] at hbad
        have hd' : 1 ≤ b0.header.stamp ∧ (0 ≠ 0 → b0.header.idx ≠ 0) ∧ 0 ≤ b0.header.nbchan := hd
        rcases hbad with h1 | ⟨h1, h2⟩ | h1
        · have h3 : (1 : ℚ) ≤ (b0.header.stamp : ℚ) := by exact_mod_cast hd'.1
          linarith
        · exact h1 rfl
        · omega
  unfold openSpectra
  rw [spectra_read_partial check h.toRecording h.several h.fits]
  change ∃ o, (bs.head?.elim _ _ : Except Err Opened) = _
  rw [hb]
  change ∃ o, ((startsOf check bs b.header.nffte.toNat ((b.header.fftlen : ℚ) * (b.header.nfft2int : ℚ) / bandWidth)).bind _) = _
  rw [hs]
  change ∃ o, ((blocksToTf (ofFn4 bs.length b.header.nbchan.natAbs b.header.nffte.toNat b.header.fftlen.toNat
    (matrices fl check bs b.header.fftlen.toNat)) 2 b.header.nffte.toNat b.header.fftlen.toNat).map _) = _
  rw [h1, h2', h3, hr]
  exact ⟨_, rfl⟩

theorem names_ok (names : List String) (hk : ∀ n ∈ names, stokesKnown n = true) (m : M2) : ∃ z, computeStokes true m names = .ok z := by
  unfold computeStokes
  rw [if_neg (by simp)]
  induction names with
  | nil => exact ⟨[], rfl⟩
  | cons n l ih =>
    obtain ⟨z, hz⟩ := ih fun x hx => hk x (List.mem_cons_of_mem _ hx)
    obtain ⟨v, hv⟩ : ∃ v, stokesOne m (stokesName n) = .ok v := by
      have h1 := hk n List.mem_cons_self
      unfold stokesKnown at h1
      rw [decide_eq_true_iff] at h1
      unfold stokesOne
      split_ifs <;> first | exact ⟨_, rfl⟩ | (exfalso; simp_all)
    refine ⟨v :: z, ?_⟩
    rw [List.mapM_cons, hv, hz]
    rfl

/-- **Everything is returned.** Blocks at least one second apart, sub-bands of the beam side by side by increasing frequency: a request from
the first time or before to the end of the last block or after, over all frequencies, returns every recorded sample of the beam once,
in order. -/
theorem read_whole_partial {ns nt nc : Nat} {N : Int} {bs : List Block} (h : Observation ns nt nc N bs) (hN : 0 < N) (fl : Nat → ℝ)
    (check : Bool) (tmin tmax fmin fmax : ℚ) (beam first m : Nat) (names : List String) (b0 : Block) (hb0 : bs.head? = some b0)
    (hbeam : BeamAt b0 beam first m)
    (hdated : ∀ (i : Nat) (b : Block), bs[i]? = some b → Dated check bs (nt * sampleTime nc N) i b)
    (hspace : ∀ (i : Nat) (b c : Block), bs[i]? = some b → bs[i + 1]? = some c → dateOf b.header + 1 ≤ dateOf c.header)
    (h2 : 2 ≤ bs.length * nt) (ht0 : tmin ≤ dateOf b0.header)
    (ht1 : ∀ b ∈ bs.getLast?, dateOf b.header + nt * sampleTime nc N ≤ tmax)
    (hf0 : ∀ x ∈ b0.data, fmin ≤ (x.channel : ℚ) * (390625 / 2)) (hf1 : ∀ x ∈ b0.data, (x.channel : ℚ) * (390625 / 2) ≤ fmax)
    (hne : names ≠ []) (hk : ∀ n ∈ names, stokesKnown n = true) :
    ∃ r, readSpectra fl check (writeFile bs) tmin tmax fmin fmax beam names = .ok r ∧ r.nRow = bs.length * nt ∧ r.nCol = m * nc ∧
      ∀ k j : Nat, k < bs.length * nt → j < m * nc → ∃ (b : Block) (x : Beamlet), bs[k / nt]? = some b ∧
        b.data[first + j / nc]? = some x ∧ r.time k = dateOf b.header + ((k % nt : Nat) : ℚ) * sampleTime nc N ∧
        r.freq j = fftFreq ((x.channel : ℚ) * (390625 / 2)) nc (390625 / 2 / nc) (rawChannel nc (j % nc)) ∧
        computeStokes true (matrixOf fl nc x (k % nt) (rawChannel nc (j % nc))) names = .ok (r.cell k j) := by
  have hb0m : b0 ∈ bs := List.mem_of_mem_head? hb0
  have hlen : 0 < bs.length := List.length_pos_of_mem hb0m
  have h00 : bs[0]? = some b0 := by rw [← List.head?_eq_getElem?]; exact hb0
  obtain ⟨o, ho⟩ := open_ok h fl check b0 hb0 (hdated 0 b0 h00)
  obtain ⟨e1, e2, e3, e4, e5, e6, hs, ⟨b0', hb0', hch, hbe⟩, hcell⟩ := open_some h fl check o ho
  rw [hb0] at hb0'
  cases hb0'
  have hns : b0.data.length = ns := (h.valid b0 hb0m).2.1
  have hwithin := hbeam.within
  have hpos := hbeam.filled
  -- the beams
  have hbn : ∀ s : Nat, o.beams[s]? = some beam ↔ first ≤ s ∧ s < first + m := by
    intro s
    rw [hbe, List.getElem?_map]
    by_cases hsn : s < b0.data.length
    · obtain ⟨x, hx⟩ : ∃ x, b0.data[s]? = some x := ⟨_, List.getElem?_eq_getElem hsn⟩
      have h0 := h.numbered b0 hb0m x (List.mem_of_getElem? hx)
      rw [← hbeam.held s x hx, hx, Option.map_some, Option.some.injEq]
      omega
    · rw [List.getElem?_eq_none (by omega)]
      simp only [Option.map_none, reduceCtorEq, false_iff]
      omega
  have hcont : ∀ b ∈ bs.head?, Contiguous (b.data.map fun x => x.beam.toNat) beam := by
    intro b hb
    rw [hb0] at hb
    cases hb
    rw [← hbe]
    intro i j k h1 h2 h3 h4
    rw [hbn] at *
    omega
  have hedge : beamEdges o.beams o.nc beam = some (first * nc, (first + m) * nc - 1) := by
    have hmem : beam ∈ o.beams := List.mem_of_getElem? ((hbn first).2 ⟨le_rfl, by omega⟩)
    obtain ⟨i0, j0, hedge, hi0, hj0, hbetween⟩ := edges_some o.beams o.nc beam hmem
    have a1 := hbetween first ((hbn first).2 ⟨le_rfl, by omega⟩)
    have a2 := hbetween (first + m - 1) ((hbn _).2 ⟨by omega, by omega⟩)
    rw [hbn] at hi0 hj0
    rw [hedge, e3, show i0 = first by omega, show j0 + 1 = first + m by omega]
  -- the blocks
  have hstart : ∀ (i : Nat) (b : Block), bs[i]? = some b → o.start i = dateOf b.header :=
    fun i b hb => starts_dated check bs nt _ _ hs i b hb (hdated i b hb)
  have hblocks : Blocks o.start bs.length 1 := by
    intro j hj
    obtain ⟨b, hb⟩ : ∃ b, bs[j]? = some b := ⟨_, List.getElem?_eq_getElem (by omega)⟩
    obtain ⟨c, hc⟩ : ∃ c, bs[j + 1]? = some c := ⟨_, List.getElem?_eq_getElem hj⟩
    rw [hstart j b hb, hstart (j + 1) c hc]
    exact hspace j b c hb hc
  have hdt : 0 < sampleTime nc N := by
    unfold sampleTime
    have a1 : (0 : ℚ) < nc := by exact_mod_cast h.channels
    have a2 : (0 : ℚ) < N := by exact_mod_cast hN
    positivity
  have hlast : o.start (bs.length - 1) + nt * sampleTime nc N ≤ tmax := by
    obtain ⟨b, hb⟩ : ∃ b, bs[bs.length - 1]? = some b := ⟨_, List.getElem?_eq_getElem (by omega)⟩
    rw [hstart _ b hb]
    exact ht1 b (by rw [List.getLast?_eq_getElem?]; exact hb)
  -- the sub-bands
  have hsub : ∀ (s : Nat) (x : Beamlet), b0.data[s]? = some x → subStart o.chan s = (x.channel : ℚ) * (390625 / 2) := by
    intro s x hx
    unfold subStart
    rw [hch, List.getD_eq_getElem?_getD, List.getElem?_map, hx]
    rfl
  have hsb : Blocks (fun j => subStart o.chan (first + j)) m 1 := by
    intro j hj
    obtain ⟨x, hx⟩ : ∃ x, b0.data[first + j]? = some x := ⟨_, List.getElem?_eq_getElem (by omega)⟩
    obtain ⟨y, hy⟩ : ∃ y, b0.data[first + j + 1]? = some y := ⟨_, List.getElem?_eq_getElem (by omega)⟩
    have hlt := hbeam.sorted (first + j) x y (by omega) (by omega) hx hy
    show subStart o.chan (first + j) + 1 ≤ subStart o.chan (first + (j + 1))
    rw [show first + (j + 1) = first + j + 1 by omega, hsub _ x hx, hsub _ y hy]
    have : (x.channel : ℚ) + 1 ≤ (y.channel : ℚ) := by exact_mod_cast hlt
    nlinarith
  have hf0' : fmin ≤ subStart o.chan first := by
    obtain ⟨x, hx⟩ : ∃ x, b0.data[first]? = some x := ⟨_, List.getElem?_eq_getElem (by omega)⟩
    rw [hsub _ x hx]; exact hf0 x (List.mem_of_getElem? hx)
  have hf1' : subStart o.chan (first + (m - 1)) ≤ fmax := by
    obtain ⟨x, hx⟩ : ∃ x, b0.data[first + (m - 1)]? = some x := ⟨_, List.getElem?_eq_getElem (by omega)⟩
    rw [hsub _ x hx]; exact hf1 x (List.mem_of_getElem? hx)
  obtain ⟨q, hq, q1, q2, q3, q4⟩ := select_whole o.start bs.length nt (sampleTime nc N) tmin tmax (subStart o.chan) nc (bandWidth / nc) fmin
    fmax first m 1 hlen h.times h2 h.channels hpos hdt hblocks le_rfl hsb (by rw [hstart 0 b0 h00]; exact ht0) hlast hf0' hf1'
  have hq' : selectRaw o.start o.n o.nt o.dt tmin tmax (subStart o.chan) o.nc o.df fmin fmax (beamEdges o.beams o.nc beam)
      = .ok (some q) := by
    rw [hedge, e1, e2, e3, e4, e5]; exact hq
  obtain ⟨z, hz⟩ := names_ok names hk ⟨0, 0, 0, 0⟩
  obtain ⟨a1, a2, a3, a4, a5⟩ := selected_sample h fl check tmin tmax fmin fmax beam hcont o ho q hq'
  refine ⟨⟨q.nTime, q.time, q.nFreq, q.freq, q.nRow, q.nCol, names,
    fun k j => stokesCell names (o.data.get2 (o.beams.length * o.nc) (q.row k) (q.col j))⟩, ?_, q1, q2, ?_⟩
  · unfold readSpectra
    rw [ho]
    show o.get tmin tmax fmin fmax beam names = _
    unfold Opened.get
    rw [hq']
    show (if names = [] then (Except.error Err.valueError : Except Err Got)
      else ((computeStokes true ⟨0, 0, 0, 0⟩ names).map _)) = _
    rw [if_neg hne, hz]
    rfl
  · intro k j hk hj
    obtain ⟨b, x, b1, b2, _, b4, b5, b6⟩ := a5 k j (by rw [q1]; exact hk) (by rw [q2]; exact hj)
    rw [q3] at b1 b4 b6
    rw [q4] at b2 b5 b6
    have d1 : (first * nc + j) / nc = first + j / nc := by
      rw [Nat.add_comm, Nat.add_mul_div_right _ _ h.channels]; omega
    have d2 : (first * nc + j) % nc = j % nc := by rw [Nat.add_comm, Nat.add_mul_mod_self_right]
    rw [d1] at b2
    rw [d2] at b5 b6
    refine ⟨b, x, b1, b2, b4 (hdated _ b b1), b5, ?_⟩
    show _ = Except.ok (stokesCell names (o.data.get2 (o.beams.length * o.nc) (q.row k) (q.col j)))
    rw [q3, q4, b6]
    exact cell_exact _ _ _ hz

/-! ## Where it fails -/

/-- **The last block of a recording of short blocks is never returned.** When the last two blocks, together with what follows up to the end
of the request, last less than one second, the last block is left out of every request which ends in it or after it. -/
theorem read_short_violated {ns nt nc : Nat} {N : Int} {bs : List Block} (h : Observation ns nt nc N bs) (fl : Nat → ℝ)
    (check : Bool) (tmin tmax fmin fmax : ℚ) (beam : Nat) (names : List String) (n : Nat) (hn : bs.length = n + 2) (b c : Block)
    (hb : bs[n]? = some b) (hc : bs[n + 1]? = some c) (hbd : Dated check bs (nt * sampleTime nc N) n b)
    (hcd : Dated check bs (nt * sampleTime nc N) (n + 1) c) (hlt : dateOf b.header ≤ dateOf c.header)
    (h0 : dateOf c.header ≤ tmax) (h1 : tmax < dateOf b.header + 1) (r : Got)
    (hr : readSpectra fl check (writeFile bs) tmin tmax fmin fmax beam names = .ok r) : r.nRow ≤ (n + 1) * nt := by
  obtain ⟨o, ho, hg⟩ := bind_inv hr
  obtain ⟨e1, e2, e3, e4, e5, e6, hs, _, _⟩ := open_some h fl check o ho
  unfold Opened.get at hg
  obtain ⟨sel, hsel, hg⟩ := bind_inv hg
  by_cases hne : names = []
  · rw [if_pos hne] at hg; cases hg
  rw [if_neg hne] at hg
  cases sel with
  | none => cases hg
  | some q =>
    change ((computeStokes true ⟨0, 0, 0, 0⟩ names).map _) = _ at hg
    obtain ⟨z, _, hg⟩ := map_inv hg
    subst hg
    obtain ⟨hpos, e, _, _, rfl⟩ := selectRaw_some hsel
    show min _ _ - _ ≤ _
    have s1 := starts_dated check bs nt _ _ hs n b hb hbd
    have s2 := starts_dated check bs nt _ _ hs (n + 1) c hc hcd
    have v1 : ⌈o.start n - tmax⌉ = 0 := by
      rw [Int.ceil_eq_iff, s1]; constructor <;> push_cast <;> linarith
    have hle : nearIdx o.start o.n tmax ≤ n := by
      by_contra hgt
      have hf := argmax_first (fun i => -|((⌈o.start i - tmax⌉ : Int) : ℚ)|) (n := o.n) (j := n) (by
        show n < nearIdx o.start o.n tmax
        omega)
      rw [v1] at hf
      have := abs_nonneg ((⌈o.start (argmax (fun i => -|((⌈o.start i - tmax⌉ : Int) : ℚ)|) o.n) - tmax⌉ : Int) : ℚ)
      simp only [Int.cast_zero, abs_zero, neg_zero] at hf
      linarith
    have hin := inBlock_lt (o.start (nearIdx o.start o.n tmax)) o.nt o.dt tmax (by rw [e2]; exact h.times)
    rw [e2] at hin ⊢
    have hm : nearIdx o.start o.n tmax * nt ≤ n * nt := Nat.mul_le_mul_right nt hle
    rw [Nat.add_mul, Nat.one_mul]
    omega

/-- **Without a search for missing data, gaps are ignored.** A block recorded `gap` seconds later than if nothing were missing is dated `gap`
seconds too early. -/
theorem read_gap_violated {ns nt nc : Nat} {N : Int} {bs : List Block} (h : Observation ns nt nc N bs) (fl : Nat → ℝ)
    (tmin tmax fmin fmax : ℚ) (beam : Nat) (names : List String) (r : Got)
    (hr : readSpectra fl false (writeFile bs) tmin tmax fmin fmax beam names = .ok r) :
    ∃ row : Nat → Nat, (∀ k : Nat, row k = row 0 + k) ∧ ∀ k : Nat, k < r.nRow → ∀ (b b0 : Block) (gap : ℚ),
      bs[row k / nt]? = some b → bs.head? = some b0 →
      dateOf b.header = dateOf b0.header + ((row k / nt : Nat) : ℚ) * (nt * sampleTime nc N) + gap →
      r.time k = dateOf b.header + ((row k % nt : Nat) : ℚ) * sampleTime nc N - gap := by
  obtain ⟨o, ho, hg⟩ := bind_inv hr
  obtain ⟨e1, e2, e3, e4, e5, e6, hs, ⟨b0, hb0, hch, hbe⟩, hcell⟩ := open_some h fl false o ho
  unfold Opened.get at hg
  obtain ⟨sel, hsel, hg⟩ := bind_inv hg
  by_cases hne : names = []
  · rw [if_pos hne] at hg; cases hg
  rw [if_neg hne] at hg
  cases sel with
  | none => cases hg
  | some q =>
    change ((computeStokes true ⟨0, 0, 0, 0⟩ names).map _) = _ at hg
    obtain ⟨z, _, hg⟩ := map_inv hg
    subst hg
    have hmem : beam ∈ o.beams := by
      by_contra hnot
      obtain ⟨_, e, he, _⟩ := selectRaw_some hsel
      have : beamWhere o.beams beam = [] := by
        rw [List.eq_nil_iff_forall_not_mem]
        intro i hi
        exact hnot (List.mem_of_getElem? (mem_beamWhere.1 hi))
      unfold beamEdges at he
      rw [this] at he
      cases he
    obtain ⟨i0, j0, hedge, hi0, hj0, hbetween⟩ := edges_some o.beams o.nc beam hmem
    have hij : i0 ≤ j0 := (hbetween i0 hi0).2
    rw [hedge, e3, show (j0 + 1) * nc - 1 = (i0 + (j0 + 1 - i0)) * nc - 1 by rw [show i0 + (j0 + 1 - i0) = j0 + 1 by omega],
      e1, e2, e4, e5] at hsel
    obtain ⟨a1, a2, a3, a4⟩ := select_axes _ _ _ _ _ _ _ _ _ _ _ i0 (j0 + 1 - i0) h.times h.channels (by omega) q hsel
    have hrow : ∀ k, q.row k = q.row 0 + k := by
      obtain ⟨_, _, _, _, rfl⟩ := selectRaw_some hsel
      intro k; dsimp only; omega
    refine ⟨q.row, hrow, fun k hk b b0' gap hb hb0' hgap => ?_⟩
    rw [hb0] at hb0'
    cases hb0'
    obtain ⟨_, b2⟩ := a3 k hk
    show q.time k = _
    rw [b2, hgap]
    have hs' : o.start = regularStart (dateOf (headerOf bs 0)) nt (sampleTime nc N) := by
      unfold startsOf at hs
      rw [if_neg (by simp)] at hs
      injection hs with hs
      exact hs.symm
    have h00 : bs[0]? = some b0 := by rw [← List.head?_eq_getElem?]; exact hb0
    unfold rowTime
    rw [hs', headerOf_some h00]
    unfold regularStart
    ring

/-- A file cut anywhere but between two blocks cannot be read at all. -/
theorem read_cut_violated {ns nt nc : Nat} {N : Int} {bs : List Block} (h : Observation ns nt nc N bs) (fl : Nat → ℝ) (check : Bool)
    (tmin tmax fmin fmax : ℚ) (beam : Nat) (names : List String) (k : Nat) (hk : k ≤ (writeFile bs).length)
    (hcut : k % blockSize ns nt nc ≠ 0) :
    readSpectra fl check ((writeFile bs).take k) tmin tmax fmin fmax beam names = .error .valueError := by
  unfold readSpectra openSpectra
  rw [spectra_cut_violated check h.toRecording h.several h.fits k hk hcut]
  rfl

/-- A recording of one sub-band cannot be read at all. -/
theorem read_single_violated {nt nc : Nat} {bs : List Block} (h : Recording 1 nt nc bs) (fl : Nat → ℝ) (check : Bool)
    (tmin tmax fmin fmax : ℚ) (beam : Nat) (names : List String) :
    readSpectra fl check (writeFile bs) tmin tmax fmin fmax beam names = .error (if check then .indexError else .valueError) := by
  unfold readSpectra openSpectra
  cases check with
  | true => rw [(spectra_single_violated h).1]; rfl
  | false => rw [(spectra_single_violated h).2]; rfl

/-! ## Non-vacuity -/

/-- Two blocks two seconds apart, of two sub-bands of beam 0, one time and two channels. -/
def pair : List Block :=
  [⟨⟨1, 1700000000, 12, 2, 1, 0, 0, 1, 2⟩, [⟨0, 0, 200, [1, 2, 3, 4], [5, 6, 7, 8]⟩, ⟨0, 0, 201, [9, 10, 11, 12], [13, 14, 15, 16]⟩]⟩,
   ⟨⟨2, 1700000002, 12, 2, 1, 0, 0, 1, 2⟩, [⟨0, 0, 200, [1, 1, 1, 1], [2, 2, 2, 2]⟩, ⟨0, 0, 201, [3, 3, 3, 3], [4, 4, 4, 4]⟩]⟩]

theorem pair_observation : Observation 2 1 2 1 pair := by
  refine ⟨⟨⟨pair.head (by simp [pair]), by simp [pair], by simp [pair]⟩, ?_⟩, ?_, by norm_num, by norm_num, by norm_num, by norm_num,
    by norm_num, ?_, ?_⟩
  · intro b hb
    simp [pair] at hb
    rcases hb with rfl | rfl <;> simp [Block.Valid, Header.Valid, Beamlet.Valid, Fits]
  · intro b hb
    simp [pair] at hb
    subst hb
    rfl
  · intro b hb c hc
    simp [pair] at hb hc
    rcases hb with rfl | rfl <;> rcases hc with rfl | rfl <;> rfl
  · intro b hb x hx
    simp [pair] at hb
    rcases hb with rfl | rfl <;> (simp at hx; rcases hx with rfl | rfl <;> simp)

/-- All of it is returned. -/
example (fl : Nat → ℝ) : ∃ r, readSpectra fl true (writeFile pair) 1700000000 1700000003 0 100000000 0 ["I", "V/I"] = .ok r ∧
    r.nRow = 2 ∧ r.nCol = 4 := by
  have hb0 : pair.head? = some pair[0] := rfl
  obtain ⟨r, h1, h2, h3, _⟩ := read_whole_partial pair_observation (by norm_num) fl true 1700000000 1700000003 0 100000000 0 0 2
    ["I", "V/I"] pair[0] hb0 ⟨by norm_num, by decide, by
      intro s x hx
      match s, hx with
      | 0, hx => simp [pair] at hx; subst hx; simp
      | 1, hx => simp [pair] at hx; subst hx; simp
      | s + 2, hx => simp [pair] at hx, by
      intro s x y h1 h2 hx hy
      match s, hx, hy with
      | 0, hx, hy => simp [pair] at hx hy; subst hx hy; simp
      | s + 1, hx, hy => omega⟩
    (by
      intro i b hb
      match i, hb with
      | 0, hb => simp [pair] at hb; subst hb; simp [Dated]
      | 1, hb => simp [pair] at hb; subst hb; simp [Dated]
      | i + 2, hb => simp [pair] at hb)
    (by
      intro i b c hb hc
      match i, hb, hc with
      | 0, hb, hc => simp [pair] at hb hc; subst hb hc; norm_num [dateOf, bandWidth]
      | i + 1, hb, hc => simp [pair] at hc)
    (by decide) (by norm_num [pair, dateOf, bandWidth])
    (by intro b hb; simp [pair] at hb; subst hb; norm_num [dateOf, bandWidth, sampleTime])
    (by intro x hx; simp [pair] at hx; rcases hx with rfl | rfl <;> norm_num)
    (by intro x hx; simp [pair] at hx; rcases hx with rfl | rfl <;> norm_num)
    (by simp) (by decide +kernel)
  exact ⟨r, h1, h2, h3⟩

/-- The two antennas receive the same steady field. -/
example : Written (fun w => (w : ℝ)) 1 2
    [⟨⟨1, 1700000000, 12, 2, 1, 0, 0, 1, 2⟩, [⟨0, 0, 200, [1, 1, 1, 1], [1, 0, 1, 0]⟩, ⟨0, 0, 201, [1, 1, 1, 1], [1, 0, 1, 0]⟩]⟩]
    fun _ _ _ _ => [(1, 1)] := by
  intro i s t c b x hb hx ht hc
  obtain rfl : t = 0 := by omega
  have hb' : i = 0 ∧ b.data = [⟨0, 0, 200, [1, 1, 1, 1], [1, 0, 1, 0]⟩, ⟨0, 0, 201, [1, 1, 1, 1], [1, 0, 1, 0]⟩] := by
    match i, hb with
    | 0, hb => simp at hb; subst hb; simp
    | i + 1, hb => simp at hb
  rw [hb'.2] at hx
  have hx' : x.fft0 = [1, 1, 1, 1] ∧ x.fft1 = [1, 0, 1, 0] := by
    match s, hx with
    | 0, hx => simp at hx; subst hx; simp
    | 1, hx => simp at hx; subst hx; simp
    | s + 2, hx => simp at hx
  rw [hx'.1, hx'.2]
  match c, hc with
  | 0, _ => simp [powX, powY, recR, recS]
  | 1, _ => simp [powX, powY, recR, recS]
  | c + 2, hc => omega

end

end Verif.Raw
