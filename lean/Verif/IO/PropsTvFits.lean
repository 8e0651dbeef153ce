import Verif.IO.TvFits
import Mathlib.Tactic.Ring
import Mathlib.Tactic.Linarith
import Mathlib.Tactic.FieldSimp
import Mathlib.Tactic.Positivity

/-!
# C146: images and near-fields of the NenuFAR-TV saved and read back
-/

namespace Verif.IO

open Verif.Astro (resolIndex)

/-! ## Helpers -/

theorem order_back (c : ℚ) (hc : 0 < c) (k : Nat) (hk : k < 30) : resolIndex (fun k => c / 2 ^ k) 30 (c / 2 ^ k) = k := by
  have h := argmax_max (fun i => -|c / 2 ^ i - c / 2 ^ k|) hk
  have h1 : |c / 2 ^ (resolIndex (fun k => c / 2 ^ k) 30 (c / 2 ^ k)) - c / 2 ^ k| ≤ 0 := by
    have h2 : -|c / 2 ^ k - c / 2 ^ k| ≤ -|c / 2 ^ (resolIndex (fun k => c / 2 ^ k) 30 (c / 2 ^ k)) - c / 2 ^ k| := h
    rw [sub_self, abs_zero] at h2; linarith
  generalize resolIndex (fun k => c / 2 ^ k) 30 (c / 2 ^ k) = j at h1 ⊢
  have h3 : c / 2 ^ j = c / 2 ^ k := by
    have := abs_nonpos_iff.1 h1; linarith
  have hj : (2 : ℚ) ^ j = 2 ^ k := by
    have pj : (0 : ℚ) < 2 ^ j := by positivity
    have pk : (0 : ℚ) < 2 ^ k := by positivity
    rw [div_eq_div_iff pj.ne' pk.ne'] at h3
    exact (mul_left_cancel₀ hc.ne' h3).symm
  exact pow_right_injective₀ (by norm_num : (0 : ℚ) < 2) (by norm_num) hj

/-- What a pixel becomes. -/
def cleaned (part : Bool) (x : Option ℚ) : Option ℚ := if part && maskBad x then none else x

theorem good_bad (q : ℚ) : maskGood (some q) = !maskBad (some q) := by
  show decide (badMargin < |q - unseen|) = !decide (|q - unseen| ≤ badMargin)
  by_cases h : |q - unseen| ≤ badMargin
  · rw [decide_eq_true h, decide_eq_false (not_lt.2 h)]; rfl
  · rw [decide_eq_false h, decide_eq_true (not_le.1 h)]; rfl

theorem unseen_bad : maskBad (some unseen) = true := by
  show decide (|unseen - unseen| ≤ badMargin) = true
  rw [sub_self, abs_zero]
  exact decide_eq_true (by unfold badMargin; positivity)

def goodFrom (m : List (Option ℚ)) (k : Nat) : List (Nat × ℚ) :=
  (m.zipIdx k).filterMap fun p => if maskGood p.1 then p.1.map fun q => (p.2, q) else none

theorem goodFrom_nil (k : Nat) : goodFrom [] k = [] := rfl

theorem goodFrom_good (q : ℚ) (r : List (Option ℚ)) (k : Nat) (h : maskGood (some q) = true) : goodFrom (some q :: r) k = (k, q) :: goodFrom r (k + 1) := by
  unfold goodFrom; rw [List.zipIdx_cons, List.filterMap_cons]; simp [h]

theorem goodFrom_not (x : Option ℚ) (r : List (Option ℚ)) (k : Nat) (h : maskGood x = false) : goodFrom (x :: r) k = goodFrom r (k + 1) := by
  unfold goodFrom; rw [List.zipIdx_cons, List.filterMap_cons]; simp [h]

theorem goodFrom_ge : ∀ (m : List (Option ℚ)) (k : Nat), ∀ p ∈ goodFrom m k, k ≤ p.1
  | [], _, _, h => by rw [goodFrom_nil] at h; cases h
  | x :: r, k, p, h => by
    by_cases hg : maskGood x = true
    · obtain ⟨q, rfl⟩ : ∃ q, x = some q := by
        cases x with
        | none => exact absurd hg (by decide)
        | some q => exact ⟨q, rfl⟩
      rw [goodFrom_good q r k hg] at h
      rcases List.mem_cons.1 h with rfl | h
      · exact le_refl _
      · have := goodFrom_ge r (k + 1) p h; omega
    · rw [goodFrom_not x r k (by simpa using hg)] at h
      have := goodFrom_ge r (k + 1) p h; omega

theorem good_find : ∀ (m : List (Option ℚ)) (k i : Nat),
    ((goodFrom m k).find? fun p => p.1 == k + i).map Prod.snd = (m[i]?).bind fun x => if maskGood x then x else none
  | [], _, _ => by simp [goodFrom_nil]
  | x :: r, k, 0 => by
    have hno : ((goodFrom r (k + 1)).find? fun p => p.1 == k + 0) = none := by
      rw [List.find?_eq_none]
      intro p hp
      have := goodFrom_ge r (k + 1) p hp
      simp; omega
    by_cases hg : maskGood x = true
    · obtain ⟨q, rfl⟩ : ∃ q, x = some q := by
        cases x with
        | none => exact absurd hg (by decide)
        | some q => exact ⟨q, rfl⟩
      rw [goodFrom_good q r k hg]; simp [hg]
    · rw [goodFrom_not x r k (by simpa using hg), hno]; simp [hg]
  | x :: r, k, i + 1 => by
    have ih := good_find r (k + 1) i
    rw [show k + 1 + i = k + (i + 1) by omega] at ih
    by_cases hg : maskGood x = true
    · obtain ⟨q, rfl⟩ : ∃ q, x = some q := by
        cases x with
        | none => exact absurd hg (by decide)
        | some q => exact ⟨q, rfl⟩
      rw [goodFrom_good q r k hg, List.find?_cons_of_neg (by simp), ih]; rfl
    · rw [goodFrom_not x r k (by simpa using hg), ih]; rfl

theorem pixel_back (x : Option ℚ) (y : ℚ) (hy : (if maskGood x then x else none).getD unseen = y) : (if maskBad (some y) then none else some y) = cleaned true x := by
  unfold cleaned
  rw [Bool.true_and]
  cases x with
  | none =>
    have h0 : maskGood none = false := rfl
    rw [h0] at hy
    have : unseen = y := by simpa using hy
    rw [← this, if_pos unseen_bad, if_neg (by decide)]
  | some q =>
    by_cases hb : maskBad (some q) = true
    · have hg : maskGood (some q) = false := by rw [good_bad, hb]; rfl
      rw [hg] at hy
      have : unseen = y := by simpa using hy
      rw [← this, if_pos unseen_bad, if_pos hb]
    · have hg : maskGood (some q) = true := by rw [good_bad]; simpa using hb
      rw [hg] at hy
      have : q = y := by simpa using hy
      rw [← this]

theorem map_back (part : Bool) (order : Nat) (m : List (Option ℚ)) (hm : m.length = 12 * 4 ^ order) :
    fillBad part (readMap order (if part then .cut (goodPixels m) else .full m)) = m.map (cleaned part) := by
  cases part with
  | false =>
    show m = m.map (cleaned false)
    rw [show cleaned false = id from funext fun x => rfl, List.map_id]
  | true =>
    show ((List.range (12 * 4 ^ order)).map fun i => some ((((goodPixels m).find? fun p => p.1 == i).map Prod.snd).getD unseen)).map
      (fun x => if maskBad x then none else x) = m.map (cleaned true)
    rw [← hm]
    apply List.ext_getElem?
    intro i
    by_cases hi : i < m.length
    · have hx := good_find m 0 i
      rw [Nat.zero_add] at hx
      rw [List.map_map, List.getElem?_map, List.getElem?_range hi, List.getElem?_map, List.getElem?_eq_getElem hi]
      refine congrArg some ?_
      refine pixel_back m[i] _ ?_
      show _ = (((goodFrom m 0).find? fun p => p.1 == i).map Prod.snd).getD unseen
      rw [hx, List.getElem?_eq_getElem hi]; rfl
    · rw [List.getElem?_eq_none (by simpa using Nat.le_of_not_lt hi), List.getElem?_eq_none (by simpa using Nat.le_of_not_lt hi)]

theorem good_nonempty (m : List (Option ℚ)) (h : ∃ x ∈ m, maskGood x = true) : goodPixels m ≠ [] := by
  obtain ⟨x, hx, hg⟩ := h
  obtain ⟨i, hi, rfl⟩ := List.getElem_of_mem hx
  intro hnil
  have hf := good_find m 0 i
  have : goodFrom m 0 = [] := hnil
  rw [this, List.getElem?_eq_getElem hi] at hf
  have h2 : (none : Option ℚ) = if maskGood m[i] = true then m[i] else none := by simpa using hf
  rw [if_pos hg] at h2
  rw [← h2] at hg
  exact absurd hg (by decide)

theorem good_none (m : List (Option ℚ)) (h : ∀ x ∈ m, maskGood x = false) (k : Nat) : goodFrom m k = [] := by
  induction m generalizing k with
  | nil => rfl
  | cons x r ih =>
    rw [goodFrom_not x r k (h x List.mem_cons_self)]
    exact ih (fun y hy => h y (List.mem_cons_of_mem _ hy)) _

theorem good_cleaned (part : Bool) (m : List (Option ℚ)) (k : Nat) : goodFrom (m.map (cleaned part)) k = goodFrom m k := by
  induction m generalizing k with
  | nil => rfl
  | cons x r ih =>
    rw [List.map_cons]
    cases x with
    | none =>
      have h1 : cleaned part none = none := by unfold cleaned; split <;> rfl
      rw [h1, goodFrom_not none _ k rfl, goodFrom_not none _ k rfl, ih]
    | some q =>
      by_cases hb : maskBad (some q) = true
      · have hg : maskGood (some q) = false := by rw [good_bad, hb]; rfl
        have h1 : maskGood (cleaned part (some q)) = false := by
          unfold cleaned; cases part
          · exact hg
          · rw [if_pos (by rw [hb]; rfl)]; rfl
        rw [goodFrom_not _ _ k h1, goodFrom_not _ _ k hg, ih]
      · have hg : maskGood (some q) = true := by rw [good_bad]; simpa using hb
        have h1 : cleaned part (some q) = some q := if_neg (by simp [hb])
        rw [h1, goodFrom_good q _ k hg, goodFrom_good q _ k hg, ih]

theorem isot_near (d : Nat) (t : ℚ) : |isot d t - t| ≤ 1 / (2 * 10 ^ d) := by
  have hp : (0 : ℚ) < 10 ^ d := by positivity
  have h1 := Int.floor_le (t * 10 ^ d + 1 / 2)
  have h2 := Int.lt_floor_add_one (t * 10 ^ d + 1 / 2)
  unfold isot
  generalize ((⌊t * 10 ^ d + 1 / 2⌋ : ℤ) : ℚ) = n at h1 h2 ⊢
  have h3 : n / 10 ^ d - t = (n - t * 10 ^ d) / 10 ^ d := by field_simp
  rw [h3, abs_div, abs_of_pos hp, div_le_div_iff₀ hp (by positivity)]
  have h4 : |n - t * 10 ^ d| ≤ 1 / 2 := abs_le.2 ⟨by linarith, by linarith⟩
  nlinarith

theorem isot_again (d : Nat) (t : ℚ) : isot d (isot d t) = isot d t := by
  have hp : (0 : ℚ) < 10 ^ d := by positivity
  unfold isot
  congr 2
  rw [div_mul_cancel₀ _ hp.ne']
  rw [Int.floor_eq_iff]
  constructor <;> linarith

/-! ## Images -/

/-- What `save_fits` writes, whole. -/
theorem save_whole (digits : Nat) (part : Bool) (im : TvImage) (t f : ℚ) (p : PolLabel) (ts fs : List ℚ) (ps : List PolLabel)
    (ht : im.sky.times = t :: ts) (hf : im.sky.freqs = f :: fs) (hp : im.sky.pols = p :: ps) (hsome : part = true → ∃ x ∈ im.sky.value 0 0 0, maskGood x = true) :
    saveTv digits part im = .ok ⟨im.point.az, im.point.alt, f, isot digits t, im.radius * 2, p, im.sky.order, part,
      if part then .cut (goodPixels (im.sky.value 0 0 0)) else .full (im.sky.value 0 0 0)⟩ := by
  have hw : writeMap part (im.sky.value 0 0 0) = .ok (if part then .cut (goodPixels (im.sky.value 0 0 0)) else .full (im.sky.value 0 0 0)) := by
    cases part with
    | false => rfl
    | true => exact if_neg (good_nonempty _ (hsome rfl))
  show (firstOf im.sky.freqs).bind _ = _
  rw [hf]
  show (firstOf im.sky.times).bind _ = _
  rw [ht]
  show (firstOf im.sky.pols).bind _ = _
  rw [hp]
  show (writeMap part (im.sky.value 0 0 0)).map _ = _
  rw [hw]; rfl

/-- What `from_fits` makes of it, whole. -/
theorem read_whole (c : ℚ) (hc : 0 < c) (F : TvFile) (m : List (Option ℚ)) (part : Bool) (hk : F.order < 30) (hm : m.length = 12 * 4 ^ F.order) (hpart : F.isPartial = part)
    (hmap : F.map = if part then .cut (goodPixels m) else .full m) :
    readTv c F = .ok ⟨⟨F.order, [F.obstime], [F.freq], [F.stokes], fun _ _ _ => m.map (cleaned part)⟩, ⟨F.azana, F.elana, F.obstime, true⟩, F.fov / 2⟩ := by
  have h1 : fillBad F.isPartial (readMap F.order F.map) = m.map (cleaned part) := by
    rw [hmap, hpart]; exact map_back part F.order m hm
  unfold readTv tvSky
  rw [h1, order_back c hc _ hk, if_pos (by rw [List.length_map, hm])]
  rfl

/-- An image saved and read back keeps its number of pixels, its first frequency, polarisation and direction, its field of view and all its pixels; pixels at the value of
healpy for missing ones become NaN in a partial file. The time keeps its first digits. -/
theorem tv_saved (c : ℚ) (hc : 0 < c) (digits : Nat) (part : Bool) (im : TvImage) (t f : ℚ) (p : PolLabel) (ts fs : List ℚ) (ps : List PolLabel)
    (ht : im.sky.times = t :: ts) (hf : im.sky.freqs = f :: fs) (hp : im.sky.pols = p :: ps) (hk : im.sky.order < 30)
    (hm : (im.sky.value 0 0 0).length = 12 * 4 ^ im.sky.order) (hsome : part = true → ∃ x ∈ im.sky.value 0 0 0, maskGood x = true) :
    ∃ (F : TvFile) (im' : TvImage), saveTv digits part im = .ok F ∧ readTv c F = .ok im' ∧ im'.sky.order = im.sky.order ∧ im'.sky.freqs = [f] ∧ im'.sky.pols = [p] ∧
      im'.point.az = im.point.az ∧ im'.point.alt = im.point.alt ∧ im'.radius = im.radius ∧
      im'.sky.value 0 0 0 = (im.sky.value 0 0 0).map (fun x => if part = true ∧ maskBad x = true then none else x) ∧
      ∃ t' : ℚ, im'.sky.times = [t'] ∧ im'.point.moment = t' ∧ |t' - t| ≤ 1 / (2 * 10 ^ digits) := by
  refine ⟨_, _, save_whole digits part im t f p ts fs ps ht hf hp hsome, read_whole c hc _ (im.sky.value 0 0 0) part hk hm rfl rfl, rfl, rfl, rfl, rfl, rfl, ?_, ?_,
    isot digits t, rfl, rfl, isot_near digits t⟩
  · show im.radius * 2 / 2 = im.radius
    ring
  · show (im.sky.value 0 0 0).map (cleaned part) = _
    refine List.map_congr_left fun x _ => ?_
    unfold cleaned
    by_cases h : part = true ∧ maskBad x = true
    · rw [if_pos h, if_pos (by rw [h.1, h.2]; rfl)]
    · rw [if_neg h, if_neg (by rw [Bool.and_eq_true]; exact h)]

/-- Saving again what was read gives the same file. -/
theorem tv_again (c : ℚ) (hc : 0 < c) (digits : Nat) (part : Bool) (im : TvImage) (t f : ℚ) (p : PolLabel) (ts fs : List ℚ) (ps : List PolLabel)
    (ht : im.sky.times = t :: ts) (hf : im.sky.freqs = f :: fs) (hp : im.sky.pols = p :: ps) (hk : im.sky.order < 30)
    (hm : (im.sky.value 0 0 0).length = 12 * 4 ^ im.sky.order) (hsome : part = true → ∃ x ∈ im.sky.value 0 0 0, maskGood x = true) :
    ∃ (F : TvFile) (im' : TvImage), saveTv digits part im = .ok F ∧ readTv c F = .ok im' ∧ saveTv digits part im' = .ok F := by
  refine ⟨_, _, save_whole digits part im t f p ts fs ps ht hf hp hsome, read_whole c hc _ (im.sky.value 0 0 0) part hk hm rfl rfl, ?_⟩
  have hs : part = true → ∃ x ∈ (im.sky.value 0 0 0).map (cleaned part), maskGood x = true := by
    intro h
    obtain ⟨x, hx, hg⟩ := hsome h
    refine ⟨x, List.mem_map.2 ⟨x, hx, ?_⟩, hg⟩
    cases x with
    | none => exact absurd hg (by decide)
    | some q =>
      refine if_neg ?_
      rw [good_bad] at hg
      have : maskBad (some q) = false := by simpa using hg
      rw [this]; simp
  rw [save_whole digits part _ (isot digits t) f p [] [] [] rfl rfl rfl hs]
  congr 1
  have e1 : isot digits (isot digits t) = isot digits t := isot_again digits t
  have e2 : im.radius * 2 / 2 * 2 = im.radius * 2 := by ring
  have e3 : (if part then MapData.cut (goodPixels ((im.sky.value 0 0 0).map (cleaned part))) else .full ((im.sky.value 0 0 0).map (cleaned part))) =
      if part then .cut (goodPixels (im.sky.value 0 0 0)) else .full (im.sky.value 0 0 0) := by
    cases part with
    | true =>
      show MapData.cut (goodFrom _ 0) = MapData.cut (goodFrom _ 0)
      rw [good_cleaned]
    | false =>
      show MapData.full ((im.sky.value 0 0 0).map (cleaned false)) = _
      rw [show cleaned false = id from funext fun x => rfl, List.map_id]; rfl
  simp only [e1, e2, e3]

/-- An image without any number cannot be saved with the default arguments. -/
theorem tv_blank_violated (digits : Nat) (im : TvImage) (h : ∀ x ∈ im.sky.value 0 0 0, x = none) : ∃ e : Err, saveTv digits true im = .error e := by
  have hw : writeMap true (im.sky.value 0 0 0) = .error .valueError :=
    if_pos (good_none _ (fun x hx => by rw [h x hx]; rfl) 0)
  unfold saveTv
  cases firstOf im.sky.freqs with
  | error e => exact ⟨e, rfl⟩
  | ok f =>
    cases firstOf im.sky.times with
    | error e => exact ⟨e, rfl⟩
    | ok t =>
      cases firstOf im.sky.pols with
      | error e => exact ⟨e, rfl⟩
      | ok p => exact ⟨.valueError, by show (writeMap true (im.sky.value 0 0 0)).map _ = _; rw [hw]; rfl⟩

/-- Only the first time, frequency and polarisation are saved: images that differ elsewhere give the same file. -/
theorem tv_rest_violated (digits : Nat) (part : Bool) (im : TvImage) (t f : ℚ) (p : PolLabel) (ts ts' fs fs' : List ℚ) (ps ps' : List PolLabel)
    (v : Nat → Nat → Nat → List (Option ℚ)) (ht : im.sky.times = t :: ts) (hf : im.sky.freqs = f :: fs) (hp : im.sky.pols = p :: ps)
    (hv : v 0 0 0 = im.sky.value 0 0 0) :
    saveTv digits part { im with sky := ⟨im.sky.order, t :: ts', f :: fs', p :: ps', v⟩ } = saveTv digits part im := by
  unfold saveTv
  rw [ht, hf, hp, ← hv]; rfl

/-- The moment of the analog pointing is replaced by the time of the image: the direction read back is another one as soon as these differ by the precision. -/
theorem tv_moment_violated (c : ℚ) (hc : 0 < c) (digits : Nat) (part : Bool) (im im' : TvImage) (F : TvFile) (t f : ℚ) (p : PolLabel) (ts fs : List ℚ) (ps : List PolLabel)
    (ht : im.sky.times = t :: ts) (hf : im.sky.freqs = f :: fs) (hp : im.sky.pols = p :: ps) (hk : im.sky.order < 30)
    (hm : (im.sky.value 0 0 0).length = 12 * 4 ^ im.sky.order) (hsome : part = true → ∃ x ∈ im.sky.value 0 0 0, maskGood x = true)
    (hs : saveTv digits part im = .ok F) (hr : readTv c F = .ok im') (hfar : 1 / (2 * 10 ^ digits) < |im.point.moment - t|) :
    im'.point.moment ≠ im.point.moment := by
  obtain ⟨F2, im2, h1, h2, -, -, -, -, -, -, -, t', -, h3, h4⟩ := tv_saved c hc digits part im t f p ts fs ps ht hf hp hk hm hsome
  rw [h1] at hs; injection hs with hs; subst hs
  rw [h2] at hr; injection hr with hr; subst hr
  intro he
  rw [h3] at he; rw [he] at h4
  linarith

/-- Times of a sky without digits for the seconds, as those of the NenuFAR-TV, are moved by up to half a second. -/
theorem tv_seconds_violated (n : ℤ) : isot 0 (n + 1 / 2 : ℚ) - (n + 1 / 2) = 1 / 2 := by
  unfold isot
  have : ⌊((n : ℚ) + 1 / 2) * 10 ^ 0 + 1 / 2⌋ = n + 1 := by
    rw [Int.floor_eq_iff]; push_cast; constructor <;> linarith
  rw [this]; push_cast; ring

/-- The image computed from the data of a file is labelled with the total intensity, whatever the Stokes parameter that was asked for and imaged. -/
theorem tv_stokes_violated {D : Type} (getStokes : String → Except Err D) (image : D → List (Option ℚ)) (order : Nat) (t f : ℚ) (p : TvPoint) (r : ℚ) (stokes : String)
    (im : TvImage) (h : computeTv getStokes image order t f p r stokes = .ok im) :
    im.sky.pols = [.text "I"] ∧ ∃ d : D, getStokes stokes = .ok d ∧ im.sky.value 0 0 0 = image d := by
  unfold computeTv at h
  cases hd : getStokes stokes with
  | error e => rw [hd] at h; cases h
  | ok d =>
    rw [hd] at h
    have h' : mkTv ⟨order, [t], [f], [imageLabel none], fun _ _ _ => image d⟩ p r = .ok im := h
    unfold mkTv at h'
    by_cases hp : p.horizontal = true
    · rw [if_pos hp] at h'; injection h' with h'; subst h'
      exact ⟨rfl, d, rfl, rfl⟩
    · rw [if_neg hp] at h'; cases h'

/-- Only directions in the horizontal frame are accepted. -/
theorem tv_frame (sky : TvSky) (p : TvPoint) (r : ℚ) : (∃ im : TvImage, mkTv sky p r = .ok im) ↔ p.horizontal = true := by
  unfold mkTv
  by_cases h : p.horizontal = true
  · rw [if_pos h]; exact ⟨fun _ => h, fun _ => ⟨_, rfl⟩⟩
  · rw [if_neg h]; exact ⟨(fun ⟨_, h'⟩ => nomatch h'), fun h' => absurd h' h⟩

/-! ## Near-fields -/

/-- The entries read back: one for each source whose name is not reserved, without blanks at the end of its name. -/
def readBack (l : List (String × Plane)) : List (String × Plane) :=
  (l.filter fun s => !reservedNames.contains (hduName s.1)).map fun s => (cardText s.1, s.2)

theorem plane_ok (d : Nat) (N : Near) (name source : String) (p : Plane) (h : Hdu) (hh : planeHdu d N name source p = .ok h) :
    h = ⟨name, cardText source, isot d N.time, N.freq, N.radius, cardText (upperStr N.stokes), p, []⟩ ∧ rangeOk p = true ∧ printable N.stokes = true ∧ printable source = true := by
  unfold planeHdu at hh
  by_cases hc : (rangeOk p && printable N.stokes && printable source) = true
  · rw [if_pos hc] at hh; injection hh with hh
    rw [Bool.and_eq_true, Bool.and_eq_true] at hc
    exact ⟨hh.symm, hc.1.1, hc.1.2, hc.2⟩
  · rw [if_neg hc] at hh; cases hh

theorem source_cons (d : Nat) (N : Near) (s : String × Plane) (r : List (String × Plane)) :
    sourceHdus d N (s :: r) = (planeHdu d N (hduName s.1) s.1 s.2).bind fun h => (sourceHdus d N r).map (h :: ·) := rfl

theorem sources_back (d : Nat) (N : Near) : ∀ (l : List (String × Plane)) (r : List Hdu) (D : List (String × Plane)), sourceHdus d N l = .ok r →
    (r.filter fun h => !reservedNames.contains h.name).foldl (fun d h => setEntry d h.source h.data) D = (readBack l).foldl (fun d e => setEntry d e.1 e.2) D
  | [], r, D, h => by
    have : ([] : List Hdu) = r := by injection h
    subst this; rfl
  | s :: l, r, D, h => by
    rw [source_cons] at h
    cases hp : planeHdu d N (hduName s.1) s.1 s.2 with
    | error e => rw [hp] at h; cases h
    | ok g =>
      cases hl : sourceHdus d N l with
      | error e => rw [hp, hl] at h; cases h
      | ok r' =>
        rw [hp, hl] at h
        have : g :: r' = r := by injection h
        subst this
        have hg := (plane_ok d N _ _ _ g hp).1
        have hn : g.name = hduName s.1 := by rw [hg]
        have hs : g.source = cardText s.1 := by rw [hg]
        have hd : g.data = s.2 := by rw [hg]
        unfold readBack
        by_cases hc : (!reservedNames.contains (hduName s.1)) = true
        · rw [List.filter_cons_of_pos (by rw [hn]; exact hc), List.filter_cons_of_pos (by exact hc), List.map_cons, List.foldl_cons, List.foldl_cons, hs, hd]
          exact sources_back d N l r' _ hl
        · rw [List.filter_cons_of_neg (by rw [hn]; exact hc), List.filter_cons_of_neg (by exact hc)]
          exact sources_back d N l r' _ hl

theorem save_inv (d : Nat) (N : Near) (l : List Hdu) (h : saveNear d N = .ok l) :
    ∃ (g : Hdu) (r : List Hdu), planeHdu d N "NEAR-FIELD" "" N.map = .ok g ∧ sourceHdus d N N.imprints = .ok r ∧ l = primaryHdu :: g :: miniHdu N :: r := by
  unfold saveNear at h
  cases hp : planeHdu d N "NEAR-FIELD" "" N.map with
  | error e => rw [hp] at h; cases h
  | ok g =>
    cases hl : sourceHdus d N N.imprints with
    | error e => rw [hp, hl] at h; cases h
    | ok r =>
      rw [hp, hl] at h
      exact ⟨g, r, rfl, rfl, by injection h with h; exact h.symm⟩

/-- The imprints in the file, exactly: names that are reserved are left out, the others lose the blanks at their ends, and names that become equal overwrite each other. -/
theorem near_imprints_exact (d : Nat) (N : Near) (l : List Hdu) (h : saveNear d N = .ok l) :
    readImprints l = (readBack N.imprints).foldl (fun d e => setEntry d e.1 e.2) [] := by
  obtain ⟨g, r, hg, hr, rfl⟩ := save_inv d N l h
  have hn : g.name = "NEAR-FIELD" := by rw [(plane_ok d N _ _ _ g hg).1]
  unfold readImprints
  rw [List.filter_cons_of_neg (by decide +kernel), List.filter_cons_of_neg (by rw [hn]; decide +kernel), List.filter_cons_of_neg (by show ¬(!reservedNames.contains "MINI-ARRAYS") = true; decide +kernel)]
  exact sources_back d N N.imprints r [] hr

theorem set_new (D : List (String × Plane)) (k : String) (v : Plane) (h : ∀ e ∈ D, e.1 ≠ k) : setEntry D k v = D ++ [(k, v)] := by
  unfold setEntry
  refine if_neg ?_
  intro hc
  rw [List.any_eq_true] at hc
  obtain ⟨e, he, h2⟩ := hc
  exact h e he (by simpa using h2)

theorem set_all : ∀ (l D : List (String × Plane)), (l.map Prod.fst).Nodup → (∀ e ∈ D, ∀ s ∈ l, e.1 ≠ s.1) → l.foldl (fun d e => setEntry d e.1 e.2) D = D ++ l
  | [], D, _, _ => by simp
  | s :: l, D, hn, hd => by
    rw [List.map_cons, List.nodup_cons] at hn
    rw [List.foldl_cons, set_new D s.1 s.2 (fun e he => hd e he s List.mem_cons_self), set_all l _ hn.2, List.append_assoc]
    · rfl
    · intro e he x hx
      rcases List.mem_append.1 he with he | he
      · exact hd e he x (List.mem_cons_of_mem _ hx)
      · rw [List.mem_singleton] at he; subst he
        intro h
        exact hn.1 (List.mem_map.2 ⟨x, hx, h.symm⟩)

theorem sources_ok (d : Nat) (N : Near) (hst : printable N.stokes = true) : ∀ l : List (String × Plane), (∀ s ∈ l, rangeOk s.2 = true ∧ printable s.1 = true) →
    ∃ r : List Hdu, sourceHdus d N l = .ok r
  | [], _ => ⟨[], rfl⟩
  | s :: l, h => by
    obtain ⟨r, hr⟩ := sources_ok d N hst l (fun x hx => h x (List.mem_cons_of_mem _ hx))
    obtain ⟨h1, h2⟩ := h s List.mem_cons_self
    have hp : planeHdu d N (hduName s.1) s.1 s.2 = .ok ⟨hduName s.1, cardText s.1, isot d N.time, N.freq, N.radius, cardText (upperStr N.stokes), s.2, []⟩ :=
      if_pos (by rw [h1, h2, hst]; rfl)
    refine ⟨⟨hduName s.1, cardText s.1, isot d N.time, N.freq, N.radius, cardText (upperStr N.stokes), s.2, []⟩ :: r, ?_⟩
    rw [source_cons, hp, hr]; rfl

theorem saved_read (d : Nat) (N : Near) (g : Hdu) (r : List Hdu) (hg : planeHdu d N "NEAR-FIELD" "" N.map = .ok g) :
    readNear (primaryHdu :: g :: miniHdu N :: r) =
      mkNear ⟨N.map, readImprints (primaryHdu :: g :: miniHdu N :: r), N.map.cols, isot d N.time, N.freq, N.radius, N.minis, cardText (upperStr N.stokes)⟩ := by
  have hgg := (plane_ok d N _ _ _ g hg).1
  have hn : g.name = "NEAR-FIELD" := by rw [hgg]
  have h1 : hduOf (primaryHdu :: g :: miniHdu N :: r) "NEAR-FIELD" = .ok g := by
    unfold hduOf
    rw [List.find?_cons_of_neg (by show ¬("PRIMARY" == "NEAR-FIELD") = true; decide +kernel), List.find?_cons_of_pos (by rw [hn]; decide +kernel)]; rfl
  have h2 : hduOf (primaryHdu :: g :: miniHdu N :: r) "MINI-ARRAYS" = .ok (miniHdu N) := by
    unfold hduOf
    rw [List.find?_cons_of_neg (by show ¬("PRIMARY" == "MINI-ARRAYS") = true; decide +kernel), List.find?_cons_of_neg (by rw [hn]; decide +kernel),
      List.find?_cons_of_pos (by show ("MINI-ARRAYS" == "MINI-ARRAYS") = true; decide +kernel)]; rfl
  unfold readNear
  rw [h1]
  show (hduOf (primaryHdu :: g :: miniHdu N :: r) "MINI-ARRAYS").bind _ = _
  rw [h2]
  show mkNear _ = mkNear _
  generalize readImprints (primaryHdu :: g :: miniHdu N :: r) = I
  rw [hgg]; rfl

/-- A near-field saved and read back is the same one, with its Stokes parameter in upper case and the first digits of its time: for arrays of numbers, and sources of printable,
distinct names without blanks at the end which are not reserved. -/
theorem near_saved_partial (d : Nat) (N : Near) (hN : mkNear N = .ok N) (hmap : rangeOk N.map = true) (hst : printable N.stokes = true)
    (hst2 : cardText (upperStr N.stokes) = upperStr N.stokes)
    (hsrc : ∀ s ∈ N.imprints, rangeOk s.2 = true ∧ printable s.1 = true ∧ cardText s.1 = s.1 ∧ hduName s.1 ∉ reservedNames) (hdis : (N.imprints.map Prod.fst).Nodup) :
    ∃ l : List Hdu, saveNear d N = .ok l ∧ readNear l = .ok { N with time := isot d N.time, stokes := upperStr N.stokes } := by
  obtain ⟨r, hr⟩ := sources_ok d N hst N.imprints (fun s hs => ⟨(hsrc s hs).1, (hsrc s hs).2.1⟩)
  have hg : planeHdu d N "NEAR-FIELD" "" N.map = .ok ⟨"NEAR-FIELD", cardText "", isot d N.time, N.freq, N.radius, cardText (upperStr N.stokes), N.map, []⟩ :=
    if_pos (by rw [hmap, hst]; decide +kernel)
  have hs : saveNear d N = .ok (primaryHdu :: ⟨"NEAR-FIELD", cardText "", isot d N.time, N.freq, N.radius, cardText (upperStr N.stokes), N.map, []⟩ :: miniHdu N :: r) := by
    unfold saveNear; rw [hg]
    show (sourceHdus d N N.imprints).map _ = _
    rw [hr]; rfl
  refine ⟨_, hs, ?_⟩
  have hb : readBack N.imprints = N.imprints := by
    unfold readBack
    rw [List.filter_eq_self.2]
    · conv_rhs => rw [← List.map_id N.imprints]
      exact List.map_congr_left fun s hs => by rw [(hsrc s hs).2.2.1]; rfl
    · intro s hs
      have := (hsrc s hs).2.2.2
      simpa using this
  have hi := near_imprints_exact d N _ hs
  rw [hb, set_all N.imprints [] hdis (fun e he => by cases he), List.nil_append] at hi
  rw [saved_read d N _ r hg, hi, hst2]
  have hsq : N.map.rows = N.map.cols ∧ (N.imprints.any fun s => decide (¬(s.2.rows = N.map.rows ∧ s.2.cols = N.map.cols))) = false ∧ N.npix = N.map.rows := by
    unfold mkNear at hN
    by_cases h1 : N.map.rows ≠ N.map.cols
    · rw [if_pos h1] at hN; cases hN
    · rw [if_neg h1] at hN
      by_cases h2 : (N.imprints.any fun s => decide (¬(s.2.rows = N.map.rows ∧ s.2.cols = N.map.cols))) = true
      · rw [if_pos h2] at hN; cases hN
      · rw [if_neg h2] at hN
        by_cases h3 : N.npix ≠ N.map.rows
        · rw [if_pos h3] at hN; cases hN
        · exact ⟨not_not.1 h1, by simpa using h2, not_not.1 h3⟩
  obtain ⟨h1, h2, h3⟩ := hsq
  have hnp : N.map.cols = N.npix := by omega
  unfold mkNear
  rw [if_neg (by simpa using h1), if_neg (by rw [h2]; decide), if_neg (by simpa using h1.symm)]
  rw [hnp]

/-- What was accepted once is accepted again with the same values only if it is square, if all imprints have its shape and if its width is the one announced. -/
theorem near_checked (N : Near) : (∃ M : Near, mkNear N = .ok M) ↔
    N.map.rows = N.map.cols ∧ (∀ s ∈ N.imprints, s.2.rows = N.map.rows ∧ s.2.cols = N.map.cols) ∧ N.npix = N.map.rows := by
  unfold mkNear
  by_cases h1 : N.map.rows ≠ N.map.cols
  · rw [if_pos h1]; exact ⟨(fun ⟨_, h⟩ => nomatch h), fun h => absurd h.1 h1⟩
  · rw [if_neg h1]
    by_cases h2 : (N.imprints.any fun s => decide (¬(s.2.rows = N.map.rows ∧ s.2.cols = N.map.cols))) = true
    · rw [if_pos h2]
      refine ⟨(fun ⟨_, h⟩ => nomatch h), fun h => ?_⟩
      rw [List.any_eq_true] at h2
      obtain ⟨s, hs, h3⟩ := h2
      exact absurd (h.2.1 s hs) (of_decide_eq_true h3)
    · rw [if_neg h2]
      have h2' : ∀ s ∈ N.imprints, s.2.rows = N.map.rows ∧ s.2.cols = N.map.cols := by
        intro s hs
        by_contra h
        exact h2 (List.any_eq_true.2 ⟨s, hs, decide_eq_true h⟩)
      by_cases h3 : N.npix ≠ N.map.rows
      · rw [if_pos h3]; exact ⟨(fun ⟨_, h⟩ => nomatch h), fun h => absurd h.2.2 h3⟩
      · rw [if_neg h3]; exact ⟨fun _ => ⟨not_not.1 h1, h2', not_not.1 h3⟩, fun _ => ⟨N, rfl⟩⟩

theorem set_mem (D : List (String × Plane)) (k : String) (v : Plane) (e : String × Plane) (he : e ∈ setEntry D k v) : (∃ x ∈ D, x.1 = e.1) ∨ e.1 = k := by
  unfold setEntry at he
  by_cases h : (D.any fun e => e.1 == k) = true
  · rw [if_pos h, List.mem_map] at he
    obtain ⟨x, hx, hxe⟩ := he
    by_cases hk : x.1 = k
    · rw [if_pos hk] at hxe; exact Or.inr (by rw [← hxe])
    · rw [if_neg hk] at hxe; exact Or.inl ⟨x, hx, by rw [hxe]⟩
  · rw [if_neg h] at he
    rcases List.mem_append.1 he with he | he
    · exact Or.inl ⟨e, he, rfl⟩
    · rw [List.mem_singleton] at he; exact Or.inr (by rw [he])

theorem set_names : ∀ (l D : List (String × Plane)) (e : String × Plane), e ∈ l.foldl (fun d e => setEntry d e.1 e.2) D → (∃ x ∈ D, x.1 = e.1) ∨ ∃ x ∈ l, x.1 = e.1
  | [], D, e, h => Or.inl ⟨e, h, rfl⟩
  | s :: l, D, e, h => by
    rw [List.foldl_cons] at h
    rcases set_names l _ e h with ⟨x, hx, hxe⟩ | ⟨x, hx, hxe⟩
    · rcases set_mem D s.1 s.2 x hx with ⟨y, hy, hyx⟩ | hk
      · exact Or.inl ⟨y, hy, hyx.trans hxe⟩
      · exact Or.inr ⟨s, List.mem_cons_self, hk.symm.trans hxe⟩
    · exact Or.inr ⟨x, List.mem_cons_of_mem _ hx, hxe⟩

/-- The imprint of a source is lost if its name is one of the three reserved ones, in any case, unless another source loses blanks to get this name. -/
theorem near_reserved_violated (d : Nat) (N N' : Near) (l : List Hdu) (k : String) (hk : hduName k ∈ reservedNames) (hs : saveNear d N = .ok l) (hr : readNear l = .ok N')
    (hother : ∀ s ∈ N.imprints, cardText s.1 = k → s.1 = k) : ∀ e ∈ N'.imprints, e.1 ≠ k := by
  obtain ⟨g, r, hg, -, rfl⟩ := save_inv d N l hs
  have hi := near_imprints_exact d N _ hs
  rw [saved_read d N g r hg, hi] at hr
  have hN : N'.imprints = (readBack N.imprints).foldl (fun d e => setEntry d e.1 e.2) [] := by
    unfold mkNear at hr
    by_cases h1 : N.map.rows ≠ N.map.cols
    · rw [if_pos h1] at hr; cases hr
    · rw [if_neg h1] at hr
      split at hr
      · cases hr
      · split at hr
        · cases hr
        · injection hr with hr; rw [← hr]
  rw [hN]
  intro e he hek
  rcases set_names _ _ e he with ⟨x, hx, -⟩ | ⟨x, hx, hxe⟩
  · cases hx
  · unfold readBack at hx
    rw [List.mem_map] at hx
    obtain ⟨s, hsm, rfl⟩ := hx
    rw [List.mem_filter] at hsm
    have h1 : cardText s.1 = k := hxe.trans hek
    have h2 := hother s hsm.1 h1
    have h3 := hsm.2
    rw [h2] at h3
    simp [hk] at h3

/-- Blanks at the end of the name of a source are lost. -/
theorem near_blank_violated (d : Nat) (N N' : Near) (l : List Hdu) (hs : saveNear d N = .ok l) (hr : readNear l = .ok N') :
    ∀ e ∈ N'.imprints, ∃ s ∈ N.imprints, e.1 = cardText s.1 := by
  obtain ⟨g, r, hg, -, rfl⟩ := save_inv d N l hs
  have hi := near_imprints_exact d N _ hs
  rw [saved_read d N g r hg, hi] at hr
  have hN : N'.imprints = (readBack N.imprints).foldl (fun d e => setEntry d e.1 e.2) [] := by
    unfold mkNear at hr
    by_cases h1 : N.map.rows ≠ N.map.cols
    · rw [if_pos h1] at hr; cases hr
    · rw [if_neg h1] at hr
      split at hr
      · cases hr
      · split at hr
        · cases hr
        · injection hr with hr; rw [← hr]
  rw [hN]
  intro e he
  rcases set_names _ _ e he with ⟨x, hx, -⟩ | ⟨x, hx, hxe⟩
  · cases hx
  · unfold readBack at hx
    rw [List.mem_map] at hx
    obtain ⟨s, hsm, rfl⟩ := hx
    exact ⟨s, (List.mem_filter.1 hsm).1, hxe.symm⟩

/-- A near-field with a NaN, or without any pixel, cannot be saved. -/
theorem near_nan_violated (d : Nat) (N : Near) (h : none ∈ N.map.vals ∨ N.map.vals = []) : saveNear d N = .error .valueError := by
  have hr : rangeOk N.map = false := by
    unfold rangeOk
    rcases h with h | h
    · have : (N.map.vals.all Option.isSome) = false := by
        rw [List.all_eq_false]; exact ⟨none, h, by decide⟩
      rw [this, Bool.and_false]
    · rw [h]; rfl
  have hg : planeHdu d N "NEAR-FIELD" "" N.map = .error .valueError := if_neg (by rw [hr]; simp)
  unfold saveNear; rw [hg]; rfl

/-! ## Examples -/

/-- A sky of 12 pixels with one missing value, one NaN, one number. -/
def smallTv : TvImage :=
  ⟨⟨0, [100 + 4 / 10, 200], [60], [.text "V"], fun _ _ _ => some unseen :: none :: List.replicate 10 (some 3)⟩, ⟨180, 90, 7, true⟩, 27⟩

example : 0 < (1 : ℚ) ∧ smallTv.sky.order < 30 ∧ (smallTv.sky.value 0 0 0).length = 12 * 4 ^ smallTv.sky.order ∧
    ∃ x ∈ smallTv.sky.value 0 0 0, maskGood x = true := by
  refine ⟨by norm_num, by decide, rfl, some 3, ?_, ?_⟩
  · simp [smallTv]
  · show decide (badMargin < |(3 : ℚ) - unseen|) = true
    exact decide_eq_true (by unfold badMargin unseen; norm_num)

example : (1 : ℚ) / (2 * 10 ^ 3) < |smallTv.point.moment - (100 + 4 / 10)| := by
  show (1 : ℚ) / (2 * 10 ^ 3) < |(7 : ℚ) - (100 + 4 / 10)|
  norm_num

/-- A near-field of four pixels with a source. -/
def smallNear : Near := ⟨⟨2, 2, [some 1, some 2, some 3, some 4]⟩, [("Cyg A", ⟨2, 2, [some 0, some 1, some 0, some 0]⟩)], 2, 5, 60, 400, [0, 1, 7], "xx"⟩

theorem toUpper_not_lower (c : Char) : ¬ (97 ≤ c.toUpper.toNat ∧ c.toUpper.toNat ≤ 122) := by
  unfold Char.toUpper
  split_ifs with h
  · intro ⟨h1, h2⟩
    simp only [Char.toNat] at h1 h2
    have e := h
    simp only [ge_iff_le, UInt32.le_iff_toNat_le] at e
    have e1 : (97 : Nat) ≤ c.val.toNat := e.1
    have e2 : c.val.toNat ≤ 122 := e.2
    rw [UInt32.toNat_add] at h1 h2
    have e3 : (('A'.val - 'a'.val : UInt32)).toNat = 4294967264 := by decide +kernel
    rw [e3] at h1 h2
    omega
  · intro ⟨h1, h2⟩
    exact h ⟨UInt32.le_iff_toNat_le.2 h1, UInt32.le_iff_toNat_le.2 h2⟩

/-- Labels and names of extensions are in capital letters: no small letter is left, and what has none is not changed. -/
theorem label_upper (s : String) : (upperStr s).toList.length = s.toList.length ∧ (∀ c ∈ (upperStr s).toList, ¬ (97 ≤ c.toNat ∧ c.toNat ≤ 122)) := by
  unfold upperStr
  rw [String.toList_ofList]
  refine ⟨by simp, fun c hc => ?_⟩
  obtain ⟨x, -, rfl⟩ := List.mem_map.1 hc
  exact toUpper_not_lower x

/-- The name of the extension of a source: `_` at each blank, and no small letter. -/
theorem extension_name (s : String) : (∀ i : Nat, s.toList[i]? = some ' ' → (hduName s).toList[i]? = some '_') ∧ (∀ i : Nat, ∀ c : Char, c ≠ ' ' → s.toList[i]? = some c →
    (hduName s).toList[i]? = some c.toUpper) ∧ (∀ c ∈ (hduName s).toList, ¬ (97 ≤ c.toNat ∧ c.toNat ≤ 122)) := by
  refine ⟨fun i h => ?_, fun i c hc h => ?_, (label_upper _).2⟩
  · unfold hduName upperStr
    rw [String.toList_ofList, String.toList_ofList, List.getElem?_map, List.getElem?_map, h]
    decide +kernel
  · unfold hduName upperStr
    rw [String.toList_ofList, String.toList_ofList, List.getElem?_map, List.getElem?_map, h]
    show some (if c = ' ' then '_' else c).toUpper = _
    rw [if_neg hc]

/-- A text of the header comes back without the blanks at its end, and only these are lost. -/
theorem card_spec (s : String) : (∃ n : Nat, s.toList = (cardText s).toList ++ List.replicate n ' ') ∧ (cardText s).toList.getLast? ≠ some ' ' := by
  unfold cardText
  rw [String.toList_ofList]
  have h := List.takeWhile_append_dropWhile (p := fun x : Char => decide (x = ' ')) (l := s.toList.reverse)
  constructor
  · refine ⟨(s.toList.reverse.takeWhile fun x : Char => decide (x = ' ')).length, ?_⟩
    have h2 : s.toList.reverse.takeWhile (fun x : Char => decide (x = ' ')) = List.replicate (s.toList.reverse.takeWhile fun x : Char => decide (x = ' ')).length ' ' :=
      List.eq_replicate_iff.2 ⟨rfl, fun b hb => by simpa using (List.all_eq_true.1 (List.all_takeWhile (p := fun x : Char => decide (x = ' ')))) b hb⟩
    have h3 := congrArg List.reverse h
    rw [List.reverse_reverse, List.reverse_append] at h3
    have h4 := congrArg List.reverse h2
    rw [List.reverse_replicate] at h4
    rw [← h4]
    exact h3.symm
  · rw [List.getLast?_reverse]
    intro e
    have := List.head?_dropWhile_not (fun x : Char => decide (x = ' ')) s.toList.reverse
    rw [e] at this
    simp at this

example : mkNear smallNear = .ok smallNear ∧ rangeOk smallNear.map = true ∧ printable smallNear.stokes = true ∧ cardText (upperStr smallNear.stokes) = upperStr smallNear.stokes ∧
    (∀ s ∈ smallNear.imprints, rangeOk s.2 = true ∧ printable s.1 = true ∧ cardText s.1 = s.1 ∧ hduName s.1 ∉ reservedNames) ∧ (smallNear.imprints.map Prod.fst).Nodup := by
  decide +kernel

example : hduName "Near-Field" ∈ reservedNames ∧ hduName "primary" ∈ reservedNames ∧ hduName "Cyg A" = "CYG_A" := by decide +kernel

example : ((saveNear 3 ⟨smallNear.map, [("primary", smallNear.map)], 2, 5, 60, 400, [0, 1, 7], "xx"⟩).bind fun l => (readNear l).map Near.imprints).toOption = some [] := by
  decide +kernel

end Verif.IO
