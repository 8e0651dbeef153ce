import Verif.Astro.LocalMap
import Mathlib.Algebra.Order.Round
import Mathlib.Data.Rat.Floor
import Mathlib.Tactic.Linarith
import Mathlib.Tactic.FieldSimp

/-!
# Maps of the sky in local coordinates (property C196)
-/

namespace Verif.Astro

/-! ## Specification -/

/-- A table with `m` rows of `n` items. -/
def HasShape {α : Type} (t : List (List α)) (m n : Nat) : Prop := t.length = m ∧ ∀ r ∈ t, r.length = n

/-- Item of a table. -/
def cellAt {α : Type} (t : List (List α)) (j i : Nat) : Option α := (t[j]?).bind fun r : List α => r[i]?

/-! ## Axes -/

theorem linDeg_get (stop : ℚ) (n k : Nat) (h : k < n) : (linDeg stop n)[k]? = some ((k : ℚ) * (stop / ((n - 1 : Nat) : ℚ))) := by
  unfold linDeg
  rw [List.getElem?_map, List.getElem?_range h]
  rfl

theorem linDeg_length (stop : ℚ) (n : Nat) : (linDeg stop n).length = n := by simp [linDeg]

theorem mesh_cell {α : Type} (f : ℚ × ℚ → α) (az alt : List ℚ) (j i : Nat) (a e : ℚ) (ha : az[i]? = some a) (he : alt[j]? = some e) :
    cellAt ((meshDeg az alt).map fun r : List (ℚ × ℚ) => r.map f) j i = some (f (a, e)) := by
  unfold cellAt meshDeg
  rw [List.getElem?_map, List.getElem?_map, he]
  show (List.map f (List.map _ az))[i]? = _
  rw [List.getElem?_map, List.getElem?_map, ha]
  rfl

theorem mesh_shape {α : Type} (f : ℚ × ℚ → α) (az alt : List ℚ) :
    HasShape ((meshDeg az alt).map fun r : List (ℚ × ℚ) => r.map f) alt.length az.length := by
  refine ⟨by simp [meshDeg], ?_⟩
  intro r hr
  obtain ⟨s, hs, rfl⟩ := List.mem_map.1 hr
  obtain ⟨e, he, rfl⟩ := List.mem_map.1 hs
  simp

theorem altazMap_eq {α : Type} (look : ℚ → ℚ → α) (n m : Nat) :
    altazMap look n m = .ok ⟨(meshDeg (linDeg 360 n) (linDeg 90 m)).map fun r : List (ℚ × ℚ) => r.map Prod.fst,
      (meshDeg (linDeg 360 n) (linDeg 90 m)).map fun r : List (ℚ × ℚ) => r.map Prod.snd,
      (meshDeg (linDeg 360 n) (linDeg 90 m)).map fun r : List (ℚ × ℚ) => r.map fun p : ℚ × ℚ => look p.1 p.2⟩ := by
  unfold altazMap linChecked
  rw [if_neg (by omega), if_neg (by omega), Int.toNat_natCast, Int.toNat_natCast]
  rfl

/-! ## Properties -/

/-- C196: the map has a row for each elevation, from the horizon to the zenith in equal steps, and a
column for each azimuth, from 0 to 360 degrees in equal steps; its values are those of the sky in these directions. One elevation is 0, and so is one azimuth. -/
theorem local_map_exact {α : Type} (look : ℚ → ℚ → α) (n m : Nat) :
    ∃ q : LocalMap α, altazMap look n m = .ok q ∧ HasShape q.az m n ∧ HasShape q.alt m n ∧ HasShape q.value m n
      ∧ ∀ j i : Nat, j < m → i < n → ∃ a e : ℚ, cellAt q.az j i = some a ∧ cellAt q.alt j i = some e ∧ cellAt q.value j i = some (look a e)
        ∧ a * ((n : ℚ) - 1) = i * (if n = 1 then 0 else 360) ∧ e * ((m : ℚ) - 1) = j * (if m = 1 then 0 else 90) := by
  have s : ∀ {β : Type} (f : ℚ × ℚ → β), HasShape ((meshDeg (linDeg 360 n) (linDeg 90 m)).map fun r : List (ℚ × ℚ) => r.map f) m n := by
    intro β f
    have := mesh_shape f (linDeg 360 n) (linDeg 90 m)
    rwa [linDeg_length, linDeg_length] at this
  have step : ∀ (stop : ℚ) (l k : Nat), k < l → (k : ℚ) * (stop / ((l - 1 : Nat) : ℚ)) * ((l : ℚ) - 1) = k * (if l = 1 then 0 else stop) := by
    intro stop l k hk
    by_cases hl : l = 1
    · subst hl
      have : k = 0 := by omega
      subst this
      simp
    · rw [if_neg hl]
      have h1 : ((l - 1 : Nat) : ℚ) = (l : ℚ) - 1 := by rw [Nat.cast_sub (by omega)]; norm_num
      have h2 : (l : ℚ) - 1 ≠ 0 := by
        rw [← h1]
        exact_mod_cast (show l - 1 ≠ 0 by omega)
      rw [h1]
      field_simp
  refine ⟨_, altazMap_eq look n m, s _, s _, s _, ?_⟩
  intro j i hj hi
  have ha := linDeg_get 360 n i hi
  have he := linDeg_get 90 m j hj
  exact ⟨_, _, mesh_cell _ _ _ j i _ _ ha he, mesh_cell _ _ _ j i _ _ ha he, mesh_cell _ _ _ j i _ _ ha he, step _ _ _ hi, step _ _ _ hj⟩

/-- C196: a negative number of azimuths or elevations is refused. -/
theorem local_map_refused {α : Type} (look : ℚ → ℚ → α) (n m : Int) (h : n < 0 ∨ m < 0) : altazMap look n m = .error .valueError := by
  unfold altazMap linChecked
  by_cases hn : n < 0
  · rw [if_pos hn]; rfl
  · rw [if_neg hn, if_pos (h.resolve_left hn)]
    rfl

theorem near_step (stop : ℚ) (n : Nat) (hn : 2 ≤ n) (hs : 0 < stop) (x : ℚ) (h0 : 0 ≤ x) (h1 : x ≤ stop) :
    ∃ k : Nat, k < n ∧ |(k : ℚ) * (stop / ((n - 1 : Nat) : ℚ)) - x| ≤ stop / (2 * ((n - 1 : Nat) : ℚ)) := by
  have hc : (0 : ℚ) < ((n - 1 : Nat) : ℚ) := by exact_mod_cast (show 0 < n - 1 by omega)
  set d : ℚ := stop / ((n - 1 : Nat) : ℚ) with hd
  have dp : 0 < d := div_pos hs hc
  have hxd : x / d ≤ ((n - 1 : Nat) : ℚ) := by
    rw [div_le_iff₀ dp, hd]
    rw [mul_div_cancel₀ _ hc.ne']
    exact h1
  have hx0 : 0 ≤ x / d := div_nonneg h0 dp.le
  have hr := abs_sub_round (x / d)
  have r0 : 0 ≤ round (x / d) := by
    by_contra hneg
    have : (round (x / d) : ℚ) ≤ -1 := by exact_mod_cast (show round (x / d) ≤ -1 by omega)
    rw [abs_le] at hr
    linarith [hr.2]
  have r1 : round (x / d) ≤ ((n - 1 : Nat) : Int) := by
    by_contra hneg
    have : (((n - 1 : Nat) : Int) : ℚ) + 1 ≤ (round (x / d) : ℚ) := by
      exact_mod_cast (show ((n - 1 : Nat) : Int) + 1 ≤ round (x / d) by omega)
    rw [abs_le] at hr
    have e : (((n - 1 : Nat) : Int) : ℚ) = ((n - 1 : Nat) : ℚ) := by norm_cast
    rw [e] at this
    linarith [hr.1]
  refine ⟨(round (x / d)).toNat, by omega, ?_⟩
  have hk : (((round (x / d)).toNat : Nat) : ℚ) = (round (x / d) : ℚ) := by
    exact_mod_cast congrArg (fun z : Int => (z : ℚ)) (Int.toNat_of_nonneg r0)
  rw [hk]
  have e1 : (round (x / d) : ℚ) * d - x = -((x / d - round (x / d)) * d) := by
    rw [sub_mul, div_mul_cancel₀ _ dp.ne']
    ring
  rw [e1, abs_neg, abs_mul, abs_of_pos dp]
  calc |x / d - round (x / d)| * d ≤ 1 / 2 * d := mul_le_mul_of_nonneg_right hr dp.le
    _ = stop / (2 * ((n - 1 : Nat) : ℚ)) := by rw [hd]; field_simp

/-- C196: every direction above the horizon is at most half a step of azimuth and half a step of elevation away from a direction of the map. -/
theorem local_map_near {α : Type} (look : ℚ → ℚ → α) (n m : Nat) (hn : 2 ≤ n) (hm : 2 ≤ m) (x y : ℚ) (hx0 : 0 ≤ x) (hx1 : x ≤ 360) (hy0 : 0 ≤ y)
    (hy1 : y ≤ 90) :
    ∃ (q : LocalMap α) (j i : Nat) (a e : ℚ), altazMap look n m = .ok q ∧ cellAt q.az j i = some a ∧ cellAt q.alt j i = some e
      ∧ cellAt q.value j i = some (look a e) ∧ |a - x| ≤ 180 / ((n - 1 : Nat) : ℚ) ∧ |e - y| ≤ 45 / ((m - 1 : Nat) : ℚ) := by
  obtain ⟨i, hi, di⟩ := near_step 360 n hn (by norm_num) x hx0 hx1
  obtain ⟨j, hj, dj⟩ := near_step 90 m hm (by norm_num) y hy0 hy1
  have ha := linDeg_get 360 n i hi
  have he := linDeg_get 90 m j hj
  refine ⟨_, j, i, _, _, altazMap_eq look n m, mesh_cell _ _ _ j i _ _ ha he, mesh_cell _ _ _ j i _ _ ha he, mesh_cell _ _ _ j i _ _ ha he,
    di.trans (le_of_eq ?_), dj.trans (le_of_eq ?_)⟩
  · ring
  · ring

/-- C196, violated: the map repeats directions. Its first and last columns are the north, and its last row is the zenith seen from all
azimuths, for all numbers of azimuths and elevations from 2 on. -/
theorem local_map_repeats_violated {α : Type} (look : ℚ → ℚ → α) (turn : ∀ a e : ℚ, look (a + 360) e = look a e)
    (zenith : ∀ a b : ℚ, look a 90 = look b 90) (n m : Nat) (hn : 2 ≤ n) (hm : 2 ≤ m) :
    ∃ q : LocalMap α, altazMap look n m = .ok q
      ∧ (∀ j < m, ∃ v : α, cellAt q.value j 0 = some v ∧ cellAt q.value j (n - 1) = some v)
      ∧ ∃ v : α, ∀ i < n, cellAt q.value (m - 1) i = some v := by
  have top : ∀ (stop : ℚ) (l : Nat), 2 ≤ l → ((l - 1 : Nat) : ℚ) * (stop / ((l - 1 : Nat) : ℚ)) = stop := by
    intro stop l hl
    have : ((l - 1 : Nat) : ℚ) ≠ 0 := by exact_mod_cast (show l - 1 ≠ 0 by omega)
    field_simp
  refine ⟨_, altazMap_eq look n m, ?_, ?_⟩
  · intro j hj
    have he := linDeg_get 90 m j hj
    have a0 := linDeg_get 360 n 0 (by omega)
    have a1 := linDeg_get 360 n (n - 1) (by omega)
    rw [top 360 n hn] at a1
    rw [Nat.cast_zero, zero_mul] at a0
    refine ⟨_, mesh_cell _ _ _ j 0 _ _ a0 he, ?_⟩
    rw [mesh_cell _ _ _ j (n - 1) _ _ a1 he]
    have := turn 0 ((j : ℚ) * (90 / ((m - 1 : Nat) : ℚ)))
    rw [zero_add] at this
    exact congrArg some this
  · refine ⟨look 0 90, ?_⟩
    intro i hi
    have he := linDeg_get 90 m (m - 1) (by omega)
    rw [top 90 m hm] at he
    rw [mesh_cell _ _ _ (m - 1) i _ _ (linDeg_get 360 n i hi) he]
    exact congrArg some (zenith _ 0)

/-- C196, violated: with one elevation the whole map is the horizon, and with one azimuth it is the northern half of the meridian. -/
theorem local_map_single_violated {α : Type} (look : ℚ → ℚ → α) (n : Nat) :
    (∃ q : LocalMap α, altazMap look n 1 = .ok q ∧ ∀ i < n, cellAt q.alt 0 i = some 0)
      ∧ ∃ q : LocalMap α, altazMap look 1 n = .ok q ∧ ∀ j < n, cellAt q.az j 0 = some 0 := by
  refine ⟨⟨_, altazMap_eq look n 1, fun i hi => ?_⟩, ⟨_, altazMap_eq look 1 n, fun j hj => ?_⟩⟩
  · have he := linDeg_get 90 1 0 (by omega)
    rw [Nat.cast_zero, zero_mul] at he
    exact mesh_cell _ _ _ 0 i _ _ (linDeg_get 360 n i hi) he
  · have ha := linDeg_get 360 1 0 (by omega)
    rw [Nat.cast_zero, zero_mul] at ha
    exact mesh_cell _ _ _ j 0 _ _ ha (linDeg_get 90 n j hj)

theorem skyFlat_length {α F C : Type} (look : F → C → α) (fs : List F) (cs : List C) :
    (skyFlat look fs cs).length = fs.length * cs.length := by
  induction fs with
  | nil => simp [skyFlat]
  | cons f l ih =>
    unfold skyFlat at ih ⊢
    rw [List.flatMap_cons, List.length_append, ih, List.length_map, List.length_cons]
    ring

theorem skyFlat_get {α F C : Type} (look : F → C → α) (fs : List F) (cs : List C) (i k : Nat) (f : F) (c : C) (hf : fs[i]? = some f)
    (hc : cs[k]? = some c) : (skyFlat look fs cs)[i * cs.length + k]? = some (look f c) := by
  have hk : k < cs.length := (List.getElem?_eq_some_iff.1 hc).1
  induction fs generalizing i with
  | nil => simp at hf
  | cons g l ih =>
    unfold skyFlat at ih ⊢
    rw [List.flatMap_cons]
    cases i with
    | zero =>
      have e : g = f := by simpa using hf
      rw [List.getElem?_append_left (by rw [List.length_map]; omega), Nat.zero_mul, Nat.zero_add, List.getElem?_map, hc, e]
      rfl
    | succ i =>
      have hi : (i + 1) * cs.length + k = cs.length + (i * cs.length + k) := by ring
      rw [hi, List.getElem?_append_right (by rw [List.length_map]; omega), List.length_map, Nat.add_sub_cancel_left]
      exact ih i (by simpa using hf)

/-- C196: at one time, the sky made from the model has at each frequency and direction the value of the model there. -/
theorem to_sky_exact {α F C : Type} (look : F → C → α) (fs : List F) (cs : List C) :
    ∃ q, toSky look fs cs 1 = .ok q
      ∧ ∀ (i k : Nat) (f : F) (c : C), fs[i]? = some f → cs[k]? = some c → q 0 i 0 k = some (look f c) := by
  unfold toSky reshapeSky
  rw [if_pos (by rw [skyFlat_length]; ring)]
  refine ⟨_, rfl, ?_⟩
  intro i k f c hf hc
  have hi : i < fs.length := (List.getElem?_eq_some_iff.1 hf).1
  have hk : k < cs.length := (List.getElem?_eq_some_iff.1 hc).1
  show (if _ then _ else _) = _
  rw [if_pos ⟨by omega, hi, by omega, hk⟩]
  have e : ((0 * fs.length + i) * 1 + 0) * cs.length + k = i * cs.length + k := by ring
  rw [e]
  exact skyFlat_get look fs cs i k f c hf hc

/-- C196, violated: no sky of several times, or of none, can be made from the model, whatever the frequencies and directions. -/
theorem to_sky_times_violated {α F C : Type} (look : F → C → α) (fs : List F) (cs : List C) (hf : fs ≠ []) (hc : cs ≠ []) (nt : Nat)
    (hn : nt ≠ 1) : toSky look fs cs nt = .error .valueError := by
  unfold toSky reshapeSky
  rw [if_neg]
  rw [skyFlat_length]
  intro h
  have p : 0 < fs.length * cs.length := Nat.mul_pos (List.length_pos_iff.2 hf) (List.length_pos_iff.2 hc)
  have e : nt * fs.length * 1 * cs.length = nt * (fs.length * cs.length) := by ring
  rw [e] at h
  exact hn (Nat.eq_of_mul_eq_mul_right p (by omega))

/-- Two frequencies and three directions, at one time and at two. -/
example : (toSky (fun f c : Nat => 10 * f + c) [5, 6] [1, 2, 3] 1).toOption.bind (fun q => q 0 1 0 2) = some 63
    ∧ (toSky (fun f c : Nat => 10 * f + c) [5, 6] [1, 2, 3] 2).toOption.isNone = true := by decide

/-- A map of three azimuths and two elevations. -/
example : (altazMap (fun a e => a + e) 3 2).toOption.map (fun q => (q.az, q.alt, q.value))
    = some ([[0, 180, 360], [0, 180, 360]], [[0, 0, 0], [90, 90, 90]], [[0, 180, 360], [90, 270, 450]]) := by decide +kernel

/-- A sky brighter at the horizon, the same at all azimuths. -/
example : (∀ a e : ℚ, (fun _ e : ℚ => 90 - e) (a + 360) e = (fun _ e : ℚ => 90 - e) a e)
    ∧ ∀ a b : ℚ, (fun _ e : ℚ => (90 : ℚ) - e) a 90 = (fun _ e : ℚ => 90 - e) b 90 := ⟨fun _ _ => rfl, fun _ _ => rfl⟩

end Verif.Astro
