import Verif.Parset.Center
import Verif.Parset.PropsJson
import Mathlib.Tactic.Linarith

/-!
# Direction recorded for a block: property C128
-/

namespace Verif.Parset

/-! ## Specification -/

/-- The block starts at `t` and gives no file of pointings. -/
structure Starts (d : Props) (t : Str) : Prop where
  start : dictGet d "startTime".toList = some (.time t)
  file : dictGet d "azelFile".toList = none

/-- The type of direction of the block, in any case. -/
def Directed (d : Props) (ty : Str) : Prop := ∃ s, dictGet d "directionType".toList = some (.str s) ∧ lower s = ty

/-- The two angles of the block, in degrees. -/
def Angles (F : Str → Option ℚ) (d : Props) (a b : ℚ) : Prop :=
  ∃ s s', dictGet d "angle1".toList = some (.angle s) ∧ F s = some a ∧ dictGet d "angle2".toList = some (.angle s') ∧ F s' = some b

/-- The offset `k` of the block, zero if it is not given. -/
def Offset (F : Str → Option ℚ) (d : Props) (k : Str) (x : ℚ) : Prop :=
  (dictGet d k = none ∧ x = 0) ∨ (∃ s, dictGet d k = some (.str s) ∧ F s = some x) ∨ ∃ n : Nat, dictGet d k = some (.int n) ∧ x = n

/-- `v` limited to an interval. -/
def Limited (v lo hi r : ℝ) : Prop := (v ≤ lo → r = lo) ∧ (hi ≤ v → r = hi) ∧ (lo ≤ v → v ≤ hi → r = v)

/-- The same direction around a circle. -/
def SameTurn (a b : ℝ) : Prop := ∃ k : Int, a = b + 360 * k

/-- The sky gives right ascensions and declinations in their usual ranges. -/
def Heavens.Usual (S : Heavens) : Prop := ∀ t n p, 0 ≤ (S.toEq t n p).1 ∧ (S.toEq t n p).1 ≤ 360 ∧ -90 ≤ (S.toEq t n p).2 ∧ (S.toEq t n p).2 ≤ 90

/-! ## Steps -/

theorem constrain_limited {lo hi : ℝ} (h : lo ≤ hi) (v : ℝ) : Limited v lo hi (constrain v lo hi) := by
  unfold constrain
  refine ⟨fun a => ?_, fun a => ?_, fun a b => ?_⟩
  · rcases a.lt_or_eq with a | a
    · rw [if_pos a]
    · subst a
      rw [if_neg (lt_irrefl _), if_neg (not_lt.2 h)]
  · rw [if_neg (not_lt.2 (h.trans a))]
    rcases a.lt_or_eq with a | a
    · rw [if_pos a]
    · subst a
      rw [if_neg (lt_irrefl _)]
  · rw [if_neg (not_lt.2 a), if_neg (not_lt.2 b)]

theorem constrain_range {lo hi : ℝ} (h : lo ≤ hi) (v : ℝ) : lo ≤ constrain v lo hi ∧ constrain v lo hi ≤ hi := by
  unfold constrain
  split_ifs with a b
  · exact ⟨le_rfl, h⟩
  · exact ⟨h, le_rfl⟩
  · exact ⟨not_lt.1 a, not_lt.1 b⟩

theorem constrain_in {lo hi v : ℝ} (a : lo ≤ v) (b : v ≤ hi) : constrain v lo hi = v := (constrain_limited (a.trans b) v).2.2 a b

theorem item_some {d : Props} {k : Str} {v : PVal} (h : dictGet d k = some v) : item d k = .ok v := by
  unfold item
  rw [h]
  rfl

theorem offset_of {F : Str → Option ℚ} {d : Props} {k : Str} {x : ℚ} (h : Offset F d k x) : offset F d k = .ok (x : ℝ) := by
  unfold offset
  rcases h with ⟨h, rfl⟩ | ⟨s, h, hs⟩ | ⟨n, h, rfl⟩
  · rw [h]
    show Except.ok (0 : ℝ) = _
    rw [Rat.cast_zero]
  · rw [h]
    show (F s).elim _ _ = _
    rw [hs]
    rfl
  · rw [h]
    show Except.ok (n : ℝ) = _
    rw [Rat.cast_natCast]

theorem angles_of {F : Str → Option ℚ} {d : Props} {a b : ℚ} (h : Angles F d a b) : anglesOf F d = .ok ((a : ℝ), (b : ℝ)) := by
  obtain ⟨s, s', h1, h2, h3, h4⟩ := h
  unfold anglesOf
  rw [item_some h1, item_some h3]
  have e1 : angleOf F (.angle s) = .ok (a : ℝ) := by
    show (F s).elim _ _ = _
    rw [h2]
    rfl
  have e2 : angleOf F (.angle s') = .ok (b : ℝ) := by
    show (F s').elim _ _ = _
    rw [h4]
    rfl
  show (angleOf F (.angle s)).bind (fun a => (angleOf F (.angle s')).map fun b => (a, b)) = _
  rw [e1, e2]
  rfl

theorem withFile_none {d : Props} (h : dictGet d "azelFile".toList = none) : withFile d = d := by
  have hno : ¬ has d "azelFile".toList = true := by
    unfold has
    rw [h]
    exact fun e => nomatch e
  unfold withFile
  rw [if_neg hno]

theorem center_of {F : Str → Option ℚ} {S : Heavens} {d : Props} {n : ℚ} {t ty : Str} (h : Starts d t) (hd : Directed d ty) :
    pointingCenter F S d n = (position F S d t n ty).map fun p => (p, ty) := by
  obtain ⟨s, hs, hl⟩ := hd
  unfold pointingCenter
  rw [item_some h.start, withFile_none h.file, item_some hs]
  show Except.map (fun p => (p, lower s)) (position F S d t n (lower s)) = _
  rw [hl]

theorem shiftEq_of {F : Str → Option ℚ} {d : Props} {x y : ℚ} (hx : Offset F d "decal_ra".toList x) (hy : Offset F d "decal_dec".toList y) (p : ℝ × ℝ) :
    shiftEq F d p = .ok (constrain (p.1 + x) 0 360, constrain (p.2 + y) (-90) 90) := by
  unfold shiftEq
  rw [offset_of hx, offset_of hy]
  rfl

theorem shiftAz_of {F : Str → Option ℚ} {S : Heavens} {d : Props} {t : Str} {n x y : ℚ} (hx : Offset F d "decal_az".toList x) (hy : Offset F d "decal_el".toList y) (p : ℝ × ℝ) :
    shiftAz F S d t n p = .ok (S.toEq t n (constrain (p.1 + x) 0 360, constrain (p.2 + y) 0 90)) := by
  unfold shiftAz
  rw [offset_of hx, offset_of hy]
  rfl

theorem has_none {d : Props} {k : Str} (h : dictGet d k = none) : has d k = false := by
  unfold has
  rw [h]
  rfl

theorem has_some {d : Props} {k : Str} {v : PVal} (h : dictGet d k = some v) : has d k = true := by
  unfold has
  rw [h]
  rfl

theorem moved_none {F : Str → Option ℚ} {S : Heavens} {d : Props} {t : Str} {n : ℚ} (h1 : dictGet d "decal_az".toList = none) (h2 : dictGet d "decal_el".toList = none) (p : ℝ × ℝ) :
    moved F S d t n p = .ok p := by
  unfold moved
  rw [has_none h1, has_none h2]
  rfl

theorem moved_some {F : Str → Option ℚ} {S : Heavens} {d : Props} {t : Str} {n : ℚ} (h : dictGet d "decal_az".toList ≠ none ∨ dictGet d "decal_el".toList ≠ none) (p : ℝ × ℝ) :
    moved F S d t n p = shiftAz F S d t n (S.toAz t n p) := by
  have hh : (has d "decal_az".toList || has d "decal_el".toList) = true := by
    rcases h with h | h
    · obtain ⟨v, hv⟩ := Option.ne_none_iff_exists'.1 h
      rw [has_some hv]
      rfl
    · obtain ⟨v, hv⟩ := Option.ne_none_iff_exists'.1 h
      rw [has_some hv, Bool.or_true]
  unfold moved
  rw [if_pos hh]

theorem position_j {F : Str → Option ℚ} {S : Heavens} {d : Props} {t : Str} {n : ℚ} :
    position F S d t n "j2000".toList = (anglesOf F d).bind fun p => (moved F S d t n p).bind fun q => (shiftEq F d q).map some := by
  unfold position
  rw [if_pos rfl]

theorem position_az {F : Str → Option ℚ} {S : Heavens} {d : Props} {t : Str} {n : ℚ} :
    position F S d t n "azelgeo".toList = (anglesOf F d).bind fun p => (shiftAz F S d t n p).bind fun q => (shiftEq F d q).map some := by
  have h : ¬ "azelgeo".toList = "j2000".toList := by decide +kernel
  unfold position
  rw [if_neg h, if_pos rfl]

theorem position_file {F : Str → Option ℚ} {S : Heavens} {d : Props} {t : Str} {n : ℚ} :
    position F S d t n "azelgeo_azelfile".toList = .ok (some (S.toEq t n (0, 90))) := by
  have h : ¬ "azelgeo_azelfile".toList = "j2000".toList := by decide +kernel
  have h' : ¬ "azelgeo_azelfile".toList = "azelgeo".toList := by decide +kernel
  unfold position
  rw [if_neg h, if_neg h', if_pos rfl]

theorem position_natif {F : Str → Option ℚ} {S : Heavens} {d : Props} {t : Str} {n : ℚ} : position F S d t n "natif".toList = .ok none := by
  have h : ¬ "natif".toList = "j2000".toList := by decide +kernel
  have h' : ¬ "natif".toList = "azelgeo".toList := by decide +kernel
  have h'' : ¬ "natif".toList = "azelgeo_azelfile".toList := by decide +kernel
  unfold position
  rw [if_neg h, if_neg h', if_neg h'', if_pos rfl]

/-- The types of directions which are not bodies. -/
def notBodies : List Str := ["j2000".toList, "azelgeo".toList, "azelgeo_azelfile".toList, "natif".toList]

theorem position_body {F : Str → Option ℚ} {S : Heavens} {d : Props} {t ty : Str} {n : ℚ} (h : ty ∉ notBodies) :
    position F S d t n ty = (S.body ty t n).elim (.error .keyError) fun p => (moved F S d t n p).bind fun q => (shiftEq F d q).map some := by
  have h1 : ¬ ty = "j2000".toList := fun e => h (e ▸ by simp [notBodies])
  have h2 : ¬ ty = "azelgeo".toList := fun e => h (e ▸ by simp [notBodies])
  have h3 : ¬ ty = "azelgeo_azelfile".toList := fun e => h (e ▸ by simp [notBodies])
  have h4 : ¬ ty = "natif".toList := fun e => h (e ▸ by simp [notBodies])
  unfold position
  rw [if_neg h1, if_neg h2, if_neg h3, if_neg h4]

/-! ## C128 Directions without a change of frame -/

/-- **C128**, equatorial blocks without offsets in azimuth and elevation: the angles of the block plus the offsets, each limited to
its range. -/
theorem center_equatorial {F : Str → Option ℚ} {S : Heavens} {d : Props} {t : Str} {n a b x y : ℚ} (h : Starts d t) (hd : Directed d "j2000".toList)
    (ha : Angles F d a b) (h1 : dictGet d "decal_az".toList = none) (h2 : dictGet d "decal_el".toList = none)
    (hx : Offset F d "decal_ra".toList x) (hy : Offset F d "decal_dec".toList y) :
    ∃ r s, pointingCenter F S d n = .ok (some (r, s), "j2000".toList) ∧ Limited (a + x) 0 360 r ∧ Limited (b + y) (-90) 90 s := by
  refine ⟨_, _, ?_, constrain_limited (by norm_num) _, constrain_limited (by norm_num) _⟩
  rw [center_of h hd, position_j, angles_of ha]
  show Except.map _ ((moved F S d t n _).bind _) = _
  rw [moved_none h1 h2]
  show Except.map _ ((shiftEq F d _).map some) = _
  rw [shiftEq_of hx hy]
  rfl

/-- **C128**: exact as long as no limit is reached. -/
theorem center_equatorial_partial {F : Str → Option ℚ} {S : Heavens} {d : Props} {t : Str} {n a b x y : ℚ} (h : Starts d t) (hd : Directed d "j2000".toList)
    (ha : Angles F d a b) (h1 : dictGet d "decal_az".toList = none) (h2 : dictGet d "decal_el".toList = none)
    (hx : Offset F d "decal_ra".toList x) (hy : Offset F d "decal_dec".toList y)
    (r : (0 : ℝ) ≤ a + x ∧ (a : ℝ) + x ≤ 360) (s : -90 ≤ (b : ℝ) + y ∧ (b : ℝ) + y ≤ 90) :
    pointingCenter F S d n = .ok (some ((a : ℝ) + x, (b : ℝ) + y), "j2000".toList) := by
  obtain ⟨u, v, e, hu, hv⟩ := center_equatorial (S := S) (n := n) h hd ha h1 h2 hx hy
  rw [e, hu.2.2 r.1 r.2, hv.2.2 s.1 s.2]

/-- **C128** fails for offsets across the origin of right ascensions: the recorded value is 360 or 0 degrees, which is not the
direction of the block. -/
theorem ra_wrap_violated {F : Str → Option ℚ} {S : Heavens} {d : Props} {t : Str} {n a b x y : ℚ} (h : Starts d t) (hd : Directed d "j2000".toList)
    (ha : Angles F d a b) (h1 : dictGet d "decal_az".toList = none) (h2 : dictGet d "decal_el".toList = none)
    (hx : Offset F d "decal_ra".toList x) (hy : Offset F d "decal_dec".toList y)
    (hr : (360 < (a : ℝ) + x ∧ (a : ℝ) + x < 720) ∨ (-360 < (a : ℝ) + x ∧ (a : ℝ) + x < 0)) :
    ∃ r s, pointingCenter F S d n = .ok (some (r, s), "j2000".toList) ∧ (r = 360 ∨ r = 0) ∧ ¬ SameTurn r (a + x) := by
  obtain ⟨r, s, e, hu, -⟩ := center_equatorial (S := S) (n := n) h hd ha h1 h2 hx hy
  refine ⟨r, s, e, ?_⟩
  rcases hr with ⟨u, v⟩ | ⟨u, v⟩
  · have hr := hu.2.1 u.le
    refine ⟨.inl hr, fun ⟨k, hk⟩ => ?_⟩
    rw [hr] at hk
    have k1 : (-1 : ℝ) < k := by linarith
    have k2 : (k : ℝ) < 0 := by linarith
    have k1' : (-1 : Int) < k := by exact_mod_cast k1
    have k2' : k < 0 := by exact_mod_cast k2
    omega
  · have hr := hu.1 v.le
    refine ⟨.inr hr, fun ⟨k, hk⟩ => ?_⟩
    rw [hr] at hk
    have k1 : (0 : ℝ) < k := by linarith
    have k2 : (k : ℝ) < 1 := by linarith
    have k1' : 0 < k := by exact_mod_cast k1
    have k2' : k < 1 := by exact_mod_cast k2
    omega

/-! ## C128 Directions in horizontal coordinates -/

/-- **C128**, blocks which follow azimuth and elevation: the direction at the middle of the block. -/
theorem center_horizontal {F : Str → Option ℚ} {S : Heavens} {d : Props} {t : Str} {n a b x y : ℚ} (hS : S.Usual) (h : Starts d t) (hd : Directed d "azelgeo".toList)
    (ha : Angles F d a b) (hx : Offset F d "decal_az".toList x) (hy : Offset F d "decal_el".toList y)
    (h1 : dictGet d "decal_ra".toList = none) (h2 : dictGet d "decal_dec".toList = none) :
    ∃ r s, pointingCenter F S d n = .ok (some (S.toEq t n (r, s)), "azelgeo".toList) ∧ Limited (a + x) 0 360 r ∧ Limited (b + y) 0 90 s := by
  refine ⟨_, _, ?_, constrain_limited (by norm_num) _, constrain_limited (by norm_num) _⟩
  rw [center_of h hd, position_az, angles_of ha]
  show Except.map _ ((shiftAz F S d t n _).bind _) = _
  rw [shiftAz_of hx hy]
  show Except.map _ ((shiftEq F d _).map some) = _
  rw [shiftEq_of (.inl ⟨h1, rfl⟩) (.inl ⟨h2, rfl⟩), Rat.cast_zero, add_zero, add_zero]
  have hu := hS t n (constrain ((a : ℝ) + x) 0 360, constrain ((b : ℝ) + y) 0 90)
  rw [constrain_in hu.1 hu.2.1, constrain_in hu.2.2.1 hu.2.2.2]
  rfl

/-- **C128**: exact as long as no limit is reached. -/
theorem center_horizontal_partial {F : Str → Option ℚ} {S : Heavens} {d : Props} {t : Str} {n a b x y : ℚ} (hS : S.Usual) (h : Starts d t) (hd : Directed d "azelgeo".toList)
    (ha : Angles F d a b) (hx : Offset F d "decal_az".toList x) (hy : Offset F d "decal_el".toList y)
    (h1 : dictGet d "decal_ra".toList = none) (h2 : dictGet d "decal_dec".toList = none)
    (r : (0 : ℝ) ≤ a + x ∧ (a : ℝ) + x ≤ 360) (s : (0 : ℝ) ≤ b + y ∧ (b : ℝ) + y ≤ 90) :
    pointingCenter F S d n = .ok (some (S.toEq t n ((a : ℝ) + x, (b : ℝ) + y)), "azelgeo".toList) := by
  obtain ⟨u, v, e, hu, hv⟩ := center_horizontal (S := S) (n := n) hS h hd ha hx hy h1 h2
  rw [e, hu.2.2 r.1 r.2, hv.2.2 s.1 s.2]

/-- **C128** fails for offsets across the north: the recorded direction is that of the north, whatever the offset, which is not that
of the azimuth asked for (for any sky where the two differ). -/
theorem azimuth_wrap_violated {F : Str → Option ℚ} {S : Heavens} {d : Props} {t : Str} {n a b x : ℚ} (hS : S.Usual) (h : Starts d t) (hd : Directed d "azelgeo".toList)
    (ha : Angles F d a b) (hx : Offset F d "decal_az".toList x) (h0 : dictGet d "decal_el".toList = none)
    (h1 : dictGet d "decal_ra".toList = none) (h2 : dictGet d "decal_dec".toList = none) (hb : (0 : ℝ) ≤ b ∧ (b : ℝ) ≤ 90)
    (hr : 360 < (a : ℝ) + x) (hs : S.toEq t n (360, b) ≠ S.toEq t n ((a : ℝ) + x - 360, b)) :
    pointingCenter F S d n = .ok (some (S.toEq t n (360, b)), "azelgeo".toList) ∧
    pointingCenter F S d n ≠ .ok (some (S.toEq t n ((a : ℝ) + x - 360, b)), "azelgeo".toList) := by
  obtain ⟨r, s, e, hu, hv⟩ := center_horizontal (S := S) (n := n) hS h hd ha hx (.inl ⟨h0, rfl⟩) h1 h2
  rw [Rat.cast_zero, add_zero] at hv
  rw [hu.2.1 hr.le, hv.2.2 hb.1 hb.2] at e
  rw [e]
  exact ⟨rfl, fun k => hs (by injection k with k; injection k with k _; injection k)⟩

/-- **C128** fails for equatorial blocks below the horizon at their middle: an offset of zero, which asks for nothing, moves the
recorded direction to the horizon (for any sky where points of the horizon are on the horizon). -/
theorem zero_offset_violated {F : Str → Option ℚ} {S : Heavens} {d : Props} {t : Str} {n a b : ℚ} {v : PVal} (hS : S.Usual)
    (hi : ∀ z, 0 ≤ z → z ≤ 360 → (S.toAz t n (S.toEq t n (z, 0))).2 = 0)
    (h : Starts d t) (hd : Directed d "j2000".toList) (ha : Angles F d a b)
    (hx : dictGet d "decal_az".toList = some v ∧ Offset F d "decal_az".toList 0) (hy : dictGet d "decal_el".toList = none)
    (h1 : dictGet d "decal_ra".toList = none) (h2 : dictGet d "decal_dec".toList = none)
    (hz : 0 ≤ (S.toAz t n ((a : ℝ), (b : ℝ))).1 ∧ (S.toAz t n ((a : ℝ), (b : ℝ))).1 ≤ 360) (he : (S.toAz t n ((a : ℝ), (b : ℝ))).2 < 0) :
    ∃ p, pointingCenter F S d n = .ok (some p, "j2000".toList) ∧ (S.toAz t n p).2 = 0 ∧ p ≠ ((a : ℝ), (b : ℝ)) := by
  refine ⟨S.toEq t n ((S.toAz t n ((a : ℝ), (b : ℝ))).1, 0), ?_, ?_, ?_⟩
  · rw [center_of h hd, position_j, angles_of ha]
    show Except.map _ ((moved F S d t n _).bind _) = _
    rw [moved_some (.inl (by rw [hx.1]; exact fun e => nomatch e)), shiftAz_of hx.2 (.inl ⟨hy, rfl⟩)]
    show Except.map _ ((shiftEq F d _).map some) = _
    rw [shiftEq_of (.inl ⟨h1, rfl⟩) (.inl ⟨h2, rfl⟩), Rat.cast_zero, add_zero, add_zero, add_zero, add_zero, constrain_in hz.1 hz.2,
      (constrain_limited (show (0 : ℝ) ≤ 90 by norm_num) _).1 he.le]
    have hu := hS t n ((S.toAz t n ((a : ℝ), (b : ℝ))).1, 0)
    rw [constrain_in hu.1 hu.2.1, constrain_in hu.2.2.1 hu.2.2.2]
    rfl
  · exact hi _ hz.1 hz.2
  · intro e
    have k := hi _ hz.1 hz.2
    rw [e] at k
    exact absurd k he.ne

/-- **C128**: with an offset in azimuth or elevation, an equatorial block above the horizon keeps its direction, moved by the offset
in the horizontal frame. -/
theorem center_moved_partial {F : Str → Option ℚ} {S : Heavens} {d : Props} {t : Str} {n a b x y : ℚ} (hS : S.Usual)
    (h : Starts d t) (hd : Directed d "j2000".toList) (ha : Angles F d a b)
    (hx : Offset F d "decal_az".toList x) (hy : Offset F d "decal_el".toList y) (hg : dictGet d "decal_az".toList ≠ none ∨ dictGet d "decal_el".toList ≠ none)
    (h1 : dictGet d "decal_ra".toList = none) (h2 : dictGet d "decal_dec".toList = none) {z e : ℝ} (hz : S.toAz t n ((a : ℝ), (b : ℝ)) = (z, e))
    (r : 0 ≤ z + x ∧ z + x ≤ 360) (s : 0 ≤ e + y ∧ e + y ≤ 90) :
    pointingCenter F S d n = .ok (some (S.toEq t n (z + x, e + y)), "j2000".toList) := by
  rw [center_of h hd, position_j, angles_of ha]
  show Except.map _ ((moved F S d t n _).bind _) = _
  rw [moved_some hg, shiftAz_of hx hy, hz]
  show Except.map _ ((shiftEq F d _).map some) = _
  dsimp only
  rw [shiftEq_of (.inl ⟨h1, rfl⟩) (.inl ⟨h2, rfl⟩), Rat.cast_zero, add_zero, add_zero, constrain_in r.1 r.2, constrain_in s.1 s.2]
  have hu := hS t n (z + x, e + y)
  rw [constrain_in hu.1 hu.2.1, constrain_in hu.2.2.1 hu.2.2.2]
  rfl

/-! ## C128 Bodies, files and tests -/

/-- **C128**: a body of the solar system is recorded where it is at the middle of the block. -/
theorem center_body {F : Str → Option ℚ} {S : Heavens} {d : Props} {t ty : Str} {n : ℚ} {p : ℝ × ℝ} (h : Starts d t) (hd : Directed d ty) (hb : ty ∉ notBodies)
    (hp : S.body ty t n = some p) (hr : 0 ≤ p.1 ∧ p.1 ≤ 360 ∧ -90 ≤ p.2 ∧ p.2 ≤ 90)
    (h0 : dictGet d "decal_az".toList = none) (h0' : dictGet d "decal_el".toList = none)
    (h1 : dictGet d "decal_ra".toList = none) (h2 : dictGet d "decal_dec".toList = none) :
    pointingCenter F S d n = .ok (some p, ty) := by
  rw [center_of h hd, position_body hb, hp]
  show Except.map _ ((moved F S d t n p).bind _) = _
  rw [moved_none h0 h0']
  show Except.map _ ((shiftEq F d p).map some) = _
  rw [shiftEq_of (.inl ⟨h1, rfl⟩) (.inl ⟨h2, rfl⟩), Rat.cast_zero, add_zero, add_zero, constrain_in hr.1 hr.2.1, constrain_in hr.2.2.1 hr.2.2.2]
  rfl

/-- **C128**: a type of direction which is not known is refused. -/
theorem center_refused {F : Str → Option ℚ} {S : Heavens} {d : Props} {t ty : Str} {n : ℚ} (h : Starts d t) (hd : Directed d ty) (hb : ty ∉ notBodies)
    (hp : S.body ty t n = none) : pointingCenter F S d n = .error .keyError := by
  rw [center_of h hd, position_body hb, hp]
  rfl

/-- **C128**: a test has no direction, whatever its angles and offsets. -/
theorem center_natif {F : Str → Option ℚ} {S : Heavens} {d : Props} {t : Str} {n : ℚ} (h : Starts d t) (hd : Directed d "natif".toList) :
    pointingCenter F S d n = .ok (none, "natif".toList) := by
  rw [center_of h hd, position_natif]
  rfl

theorem withFile_get {d : Props} {v : PVal} (h : dictGet d "azelFile".toList = some v) (k : Str) :
    dictGet (withFile d) k = if k = "directionType".toList then some (.str "azelgeo_azelfile".toList) else dictGet d k := by
  unfold withFile
  rw [if_pos (has_some h), dictGet_set]

/-- **C128** fails for blocks which follow a file: the zenith is recorded, whatever the file, the angles, the offsets and the type of
direction. -/
theorem azelfile_violated {F : Str → Option ℚ} {S : Heavens} {d : Props} {t : Str} {n : ℚ} {v : PVal} (h : dictGet d "startTime".toList = some (.time t))
    (hf : dictGet d "azelFile".toList = some v) : pointingCenter F S d n = .ok (some (S.toEq t n (0, 90)), "azelgeo_azelfile".toList) := by
  have hl : lower "azelgeo_azelfile".toList = "azelgeo_azelfile".toList := by decide +kernel
  have hg := withFile_get hf "directionType".toList
  rw [if_pos rfl] at hg
  unfold pointingCenter
  rw [item_some h, item_some hg]
  show Except.map (fun p => (p, lower "azelgeo_azelfile".toList)) (position F S (withFile d) t n (lower "azelgeo_azelfile".toList)) = _
  rw [hl, position_file]
  rfl

/-- **C128**: the export changes the type of direction of such a block, and nothing else; a second export gives the same result. -/
theorem azelfile_changed {F : Str → Option ℚ} {S : Heavens} {d : Props} {n : ℚ} :
    (dictGet d "azelFile".toList = none → withFile d = d) ∧
    (∀ k, k ≠ "directionType".toList → dictGet (withFile d) k = dictGet d k) ∧ pointingCenter F S (withFile d) n = pointingCenter F S d n := by
  cases hf : dictGet d "azelFile".toList with
  | none =>
    have e := withFile_none hf
    rw [e]
    exact ⟨fun _ => rfl, fun _ _ => rfl, rfl⟩
  | some v =>
    have ho : ∀ k, k ≠ "directionType".toList → dictGet (withFile d) k = dictGet d k := fun k hk => by rw [withFile_get hf, if_neg hk]
    refine ⟨(fun e => nomatch e), ho, ?_⟩
    have hs : "startTime".toList ≠ "directionType".toList := by decide +kernel
    have ha : "azelFile".toList ≠ "directionType".toList := by decide +kernel
    have hs' : item (withFile d) "startTime".toList = item d "startTime".toList := by
      unfold item
      rw [ho _ hs]
    cases h : dictGet d "startTime".toList with
    | none =>
      have e : item d "startTime".toList = .error .keyError := by
        unfold item
        rw [h]
        rfl
      unfold pointingCenter
      rw [hs', e]
      rfl
    | some w =>
      cases w with
      | time t => rw [azelfile_violated h hf, azelfile_violated ((ho _ hs).trans h) ((ho _ ha).trans hf)]
      | _ =>
        unfold pointingCenter
        rw [hs', item_some h]
        rfl

/-- **C128**: whatever the block and its offsets, a recorded direction is in the ranges of right ascensions and declinations. -/
theorem center_range {F : Str → Option ℚ} {S : Heavens} {d : Props} {n : ℚ} (hS : S.Usual) {p : ℝ × ℝ} {ty : Str}
    (h : pointingCenter F S d n = .ok (some p, ty)) : 0 ≤ p.1 ∧ p.1 ≤ 360 ∧ -90 ≤ p.2 ∧ p.2 ≤ 90 := by
  have hE : ∀ {q : ℝ × ℝ} {r : Option (ℝ × ℝ)}, (shiftEq F (withFile d) q).map some = .ok r → r = some p → 0 ≤ p.1 ∧ p.1 ≤ 360 ∧ -90 ≤ p.2 ∧ p.2 ≤ 90 := by
    intro q r h e
    obtain ⟨w, hw, rfl⟩ := mapEx h
    injection e with e
    subst e
    unfold shiftEq at hw
    obtain ⟨x, -, hw⟩ := bindE hw
    obtain ⟨y, -, rfl⟩ := mapEx hw
    have a := constrain_range (show (0 : ℝ) ≤ 360 by norm_num) (q.1 + x)
    have b := constrain_range (show (-90 : ℝ) ≤ 90 by norm_num) (q.2 + y)
    exact ⟨a.1, a.2, b.1, b.2⟩
  unfold pointingCenter at h
  obtain ⟨v, -, h⟩ := bindE h
  obtain ⟨t, -, h⟩ := bindE h
  obtain ⟨w, -, h⟩ := bindE h
  obtain ⟨ty', -, h⟩ := bindE h
  obtain ⟨r, hr, h⟩ := mapEx h
  have er : r = some p := (Prod.mk.inj h).1
  by_cases h1 : ty' = "j2000".toList
  · rw [h1, position_j] at hr
    obtain ⟨_, -, hr⟩ := bindE hr
    obtain ⟨_, -, hr⟩ := bindE hr
    exact hE hr er
  by_cases h2 : ty' = "azelgeo".toList
  · rw [h2, position_az] at hr
    obtain ⟨_, -, hr⟩ := bindE hr
    obtain ⟨_, -, hr⟩ := bindE hr
    exact hE hr er
  by_cases h3 : ty' = "azelgeo_azelfile".toList
  · rw [h3, position_file] at hr
    injection hr with hr
    rw [← hr] at er
    injection er with er
    rw [← er]
    exact hS _ _ _
  by_cases h4 : ty' = "natif".toList
  · rw [h4, position_natif] at hr
    injection hr with hr
    rw [← hr] at er
    cases er
  · have hb : ty' ∉ notBodies := by
      intro e
      unfold notBodies at e
      rcases List.mem_cons.1 e with e | e
      · exact h1 e
      rcases List.mem_cons.1 e with e | e
      · exact h2 e
      rcases List.mem_cons.1 e with e | e
      · exact h3 e
      · exact h4 (List.mem_singleton.1 e)
    rw [position_body hb] at hr
    cases hb : S.body ty' t n with
    | none =>
      rw [hb] at hr
      cases hr
    | some q =>
      rw [hb] at hr
      obtain ⟨_, -, hr⟩ := bindE hr
      exact hE hr er

/-! ## The hypotheses can be met -/

/-- A block at 359 degrees with an offset of two degrees, numbers being read as their length. -/
def wrapBlock : Props :=
  [("startTime".toList, .time []), ("directionType".toList, .str "J2000".toList), ("angle1".toList, .angle ['a']), ("angle2".toList, .angle ['b']), ("decal_ra".toList, .int 2)]

/-- What `float` reads in this block. -/
def wrapFloat (s : Str) : Option ℚ := if s = ['a'] then some 359 else some 45

example : Starts wrapBlock [] ∧ Directed wrapBlock "j2000".toList ∧ Angles wrapFloat wrapBlock 359 45 ∧ dictGet wrapBlock "decal_az".toList = none ∧
    dictGet wrapBlock "decal_el".toList = none ∧ Offset wrapFloat wrapBlock "decal_ra".toList 2 ∧ Offset wrapFloat wrapBlock "decal_dec".toList 0 :=
  ⟨⟨by decide +kernel, by decide +kernel⟩, ⟨"J2000".toList, by decide +kernel, by decide +kernel⟩,
    ⟨['a'], ['b'], by decide +kernel, by decide +kernel, by decide +kernel, by decide +kernel⟩, by decide +kernel, by decide +kernel,
    .inr (.inr ⟨2, by decide +kernel, by norm_num⟩), .inl ⟨by decide +kernel, rfl⟩⟩

/-- A sky turned by nothing: angles are kept, within their ranges. -/
noncomputable def flatSky : Heavens where
  toAz _ _ p := p
  toEq _ _ p := (constrain p.1 0 360, constrain p.2 (-90) 90)
  body _ _ _ := none

example : flatSky.Usual := fun _ _ p =>
  have a := constrain_range (show (0 : ℝ) ≤ 360 by norm_num) p.1
  have b := constrain_range (show (-90 : ℝ) ≤ 90 by norm_num) p.2
  ⟨a.1, a.2, b.1, b.2⟩

example : flatSky.toEq [] 0 (360, 45) ≠ flatSky.toEq [] 0 ((359 : ℝ) + 2 - 360, 45) := by
  intro h
  have := (Prod.mk.inj h).1
  rw [constrain_in (by norm_num) (by norm_num), constrain_in (by norm_num) (by norm_num)] at this
  norm_num at this

end Verif.Parset
