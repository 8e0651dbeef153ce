import Verif.Geom.Rephase
import Verif.Geom.Props

/-!
# C153: phase centres of slices
-/

namespace Verif.Geom

open Real

/-! ## Specification -/

/-- Visibilities of a point source in direction `s`, one per time, phased towards the centre `c`. -/
noncomputable def observed (wl : ℝ) (bl : V3) (s : ℝ × ℝ) (lst : ℝ) (c : ℝ × ℝ) : ℂ := pointVis wl c s (uvw (lst - c.1) c.2 bl)

theorem turned_factor (wl : ℝ) (bl : V3) (b : ℝ × ℝ) (lst : ℝ) (a : ℝ × ℝ) : turned wl bl b lst a = factor wl a b (uvw (lst - a.1) a.2 bl) := rfl

/-- The factor from `a` to `b`, then from `b` to `c`. -/
theorem turned_compose (wl : ℝ) (bl : V3) (lst : ℝ) (a b c : ℝ × ℝ) : turned wl bl b lst a * turned wl bl c lst b = turned wl bl c lst a := by
  rw [turned_factor, turned_factor, turned_factor]
  exact (rephase_compose wl lst bl a b c).2

theorem turned_same (wl : ℝ) (bl : V3) (lst : ℝ) (a : ℝ × ℝ) : turned wl bl a lst a = 1 := (rephase_identity wl a.1 a.2 _).1

theorem turned_ne_zero (wl : ℝ) (bl : V3) (lst : ℝ) (a b : ℝ × ℝ) : turned wl bl b lst a ≠ 0 := Complex.exp_ne_zero _

theorem turned_source (wl : ℝ) (bl : V3) (s : ℝ × ℝ) (lst : ℝ) (a b : ℝ × ℝ) :
    observed wl bl s lst a * turned wl bl b lst a = observed wl bl s lst b := rephase_point_source wl lst bl a b s

/-! ## Property -/

/-- **C153**: `rephase` of a file gives one factor per time, by which data phased at the zenith of that time are turned to the new centre, and
the slice has this centre. -/
theorem file_rephase {H : Type} (wl : ℝ) (bl : V3) (lst : List ℝ) (toSky : List (H → ℝ × ℝ)) (h : H) (new s : ℝ × ℝ) (hl : lst.length = toSky.length) :
    ∃ r, rephaseFile wl bl lst toSky (.ground h) new = .ok r ∧ r.centre = new ∧ r.value.length = lst.length ∧
      ∀ (i : Nat) (hi : i < lst.length) (hr : i < r.value.length) (ht : i < toSky.length),
        observed wl bl s lst[i] (toSky[i] h) * r.value[i] = observed wl bl s lst[i] new := by
  refine ⟨_, rfl, rfl, by simp [hl], fun i hi hr ht => ?_⟩
  simp only [List.getElem_zipWith, List.getElem_map]
  exact turned_source wl bl s _ _ _

/-- **C153**: centres kept as one direction on the sky are turned from that direction. -/
theorem file_rephase_sky {H : Type} (wl : ℝ) (bl : V3) (lst : List ℝ) (toSky : List (H → ℝ × ℝ)) (c new s : ℝ × ℝ) (stored : Stored H)
    (hc : stored = .sky c ∨ stored = .perTime [c] ∧ toSky.length ≠ 1) (hl : lst.length = toSky.length) :
    ∃ r, rephaseFile wl bl lst toSky stored new = .ok r ∧ r.value.length = lst.length ∧
      ∀ (i : Nat) (hi : i < lst.length) (hr : i < r.value.length), observed wl bl s lst[i] c * r.value[i] = observed wl bl s lst[i] new := by
  have e : rephaseFile wl bl lst toSky stored new = .ok ⟨List.zipWith (turned wl bl new) lst (List.replicate toSky.length c), new⟩ := by
    rcases hc with rfl | ⟨rfl, h1⟩
    · rfl
    · unfold rephaseFile currentCentres
      dsimp only
      rw [if_neg (by simpa using fun h => h1 h.symm), if_pos (show [c].length = 1 from rfl)]
      rfl
  refine ⟨_, e, by simp [hl], fun i hi hr => ?_⟩
  simp only [List.getElem_zipWith, List.getElem_replicate]
  exact turned_source wl bl s _ _ _

/-- **C153** (violated): if the file has one phase centre per time, the new centre is taken for the current ones: nothing is turned. -/
theorem file_rephase_violated {H : Type} (wl : ℝ) (bl : V3) (lst : List ℝ) (toSky : List (H → ℝ × ℝ)) (l : List (ℝ × ℝ)) (new : ℝ × ℝ)
    (hl : lst.length = toSky.length) (hc : l.length = toSky.length) :
    rephaseFile wl bl lst toSky (.perTime l) new = .ok ⟨List.replicate lst.length 1, new⟩ := by
  unfold rephaseFile currentCentres
  dsimp only
  rw [if_pos hc]
  show Except.ok (PhSlice.mk (List.zipWith (turned wl bl new) lst (List.replicate toSky.length new)) new) = _
  rw [← hl]
  congr 2
  apply List.ext_getElem
  · simp
  · intro i h1 h2
    simp only [List.getElem_zipWith, List.getElem_replicate]
    exact turned_same wl bl _ _

/-- **C153**: other numbers of centres are refused. -/
theorem file_refused {H : Type} (wl : ℝ) (bl : V3) (lst : List ℝ) (toSky : List (H → ℝ × ℝ)) (stored : Stored H) (new : ℝ × ℝ) :
    (∃ e, rephaseFile wl bl lst toSky stored new = .error e) ↔ ∃ l, stored = .perTime l ∧ l.length ≠ toSky.length ∧ l.length ≠ 1 := by
  unfold rephaseFile
  cases stored with
  | ground h => exact ⟨(fun ⟨e, he⟩ => nomatch he), fun ⟨l, hl, _⟩ => nomatch hl⟩
  | sky c => exact ⟨(fun ⟨e, he⟩ => nomatch he), fun ⟨l, hl, _⟩ => nomatch hl⟩
  | perTime l =>
    unfold currentCentres
    dsimp only
    by_cases h1 : l.length = toSky.length
    · rw [if_pos h1]
      exact ⟨(fun ⟨e, he⟩ => nomatch he), fun ⟨m, hm, h, _⟩ => by cases hm; exact absurd h1 h⟩
    · rw [if_neg h1]
      by_cases h2 : l.length = 1
      · rw [if_pos h2]
        exact ⟨(fun ⟨e, he⟩ => nomatch he), fun ⟨m, hm, _, h⟩ => by cases hm; exact absurd h2 h⟩
      · rw [if_neg h2]
        exact ⟨fun _ => ⟨l, rfl, h1, h2⟩, fun _ => ⟨_, rfl⟩⟩

/-- **C153**: a slice at the zenith is imaged towards a centre with visibilities phased towards that centre. -/
theorem image_phased_partial (wl : ℝ) (bl : V3) (lst : List ℝ) (zenith : List (ℝ × ℝ)) (sl : PhSlice) (c s : ℝ × ℝ)
    (hv : sl.value = List.zipWith (observed wl bl s) lst zenith) (hl : lst.length = zenith.length) :
    sl.imaged wl bl lst zenith (some c) = lst.map (fun t => observed wl bl s t c) ∧
    ∀ (t : ℝ) (z : ℝ × ℝ), imageUvw bl (some c) t z = uvw (t - c.1) c.2 bl := by
  constructor
  · show List.zipWith (· * ·) sl.value (List.zipWith (turned wl bl c) lst zenith) = _
    rw [hv]
    apply List.ext_getElem
    · simp [hl]
    · intro i h1 h2
      simp only [List.getElem_zipWith, List.getElem_map]
      exact turned_source wl bl s _ _ _
  · intro t z
    exact (rephase_compose wl t bl z c c).1

/-- **C153** (violated): a slice which has been turned to the centre `a` is turned again from the zenith. What is found for the centre `b` is
the factor from `a` to `b` times that from the zenith to `a`; visibilities phased towards `a` become right ones only if the latter is one. -/
theorem slice_centre_violated (wl : ℝ) (bl : V3) (lst : ℝ) (z b s : ℝ × ℝ) (sl : PhSlice) :
    sl.factors wl bl [lst] [z] b = [turned wl bl sl.centre lst z * turned wl bl b lst sl.centre] ∧
    (∀ x ∈ sl.factors wl bl [lst] [z] b, observed wl bl s lst sl.centre * x = observed wl bl s lst b ↔ turned wl bl sl.centre lst z = 1) := by
  have e : sl.factors wl bl [lst] [z] b = [turned wl bl sl.centre lst z * turned wl bl b lst sl.centre] := by
    rw [turned_compose]
    rfl
  refine ⟨e, fun x hx => ?_⟩
  rw [e, List.mem_singleton] at hx
  have h1 := turned_source wl bl s lst sl.centre b
  have h0 : observed wl bl s lst b ≠ 0 := Complex.exp_ne_zero _
  rw [hx, mul_comm (turned wl bl sl.centre lst z), ← mul_assoc, h1]
  constructor
  · intro h
    exact mul_left_cancel₀ h0 (by rw [h, mul_one])
  · intro h
    rw [h, mul_one]

/-- **C153** (violated): the image of a slice of `rephase` towards its own centre turns it twice. -/
theorem image_twice_violated {H : Type} (wl : ℝ) (bl : V3) (lst : List ℝ) (toSky : List (H → ℝ × ℝ)) (h : H) (new : ℝ × ℝ) (r : PhSlice)
    (hr : rephaseFile wl bl lst toSky (.ground h) new = .ok r) :
    r.imaged wl bl lst (toSky.map fun f => f h) (some r.centre) = r.value.map fun x => x ^ 2 := by
  cases hr
  show List.zipWith (· * ·) (List.zipWith (turned wl bl new) lst (toSky.map fun f => f h))
    (List.zipWith (turned wl bl new) lst (toSky.map fun f => f h)) = _
  apply List.ext_getElem
  · simp
  · intro i h1 h2
    simp only [List.getElem_zipWith, List.getElem_map]
    ring

/-- **C153** (violated): the image of a slice, when no centre is asked, is made with the coordinates of the zenith wherever the slice is
phased. At the pixel of a source each baseline should contribute one: it contributes the factor from the zenith to the centre of the slice. -/
theorem image_zenith_violated (wl : ℝ) (bl : V3) (lst : ℝ) (z s : ℝ × ℝ) (sl : PhSlice) (hv : sl.value = [observed wl bl s lst sl.centre])
    (h : 0 ≤ sin s.2 * sin z.2 + cos s.2 * cos z.2 * cos (s.1 - z.1)) :
    (sl.imaged wl bl [lst] [z] none).map (fun v => v * Complex.exp (-2 * Complex.I * (π : ℂ) * ((dot (imageUvw bl none lst z)
      ⟨(lmn s.1 s.2 z.1 z.2).x, (lmn s.1 s.2 z.1 z.2).y, (lmn s.1 s.2 z.1 z.2).z - 1⟩ / wl : ℝ) : ℂ))) = [turned wl bl sl.centre lst z] := by
  show sl.value.map _ = _
  rw [hv, List.map_singleton]
  have h1 := image_focus wl z s (uvw (lst - z.1) z.2 bl) h
  have h2 := turned_source wl bl s lst z sl.centre
  congr 1
  rw [← h2]
  unfold observed
  show pointVis wl z s (uvw (lst - z.1) z.2 bl) * _ * Complex.exp (-2 * Complex.I * (π : ℂ) * ((dot (uvw (lst - z.1) z.2 bl) _ / wl : ℝ) : ℂ)) = _
  rw [mul_right_comm, h1, one_mul]

/-! ## The hypotheses can be met -/

/-- A baseline along the axis of the pole: the zenith at the pole sees it along its third coordinate, a centre on the equator does not. -/
example : uvw (0 - 0) (π / 2) ⟨0, 0, 1⟩ ≠ uvw (0 - 0) 0 ⟨0, 0, 1⟩ := by
  intro h
  have := congrArg V3.z h
  simp [uvw, uvwMatrix, mulVec, neg, dot] at this

/-- From the pole to the equator that baseline, of half a wavelength, is turned by half a turn. -/
example : turned 2 ⟨0, 0, 1⟩ (0, 0) 0 (0, π / 2) = -1 := by
  have e : rephasePhase (visMatrix 0 (π / 2)) (visMatrix 0 0) (uvw (0 - 0) (π / 2) ⟨0, 0, 1⟩) = -1 := by
    simp [rephasePhase, visMatrix, uvw, uvwMatrix, mulVec, vecMul, transpose, neg, dot, sub]
  unfold turned rephaseFactor
  rw [e]
  rw [show (2 * Complex.I * (π : ℂ) * (((-1 : ℝ)) : ℂ) / ((2 : ℝ) : ℂ)) = -(π * Complex.I) by push_cast; ring, Complex.exp_neg, Complex.exp_pi_mul_I]
  norm_num

example : ([0, 1] : List ℝ).length = ([fun _ => (0, π / 2), fun _ => (0, π / 2)] : List (Unit → ℝ × ℝ)).length := rfl

end Verif.Geom
