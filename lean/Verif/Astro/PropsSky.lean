import Verif.Astro.Sky
import Mathlib.Tactic.Linarith
import Mathlib.Tactic.Ring
import Mathlib.Tactic.FieldSimp

/-!
# Skies (property C67)
-/

namespace Verif.Astro

/-- Specification: the values a user sees. -/
def World.vals? (w : World) (i : Nat) : Option (List ℚ) := (w.arr? i).map Arr.vals

/-- Specification: the values of a sky have the shape of its axes. -/
def Shaped (w : World) (i : Nat) : Prop :=
  ∃ s a, w.skies[i]? = some s ∧ w.arrs[s.ref]? = some a ∧ a.shape = s.dims ∧ a.vals.length = s.dims.size

/-- All skies are so. -/
def AllShaped (w : World) : Prop := ∀ i, i < w.skies.length → Shaped w i

theorem arr_of {w : World} {i : Nat} {s : SkyObj} {a : Arr} (hs : w.skies[i]? = some s) (ha : w.arrs[s.ref]? = some a) :
    w.arr? i = some a := by
  unfold World.arr?
  rw [hs]
  exact ha

theorem skyMul_eq {w : World} {i : Nat} {x : Factor} {s : SkyObj} {a : Arr} {ys : List ℚ} (hs : w.skies[i]? = some s)
    (ha : w.arrs[s.ref]? = some a) (hy : factorVals w a.shape x = some ys) (hd : a.shape = s.dims) :
    skyMul w i x = (⟨(augment w s a (· * ·) ys).1, w.skies ++ [{ s with ref := (augment w s a (· * ·) ys).2 }]⟩, .ok w.skies.length) := by
  unfold skyMul
  rw [hs, arr_of hs ha]
  simp only [hy]
  unfold setRef
  rw [if_neg (by simp [hd])]

theorem skyDiv_eq {w : World} {i : Nat} {x : Factor} {s : SkyObj} {a : Arr} {ys : List ℚ} (hs : w.skies[i]? = some s)
    (ha : w.arrs[s.ref]? = some a) (hy : factorVals w a.shape x = some ys) (hd : a.shape = s.dims) :
    skyDiv w i x = (⟨(augment w s a (· / ·) ys).1, w.skies.set i { s with ref := (augment w s a (· / ·) ys).2 }⟩, .ok i) := by
  unfold skyDiv
  rw [hs, arr_of hs ha]
  simp only [hy]
  unfold setRef
  rw [if_neg (by simp [hd])]

/-- The array written by an augmented assignment is where the setter is told. -/
theorem augment_at (w : World) (s : SkyObj) (a : Arr) (op : ℚ → ℚ → ℚ) (ys : List ℚ) (ha : w.arrs[s.ref]? = some a) :
    (augment w s a op ys).1[(augment w s a op ys).2]? = some (a.zip op ys) := by
  unfold augment
  obtain ⟨h, _⟩ := List.getElem?_eq_some_iff.1 ha
  split_ifs
  · simp
  · simp [h]

/-- **C67**: the product has the values of the operand times the factor. -/
theorem mul_values {w : World} {i : Nat} {x : Factor} {s : SkyObj} {a : Arr} {ys : List ℚ} (hs : w.skies[i]? = some s)
    (ha : w.arrs[s.ref]? = some a) (hy : factorVals w a.shape x = some ys) (hd : a.shape = s.dims) :
    (skyMul w i x).2 = .ok w.skies.length ∧ (skyMul w i x).1.vals? w.skies.length = some (List.zipWith (· * ·) a.vals ys) := by
  rw [skyMul_eq hs ha hy hd]
  refine ⟨rfl, ?_⟩
  unfold World.vals? World.arr?
  simp only [List.getElem?_concat_length, Option.bind_some]
  rw [augment_at w s a _ ys ha]
  rfl

/-- **C67**, for values held by dask: the product leaves every sky as it was. -/
theorem mul_pure_partial {w : World} {i : Nat} {x : Factor} {s : SkyObj} {a : Arr} {ys : List ℚ} (hs : w.skies[i]? = some s)
    (ha : w.arrs[s.ref]? = some a) (hy : factorVals w a.shape x = some ys) (hd : a.shape = s.dims) (hl : a.isDask = true)
    (hw : AllShaped w) : ∀ k, k < w.skies.length → (skyMul w i x).1.vals? k = w.vals? k := by
  intro k hk
  rw [skyMul_eq hs ha hy hd]
  obtain ⟨sk, ak, h1, h2, _, _⟩ := hw k hk
  unfold World.vals? World.arr? augment
  rw [if_pos hl]
  simp only [List.getElem?_append_left hk, h1, Option.bind_some]
  obtain ⟨h3, _⟩ := List.getElem?_eq_some_iff.1 h2
  rw [List.getElem?_append_left h3]

example : ∃ (w : World) (s : SkyObj) (a : Arr), w.skies[0]? = some s ∧ w.arrs[s.ref]? = some a ∧ factorVals w a.shape (.sky 0) = some [3, 4] ∧
    a.shape = s.dims ∧ a.isDask = true ∧ AllShaped w := by
  refine ⟨⟨[⟨⟨1, 1, 1, 2⟩, [3, 4], true⟩], [⟨⟨1, 1, 1, 2⟩, 0⟩]⟩, _, _, rfl, rfl, rfl, rfl, rfl, ?_⟩
  intro i hi
  have : i = 0 := Nat.lt_one_iff.1 hi
  subst this
  exact ⟨_, _, rfl, rfl, rfl, rfl⟩

/-- **C67** fails for all values held by numpy: the operand of a product takes the values of the product. -/
theorem mul_operand_violated {w : World} {i : Nat} {x : Factor} {s : SkyObj} {a : Arr} {ys : List ℚ} (hs : w.skies[i]? = some s)
    (ha : w.arrs[s.ref]? = some a) (hy : factorVals w a.shape x = some ys) (hd : a.shape = s.dims) (hl : a.isDask = false) :
    (skyMul w i x).1.vals? i = some (List.zipWith (· * ·) a.vals ys) := by
  rw [skyMul_eq hs ha hy hd]
  obtain ⟨hi, _⟩ := List.getElem?_eq_some_iff.1 hs
  obtain ⟨hr, _⟩ := List.getElem?_eq_some_iff.1 ha
  unfold World.vals? World.arr? augment
  rw [if_neg (by simp [hl])]
  simp only [List.getElem?_append_left hi, hs, Option.bind_some]
  rw [List.getElem?_set_self hr]
  rfl

/-- Concretely: twice a sky of value one turns it into a sky of value two. -/
theorem mul_violated : (skyMul (skyNew ⟨[], []⟩ ⟨1, 1, 1, 1⟩ 1) 0 (.num 2)).1.vals? 0 = some [2] := by decide +kernel

/-- **C67** fails for quotients: the sky itself is returned, with the new values, whatever holds them. -/
theorem div_operand_violated {w : World} {i : Nat} {x : Factor} {s : SkyObj} {a : Arr} {ys : List ℚ} (hs : w.skies[i]? = some s)
    (ha : w.arrs[s.ref]? = some a) (hy : factorVals w a.shape x = some ys) (hd : a.shape = s.dims) :
    (skyDiv w i x).2 = .ok i ∧ (skyDiv w i x).1.vals? i = some (List.zipWith (· / ·) a.vals ys) := by
  rw [skyDiv_eq hs ha hy hd]
  refine ⟨rfl, ?_⟩
  obtain ⟨hi, _⟩ := List.getElem?_eq_some_iff.1 hs
  unfold World.vals? World.arr?
  simp only [List.getElem?_set_self hi, Option.bind_some]
  rw [augment_at w s a _ ys ha]
  rfl

/-- Concretely: the half of a sky of value one makes it a sky of value one half. -/
theorem div_violated : (skyDiv (skyNew ⟨[], []⟩ ⟨1, 1, 1, 1⟩ 1) 0 (.num 2)).1.vals? 0 = some [1 / 2] := by decide +kernel

/-- Skies not sharing the array keep their values in quotients by a number. -/
theorem div_others {w : World} {i k : Nat} {x : Factor} {s sk : SkyObj} {a ak : Arr} {ys : List ℚ} (hs : w.skies[i]? = some s)
    (ha : w.arrs[s.ref]? = some a) (hy : factorVals w a.shape x = some ys) (hd : a.shape = s.dims) (hk : w.skies[k]? = some sk)
    (hak : w.arrs[sk.ref]? = some ak) (hne : k ≠ i) (href : sk.ref ≠ s.ref) : (skyDiv w i x).1.vals? k = w.vals? k := by
  rw [skyDiv_eq hs ha hy hd]
  unfold World.vals? World.arr? augment
  obtain ⟨hr, _⟩ := List.getElem?_eq_some_iff.1 hak
  simp only [List.getElem?_set_ne (Ne.symm hne), hk, Option.bind_some]
  split_ifs
  · rw [List.getElem?_append_left hr]
  · rw [List.getElem?_set_ne (Ne.symm href)]

/-! ## Shapes -/

/-- Every reference leads to an array, and shapes agree with the number of values. -/
theorem factor_length {w : World} {d : Dims} {x : Factor} {ys : List ℚ} (hw : ∀ a ∈ w.arrs, a.vals.length = a.shape.size)
    (h : factorVals w d x = some ys) : ys.length = d.size := by
  cases x with
  | num x => cases h; simp
  | sky j =>
    obtain ⟨a, h1, h2⟩ := Option.bind_eq_some_iff.1 h
    by_cases hd : a.shape = d
    · rw [if_pos hd] at h2
      cases h2
      obtain ⟨s, _, h4⟩ := Option.bind_eq_some_iff.1 h1
      rw [hw a (List.mem_of_getElem? h4), hd]
    · rw [if_neg hd] at h2
      cases h2

/-- What every history without assignment of axes keeps. -/
def Sound (w : World) : Prop :=
  (∀ a ∈ w.arrs, a.vals.length = a.shape.size) ∧ ∀ s ∈ w.skies, ∃ a, w.arrs[s.ref]? = some a ∧ a.shape = s.dims

theorem augment_sound {w : World} {s : SkyObj} {a : Arr} {op : ℚ → ℚ → ℚ} {ys : List ℚ} (hw : Sound w) (ha : w.arrs[s.ref]? = some a)
    (hy : ys.length = a.shape.size) :
    (∀ b ∈ (augment w s a op ys).1, b.vals.length = b.shape.size) ∧
      (∀ (r : Nat) (b : Arr), w.arrs[r]? = some b → ∃ b' : Arr, (augment w s a op ys).1[r]? = some b' ∧ b'.shape = b.shape) ∧
      ∃ b : Arr, (augment w s a op ys).1[(augment w s a op ys).2]? = some b ∧ b.shape = a.shape := by
  have hz : (a.zip op ys).vals.length = (a.zip op ys).shape.size := by
    show (List.zipWith op a.vals ys).length = a.shape.size
    rw [List.length_zipWith, hw.1 a (List.mem_of_getElem? ha), hy, min_self]
  refine ⟨?_, ?_, ⟨_, augment_at w s a op ys ha, rfl⟩⟩
  · intro b hb
    unfold augment at hb
    split_ifs at hb
    · rcases List.mem_append.1 hb with h | h
      · exact hw.1 b h
      · rw [List.mem_singleton] at h; rw [h]; exact hz
    · rcases List.mem_or_eq_of_mem_set hb with h | h
      · exact hw.1 b h
      · rw [h]; exact hz
  · intro r b hr
    obtain ⟨h, _⟩ := List.getElem?_eq_some_iff.1 hr
    unfold augment
    split_ifs
    · exact ⟨b, by rw [List.getElem?_append_left h]; exact hr, rfl⟩
    · by_cases he : s.ref = r
      · subst he
        rw [ha] at hr
        cases hr
        exact ⟨_, List.getElem?_set_self h, rfl⟩
      · exact ⟨b, by rw [List.getElem?_set_ne he]; exact hr, rfl⟩

theorem mul_sound {w : World} (hw : Sound w) (i : Nat) (x : Factor) : Sound (skyMul w i x).1 := by
  unfold skyMul
  cases hs : w.skies[i]? with
  | none => exact hw
  | some s =>
    obtain ⟨a, ha, hd⟩ := hw.2 s (List.mem_of_getElem? hs)
    rw [arr_of hs ha]
    dsimp only
    cases hy : factorVals w a.shape x with
    | none => exact hw
    | some ys =>
      obtain ⟨h1, h2, b, h3, h4⟩ := augment_sound (op := (· * ·)) hw ha (factor_length hw.1 hy)
      dsimp only
      unfold setRef
      rw [if_neg (by simp [hd])]
      refine ⟨h1, ?_⟩
      intro s' hs'
      rcases List.mem_append.1 hs' with h | h
      · obtain ⟨a', ha', hd'⟩ := hw.2 s' h
        obtain ⟨b', hb', hb2⟩ := h2 _ _ ha'
        exact ⟨b', hb', hb2.trans hd'⟩
      · rw [List.mem_singleton] at h
        subst h
        exact ⟨b, h3, h4.trans hd⟩

theorem div_sound {w : World} (hw : Sound w) (i : Nat) (x : Factor) : Sound (skyDiv w i x).1 := by
  unfold skyDiv
  cases hs : w.skies[i]? with
  | none => exact hw
  | some s =>
    obtain ⟨a, ha, hd⟩ := hw.2 s (List.mem_of_getElem? hs)
    rw [arr_of hs ha]
    dsimp only
    cases hy : factorVals w a.shape x with
    | none => exact hw
    | some ys =>
      obtain ⟨h1, h2, b, h3, h4⟩ := augment_sound (op := (· / ·)) hw ha (factor_length hw.1 hy)
      dsimp only
      unfold setRef
      rw [if_neg (by simp [hd])]
      refine ⟨h1, ?_⟩
      intro s' hs'
      rcases List.mem_or_eq_of_mem_set hs' with h | h
      · obtain ⟨a', ha', hd'⟩ := hw.2 s' h
        obtain ⟨b', hb', hb2⟩ := h2 _ _ ha'
        exact ⟨b', hb', hb2.trans hd'⟩
      · subst h
        exact ⟨b, h3, h4.trans hd⟩

theorem append_sound {w : World} (hw : Sound w) (d : Dims) (x : ℚ) (skies : List SkyObj)
    (h : ∀ s ∈ skies, s ∈ w.skies ∨ s = ⟨d, w.arrs.length⟩) : Sound ⟨w.arrs ++ [⟨d, List.replicate d.size x, false⟩], skies⟩ := by
  refine ⟨?_, ?_⟩
  · intro a ha
    rcases List.mem_append.1 ha with h | h
    · exact hw.1 a h
    · rw [List.mem_singleton] at h; subst h; simp
  · intro s hs
    rcases h s hs with h | h
    · obtain ⟨a, ha, hd⟩ := hw.2 s h
      obtain ⟨hr, _⟩ := List.getElem?_eq_some_iff.1 ha
      exact ⟨a, by rw [List.getElem?_append_left hr]; exact ha, hd⟩
    · subst h
      exact ⟨_, List.getElem?_concat_length, rfl⟩

theorem set_sound {w : World} (hw : Sound w) (i : Nat) (v : NewVal) : Sound (skySetValue w i v).1 := by
  cases v with
  | num x =>
    unfold skySetValue
    cases hs : w.skies[i]? with
    | none => exact hw
    | some s =>
      refine append_sound hw s.dims x _ ?_
      intro s' hs'
      rcases List.mem_or_eq_of_mem_set hs' with h | h
      · exact Or.inl h
      · exact Or.inr h
  | arr r =>
    unfold skySetValue
    cases hs : w.skies[i]? with
    | none => exact hw
    | some s =>
      cases hr : w.arrs[r]? with
      | none => simp only [hr]; exact hw
      | some a =>
        simp only [hr]
        unfold setRef
        by_cases hd : a.shape = s.dims
        · rw [if_neg (by simp [hd])]
          refine ⟨hw.1, ?_⟩
          intro s' hs'
          rcases List.mem_or_eq_of_mem_set hs' with h | h
          · exact hw.2 s' h
          · subst h
            exact ⟨a, hr, hd⟩
        · rw [if_pos hd]
          exact hw

/-- The step does not assign an axis. -/
def SkyOp.keepsAxes : SkyOp → Bool
  | .axes _ _ => false
  | _ => true

/-- **C67**, for all histories of creations, products, quotients and assignments of values, with failures: the values of all skies
have the shape of their axes. Assignments of axes are excluded. -/
theorem shapes_partial (ops : List SkyOp) (h : ∀ o ∈ ops, o.keepsAxes = true) : AllShaped (ops.foldl SkyOp.step ⟨[], []⟩) := by
  have key : ∀ (ops : List SkyOp) (w : World), Sound w → (∀ o ∈ ops, o.keepsAxes = true) → Sound (ops.foldl SkyOp.step w) := by
    intro ops
    induction ops with
    | nil => intro w hw _; exact hw
    | cons o os ih =>
      intro w hw ho
      refine ih _ ?_ fun o' ho' => ho o' (List.mem_cons_of_mem _ ho')
      cases o with
      | new d x =>
        refine append_sound hw d x _ ?_
        intro s hs
        rcases List.mem_append.1 hs with h | h
        · exact Or.inl h
        · exact Or.inr (List.mem_singleton.1 h)
      | mul i x => exact mul_sound hw i x
      | div i x => exact div_sound hw i x
      | set i v => exact set_sound hw i v
      | axes i d => exact absurd (ho _ List.mem_cons_self) (by simp [SkyOp.keepsAxes])
  have hs := key ops ⟨[], []⟩ ⟨by simp, by simp⟩ h
  intro i hi
  obtain ⟨a, ha, hd⟩ := hs.2 _ (List.getElem_mem hi)
  exact ⟨_, a, List.getElem?_eq_getElem hi, ha, hd, by rw [hs.1 a (List.mem_of_getElem? ha), hd]⟩

example : ∀ o ∈ [SkyOp.new ⟨1, 2, 1, 3⟩ 1, .mul 0 (.num 2), .div 0 (.sky 1), .set 1 (.num 5)], o.keepsAxes = true := by decide

/-- **C67** fails when an axis is assigned: whatever the history before, the values keep the previous shape. -/
theorem shapes_violated (ops : List SkyOp) (h : ∀ o ∈ ops, o.keepsAxes = true) (i : Nat) (d : Dims) (s : SkyObj)
    (hs : (ops.foldl SkyOp.step ⟨[], []⟩).skies[i]? = some s) (hd : s.dims ≠ d) :
    ¬ Shaped ((ops ++ [SkyOp.axes i d]).foldl SkyOp.step ⟨[], []⟩) i := by
  obtain ⟨s0, a0, h1, h2, h3, _⟩ := shapes_partial ops h i (List.getElem?_eq_some_iff.1 hs).1
  rw [hs] at h1
  cases h1
  rw [List.foldl_append]
  rintro ⟨s', a, e1, e2, e3, _⟩
  change ((ops.foldl SkyOp.step ⟨[], []⟩).skies.modify i fun s => { s with dims := d })[i]? = some s' at e1
  change (ops.foldl SkyOp.step ⟨[], []⟩).arrs[s'.ref]? = some a at e2
  rw [List.getElem?_modify_eq, hs] at e1
  cases e1
  change (ops.foldl SkyOp.step ⟨[], []⟩).arrs[s.ref]? = some a at e2
  rw [h2] at e2
  cases e2
  exact hd (h3.symm.trans e3)

example : ∃ (ops : List SkyOp) (s : SkyObj), (∀ o ∈ ops, o.keepsAxes = true) ∧ (ops.foldl SkyOp.step ⟨[], []⟩).skies[0]? = some s ∧
    s.dims ≠ ⟨2, 1, 1, 1⟩ := ⟨[.new ⟨1, 1, 1, 1⟩ 1], ⟨⟨1, 1, 1, 1⟩, 0⟩, by decide, by decide +kernel, by decide⟩

/-- Then a product fails, and yet the values of the operand are multiplied. -/
theorem mul_failed_violated {w : World} {i : Nat} {x : Factor} {s : SkyObj} {a : Arr} {ys : List ℚ} (hs : w.skies[i]? = some s)
    (ha : w.arrs[s.ref]? = some a) (hy : factorVals w a.shape x = some ys) (hd : a.shape ≠ s.dims) (hl : a.isDask = false) :
    (skyMul w i x).2 = .error .valueError ∧ (skyMul w i x).1.vals? i = some (List.zipWith (· * ·) a.vals ys) := by
  obtain ⟨hr, _⟩ := List.getElem?_eq_some_iff.1 ha
  have e : skyMul w i x = (⟨(augment w s a (· * ·) ys).1, w.skies⟩, .error .valueError) := by
    unfold skyMul
    rw [hs, arr_of hs ha]
    simp only [hy]
    unfold setRef
    rw [if_pos hd]
  rw [e]
  refine ⟨rfl, ?_⟩
  unfold World.vals? World.arr? augment
  rw [if_neg (by simp [hl])]
  simp only [hs, Option.bind_some]
  rw [List.getElem?_set_self hr]
  rfl

example : ∃ (w : World) (s : SkyObj) (a : Arr), w.skies[0]? = some s ∧ w.arrs[s.ref]? = some a ∧ factorVals w a.shape (.num 2) = some [2] ∧
    a.shape ≠ s.dims ∧ a.isDask = false :=
  ⟨⟨[⟨⟨1, 1, 1, 1⟩, [1], false⟩], [⟨⟨2, 1, 1, 1⟩, 0⟩]⟩, _, _, rfl, rfl, by decide +kernel, by decide, rfl⟩

/-- **C67**: an array is accepted as value exactly if it has the shape of the axes. -/
theorem set_checked {w : World} {i r : Nat} {s : SkyObj} {a : Arr} (hs : w.skies[i]? = some s) (ha : w.arrs[r]? = some a) :
    (skySetValue w i (.arr r)).2 = if a.shape = s.dims then .ok () else .error .valueError := by
  unfold skySetValue
  simp only [hs, ha]
  unfold setRef
  by_cases hd : a.shape = s.dims
  · rw [if_neg (by simp [hd]), if_pos hd]
  · rw [if_pos hd, if_neg hd]

/-- **C67** (violated): a sky shares the array it is given: when the values of a sky are assigned to another one, a division of the first
changes the second. -/
theorem share_violated {w : World} {i j : Nat} {x : Factor} {s u : SkyObj} {a : Arr} {ys : List ℚ} (hs : w.skies[i]? = some s)
    (hu : w.skies[j]? = some u) (hij : i ≠ j) (ha : w.arrs[s.ref]? = some a) (hd : a.shape = s.dims) (hdu : a.shape = u.dims)
    (hl : a.isDask = false) (hy : factorVals (skySetValue w j (.arr s.ref)).1 a.shape x = some ys) :
    (skySetValue w j (.arr s.ref)).1.vals? j = some a.vals ∧
      (skyDiv (skySetValue w j (.arr s.ref)).1 i x).1.vals? j = some (List.zipWith (· / ·) a.vals ys) := by
  have e : (skySetValue w j (.arr s.ref)).1 = { w with skies := w.skies.set j { u with ref := s.ref } } := by
    unfold skySetValue
    simp only [hu, ha]
    unfold setRef
    rw [if_neg (by simp [hdu])]
  rw [e] at hy ⊢
  obtain ⟨hr, _⟩ := List.getElem?_eq_some_iff.1 ha
  obtain ⟨hj, _⟩ := List.getElem?_eq_some_iff.1 hu
  have hs' : ({ w with skies := w.skies.set j { u with ref := s.ref } } : World).skies[i]? = some s := by
    show (w.skies.set j _)[i]? = _
    rw [List.getElem?_set_ne (Ne.symm hij), hs]
  refine ⟨?_, ?_⟩
  · unfold World.vals? World.arr?
    simp only [List.getElem?_set_self hj, Option.bind_some, ha, Option.map_some]
  · rw [skyDiv_eq hs' ha hy hd]
    unfold World.vals? World.arr? augment
    rw [if_neg (by simp [hl])]
    simp only [List.getElem?_set_ne hij, List.getElem?_set_self hj, Option.bind_some]
    rw [List.getElem?_set_self hr]
    rfl

example : ∃ (w : World) (s u : SkyObj) (a : Arr), w.skies[0]? = some s ∧ w.skies[1]? = some u ∧ w.arrs[s.ref]? = some a ∧ a.shape = s.dims ∧
    a.shape = u.dims ∧ a.isDask = false ∧ factorVals (skySetValue w 1 (.arr s.ref)).1 a.shape (.num 2) = some [2] :=
  ⟨⟨[⟨⟨1, 1, 1, 1⟩, [1], false⟩, ⟨⟨1, 1, 1, 1⟩, [3], false⟩], [⟨⟨1, 1, 1, 1⟩, 0⟩, ⟨⟨1, 1, 1, 1⟩, 1⟩]⟩, _, _, _, rfl, rfl, rfl, rfl, rfl, rfl,
    by decide +kernel⟩

/-! ## Slices and resolutions -/

/-- One time, one frequency, one polarisation and all coordinates: as many values as coordinates. -/
theorem slice_partial (d : Dims) (i j k stop : Nat) (hi : i < d.t) (hj : j < d.f) (hk : k < d.p) (hs : d.c ≤ stop) :
    skySlice d (.one i) (.one j) (.one k) (.range 0 stop) = .ok ⟨[i], [j], [k], List.range d.c, List.range d.c⟩ := by
  have e1 : Ix.sel d.t (.one i) = some [i] := if_pos hi
  have e2 : Ix.sel d.f (.one j) = some [j] := if_pos hj
  have e3 : Ix.sel d.p (.one k) = some [k] := if_pos hk
  have : (List.range d.c).filter (fun k => decide (0 ≤ k) && decide (k < stop)) = List.range d.c := by
    rw [List.filter_eq_self]
    intro a ha
    rw [List.mem_range] at ha
    simp
    omega
  have e4 : Ix.sel d.c (.range 0 stop) = some (List.range d.c) := congrArg some this
  unfold skySlice
  rw [e1, e2, e3, e4]
  rfl

example : skySlice ⟨2, 1, 1, 3⟩ (.one 1) (.one 0) (.one 0) (.range 0 9) = .ok ⟨[1], [0], [0], [0, 1, 2], [0, 1, 2]⟩ := by rfl

/-- A slice succeeds exactly when each single position is within its axis and one axis, no more and no less, is given as a range. -/
theorem slice_succeeds_iff (d : Dims) (a b c e : Ix) :
    (∃ o, skySlice d a b c e = .ok o) ↔ a.dims + b.dims + c.dims + e.dims = 1 ∧ (∀ k, a = .one k → k < d.t) ∧ (∀ k, b = .one k → k < d.f) ∧ (∀ k, c = .one k → k < d.p) ∧ ∀ k, e = .one k → k < d.c := by
  have hsel : ∀ (n : Nat) (x : Ix), (∀ k, x = .one k → k < n) ↔ ∃ l, Ix.sel n x = some l := by
    intro n x
    cases x with
    | one k =>
      by_cases h : k < n
      · exact ⟨fun _ => ⟨[k], if_pos h⟩, fun _ j e => by injection e with e; rw [← e]; exact h⟩
      · refine ⟨fun h' => absurd (h' k rfl) h, ?_⟩
        rintro ⟨l, hl⟩
        rw [show Ix.sel n (.one k) = none from if_neg h] at hl
        cases hl
    | range x y => exact ⟨fun _ => ⟨_, rfl⟩, fun _ j e => by cases e⟩
  rw [hsel, hsel, hsel, hsel]
  unfold skySlice
  constructor
  · rintro ⟨o, h⟩
    cases h1 : Ix.sel d.t a with
    | none => rw [h1] at h; cases h
    | some l1 =>
      cases h2 : Ix.sel d.f b with
      | none => rw [h1, h2] at h; cases h
      | some l2 =>
        cases h3 : Ix.sel d.p c with
        | none => rw [h1, h2, h3] at h; cases h
        | some l3 =>
          cases h4 : Ix.sel d.c e with
          | none => rw [h1, h2, h3, h4] at h; cases h
          | some l4 =>
            rw [h1, h2, h3, h4] at h
            simp only at h
            by_cases hd : a.dims + b.dims + c.dims + e.dims ≠ 1
            · rw [if_pos hd] at h; cases h
            · exact ⟨not_not.1 hd, ⟨_, rfl⟩, ⟨_, rfl⟩, ⟨_, rfl⟩, ⟨_, rfl⟩⟩
  · rintro ⟨h0, ⟨l1, h1⟩, ⟨l2, h2⟩, ⟨l3, h3⟩, l4, h4⟩
    rw [h1, h2, h3, h4]
    exact ⟨_, if_neg (not_not.2 h0)⟩

/-- **C67** (violated): a part of the coordinates can be selected, but the slice is given all of them: there are always fewer values than
coordinates. -/
theorem slice_violated (d : Dims) (i j k start stop : Nat) (hi : i < d.t) (hj : j < d.f) (hk : k < d.p) (hs : 0 < start ∨ stop < d.c)
    (hc : 0 < d.c) : ∃ o, skySlice d (.one i) (.one j) (.one k) (.range start stop) = .ok o ∧ o.vals.length < o.coords.length := by
  have e1 : Ix.sel d.t (.one i) = some [i] := if_pos hi
  have e2 : Ix.sel d.f (.one j) = some [j] := if_pos hj
  have e3 : Ix.sel d.p (.one k) = some [k] := if_pos hk
  refine ⟨⟨[i], [j], [k], (List.range d.c).filter fun k => decide (start ≤ k) && decide (k < stop), List.range d.c⟩, ?_, ?_⟩
  · unfold skySlice
    rw [e1, e2, e3]
    rfl
  · refine List.length_filter_lt_length_iff_exists.2 ?_
    rcases hs with hs | hs
    · exact ⟨0, List.mem_range.2 hc, by simp; omega⟩
    · exact ⟨stop, List.mem_range.2 hs, by simp⟩

/-- The resolution used is the nearest available one, and the first of them. -/
theorem resolution_nearest (avail : Nat → ℚ) (n : Nat) (wanted : ℚ) (hn : 0 < n) :
    resolIndex avail n wanted < n ∧ (∀ k < n, |avail (resolIndex avail n wanted) - wanted| ≤ |avail k - wanted|) ∧
      ∀ k < resolIndex avail n wanted, |avail (resolIndex avail n wanted) - wanted| < |avail k - wanted| := by
  refine ⟨argmax_lt _ hn, fun k hk => ?_, fun k hk => ?_⟩
  · have := argmax_max (fun k => -|avail k - wanted|) hk
    exact neg_le_neg_iff.1 this
  · have := argmax_first (fun k => -|avail k - wanted|) hk
    exact neg_lt_neg_iff.1 this

end Verif.Astro
