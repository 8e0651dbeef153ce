import Mathlib.Tactic.Linarith
import Mathlib.Tactic.NormNum
import Mathlib.Tactic.FieldSimp
import Mathlib.Algebra.Order.Floor.Ring
import Mathlib.Data.Rat.Floor
import Verif.Astro.Horizon

/-!
# C193: the horizon written for an image of the sky
-/

namespace Verif.Astro

/-- The fields of a list of vertices: right ascension, then declination, of each. -/
def vertexFields (ra dec : ℚ × ℚ → List Char) (l : List (ℚ × ℚ)) : List (List Char) := l.flatMap fun p => [ra p, dec p]

theorem foldl_vertices (ra dec : ℚ × ℚ → List Char) (l : List (ℚ × ℚ)) (s : List Char) :
    l.foldl (addVertex ra dec) s = s ++ (vertexFields ra dec l).flatMap fun f => f ++ [','] := by
  induction l generalizing s with
  | nil => simp [vertexFields]
  | cons a t ih =>
    rw [List.foldl_cons, ih]
    simp [addVertex, vertexFields]

theorem flatMap_sep (l : List (List Char)) (h : l ≠ []) : (l.flatMap fun f => f ++ [',']) = [','].intercalate l ++ [','] := by
  induction l with
  | nil => exact absurd rfl h
  | cons a t ih =>
    by_cases ht : t = []
    · subst ht; simp [List.intercalate]
    · rw [List.flatMap_cons, ih ht, List.intercalate_cons_of_ne_nil ht]
      simp

theorem fields_length (ra dec : ℚ × ℚ → List Char) (l : List (ℚ × ℚ)) : (vertexFields ra dec l).length = 2 * l.length := by
  induction l with
  | nil => rfl
  | cons a t ih =>
    show (vertexFields ra dec t).length + 1 + 1 = 2 * (t.length + 1)
    rw [ih]
    ring

/-- **C193**: the file has its header, then one polygon whose fields, read between the parentheses and separated at the commas, are the right ascension and the
declination of a hundred points of the horizon, in order. -/
theorem region_exact (ra dec : ℚ × ℚ → List Char) (hra : ∀ p, ',' ∉ ra p) (hdec : ∀ p, ',' ∉ dec p) :
    ∃ body, horizonRegion ra dec = regionHeader ++ ("polygon(".toList ++ body ++ [')']) ∧
      body.splitOn ',' = vertexFields ra dec ((List.range 100).map horizonAt) := by
  have hne : vertexFields ra dec ((List.range 100).map horizonAt) ≠ [] := by
    intro h
    have : (vertexFields ra dec ((List.range 100).map horizonAt)).length = 200 := by
      rw [fields_length]; simp
    rw [h] at this
    cases this
  refine ⟨[','].intercalate (vertexFields ra dec ((List.range 100).map horizonAt)), ?_, ?_⟩
  · unfold horizonRegion horizonPoints
    rw [foldl_vertices, flatMap_sep _ hne]
    generalize [','].intercalate (vertexFields ra dec ((List.range 100).map horizonAt)) = b
    rw [show "polygon(".toList ++ (b ++ [',']) = ("polygon(".toList ++ b) ++ [','] from (List.append_assoc _ _ _).symm, List.dropLast_concat]
  · refine List.splitOn_intercalate _ (fun l hl => ?_) hne
    obtain ⟨p, -, hp⟩ := List.mem_flatMap.1 hl
    rw [List.mem_cons, List.mem_singleton] at hp
    rcases hp with rfl | rfl
    · exact hra p
    · exact hdec p

/-- **C193**: there are two hundred fields; all the points are on the horizon, evenly spaced from the north round to the north. -/
theorem region_points (ra dec : ℚ × ℚ → List Char) :
    (vertexFields ra dec ((List.range 100).map horizonAt)).length = 200 ∧
    (∀ i < 100, (vertexFields ra dec ((List.range 100).map horizonAt))[2 * i]? = some (ra (horizonAzimuth i, 0)) ∧
      (vertexFields ra dec ((List.range 100).map horizonAt))[2 * i + 1]? = some (dec (horizonAzimuth i, 0))) ∧
    horizonAzimuth 0 = 0 ∧ horizonAzimuth 99 = 360 ∧ ∀ i, horizonAzimuth (i + 1) - horizonAzimuth i = 360 / 99 := by
  refine ⟨by rw [fields_length]; simp, fun i hi => ?_, by norm_num [horizonAzimuth, horizonPoints], by norm_num [horizonAzimuth, horizonPoints],
    fun i => ?_⟩
  · have key : ∀ (l : List (ℚ × ℚ)) (i : Nat) (p : ℚ × ℚ), l[i]? = some p →
        (vertexFields ra dec l)[2 * i]? = some (ra p) ∧ (vertexFields ra dec l)[2 * i + 1]? = some (dec p) := by
      intro l
      induction l with
      | nil => intro i p h; simp at h
      | cons a t ih =>
        intro i p h
        have e : vertexFields ra dec (a :: t) = ra a :: dec a :: vertexFields ra dec t := rfl
        rw [e]
        cases i with
        | zero =>
          have : a = p := by simpa using h
          subst this
          exact ⟨rfl, rfl⟩
        | succ n =>
          have := ih n p (by simpa using h)
          rw [show 2 * (n + 1) = 2 * n + 1 + 1 by ring]
          simpa using this
    exact key _ i (horizonAt i) (by simp [hi])
  · unfold horizonAzimuth horizonPoints
    push_cast
    ring

/-- **C193**: no azimuth is further than 180/99 degrees (less than 1.82 degrees) from one of the points. -/
theorem region_near (az : ℚ) (h0 : 0 ≤ az) (h1 : az ≤ 360) : ∃ i < 100, |az - horizonAzimuth i| ≤ 180 / 99 := by
  have hx : 0 ≤ az * 99 / 360 + 1 / 2 := by positivity
  have hfl := Int.floor_le (az * 99 / 360 + 1 / 2)
  have hlt := Int.lt_floor_add_one (az * 99 / 360 + 1 / 2)
  obtain ⟨n, hn⟩ := Int.eq_ofNat_of_zero_le (Int.floor_nonneg.2 hx)
  rw [hn] at hfl hlt
  push_cast at hfl hlt
  refine ⟨n, ?_, ?_⟩
  · have : (n : ℚ) < 100 := by linarith
    exact_mod_cast this
  · unfold horizonAzimuth horizonPoints
    norm_num
    rw [abs_le]
    constructor <;> linarith

/-- **C193**: the polygon is closed: the last point is the first one again, for coordinates which do not change by a whole turn of the azimuth. -/
theorem region_closed (ra dec : ℚ × ℚ → List Char) (h : ∀ a e, ra (a + 360, e) = ra (a, e) ∧ dec (a + 360, e) = dec (a, e)) :
    ra (horizonAt 99) = ra (horizonAt 0) ∧ dec (horizonAt 99) = dec (horizonAt 0) := by
  have e : horizonAt 99 = ((horizonAt 0).1 + 360, 0) := by
    unfold horizonAt horizonAzimuth horizonPoints
    norm_num
  rw [e]
  exact ⟨(h _ _).1, (h _ _).2⟩

example : ∃ ra dec : ℚ × ℚ → List Char, (∀ p, ',' ∉ ra p) ∧ (∀ p, ',' ∉ dec p) ∧ ∀ a e, ra (a + 360, e) = ra (a, e) ∧ dec (a + 360, e) = dec (a, e) :=
  ⟨fun _ => "12:00:00".toList, fun _ => "-30:00:00".toList, fun _ => (by decide : ',' ∉ "12:00:00".toList), fun _ => (by decide : ',' ∉ "-30:00:00".toList), fun _ _ => ⟨rfl, rfl⟩⟩

end Verif.Astro
