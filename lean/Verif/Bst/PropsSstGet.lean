import Verif.Bst.SstGet
import Verif.Bst.Props

/-!
# Selections of mini-array statistics: property C149
-/

namespace Verif.Bst

open Verif

/-- What the file has for a time, a frequency, a mini-array and a polarisation. -/
def SstRecorded (f : SstRec) (t x : ℚ) (m : Int) (p : String) (v : ℚ) : Prop :=
  ∃ k a q c : Nat, f.times[k]? = some t ∧ f.minis[a]? = some m ∧ f.pols[q]? = some p ∧ f.freqs[c]? = some x ∧ v = f.data k a q c

theorem positions_length {α : Type} (p : α → Bool) (l : List α) : (positions p l).length = l.countP p := by
  induction l with
  | nil => rfl
  | cons a l ih =>
    rw [positions_cons, List.length_append, List.length_map, ih, List.countP_cons]
    by_cases h : p a = true
    · rw [if_pos h, if_pos h]; exact Nat.add_comm _ _
    · rw [if_neg h, if_neg h]; exact Nat.zero_add _

theorem mini_count (f : SstRec) (m : Int) : (miniAt f m).length = f.minis.count m := by
  unfold miniAt
  rw [positions_length, List.count]
  congr 1

/-- **Refused**: a mini-array which is not in the file, or is there several times, is refused; any other is accepted. -/
theorem sst_refused (f : SstRec) (m : Int) (fsel tsel : ℚ → Bool) (p : String) :
    (sstGet f m fsel tsel p = .error .valueError ↔ m ∉ f.minis) ∧
    (sstGet f m fsel tsel p = .error .indexError ↔ 2 ≤ f.minis.count m) ∧
    ((∃ r, sstGet f m fsel tsel p = .ok r) ↔ f.minis.count m = 1) := by
  unfold sstGet
  rw [mini_count]
  by_cases h0 : f.minis.count m = 0
  · rw [if_pos h0]
    exact ⟨⟨fun _ => List.count_eq_zero.1 h0, fun _ => rfl⟩, ⟨(fun h => by cases h), (fun h => by omega)⟩,
      ⟨(fun ⟨r, h⟩ => nomatch h), (fun h => by omega)⟩⟩
  · rw [if_neg h0]
    by_cases h1 : f.minis.count m = 1
    · rw [if_neg (not_not.2 h1)]
      exact ⟨⟨(fun h => nomatch h), fun h => absurd (List.count_eq_zero.2 h) h0⟩, ⟨(fun h => nomatch h), fun h => by omega⟩,
        ⟨fun _ => h1, fun _ => ⟨_, rfl⟩⟩⟩
    · rw [if_pos h1]
      exact ⟨⟨(fun h => by cases h), fun h => absurd (List.count_eq_zero.2 h) h0⟩, ⟨fun _ => by omega, fun _ => rfl⟩,
        ⟨(fun ⟨r, h⟩ => nomatch h), fun h => absurd h h1⟩⟩

/-- **Slices**: an accepted slice has exactly the times and frequencies of the file which meet the conditions, in order, one plane per time, one row
per place of the polarisation, and at each point what the file has for the mini-array and the polarisation that were asked. -/
theorem sst_get_exact (f : SstRec) (m : Int) (hm : f.minis.count m = 1) (fsel tsel : ℚ → Bool) (p : String) (hp : p ∈ f.pols) :
    ∃ r : Slice, sstGet f m fsel tsel p = .ok r ∧ r.time = f.times.filter tsel ∧ r.freq = f.freqs.filter fsel ∧
      r.value.length = r.time.length ∧
      ∀ (k : Nat) (plane : List (List ℚ)), r.value[k]? = some plane → plane.length = f.pols.count p ∧ ∀ row ∈ plane, row.length = r.freq.length ∧
        ∃ t : ℚ, r.time[k]? = some t ∧ ∀ (j : Nat) (x v : ℚ), r.freq[j]? = some x → row[j]? = some v → SstRecorded f t x m p v := by
  have hpg : sstPol f p = p := if_pos hp
  have hlen : (miniAt f m).length = 1 := by rw [mini_count]; exact hm
  have pickLen : ∀ (l : List ℚ) (s : ℚ → Bool), (pickAt l (positions s l)).length = (positions s l).length := by
    intro l s
    rw [pickAt_self, positions_length, List.countP_eq_length_filter]
  have pickGet : ∀ (l : List ℚ) (s : ℚ → Bool) (j : Nat), (pickAt l (positions s l))[j]? = ((positions s l)[j]?).bind fun c => l[c]? := by
    intro l s j
    have key : ∀ idx : List Nat, (∀ i ∈ idx, (l[i]?).isSome) → ∀ j : Nat, (pickAt l idx)[j]? = (idx[j]?).bind fun c => l[c]? := by
      intro idx
      induction idx with
      | nil => intro _ j; rfl
      | cons i idx ih =>
        intro h j
        obtain ⟨y, hy⟩ := Option.isSome_iff_exists.1 (h i (List.mem_cons_self ..))
        have e : pickAt l (i :: idx) = y :: pickAt l idx := List.filterMap_cons_some hy
        rw [e]
        cases j with
        | zero => exact hy.symm
        | succ j =>
          rw [List.getElem?_cons_succ, List.getElem?_cons_succ]
          exact ih (fun i hi => h i (List.mem_cons_of_mem _ hi)) j
    refine key _ (fun i hi => ?_) j
    obtain ⟨a, ha, -⟩ := (mem_positions _ _ i).1 hi
    rw [ha]; rfl
  refine ⟨⟨pickAt f.times (positions tsel f.times), pickAt f.freqs (positions fsel f.freqs), "NW",
    (positions tsel f.times).map (fun t => (miniAt f m).flatMap fun a => (positions (fun x => decide (x = sstPol f p)) f.pols).map fun q =>
      (positions fsel f.freqs).map fun c => f.data t a q c), [], []⟩, ?_, pickAt_self _ _, pickAt_self _ _, ?_, ?_⟩
  · unfold sstGet
    rw [if_neg (show ¬ (miniAt f m).length = 0 by omega), if_neg (not_not.2 hlen)]
  · show (List.map _ (positions tsel f.times)).length = (pickAt f.times _).length
    rw [List.length_map, pickLen]
  · intro k plane hk
    rw [List.getElem?_map, Option.map_eq_some_iff] at hk
    obtain ⟨t, htk, rfl⟩ := hk
    obtain ⟨a, ha⟩ := List.length_eq_one_iff.1 hlen
    rw [ha, hpg, List.flatMap_singleton]
    refine ⟨?_, ?_⟩
    · rw [List.length_map, positions_length, List.count]
      congr 1
    · intro row hrow
      obtain ⟨q, hq, rfl⟩ := List.mem_map.1 hrow
      obtain ⟨tv, htv, hts⟩ := (mem_positions _ _ t).1 (List.mem_of_getElem? htk)
      obtain ⟨pp, hpq, hpp⟩ := (mem_positions _ _ q).1 hq
      obtain ⟨mm, hmm, hm2⟩ := (mem_positions _ _ a).1 (show a ∈ miniAt f m by rw [ha]; exact List.mem_singleton.2 rfl)
      refine ⟨?_, tv, ?_, ?_⟩
      · show (List.map _ (positions fsel f.freqs)).length = (pickAt f.freqs _).length
        rw [List.length_map, pickLen]
      · show (pickAt f.times (positions tsel f.times))[k]? = some tv
        rw [pickGet, htk]; exact htv
      · intro j x v hj hv
        have hj' : (pickAt f.freqs (positions fsel f.freqs))[j]? = some x := hj
        rw [pickGet] at hj'
        obtain ⟨c, hc, hcx⟩ := Option.bind_eq_some_iff.1 hj'
        rw [List.getElem?_map, hc] at hv
        refine ⟨t, a, q, c, htv, ?_, ?_, hcx, (Option.some.inj hv).symm⟩
        · rw [hmm, of_decide_eq_true hm2]
        · rw [hpq, of_decide_eq_true hpp]

/-- **Unknown polarisations**: any polarisation which is not in the file gives what `'NW'` gives. -/
theorem sst_unknown_polarisation (f : SstRec) (m : Int) (fsel tsel : ℚ → Bool) (p : String) (hp : p ∉ f.pols) :
    sstGet f m fsel tsel p = sstGet f m fsel tsel "NW" := by
  have h1 : sstPol f p = "NW" := if_neg hp
  have h2 : sstPol f "NW" = "NW" := ite_self _
  unfold sstGet
  rw [h1, h2]

/-- **Violated**: the slice does not say which polarisation it holds: each slice of `'NE'` says `'NW'`. -/
theorem sst_label_violated (f : SstRec) (m : Int) (fsel tsel : ℚ → Bool) (p : String) (r : Slice) (h : sstGet f m fsel tsel p = .ok r) :
    r.pol = "NW" ∧ r.anaTimes = [] ∧ r.digTimes = [] := by
  unfold sstGet at h
  by_cases h0 : (miniAt f m).length = 0
  · rw [if_pos h0] at h; cases h
  · rw [if_neg h0] at h
    by_cases h1 : (miniAt f m).length ≠ 1
    · rw [if_pos h1] at h; cases h
    · rw [if_neg h1] at h
      cases h
      exact ⟨rfl, rfl, rfl⟩

/-- Mini-arrays of a file of the core: those of its first row; of a distant one: all. -/
theorem sst_minis (row : List Int) (rest : List (List Int)) (l : List Int) :
    minisOf (.inl (row :: rest)) = row ∧ minisOf (.inr l) = l := ⟨rfl, rfl⟩

/-- A file of two mini-arrays, each value told apart. -/
def sstFile : SstRec :=
  ⟨[0, 1, 2], [10, 20, 30], [4, 7], ["NW", "NE"], fun t a q c => 1000 * t + 100 * a + 10 * q + c⟩

example : sstFile.minis.count 7 = 1 ∧ "NE" ∈ sstFile.pols := ⟨by decide +kernel, by decide +kernel⟩

example : ((sstGet sstFile 7 (fun x => decide (15 ≤ x)) (fun t => decide (1 ≤ t)) "NE").map fun r => (r.time, r.freq, r.pol, r.value)).toOption =
    some ([1, 2], [20, 30], "NW", [[[1111, 1112]], [[2111, 2112]]]) := by decide +kernel

example : (sstGet sstFile 5 (fun _ => true) (fun _ => true) "NE").toOption = none := by decide +kernel

end Verif.Bst
