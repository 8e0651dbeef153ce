import Verif.Sched.PropsFitness

/-!
# Delays read at the wrong candidates, for all pairs of delayed candidates (property C77)
-/

namespace Verif.Scheduler

theorem two_sorted {start : Nat → Int} {ord : List Nat} (h : IsArgsort start 2 ord) (hs : start 0 < start 1) : ord = [0, 1] := by
  have hp : ord.Perm [0, 1] := h.1
  have hl := hp.length_eq
  obtain ⟨a, b, rfl⟩ := List.length_eq_two.1 hl
  have ha : a ∈ [0, 1] := hp.mem_iff.1 (by simp)
  have hb : b ∈ [0, 1] := hp.mem_iff.1 (by simp)
  have hn : a ≠ b := by
    have := hp.nodup_iff.2 (by decide)
    simpa using this
  have hle : start a ≤ start b := by
    have := h.2
    rw [List.pairwise_cons] at this
    exact this.1 b (by simp)
  simp only [List.mem_cons, List.not_mem_nil, or_false] at ha hb
  rcases ha with rfl | rfl <;> rcases hb with rfl | rfl
  · exact absurd rfl hn
  · rfl
  · omega
  · exact absurd rfl hn

theorem mem_delayed {cs : List Cand} {i j k : Nat} (hd : delayedIdx cs = [i, j]) :
    (k < cs.length ∧ 0 < (candAt cs k).delay) ↔ k = i ∨ k = j := by
  have : k ∈ delayedIdx cs ↔ k = i ∨ k = j := by rw [hd]; simp
  rw [← this]
  unfold delayedIdx
  simp

/-- With two delayed candidates, the first of which starts first, the count only depends on the length and the delay of the first of all
candidates. -/
theorem delays_two (cs : List Cand) (g : Nat → Nat) (i j : Nat) (hd : delayedIdx cs = [i, j]) (hg : g i < g j) (ordD : List Nat)
    (ho : IsArgsort (delayedStart cs g) (delayedIdx cs).length ordD) :
    delayCount cs g ordD = if g j < g i + (candAt cs 0).n + (candAt cs 0).delay then 1 else 0 := by
  have h0 : delayedStart cs g 0 = g i := by unfold delayedStart; rw [hd]; rfl
  have h1 : delayedStart cs g 1 = g j := by unfold delayedStart; rw [hd]; rfl
  rw [hd] at ho
  have e := two_sorted ho (by rw [h0, h1]; exact_mod_cast hg)
  rw [e]
  unfold delayCount
  show (if delayedStart cs g 1 - delayedStart cs g 0 - _ < 0 then 1 else 0) + 0 = _
  rw [h0, h1, Nat.add_zero]
  push_cast
  split_ifs <;> omega

/-- The delays of two delayed candidates are kept exactly when the second one starts after the processing of the first one. -/
theorem kept_two (cs : List Cand) (g : Nat → Nat) (i j : Nat) (hd : delayedIdx cs = [i, j]) (hg : g i < g j) :
    DelaysKept cs g ↔ g i + (candAt cs i).n + (candAt cs i).delay ≤ g j := by
  have mi := (mem_delayed hd (k := i)).2 (Or.inl rfl)
  have mj := (mem_delayed hd (k := j)).2 (Or.inr rfl)
  have hij : i ≠ j := by rintro rfl; omega
  constructor
  · intro h
    by_contra hc
    exact h i mi.1 j mj.1 hij mi.2 mj.2 ⟨hg.le, by omega⟩
  · intro h a ha b hb hab da db ⟨h1, h2⟩
    rcases (mem_delayed hd).1 ⟨ha, da⟩ with rfl | rfl <;> rcases (mem_delayed hd).1 ⟨hb, db⟩ with rfl | rfl
    · exact hab rfl
    · omega
    · omega
    · exact hab rfl

/-- C77, violated for all pairs of delayed candidates: whenever the first of all candidates is longer than the gap between the two, a
genome which keeps all delays and has no conflict gets half of its quality. -/
theorem delays_false_alarm_all_violated (cs : List Cand) (g : Nat → Nat) (ord ordD : List Nat)
    (hs : IsArgsort (fun i => (g i : Int)) cs.length ord) (ho : IsArgsort (delayedStart cs g) (delayedIdx cs).length ordD)
    (i j : Nat) (hd : delayedIdx cs = [i, j]) (hg : g i < g j) (hn : ∀ k < cs.length, 0 < (candAt cs k).n)
    (hc : Conflictless cs g) (hk : g i + (candAt cs i).n + (candAt cs i).delay ≤ g j)
    (h0 : g j < g i + (candAt cs 0).n + (candAt cs 0).delay) :
    DelaysKept cs g ∧ fitness cs g ord ordD = quality cs g / 2 := by
  refine ⟨(kept_two cs g i j hd hg).2 hk, ?_⟩
  unfold fitness
  rw [delays_two cs g i j hd hg ordD ho, if_pos h0, (overlap_exact cs g ord hs hn).2 hc]
  norm_num

/-- C77, violated for all pairs of delayed candidates: whenever the first of all candidates fits in the gap between the two, a genome
without conflict gets its whole quality, although the second one starts during the processing of the first one. -/
theorem delays_missed_all_violated (cs : List Cand) (g : Nat → Nat) (ord ordD : List Nat)
    (hs : IsArgsort (fun i => (g i : Int)) cs.length ord) (ho : IsArgsort (delayedStart cs g) (delayedIdx cs).length ordD)
    (i j : Nat) (hd : delayedIdx cs = [i, j]) (hg : g i < g j) (hn : ∀ k < cs.length, 0 < (candAt cs k).n)
    (hc : Conflictless cs g) (hk : g j < g i + (candAt cs i).n + (candAt cs i).delay)
    (h0 : g i + (candAt cs 0).n + (candAt cs 0).delay ≤ g j) :
    ¬ DelaysKept cs g ∧ fitness cs g ord ordD = quality cs g := by
  refine ⟨fun h => ?_, ?_⟩
  · have := (kept_two cs g i j hd hg).1 h
    omega
  · unfold fitness
    rw [delays_two cs g i j hd hg ordD ho, if_neg (by omega), (overlap_exact cs g ord hs hn).2 hc]
    norm_num

/-- Both families have members. -/
example : delayedIdx cs1 = [1, 2] ∧ g1 1 < g1 2 ∧ g1 1 + (candAt cs1 1).n + (candAt cs1 1).delay ≤ g1 2
    ∧ g1 2 < g1 1 + (candAt cs1 0).n + (candAt cs1 0).delay
    ∧ delayedIdx cs2 = [1, 2] ∧ g2 2 < g2 1 + (candAt cs2 1).n + (candAt cs2 1).delay
    ∧ g2 1 + (candAt cs2 0).n + (candAt cs2 0).delay ≤ g2 2 := by decide

example : Conflictless cs1 g1 ∧ Conflictless cs2 g2 :=
  ⟨(overlap_exact cs1 g1 [1, 2, 0] g1_sorted.1 (by decide)).1 (by decide),
    (overlap_exact cs2 g2 [1, 2, 0] g2_sorted.1 (by decide)).1 (by decide)⟩

end Verif.Scheduler
