import Verif.Cnst.Cache
import Verif.Cnst.Props

/-!
# A schedule uses the scores of its own blocks (property C107)
-/

namespace Verif.Cnst

/-- The score of a block in a schedule, from its own constraints, its own target, its own length and the times of the schedule. -/
def ownScore (sky : Nat → Grid → Ephem) (G : Grid) (sun : Nat → Option ℚ) (b : Blk) : Except Err (Nat → ℚ) :=
  (evaluate ⟨G.n, b.nslots, G.time, G.utcHour, G.localHour, b.target.map fun t => sky t G⟩ b.content sun).2

/-- What is known of a target, if anything, are its positions at the times of the schedule. -/
def Current (sky : Nat → Grid → Ephem) (G : Grid) (H : Heap) : Prop := ∀ t e, H.pos t = some e → e = sky t G

theorem env_current {sky : Nat → Grid → Ephem} {G : Grid} {H : Heap} (h : Current sky G H) (b : Blk) :
    blkEnv G (locate sky G H b) b = ⟨G.n, b.nslots, G.time, G.utcHour, G.localHour, b.target.map fun t => sky t G⟩ := by
  unfold blkEnv locate
  congr 1
  cases ht : b.target with
  | none => rfl
  | some t =>
    show (if (some t : Option Nat) = some t then some ((H.pos t).getD (sky t G)) else H.pos t) = some (sky t G)
    rw [if_pos rfl]
    cases hp : H.pos t with
    | none => rfl
    | some e => rw [h t e hp]; rfl

theorem locate_current {sky : Nat → Grid → Ephem} {G : Grid} {H : Heap} (h : Current sky G H) (b : Blk) : Current sky G (locate sky G H b) := by
  intro t e he
  unfold locate at he
  replace he : (if b.target = some t then some ((H.pos t).getD (sky t G)) else H.pos t) = some e := he
  by_cases hb : b.target = some t
  · rw [if_pos hb] at he
    cases hp : H.pos t with
    | none => rw [hp] at he; exact (Option.some.inj he).symm
    | some e' => rw [hp] at he; rw [← Option.some.inj he]; exact h t e' hp
  · rw [if_neg hb] at he
    exact h t e he

/-- **C107** (partial): blocks with constraints of their own, which were never evaluated, are used with their own score, whether or not they share
targets; without constraints on the night, which change the Sun elevations of the schedule (C18). -/
theorem own_scores_partial (sky : Nat → Grid → Ephem) (G : Grid) : ∀ (l : List Blk) (H : Heap), Current sky G H →
    (l.map Blk.cnst).Nodup → (∀ b ∈ l, H.score b.cnst = none) → (∀ b ∈ l, ∀ p ∈ b.content, ∀ m s, p.2 ≠ .night m s) →
    (∀ b ∈ l, ∃ s, ownScore sky G H.sun b = .ok s) →
    ∃ H' scores, usedScores sky G H l = .ok (H', scores) ∧ scores.length = l.length ∧
      ∀ (i : Nat) (b : Blk) (s : Nat → ℚ), l[i]? = some b → scores[i]? = some s → ownScore sky G H.sun b = .ok s := by
  intro l
  induction l with
  | nil =>
    intro H _ _ _ _ _
    exact ⟨H, [], rfl, rfl, fun i b s h => by simp at h⟩
  | cons b l ih =>
    intro H hc hn hs hnight hok
    obtain ⟨s, hsb⟩ := hok b (List.mem_cons_self ..)
    have hpure := evaluation_pure_partial (E := blkEnv G (locate sky G H b) b) (cs := b.content) H.sun (hnight b (List.mem_cons_self ..))
    have hev : (evaluate (blkEnv G (locate sky G H b) b) b.content H.sun).2 = .ok s := by
      rw [env_current hc b]; exact hsb
    have hu : usedScore sky G H b = .ok (keepScore (locate sky G H b) b H.sun s) := by
      unfold usedScore
      rw [hs b (List.mem_cons_self ..)]
      show freshScore sky G H b = _
      unfold freshScore
      rw [hev]
      show Except.ok (keepScore (locate sky G H b) b (evaluate (blkEnv G (locate sky G H b) b) b.content H.sun).1 s) = _
      rw [hpure]
    rw [List.map_cons, List.nodup_cons] at hn
    obtain ⟨H', scores, h1, h2, h3⟩ := ih (keepScore (locate sky G H b) b H.sun s).1 (locate_current hc b) hn.2
      (fun b' hb' => by
        show (if b'.cnst = b.cnst then some s else H.score b'.cnst) = none
        rw [if_neg (fun e => hn.1 (List.mem_map.2 ⟨b', hb', e⟩))]
        exact hs b' (List.mem_cons_of_mem _ hb'))
      (fun b' hb' => hnight b' (List.mem_cons_of_mem _ hb'))
      (fun b' hb' => hok b' (List.mem_cons_of_mem _ hb'))
    refine ⟨H', s :: scores, ?_, by simp [h2], ?_⟩
    · show (usedScore sky G H b).bind _ = _
      rw [hu]
      show (usedScores sky G (keepScore (locate sky G H b) b H.sun s).1 l).map _ = _
      rw [h1]
      rfl
    · intro i b' s' hb' hs'
      cases i with
      | zero =>
        rw [List.getElem?_cons_zero] at hb' hs'
        rw [← Option.some.inj hb', ← Option.some.inj hs']
        exact hsb
      | succ i =>
        rw [List.getElem?_cons_succ] at hb' hs'
        exact h3 i b' s' hb' hs'

/-- **C107** fails for blocks which share their constraints: the second one is used with the score of the first one, whatever its target and length. -/
theorem shared_constraints_violated (sky : Nat → Grid → Ephem) (G : Grid) (H : Heap) (b b' : Blk) (hc : b'.cnst = b.cnst)
    {H' : Heap} {scores : List (Nat → ℚ)} (h : usedScores sky G H [b, b'] = .ok (H', scores)) : ∃ s, scores = [s, s] := by
  have key : ∀ {r : Heap × (Nat → ℚ)}, usedScore sky G H b = .ok r → r.1.score b.cnst = some r.2 := by
    intro r hr
    unfold usedScore at hr
    cases hk : H.score b.cnst with
    | some s =>
      rw [hk] at hr
      rw [← Except.ok.inj hr]
      exact hk
    | none =>
      rw [hk] at hr
      replace hr : freshScore sky G H b = .ok r := hr
      unfold freshScore at hr
      cases he : (evaluate (blkEnv G (locate sky G H b) b) b.content H.sun).2 with
      | error e => rw [he] at hr; cases hr
      | ok s =>
        rw [he] at hr
        rw [← Except.ok.inj hr]
        show (if b.cnst = b.cnst then some s else _) = some s
        rw [if_pos rfl]
  change (usedScore sky G H b).bind (fun r => (usedScores sky G r.1 [b']).map fun q => (q.1, r.2 :: q.2)) = _ at h
  cases hu : usedScore sky G H b with
  | error e => rw [hu] at h; cases h
  | ok r =>
    rw [hu] at h
    replace h : (usedScores sky G r.1 [b']).map (fun q => (q.1, r.2 :: q.2)) = .ok (H', scores) := h
    have h2 : usedScores sky G r.1 [b'] = .ok (r.1, [r.2]) := by
      show (usedScore sky G r.1 b').bind _ = _
      have : usedScore sky G r.1 b' = .ok (r.1, r.2) := by
        unfold usedScore
        rw [hc, key hu]
        rfl
      rw [this]
      rfl
    rw [h2] at h
    exact ⟨r.2, (congrArg Prod.snd (Except.ok.inj h)).symm⟩

/-- Fails too for a block inserted in another schedule: the scores of the times of the first schedule are used, and the positions of its target
are not known, which makes an extension fail. -/
theorem second_schedule_violated (sky : Nat → Grid → Ephem) (G G' : Grid) (H : Heap) (b : Blk) {H1 : Heap} {s : Nat → ℚ}
    (h : usedScores sky G H [b] = .ok (H1, [s])) :
    usedScores sky G' (insertBlk H1 b) [b] = .ok (insertBlk H1 b, [s]) ∧
    ∀ t, b.target = some t → sliceTarget (insertBlk H1 b) t = .error .typeError := by
  have key : H1.score b.cnst = some s := by
    change (usedScore sky G H b).bind (fun r => .ok (r.1, [r.2])) = _ at h
    cases hu : usedScore sky G H b with
    | error e => rw [hu] at h; cases h
    | ok r =>
      rw [hu] at h
      have h1 : r.1 = H1 := congrArg Prod.fst (Except.ok.inj h)
      have h2 : [r.2] = [s] := congrArg Prod.snd (Except.ok.inj h)
      rw [← h1, ← List.head_eq_of_cons_eq h2]
      unfold usedScore at hu
      cases hk : H.score b.cnst with
      | some s =>
        rw [hk] at hu
        rw [← Except.ok.inj hu]
        exact hk
      | none =>
        rw [hk] at hu
        replace hu : freshScore sky G H b = .ok r := hu
        unfold freshScore at hu
        cases he : (evaluate (blkEnv G (locate sky G H b) b) b.content H.sun).2 with
        | error e => rw [he] at hu; cases hu
        | ok s =>
          rw [he] at hu
          rw [← Except.ok.inj hu]
          show (if b.cnst = b.cnst then some s else _) = some s
          rw [if_pos rfl]
  constructor
  · show (usedScore sky G' (insertBlk H1 b) b).bind _ = _
    have : usedScore sky G' (insertBlk H1 b) b = .ok (insertBlk H1 b, s) := by
      unfold usedScore
      rw [show (insertBlk H1 b).score b.cnst = some s from key]
      rfl
    rw [this]
    rfl
  · intro t ht
    unfold sliceTarget
    rw [show (insertBlk H1 b).pos t = none from if_pos ht]
    rfl

/-! A target which is always at 45 degrees, and one which never rises, with the same constraints object or not. -/

/-- Two targets. -/
def demoSky (t : Nat) (_ : Grid) : Ephem :=
  ⟨fun _ => if t = 0 then 45 else -45, fun _ => 0, fun _ => 0, fun _ => 0, false, fun _ => 90, false⟩

/-- Four slots. -/
def demoGrid : Grid := ⟨4, fun i => i, fun i => i, fun i => i⟩

/-- Nothing evaluated. -/
def demoHeap : Heap := ⟨fun _ => none, fun _ => none, fun _ => none⟩

/-- A block on target `t` with constraints object `c`. -/
def demoBlk (c t : Nat) : Blk := ⟨c, [(1, .elevation 0 true)], some t, 1⟩

example : (usedScores demoSky demoGrid demoHeap [demoBlk 0 0, demoBlk 1 1]).toOption.map (fun r => r.2.map fun s => s 2) = some [1, 0] := by
  decide +kernel

example : (usedScores demoSky demoGrid demoHeap [demoBlk 0 0, demoBlk 0 1]).toOption.map (fun r => r.2.map fun s => s 2) = some [1, 1] := by
  decide +kernel

example : (ownScore demoSky demoGrid (fun _ => none) (demoBlk 0 1)).toOption.map (fun s => s 2) = some 0 := by decide +kernel

end Verif.Cnst
