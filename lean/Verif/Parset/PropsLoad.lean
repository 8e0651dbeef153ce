import Verif.Parset.PropsReread
import Verif.Parset.PropsValidate

/-!
# User parsets made from parset files (properties C101 and C102)
-/

namespace Verif.Parset

/-! ## Dictionaries -/

theorem dictSet_keys {α β : Type} [DecidableEq α] (d : List (α × β)) (k : α) (v : β) :
    (dictSet d k v).map Prod.fst = if k ∈ d.map Prod.fst then d.map Prod.fst else d.map Prod.fst ++ [k] := by
  unfold dictSet
  by_cases h : k ∈ d.map Prod.fst
  · rw [if_pos h, if_pos h, List.map_map]
    apply List.map_congr_left
    intro p _
    show (if p.1 = k then (k, v) else p).1 = p.1
    by_cases e : p.1 = k
    · rw [if_pos e, e]
    · rw [if_neg e]
  · rw [if_neg h, if_neg h, List.map_append]; rfl

/-- No key twice. -/
theorem dictSet_nodup {α β : Type} [DecidableEq α] {d : List (α × β)} (h : (d.map Prod.fst).Nodup) (k : α) (v : β) : ((dictSet d k v).map Prod.fst).Nodup := by
  rw [dictSet_keys]
  by_cases e : k ∈ d.map Prod.fst
  · rw [if_pos e]; exact h
  · rw [if_neg e]; exact List.nodup_append.mpr ⟨h, by simp, by rintro a ha b hb rfl; rw [List.mem_singleton.mp hb] at ha; exact e ha⟩

theorem dictGet_cons {α β : Type} [DecidableEq α] (p : α × β) (d : List (α × β)) (j : α) : dictGet (p :: d) j = if p.1 = j then some p.2 else dictGet d j := by
  unfold dictGet
  by_cases h : p.1 = j
  · rw [List.find?_cons_of_pos (by simp [h]), if_pos h]; rfl
  · rw [List.find?_cons_of_neg (by simp [h]), if_neg h]

theorem dictGet_append {α β : Type} [DecidableEq α] (p : α × β) (j : α) : ∀ d : List (α × β), dictGet (d ++ [p]) j = (dictGet d j).or (if p.1 = j then some p.2 else none)
  | [] => by show dictGet [p] j = _; rw [dictGet_cons]; rfl
  | q :: d => by
    rw [List.cons_append, dictGet_cons, dictGet_cons, dictGet_append p j d]
    by_cases h : q.1 = j
    · rw [if_pos h, if_pos h]; rfl
    · rw [if_neg h, if_neg h]

theorem dictGet_none {α β : Type} [DecidableEq α] {d : List (α × β)} {j : α} (h : j ∉ d.map Prod.fst) : dictGet d j = none := by
  unfold dictGet
  rw [List.find?_eq_none.mpr]
  · rfl
  · intro p hp; simpa using fun e => h (List.mem_map.mpr ⟨p, hp, e⟩)

/-- The last assignment of a key counts, and the others are kept. -/
theorem dictGet_set {α β : Type} [DecidableEq α] (d : List (α × β)) (k : α) (v : β) (j : α) : dictGet (dictSet d k v) j = if j = k then some v else dictGet d j := by
  unfold dictSet
  by_cases h : k ∈ d.map Prod.fst
  · rw [if_pos h]
    induction d with
    | nil => cases h
    | cons p d ih =>
      rw [List.map_cons, dictGet_cons, dictGet_cons]
      by_cases e : p.1 = k
      · rw [if_pos e]
        by_cases ej : j = k
        · rw [if_pos ej, if_pos ej.symm]
        · have e' : ¬p.1 = j := fun e' => ej (e'.symm.trans e)
          rw [if_neg ej, if_neg (fun e => ej e.symm), if_neg e']
          by_cases hm : k ∈ d.map Prod.fst
          · rw [ih hm, if_neg ej]
          · congr 1
            conv_rhs => rw [← List.map_id d]
            apply List.map_congr_left
            intro q hq
            rw [if_neg (fun e => hm (List.mem_map.mpr ⟨q, hq, e⟩))]; rfl
      · rw [if_neg e]
        have hm : k ∈ d.map Prod.fst := by
          rcases List.mem_cons.mp h with h | h
          · exact absurd h.symm e
          · exact h
        rw [ih hm]
        by_cases e1 : p.1 = j
        · rw [if_pos e1, if_pos e1, if_neg (fun e2 => e (e1.trans e2))]
        · rw [if_neg e1, if_neg e1]
  · rw [if_neg h, dictGet_append]
    by_cases e : j = k
    · subst e; rw [if_pos rfl, if_pos rfl, dictGet_none h]; rfl
    · rw [if_neg e, if_neg (fun h => e h.symm), Option.or_none]

theorem dictGet_mem {α β : Type} [DecidableEq α] {d : List (α × β)} (hn : (d.map Prod.fst).Nodup) (p : α × β) : p ∈ d ↔ dictGet d p.1 = some p.2 := by
  induction d with
  | nil => simp [dictGet]
  | cons q d ih =>
    rw [List.map_cons, List.nodup_cons] at hn
    rw [dictGet_cons, List.mem_cons]
    by_cases e : q.1 = p.1
    · rw [if_pos e]
      constructor
      · rintro (h | h)
        · rw [h]
        · exact absurd (List.mem_map.mpr ⟨p, h, e.symm⟩) hn.1
      · intro h; left; injection h with h; exact (Prod.ext e h).symm
    · rw [if_neg e, ← ih hn.2]
      constructor
      · rintro (h | h)
        · exact absurd (by rw [h]) e
        · exact h
      · exact Or.inr

/-! ## Blocks -/

/-- Value of a property of a block made from a dictionary. -/
theorem lastGiven_copy (isot : Str → Str) (rows : List Row) {d : Props} (hn : (d.map Prod.fst).Nodup) (k : Str) :
    lastGiven (copyFields isot rows d) k = if k ∈ rows.map Row.key then (dictGet d k).map (PVal.toU isot) else none := by
  unfold copyFields
  by_cases hk : k ∈ rows.map Row.key
  · rw [if_pos hk]
    cases hg : dictGet d k with
    | none =>
      apply lastGiven_none
      rintro p hp rfl
      obtain ⟨q, hq, rfl⟩ := List.mem_map.mp hp
      have := (dictGet_mem hn q).mp (List.mem_filter.mp hq).1
      rw [show dictGet d q.1 = none from hg] at this; cases this
    | some v =>
      unfold lastGiven
      have hm : (k, v.toU isot) ∈ ((d.filter fun p => p.1 ∈ rows.map Row.key).map fun p => (p.1, p.2.toU isot)).reverse :=
        List.mem_reverse.mpr (List.mem_map.mpr ⟨(k, v), List.mem_filter.mpr ⟨(dictGet_mem hn (k, v)).mpr hg, by simpa using hk⟩, rfl⟩)
      cases hf : List.find? (fun p => decide (p.1 = k)) ((d.filter fun p => p.1 ∈ rows.map Row.key).map fun p => (p.1, p.2.toU isot)).reverse with
      | none => have := List.find?_eq_none.mp hf _ hm; simp at this
      | some q =>
        have hq := List.mem_of_find?_eq_some hf
        have hqk := List.find?_some hf
        simp only [decide_eq_true_eq] at hqk
        obtain ⟨r, hr, rfl⟩ := List.mem_map.mp (List.mem_reverse.mp hq)
        have := (dictGet_mem hn r).mp (List.mem_filter.mp hr).1
        have hqk : r.1 = k := hqk
        rw [hqk, hg] at this
        injection this with this
        rw [this]; rfl
  · rw [if_neg hk]
    apply lastGiven_none
    rintro p hp rfl
    obtain ⟨q, hq, rfl⟩ := List.mem_map.mp hp
    apply hk
    simpa using (List.mem_filter.mp hq).2

theorem fresh_plain (rows : List Row) : ∀ p ∈ fresh rows, p.modified = false := by
  intro p hp; obtain ⟨r, -, rfl⟩ := List.mem_map.mp hp; rfl

theorem setKey_modify (b : Block) (kw : List (Str × UVal)) (kv : Str × UVal) : setKey kv (modify b kw) = modify b (kw ++ [kv]) := by
  unfold modify; rw [List.foldl_append]; rfl

/-- **C101**: the lines written for a block made from a dictionary: one for each property of the block that the dictionary has, with its value, and one for each required property
that it lacks, with the default. -/
theorem block_lines (isot : Str → Str) (rows : List Row) {d : Props} (hn : (d.map Prod.fst).Nodup) (k t : Str) :
    (k, t) ∈ written (blockOf isot rows d) ↔ ∃ r ∈ rows, r.key = k ∧
      ((∃ v, dictGet d k = some v ∧ t = (v.toU isot).stored) ∨ (dictGet d k = none ∧ r.required = true ∧ t = r.value)) := by
  unfold blockOf
  rw [written_exact _ _ (fresh_plain rows), lastGiven_copy isot rows hn]
  constructor
  · rintro ⟨p, hp, rfl, h⟩
    obtain ⟨r, hr, rfl⟩ := List.mem_map.mp hp
    rw [if_pos (List.mem_map_of_mem hr)] at h
    refine ⟨r, hr, rfl, ?_⟩
    rcases h with ⟨x, hx, rfl⟩ | ⟨hx, h2, h3⟩
    · obtain ⟨v, hv, rfl⟩ := Option.map_eq_some_iff.mp hx
      exact Or.inl ⟨v, hv, rfl⟩
    · exact Or.inr ⟨Option.map_eq_none_iff.mp hx, h2, h3⟩
  · rintro ⟨r, hr, rfl, h⟩
    refine ⟨⟨r.key, r.value, false, r.required⟩, List.mem_map.mpr ⟨r, hr, rfl⟩, rfl, ?_⟩
    rw [if_pos (List.mem_map_of_mem hr)]
    rcases h with ⟨v, hv, rfl⟩ | ⟨hx, h2, h3⟩
    · exact Or.inl ⟨_, by rw [hv]; rfl, rfl⟩
    · exact Or.inr ⟨by rw [hx]; rfl, h2, h3⟩

/-! ## Attachment to the analog beams -/

/-- A numerical beam (or phase center) attached to the analog beam number `n`. -/
def beamsOf (isot : Str → Str) (rows : List Row) (n : Nat) (l : List (Nat × Props)) : List Block :=
  (l.filter fun d => noBeamOf d.2 = .ok n).map fun d => setKey ("noBeam".toList, .text (natStr n)) (blockOf isot rows d.2)

theorem setKey_twice (kv : Str × UVal) (b : Block) : setKey kv (setKey kv b) = setKey kv b := by
  unfold setKey
  rw [List.map_map]
  apply List.map_congr_left
  intro p _
  by_cases h : p.key = kv.1
  · simp only [if_pos h, Function.comp]
  · simp only [if_neg h, Function.comp]

/-- All blocks hold the number of their analog beam. -/
def Settled (l : List (Block × List Block × List Block)) : Prop :=
  ∀ i a, l[i]? = some a → (∀ b ∈ a.2.1, setKey ("noBeam".toList, .text (natStr i)) b = b) ∧ (∀ b ∈ a.2.2, setKey ("noBeam".toList, .text (natStr i)) b = b)

theorem map_settled {n : Nat} {l : List Block} (h : ∀ b ∈ l, setKey ("noBeam".toList, .text (natStr n)) b = b) : l.map (setKey ("noBeam".toList, .text (natStr n))) = l := by
  conv_rhs => rw [← List.map_id l]
  exact List.map_congr_left h

theorem beamsOf_cons (isot : Str → Str) (rows : List Row) (n : Nat) (d : Nat × Props) (ds : List (Nat × Props)) (b : Nat) (h : noBeamOf d.2 = .ok b) :
    beamsOf isot rows n (d :: ds) = (if b = n then [setKey ("noBeam".toList, .text (natStr n)) (blockOf isot rows d.2)] else []) ++ beamsOf isot rows n ds := by
  unfold beamsOf
  by_cases e : b = n
  · rw [if_pos e, List.filter_cons_of_pos (by rw [h, e]; simp), List.map_cons]; rfl
  · rw [if_neg e, List.filter_cons_of_neg]
    · rfl
    · rw [h]; simpa using e

theorem beamsOf_settled (isot : Str → Str) (rows : List Row) (n : Nat) (l : List (Nat × Props)) : ∀ b ∈ beamsOf isot rows n l, setKey ("noBeam".toList, .text (natStr n)) b = b := by
  intro b hb
  obtain ⟨d, -, rfl⟩ := List.mem_map.mp hb
  exact setKey_twice _ _

/-- The numerical beams go, in order, to the analog beams at the positions they name. -/
theorem addBlocks_exact (isot : Str → Str) : ∀ (ds : List (Nat × Props)) (l : List (Block × List Block × List Block)), Settled l →
    (∀ d ∈ ds, ∃ n, noBeamOf d.2 = .ok n ∧ n < l.length) →
    ∃ l', addBlocks isot ds l = .ok l' ∧ Settled l' ∧ ∀ i, l'[i]? = (l[i]?).map fun a => (a.1, a.2.1 ++ beamsOf isot beamRows i ds, a.2.2)
  | [], l, hs, _ => ⟨l, rfl, hs, fun i => by
      cases l[i]? with
      | none => rfl
      | some a => show some a = some (a.1, a.2.1 ++ [], a.2.2); rw [List.append_nil]⟩
  | d :: ds, l, hs, h => by
    obtain ⟨n, hn, hl⟩ := h d List.mem_cons_self
    have hm : ∀ i, (l.modify n fun a => propagate n (a.1, a.2.1 ++ [blockOf isot beamRows d.2], a.2.2))[i]? =
        (l[i]?).map fun a => (a.1, a.2.1 ++ (if n = i then [setKey ("noBeam".toList, .text (natStr i)) (blockOf isot beamRows d.2)] else []), a.2.2) := by
      intro i
      rw [List.getElem?_modify]
      cases hi : l[i]? with
      | none => rfl
      | some a =>
        by_cases e : n = i
        · subst e
          simp only [if_true, Option.map_eq_map, Option.map_some, propagate, List.map_append, List.map_cons, List.map_nil]
          rw [map_settled (hs n a hi).1, map_settled (hs n a hi).2]
        · simp only [if_neg e, List.append_nil, Option.map_eq_map, Option.map_some]
    have hs' : Settled (l.modify n fun a => propagate n (a.1, a.2.1 ++ [blockOf isot beamRows d.2], a.2.2)) := by
      intro i a hi
      rw [hm] at hi
      obtain ⟨c, hc, rfl⟩ := Option.map_eq_some_iff.mp hi
      refine ⟨fun b hb => ?_, (hs i c hc).2⟩
      rcases List.mem_append.mp hb with hb | hb
      · exact (hs i c hc).1 b hb
      · by_cases e : n = i
        · rw [if_pos e] at hb; rw [List.mem_singleton.mp hb]; exact setKey_twice _ _
        · rw [if_neg e] at hb; cases hb
    obtain ⟨l', h1, h2, h3⟩ := addBlocks_exact isot ds _ hs' (fun e he => by
      obtain ⟨m, hm, hlt⟩ := h e (List.mem_cons_of_mem _ he)
      exact ⟨m, hm, by rw [List.length_modify]; exact hlt⟩)
    refine ⟨l', ?_, h2, fun i => ?_⟩
    · show (noBeamOf d.2).bind _ = _
      rw [hn]
      show (addBlock n _ l).bind _ = _
      unfold addBlock
      rw [if_neg (by omega)]
      exact h1
    · rw [h3, hm, Option.map_map]
      cases l[i]? with
      | none => rfl
      | some a => show some (a.1, (a.2.1 ++ _) ++ _, a.2.2) = some _; rw [beamsOf_cons isot beamRows i d ds n hn, List.append_assoc]

/-- The phase centers go, in order, to the analog beams at the positions they name. -/
theorem addCenters_exact (isot : Str → Str) : ∀ (ds : List (Nat × Props)) (l : List (Block × List Block × List Block)), Settled l →
    (∀ d ∈ ds, ∃ n, noBeamOf d.2 = .ok n ∧ n < l.length) →
    ∃ l', addCenters isot ds l = .ok l' ∧ Settled l' ∧ ∀ i, l'[i]? = (l[i]?).map fun a => (a.1, a.2.1, a.2.2 ++ beamsOf isot pcRows i ds)
  | [], l, hs, _ => ⟨l, rfl, hs, fun i => by
      cases l[i]? with
      | none => rfl
      | some a => show some a = some (a.1, a.2.1, a.2.2 ++ []); rw [List.append_nil]⟩
  | d :: ds, l, hs, h => by
    obtain ⟨n, hn, hl⟩ := h d List.mem_cons_self
    have hm : ∀ i, (l.modify n fun a => propagate n (a.1, a.2.1, a.2.2 ++ [blockOf isot pcRows d.2]))[i]? =
        (l[i]?).map fun a => (a.1, a.2.1, a.2.2 ++ (if n = i then [setKey ("noBeam".toList, .text (natStr i)) (blockOf isot pcRows d.2)] else [])) := by
      intro i
      rw [List.getElem?_modify]
      cases hi : l[i]? with
      | none => rfl
      | some a =>
        by_cases e : n = i
        · subst e
          simp only [if_true, Option.map_eq_map, Option.map_some, propagate, List.map_append, List.map_cons, List.map_nil]
          rw [map_settled (hs n a hi).1, map_settled (hs n a hi).2]
        · simp only [if_neg e, List.append_nil, Option.map_eq_map, Option.map_some]
    have hs' : Settled (l.modify n fun a => propagate n (a.1, a.2.1, a.2.2 ++ [blockOf isot pcRows d.2])) := by
      intro i a hi
      rw [hm] at hi
      obtain ⟨c, hc, rfl⟩ := Option.map_eq_some_iff.mp hi
      refine ⟨(hs i c hc).1, fun b hb => ?_⟩
      rcases List.mem_append.mp hb with hb | hb
      · exact (hs i c hc).2 b hb
      · by_cases e : n = i
        · rw [if_pos e] at hb; rw [List.mem_singleton.mp hb]; exact setKey_twice _ _
        · rw [if_neg e] at hb; cases hb
    obtain ⟨l', h1, h2, h3⟩ := addCenters_exact isot ds _ hs' (fun e he => by
      obtain ⟨m, hm, hlt⟩ := h e (List.mem_cons_of_mem _ he)
      exact ⟨m, hm, by rw [List.length_modify]; exact hlt⟩)
    refine ⟨l', ?_, h2, fun i => ?_⟩
    · show (noBeamOf d.2).bind _ = _
      rw [hn]
      show (addCenter n _ l).bind _ = _
      unfold addCenter
      rw [if_neg (by omega)]
      exact h1
    · rw [h3, hm, Option.map_map]
      cases l[i]? with
      | none => rfl
      | some a => show some (a.1, a.2.1, (a.2.2 ++ _) ++ _) = some _; rw [beamsOf_cons isot pcRows i d ds n hn, List.append_assoc]

/-- **C101**: when every numerical beam and phase center names an existing position of analog beam, loading succeeds; analog beams keep their order, and the beams at a position
are those that name it, in the order of the file, with this position as number of analog beam. -/
theorem load_exact (isot : Str → Str) (p : PSet) (hd : ∀ d ∈ p.digis, ∃ n, noBeamOf d.2 = .ok n ∧ n < p.anas.length) (hp : ∀ d ∈ p.pcs, ∃ n, noBeamOf d.2 = .ok n ∧ n < p.anas.length) :
    ∃ u, load isot p = .ok u ∧ u.obs = blockOf isot obsRows p.obs ∧ u.out = blockOf isot outRows p.out ∧
      ∀ i, u.anas[i]? = (p.anas[i]?).map fun a => (blockOf isot anaRows a.2, beamsOf isot beamRows i p.digis, beamsOf isot pcRows i p.pcs) := by
  have hs : Settled (p.anas.map fun a => (blockOf isot anaRows a.2, ([] : List Block), ([] : List Block))) := by
    intro i a hi
    rw [List.getElem?_map] at hi
    obtain ⟨c, -, rfl⟩ := Option.map_eq_some_iff.mp hi
    exact ⟨(fun b hb => by cases hb), (fun b hb => by cases hb)⟩
  obtain ⟨l1, h1, hs1, g1⟩ := addBlocks_exact isot p.digis _ hs (by simpa using hd)
  have hlen : l1.length = p.anas.length := by
    have : ∀ i, l1[i]? = none ↔ p.anas[i]? = none := fun i => by rw [g1, List.getElem?_map]; cases p.anas[i]? <;> simp
    have a := (this p.anas.length).mpr (by simp)
    have b := (this l1.length).mp (by simp)
    rw [List.getElem?_eq_none_iff] at a b
    omega
  obtain ⟨l2, h2, -, g2⟩ := addCenters_exact isot p.pcs l1 hs1 (by rw [hlen]; exact hp)
  refine ⟨⟨blockOf isot obsRows p.obs, blockOf isot outRows p.out, l2⟩, ?_, rfl, rfl, fun i => ?_⟩
  · unfold load; rw [h1]; show (addCenters isot p.pcs l1).map _ = _; rw [h2]; rfl
  · rw [g2, g1, List.getElem?_map]
    cases p.anas[i]? with
    | none => rfl
    | some a => rfl

/-! ### Which files can be loaded -/

theorem addBlock_length {n : Nat} {b : Block} {l l' : List (Block × List Block × List Block)} (h : addBlock n b l = .ok l') : n < l.length ∧ l'.length = l.length := by
  unfold addBlock at h
  by_cases e : l.length ≤ n
  · rw [if_pos e] at h; cases h
  · rw [if_neg e] at h
    injection h with h
    rw [← h, List.length_modify]
    exact ⟨by omega, rfl⟩

theorem addCenter_length {n : Nat} {b : Block} {l l' : List (Block × List Block × List Block)} (h : addCenter n b l = .ok l') : n < l.length ∧ l'.length = l.length := by
  unfold addCenter at h
  by_cases e : l.length ≤ n
  · rw [if_pos e] at h; cases h
  · rw [if_neg e] at h
    injection h with h
    rw [← h, List.length_modify]
    exact ⟨by omega, rfl⟩

theorem addBlocks_ok (isot : Str → Str) : ∀ (ds : List (Nat × Props)) (l l' : List (Block × List Block × List Block)), addBlocks isot ds l = .ok l' →
    (∀ d ∈ ds, ∃ n, noBeamOf d.2 = .ok n ∧ n < l.length) ∧ l'.length = l.length
  | [], l, l', h => by injection h with h; rw [h]; exact ⟨(fun d hd => by cases hd), rfl⟩
  | d :: ds, l, l', h => by
    change (noBeamOf d.2).bind _ = _ at h
    cases hn : noBeamOf d.2 with
    | error e => rw [hn] at h; cases h
    | ok n =>
      rw [hn] at h
      change (addBlock n _ l).bind _ = _ at h
      cases ha : addBlock n (blockOf isot beamRows d.2) l with
      | error e => rw [ha] at h; cases h
      | ok m =>
        rw [ha] at h
        obtain ⟨h1, h2⟩ := addBlock_length ha
        obtain ⟨h3, h4⟩ := addBlocks_ok isot ds m l' h
        refine ⟨fun e he => ?_, h4.trans h2⟩
        rcases List.mem_cons.mp he with he | he
        · rw [he]; exact ⟨n, hn, h1⟩
        · rw [← h2]; exact h3 e he

theorem addCenters_ok (isot : Str → Str) : ∀ (ds : List (Nat × Props)) (l l' : List (Block × List Block × List Block)), addCenters isot ds l = .ok l' →
    (∀ d ∈ ds, ∃ n, noBeamOf d.2 = .ok n ∧ n < l.length) ∧ l'.length = l.length
  | [], l, l', h => by injection h with h; rw [h]; exact ⟨(fun d hd => by cases hd), rfl⟩
  | d :: ds, l, l', h => by
    change (noBeamOf d.2).bind _ = _ at h
    cases hn : noBeamOf d.2 with
    | error e => rw [hn] at h; cases h
    | ok n =>
      rw [hn] at h
      change (addCenter n _ l).bind _ = _ at h
      cases ha : addCenter n (blockOf isot pcRows d.2) l with
      | error e => rw [ha] at h; cases h
      | ok m =>
        rw [ha] at h
        obtain ⟨h1, h2⟩ := addCenter_length ha
        obtain ⟨h3, h4⟩ := addCenters_ok isot ds m l' h
        refine ⟨fun e he => ?_, h4.trans h2⟩
        rcases List.mem_cons.mp he with he | he
        · rw [he]; exact ⟨n, hn, h1⟩
        · rw [← h2]; exact h3 e he

/-- **C101**: a parset can be loaded exactly when each of its numerical beams and phase centers gives as analog beam a number smaller than the count of analog beams. -/
theorem load_succeeds_iff (isot : Str → Str) (p : PSet) : (∃ u, load isot p = .ok u) ↔
    (∀ d ∈ p.digis, ∃ n, noBeamOf d.2 = .ok n ∧ n < p.anas.length) ∧ ∀ d ∈ p.pcs, ∃ n, noBeamOf d.2 = .ok n ∧ n < p.anas.length := by
  constructor
  · rintro ⟨u, h⟩
    unfold load at h
    cases h1 : addBlocks isot p.digis (p.anas.map fun a => (blockOf isot anaRows a.2, [], [])) with
    | error e => rw [h1] at h; cases h
    | ok l =>
      rw [h1] at h
      change (addCenters isot p.pcs l).map _ = _ at h
      cases h2 : addCenters isot p.pcs l with
      | error e => rw [h2] at h; cases h
      | ok m =>
        obtain ⟨a, b⟩ := addBlocks_ok isot _ _ _ h1
        obtain ⟨c, -⟩ := addCenters_ok isot _ _ _ h2
        rw [List.length_map] at a b
        rw [b] at c
        exact ⟨a, c⟩
  · rintro ⟨h1, h2⟩
    obtain ⟨u, h, -⟩ := load_exact isot p h1 h2
    exact ⟨u, h⟩

/-! ### What is read from a file -/

/-- Dictionaries of a file: no key twice, and each value is that of some text. -/
def Read (isTime : Str → Bool) (isFloat : IsFloat) (d : Props) : Prop :=
  (d.map Prod.fst).Nodup ∧ ∀ k v, dictGet d k = some v → ∃ t, setItem isTime isFloat k t = .ok v

/-- All dictionaries of a parset are so, and no beam number appears twice. -/
structure PSet.Valid (isTime : Str → Bool) (isFloat : IsFloat) (p : PSet) : Prop where
  obs : Read isTime isFloat p.obs
  out : Read isTime isFloat p.out
  anas : (p.anas.map Prod.fst).Nodup ∧ ∀ x ∈ p.anas, Read isTime isFloat x.2
  digis : (p.digis.map Prod.fst).Nodup ∧ ∀ x ∈ p.digis, Read isTime isFloat x.2
  pcs : (p.pcs.map Prod.fst).Nodup ∧ ∀ x ∈ p.pcs, Read isTime isFloat x.2

theorem read_set {isTime : Str → Bool} {isFloat : IsFloat} {d : Props} (h : Read isTime isFloat d) {k t : Str} {v : PVal} (hv : setItem isTime isFloat k t = .ok v) :
    Read isTime isFloat (dictSet d k v) := by
  refine ⟨dictSet_nodup h.1 k v, fun j w hw => ?_⟩
  rw [dictGet_set] at hw
  by_cases e : j = k
  · rw [if_pos e] at hw
    injection hw with hw
    rw [e, ← hw]; exact ⟨t, hv⟩
  · rw [if_neg e] at hw; exact h.2 j w hw

theorem mem_dictSet {α β : Type} [DecidableEq α] {d : List (α × β)} {k : α} {v : β} {x : α × β} (h : x ∈ dictSet d k v) : x ∈ d ∨ x = (k, v) := by
  unfold dictSet at h
  by_cases e : k ∈ d.map Prod.fst
  · rw [if_pos e] at h
    obtain ⟨p, hp, rfl⟩ := List.mem_map.mp h
    by_cases e' : p.1 = k
    · rw [if_pos e']; exact Or.inr rfl
    · rw [if_neg e']; exact Or.inl hp
  · rw [if_neg e] at h
    rcases List.mem_append.mp h with h | h
    · exact Or.inl h
    · exact Or.inr (List.mem_singleton.mp h)

theorem tag_read (isTime : Str → Bool) (isFloat : IsFloat) (tag : Str) (i : Nat) (h1 : hasSub "angle".toList (lower tag) = false)
    (h2 : hasSub "duration".toList (lower tag) = false) : Read isTime isFloat [(tag, .int i)] := by
  refine ⟨by simp, fun k v hv => ?_⟩
  rw [dictGet_cons] at hv
  by_cases e : tag = k
  · rw [if_pos e] at hv
    injection hv with hv
    subst e hv
    refine ⟨natStr i, ?_⟩
    have hcl : clean (natStr i) = natStr i := clean_id (notMem_natStr (by decide) i) (notMem_natStr (by decide) i)
    have hlow : ∀ s : Str, (∃ c ∈ s, c.isDigit = false) → lower (natStr i) ≠ s := by
      rintro s ⟨c, hc, hd⟩ rfl
      obtain ⟨x, hx, e⟩ := List.mem_map.mp hc
      have hdx := natStr_digits i x hx
      have : x.toLower = x := by
        unfold Char.toLower
        rw [dif_neg]
        rintro ⟨h1, -⟩
        unfold Char.isDigit at hdx
        simp only [Bool.and_eq_true, decide_eq_true_eq, ge_iff_le] at hdx
        have a := UInt32.le_iff_toNat_le.mp h1
        have b := UInt32.le_iff_toNat_le.mp hdx.2
        have e1 : 'A'.val.toNat = 65 := rfl
        have e2 : '9'.val.toNat = 57 := rfl
        omega
      rw [← e, this, hdx] at hd; cases hd
    unfold setItem
    simp only [hcl]
    rw [if_neg (by rintro ⟨e, -⟩; exact notMem_natStr (by decide) i (List.mem_of_mem_head? e)), if_neg (hlow _ ⟨'t', by decide, by decide⟩),
      if_neg (hlow _ ⟨'f', by decide, by decide⟩), if_neg (by rw [h1]; simp), if_neg (by rw [h2]; simp), if_pos (isDigits_natStr i), ofDigits_natStr]
  · rw [if_neg e] at hv; cases hv

theorem setBeam_valid {isTime : Str → Bool} {isFloat : IsFloat} {tag : Str} (h1 : hasSub "angle".toList (lower tag) = false) (h2 : hasSub "duration".toList (lower tag) = false)
    {d : List (Nat × Props)} (h : (d.map Prod.fst).Nodup ∧ ∀ x ∈ d, Read isTime isFloat x.2) (i : Nat) {k t : Str} {v : PVal} (hv : setItem isTime isFloat k t = .ok v) :
    ((setBeam tag d i k v).map Prod.fst).Nodup ∧ ∀ x ∈ setBeam tag d i k v, Read isTime isFloat x.2 := by
  unfold setBeam
  refine ⟨dictSet_nodup h.1 _ _, fun x hx => ?_⟩
  rcases mem_dictSet hx with hx | hx
  · exact h.2 x hx
  · rw [hx]
    refine read_set ?_ hv
    cases hg : dictGet d i with
    | none => exact tag_read isTime isFloat tag i h1 h2
    | some y => exact h.2 (i, y) ((dictGet_mem h.1 (i, y)).mpr hg)

theorem assign_valid {isTime : Str → Bool} {isFloat : IsFloat} {p : PSet} (h : p.Valid isTime isFloat) (s : Sect) {k t : Str} {v : PVal} (hv : setItem isTime isFloat k t = .ok v) :
    (p.assign s k v).Valid isTime isFloat := by
  cases s with
  | observation => exact ⟨read_set h.obs hv, h.out, h.anas, h.digis, h.pcs⟩
  | output => exact ⟨h.obs, read_set h.out hv, h.anas, h.digis, h.pcs⟩
  | anabeam i => exact ⟨h.obs, h.out, setBeam_valid (by decide) (by decide) h.anas i hv, h.digis, h.pcs⟩
  | beam i => exact ⟨h.obs, h.out, h.anas, setBeam_valid (by decide) (by decide) h.digis i hv, h.pcs⟩
  | phaseCenter i => exact ⟨h.obs, h.out, h.anas, h.digis, setBeam_valid (by decide) (by decide) h.pcs i hv⟩

theorem collect_valid {isTime : Str → Bool} {isFloat : IsFloat} : ∀ (l : List Entry) (p q : PSet), p.Valid isTime isFloat → collect isTime isFloat p l = .ok q → q.Valid isTime isFloat
  | [], p, q, hp, h => by injection h with h; rw [← h]; exact hp
  | e :: l, p, q, hp, h => by
    change (setItem isTime isFloat e.key e.value).bind _ = _ at h
    cases hv : setItem isTime isFloat e.key e.value with
    | error x => rw [hv] at h; cases h
    | ok v => rw [hv] at h; exact collect_valid l _ q (assign_valid hp e.sect hv) h

/-- What any file gives. -/
theorem readFile_valid {isTime : Str → Bool} {isFloat : IsFloat} {lines : List Str} {p : PSet} (h : readFile isTime isFloat lines = .ok p) : p.Valid isTime isFloat := by
  unfold readFile at h
  cases hd : decode none lines with
  | error e => rw [hd] at h; cases h
  | ok es =>
    rw [hd] at h
    have he : Read isTime isFloat [] := ⟨by simp, fun k v hv => by cases hv⟩
    exact collect_valid es _ p ⟨he, he, ⟨by simp, fun x hx => by cases hx⟩, ⟨by simp, fun x hx => by cases hx⟩, ⟨by simp, fun x hx => by cases hx⟩⟩ h

/-! ### Files written from what was loaded -/

theorem numbered_mem (f : Nat → Sect) : ∀ (l : List Block) (k : Nat) (e : Entry), e ∈ numberedEntries f k l ↔ ∃ j b, l[j]? = some b ∧ e ∈ blockEntries (f (k + j)) b
  | [], k, e => by constructor <;> · intro h; simp [numberedEntries] at h
  | b :: l, k, e => by
    unfold numberedEntries
    rw [List.mem_append, numbered_mem f l (k + 1) e]
    constructor
    · rintro (h | ⟨j, c, hj, h⟩)
      · exact ⟨0, b, rfl, h⟩
      · exact ⟨j + 1, c, hj, by rw [show k + (j + 1) = k + 1 + j by omega]; exact h⟩
    · rintro ⟨j, c, hj, h⟩
      cases j with
      | zero => left; injection hj with hj; rw [hj]; exact h
      | succ j => right; exact ⟨j, c, hj, by rw [show k + 1 + j = k + (j + 1) by omega]; exact h⟩

theorem mem_blockEntries {s : Sect} {b : Block} {k t : Str} (h : (k, t) ∈ written b) : (⟨s, k, t⟩ : Entry) ∈ blockEntries s b := List.mem_map.mpr ⟨(k, t), h, rfl⟩

theorem no_angle : ∀ k, k ∈ anaRows.map Row.key ∨ k ∈ beamRows.map Row.key ∨ k ∈ pcRows.map Row.key → hasSub "angle".toList (lower k) = false := by
  have h : ((anaRows ++ beamRows ++ pcRows).map Row.key).all (fun k => !hasSub "angle".toList (lower k)) = true := by decide +kernel
  intro k hk
  have := List.all_eq_true.mp h k (by
    rw [List.map_append, List.map_append, List.mem_append, List.mem_append]
    rcases hk with h | h | h
    · exact Or.inl (Or.inl h)
    · exact Or.inl (Or.inr h)
    · exact Or.inr h)
  simpa using this

/-- Values that a list can be written for: no empty list and no negative number. -/
def PVal.Writable (v : PVal) : Prop := v ≠ .list [] ∧ ∀ l, v = .list l → ∀ n, Item.int n ∈ l → 0 ≤ n

/-- **C101**: whatever file is read: each property of analog beams that the beam at position `i` of the file has is in the lines of analog beam `i` of the new file, and reading the
line gives the same value. -/
theorem load_analog_reread {isTime : Str → Bool} {isot : Str → Str} (hi : IsoLike isTime isot) {isFloat : IsFloat} {lines : List Str} {p : PSet}
    (hr : readFile isTime isFloat lines = .ok p) {u : UFile} (hu : load isot p = .ok u) {i n : Nat} {a : Props} (ha : p.anas[i]? = some (n, a)) {k : Str}
    (hk : k ∈ anaRows.map Row.key) {v : PVal} (hv : dictGet a k = some v) (hw : v.Writable) :
    ∃ t v', (⟨.anabeam i, k, t⟩ : Entry) ∈ u.entries ∧ setItem isTime isFloat k t = .ok v' ∧ v.Same isot v' := by
  have hval := readFile_valid hr
  obtain ⟨h1, h2⟩ := (load_succeeds_iff isot p).mp ⟨u, hu⟩
  obtain ⟨u', hu', -, -, hl⟩ := load_exact isot p h1 h2
  rw [hu] at hu'
  injection hu' with hu'
  subst hu'
  have hread := hval.anas.2 (n, a) (List.mem_of_getElem? ha)
  obtain ⟨t0, ht0⟩ := hread.2 k v hv
  obtain ⟨v', hv', hs⟩ := reread_exact hi isFloat ht0 (no_angle k (Or.inl hk)) hw.1 hw.2
  refine ⟨_, v', ?_, hv', hs⟩
  have hb : (u.anas.map Prod.fst)[i]? = some (blockOf isot anaRows a) := by rw [List.getElem?_map, hl, ha]; rfl
  obtain ⟨r, hrm, rfl⟩ := List.mem_map.mp hk
  have hm : (r.key, (v.toU isot).stored) ∈ written (blockOf isot anaRows a) := (block_lines isot anaRows hread.1 _ _).mpr ⟨r, hrm, rfl, Or.inl ⟨v, hv, rfl⟩⟩
  unfold UFile.entries
  refine List.mem_append_left _ (List.mem_append_left _ (List.mem_append_left _ (List.mem_append_right _ ?_)))
  exact (numbered_mem _ _ _ _).mpr ⟨i, _, hb, by rw [Nat.zero_add]; exact mem_blockEntries hm⟩

theorem lastGiven_concat (kw : List (Str × UVal)) (kv : Str × UVal) (k : Str) : lastGiven (kw ++ [kv]) k = if kv.1 = k then some kv.2 else lastGiven kw k := by
  unfold lastGiven
  rw [List.reverse_append]
  show (List.find? _ (kv :: kw.reverse)).map _ = _
  by_cases h : kv.1 = k
  · rw [List.find?_cons_of_pos (by simp [h]), if_pos h]; rfl
  · rw [List.find?_cons_of_neg (by simp [h]), if_neg h]

/-- Lines of a beam attached to the analog beam `n`. -/
theorem attached_lines (isot : Str → Str) (rows : List Row) {d : Props} (hn : (d.map Prod.fst).Nodup) {n : Nat} (hb : dictGet d "noBeam".toList = some (.int n)) {r : Row} (hr : r ∈ rows)
    {v : PVal} (hv : dictGet d r.key = some v) : (r.key, (v.toU isot).stored) ∈ written (setKey ("noBeam".toList, .text (natStr n)) (blockOf isot rows d)) := by
  unfold blockOf
  rw [setKey_modify, written_exact _ _ (fresh_plain rows)]
  refine ⟨⟨r.key, r.value, false, r.required⟩, List.mem_map.mpr ⟨r, hr, rfl⟩, rfl, Or.inl ⟨v.toU isot, ?_, rfl⟩⟩
  rw [lastGiven_concat]
  by_cases e : "noBeam".toList = r.key
  · rw [if_pos e]
    rw [← e, hb] at hv
    injection hv with hv
    rw [← hv]; rfl
  · rw [if_neg e, lastGiven_copy isot rows hn, if_pos (List.mem_map_of_mem hr), hv]; rfl

/-- **C101**: whatever file is read: each numerical beam is a numerical beam of the new file, all its properties are among its lines, and reading these lines gives the same values,
among which the number of its analog beam. -/
theorem load_beam_reread {isTime : Str → Bool} {isot : Str → Str} (hi : IsoLike isTime isot) {isFloat : IsFloat} {lines : List Str} {p : PSet}
    (hr : readFile isTime isFloat lines = .ok p) {u : UFile} (hu : load isot p = .ok u) {d : Nat × Props} (hd : d ∈ p.digis) {n : Nat}
    (hb : dictGet d.2 "noBeam".toList = some (.int n)) : ∃ j, ∀ k ∈ beamRows.map Row.key, ∀ v, dictGet d.2 k = some v → v.Writable →
      ∃ t v', (⟨.beam j, k, t⟩ : Entry) ∈ u.entries ∧ setItem isTime isFloat k t = .ok v' ∧ v.Same isot v' := by
  have hval := readFile_valid hr
  obtain ⟨h1, h2⟩ := (load_succeeds_iff isot p).mp ⟨u, hu⟩
  obtain ⟨u', hu', -, -, hl⟩ := load_exact isot p h1 h2
  rw [hu] at hu'
  injection hu' with hu'
  subst hu'
  have hread := hval.digis.2 d hd
  have hno : noBeamOf d.2 = .ok n := by unfold noBeamOf; rw [hb]; rfl
  obtain ⟨m, hm, hlt⟩ := h1 d hd
  rw [hno] at hm
  injection hm with hm
  subst hm
  obtain ⟨a, ha⟩ : ∃ a, p.anas[n]? = some a := ⟨_, List.getElem?_eq_getElem hlt⟩
  have hmem : setKey ("noBeam".toList, .text (natStr n)) (blockOf isot beamRows d.2) ∈ u.anas.flatMap fun a => a.2.1 := by
    refine List.mem_flatMap.mpr ⟨_, List.mem_of_getElem? (i := n) (by rw [hl, ha]; rfl), ?_⟩
    exact List.mem_map.mpr ⟨d, List.mem_filter.mpr ⟨hd, by rw [hno]; simp⟩, rfl⟩
  obtain ⟨j, hj⟩ := List.mem_iff_getElem?.mp hmem
  refine ⟨j, fun k hk v hv hw => ?_⟩
  obtain ⟨t0, ht0⟩ := hread.2 k v hv
  obtain ⟨v', hv', hs⟩ := reread_exact hi isFloat ht0 (no_angle k (Or.inr (Or.inl hk))) hw.1 hw.2
  refine ⟨_, v', ?_, hv', hs⟩
  obtain ⟨r, hrm, rfl⟩ := List.mem_map.mp hk
  unfold UFile.entries
  refine List.mem_append_left _ (List.mem_append_left _ (List.mem_append_right _ ?_))
  exact (numbered_mem _ _ _ _).mpr ⟨j, _, hj, by rw [Nat.zero_add]; exact mem_blockEntries (attached_lines isot beamRows hread.1 hb hrm hv)⟩

/-- **C101**: the same for the phase centers. -/
theorem load_center_reread {isTime : Str → Bool} {isot : Str → Str} (hi : IsoLike isTime isot) {isFloat : IsFloat} {lines : List Str} {p : PSet}
    (hr : readFile isTime isFloat lines = .ok p) {u : UFile} (hu : load isot p = .ok u) {d : Nat × Props} (hd : d ∈ p.pcs) {n : Nat}
    (hb : dictGet d.2 "noBeam".toList = some (.int n)) : ∃ j, ∀ k ∈ pcRows.map Row.key, ∀ v, dictGet d.2 k = some v → v.Writable →
      ∃ t v', (⟨.phaseCenter j, k, t⟩ : Entry) ∈ u.entries ∧ setItem isTime isFloat k t = .ok v' ∧ v.Same isot v' := by
  have hval := readFile_valid hr
  obtain ⟨h1, h2⟩ := (load_succeeds_iff isot p).mp ⟨u, hu⟩
  obtain ⟨u', hu', -, -, hl⟩ := load_exact isot p h1 h2
  rw [hu] at hu'
  injection hu' with hu'
  subst hu'
  have hread := hval.pcs.2 d hd
  have hno : noBeamOf d.2 = .ok n := by unfold noBeamOf; rw [hb]; rfl
  obtain ⟨m, hm, hlt⟩ := h2 d hd
  rw [hno] at hm
  injection hm with hm
  subst hm
  obtain ⟨a, ha⟩ : ∃ a, p.anas[n]? = some a := ⟨_, List.getElem?_eq_getElem hlt⟩
  have hmem : setKey ("noBeam".toList, .text (natStr n)) (blockOf isot pcRows d.2) ∈ u.anas.flatMap fun a => a.2.2 := by
    refine List.mem_flatMap.mpr ⟨_, List.mem_of_getElem? (i := n) (by rw [hl, ha]; rfl), ?_⟩
    exact List.mem_map.mpr ⟨d, List.mem_filter.mpr ⟨hd, by rw [hno]; simp⟩, rfl⟩
  obtain ⟨j, hj⟩ := List.mem_iff_getElem?.mp hmem
  refine ⟨j, fun k hk v hv hw => ?_⟩
  obtain ⟨t0, ht0⟩ := hread.2 k v hv
  obtain ⟨v', hv', hs⟩ := reread_exact hi isFloat ht0 (no_angle k (Or.inr (Or.inr hk))) hw.1 hw.2
  refine ⟨_, v', ?_, hv', hs⟩
  obtain ⟨r, hrm, rfl⟩ := List.mem_map.mp hk
  unfold UFile.entries
  refine List.mem_append_left _ (List.mem_append_right _ ?_)
  exact (numbered_mem _ _ _ _).mpr ⟨j, _, hj, by rw [Nat.zero_add]; exact mem_blockEntries (attached_lines isot pcRows hread.1 hb hrm hv)⟩
/-! ### Values that are lost -/

/-- **C101** fails for a list whose ranges are all decreasing: it is empty, and the list read from the new file has an empty text. -/
theorem reload_empty_violated (isTime : Str → Bool) (isFloat : IsFloat) (isot : Str → Str) : setItem isTime isFloat "maList".toList "[5..3]".toList = .ok (.list []) ∧
    setItem isTime isFloat "maList".toList ((PVal.list []).toU isot).stored = .ok (.list [.str []]) := ⟨by rfl, by rfl⟩

/-- **C101** fails for negative numbers, which ranges only understand: they are texts in the new file. -/
theorem reload_negative_violated (isTime : Str → Bool) (isFloat : IsFloat) (isot : Str → Str) : setItem isTime isFloat "filter".toList "[-1..1]".toList = .ok (.list [.int (-1), .int 0, .int 1]) ∧
    setItem isTime isFloat "filter".toList ((PVal.list [.int (-1), .int 0, .int 1]).toU isot).stored = .ok (.list [.str "-1".toList, .int 0, .int 1]) := ⟨by rfl, by rfl⟩

/-! ### Where the structure is lost -/

/-- A file that lists its analog beams by number, from zero, keeps its structure: the analog beam of each number keeps it. -/
def InOrder (p : PSet) : Prop := ∀ (i n : Nat) (a : Props), p.anas[i]? = some (n, a) → n = i

/-- **C101**: in such a file the analog beam number `n`, to which the numerical beams with this number belong, has its properties on the lines of number `n`. -/
theorem load_structure_partial {isTime : Str → Bool} {isot : Str → Str} (hi : IsoLike isTime isot) {isFloat : IsFloat} {lines : List Str} {p : PSet}
    (hr : readFile isTime isFloat lines = .ok p) (ho : InOrder p) {u : UFile} (hu : load isot p = .ok u) {n : Nat} {a : Props} (ha : (n, a) ∈ p.anas) {k : Str}
    (hk : k ∈ anaRows.map Row.key) {v : PVal} (hv : dictGet a k = some v) (hw : v.Writable) :
    ∃ t v', (⟨.anabeam n, k, t⟩ : Entry) ∈ u.entries ∧ setItem isTime isFloat k t = .ok v' ∧ v.Same isot v' := by
  obtain ⟨i, h⟩ := List.mem_iff_getElem?.mp ha
  have := ho i n a h
  subst this
  exact load_analog_reread hi hr hu h hk hv hw

/-- A file where the analog beam number 1 comes first. -/
def swapped : List Str := ["Anabeam[1].target=aa".toList, "Anabeam[0].target=bb".toList, "Beam[0].target=cc".toList, "Beam[0].noBeam=0".toList, []]

/-- The parset read from it. -/
def swappedSet : PSet :=
  ⟨[], [], [(1, [("anaIdx".toList, .int 1), ("target".toList, .str "aa".toList)]), (0, [("anaIdx".toList, .int 0), ("target".toList, .str "bb".toList)])],
    [(0, [("digiIdx".toList, .int 0), ("target".toList, .str "cc".toList), ("noBeam".toList, .int 0)])], []⟩

/-- **C101** fails for other orders: the numerical beam of the analog beam "bb" becomes one of the analog beam "aa", both numbered 0 in the new file. -/
theorem load_order_violated : readFile (fun _ => false) (fun _ => false) swapped = .ok swappedSet ∧ ∃ u, load id swappedSet = .ok u ∧
    (⟨.anabeam 0, "target".toList, "aa".toList⟩ : Entry) ∈ u.entries ∧ (⟨.beam 0, "target".toList, "cc".toList⟩ : Entry) ∈ u.entries ∧
      (⟨.beam 0, "noBeam".toList, "0".toList⟩ : Entry) ∈ u.entries := by
  refine ⟨by decide +kernel, ?_⟩
  have h : (load id swappedSet).toOption.any (fun u => decide ((⟨.anabeam 0, "target".toList, "aa".toList⟩ : Entry) ∈ u.entries ∧ (⟨.beam 0, "target".toList, "cc".toList⟩ : Entry) ∈ u.entries ∧
      (⟨.beam 0, "noBeam".toList, "0".toList⟩ : Entry) ∈ u.entries)) = true := by decide +kernel
  cases hl : load id swappedSet with
  | error e => rw [hl] at h; cases h
  | ok u => rw [hl] at h; exact ⟨u, rfl, of_decide_eq_true h⟩

/-- **C101** fails for files whose analog beams are not numbered from zero: a numerical beam that gives the right number cannot be loaded. -/
theorem load_gap_violated (isot : Str → Str) (p : PSet) (d : Nat × Props) (hd : d ∈ p.digis) (n : Nat) (hn : dictGet d.2 "noBeam".toList = some (.int n))
    (hlen : p.anas.length ≤ n) : ¬∃ u, load isot p = .ok u := by
  rw [load_succeeds_iff]
  rintro ⟨h, -⟩
  obtain ⟨m, hm, hlt⟩ := h d hd
  have : noBeamOf d.2 = .ok n := by unfold noBeamOf; rw [hn]; rfl
  rw [this] at hm
  injection hm with hm
  omega

example : ∃ (p : PSet) (d : Nat × Props), d ∈ p.digis ∧ (∃ a, (3, a) ∈ p.anas) ∧ dictGet d.2 "noBeam".toList = some (.int 3) ∧ p.anas.length ≤ 3 :=
  ⟨⟨[], [], [(3, [])], [(0, [("noBeam".toList, .int 3)])], []⟩, (0, [("noBeam".toList, .int 3)]), by simp, ⟨[], by simp⟩, by decide, by decide⟩

/-- **C101** fails for durations in minutes or hours: the text of the new file is refused by the validation. -/
theorem load_duration_violated (isTime : Str → Bool) (isFloat : IsFloat) (isot : Str → Str) (n : Nat) (c : Char) (hc : c = 'm' ∨ c = 'h') :
    ∃ v, setItem isTime isFloat "duration".toList (natStr n ++ [c]) = .ok v ∧ Accepts anaRows "duration".toList (natStr n ++ [c]) ∧
      ¬Accepts anaRows "duration".toList (v.toU isot).stored := by
  have hcd : c.isDigit = false := by rcases hc with rfl | rfl <;> decide
  have hcs : c ≠ 's' := by rcases hc with rfl | rfl <;> decide
  have hm : ∀ x : Char, x.isDigit = false → x ≠ c → x ∉ natStr n ++ [c] := by
    intro x h1 h2 hx
    rcases List.mem_append.mp hx with h | h
    · exact notMem_natStr h1 n h
    · exact h2 (by simpa using h)
  have hlast : ∀ s : Str, s.getLast? ≠ some c → lower (natStr n ++ [c]) ≠ s := by
    rintro s hs rfl
    apply hs
    unfold lower
    rw [List.map_append, List.map_singleton, List.getLast?_concat]
    rcases hc with rfl | rfl <;> rfl
  have hset : setItem isTime isFloat "duration".toList (natStr n ++ [c]) = .ok (.str (natStr n ++ [c] ++ ['s'])) := by
    unfold setItem
    rw [clean_id (hm _ (by decide) (by rcases hc with rfl | rfl <;> decide)) (hm _ (by decide) (by rcases hc with rfl | rfl <;> decide))]
    simp only
    rw [if_neg (by rw [List.getLast?_concat]; rintro ⟨-, h⟩; rcases hc with rfl | rfl <;> (revert h; decide)), if_neg (hlast _ (by rcases hc with rfl | rfl <;> decide)),
      if_neg (hlast _ (by rcases hc with rfl | rfl <;> decide)), if_neg (by decide), if_pos (by decide)]
    congr 3
    unfold rstripS
    rw [List.reverse_append]
    show ((c :: (natStr n).reverse).dropWhile (· = 's')).reverse = _
    rw [List.dropWhile_cons_of_neg (by simpa using hcs), List.reverse_cons, List.reverse_reverse]
  refine ⟨_, hset, ?_, ?_⟩
  · rw [duration_accepted]
    exact ⟨natStr n, c, rfl, isDigits_natStr n, Or.inr hc⟩
  · show ¬Accepts anaRows "duration".toList (natStr n ++ [c] ++ ['s'])
    rw [duration_accepted]
    rintro ⟨d, u, h1, h2, -⟩
    have h4 := (List.append_inj' h1 rfl).1
    rw [← h4] at h2
    unfold isDigits at h2
    rw [List.all_append] at h2
    simp [hcd] at h2

/-- A noon. -/
def noon : Str := "2022-01-01T12:00:00".toList

/-- The hypotheses hold of a file with two analog beams in order, times, lists and names. -/
example : IsoLike (fun s => decide (s = noon ∨ s = noon ++ ['Z'])) (fun _ => noon) ∧
    ∃ p u, readFile (fun s => decide (s = noon ∨ s = noon ++ ['Z'])) (fun _ => false)
      ["Anabeam[0].target=aa".toList, "Anabeam[0].startTime=".toList ++ noon ++ ['Z'], "Anabeam[1].maList=[0..3,7]".toList, "Beam[0].noBeam=1".toList, []] = .ok p ∧
        load (fun _ => noon) p = .ok u ∧ dictGet (((p.anas[0]?).getD (0, [])).2) "startTime".toList = some (.time (noon ++ ['Z'])) ∧
        dictGet (((p.anas[1]?).getD (0, [])).2) "maList".toList = some (.list [.int 0, .int 1, .int 2, .int 3, .int 7]) := by
  refine ⟨⟨?_, ?_, ?_, ?_⟩, ?_⟩
  · intro s _ c hc
    have h : noon.all (fun c => c.isDigit || decide (c = '-' ∨ c = ':' ∨ c = 'T')) = true := by decide
    have := List.all_eq_true.mp h c hc
    simpa using this
  · intro s _; decide
  · intro s _; exact ⟨by decide, rfl⟩
  · intro s _; exact ⟨by decide, rfl⟩
  · refine ⟨⟨[], [], [(0, [("anaIdx".toList, .int 0), ("target".toList, .str "aa".toList), ("startTime".toList, .time (noon ++ ['Z']))]),
      (1, [("anaIdx".toList, .int 1), ("maList".toList, .list [.int 0, .int 1, .int 2, .int 3, .int 7])])], [(0, [("digiIdx".toList, .int 0), ("noBeam".toList, .int 1)])], []⟩, ?_⟩
    obtain ⟨u, hu⟩ := (load_succeeds_iff (fun _ => noon) ⟨[], [], [(0, [("anaIdx".toList, .int 0), ("target".toList, .str "aa".toList), ("startTime".toList, .time (noon ++ ['Z']))]),
      (1, [("anaIdx".toList, .int 1), ("maList".toList, .list [.int 0, .int 1, .int 2, .int 3, .int 7])])], [(0, [("digiIdx".toList, .int 0), ("noBeam".toList, .int 1)])], []⟩).mpr
      ⟨fun d hd => ⟨1, by rw [List.mem_singleton.mp hd]; decide, by decide⟩, fun d hd => by cases hd⟩
    exact ⟨u, by decide +kernel, hu, by decide +kernel, by decide +kernel⟩

/-- **C101**: a numerical beam that names no analog beam goes to the first one, and one that names the number `n` to the one at that place. -/
theorem load_default_beam (isot : Str → Str) (p : PSet) (a : Nat × Props) (ha : p.anas = [a]) (d : Nat × Props) (hd : p.digis = [d]) (hc : p.pcs = [])
    (hn : dictGet d.2 "noBeam".toList = none) :
    ∃ u b, load isot p = .ok u ∧ u.anas = [(blockOf isot anaRows a.2, [b], [])] ∧ b = setKey ("noBeam".toList, .text ['0']) (blockOf isot beamRows d.2) := by
  have e : noBeamOf d.2 = .ok 0 := by unfold noBeamOf; rw [hn]; rfl
  obtain ⟨u, h, -, -, g⟩ := load_exact isot p (fun x hx => by rw [hd] at hx; rw [List.mem_singleton.mp hx]; exact ⟨0, e, by rw [ha]; exact Nat.one_pos⟩)
    (fun x hx => by rw [hc] at hx; cases hx)
  refine ⟨u, _, h, ?_, rfl⟩
  refine List.ext_getElem? fun i => ?_
  rw [g, ha, hd, hc]
  cases i with
  | zero =>
    have : beamsOf isot beamRows 0 [d] = [setKey ("noBeam".toList, .text ['0']) (blockOf isot beamRows d.2)] := by
      rw [beamsOf_cons isot beamRows 0 d [] 0 e]; rfl
    show some (blockOf isot anaRows a.2, beamsOf isot beamRows 0 [d], beamsOf isot pcRows 0 []) = _
    rw [this]; rfl
  | succ i => rfl

end Verif.Parset
