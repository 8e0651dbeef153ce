import Verif.Sched.PropsBook
import Verif.Sched.Model2
import Verif.Sched.Demo

/-!
# Other schedule operations

C10 (shifting an observation), C11 (export), C13 (overlap with a window).
-/

namespace Verif.Scheduler

/-! ## C10: shifts -/

theorem inSlice_int {size : Nat} {a n : Nat} {t : Nat} (h : a + n ≤ size) :
    inSlice size (a : Int) ((a : Int) + n) t = true ↔ a ≤ t ∧ t < a + n := by
  have : ((a : Int) + n) = ((a + n : Nat) : Int) := by push_cast; ring
  rw [this, inSlice_nat]
  omega

/-- The new start after a shift by `k`, kept inside the schedule. -/
def shiftTarget (size n st : Nat) (k : Int) : Nat :=
  (if (st : Int) + k ≤ 0 then 0
    else if (st : Int) + k + n ≥ size then (size : Int) - n else (st : Int) + k).toNat

/-- `s'` is `s` with block `i` moved by `k` slots (kept inside the schedule): the new slots were available or its own,
they are taken now, its other old slots are released and the rest of the slots and blocks is unchanged. -/
def Moved (s s' : Sched) (i : Nat) (k : Int) (m : ℚ) : Prop :=
  ∃ (b : Block) (st : Nat), s.blocks[i]? = some b ∧ b.start = some st ∧ m ≤ b.row (shiftTarget s.size b.nSlots st k) ∧
    s'.blocks = s.blocks.set i (s.placed b (shiftTarget s.size b.nSlots st k)) ∧
    ∀ t, t < s.size → s'.free t =
        (if shiftTarget s.size b.nSlots st k ≤ t ∧ t < shiftTarget s.size b.nSlots st k + b.nSlots then false
         else if st ≤ t ∧ t < st + b.nSlots then true else s.free t) ∧
      (shiftTarget s.size b.nSlots st k ≤ t → t < shiftTarget s.size b.nSlots st k + b.nSlots →
        s.free t = true ∨ Occupies b t)

/-- **C10 (partial: calls that return normally).** From any reachable state, a shift that does not raise either leaves the schedule
alone, or moves exactly that block. All invariants still hold. -/
theorem shift_success_partial {s : Sched} (h : Reachable s) (i : Nat) (k : Int) (m : ℚ)
    (hok : (s.shift i k m).2 = none) :
    NoDoubleBooking (s.shift i k m).1 ∧ InsideSchedule (s.shift i k m).1 ∧ BookedNotFree (s.shift i k m).1 ∧
    TimesMatch (s.shift i k m).1 ∧ ((s.shift i k m).1 = s ∨ Moved s (s.shift i k m).1 i k m) := by
  have g := h.good
  have trivialCase : (s.shift i k m).1 = s →
      NoDoubleBooking (s.shift i k m).1 ∧ InsideSchedule (s.shift i k m).1 ∧ BookedNotFree (s.shift i k m).1 ∧
      TimesMatch (s.shift i k m).1 ∧ ((s.shift i k m).1 = s ∨ Moved s (s.shift i k m).1 i k m) := by
    intro he
    refine ⟨?_, ?_, ?_, ?_, Or.inl he⟩
    · rw [he]; exact g.noDouble
    · rw [he]; exact g.inside
    · rw [he]; exact g.notFree
    · rw [he]; exact g.times
  cases hb : s.blocks[i]? with
  | none => exact trivialCase (by simp [Sched.shift, hb])
  | some b =>
  cases hst : b.start with
  | none => exact trivialCase (by simp [Sched.shift, hb, hst])
  | some st =>
  have hbm := getElem?_mem hb
  have hn := g.nSlots_pos hbm
  have hfit : st + b.nSlots ≤ s.size := by
    have := g.inside b hbm (st + b.nSlots - 1) ⟨st, hst, by omega, by omega⟩
    omega
  have hown : ∀ t, Occupies b t ↔ st ≤ t ∧ t < st + b.nSlots := by
    intro t
    constructor
    · rintro ⟨x, hx, h1, h2⟩
      rw [hst] at hx; obtain rfl := Option.some.inj hx; exact ⟨h1, h2⟩
    · rintro ⟨h1, h2⟩; exact ⟨st, hst, h1, h2⟩
  generalize hnsI : (if (st : Int) + k ≤ 0 then (0 : Int)
    else if (st : Int) + k + b.nSlots ≥ s.size then (s.size : Int) - b.nSlots else (st : Int) + k) = nsI
  have hns0 : 0 ≤ nsI := by rw [← hnsI]; split_ifs <;> omega
  have hnsfit : nsI + b.nSlots ≤ s.size := by rw [← hnsI]; split_ifs <;> omega
  obtain ⟨ns, rfl⟩ : ∃ ns : Nat, nsI = ns := ⟨nsI.toNat, (Int.toNat_of_nonneg hns0).symm⟩
  have htarget : shiftTarget s.size b.nSlots st k = ns := by
    unfold shiftTarget; rw [hnsI]; exact Int.toNat_natCast ns
  have hnsfit' : ns + b.nSlots ≤ s.size := by omega
  have hshift : s.shift i k m =
      if !(s.free ns || s.free ((ns : Int) + b.nSlots - 1).toNat) then (s, none)
      else if b.row ns < m then (s, none)
      else
        andThen ((s.setBlock i (s.placed b ns)).freeSlots st (st + b.nSlots)) fun s2 =>
        andThen (s2.freezeSlots ns ((ns : Int) + b.nSlots - 1 + 1)) fun s3 =>
        if b.nDelay ≠ 0 then
          andThen (s3.freeProc ((st : Int) - b.nDelay) ((st : Int) + b.nSlots + b.nDelay)) fun s4 =>
          s4.freezeProc ((ns : Int) - b.nDelay) ((ns : Int) + b.nSlots - 1 + b.nDelay + 1)
        else (s3, none) := by
    unfold Sched.shift
    rw [hb]
    simp only [hst]
    rw [hnsI, Int.toNat_natCast]
  by_cases hend : (!(s.free ns || s.free ((ns : Int) + b.nSlots - 1).toNat)) = true
  · exact trivialCase (by rw [hshift, if_pos hend])
  rw [if_neg hend] at hshift
  by_cases hmin : b.row ns < m
  · exact trivialCase (by rw [hshift, if_pos hmin])
  rw [if_neg hmin] at hshift
  set s1 := s.setBlock i (s.placed b ns) with hs1
  -- releasing the old slots
  rw [show (ns : Int) + b.nSlots - 1 + 1 = (ns : Int) + b.nSlots by ring] at hshift
  have e2 : s1.freeSlots st (st + b.nSlots) =
      ({ s1 with free := fun t => if inSlice s1.size (st : Int) ((st : Int) + b.nSlots) t then true else s1.free t }, none) := by
    unfold Sched.freeSlots
    have hsz1 : s1.size = s.size := rfl
    rw [if_neg (by rw [hsz1]; omega), if_neg]
    simp only [List.any_eq_true, not_exists, not_and, Bool.and_eq_true]
    rintro t _ ht1 ht2
    rw [hsz1, inSlice_int hfit] at ht1
    have := g.notFree b hbm t ((hown t).mpr ht1)
    have h2 : s1.free t = s.free t := rfl
    rw [h2, this] at ht2
    exact absurd ht2 (by simp)
  rw [e2] at hshift
  simp only [andThen] at hshift
  set s2 : Sched := { s1 with free := fun t => if inSlice s1.size (st : Int) ((st : Int) + b.nSlots) t then true else s1.free t } with hs2
  have hf2 : ∀ t, s2.free t = if st ≤ t ∧ t < st + b.nSlots then true else s.free t := by
    intro t
    have hx := inSlice_int (t := t) hfit
    change (if inSlice s.size (st : Int) ((st : Int) + b.nSlots) t then true else s.free t) = _
    by_cases hc : st ≤ t ∧ t < st + b.nSlots
    · rw [if_pos hc, if_pos (hx.mpr hc)]
    · rw [if_neg hc, if_neg (mt hx.mp hc)]
  -- taking the new ones
  have hsz2 : s2.size = s.size := rfl
  by_cases hbad : (List.range s2.size).any fun t => inSlice s2.size (ns : Int) ((ns : Int) + b.nSlots) t && !s2.free t
  · exfalso
    have : s2.freezeSlots ns ((ns : Int) + b.nSlots) = (s2, some .valueError) := by
      unfold Sched.freezeSlots
      rw [if_neg (by rw [hsz2]; omega), if_pos hbad]
    rw [this] at hshift
    simp only at hshift
    rw [hshift] at hok
    simp at hok
  have e3 : s2.freezeSlots ns ((ns : Int) + b.nSlots) =
      ({ s2 with free := fun t => if inSlice s2.size (ns : Int) ((ns : Int) + b.nSlots) t then false else s2.free t }, none) := by
    unfold Sched.freezeSlots
    rw [if_neg (by rw [hsz2]; omega), if_neg hbad]
  rw [e3] at hshift
  simp only at hshift
  set s3 : Sched := { s2 with free := fun t => if inSlice s2.size (ns : Int) ((ns : Int) + b.nSlots) t then false else s2.free t } with hs3
  have hf3 : ∀ t, s3.free t = if ns ≤ t ∧ t < ns + b.nSlots then false
      else if st ≤ t ∧ t < st + b.nSlots then true else s.free t := by
    intro t
    have hx := inSlice_int (t := t) hnsfit'
    change (if inSlice s.size (ns : Int) ((ns : Int) + b.nSlots) t then false else s2.free t) = _
    by_cases hc : ns ≤ t ∧ t < ns + b.nSlots
    · rw [if_pos hc, if_pos (hx.mpr hc)]
    · rw [if_neg hc, if_neg (mt hx.mp hc), hf2]
  have hnew : ∀ t, ns ≤ t → t < ns + b.nSlots → s.free t = true ∨ Occupies b t := by
    intro t h1 h2
    have : s2.free t = true := by
      by_contra hc
      apply hbad
      rw [List.any_eq_true]
      refine ⟨t, by rw [List.mem_range, hsz2]; omega, ?_⟩
      rw [Bool.and_eq_true]
      exact ⟨(inSlice_int hnsfit').mpr ⟨h1, h2⟩, by simpa using hc⟩
    rw [hf2] at this
    split at this
    · rename_i hh; exact Or.inr ((hown t).mpr hh)
    · exact Or.inl this
  -- the final state only differs from `s3` by processing counters
  have hfin : (s.shift i k m).1.blocks = s3.blocks ∧ (s.shift i k m).1.free = s3.free ∧ (s.shift i k m).1.size = s3.size ∧
      (s.shift i k m).1.dt = s3.dt ∧ (s.shift i k m).1.t0 = s3.t0 := by
    rw [hshift]
    split
    · have hp : ∀ x y, (s3.freeProc x y).1.blocks = s3.blocks ∧ (s3.freeProc x y).1.free = s3.free ∧
          (s3.freeProc x y).1.size = s3.size ∧ (s3.freeProc x y).1.dt = s3.dt ∧ (s3.freeProc x y).1.t0 = s3.t0 := by
        intro x y; unfold Sched.freeProc; split_ifs <;> exact ⟨rfl, rfl, rfl, rfl, rfl⟩
      have hq : ∀ (s4 : Sched) x y, (s4.freezeProc x y).1.blocks = s4.blocks ∧ (s4.freezeProc x y).1.free = s4.free ∧
          (s4.freezeProc x y).1.size = s4.size ∧ (s4.freezeProc x y).1.dt = s4.dt ∧ (s4.freezeProc x y).1.t0 = s4.t0 := by
        intro s4 x y; unfold Sched.freezeProc; split_ifs <;> exact ⟨rfl, rfl, rfl, rfl, rfl⟩
      split
      · obtain ⟨a1, a2, a3, a4, a5⟩ := hp ((st : Int) - b.nDelay) ((st : Int) + b.nSlots + b.nDelay)
        obtain ⟨b1, b2, b3, b4, b5⟩ := hq (s3.freeProc ((st : Int) - b.nDelay) ((st : Int) + b.nSlots + b.nDelay)).1
          ((ns : Int) - b.nDelay) ((ns : Int) + b.nSlots - 1 + b.nDelay + 1)
        exact ⟨b1.trans a1, b2.trans a2, b3.trans a3, b4.trans a4, b5.trans a5⟩
      · exact hp _ _
    · exact ⟨rfl, rfl, rfl, rfl, rfl⟩
  obtain ⟨q1, q2, q3, q4, q5⟩ := hfin
  have hgood : Good (s.shift i k m).1 := by
    refine g.replaceOwn (b' := s.placed b ns) hb q4 q5 q3 q1 (g.dur b hbm) (g.cnst b hbm) ?_ ?_ ?_
    · intro t ho
      have hr := occ_placed.mp ho
      refine ⟨by omega, hnew t hr.1 hr.2, ?_⟩
      rw [q2, hf3, if_pos hr]
    · intro t hf hno
      rw [q2, hf3]
      split
      · rfl
      · rw [if_neg (fun hc => hno ((hown t).mpr hc))]; exact hf
    · intro x hx
      have : ns = x := by simpa [Sched.placed] using hx
      subst this
      exact placed_times s b ns hn
  refine ⟨hgood.noDouble, hgood.inside, hgood.notFree, hgood.times, Or.inr ⟨b, st, hb, hst, ?_, ?_, ?_⟩⟩
  · rw [htarget]; exact not_lt.mp hmin
  · rw [htarget]; exact q1
  · intro t _
    rw [htarget, q2]
    exact ⟨hf3 t, fun h1 h2 => hnew t h1 h2⟩

/-- One booked block of two slots. -/
def shiftDemo : Sched := (demo 10).run [.insertObs [obsOn 2 none none [2, 3, 4, 5, 6]], .book (plain [0])]

theorem shiftDemo_reachable : Reachable shiftDemo := by
  refine reachable_demo 10 (by norm_num) _ ⟨legal_obsOn ?_, trivial, trivial⟩
  intro o ho
  exact ⟨2, none, none, [2, 3, 4, 5, 6], by simpa using ho, by norm_num⟩

/-- A shift that succeeds, onto slots that partly were its own. -/
example : shiftDemo.starts = [some 2] ∧ (shiftDemo.shift 0 1 0).2 = none ∧ (shiftDemo.shift 0 1 0).1.starts = [some 3] ∧
    (shiftDemo.shift 0 1 0).1.frees = [true, true, true, false, false, true, true, true, true, true] := by
  decide +kernel

/-- **C10 violated.** Shifting a three-slot block by two slots onto a window whose first slots are taken by another observation:
the call raises, but the block has been moved onto the other observation and its old slots were released. -/
theorem shift_atomic_violated :
    ∃ s, Reachable s ∧ s.starts = [some 2, some 5] ∧ (s.shift 0 2 0).2 = some .valueError ∧
      (s.shift 0 2 0).1.starts = [some 4, some 5] ∧ ¬ NoDoubleBooking (s.shift 0 2 0).1 := by
  generalize hs : (demo 10).run [.insertObs [obsOn 3 none none [2, 3, 4], obsOn 1 none none [5]], .book (plain [0, 1])] = s
  have hstart : (s.shift 0 2 0).1.starts = [some 4, some 5] := by rw [← hs]; decide +kernel
  refine ⟨s, ?_, by rw [← hs]; decide +kernel, by rw [← hs]; decide +kernel, hstart, ?_⟩
  · rw [← hs]
    refine reachable_demo 10 (by norm_num) _ ⟨legal_obsOn ?_, trivial, trivial⟩
    intro o ho
    simp only [List.mem_cons, List.not_mem_nil, or_false] at ho
    rcases ho with rfl | rfl
    · exact ⟨3, _, _, _, rfl, by norm_num⟩
    · exact ⟨1, _, _, _, rfl, by norm_num⟩
  · have h2 : (s.shift 0 2 0).1.blocks.map (fun b => (b.start, b.nSlots)) = [(some 4, 3), (some 5, 1)] := by
      rw [← hs]; decide +kernel
    obtain ⟨a, b, hab, ha, hb⟩ := pair_of_map h2
    simp only [Prod.mk.injEq] at ha hb
    intro hno
    refine hno 0 1 a b 5 (by rw [hab]; rfl) (by rw [hab]; rfl) (by omega) ⟨4, ha.1, by omega, by omega⟩ ⟨5, hb.1, by omega, by omega⟩

/-- **C10 violated.** Shifting *earlier* by an explicit duration always does what shifting *later* does. -/
theorem shift_earlier_violated (s : Sched) (i : Nat) (d minScore : ℚ) : s.shiftEarlier i (some d) minScore = s.shiftLater i (some d) minScore := rfl

/-- Here the block goes from slot 2 to slot 3. -/
example : shiftDemo.starts = [some 2] ∧ (shiftDemo.shiftEarlier 0 (some 1) 0).1.starts = [some 3] := by decide +kernel

/-! ## C11: export -/

theorem mem_insertByKey {key : Nat → ℚ} {i x : Nat} : ∀ {l : List Nat}, x ∈ insertByKey key i l ↔ x = i ∨ x ∈ l
  | [] => by simp [insertByKey]
  | j :: js => by
    rw [insertByKey]
    split
    · simp
    · simp only [List.mem_cons, mem_insertByKey (l := js)]; tauto

theorem insertByKey_sorted {key : Nat → ℚ} {i : Nat} : ∀ {l : List Nat}, l.Pairwise (fun a b => key a ≤ key b) →
    (insertByKey key i l).Pairwise fun a b => key a ≤ key b
  | [], _ => by simp [insertByKey]
  | j :: js, h => by
    rw [insertByKey]
    rw [List.pairwise_cons] at h
    split
    · rename_i hlt
      rw [List.pairwise_cons, List.pairwise_cons]
      refine ⟨fun b hb => ?_, h⟩
      rcases List.mem_cons.mp hb with rfl | hb
      · exact hlt.le
      · exact hlt.le.trans (h.1 b hb)
    · rename_i hlt
      rw [List.pairwise_cons]
      refine ⟨fun b hb => ?_, insertByKey_sorted h.2⟩
      rcases mem_insertByKey.mp hb with rfl | hb
      · exact not_lt.mp hlt
      · exact h.1 b hb

theorem insertByKey_nodup {key : Nat → ℚ} {i : Nat} : ∀ {l : List Nat}, l.Nodup → i ∉ l → (insertByKey key i l).Nodup
  | [], _, _ => by simp [insertByKey]
  | j :: js, h, hi => by
    rw [insertByKey]
    split
    · exact List.nodup_cons.mpr ⟨hi, h⟩
    · rw [List.nodup_cons] at h ⊢
      rw [List.mem_cons, not_or] at hi
      exact ⟨fun hc => by
        rcases mem_insertByKey.mp hc with e | hc
        · exact hi.1 e.symm
        · exact h.1 hc, insertByKey_nodup h.2 hi.2⟩

theorem sortByKey_spec (key : Nat → ℚ) (l : List Nat) (hl : l.Nodup) :
    (∀ x, x ∈ sortByKey key l ↔ x ∈ l) ∧ (sortByKey key l).Pairwise (fun a b => key a ≤ key b) ∧ (sortByKey key l).Nodup := by
  have gen : ∀ (l acc : List Nat), l.Nodup → (∀ x ∈ l, x ∉ acc) → acc.Pairwise (fun a b => key a ≤ key b) → acc.Nodup →
      (∀ x, x ∈ l.foldl (fun acc i => insertByKey key i acc) acc ↔ x ∈ l ∨ x ∈ acc) ∧
      (l.foldl (fun acc i => insertByKey key i acc) acc).Pairwise (fun a b => key a ≤ key b) ∧
      (l.foldl (fun acc i => insertByKey key i acc) acc).Nodup := by
    intro l
    induction l with
    | nil => intro acc _ _ h1 h2; exact ⟨fun x => by simp, h1, h2⟩
    | cons i l ih =>
      intro acc hnd hdis hs hn
      rw [List.nodup_cons] at hnd
      obtain ⟨r1, r2, r3⟩ := ih (insertByKey key i acc) hnd.2 (fun x hx hc => by
        rcases mem_insertByKey.mp hc with rfl | hc
        · exact hnd.1 hx
        · exact hdis x (List.mem_cons_of_mem _ hx) hc) (insertByKey_sorted hs)
        (insertByKey_nodup hn (hdis i List.mem_cons_self))
      refine ⟨fun x => ?_, r2, r3⟩
      rw [List.foldl_cons, r1, mem_insertByKey, List.mem_cons]
      tauto
  obtain ⟨r1, r2, r3⟩ := gen l [] hl (by simp) List.Pairwise.nil List.nodup_nil
  exact ⟨fun x => (r1 x).trans (by simp), r2, r3⟩

/-- **C11.** From any reachable state: thresholds outside `[0, 1]` are refused; otherwise the exported rows are, each once, exactly the booked
blocks whose score reaches the threshold, and each row ends before the next one starts. -/
theorem export_exact {s : Sched} (h : Reachable s) (score : Nat → ℚ) (m : ℚ) :
    ((m < 0 ∨ 1 < m) → s.export score m = .error .valueError) ∧
    (0 ≤ m → m ≤ 1 → ∃ rows, s.export score m = .ok rows ∧ rows.Nodup ∧
      (∀ i, i ∈ rows ↔ ∃ (b : Block) (st : Nat), s.blocks[i]? = some b ∧ b.start = some st ∧ m ≤ score i) ∧
      rows.Pairwise fun i j => ∀ (bi bj : Block) (x y : Nat), s.blocks[i]? = some bi → s.blocks[j]? = some bj →
        bi.start = some x → bj.start = some y → x + bi.nSlots ≤ y) := by
  have g := h.good
  constructor
  · rintro (hm | hm)
    · simp [Sched.export, hm]
    · unfold Sched.export
      split
      · rfl
      · simp
  · intro h0 h1
    unfold Sched.export
    rw [if_neg (not_lt.mpr h0), if_neg (not_lt.mpr h1)]
    set key : Nat → ℚ := fun i => ((s.blocks[i]?.bind Block.tMin).getD 0) with hkey
    set l := (List.range s.blocks.length).filter fun i =>
      s.isBooked i && !decide (score i < m) with hl
    have hnd : l.Nodup := List.Nodup.filter _ List.nodup_range
    obtain ⟨r1, r2, r3⟩ := sortByKey_spec key l hnd
    refine ⟨_, rfl, r3, ?_, ?_⟩
    · intro i
      rw [r1, hl, List.mem_filter, List.mem_range, Bool.and_eq_true]
      simp only [Bool.not_eq_true', decide_eq_false_iff_not, not_lt]
      constructor
      · rintro ⟨_, h2, h3⟩
        unfold Sched.isBooked at h2
        split at h2
        · rename_i b hb
          obtain ⟨st, hst⟩ := Option.isSome_iff_exists.mp h2
          exact ⟨b, st, hb, hst, h3⟩
        · exact absurd h2 (by simp)
      · rintro ⟨b, st, hb, hst, hm⟩
        refine ⟨(List.getElem?_eq_some_iff.mp hb).1, ?_, hm⟩
        simp [Sched.isBooked, hb, hst]
    · have hboth : (sortByKey key l).Pairwise fun a b => key a ≤ key b ∧ a ≠ b :=
        r2.and r3
      refine hboth.imp ?_
      rintro i j ⟨hle, hne⟩ bi bj x y hbi hbj hx hy
      have ki : key i = s.t0 + x * s.dt := by
        simp only [hkey, hbi, Option.bind_some]
        rw [(g.times bi (getElem?_mem hbi) x hx).1]; rfl
      have kj : key j = s.t0 + y * s.dt := by
        simp only [hkey, hbj, Option.bind_some]
        rw [(g.times bj (getElem?_mem hbj) y hy).1]; rfl
      rw [ki, kj] at hle
      have hxy : (x : ℚ) ≤ y := by
        by_contra hc
        have := mul_lt_mul_of_pos_right (not_le.mp hc) g.dt_pos
        linarith
      have hxy' : x ≤ y := by exact_mod_cast hxy
      by_contra hc
      have hnj := g.nSlots_pos (getElem?_mem hbj)
      exact g.noDouble i j bi bj y hbi hbj hne ⟨x, hx, hxy', by omega⟩ ⟨y, hy, le_refl _, by omega⟩

example : Except.toOption (shiftDemo.export (fun _ => 1/2) (1/4)) = some [0] := by decide +kernel

/-! ## C13: overlap of a block with a window -/

/-- **C13, what the code does.** `is_within` is true exactly when the block and the window share interior times, except when they stop
at the same time, or start at the same time with the block longer. -/
theorem is_within_iff (tMin tMax start stop : ℚ) (h1 : tMin < tMax) (h2 : start < stop) :
    isWithin tMin tMax start stop = true ↔
      (∃ x, tMin < x ∧ x < tMax ∧ start < x ∧ x < stop) ∧ tMax ≠ stop ∧ ¬ (start = tMin ∧ stop < tMax) := by
  have hov : (∃ x, tMin < x ∧ x < tMax ∧ start < x ∧ x < stop) ↔ tMin < stop ∧ start < tMax := by
    constructor
    · rintro ⟨x, a, b, c, d⟩; exact ⟨by linarith, by linarith⟩
    · rintro ⟨h3, h4⟩
      have hlt : max tMin start < min tMax stop := by
        rw [max_lt_iff, lt_min_iff, lt_min_iff]; exact ⟨⟨h1, h3⟩, h4, h2⟩
      refine ⟨(max tMin start + min tMax stop) / 2, ?_, ?_, ?_, ?_⟩
      · have := le_max_left tMin start; linarith
      · have := min_le_left tMax stop; linarith
      · have := le_max_right tMin start; linarith
      · have := min_le_right tMax stop; linarith
  rw [hov]
  unfold isWithin
  simp only [Bool.or_eq_true, Bool.and_eq_true, decide_eq_true_iff]
  constructor
  · rintro (((⟨a, b⟩ | ⟨⟨a, b⟩, c⟩) | ⟨⟨a, b⟩, c⟩) | ⟨a, b⟩)
    · exact ⟨⟨by linarith, by linarith⟩, b.ne, fun hc => by linarith [hc.2]⟩
    · exact ⟨⟨by linarith, by linarith⟩, c.ne, fun hc => by linarith [hc.2]⟩
    · exact ⟨⟨by linarith, by linarith⟩, a.ne', fun hc => by linarith [hc.1]⟩
    · exact ⟨⟨by linarith, by linarith⟩, b.ne', fun hc => by linarith [hc.1]⟩
  · rintro ⟨⟨a, b⟩, hne, hno⟩
    rcases lt_trichotomy start tMin with hs | hs | hs
    · rcases lt_or_gt_of_ne hne with ht | ht
      · exact Or.inl (Or.inl (Or.inl ⟨hs.le, ht⟩))
      · exact Or.inl (Or.inr ⟨⟨ht, hs⟩, a⟩)
    · rcases lt_or_gt_of_ne hne with ht | ht
      · exact Or.inl (Or.inl (Or.inl ⟨hs.le, ht⟩))
      · exact absurd ⟨hs, ht⟩ hno
    · rcases lt_or_gt_of_ne hne with ht | ht
      · exact Or.inl (Or.inl (Or.inr ⟨⟨hs, b⟩, ht⟩))
      · exact Or.inr ⟨hs, ht⟩

/-- **C13 (partial: bounds all different).** Then `is_within` is exactly the existence of a common time. -/
theorem is_within_partial (tMin tMax start stop : ℚ) (h1 : tMin < tMax) (h2 : start < stop) (h3 : tMin ≠ start)
    (h4 : tMax ≠ stop) :
    isWithin tMin tMax start stop = true ↔ ∃ x, tMin < x ∧ x < tMax ∧ start < x ∧ x < stop := by
  rw [is_within_iff _ _ _ _ h1 h2]
  exact ⟨fun h => h.1, fun h => ⟨h, h4, fun hc => h3 hc.1.symm⟩⟩

example : isWithin 0 10 5 12 = true ∧ isWithin 0 10 11 12 = false := by decide +kernel

/-- **C13 violated.** A block is not reported within its own time interval. -/
theorem is_within_violated (tMin tMax : ℚ) : isWithin tMin tMax tMin tMax = false := by
  simp [isWithin]

/-- `match_booking` keeps exactly the bookings that overlap the schedule range (for bookings of positive length), bounds included. -/
theorem match_booking_exact (tMin tMax a b : ℚ) (h1 : tMin < tMax) (h2 : a < b) :
    matchBookingMask tMin tMax a b = true ↔ (∃ x, tMin < x ∧ x < tMax ∧ a < x ∧ x < b) := by
  unfold matchBookingMask
  simp only [Bool.or_eq_true, Bool.and_eq_true, decide_eq_true_iff]
  constructor
  · rintro ((⟨c, d⟩ | ⟨c, d⟩) | ⟨c, d⟩)
    · exact ⟨(a + b) / 2, by linarith, by linarith, by linarith, by linarith⟩
    · have hlt : tMin < min tMax b := lt_min h1 d
      have := min_le_left tMax b
      have := min_le_right tMax b
      exact ⟨(tMin + min tMax b) / 2, by linarith, by linarith, by linarith, by linarith⟩
    · have hlt : max tMin a < tMax := max_lt h1 c
      have := le_max_left tMin a
      have := le_max_right tMin a
      exact ⟨(max tMin a + tMax) / 2, by linarith, by linarith, by linarith, by linarith⟩
  · rintro ⟨x, p, q, r, t⟩
    by_cases h3 : tMin ≤ a
    · by_cases h4 : b ≤ tMax
      · exact Or.inl (Or.inl ⟨h3, h4⟩)
      · exact Or.inr ⟨by linarith, not_le.mp h4⟩
    · exact Or.inl (Or.inr ⟨not_le.mp h3, by linarith⟩)

end Verif.Scheduler
