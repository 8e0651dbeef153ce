import Verif.Config.Model

/-!
# Backend configurations: properties C25 to C28
-/

namespace Verif.Config

/-! ## C25 Values stay within bounds -/

/-- All values held are numbers within the documented bounds of the backend. -/
def InRange (b : Backend) (st : State) : Prop :=
  ∀ k v, st k = some v → ∃ r q, table b k = some r ∧ v.num = some q ∧ r.min ≤ q ∧ q ≤ r.max

/-- Downsampling and number of bits are powers of two. -/
def Powers (st : State) : Prop := ∀ k, (k = .dsTime ∨ k = .nBits) → ∀ v, st k = some v → ∃ j : Nat, v = .int (2 ^ j)

theorem isPow2_iff (n : Int) : isPow2 n = true ↔ ∃ j : Nat, n = 2 ^ j := by
  unfold isPow2
  rw [Bool.and_eq_true, decide_eq_true_iff, decide_eq_true_iff]
  cases n with
  | ofNat m =>
    cases m with
    | zero =>
      constructor
      · rintro ⟨-, h⟩; exact absurd rfl h
      · rintro ⟨j, h⟩
        have h1 : (0 : Int) < 2 ^ j := by positivity
        have h2 : (0 : Int) = 2 ^ j := h
        omega
    | succ m =>
      have e : (Int.ofNat (m + 1)) - 1 = Int.ofNat m := by simp
      rw [e]
      have hl : Int.land (Int.ofNat (m + 1)) (Int.ofNat m) = ((m + 1) &&& m : Nat) := rfl
      rw [hl]
      have := Nat.and_sub_one_eq_zero_iff_isPowerOfTwo (n := m + 1) (by omega)
      rw [Nat.add_sub_cancel] at this
      constructor
      · rintro ⟨h, -⟩
        obtain ⟨j, hj⟩ := this.mp (by exact_mod_cast h)
        exact ⟨j, by show ((m + 1 : Nat) : Int) = _; rw [hj]; push_cast; rfl⟩
      · rintro ⟨j, hj⟩
        have hj' : m + 1 = 2 ^ j := by
          have : ((m + 1 : Nat) : Int) = ((2 ^ j : Nat) : Int) := by push_cast; exact hj
          exact_mod_cast this
        refine ⟨by exact_mod_cast this.mpr ⟨j, hj'⟩, ?_⟩
        show ((m + 1 : Nat) : Int) ≠ 0
        omega
  | negSucc m =>
    have e : Int.negSucc m - 1 = Int.negSucc (m + 1) := by
      rw [Int.negSucc_eq, Int.negSucc_eq]; push_cast; ring
    rw [e]
    constructor
    · rintro ⟨h, -⟩; simp [Int.land] at h
    · rintro ⟨j, h⟩
      have h1 : (0 : Int) < 2 ^ j := by positivity
      have h2 : Int.negSucc m < 0 := Int.negSucc_lt_zero m
      omega

/-- The defaults are within the bounds, and powers of two where they have to be. -/
theorem defaults_fine : ∀ b k r, table b k = some r →
    (∃ q, r.default.num = some q ∧ r.min ≤ q ∧ q ≤ r.max) ∧ ((k = .dsTime ∨ k = .nBits) → ∃ j : Nat, r.default = .int (2 ^ j)) := by
  intro b k r h
  cases b <;> cases k <;> simp only [table, Option.some.injEq, reduceCtorEq] at h <;> subst h <;>
    refine ⟨⟨_, rfl, ?_, ?_⟩, ?_⟩ <;> (try norm_num) <;> (try simp)
  · exact ⟨3, by norm_num⟩
  · exact ⟨7, by norm_num⟩
  · exact ⟨5, by norm_num⟩

theorem checkAttr_cases (r : Range) (v : Val) :
    (checkAttr r v = r.default) ∨ (checkAttr r v = v ∧ ∀ q, v.num = some q → r.min ≤ q ∧ q ≤ r.max) := by
  unfold checkAttr
  cases hn : v.num with
  | none => right; simp
  | some q =>
    by_cases h1 : r.max < q
    · left; simp [h1]
    · by_cases h2 : q < r.min
      · left; simp [h1, h2]
      · right; rw [not_lt] at h1 h2; simp [not_lt.mpr h1, not_lt.mpr h2]
        exact ⟨h2, h1⟩

/-- One assignment, successful or refused, keeps the bounds and the powers of two, provided the value is not NaN. -/
theorem trySet_inv (b : Backend) (st : State) (kv : Attr × Val) (hn : kv.2 ≠ .nan) (h1 : InRange b st) (h2 : Powers st) :
    InRange b (trySet b st kv) ∧ Powers (trySet b st kv) := by
  obtain ⟨k, v⟩ := kv
  unfold trySet
  cases hs : setAttr b k v st with
  | error e => exact ⟨h1, h2⟩
  | ok st' =>
    show InRange b st' ∧ Powers st'
    unfold setAttr at hs
    by_cases ha : accepted k v = false
    · rw [if_pos ha] at hs; cases hs
    rw [if_neg ha] at hs
    by_cases hp : pow2Ok k v = false
    · rw [if_pos hp] at hs; cases hs
    rw [if_neg hp] at hs
    cases ht : table b k with
    | none => rw [ht] at hs; cases hs
    | some r =>
      rw [ht] at hs
      injection hs with hs
      have hst : ∀ i, st' i = if i = k then some (checkAttr r v) else st i := fun i => by rw [← hs]
      obtain ⟨⟨q0, d1, d2, d3⟩, d4⟩ := defaults_fine b k r ht
      constructor
      · intro i w hw
        rw [hst] at hw
        by_cases hi : i = k
        · rw [if_pos hi] at hw
          injection hw with hw
          subst hi
          rcases checkAttr_cases r v with h | ⟨h, h'⟩
          · exact ⟨r, q0, ht, by rw [← hw, h]; exact d1, d2, d3⟩
          · have : ∃ q, v.num = some q := by
              cases v with
              | int n => exact ⟨_, rfl⟩
              | flt q => exact ⟨_, rfl⟩
              | nan => exact absurd rfl hn
              | other => exfalso; apply ha; cases i <;> rfl
            obtain ⟨q, hq⟩ := this
            exact ⟨r, q, ht, by rw [← hw, h]; exact hq, h' q hq⟩
        · rw [if_neg hi] at hw
          exact h1 i w hw
      · intro i hik w hw
        rw [hst] at hw
        by_cases hi : i = k
        · rw [if_pos hi] at hw
          injection hw with hw
          subst hi
          rcases checkAttr_cases r v with h | ⟨h, -⟩
          · rw [← hw, h]; exact d4 hik
          · rw [← hw, h]
            have hint : ∃ n, v = .int n := by
              cases v with
              | int n => exact ⟨n, rfl⟩
              | flt q => exfalso; apply ha; rcases hik with rfl | rfl <;> rfl
              | nan => exact absurd rfl hn
              | other => exfalso; apply ha; cases i <;> rfl
            obtain ⟨n, rfl⟩ := hint
            have : isPow2 n = true := by
              rcases hik with rfl | rfl <;> simpa [pow2Ok] using hp
            obtain ⟨j, hj⟩ := (isPow2_iff n).mp this
            exact ⟨j, by rw [hj]⟩
        · rw [if_neg hi] at hw
          exact h2 i hik w hw

/-- After any sequence of assignments of values other than NaN, whatever was refused on the way, the bounds and the powers of two hold. -/
theorem assignments_in_range_partial (b : Backend) : ∀ (l : List (Attr × Val)) (st : State), (∀ kv ∈ l, kv.2 ≠ .nan) → InRange b st → Powers st →
    InRange b (l.foldl (trySet b) st) ∧ Powers (l.foldl (trySet b) st)
  | [], st, _, h1, h2 => ⟨h1, h2⟩
  | kv :: l, st, hn, h1, h2 => by
    obtain ⟨a, c⟩ := trySet_inv b st kv (hn kv (by simp)) h1 h2
    exact assignments_in_range_partial b l (trySet b st kv) (fun x hx => hn x (List.mem_cons_of_mem _ hx)) a c

theorem setAttr_trySet {b : Backend} {k : Attr} {v : Val} {st st' : State} (h : setAttr b k v st = .ok st') : trySet b st (k, v) = st' := by
  unfold trySet; rw [h]; rfl

theorem default_not_nan {b : Backend} {k : Attr} {r : Range} (h : table b k = some r) : r.default ≠ .nan := by
  obtain ⟨⟨q, hq, -⟩, -⟩ := defaults_fine b k r h
  intro e; rw [e] at hq; cases hq

theorem initLoop_inv (b : Backend) (kw : Attr → Option Val) (hkw : ∀ k, kw k ≠ some .nan) : ∀ (l : List Attr) (st st' : State),
    InRange b st → Powers st → initLoop b kw l st = .ok st' → InRange b st' ∧ Powers st'
  | [], st, st', h1, h2, h => by
    rw [initLoop] at h; injection h with h; rw [← h]; exact ⟨h1, h2⟩
  | k :: l, st, st', h1, h2, h => by
    rw [initLoop] at h
    cases ht : table b k with
    | none => rw [ht] at h; exact initLoop_inv b kw hkw l st st' h1 h2 h
    | some r =>
      rw [ht] at h
      change (setAttr b k ((kw k).getD r.default) st).bind (initLoop b kw l) = _ at h
      cases hs : setAttr b k ((kw k).getD r.default) st with
      | error e => rw [hs] at h; cases h
      | ok st1 =>
        rw [hs] at h
        have hv : (kw k).getD r.default ≠ .nan := by
          cases hk : kw k with
          | none => exact default_not_nan ht
          | some v => intro e; exact hkw k (by rw [hk]; exact congrArg some e)
        obtain ⟨a, c⟩ := trySet_inv b st (k, (kw k).getD r.default) hv h1 h2
        rw [setAttr_trySet hs] at a c
        exact initLoop_inv b kw hkw l st1 st' a c h

/-- A configuration built with any keywords (without NaN) and then modified in any way is within bounds. -/
theorem config_in_range_partial (b : Backend) (kw : Attr → Option Val) (hkw : ∀ k, kw k ≠ some .nan) (st : State) (hc : construct b kw = .ok st)
    (l : List (Attr × Val)) (hl : ∀ kv ∈ l, kv.2 ≠ .nan) :
    InRange b (l.foldl (trySet b) st) ∧ Powers (l.foldl (trySet b) st) := by
  obtain ⟨h1, h2⟩ := initLoop_inv b kw hkw allAttrs (fun _ => none) st (fun k v h => by cases h) (fun k _ v h => by cases h) hc
  exact assignments_in_range_partial b l st hl h1 h2

theorem setAttr_default {b : Backend} {k : Attr} {r : Range} (h : table b k = some r) (st : State) : ∃ st', setAttr b k r.default st = .ok st' := by
  have ha : accepted k r.default = true := by
    cases b <;> cases k <;> simp only [table, Option.some.injEq, reduceCtorEq] at h <;> subst h <;> rfl
  have hp : pow2Ok k r.default = true := by
    cases b <;> cases k <;> simp only [table, Option.some.injEq, reduceCtorEq] at h <;> subst h <;> rfl
  unfold setAttr
  rw [ha, hp, h]
  exact ⟨_, rfl⟩

/-- The constructor without keywords always succeeds. -/
theorem construct_default (b : Backend) : ∃ st, construct b (fun _ => none) = .ok st := by
  unfold construct
  have : ∀ (l : List Attr) (st : State), ∃ st', initLoop b (fun _ => none) l st = .ok st' := by
    intro l
    induction l with
    | nil => intro st; exact ⟨st, rfl⟩
    | cons k l ih =>
      intro st
      rw [initLoop]
      cases ht : table b k with
      | none => exact ih st
      | some r =>
        obtain ⟨st1, h1⟩ := setAttr_default ht st
        obtain ⟨st2, h2⟩ := ih st1
        refine ⟨st2, ?_⟩
        show (setAttr b k ((none : Option Val).getD r.default) st).bind _ = _
        rw [Option.getD_none, h1]
        exact h2
  exact this _ _

example : ∃ st, construct .nickel (fun _ => none) = .ok st ∧ trySet .nickel st (.nMAs, .int 500) .nMAs = some (.int 96)
    ∧ trySet .nickel st (.nMAs, .int 80) .nMAs = some (.int 80) := by
  refine ⟨_, rfl, ?_, ?_⟩ <;> decide +kernel

/-- An accepted value within bounds is stored as it is. -/
theorem in_range_kept (b : Backend) (k : Attr) (r : Range) (v : Val) (q : ℚ) (st : State) (ht : table b k = some r) (ha : accepted k v = true) (hp : pow2Ok k v = true)
    (hv : v.num = some q) (h1 : r.min ≤ q) (h2 : q ≤ r.max) : trySet b st (k, v) k = some v ∧ ∀ i, i ≠ k → trySet b st (k, v) i = st i := by
  have : checkAttr r v = v := by
    unfold checkAttr; rw [hv]; simp [not_lt.mpr h1, not_lt.mpr h2]
  unfold trySet setAttr
  rw [ha, hp, ht]
  refine ⟨by show (if k = k then _ else _) = _; rw [if_pos rfl, this], fun i hi => ?_⟩
  show (if i = k then _ else _) = _
  rw [if_neg hi]

/-- A value out of bounds is replaced by the default. -/
theorem out_of_range_default (b : Backend) (k : Attr) (r : Range) (v : Val) (q : ℚ) (st : State) (ht : table b k = some r) (ha : accepted k v = true)
    (hp : pow2Ok k v = true) (hv : v.num = some q) (h : q < r.min ∨ r.max < q) : trySet b st (k, v) k = some r.default := by
  have : checkAttr r v = r.default := by
    unfold checkAttr; rw [hv]
    rcases h with h | h
    · simp [h]
    · simp [h]
  unfold trySet setAttr
  rw [ha, hp, ht]
  show (if k = k then _ else _) = _
  rw [if_pos rfl, this]

/-- NaN passes all checks and is stored. -/
theorem nan_violated (st : State) : trySet .nickel st (.timeRes, .nan) .timeRes = some .nan ∧ ¬ InRange .nickel (trySet .nickel st (.timeRes, .nan)) := by
  have h : trySet .nickel st (.timeRes, .nan) .timeRes = some .nan := rfl
  refine ⟨h, fun hr => ?_⟩
  obtain ⟨r, q, -, hq, -⟩ := hr _ _ h
  cases hq

/-! ## C28 Resolutions -/

theorem nearestPow_mem (lo : Nat) (x : ℚ) : ∀ n, ∃ k, lo ≤ k ∧ k ≤ lo + n ∧ nearestPow lo x n = 2 ^ k
  | 0 => ⟨lo, le_rfl, le_rfl, rfl⟩
  | n + 1 => by
    rw [nearestPow]
    split
    · exact ⟨lo + n + 1, by omega, by omega, rfl⟩
    · obtain ⟨k, h1, h2, h3⟩ := nearestPow_mem lo x n
      exact ⟨k, h1, by omega, h3⟩

theorem nearestPow_near (lo : Nat) (x : ℚ) : ∀ n k, lo ≤ k → k ≤ lo + n → |((nearestPow lo x n : Nat) : ℚ) - x| ≤ |((2 ^ k : Nat) : ℚ) - x|
  | 0, k, h1, h2 => by
    have : k = lo := by omega
    subst this; exact le_rfl
  | n + 1, k, h1, h2 => by
    rw [nearestPow]
    by_cases hk : k = lo + n + 1
    · subst hk
      split
      · exact le_rfl
      · rename_i h; exact not_lt.mp h
    · have ih := nearestPow_near lo x n k h1 (by omega)
      split
      · rename_i h; exact h.le.trans ih
      · exact ih

theorem nearestPow_self (lo n k : Nat) (h1 : lo ≤ k) (h2 : k ≤ lo + n) : nearestPow lo ((2 ^ k : Nat) : ℚ) n = 2 ^ k := by
  have h := nearestPow_near lo ((2 ^ k : Nat) : ℚ) n k h1 h2
  rw [sub_self, abs_zero] at h
  have := abs_nonpos_iff.mp h
  rw [sub_eq_zero] at this
  exact_mod_cast this

/-- Pairs the receiver can realise: channels of `195312.5 / 2^k` Hz, and `2^j` spectra summed. -/
def Realisable (dt df : ℚ) : Prop := ∃ k j : Nat, 4 ≤ k ∧ k ≤ 11 ∧ 2 ≤ j ∧ j ≤ 10 ∧ df = 195312 / 2 ^ k + (1 / 2) / 2 ^ k ∧ dt = 512 / 100000000 * 2 ^ k * 2 ^ j

/-- For all requests, the accepted pair can be realised. -/
theorem resolutions_realisable (dt df : ℚ) : Realisable (checkDFvsDT dt df).1 (checkDFvsDT dt df).2 := by
  obtain ⟨k, k1, k2, k3⟩ := nearestPow_mem 4 (1 / tick / df) 7
  obtain ⟨j, j1, j2, j3⟩ := nearestPow_mem 2 (dt / (tick * fftlen df)) 8
  refine ⟨k, j, k1, by omega, j1, by omega, ?_, ?_⟩
  · show 1 / tick / ((fftlen df : Nat) : ℚ) = _
    unfold fftlen
    rw [k3]
    push_cast
    unfold tick
    ring
  · show tick * ((fftlen df : Nat) : ℚ) * ((nfft2int dt df : Nat) : ℚ) = _
    unfold nfft2int
    rw [j3]
    unfold fftlen
    rw [k3]
    push_cast
    unfold tick
    ring

/-- Among what the receiver can do, the number of channels is the closest to the requested one, then the number of sums is the closest for that number of channels. -/
theorem resolutions_nearest (dt df : ℚ) :
    (∀ k, 4 ≤ k → k ≤ 11 → |((fftlen df : Nat) : ℚ) - 1 / tick / df| ≤ |((2 ^ k : Nat) : ℚ) - 1 / tick / df|)
    ∧ (∀ j, 2 ≤ j → j ≤ 10 → |((nfft2int dt df : Nat) : ℚ) - dt / (tick * fftlen df)| ≤ |((2 ^ j : Nat) : ℚ) - dt / (tick * fftlen df)|) :=
  ⟨fun k h1 h2 => nearestPow_near 4 _ 7 k h1 (by omega), fun j h1 h2 => nearestPow_near 2 _ 8 j h1 (by omega)⟩

theorem tick_pos : 0 < tick := by unfold tick; norm_num

/-- A realisable pair is accepted as it is. -/
theorem resolutions_fixed (dt df : ℚ) (h : Realisable dt df) : checkDFvsDT dt df = (dt, df) := by
  obtain ⟨k, j, k1, k2, j1, j2, rfl, rfl⟩ := h
  have hk : (0 : ℚ) < 2 ^ k := by positivity
  have e1 : fftlen (195312 / 2 ^ k + (1 / 2) / 2 ^ k) = 2 ^ k := by
    unfold fftlen
    have : 1 / tick / (195312 / 2 ^ k + (1 / 2) / 2 ^ k) = ((2 ^ k : Nat) : ℚ) := by
      unfold tick; push_cast; field_simp; norm_num
    rw [this]
    exact nearestPow_self 4 7 k k1 (by omega)
  have e2 : nfft2int (512 / 100000000 * 2 ^ k * 2 ^ j) (195312 / 2 ^ k + (1 / 2) / 2 ^ k) = 2 ^ j := by
    unfold nfft2int
    rw [e1]
    have : 512 / 100000000 * 2 ^ k * 2 ^ j / (tick * ((2 ^ k : Nat) : ℚ)) = ((2 ^ j : Nat) : ℚ) := by
      unfold tick; push_cast; field_simp
    rw [this]
    exact nearestPow_self 2 8 j j1 (by omega)
  unfold checkDFvsDT
  rw [e1, e2]
  unfold tick
  push_cast
  refine Prod.ext ?_ ?_
  · rfl
  · show (1 : ℚ) / (512 / 100000000) / 2 ^ k = _
    field_simp; norm_num

/-- Checking twice changes nothing. -/
theorem resolutions_idempotent (dt df : ℚ) :
    checkDFvsDT (checkDFvsDT dt df).1 (checkDFvsDT dt df).2 = checkDFvsDT dt df := by
  rw [resolutions_fixed _ _ (resolutions_realisable dt df)]

/-- For requests within the bounds of the attributes, the accepted pair is within the bounds too, so that storing it does not replace it by the defaults. -/
theorem resolutions_in_range (dt df : ℚ) (h1 : dt ≤ 8389 / 100000) :
    (32 / 100000 ≤ (checkDFvsDT dt df).1 ∧ (checkDFvsDT dt df).1 ≤ 8389 / 100000) ∧ (95 ≤ (checkDFvsDT dt df).2 ∧ (checkDFvsDT dt df).2 ≤ 12210) := by
  obtain ⟨k, k1, k2, k3⟩ := nearestPow_mem 4 (1 / tick / df) 7
  obtain ⟨j, j1, j2, j3⟩ := nearestPow_mem 2 (dt / (tick * fftlen df)) 8
  have ef : fftlen df = 2 ^ k := k3
  have ej : nfft2int dt df = 2 ^ j := j3
  have hnear := (resolutions_nearest dt df).2 (14 - k) (by omega) (by omega)
  have hkj : k + j ≤ 14 := by
    by_contra hlt
    rw [ej, ef] at hnear
    obtain ⟨m, hm⟩ : ∃ m, m + k = 14 := ⟨14 - k, by omega⟩
    have e14 : 14 - k = m := by omega
    rw [e14] at hnear
    have hpow : (2 : ℚ) ^ m * 2 ^ k = 16384 := by rw [← pow_add, hm]; norm_num
    have hK : (0 : ℚ) < 2 ^ k := by positivity
    have hM : (0 : ℚ) < 2 ^ m := by positivity
    have hJ : 2 * (2 : ℚ) ^ m ≤ 2 ^ j := by
      have : (2 : ℚ) ^ (m + 1) ≤ 2 ^ j := pow_le_pow_right₀ (by norm_num) (by omega)
      rw [pow_succ] at this; linarith
    push_cast at hnear
    generalize hx : dt / (tick * 2 ^ k) = x at hnear
    have hxle : x ≤ 2 ^ m * (10001 / 10000) := by
      rw [← hx, div_le_iff₀ (mul_pos tick_pos hK)]
      have : (2 : ℚ) ^ m * (10001 / 10000) * (tick * 2 ^ k) = (2 ^ m * 2 ^ k) * (10001 / 10000) * tick := by ring
      rw [this, hpow]; unfold tick; linarith
    have a1 : (2 : ℚ) ^ j - x ≤ |(2 : ℚ) ^ j - x| := le_abs_self _
    have a2 : |(2 : ℚ) ^ m - x| < 2 ^ j - x := by
      rw [abs_lt]; constructor <;> linarith
    linarith
  have d1 : (checkDFvsDT dt df).1 = tick * 2 ^ k * 2 ^ j := by
    show tick * ((fftlen df : Nat) : ℚ) * ((nfft2int dt df : Nat) : ℚ) = _
    rw [ef, ej]; push_cast; rfl
  have d2 : (checkDFvsDT dt df).2 = 1 / tick / 2 ^ k := by
    show 1 / tick / ((fftlen df : Nat) : ℚ) = _
    rw [ef]; push_cast; rfl
  rw [d1, d2]
  have hp1 : (2 : ℚ) ^ k * 2 ^ j ≤ 16384 := by
    rw [← pow_add]
    have : (2 : ℚ) ^ (k + j) ≤ 2 ^ 14 := pow_le_pow_right₀ (by norm_num) hkj
    linarith [this, show (2 : ℚ) ^ 14 = 16384 by norm_num]
  have hp2 : (64 : ℚ) ≤ 2 ^ k * 2 ^ j := by
    rw [← pow_add]
    have : (2 : ℚ) ^ 6 ≤ 2 ^ (k + j) := pow_le_pow_right₀ (by norm_num) (by omega)
    linarith [this, show (2 : ℚ) ^ 6 = 64 by norm_num]
  have hk1 : (16 : ℚ) ≤ 2 ^ k := by
    have : (2 : ℚ) ^ 4 ≤ 2 ^ k := pow_le_pow_right₀ (by norm_num) k1
    linarith [this, show (2 : ℚ) ^ 4 = 16 by norm_num]
  have hk2 : (2 : ℚ) ^ k ≤ 2048 := by
    have : (2 : ℚ) ^ k ≤ 2 ^ 11 := pow_le_pow_right₀ (by norm_num) (by omega)
    linarith [this, show (2 : ℚ) ^ 11 = 2048 by norm_num]
  unfold tick
  refine ⟨⟨by linarith, by linarith⟩, ?_, ?_⟩
  · rw [le_div_iff₀ (by linarith)]; linarith
  · rw [div_le_iff₀ (by linarith)]; linarith

example : (32 : ℚ) / 100000 ≤ 5 / 1000 ∧ (5 : ℚ) / 1000 ≤ 8389 / 100000 ∧ fftlen 6100 = 32 ∧ nfft2int (5 / 1000) 6100 = 32 := by decide +kernel

/-- The accepted frequency resolution is not always the closest one the receiver can do. -/
theorem resolution_closest_violated : ∃ df : ℚ, 95 ≤ df ∧ df ≤ 12210 ∧ ∃ k : Nat, 4 ≤ k ∧ k ≤ 11
    ∧ |1 / tick / 2 ^ k - df| < |(checkDFvsDT (5 / 1000) df).2 - df| :=
  ⟨8500, by norm_num, by norm_num, 5, by norm_num, by norm_num, by decide +kernel⟩

/-! ## C26 Volumes -/

/-- Values within bounds, as rationals. -/
def Beam.Fine (x : Beam) : Prop := ∀ k r, table x.backend k = some r → r.min ≤ x.attr k ∧ x.attr k ≤ r.max

theorem afterBurn_nonneg (d : ℚ) : 0 ≤ afterBurn d := by
  unfold afterBurn; split
  · exact le_rfl
  · rename_i h; exact not_lt.mp h

/-- Volumes are not negative, except for raw data of less than a minute. -/
theorem volume_nonneg_partial (x : Beam) (hf : x.Fine) (hd : 0 ≤ x.duration) (hraw : x.backend = .raw → 60 ≤ x.duration) : 0 ≤ x.volume := by
  obtain ⟨b, a, d⟩ := x
  have ht := tick_pos
  have hb := afterBurn_nonneg d
  have get : ∀ k r, table b k = some r → r.min ≤ a k := fun k r h => (hf k r h).1
  simp only at hd hraw
  cases b with
  | bst =>
    have h1 : 0 ≤ a .nPolars := by linarith [get .nPolars _ rfl]
    have h2 : 0 ≤ a .nSubBands := by linarith [get .nSubBands _ rfl]
    simp only [Beam.volume]; positivity
  | nickel =>
    have h1 : 0 ≤ a .nPolars := by linarith [get .nPolars _ rfl]
    have h2 : 0 ≤ a .nSubBands := by linarith [get .nSubBands _ rfl]
    have h3 : 0 ≤ a .nMAs - 1 := by linarith [get .nMAs _ rfl]
    have h3' : 0 ≤ a .nMAs := by linarith
    have h4 : 0 ≤ a .nChannels := by linarith [get .nChannels _ rfl]
    have h5 : 0 ≤ a .timeRes := get .timeRes _ rfl
    simp only [Beam.volume]; positivity
  | tf =>
    have h1 : 0 ≤ a .nPolars := by linarith [get .nPolars _ rfl]
    have h2 : 0 ≤ a .nSubBands := by linarith [get .nSubBands _ rfl]
    have h3 : 0 ≤ a .freqRes := by linarith [get .freqRes _ rfl]
    have h4 : 0 ≤ a .timeRes := by linarith [get .timeRes _ rfl]
    simp only [Beam.volume]; positivity
  | raw =>
    have h1 : 0 ≤ a .nPolars := by linarith [get .nPolars _ rfl]
    have h2 : 0 ≤ a .nSubBands := by linarith [get .nSubBands _ rfl]
    have h3 : 0 ≤ a .nBits := by linarith [get .nBits _ rfl]
    have h4 : 0 ≤ d - 60 := by linarith [hraw rfl]
    simp only [Beam.volume]; positivity
  | fold =>
    have h1 : 0 ≤ a .nPolars := by linarith [get .nPolars _ rfl]
    have h2 : 0 ≤ a .nSubBands := by linarith [get .nSubBands _ rfl]
    have h3 : 0 ≤ a .nBins := by linarith [get .nBins _ rfl]
    have h4 : 0 ≤ a .tFold := by linarith [get .tFold _ rfl]
    simp only [Beam.volume]; positivity
  | waveolaf =>
    have h2 : 0 ≤ a .nSubBands := by linarith [get .nSubBands _ rfl]
    simp only [Beam.volume]; positivity
  | single =>
    have h1 : 0 ≤ a .nPolars := by linarith [get .nPolars _ rfl]
    have h2 : 0 ≤ a .nSubBands := by linarith [get .nSubBands _ rfl]
    have h3 : 0 ≤ a .nBits := by linarith [get .nBits _ rfl]
    have h4 : 0 ≤ a .dsTime := by linarith [get .dsTime _ rfl]
    simp only [Beam.volume]; positivity

/-- Default values of a backend. -/
def defaultBeam (b : Backend) (d : ℚ) : Beam := ⟨b, fun k => ((table b k).bind (fun r => r.default.num)).getD 0, d⟩

theorem defaultBeam_fine (b : Backend) (d : ℚ) : (defaultBeam b d).Fine := by
  intro k r h
  obtain ⟨⟨q, h1, h2⟩, -⟩ := defaults_fine b k r h
  have : (defaultBeam b d).attr k = q := by
    show ((table b k).bind (fun r => r.default.num)).getD 0 = q
    have h' : table b k = some r := h
    rw [h', Option.bind_some, h1]; rfl
  rw [this]; exact h2

example : (defaultBeam .nickel 3600).Fine ∧ 0 < (defaultBeam .nickel 3600).volume := ⟨defaultBeam_fine _ _, by decide +kernel⟩

/-- A raw observation shorter than one minute has a negative volume, for all values of the attributes. -/
theorem raw_volume_violated (x : Beam) (hb : x.backend = .raw) (hf : x.Fine) (hd : x.duration < 60) : x.volume < 0 := by
  obtain ⟨b, a, d⟩ := x
  simp only at hb hd
  subst hb
  have get : ∀ k r, table .raw k = some r → r.min ≤ a k := fun k r h => (hf k r h).1
  have h1 : 0 < a .nPolars := by linarith [get .nPolars _ rfl]
  have h2 : 0 < a .nSubBands := by linarith [get .nSubBands _ rfl]
  have h3 : 0 < a .nBits := by linarith [get .nBits _ rfl]
  have h4 : d - 60 < 0 := by linarith
  have ht := tick_pos
  simp only [Beam.volume]
  exact mul_neg_of_pos_of_neg (by positivity) h4

example : (defaultBeam .raw 30).volume < 0 := raw_volume_violated _ rfl (defaultBeam_fine _ _) (by show (30 : ℚ) < 60; norm_num)

/-- The volume of a sum of configurations is the sum of the volumes, backend by backend. -/
theorem volume_add (x y : Obs) (b : Backend) : (x.add y).volume b = x.volume b + y.volume b := by
  unfold Obs.volume Obs.add; rw [List.map_append, List.sum_append]

/-- Summing is associative, and nothing is the neutral element. -/
theorem add_assoc' (x y z : Obs) : (x.add y).add z = x.add (y.add z) ∧ x.add Obs.empty = x ∧ Obs.empty.add x = x := by
  refine ⟨funext fun b => ?_, funext fun b => ?_, funext fun b => ?_⟩
  · exact List.append_assoc _ _ _
  · exact List.append_nil _
  · rfl

theorem total_from (b : Backend) : ∀ (l : List Obs) (x : Obs), (l.foldl Obs.add x).volume b = x.volume b + (l.map (fun o => o.volume b)).sum
  | [], x => by simp
  | o :: l, x => by rw [List.foldl_cons, total_from b l, volume_add, List.map_cons, List.sum_cons]; ring

/-- The volume of a list of observations is the sum of their volumes. -/
theorem volume_total (l : List Obs) (b : Backend) : (Obs.total l).volume b = (l.map (fun o => o.volume b)).sum := by
  unfold Obs.total; rw [total_from]; unfold Obs.volume Obs.empty; simp

/-- Its order does not matter. -/
theorem volume_total_perm (l l' : List Obs) (h : l.Perm l') (b : Backend) : (Obs.total l).volume b = (Obs.total l').volume b := by
  rw [volume_total, volume_total]; exact (h.map _).sum_eq

/-- Changing an attribute of a beamlet or correlator configuration changes its volume accordingly. -/
theorem assign_used (x : Beam) (s : ℚ) (hb : x.backend = .bst ∨ x.backend = .nickel) (k : Attr) (q : ℚ) :
    ((Conf.new x s).assign k q).volume = (Beam.mk x.backend (fun i => if i = k then q else x.attr i) x.duration).volume := by
  obtain ⟨b, a, d⟩ := x
  simp only at hb
  rcases hb with rfl | rfl <;> rfl

/-- Changing an attribute of any other configuration has no effect on its volume. -/
theorem assign_ignored_violated (x : Conf) (hb : x.own.backend ≠ .bst) (hn : x.own.backend ≠ .nickel) (k : Attr) (q : ℚ) :
    (x.assign k q).volume = x.volume := by
  obtain ⟨⟨b, a, d⟩, bs, s⟩ := x
  cases b <;> first | rfl | exact absurd rfl hb | exact absurd rfl hn

example : ((Conf.new (defaultBeam .tf 100) 0).assign .nSubBands 1).volume = (Conf.new (defaultBeam .tf 100) 0).volume
    ∧ (defaultBeam .tf 100).volume ≠ (Beam.mk .tf (fun i => if i = .nSubBands then 1 else (defaultBeam .tf 100).attr i) 100).volume := by
  refine ⟨assign_ignored_violated _ (by decide) (by decide) _ _, ?_⟩
  decide +kernel

/-! ## C27 Cumulative volume -/

theorem cumsum_length : ∀ (l : List ℚ) (a : ℚ), (cumsum a l).length = l.length
  | [], _ => rfl
  | v :: l, a => by rw [cumsum, List.length_cons, List.length_cons, cumsum_length l]

/-- Each cumulative value is the sum of the volumes so far. -/
theorem cumsum_get : ∀ (l : List ℚ) (a : ℚ) (i : Nat), i < l.length → (cumsum a l)[i]? = some (a + (l.take (i + 1)).sum)
  | [], _, i, h => by simp at h
  | v :: l, a, 0, _ => by simp [cumsum]
  | v :: l, a, i + 1, h => by
    rw [cumsum, List.getElem?_cons_succ, cumsum_get l (a + v) i (by simpa using h), List.take_succ_cons, List.sum_cons]
    congr 1; ring

theorem cumsum_mono : ∀ (l : List ℚ) (a : ℚ), (∀ v ∈ l, 0 ≤ v) → (cumsum a l).Pairwise (· ≤ ·) ∧ ∀ w ∈ cumsum a l, a ≤ w
  | [], _, _ => ⟨List.Pairwise.nil, fun w hw => by simp [cumsum] at hw⟩
  | v :: l, a, h => by
    have hv := h v (by simp)
    obtain ⟨h1, h2⟩ := cumsum_mono l (a + v) (fun x hx => h x (List.mem_cons_of_mem _ hx))
    rw [cumsum]
    refine ⟨List.Pairwise.cons h2 h1, fun w hw => ?_⟩
    rcases List.mem_cons.mp hw with rfl | hw
    · linarith
    · linarith [h2 w hw]

/-- For any order of the configurations by starting time: times are sorted, the last value is the total volume and, if no volume is negative, values never decrease. -/
theorem cumulative_exact_partial (l s : List Conf) (hp : s.Perm l) (hs : s.Pairwise (fun x y => x.start ≤ y.start)) :
    (cumulative s).1.Pairwise (· ≤ ·) ∧ (cumulative s).1.length = l.length ∧ (cumulative s).2.length = l.length
    ∧ (l ≠ [] → (cumulative s).2.getLast? = some (l.map Conf.volume).sum)
    ∧ (∀ i, i < l.length → (cumulative s).2[i]? = some (((s.take (i + 1)).map Conf.volume).sum))
    ∧ ((∀ x ∈ l, 0 ≤ x.volume) → (cumulative s).2.Pairwise (· ≤ ·)) := by
  have hlen : s.length = l.length := hp.length_eq
  have hl2 : (cumulative s).2.length = l.length := by
    show (cumsum 0 (s.map Conf.volume)).length = _
    rw [cumsum_length, List.length_map, hlen]
  have hget : ∀ i, i < l.length → (cumulative s).2[i]? = some (((s.take (i + 1)).map Conf.volume).sum) := by
    intro i hi
    show (cumsum 0 (s.map Conf.volume))[i]? = _
    rw [cumsum_get _ _ _ (by rw [List.length_map, hlen]; exact hi), zero_add, List.map_take]
  refine ⟨List.pairwise_map.mpr hs, by show (s.map Conf.start).length = _; rw [List.length_map, hlen], hl2, ?_, hget, ?_⟩
  · intro hne
    have hpos : 0 < l.length := List.length_pos_of_ne_nil hne
    rw [List.getLast?_eq_getElem?, hl2, hget (l.length - 1) (by omega), Nat.sub_add_cancel hpos, ← hlen, List.take_length]
    congr 1
    exact (hp.map _).sum_eq
  · intro hv
    refine (cumsum_mono _ 0 ?_).1
    intro v hv'
    obtain ⟨x, hx, rfl⟩ := List.mem_map.mp hv'
    exact hv x (hp.subset hx)

/-- Such an order exists. -/
theorem byStart_sorted (l : List Conf) : (byStart l).Perm l ∧ (byStart l).Pairwise (fun x y => x.start ≤ y.start) := by
  refine ⟨List.perm_insertionSort _ _, ?_⟩
  have : Std.Total (fun x y : Conf => x.start ≤ y.start) := ⟨fun x y => le_total _ _⟩
  have : IsTrans Conf (fun x y : Conf => x.start ≤ y.start) := ⟨fun x y z => le_trans⟩
  exact List.pairwise_insertionSort _ l

/-- The call gives the cumulated volumes of the asked receiver, when it has at least one configuration. -/
theorem cumulative_get (b : Backend) (x : Obs) (hne : x b ≠ []) :
    ∃ s : List Conf, s.Perm (x b) ∧ s.Pairwise (fun x y => x.start ≤ y.start) ∧ getCumulative (some b) x = .ok (cumulative s) :=
  ⟨byStart (x b), (byStart_sorted _).1, (byStart_sorted _).2, if_neg hne⟩

/-- A receiver without any configuration, as in a new `ObsConfig`, has no cumulated volume: an exception is raised instead of empty arrays. -/
theorem cumulative_empty_violated (b : Backend) : getCumulative (some b) Obs.empty = .error .valueError ∧ getCumulative none Obs.empty = .error .valueError := by
  refine ⟨?_, rfl⟩
  show (if Obs.empty b = [] then Except.error Err.valueError else Except.ok (cumulative (byStart (Obs.empty b)))) = _
  rw [if_pos (show Obs.empty b = [] from rfl)]

/-- A short raw observation makes the cumulative volume decrease. -/
theorem cumulative_violated : ∃ l : List Conf, l.Pairwise (fun x y => x.start ≤ y.start) ∧ ¬ (cumulative l).2.Pairwise (· ≤ ·) := by
  refine ⟨[Conf.new (defaultBeam .raw 100) 0, Conf.new (defaultBeam .raw 30) 1], ?_, ?_⟩
  · refine List.Pairwise.cons ?_ (List.pairwise_singleton _ _)
    intro y hy
    rw [List.mem_singleton.mp hy]; show (0 : ℚ) ≤ 1; norm_num
  · have h2 : (Conf.new (defaultBeam .raw 30) 1).volume < 0 := by decide +kernel
    show ¬ (cumsum 0 [_, _]).Pairwise (· ≤ ·)
    intro h
    simp only [cumsum, List.pairwise_cons, List.mem_singleton, forall_eq] at h
    linarith [h.1]

end Verif.Config
