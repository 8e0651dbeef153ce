import Verif.Instru.Sheet
import Verif.Instru.PropsLayout

/-!
# C183: the table of the mini-arrays has the rows of the spreadsheet
-/

namespace Verif.Instru.Sheet

/-! ## Specification -/

/-- A row which is complete: it is not marked as unbuilt, and has a number and a rotation. -/
def Complete (r : Row) (n : ℤ) : Prop := r.mark.unbuilt = false ∧ r.mark.number = .ok n ∧ r.rotation.isSome = true

/-- What is to be told of the mini-array of a row. -/
structure Tells (angle : List Char → Option ℚ) (r : Row) (n : ℤ) (e : Entry) : Prop where
  id : e.id = n
  rotation : ∀ k : ℤ, r.rotation = some (k : ℚ) → e.rotation = k
  lon : ∀ t d, r.lon = some t → angle (cleaned t) = some d → 0 ≤ d → d < 360 → e.lon = some d
  lat : ∀ t d, r.lat = some t → angle (cleaned t) = some d → 0 ≤ d → d ≤ 90 → e.lat = some d
  nolon : r.lon = none → e.lon = none
  nolat : r.lat = none → e.lat = none
  unread : (∀ t, r.lat = some t → angle (cleaned t) = none → e.lat = none) ∧ ∀ t, r.lon = some t → angle (cleaned t) = none → e.lon = none
  height : e.height = r.height
  position : e.position = r.position
  delay : e.delay = r.delay
  attenuation : e.attenuation = r.attenuation

/-! ## Angles -/

theorem turn_same (d : ℚ) (h0 : 0 ≤ d) (h1 : d < 360) : turn d = d := by
  unfold turn
  have : ⌊d / 360⌋ = 0 := by
    rw [Int.floor_eq_iff]
    constructor
    · simpa using div_nonneg h0 (by norm_num)
    · rw [div_lt_iff₀ (by norm_num)]
      simpa using h1
  rw [this]
  simp

theorem turn_negative (d : ℚ) (h0 : -360 ≤ d) (h1 : d < 0) : turn d = d + 360 := by
  unfold turn
  have : ⌊d / 360⌋ = -1 := by
    rw [Int.floor_eq_iff]
    constructor
    · rw [le_div_iff₀ (by norm_num)]
      push_cast
      linarith
    · rw [div_lt_iff₀ (by norm_num)]
      push_cast
      linarith
  rw [this]
  push_cast
  ring

theorem degrees_some (angle : List Char → Option ℚ) (t : List Char) (d : ℚ) (h : angle (cleaned t) = some d) :
    degrees angle (some t) = some (turn d) := by
  show (angle (cleaned t)).map turn = _
  rw [h]
  rfl

/-- **C183** (violated): every latitude south of the equator is written as a longitude, from 270 to 360 degrees. -/
theorem latitude_violated (angle : List Char → Option ℚ) (r : Row) (n : ℤ) (h : Complete r n) (t : List Char) (d : ℚ) (ht : r.lat = some t)
    (hd : angle (cleaned t) = some d) (h0 : -90 ≤ d) (h1 : d < 0) :
    ∃ e, entryOf angle r = .ok (maKey n, e) ∧ e.lat = some (d + 360) ∧ 270 ≤ d + 360 := by
  obtain ⟨_, h2, h3⟩ := h
  obtain ⟨q, hq⟩ := Option.isSome_iff_exists.1 h3
  refine ⟨⟨n, towardsZero q, degrees angle r.lon, degrees angle r.lat, r.height, r.position, r.delay, r.attenuation⟩, ?_, ?_, by linarith⟩
  · unfold entryOf
    rw [h2, hq]
    rfl
  · show degrees angle r.lat = _
    rw [ht, degrees_some angle t d hd, turn_negative d (by linarith) h1]

theorem point_eq : point = fun c => bif c == ',' then '.' else c := by
  funext c
  by_cases h : c = ','
  · rw [h]
    rfl
  · rw [show (c == ',') = false from beq_eq_false_iff_ne.2 h]
    exact if_neg h

/-- **C183**: commas are read as points, two quotes at the end as a double quote; other texts stay. -/
theorem cleaned_exact (s : List Char) :
    cleaned (s ++ ['\'', '\'']) = (s.map fun c => bif c == ',' then '.' else c) ++ ['"'] ∧
      (¬ ['\'', '\''].isSuffixOf s = true → cleaned s = s.map fun c => bif c == ',' then '.' else c) ∧ ',' ∉ cleaned s ∧
      (',' ∉ s → ¬ ['\'', '\''].isSuffixOf s = true → cleaned s = s) := by
  rw [← point_eq]
  have hq : ∀ c, point c = '\'' ↔ c = '\'' := by
    intro c
    unfold point
    split_ifs with h
    · rw [h]
      decide
    · rfl
  have hsuf : ∀ l : List Char, ['\'', '\''] <:+ l.map point → ['\'', '\''] <:+ l := by
    intro l h
    obtain ⟨p, hp⟩ := h
    obtain ⟨a, b, rfl, ha, hb⟩ := List.map_eq_append_iff.1 hp.symm
    refine ⟨a, ?_⟩
    obtain ⟨x, b, rfl, hx, hb⟩ := List.map_eq_cons_iff.1 hb
    obtain ⟨y, b, rfl, hy, hb⟩ := List.map_eq_cons_iff.1 hb
    rw [List.map_eq_nil_iff.1 hb, (hq x).1 hx, (hq y).1 hy]
  have hplain : ¬ ['\'', '\''].isSuffixOf s = true → cleaned s = s.map point := by
    intro h
    unfold cleaned
    rw [if_neg]
    intro h'
    exact h (List.isSuffixOf_iff_suffix.2 (hsuf s (List.isSuffixOf_iff_suffix.1 h')))
  have hmap : ',' ∉ s → s.map point = s := by
    intro h
    conv_rhs => rw [← List.map_id s]
    refine List.map_congr_left fun c hc => ?_
    unfold point
    rw [if_neg]
    · rfl
    · rintro rfl
      exact h hc
  have hno : ∀ l : List Char, ',' ∉ l.map point := by
    intro l h
    obtain ⟨c, _, e⟩ := List.mem_map.1 h
    unfold point at e
    split_ifs at e with h'
    · exact absurd e (by decide)
    · exact h' e
  refine ⟨?_, hplain, ?_, fun h1 h2 => by rw [hplain h2, hmap h1]⟩
  · unfold cleaned
    have e : (s ++ ['\'', '\'']).map point = s.map point ++ ['\'', '\''] := by
      rw [List.map_append]
      rfl
    rw [e, if_pos (List.isSuffixOf_iff_suffix.2 ⟨_, rfl⟩)]
    simp
  · unfold cleaned
    split_ifs
    · intro h
      rcases List.mem_append.1 h with h | h
      · exact hno s (List.mem_of_mem_dropLast (List.mem_of_mem_dropLast h))
      · exact absurd (List.mem_singleton.1 h) (by decide)
    · exact hno s

example : cleaned "2°11'35,6''".toList = "2°11'35.6\"".toList := by decide +kernel

/-! ## Entries -/

theorem towardsZero_int (k : ℤ) : towardsZero (k : ℚ) = k := by
  unfold towardsZero
  rw [Rat.num_intCast, Rat.den_intCast]
  exact Int.tdiv_one k

theorem entry_ok (angle : List Char → Option ℚ) (r : Row) (n : ℤ) (h : Complete r n) :
    ∃ e, entryOf angle r = .ok (maKey n, e) ∧ Tells angle r n e := by
  obtain ⟨_, h2, h3⟩ := h
  obtain ⟨q, hq⟩ := Option.isSome_iff_exists.1 h3
  refine ⟨⟨n, towardsZero q, degrees angle r.lon, degrees angle r.lat, r.height, r.position, r.delay, r.attenuation⟩, ?_, ?_⟩
  · unfold entryOf
    rw [h2, hq]
    rfl
  · refine ⟨rfl, ?_, ?_, ?_, ?_, ?_, ⟨?_, ?_⟩, rfl, rfl, rfl, rfl⟩
    · intro k hk
      rw [hq] at hk
      rw [Option.some.inj hk]
      exact towardsZero_int k
    · intro t d ht hd h0 h1
      show degrees angle r.lon = _
      rw [ht, degrees_some angle t d hd, turn_same d h0 h1]
    · intro t d ht hd h0 h1
      show degrees angle r.lat = _
      rw [ht, degrees_some angle t d hd, turn_same d h0 (by linarith)]
    · intro ht
      show degrees angle r.lon = _
      rw [ht]
      rfl
    · intro ht
      show degrees angle r.lat = _
      rw [ht]
      rfl
    · intro t ht hd
      show degrees angle r.lat = _
      rw [ht]
      show (angle (cleaned t)).map turn = _
      rw [hd]
      rfl
    · intro t ht hd
      show degrees angle r.lon = _
      rw [ht]
      show (angle (cleaned t)).map turn = _
      rw [hd]
      rfl

theorem entry_bad (angle : List Char → Option ℚ) (r : Row) (h : r.mark.unbuilt = false) (hc : ∀ n, ¬ Complete r n) :
    entryOf angle r = .error .valueError := by
  unfold entryOf
  have hn : (∃ n, r.mark.number = .ok n) ∨ r.mark.number = .error .valueError := by
    cases r.mark with
    | num k => exact Or.inl ⟨k, rfl⟩
    | text s =>
      by_cases hs : s ≠ [] ∧ s.all Char.isDigit = true
      · exact Or.inl ⟨_, if_pos hs⟩
      · exact Or.inr (if_neg hs)
    | missing => exact Or.inr rfl
  rcases hn with ⟨n, hn⟩ | hn
  · rw [hn]
    have : r.rotation = none := by
      by_contra hr
      exact hc n ⟨h, hn, Option.isSome_iff_ne_none.2 hr⟩
    rw [this]
    rfl
  · rw [hn]
    rfl

theorem entries_ok (angle : List Char → Option ℚ) (l : List Row) (h : ∀ r ∈ l, ∃ n, Complete r n) :
    ∃ es, entries angle l = .ok es ∧ List.Forall₂ (fun r x => ∃ n, Complete r n ∧ x.1 = maKey n ∧ Tells angle r n x.2) l es := by
  induction l with
  | nil => exact ⟨[], rfl, List.Forall₂.nil⟩
  | cons r l ih =>
    obtain ⟨es, h1, h2⟩ := ih fun x hx => h x (List.mem_cons_of_mem _ hx)
    obtain ⟨n, hn⟩ := h r (List.mem_cons_self ..)
    obtain ⟨e, h3, h4⟩ := entry_ok angle r n hn
    refine ⟨(maKey n, e) :: es, ?_, List.Forall₂.cons ⟨n, hn, rfl, h4⟩ h2⟩
    show (entryOf angle r).bind _ = _
    rw [h3]
    show (entries angle l).map _ = _
    rw [h1]
    rfl

theorem entries_bad (angle : List Char → Option ℚ) (l : List Row) (hb : ∀ r ∈ l, r.mark.unbuilt = false)
    (h : ∃ r ∈ l, ∀ n, ¬ Complete r n) : entries angle l = .error .valueError := by
  induction l with
  | nil =>
    obtain ⟨r, hr, _⟩ := h
    cases hr
  | cons a l ih =>
    show (entryOf angle a).bind _ = _
    by_cases hc : ∃ n, Complete a n
    · obtain ⟨n, hn⟩ := hc
      obtain ⟨e, h3, _⟩ := entry_ok angle a n hn
      rw [h3]
      show (entries angle l).map _ = _
      obtain ⟨r, hr, hx⟩ := h
      rcases List.mem_cons.1 hr with rfl | hr
      · exact absurd hn (hx n)
      · rw [ih (fun x hx => hb x (List.mem_cons_of_mem _ hx)) ⟨r, hr, hx⟩]
        rfl
    · push Not at hc
      rw [entry_bad angle a (hb a (List.mem_cons_self ..)) hc]
      rfl

/-! ## The dictionary -/

theorem put_keys (d : List (List Char × Entry)) (x : List Char × Entry) :
    (putItem d x).map Prod.fst = if x.1 ∈ d.map Prod.fst then d.map Prod.fst else d.map Prod.fst ++ [x.1] := by
  unfold putItem
  split_ifs with h
  · rw [List.map_map]
    refine List.map_congr_left fun y _ => ?_
    show (if y.1 = x.1 then x else y).1 = y.1
    split_ifs with e
    · exact e.symm
    · rfl
  · rw [List.map_append]
    rfl

theorem put_mem (d : List (List Char × Entry)) (x y : List Char × Entry) :
    y ∈ putItem d x ↔ y = x ∨ y ∈ d ∧ y.1 ≠ x.1 := by
  unfold putItem
  split_ifs with h
  · rw [List.mem_map]
    constructor
    · rintro ⟨z, hz, e⟩
      split_ifs at e with hk
      · exact Or.inl e.symm
      · rw [← e]
        exact Or.inr ⟨hz, hk⟩
    · rintro (rfl | ⟨hy, hk⟩)
      · obtain ⟨z, hz, e⟩ := List.mem_map.1 h
        exact ⟨z, hz, if_pos e⟩
      · exact ⟨y, hy, if_neg hk⟩
  · rw [List.mem_append, List.mem_singleton]
    constructor
    · rintro (hy | hy)
      · exact Or.inr ⟨hy, fun e => h (e ▸ List.mem_map.2 ⟨y, hy, rfl⟩)⟩
      · exact Or.inl hy
    · rintro (hy | hy)
      · exact Or.inr hy
      · exact Or.inl hy.1

theorem put_nodup (d : List (List Char × Entry)) (x : List Char × Entry) (h : (d.map Prod.fst).Nodup) : ((putItem d x).map Prod.fst).Nodup := by
  rw [put_keys]
  split_ifs with hx
  · exact h
  · rw [List.nodup_append]
    exact ⟨h, List.nodup_singleton _, fun a ha b hb e => hx (by rw [← List.mem_singleton.1 hb, ← e]; exact ha)⟩

theorem fold_nodup (es d : List (List Char × Entry)) (h : (d.map Prod.fst).Nodup) : ((es.foldl putItem d).map Prod.fst).Nodup := by
  induction es generalizing d with
  | nil => exact h
  | cons x es ih => exact ih _ (put_nodup d x h)

theorem fold_mem (es d : List (List Char × Entry)) (y : List Char × Entry) :
    y ∈ es.foldl putItem d ↔ (∃ a b, es = a ++ y :: b ∧ ∀ z ∈ b, z.1 ≠ y.1) ∨ (y ∈ d ∧ ∀ z ∈ es, z.1 ≠ y.1) := by
  induction es generalizing d with
  | nil =>
    constructor
    · intro h
      exact Or.inr ⟨h, fun z hz => nomatch hz⟩
    · rintro (⟨a, b, e, _⟩ | h)
      · cases a <;> cases e
      · exact h.1
  | cons x es ih =>
    rw [List.foldl_cons, ih, put_mem]
    constructor
    · rintro (⟨a, b, e, hb⟩ | ⟨rfl | ⟨h1, h2⟩, h3⟩)
      · exact Or.inl ⟨x :: a, b, by rw [e]; rfl, hb⟩
      · exact Or.inl ⟨[], es, rfl, h3⟩
      · refine Or.inr ⟨h1, fun z hz => ?_⟩
        rcases List.mem_cons.1 hz with rfl | hz
        · exact fun e => h2 e.symm
        · exact h3 z hz
    · rintro (⟨a, b, e, hb⟩ | ⟨h1, h2⟩)
      · cases a with
        | nil =>
          injection e with e1 e2
          subst e1 e2
          exact Or.inr ⟨Or.inl rfl, hb⟩
        | cons c a =>
          injection e with e1 e2
          exact Or.inl ⟨a, b, e2, hb⟩
      · exact Or.inr ⟨Or.inr ⟨h1, fun e => h2 x (List.mem_cons_self ..) e.symm⟩, fun z hz => h2 z (List.mem_cons_of_mem _ hz)⟩

/-! ## The table -/

/-- **C183**: if the column of the numbers has some text (such as that of an unbuilt mini-array) and all rows which are not unbuilt are
complete, the table is made. It has no number twice, its mini-arrays are those of the rows which are not unbuilt, and the last row of each
number is told. -/
theorem table_partial (angle : List Char → Option ℚ) (rows : List Row) (ht : ∃ r ∈ rows, r.mark.isText = true)
    (h : ∀ r ∈ rows, r.mark.unbuilt = false → ∃ n, Complete r n) :
    ∃ d, tableOf angle rows = .ok d ∧ (d.map Prod.fst).Nodup ∧
      (∀ x ∈ d, ∃ r ∈ rows, ∃ n, Complete r n ∧ x.1 = maKey n ∧ Tells angle r n x.2) ∧
      ∀ a r b n, rows = a ++ r :: b → Complete r n → (∀ q ∈ b, ¬ Complete q n) → ∃ e, (maKey n, e) ∈ d ∧ Tells angle r n e := by
  obtain ⟨es, h1, h2⟩ := entries_ok angle (rows.filter fun r => !r.mark.unbuilt) (by
    intro r hr
    obtain ⟨hm, hu⟩ := List.mem_filter.1 hr
    exact h r hm (by simpa using hu))
  refine ⟨es.foldl putItem [], ?_, fold_nodup _ _ List.nodup_nil, ?_, ?_⟩
  · unfold tableOf
    rw [if_neg, h1]
    · rfl
    · rintro ⟨_, hall⟩
      obtain ⟨r, hr, hx⟩ := ht
      have := List.all_eq_true.1 hall r hr
      rw [hx] at this
      exact absurd this (by decide)
  · intro x hx
    rw [fold_mem] at hx
    rcases hx with ⟨a, b, e, _⟩ | ⟨hx, _⟩
    · have hm : x ∈ es := by rw [e]; simp
      obtain ⟨i, hi, rfl⟩ := List.getElem_of_mem hm
      have hi' : i < (rows.filter fun r => !r.mark.unbuilt).length := by rw [h2.length_eq]; exact hi
      have := h2.get hi' hi
      obtain ⟨n, hn⟩ := this
      exact ⟨_, (List.mem_filter.1 (List.getElem_mem hi')).1, n, hn⟩
    · cases hx
  · rintro a r b n rfl hc hb
    rw [List.filter_append, List.filter_cons_of_pos (by rw [hc.1]; rfl)] at h2
    obtain ⟨ea, eb, rfl, g1, g2⟩ : ∃ ea eb, es = ea ++ eb ∧
        List.Forall₂ (fun r x => ∃ n, Complete r n ∧ x.1 = maKey n ∧ Tells angle r n x.2) (a.filter fun r => !r.mark.unbuilt) ea ∧
        List.Forall₂ (fun r x => ∃ n, Complete r n ∧ x.1 = maKey n ∧ Tells angle r n x.2) (r :: b.filter fun r => !r.mark.unbuilt) eb := by
      refine ⟨es.take (a.filter fun r => !r.mark.unbuilt).length, es.drop (a.filter fun r => !r.mark.unbuilt).length, (List.take_append_drop ..).symm, ?_, ?_⟩
      · exact (List.forall₂_take_append _ _ _ h2.flip).flip
      · exact (List.forall₂_drop_append _ _ _ h2.flip).flip
    cases g2 with
    | cons hx hr =>
      rename_i x eb
      obtain ⟨m, hm, hk, hT⟩ := hx
      have hnm : n = m := by
        have h3 := hc.2.1
        rw [hm.2.1] at h3
        injection h3 with h3
        exact h3.symm
      subst hnm
      obtain ⟨k, e⟩ := x
      have hk : k = maKey n := hk
      subst hk
      refine ⟨e, ?_, hT⟩
      rw [fold_mem]
      refine Or.inl ⟨ea, eb, rfl, ?_⟩
      intro z hz hzk
      obtain ⟨i, hi, rfl⟩ := List.getElem_of_mem hz
      have hi' : i < (b.filter fun r => !r.mark.unbuilt).length := by rw [hr.length_eq]; exact hi
      obtain ⟨p, hp, hpk, _⟩ := hr.get hi' hi
      have hpk : eb[i].1 = maKey p := hpk
      have : p = n := key_inj _ _ (hpk.symm.trans hzk)
      subst this
      exact hb _ (List.mem_filter.1 (List.getElem_mem hi')).1 hp

/-- **C183**: a row which is not unbuilt and has no number or no rotation is refused. -/
theorem table_refused (angle : List Char → Option ℚ) (rows : List Row) (ht : ∃ r ∈ rows, r.mark.isText = true)
    (h : ∃ r ∈ rows, r.mark.unbuilt = false ∧ ∀ n, ¬ Complete r n) : tableOf angle rows = .error .valueError := by
  unfold tableOf
  rw [if_neg, entries_bad]
  · rfl
  · intro r hr
    simpa using (List.mem_filter.1 hr).2
  · obtain ⟨r, hr, hu, hc⟩ := h
    exact ⟨r, List.mem_filter.2 ⟨hr, by rw [hu]; rfl⟩, hc⟩
  · rintro ⟨_, hall⟩
    obtain ⟨r, hr, hx⟩ := ht
    have := List.all_eq_true.1 hall r hr
    rw [hx] at this
    exact absurd this (by decide)

/-- **C183** (violated): once all mini-arrays are built, so that the column has numbers only, no table can be made. -/
theorem all_built_violated (angle : List Char → Option ℚ) (rows : List Row) (h0 : rows ≠ []) (h : ∀ r ∈ rows, ∃ k, r.mark = .num k) :
    tableOf angle rows = .error .attributeError := by
  unfold tableOf
  rw [if_pos]
  refine ⟨h0, List.all_eq_true.2 fun r hr => ?_⟩
  obtain ⟨k, hk⟩ := h r hr
  rw [hk]
  rfl

/-- **C183** (violated): of two rows with the same number only the last is told, without any error. -/
theorem repeated_violated (angle : List Char → Option ℚ) (t r q : Row) (s : List Char) (ht : t.mark = .text ('T' :: s)) (n : ℤ) (hr : Complete r n)
    (hq : Complete q n) :
    ∃ e, tableOf angle [t, r, q] = .ok [(maKey n, e)] ∧ Tells angle q n e := by
  obtain ⟨e1, h1, _⟩ := entry_ok angle r n hr
  obtain ⟨e2, h2, hT⟩ := entry_ok angle q n hq
  refine ⟨e2, ?_, hT⟩
  unfold tableOf
  rw [if_neg]
  · have hf : [t, r, q].filter (fun r => !r.mark.unbuilt) = [r, q] := by
      rw [List.filter_cons_of_neg (by rw [ht]; exact Bool.false_ne_true), List.filter_cons_of_pos (by rw [hr.1]; rfl), List.filter_cons_of_pos (by rw [hq.1]; rfl)]
      rfl
    rw [hf]
    have : entries angle [r, q] = .ok [(maKey n, e1), (maKey n, e2)] := by
      show (entryOf angle r).bind _ = _
      rw [h1]
      show Except.map _ ((entryOf angle q).bind _) = _
      rw [h2]
      rfl
    rw [this]
    show Except.ok (putItem (putItem [] (maKey n, e1)) (maKey n, e2)) = _
    have h3 : putItem [] (maKey n, e1) = [(maKey n, e1)] := rfl
    rw [h3]
    unfold putItem
    rw [if_pos (show (maKey n, e2).1 ∈ List.map Prod.fst [(maKey n, e1)] from List.mem_singleton.2 rfl), List.map_singleton, if_pos rfl]
  · rintro ⟨_, hall⟩
    have := List.all_eq_true.1 hall t (List.mem_cons_self ..)
    rw [ht] at this
    exact absurd this Bool.false_ne_true

/-- **C183**: the rows which are left out are those whose number is a text starting with a T: numbers and empty cells stay. -/
theorem unbuilt_iff (m : Mark) : m.unbuilt = true ↔ ∃ s, m = .text ('T' :: s) := by
  cases m with
  | num k => exact ⟨fun h => absurd h Bool.false_ne_true, fun ⟨_, h⟩ => (nomatch h)⟩
  | missing => exact ⟨fun h => absurd h Bool.false_ne_true, fun ⟨_, h⟩ => (nomatch h)⟩
  | text s =>
    constructor
    · intro h
      cases s with
      | nil => exact absurd h Bool.false_ne_true
      | cons c l =>
        have hc : c = 'T' := by
          have := eq_of_beq (show (some c == some 'T') = true from h)
          exact Option.some.inj this
        exact ⟨l, by rw [hc]⟩
    · rintro ⟨l, h⟩
      injection h with h
      subst h
      rfl

/-- **C183**: unbuilt mini-arrays are not in the table: without their rows the entries are the same. -/
theorem unbuilt_apart (angle : List Char → Option ℚ) (rows : List Row) (r : Row) (s : List Char) (hr : r.mark = .text ('T' :: s)) :
    tableOf angle (r :: rows) = (entries angle (rows.filter fun r => !r.mark.unbuilt)).map fun es => es.foldl putItem [] := by
  unfold tableOf
  rw [if_neg, List.filter_cons_of_neg (by rw [hr]; exact Bool.false_ne_true)]
  rintro ⟨_, hall⟩
  have := List.all_eq_true.1 hall r (List.mem_cons_self ..)
  rw [hr] at this
  exact absurd this Bool.false_ne_true

/-- **C183**: the file of the package changes only if this is asked for and confirmed by `yes`; the table is returned only if nothing is to
be saved, and an error changes nothing. -/
theorem saved_exact (angle : List Char → Option ℚ) (rows : List Row) (save : Bool) (answer : String) (file : List (List Char × Entry)) :
    (∀ d, tableOf angle rows = .ok d →
      (save = true → answer = "yes" → fromSheet angle rows save answer file = (d, .ok none)) ∧
      (save = true → answer ≠ "yes" → fromSheet angle rows save answer file = (file, .ok none)) ∧
      (save = false → fromSheet angle rows save answer file = (file, .ok (some d)))) ∧
    ∀ e, tableOf angle rows = .error e → fromSheet angle rows save answer file = (file, .error e) := by
  constructor
  · intro d hd
    unfold fromSheet
    rw [hd]
    refine ⟨?_, ?_, ?_⟩
    · rintro rfl ha
      show (if answer = "yes" then d else file, Except.ok none) = _
      rw [if_pos ha]
    · rintro rfl ha
      show (if answer = "yes" then d else file, Except.ok none) = _
      rw [if_neg ha]
    · rintro rfl
      rfl
  · intro e he
    unfold fromSheet
    rw [he]

/-- **C183**: a number written as a text is read as well, a text which is no number is not. -/
theorem number_text (n : Nat) (s : List Char) (c : Char) (hc : c ∈ s) (hd : c.isDigit = false) :
    (Mark.text (Nat.toDigits 10 n)).number = .ok (n : ℤ) ∧ (Mark.text s).number = .error .valueError := by
  constructor
  · show (if _ then _ else _) = _
    rw [if_pos, Nat.ofDigitChars_ten_toDigits]
    refine ⟨Nat.toDigits_ne_nil, List.all_eq_true.2 fun x hx => ?_⟩
    exact Nat.isDigit_of_mem_toDigits (by norm_num) (by norm_num) hx
  · show (if _ then _ else _) = _
    rw [if_neg]
    rintro ⟨_, h⟩
    have := List.all_eq_true.1 h c hc
    rw [hd] at this
    exact Bool.false_ne_true this

/-- Rows which meet the hypotheses: mini-array 7, turned by 60 degrees, and `T104` which is not built. -/
example : Complete ⟨.num 7, some 60, some "2°11'35,6''".toList, none, none, (none, none, none), none, none⟩ 7 := ⟨rfl, rfl, rfl⟩

example : (Mark.text "T104".toList).unbuilt = true ∧ (Mark.text "T104".toList).isText = true := ⟨rfl, rfl⟩

end Verif.Instru.Sheet
