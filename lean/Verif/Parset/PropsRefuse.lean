import Verif.Parset.PropsJsonOld
import Verif.Parset.Center

/-!
# What a parset must have to be exported (properties C103, C128)
-/

namespace Verif.Parset

/-- **C128**: a block whose start was read as something else than a time has no centre: it cannot be added to the duration. -/
theorem center_start_refused (F : Str → Option ℚ) (S : Heavens) (d : Props) (n : ℚ) (v : PVal) (h : dictGet d "startTime".toList = some v)
    (hv : ∀ s, v ≠ .time s) : pointingCenter F S d n = .error .typeError := by
  unfold pointingCenter item
  rw [h]
  cases v with
  | time s => exact absurd rfl (hv s)
  | list l => rfl
  | bool b => rfl
  | angle s => rfl
  | int n => rfl
  | str s => rfl

/-- **C103**: an observation whose start was read as something else than a time is not exported. -/
theorem export_start_refused {C : Type} (F : Str → Option ℚ) (center : Props → ℚ → Except Err C) (zenith : Str × ℚ → C) (isot : Str → Str) (p : PSet) (v : PVal)
    (h : dictGet p.obs "startTime".toList = some v) (hv : ∀ s, v ≠ .time s) : toJsonOld F center zenith isot p = .error .attributeError := by
  unfold toJsonOld item
  rw [h]
  cases v with
  | time s => exact absurd rfl (hv s)
  | list l => rfl
  | bool b => rfl
  | angle s => rfl
  | int n => rfl
  | str s => rfl

theorem mapE_first_error {α β : Type} (f : α → Except Err β) (e : Err) : ∀ (l : List α) (x : α) (r : List α), (∀ y ∈ l, ∃ z, f y = .ok z) → f x = .error e →
    mapE f (l ++ x :: r) = .error e := by
  intro l
  induction l with
  | nil =>
    intro x r _ hx
    show mapE f (x :: r) = _
    unfold mapE
    rw [hx]
    rfl
  | cons y l ih =>
    intro x r hy hx
    obtain ⟨z, hz⟩ := hy y (by simp)
    show mapE f (y :: (l ++ x :: r)) = _
    unfold mapE
    rw [hz, ih x r (fun w hw => hy w (by simp [hw])) hx]
    rfl

/-- **C103**: the frequencies of a list of sub-bands in which something is not a number are refused. -/
theorem bands_refused (d : Props) (k : Str) (l : List Int) (x : Item) (r : List Item) (hx : ∀ n, x ≠ .int n)
    (h : dictGet d k = some (.list (l.map Item.int ++ x :: r))) : freqOf d k = .error .typeError := by
  unfold freqOf item
  rw [h]
  show (mapE itemInt (l.map Item.int ++ x :: r)).bind frequencyDict = _
  rw [mapE_first_error itemInt .typeError (l.map Item.int) x r ?_ ?_]
  · rfl
  · intro y hy
    obtain ⟨n, _, rfl⟩ := List.mem_map.1 hy
    exact ⟨n, rfl⟩
  · cases x with
    | int n => exact absurd rfl (hx n)
    | time s => rfl
    | str s => rfl

example : freqOf [("subbandList".toList, .list [.int 3, .str "4.5".toList])] "subbandList".toList = .error .typeError :=
  bands_refused _ _ [3] (.str "4.5".toList) [] (fun n h => nomatch h) rfl

open Verif.Config (PV paramsOf modeOf)

/-- **C103**: sub-bands which were not read as a list are refused. -/
theorem bands_alone_refused (d : Props) (k : Str) (v : PVal) (h : dictGet d k = some v) (hv : ∀ l, v ≠ .list l) : freqOf d k = .error .valueError := by
  unfold freqOf item
  rw [h]
  cases v with
  | list l => exact absurd rfl (hv l)
  | time s => rfl
  | bool b => rfl
  | angle s => rfl
  | int n => rfl
  | str s => rfl

theorem textOf_refused (v : PVal) (hv : ∀ s, v ≠ .str s) : textOf v = .error .attributeError := by
  cases v with
  | str s => exact absurd rfl (hv s)
  | list l => rfl
  | time s => rfl
  | bool b => rfl
  | angle s => rfl
  | int n => rfl

/-- **C103**: a beam whose parameters were read as something else than a text (a number, for example) is refused, in all modes which use them;
so is one whose task is not a text. -/
theorem parameters_refused (F : Str → Option ℚ) (d out : Props) (v : PVal) (hv : ∀ s, v ≠ .str s) :
    (dictGet d "parameters".toList = some v → pulsarSetting d = .error .attributeError ∧ tfSetting F d = .error .attributeError
      ∧ centerParams d = .error .attributeError ∧ ∀ g, withParams d g = .error .attributeError)
    ∧ (dictGet d "toDo".toList = some v → toDoOf d = .error .attributeError ∧ oldReceiver F d out = .error .attributeError) := by
  have e := textOf_refused v hv
  refine ⟨fun h => ?_, fun h => ?_⟩
  · unfold pulsarSetting tfSetting centerParams withParams
    rw [h]
    refine ⟨?_, ?_, ?_, fun g => ?_⟩
    · show (textOf v).bind _ = _
      rw [e]
      rfl
    · show (textOf v).bind _ = _
      rw [e]
      rfl
    · show (textOf v).map _ = _
      rw [e]
      rfl
    · show (textOf v).bind _ = _
      rw [e]
      rfl
  · unfold toDoOf oldReceiver
    rw [h]
    refine ⟨?_, ?_⟩
    · show (textOf v).map _ = _
      rw [e]
      rfl
    · show (textOf v).bind _ = _
      rw [e]
      rfl

/-- **C103**: one polarisation is exported exactly if `onlyi` is there, alone or with a text, whatever the text (`onlyi=0` as well); four otherwise. -/
theorem polars_exact (c : List (Str × PV)) :
    (Config.find c "onlyi".toList = none → polarsOf c = 4) ∧ (Config.find c "onlyi".toList = some .flag → polarsOf c = 1)
    ∧ (∀ s : Str, Config.find c "onlyi".toList = some (.text s) → polarsOf c = if s = [] then 4 else 1) := by
  refine ⟨fun h => ?_, fun h => ?_, fun s h => ?_⟩
  · unfold polarsOf
    rw [h]
    rfl
  · unfold polarsOf
    rw [h]
    rfl
  · unfold polarsOf
    rw [h]
    cases s <;> rfl

/-- The modes of the pulsar receivers which have a source. -/
def SourceMode (m : Str) : Prop := m = "fold".toList ∨ m = "single".toList ∨ m = "waveolaf".toList ∨ m = "wave".toList

/-- **C103**: a pulsar beam without a source is a KeyError; a source without a value is an AttributeError (in the old export it is kept). -/
theorem source_refused (d : Props) (m : Str) (hm : SourceMode m) (c : List (Str × PV)) :
    (Config.find c "src".toList = none → pulsarMode d m c = .error .keyError ∧ oldPulsar d m c = .error .keyError)
    ∧ (Config.find c "src".toList = some .flag → pulsarMode d m c = .error .attributeError ∧ oldSrc c = .ok .flag) := by
  refine ⟨fun h => ?_, fun h => ?_⟩
  · have e1 : srcOf c = .error .keyError := by
      unfold srcOf
      rw [h]
      rfl
    have e2 : oldSrc c = .error .keyError := by
      unfold oldSrc
      rw [h]
      rfl
    unfold pulsarMode oldPulsar
    rw [e1, e2]
    rcases hm with rfl | rfl | rfl | rfl
    · exact ⟨rfl, rfl⟩
    · exact ⟨rfl, rfl⟩
    · exact ⟨rfl, rfl⟩
    · exact ⟨rfl, rfl⟩
  · have e1 : srcOf c = .error .attributeError := by
      unfold srcOf
      rw [h]
      rfl
    have e2 : oldSrc c = .ok .flag := by
      unfold oldSrc
      rw [h]
      rfl
    refine ⟨?_, e2⟩
    unfold pulsarMode
    rw [e1]
    rcases hm with rfl | rfl | rfl | rfl
    · rfl
    · rfl
    · rfl
    · rfl

/-- **C103**: lists of the field of view which were not read as lists are refused. -/
theorem lists_refused (d : Props) (k : Str) (v : PVal) (h : dictGet d k = some v) (hv : ∀ l, v ≠ .list l) : listAt d k = .error .typeError := by
  unfold listAt item
  rw [h]
  cases v with
  | list l => exact absurd rfl (hv l)
  | time s => rfl
  | bool b => rfl
  | angle s => rfl
  | int n => rfl
  | str s => rfl

/-- **C103**: the first filter which is a time, or whose time is not one, is refused; before it all are exported. -/
theorem filters_refused (isot : Str → Str) (l : List (Int × Str)) (f t : List Item) :
    (∀ (s : Str) (x : Item), filtersOf isot (l.map (fun p => Item.int p.1) ++ .time s :: f) (l.map (fun p => Item.time p.2) ++ x :: t) = .error .typeError)
    ∧ (∀ (n : Int) (x : Item), (∀ s, x ≠ .time s) →
      filtersOf isot (l.map (fun p => Item.int p.1) ++ .int n :: f) (l.map (fun p => Item.time p.2) ++ x :: t) = .error .attributeError)
    ∧ filtersOf isot (l.map fun p => Item.int p.1) (l.map fun p => Item.time p.2) = .ok (l.map fun p => (p.1, isot p.2)) := by
  have hz : ∀ (a b : Item), (l.map (fun p => Item.int p.1) ++ a :: f).zip (l.map (fun p => Item.time p.2) ++ b :: t)
      = l.map (fun p => (Item.int p.1, Item.time p.2)) ++ (a, b) :: f.zip t := by
    intro a b
    rw [List.zip_append (by simp)]
    congr 1
    rw [List.zip_map', ]
  have hok : ∀ y ∈ l.map (fun p => (Item.int p.1, Item.time p.2)), ∃ z, (fun p : Item × Item => (filterInt p.1).bind fun n => (filterTime isot p.2).map fun s => (n, s)) y = .ok z := by
    intro y hy
    obtain ⟨q, _, rfl⟩ := List.mem_map.1 hy
    exact ⟨(q.1, isot q.2), rfl⟩
  refine ⟨fun s x => ?_, fun n x hx => ?_, ?_⟩
  · unfold filtersOf
    rw [hz]
    exact mapE_first_error _ _ _ _ _ hok rfl
  · unfold filtersOf
    rw [hz]
    refine mapE_first_error _ _ _ _ _ hok ?_
    cases x with
    | time s => exact absurd rfl (hx s)
    | int n => rfl
    | str s => rfl
  · unfold filtersOf
    rw [List.zip_map']
    clear hz hok
    induction l with
    | nil => rfl
    | cons p l ih =>
      show mapE _ ((Item.int p.1, Item.time p.2) :: l.map _) = _
      unfold mapE
      rw [ih]
      rfl

/-- **C103**: `noBeam` may be a number, or a boolean, which counts as 0 or 1; nothing else is the number of a field of view. -/
theorem beam_numbers (v : PVal) (k : Nat) : beamNumber v = some k ↔ v = .int k ∨ (v = .bool false ∧ k = 0) ∨ (v = .bool true ∧ k = 1) := by
  cases v with
  | bool b => cases b <;> simp [beamNumber, eq_comm]
  | int n => simp [beamNumber]
  | str s => simp [beamNumber]
  | time s => simp [beamNumber]
  | angle s => simp [beamNumber]
  | list l => simp [beamNumber]

/-- **C103**: the pointings of the cross-correlations follow the others in the order of the fields of view. -/
theorem xst_numbers {C : Type} (zenith : Str × ℚ → C) (out : Props) (n : Nat) (fovs : List (Fov C)) (f : List (ℚ × ℚ)) (hf : freqOf out "xst_sbList".toList = .ok f) :
    ∃ l, xstOf zenith out n fovs = .ok l ∧ l.map (fun q => (q.fov, q.idx)) = (List.range fovs.length).map fun i : Nat => (i, n + i) := by
  have key : ∀ (g : List (Fov C × Nat)), ∃ l : List (Pointing C),
      mapE (fun p : Fov C × Nat => (freqOf out "xst_sbList".toList).map fun f => (⟨p.2, n + p.2, .str [], (zenith p.1.place.2, p.1.place.2), some (.lanewba f)⟩ : Pointing C)) g = .ok l
      ∧ l.map (fun q => (q.fov, q.idx)) = g.map fun p => (p.2, n + p.2) := by
    intro g
    induction g with
    | nil => exact ⟨[], rfl, rfl⟩
    | cons p g ih =>
      obtain ⟨l, h1, h2⟩ := ih
      refine ⟨⟨p.2, n + p.2, .str [], (zenith p.1.place.2, p.1.place.2), some (.lanewba f)⟩ :: l, ?_, ?_⟩
      · unfold mapE
        rw [h1, hf]
        rfl
      · rw [List.map_cons, h2]
        rfl
  obtain ⟨l, h1, h2⟩ := key fovs.zipIdx
  refine ⟨l, h1, ?_⟩
  rw [h2, show (fun p : Fov C × Nat => (p.2, n + p.2)) = (fun i : Nat => (i, n + i)) ∘ Prod.snd from rfl, ← List.map_map, List.zipIdx_map_snd]
  simp [List.range_eq_range']

/-- **C103**: which values of `xst_userfile` ask for the pointings of the cross-correlations: all but false, zero, an empty text and an empty list. -/
theorem userfile_exact (v : PVal) : pvTrue v = false ↔ v = .bool false ∨ v = .int 0 ∨ v = .str [] ∨ v = .list [] := by
  cases v with
  | bool b => cases b <;> simp [pvTrue]
  | int n => simp [pvTrue]
  | str s => simp [pvTrue]
  | time s => simp [pvTrue]
  | angle s => simp [pvTrue]
  | list l => simp [pvTrue]

example : polarsOf [("onlyi".toList, .text "0".toList)] = 1 := (polars_exact _).2.2 ['0'] rfl

end Verif.Parset
