/-
C187: the drawing of the history of a genetic search.
-/
import Verif.GA.History
import Verif.GA.PropsAgain

namespace Verif.GA

variable {G : Type}

/-- The scores kept are those of the best individuals of the populations evaluated. -/
def Kept (fit : G → ℚ) (zero : G) (s : St G) : Prop := s.scores = s.seen.map fun p => fit (bestOf fit zero p)

theorem loop_kept (fit : G → ℚ) (O : Oracle G) (P : Params) (zero : G) : ∀ (k : Nat) (pop : List G) (s : St G), Kept fit zero s → Kept fit zero (loop fit O P zero k pop s) := by
  intro k
  induction k with
  | zero => intro pop s h; exact h
  | succ k ih =>
    intro pop s h
    have h1 : Kept fit zero (evalGen fit zero pop s) := by
      unfold Kept at h ⊢
      rw [evalGen_scores, evalGen_seen, h, List.map_append]
      rfl
    rw [loop]
    split
    · exact h1
    · split
      · exact h1
      · exact ih _ _ h1

/-- After any number of calls which succeed: the counter and the scores which were kept. -/
theorem evolves_counts (fit : G → ℚ) (zero : G) : ∀ (cs : List (Call G)) (s0 s : St G), evolves fit zero cs s0 = .ok s → Kept fit zero s0 →
    Kept fit zero s ∧ s.gen = s0.gen + ((s.scores.length : Int) - s0.scores.length) - cs.length
  | [], s0, s, h, hk => by
    cases h
    exact ⟨hk, by simp⟩
  | c :: cs, s0, s, h, hk => by
    cases he : evolve fit c.draws c.params zero c.first s0 with
    | error e =>
      simp only [evolves, he, Except.bind] at h
      cases h
    | ok t =>
      simp only [evolves, he, Except.bind] at h
      have hkt : Kept fit zero t := by
        rw [evolve_ok he]
        exact loop_kept _ _ _ _ _ _ _ hk
      obtain ⟨h1, h2⟩ := evolves_counts fit zero cs t s h hkt
      have h3 := (evolve_counts he).1
      refine ⟨h1, ?_⟩
      rw [h2, h3, List.length_cons]
      push_cast
      ring

theorem generations_length (s : St G) : (generations s).length = (s.gen + 1).toNat := List.length_range

theorem kept_length {fit : G → ℚ} {zero : G} {s : St G} (h : Kept fit zero s) : s.scores.length = s.seen.length := by
  rw [h, List.length_map]

theorem width_const (rows : List (List ℚ)) (n : Nat) (hne : rows ≠ []) (h : ∀ r ∈ rows, r.length = n) : width rows = .ok n := by
  cases rows with
  | nil => exact absurd rfl hne
  | cons r rs =>
    have hr := h r List.mem_cons_self
    show (if (r :: rs).all (fun q : List ℚ => q.length == r.length) then Except.ok r.length else Except.error Err.valueError) = _
    rw [if_pos (List.all_eq_true.2 fun q hq => by rw [h q hq, hr]; exact beq_self_eq_true n), hr]

theorem repeat_length (n : Nat) (x : List Nat) : (repeatEach n x).length = x.length * n := by
  unfold repeatEach
  induction x with
  | nil => simp
  | cons a t ih => rw [List.flatMap_cons, List.length_append, List.length_replicate, ih, List.length_cons, Nat.succ_mul, Nat.add_comm]

theorem flatten_length (rows : List (List ℚ)) (n : Nat) (h : ∀ r ∈ rows, r.length = n) : rows.flatten.length = rows.length * n := by
  induction rows with
  | nil => simp
  | cons a t ih =>
    rw [List.flatten_cons, List.length_append, h a List.mem_cons_self, ih fun r hr => h r (List.mem_cons_of_mem _ hr), List.length_cons, Nat.succ_mul, Nat.add_comm]

/-- The points of a table with rows of one length: each number with the generation of its row. -/
theorem zip_rows (n : Nat) : ∀ (rows : List (List ℚ)) (a : Nat), (∀ r ∈ rows, r.length = n) →
    (repeatEach n (List.range' a rows.length)).zip rows.flatten = (rows.zipIdx a).flatMap fun p => p.1.map fun y => (p.2, y)
  | [], a, _ => by simp [repeatEach]
  | r :: rs, a, h => by
    have hr := h r List.mem_cons_self
    have ih := zip_rows n rs (a + 1) fun q hq => h q (List.mem_cons_of_mem _ hq)
    rw [List.length_cons, List.range'_succ, List.zipIdx_cons, List.flatMap_cons, ← ih]
    show ((List.replicate n a ++ repeatEach n (List.range' (a + 1) rs.length)).zip (r ++ rs.flatten)) = _
    rw [List.zip_append (by rw [List.length_replicate, hr])]
    congr 1
    rw [← hr]
    clear hr h ih
    induction r with
    | nil => rfl
    | cons y ys ihy => rw [List.length_cons, List.replicate_succ, List.zip_cons_cons, ihy, List.map_cons]

theorem curve_rows (f : List G → ℚ) : ∀ (l : List (List G)) (a : Nat), (List.range' a l.length).zip (l.map f) = (l.zipIdx a).map fun p : List G × Nat => (p.2, f p.1)
  | [], a => rfl
  | p :: l, a => by
    rw [List.length_cons, List.range'_succ, List.map_cons, List.zip_cons_cons, List.zipIdx_cons, List.map_cons, curve_rows f l (a + 1)]

theorem child_rows (fit : G → ℚ) : ∀ (l : List (List G)) (a : Nat),
    ((((l.map fun p => p.map fit).zipIdx a).flatMap fun p => p.1.map fun y => (p.2, y)).filter fun p : Nat × ℚ => p.2 ≠ 0) =
      (l.zipIdx a).flatMap fun p : List G × Nat => (p.1.filter fun g : G => fit g ≠ 0).map fun g : G => (p.2, fit g)
  | [], a => rfl
  | p :: l, a => by
    rw [List.map_cons, List.zipIdx_cons, List.zipIdx_cons, List.flatMap_cons, List.flatMap_cons, List.filter_append, child_rows fit l (a + 1), List.map_map, List.filter_map]
    rfl

/-- **C187.** Which histories can be drawn: for an object on which any calls to `evolve` were made, with any arguments and draws and with populations of one size, `plot` succeeds exactly
when there was one call and it evaluated a generation. With no call, or with two calls or more, the numbers of generations and of scores differ (`ValueError`); when nothing was ever evaluated
by the calls made, it is an `IndexError`. -/
theorem plot_calls (fit : G → ℚ) (zero : G) (cs : List (Call G)) (s : St G) (h : evolves fit zero cs (fresh zero) = .ok s) (n : Nat) (hn : ∀ p ∈ s.seen, p.length = n) :
    ((∃ d, plot fit s = .ok d) ↔ cs.length = 1 ∧ s.seen ≠ []) ∧
    (cs = [] → plot fit s = .error .valueError) ∧
    (2 ≤ cs.length → s.seen ≠ [] → plot fit s = .error .valueError) ∧
    (cs ≠ [] → s.seen = [] → plot fit s = .error .indexError) := by
  obtain ⟨hk, hg⟩ := evolves_counts fit zero cs (fresh zero) s h rfl
  have hl := kept_length hk
  have hg' : s.gen = (s.seen.length : Int) - cs.length := by
    rw [hg, hl]
    show (0 : Int) + ((s.seen.length : Int) - (0 : Nat)) - cs.length = _
    push_cast
    ring
  have hlen : (generations s).length = (s.gen + 1).toNat := generations_length s
  have hbad : (s.gen + 1).toNat ≠ s.seen.length → plot fit s = .error .valueError := by
    intro hne
    unfold plot
    rw [if_pos (by rw [hlen, hl]; exact hne)]
  have hempty : cs ≠ [] → s.seen = [] → plot fit s = .error .indexError := by
    intro hc hs
    have hc' : 0 < cs.length := List.length_pos_iff.2 hc
    unfold plot
    rw [if_neg (by rw [hlen, hl, hg', hs]; simp only [List.length_nil]; push_cast; omega)]
    have : childScores fit s = [] := by unfold childScores; rw [hs]; rfl
    rw [this]
    rfl
  refine ⟨⟨?_, ?_⟩, ?_, ?_, hempty⟩
  · rintro ⟨d, hd⟩
    by_cases hs : s.seen = []
    · by_cases hc : cs = []
      · rw [hbad (by rw [hg', hs, hc]; simp)] at hd
        cases hd
      · rw [hempty hc hs] at hd
        cases hd
    · have hp : 0 < s.seen.length := List.length_pos_iff.2 hs
      refine ⟨?_, hs⟩
      by_contra hc
      rw [hbad (by rw [hg']; omega)] at hd
      cases hd
  · rintro ⟨hc, hs⟩
    have hcount : (generations s).length = s.seen.length := by rw [hlen, hg', hc]; omega
    have hrows : ∀ r ∈ childScores fit s, r.length = n := by
      intro r hr
      obtain ⟨p, hp, rfl⟩ := List.mem_map.1 hr
      rw [List.length_map, hn p hp]
    have hclen : (childScores fit s).length = s.seen.length := List.length_map ..
    unfold plot
    rw [if_neg (by rw [hcount, hl]; simp)]
    unfold hexagons
    rw [width_const _ n (by intro h0; rw [h0] at hclen; exact hs (List.length_eq_zero_iff.1 hclen.symm)) hrows]
    show ∃ d, (if (repeatEach n (generations s)).length ≠ (childScores fit s).flatten.length then (Except.error Err.valueError : Except Err (List (Nat × ℚ)))
      else Except.ok _).map _ = Except.ok d
    rw [if_neg (by rw [repeat_length, flatten_length _ n hrows, hcount, hclen]; simp)]
    exact ⟨_, rfl⟩
  · intro hc
    apply hbad
    have hs : s.seen = [] := by
      subst hc
      cases h
      rfl
    rw [hg', hs, hc]
    simp
  · intro hc hs
    have hp : 0 < s.seen.length := List.length_pos_iff.2 hs
    exact hbad (by rw [hg']; omega)

/-- **C187.** What is drawn after one call which evaluated a generation, for every fitness, draws and arguments: each generation evaluated once, numbered from zero, with the fitness of the best
individual of its population; and every individual ever evaluated whose fitness is not zero, at its generation with its fitness. -/
theorem plot_once_partial {fit : G → ℚ} {O : Oracle G} {P : Params} {zero : G} {pop : List G} {s : St G} (hO : O.Sorts fit) (h2 : 2 ≤ P.popSize)
    (hpop : pop.length = P.popSize) (hgen : 0 < P.genMax) (h : evolve fit O P zero pop (fresh zero) = .ok s) :
    s.seen ≠ [] ∧ plot fit s = .ok ⟨s.seen.zipIdx.map (fun p : List G × Nat => (p.2, fit (bestOf fit zero p.1))),
      s.seen.zipIdx.flatMap fun p : List G × Nat => (p.1.filter fun g : G => fit g ≠ 0).map fun g : G => (p.2, fit g)⟩ ∧
    ∀ p ∈ s.seen, (∃ g ∈ p, fit g = fit (bestOf fit zero p)) ∧ ∀ g ∈ p, fit g ≤ fit (bestOf fit zero p) := by
  obtain ⟨_, _, hsize, _, hlen⟩ := evolve_best hO h2 hpop h
  obtain ⟨c1, _, _, c4⟩ := evolve_counts h
  have hk : Kept fit zero s := by
    rw [evolve_ok h]
    exact loop_kept _ _ _ _ _ _ _ rfl
  have hpos : 0 < s.seen.length := by
    have h5 := c4 (show (0 : Int) < P.genMax by exact_mod_cast hgen)
    have h6 : (fresh zero).scores.length = 0 := rfl
    omega
  have hs : s.seen ≠ [] := List.length_pos_iff.1 hpos
  have hgens : generations s = List.range s.seen.length := by
    unfold generations
    rw [c1, hlen]
    show List.range ((0 : Int) + ((s.seen.length : Int) - (0 : Nat)) - 1 + 1).toNat = _
    congr 1
    push_cast
    omega
  have hrows : ∀ r ∈ childScores fit s, r.length = P.popSize := by
    intro r hr
    obtain ⟨p, hp, rfl⟩ := List.mem_map.1 hr
    rw [List.length_map, hsize p hp]
  have hclen : (childScores fit s).length = s.seen.length := List.length_map ..
  refine ⟨hs, ?_, fun p hp => ⟨⟨_, bestOf_mem (fun h0 => ?_), rfl⟩, fun g hg => bestOf_max hg⟩⟩
  · unfold plot
    rw [hgens, if_neg (by rw [List.length_range, hlen]; simp)]
    unfold hexagons
    rw [width_const _ P.popSize (by intro h0; rw [h0] at hclen; exact hs (List.length_eq_zero_iff.1 hclen.symm)) hrows]
    show (if (repeatEach P.popSize (List.range s.seen.length)).length ≠ (childScores fit s).flatten.length then (Except.error Err.valueError : Except Err (List (Nat × ℚ)))
      else Except.ok (((repeatEach P.popSize (List.range s.seen.length)).zip (childScores fit s).flatten).filter fun p : Nat × ℚ => p.2 ≠ 0)).map _ = _
    rw [if_neg (by rw [repeat_length, flatten_length _ _ hrows, hclen, List.length_range]; simp)]
    have hz : (repeatEach P.popSize (List.range s.seen.length)).zip (childScores fit s).flatten =
        ((childScores fit s).zipIdx 0).flatMap fun p => p.1.map fun y => (p.2, y) := by
      rw [← zip_rows P.popSize (childScores fit s) 0 hrows, hclen, List.range_eq_range']
    rw [hz]
    show Except.ok (⟨_, _⟩ : Drawn) = _
    congr 2
    · rw [hk, List.range_eq_range']
      exact curve_rows (fun p => fit (bestOf fit zero p)) s.seen 0
    · exact child_rows fit s.seen 0
  · have := hsize p hp
    rw [h0] at this
    simp at this
    omega

/-- **C187** is false of a search continued by a second call, whatever the fitness, the arguments and the draws of the two calls: the history cannot be drawn. -/
theorem plot_again_violated (fit : G → ℚ) (zero : G) (c d : Call G) (s t : St G) (n : Nat) (h1 : evolves fit zero [c] (fresh zero) = .ok s) (hs : ∃ drawn, plot fit s = .ok drawn)
    (h2 : evolves fit zero [c, d] (fresh zero) = .ok t) (hns : ∀ p ∈ s.seen, p.length = n) (hn : ∀ p ∈ t.seen, p.length = n) :
    plot fit t = .error .valueError := by
  have hseen := (((plot_calls fit zero [c] s h1 n hns).1).1 hs).2
  refine (plot_calls fit zero [c, d] t h2 n hn).2.2.1 (by simp) ?_
  cases he : evolve fit c.draws c.params zero c.first (fresh zero) with
  | error e =>
    simp only [evolves, he, Except.bind] at h1
    cases h1
  | ok u =>
    simp only [evolves, he, Except.bind] at h1 h2
    cases h1
    cases hf : evolve fit d.draws d.params zero d.first s with
    | error e =>
      simp only [hf] at h2
      cases h2
    | ok v =>
      simp only [hf] at h2
      cases h2
      have hks : Kept fit zero s := by
        rw [evolve_ok he]
        exact loop_kept _ _ _ _ _ _ _ rfl
      have hkt : Kept fit zero t := by
        rw [evolve_ok hf]
        exact loop_kept _ _ _ _ _ _ _ hks
      have hle := (evolve_counts hf).2.1
      rw [kept_length hks, kept_length hkt] at hle
      have := List.length_pos_iff.2 hseen
      exact List.length_pos_iff.1 (by omega)

/-- One call: two generations, the individual of fitness zero is not drawn. Two calls: nothing can be drawn. No call, or no generation: neither. -/
example : ((evolves id 0 [⟨demoO, demoAgain, [1 / 2, 0]⟩] (fresh 0)).bind fun s => (plot id s).map fun d => (d.curve, d.children)).toOption =
    some ([(0, 1 / 2), (1, 1 / 2)], [(0, 1 / 2), (1, 1 / 2)]) := by decide +kernel

example : ((evolves id 0 [⟨demoO, demoAgain, [1 / 2, 1 / 5]⟩, ⟨demoO, demoAgain, [1 / 9, 1 / 5]⟩] (fresh 0)).toOption.map fun s => (plot id s).toOption.isNone) = some true := by decide +kernel

example : plot id (fresh (0 : ℚ)) = .error .valueError := rfl

example : ((evolves id 0 [⟨demoO, { demoAgain with genMax := 0 }, [1 / 2, 1 / 5]⟩] (fresh 0)).toOption.map fun s => (plot id s).toOption.isNone) = some true := by decide +kernel

end Verif.GA
