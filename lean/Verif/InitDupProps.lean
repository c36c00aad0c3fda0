import Verif.InitDup
import Verif.RunProps2
import Verif.PreprocProps
import Verif.RngProps

set_option linter.all false

/-!
# Initial points that coincide (C162)
-/

namespace GPry.Rng

/-- **C162** (seed), false if a generator is passed as seed: all processes take the same numbers, for their proposals and for their fits. -/
theorem C162_generator_counterexample (c : Cell) (svm : Bool) (i i' n m : ℕ) :
    (own (constructGiven i c svm) n).2 = (own (constructGiven i' c svm) n).2 ∧
    (own (constructGiven i c svm) n).2 = (List.range' c.pos n).map (fun j => (c.stream, j)) ∧
    (own (own (constructGiven i c svm) n).1 m).2 = (own (own (constructGiven i' c svm) n).1 m).2 ∧
    (fit (own (constructGiven i c svm) n).1 m).2 = (fit (own (constructGiven i' c svm) n).1 m).2 := by
  cases svm <;> refine ⟨?_, ?_, ?_, ?_⟩ <;> rfl

/-- Two processes with the same generator: their third and fourth numbers. -/
example : (own (own (constructGiven 0 ⟨.ofSeed 7, 0⟩ true) 2).1 2).2 = [(.ofSeed 7, 2), (.ofSeed 7, 3)] ∧
    (own (own (constructGiven 1 ⟨.ofSeed 7, 0⟩ true) 2).1 2).2 = [(.ofSeed 7, 2), (.ofSeed 7, 3)] := by decide

end GPry.Rng

namespace GPry.Run

/-- **C162** (warning) is false: the warning about points that are very close to each other is issued if and only if there are at least two points, however far
apart; the distances of the points from themselves are among those compared. -/
theorem C162_warning_counterexample {d : ℕ} (X : List (Fin d → ℝ)) : warnsClose X ↔ 2 ≤ X.length := by
  unfold warnsClose
  refine ⟨fun h => h.1, fun h => ⟨h, ⟨0, by omega⟩, ⟨0, by omega⟩, ?_⟩⟩
  simp [norm2]

/-- Two points at distance one. -/
example : warnsClose [![0], ![1]] := (C162_warning_counterexample _).2 (by decide)

open GPry.Gpr

variable {P PX Θ K : Type*} [Field K] [LinearOrder K] [IsStrictOrderedRing K]

/-- The rounds made. -/
theorem initRounds_rounds (cfg : Cfg P PX Θ K) (p k needed : ℕ) (draw : ℕ → ℕ → ℕ → P × Ext K) :
    ∀ (n i : ℕ) (acc : List (P × Ext K)), ∃ m ≤ n,
      (initRounds cfg p k needed draw n i acc).1 = acc ++ (List.range m).flatMap fun t => roundPts p k draw (i + t) := by
  intro n
  induction n with
  | zero => intro i acc; exact ⟨0, le_refl _, by simp [initRounds]⟩
  | succ n ih =>
    intro i acc
    unfold initRounds
    dsimp only
    split
    · exact ⟨1, by omega, by simp⟩
    · obtain ⟨m, hm, he⟩ := ih (i + 1) (acc ++ roundPts p k draw i)
      refine ⟨m + 1, by omega, ?_⟩
      rw [he, List.range_succ_eq_map, List.flatMap_cons, List.flatMap_map, List.append_assoc]
      simp only [Nat.add_zero]
      congr 2
      refine List.flatMap_congr fun t _ => ?_
      rw [show i + 1 + t = i + t.succ from by omega]

/-- **C162** (seed): if different random numbers give different points, the points of the initial training are all different. The `j`-th point of process `r` in
round `i` is made with numbers of its own (`C137_run`). -/
theorem C162_distinct_partial (cfg : Cfg P PX Θ K) (p k needed : ℕ) (draw : ℕ → ℕ → ℕ → P × Ext K)
    (hd : ∀ i r j i' r' j', (draw i r j).1 = (draw i' r' j').1 → i = i' ∧ r = r' ∧ j = j') (n : ℕ) :
    ((initRounds cfg p k needed draw n 0 []).1.map Prod.fst).Nodup := by
  obtain ⟨m, -, he⟩ := initRounds_rounds cfg p k needed draw n 0 []
  rw [he, List.nil_append, List.map_flatMap, List.nodup_flatMap]
  have hmem : ∀ i x, x ∈ (roundPts p k draw i).map Prod.fst → ∃ r j, x = (draw i r j).1 := by
    intro i x hx
    obtain ⟨q, hq, rfl⟩ := List.mem_map.1 hx
    unfold roundPts at hq
    obtain ⟨r, -, hr⟩ := List.mem_flatMap.1 hq
    obtain ⟨j, -, rfl⟩ := List.mem_map.1 hr
    exact ⟨r, j, rfl⟩
  constructor
  · intro i _
    unfold roundPts
    rw [List.map_flatMap, List.nodup_flatMap]
    constructor
    · intro r _
      rw [List.map_map]
      refine List.Nodup.map_on ?_ List.nodup_range
      intro j _ j' _ h
      exact (hd _ _ _ _ _ _ h).2.2
    · refine List.Pairwise.imp ?_ (List.nodup_range (n := p))
      intro r r' hne
      simp only [Function.onFun, List.disjoint_left]
      intro x hx hx'
      rw [List.map_map] at hx hx'
      obtain ⟨j, -, rfl⟩ := List.mem_map.1 hx
      obtain ⟨j', -, h'⟩ := List.mem_map.1 hx'
      exact hne (hd _ _ _ _ _ _ h').2.1.symm
  · refine List.Pairwise.imp ?_ (List.nodup_range (n := m))
    intro i i' hne
    simp only [Function.onFun, List.disjoint_left]
    intro x hx hx'
    obtain ⟨r, j, rfl⟩ := hmem _ _ hx
    obtain ⟨r', j', h'⟩ := hmem _ _ hx'
    exact hne (by have := (hd _ _ _ _ _ _ h').1; omega)

/-- If the processes draw the same points, a round consists of `p` copies of the points of the first process. -/
theorem roundPts_same (p k : ℕ) (draw : ℕ → ℕ → ℕ → P × Ext K) (hs : ∀ i r j, draw i r j = draw i 0 j) (i : ℕ) :
    roundPts p k draw i = (List.replicate p ((List.range k).map (draw i 0))).flatten := by
  unfold roundPts
  rw [List.flatMap_def]
  congr 1
  rw [List.eq_replicate_iff]
  refine ⟨by simp, ?_⟩
  intro l hl
  obtain ⟨r, -, rfl⟩ := List.mem_map.1 hl
  exact List.map_congr_left fun j _ => hs i r j

/-- **C162** (seed), false if a generator is passed as seed to several processes: at least all but one in `p` of the evaluations of the initial training
are repetitions. -/
theorem C162_repeated_counterexample [DecidableEq P] (cfg : Cfg P PX Θ K) (p k needed : ℕ) (draw : ℕ → ℕ → ℕ → P × Ext K)
    (hs : ∀ i r j, draw i r j = draw i 0 j) (n : ℕ) :
    p * ((initRounds cfg p k needed draw n 0 []).1.map Prod.fst).dedup.length ≤ (initRounds cfg p k needed draw n 0 []).1.length := by
  obtain ⟨m, -, he⟩ := initRounds_rounds cfg p k needed draw n 0 []
  rw [he, List.nil_append]
  set base := (List.range m).flatMap fun t => (List.range k).map fun j => (draw t 0 j).1
  have hlen : ((List.range m).flatMap fun t => roundPts p k draw (0 + t)).length = p * base.length := by
    rw [List.length_flatMap, List.length_flatMap]
    simp only [roundPts_length, List.length_map, List.length_range]
    simp
    ring
  rw [hlen]
  refine Nat.mul_le_mul_left p ?_
  have hsub : ∀ x ∈ (((List.range m).flatMap fun t => roundPts p k draw (0 + t)).map Prod.fst).dedup, x ∈ base.dedup := by
    intro x hx
    rw [List.mem_dedup] at hx ⊢
    obtain ⟨q, hq, rfl⟩ := List.mem_map.1 hx
    obtain ⟨t, ht, hq⟩ := List.mem_flatMap.1 hq
    unfold roundPts at hq
    obtain ⟨r, -, hr⟩ := List.mem_flatMap.1 hq
    obtain ⟨j, hj, rfl⟩ := List.mem_map.1 hr
    refine List.mem_flatMap.2 ⟨t, ht, List.mem_map.2 ⟨j, hj, ?_⟩⟩
    rw [hs (0 + t) r j, Nat.zero_add]
  calc _ ≤ base.dedup.length := (List.subperm_of_subset (List.nodup_dedup _) hsub).length_le
    _ ≤ base.length := (List.dedup_sublist _).length_le

/-- **C162** (seed), false: with a generator as seed, at least as many processes as initial points, and the default preprocessor of the targets, a run whose
first point has a finite value cannot start: the initial training consists of copies of one point, and adding it to the surrogate raises. -/
theorem C162_cannot_start_counterexample (sqrt : K → K) (h0 : sqrt 0 = 0) {cfg : Cfg P PX Θ K} (hc : CfgOk cfg)
    (hfit : ∀ q xs ys, cfg.fitY q xs ys = .ok (Pre.normFit sqrt ys)) (hu : cfg.useSvm = true) (px : PX) (py : PreY K) (s : Noise K)
    {p nInitial maxInitial : ℕ} (hn : 0 < nInitial) (hp : nInitial ≤ p) (hm : 0 < maxInitial) (verbose : ℤ) {draw : ℕ → ℕ → ℕ → P × Ext K}
    (hs : ∀ i r j, draw i r j = draw i 0 j) (v : K) (hv : (draw 0 0 0).2 = .fin v) :
    ∃ e, initialTraining cfg p nInitial maxInitial verbose draw (State.init px py s) = .error (.fit e) := by
  have hk : Mpi.ceilDiv nInitial p = 1 := by
    unfold Mpi.ceilDiv
    rw [Nat.div_eq_iff (by omega)]
    omega
  have hr : roundPts p 1 draw 0 = List.replicate p (draw 0 0 0) := by
    rw [roundPts_same p 1 draw hs 0]
    simp
  obtain ⟨N, hN⟩ : ∃ N, Mpi.ceilDiv maxInitial 1 = N + 1 := ⟨maxInitial - 1, by simp [Mpi.ceilDiv]; omega⟩
  have hcount : nFiniteNew cfg ((List.replicate p (draw 0 0 0)).map Prod.snd) = p := by
    rw [List.map_replicate, hv]
    unfold nFiniteNew
    obtain ⟨p', rfl⟩ : ∃ p', p = p' + 1 := ⟨p - 1, by omega⟩
    have hmax : ∀ q, (List.replicate q (Ext.fin v)).foldl Ext.pyMax2 (.fin v) = .fin v := by
      intro q
      induction q with
      | zero => rfl
      | succ q ih =>
        rw [List.replicate_succ, List.foldl_cons]
        simpa [Ext.pyMax2] using ih
    rw [List.replicate_succ, Ext.pyMax, hmax, ← List.replicate_succ]
    dsimp only
    have hin : initIsFinite cfg (.fin v) (.fin v) = true := by
      unfold initIsFinite
      rw [if_pos hu]
      rcases hc.1 with ht | ⟨t, ht, ht0⟩ <;> rw [ht] <;>
        simp [isFiniteRaw, Ext.sub, Ext.neg, Ext.ge, Ext.le, Ext.isFinite]
      exact ht0
    rw [List.countP_eq_length.2 (by intro y hy; rw [(List.mem_replicate.1 hy).2]; exact hin), List.length_replicate]
  have hrounds : initRounds cfg p 1 nInitial draw (N + 1) 0 [] = (List.replicate p (draw 0 0 0), true) := by
    unfold initRounds
    dsimp only
    rw [List.nil_append, hr, hcount, if_pos hp]
  unfold initialTraining
  have hy0 : (State.init px py s : State P PX Θ K).yTrain = [] := rfl
  simp only [hy0, List.length_nil, Nat.sub_zero, hk, hN, List.zip_nil_right, hrounds]
  rw [if_neg (by omega)]
  have hall : ∀ y ∈ (State.init px py s : State P PX Θ K).yAll ++
      ({ batch := some ((List.replicate p (draw 0 0 0)).map Prod.fst, (List.replicate p (draw 0 0 0)).map Prod.snd) } : Call P K).ys, y = .fin v := by
    intro y hy
    have hy' : y ∈ (List.replicate p (draw 0 0 0)).map Prod.snd := hy
    rw [List.map_replicate, List.mem_replicate] at hy'
    rw [hy'.2, hv]
  have hraise := Pre.C72_equal_targets_raise sqrt h0 hc hfit hu (st := State.init px py s)
    (c := { batch := some ((List.replicate p (draw 0 0 0)).map Prod.fst, (List.replicate p (draw 0 0 0)).map Prod.snd) })
    (.inl rfl) ?_ ?_ v ?_
  · generalize append cfg (State.init px py s) _ = r at hraise ⊢
    obtain ⟨g, e⟩ := r
    cases e with
    | none => exact absurd rfl hraise
    | some e => exact ⟨e, rfl⟩
  · intro y hy
    exact .inr ⟨v, hall y hy⟩
  · intro h
    have : ((List.replicate p (draw 0 0 0)).map Prod.snd).length = 0 := by
      rw [show (List.replicate p (draw 0 0 0)).map Prod.snd = [] from h]; rfl
    simp at this
    omega
  · intro w hw _
    exact Ext.fin.inj (hall _ hw)

/-- Two processes with the same generator, two initial points asked for. -/
example : ∃ e, initialTraining Pre.exCfgN 2 2 8 3 (fun i _ j => (i + j, .fin 1)) (State.init () .unfitted (.scalar 1)) = .error (.fit e) :=
  C162_cannot_start_counterexample id rfl ⟨.inr ⟨20, rfl, by norm_num⟩, by show (0 : ℚ) ≤ 1 / 1000000; norm_num⟩ (fun _ _ _ => rfl) rfl () .unfitted (.scalar 1)
    (by decide) (by decide) (by decide) 3 (fun _ _ _ => rfl) 1 rfl

/-- Points that are different for each process. -/
example (cfg : Cfg (ℕ × ℕ × ℕ) Unit ℕ ℚ) : ((initRounds cfg 2 3 6 (fun i r j => ((i, r, j), .fin (i + r + j))) 5 0 []).1.map Prod.fst).Nodup :=
  C162_distinct_partial cfg 2 3 6 _ (fun i r j i' r' j' h => by simpa using h) 5

/-- Three processes, two points each: six evaluations of two points. -/
example : ((initRounds (exCfg true) 3 2 6 (fun i _ j => (2 * i + j, .fin 1)) 5 0 []).1.map Prod.fst) = [0, 1, 0, 1, 0, 1] := by decide +kernel

end GPry.Run
