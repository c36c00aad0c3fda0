import Verif.Cost

set_option linter.all false

/-! # C119: reported numbers of evaluations -/

namespace GPry.Cost

open GPry Spmd Prog

/-! ## TimerCounter -/

/-- An event that changes the counters of `o` other than by an evaluation of `o`. -/
def Ev.overwrites (o : ℕ) : Ev → Prop
  | .copy _ dst => dst = o
  | .assign dst _ => dst = o
  | _ => False

/-- Points at which the objects of a list are evaluated. -/
def Ev.points (gps : List ℕ) : Ev → ℤ
  | .predict o n => if o ∈ gps then n else 0
  | _ => 0

def Ev.likes (gps : List ℕ) : Ev → ℤ
  | .loglike o => if o ∈ gps then 1 else 0
  | _ => 0

theorem block_one (o : ℕ) (evs : List Ev) (h : Heap) (hw : ∀ e ∈ evs, ¬ e.overwrites o) :
    (block evs h o).evals - (h o).evals = (evs.map (Ev.points [o])).sum ∧ (block evs h o).logl - (h o).logl = (evs.map (Ev.likes [o])).sum := by
  induction evs generalizing h with
  | nil => simp [block]
  | cons e evs ih =>
    have h1 := ih (e.run h) (fun e' he' => hw e' (List.mem_cons_of_mem _ he'))
    have h2 : ((e.run h) o).evals - (h o).evals = e.points [o] ∧ ((e.run h) o).logl - (h o).logl = e.likes [o] := by
      have := hw e (by simp)
      cases e with
      | predict o' n =>
        by_cases ho : o' = o
        · subst ho; simp [Ev.run, Ev.points, Ev.likes]
        · simp [Ev.run, Ev.points, Ev.likes, Function.update_of_ne (Ne.symm ho), ho]
      | loglike o' =>
        by_cases ho : o' = o
        · subst ho; simp [Ev.run, Ev.points, Ev.likes]
        · simp [Ev.run, Ev.points, Ev.likes, Function.update_of_ne (Ne.symm ho), ho]
      | copy src dst =>
        simp only [Ev.overwrites] at this
        simp [Ev.run, Ev.points, Ev.likes, Function.update_of_ne (Ne.symm this)]
      | assign dst src =>
        simp only [Ev.overwrites] at this
        simp [Ev.run, Ev.points, Ev.likes, Function.update_of_ne (Ne.symm this)]
    rw [block, List.foldl_cons, ← block, List.map_cons, List.map_cons, List.sum_cons, List.sum_cons, ← h1.1, ← h1.2, ← h2.1, ← h2.2]
    constructor <;> ring

/-- **C119** `TimerCounter`: the number of points at which the objects given to it are evaluated in the block, and of evaluations of their
likelihoods, if the objects are different and their counters are not overwritten. Evaluations of copies do not count. -/
theorem C119_timer (gps : List ℕ) (hnd : gps.Nodup) (evs : List Ev) (h : Heap) (hw : ∀ o ∈ gps, ∀ e ∈ evs, ¬ e.overwrites o) :
    timer gps evs h = ((evs.map (Ev.points gps)).sum, (evs.map (Ev.likes gps)).sum) := by
  induction gps with
  | nil =>
    have : ∀ e : Ev, e.points [] = 0 ∧ e.likes [] = 0 := by intro e; cases e <;> simp [Ev.points, Ev.likes]
    have h1 : Ev.points [] = fun _ => 0 := funext fun e => (this e).1
    have h2 : Ev.likes [] = fun _ => 0 := funext fun e => (this e).2
    simp [timer, h1, h2]
  | cons o gps ih =>
    obtain ⟨hn, hnd⟩ := List.nodup_cons.1 hnd
    have h1 := ih hnd (fun o' ho' => hw o' (List.mem_cons_of_mem _ ho'))
    have h2 := block_one o evs h (hw o (by simp))
    simp only [timer, Prod.mk.injEq] at h1
    have h3 : ∀ e : Ev, e.points (o :: gps) = e.points [o] + e.points gps ∧ e.likes (o :: gps) = e.likes [o] + e.likes gps := by
      intro e
      cases e with
      | predict o' n =>
        by_cases ho : o' = o
        · subst ho; simp [Ev.points, Ev.likes, hn]
        · simp [Ev.points, Ev.likes, ho]
      | loglike o' =>
        by_cases ho : o' = o
        · subst ho; simp [Ev.points, Ev.likes, hn]
        · simp [Ev.points, Ev.likes, ho]
      | copy _ _ => simp [Ev.points, Ev.likes]
      | assign _ _ => simp [Ev.points, Ev.likes]
    have h4 : (evs.map (Ev.points (o :: gps))).sum = (evs.map (Ev.points [o])).sum + (evs.map (Ev.points gps)).sum := by
      rw [← List.sum_map_add]; congr 1; exact List.map_congr_left fun e _ => (h3 e).1
    have h5 : (evs.map (Ev.likes (o :: gps))).sum = (evs.map (Ev.likes [o])).sum + (evs.map (Ev.likes gps)).sum := by
      rw [← List.sum_map_add]; congr 1; exact List.map_congr_left fun e _ => (h3 e).2
    simp only [timer, List.map_cons, List.sum_cons, h1.1, h1.2, h2.1, h2.2, h4, h5]

/-- **C119** `BatchOptimizer` in one process: it works on a copy and passes the counter back, so that all evaluations of the copy count. -/
theorem C119_batch_one (gpr copy : ℕ) (hne : gpr ≠ copy) (evs : List Ev) (h : Heap)
    (hev : ∀ e ∈ evs, ∃ n, e = .predict copy n) :
    (timer [gpr] (.copy gpr copy :: evs ++ [.assign gpr copy]) h).1 = (evs.map (Ev.points [copy])).sum := by
  have h1 := block_one copy evs ((Ev.copy gpr copy).run h) (fun e he hw => by
    obtain ⟨n, rfl⟩ := hev e he
    exact hw)
  simp only [timer, List.map_cons, List.map_nil, List.sum_cons, List.sum_nil, add_zero, block, List.foldl_append, List.foldl_cons, List.foldl_nil,
    List.cons_append]
  have h2 := h1.1
  rw [show ((Ev.copy gpr copy).run h copy) = h gpr by simp [Ev.run]] at h2
  rw [← h2]
  simp [Ev.run, block]

/-- **C119** Evaluations of copies that are not passed back, as those of the conditioned surrogates of the pool of `NORA`, are not
reported. -/
theorem C119_copies_counterexample : ∃ (evs : List Ev) (h : Heap), (evs.map (Ev.points [0, 1])).sum = 50 ∧ timer [0] evs h = (10, 0) :=
  ⟨[.predict 0 10, .copy 0 1, .predict 1 40], fun _ => ⟨0, 0⟩, by decide, by decide⟩

/-! ## Several processes -/

theorem runs_rounds {p : ℕ} (hp : 0 < p) (e : Fin p → ℕ → ℕ) (k i : ℕ) (c : ℤ) :
    Runs (fun r : Fin p => rounds (decide (r.val = 0)) (e r) k i c) fun _ =>
      .ok (c + ((List.range k).map fun j => (e ⟨0, hp⟩ (i + j) : ℤ) + 1).sum) := by
  induction k generalizing i c with
  | zero => simpa [rounds] using Runs.ret (E := Progress.PErr) fun _ : Fin p => c
  | succ k ih =>
    have h1 := runs_share (E := Progress.PErr) (⟨0, hp⟩ : Fin p) fun r => c + (e r i : ℤ) + if decide (r.val = 0) = true then 1 else 0
    refine Runs.bind h1 ?_
    have h2 := ih (i + 1) (c + (e ⟨0, hp⟩ i : ℤ) + 1)
    have hs : c + (e ⟨0, hp⟩ i : ℤ) + 1 + ((List.range k).map fun j => (e ⟨0, hp⟩ (i + 1 + j) : ℤ) + 1).sum =
        c + ((List.range (k + 1)).map fun j => (e ⟨0, hp⟩ (i + j) : ℤ) + 1).sum := by
      rw [List.range_succ_eq_map, List.map_cons, List.sum_cons, List.map_map]
      have : (fun j => (e ⟨0, hp⟩ (i + 1 + j) : ℤ) + 1) = (fun j => (e ⟨0, hp⟩ (i + j) : ℤ) + 1) ∘ Nat.succ := by
        funext j
        simp only [Function.comp_apply]
        rw [show i + 1 + j = i + j.succ by omega]
      rw [this]
      simp only [add_zero]
      ring
    rw [hs] at h2
    simpa using h2

theorem runs_acquire {p : ℕ} (hp : 0 < p) (c : Fin p → ℤ) (e : Fin p → ℕ → ℕ) (n : ℕ) :
    Runs (fun r : Fin p => acquire (decide (r.val = 0)) (c r) (e r) n) fun r =>
      .ok (c ⟨0, hp⟩ + ((List.range n).map fun j => (e ⟨0, hp⟩ j : ℤ) + 1).sum - c r) := by
  have h1 := runs_share (E := Progress.PErr) (⟨0, hp⟩ : Fin p) c
  refine Runs.bind h1 (Runs.bind (runs_rounds hp e n 0 _) ?_)
  simpa using Runs.ret (E := Progress.PErr) fun r : Fin p => c ⟨0, hp⟩ + ((List.range n).map fun j => (e ⟨0, hp⟩ j : ℤ) + 1).sum - c r

section
variable {K : Type} [Field K] [LinearOrder K] {p : ℕ}

/-- **C119** What `BatchOptimizer` reports with several processes: not the sum of the evaluations made by them, but those of the main
process as many times as there are processes (corrected by the differences of the counters that the processes started with). -/
theorem C119_acquire_partial (hp : 1 < p) (c : Fin p → ℤ) (e : Fin p → ℕ → ℕ) (n : ℕ) (row : Fin p → Progress.Row K) (t : Fin p → Progress.Table K) :
    ∃ row' : Fin p → Progress.Row K,
      Runs (fun r : Fin p => monitored p (decide (r.val = 0)) (c r) (e r) n (row r :: t r)) (fun r => .ok (row' r :: t r)) ∧
      ∀ r, row' r .evalsAcquire =
        .fin ((p : K) * (((List.range n).map fun j => (e ⟨0, by omega⟩ j : ℤ) + 1).sum : ℤ) + ∑ s : Fin p, ((c ⟨0, by omega⟩ - c s : ℤ) : K)) := by
  set S : ℤ := ((List.range n).map fun j => (e ⟨0, by omega⟩ j : ℤ) + 1).sum with hS
  set c0 : ℤ := c ⟨0, by omega⟩ with hc0
  have h1 := runs_acquire (by omega : 0 < p) c e n
  obtain ⟨row', h2, -, -, h4, -⟩ := Progress.C55_mpi_sync (K := K) hp
    (fun r => Function.update (row r) .evalsAcquire (.fin ((c0 + S - c r : ℤ) : K))) t
  refine ⟨row', ?_, fun r => ?_⟩
  · refine Runs.bind h1 (Runs.bind (a := fun r => Function.update (row r) .evalsAcquire (.fin ((c0 + S - c r : ℤ) : K)) :: t r) ?_ h2)
    exact Runs.fin _
  · rw [(h4 .evalsAcquire (by decide) r).2 ⟨⟨0, by omega⟩, _, Function.update_self _ _ _⟩]
    congr 1
    simp only [Function.update_self]
    have : ∀ s : Fin p, ((c0 + S - c s : ℤ) : K) = (S : K) + ((c0 - c s : ℤ) : K) := by
      intro s; push_cast; ring
    rw [Finset.sum_congr rfl fun s _ => this s, Finset.sum_add_distrib, Finset.sum_const, Finset.card_univ, Fintype.card_fin, nsmul_eq_mul]

/-- **C119** is false: with two processes and one restart, made by the main process, the number reported is twice the number of evaluations. -/
theorem C119_acquire_counterexample (n m : ℕ) (hn : 0 < n) (row : Progress.Row ℚ) :
    ∃ row' : Fin 2 → Progress.Row ℚ,
      Runs (fun r : Fin 2 => monitored 2 (decide (r.val = 0)) 0 (fun _ => if r.val = 0 then m else 0) n [row]) (fun r => .ok [row' r]) ∧
      (∀ r, row' r .evalsAcquire = .fin (2 * (n * (m + 1)))) ∧
      (2 * (n * (m + 1)) : ℚ) ≠ ∑ r : Fin 2, ∑ i ∈ Finset.range n, ((if r.val = 0 then m else 0 : ℕ) : ℚ) + n := by
  obtain ⟨row', h1, h2⟩ := C119_acquire_partial (K := ℚ) (p := 2) (by decide) (fun _ => 0) (fun r _ => if r.val = 0 then m else 0) n (fun _ => row) (fun _ => [])
  refine ⟨row', h1, fun r => ?_, ?_⟩
  · rw [h2 r]
    simp
  · simp [Fin.sum_univ_two]
    have hn' : (0 : ℚ) < n := by exact_mod_cast hn
    have hm' : (0 : ℚ) ≤ m := by exact_mod_cast Nat.zero_le m
    nlinarith [mul_nonneg hn'.le hm']

/-- **C119** The evaluations of the fit: those of the main process only. -/
theorem C119_fit_partial (hp : 1 < p) (v : Fin p → ℤ) (row : Fin p → Progress.Row K) (t : Fin p → Progress.Table K)
    (hrow : ∀ r, row r .evalsFit = .nan) :
    ∃ row' : Fin p → Progress.Row K,
      Runs (fun r : Fin p => monitoredFit p (decide (r.val = 0)) (v r) (row r :: t r)) (fun r => .ok (row' r :: t r)) ∧
      ∀ r, row' r .evalsFit = .fin ((v ⟨0, by omega⟩ : ℤ) : K) := by
  obtain ⟨row', h2, -, -, h4, -⟩ := Progress.C55_mpi_sync (K := K) hp
    (fun r => if r.val = 0 then Function.update (row r) .evalsFit (.fin ((v r : ℤ) : K)) else row r) t
  refine ⟨row', ?_, fun r => ?_⟩
  · refine Runs.bind (a := fun r => (if r.val = 0 then Function.update (row r) .evalsFit (.fin ((v r : ℤ) : K)) else row r) :: t r) ?_ h2
    have : (fun r : Fin p => (Prog.fin (if decide (r.val = 0) = true then Progress.fill [(.evalsFit, .fin (v r : K))] (row r :: t r) else .ok (row r :: t r)) : Prog Progress.PErr (Progress.Table K))) =
        fun r => Prog.fin (.ok ((if r.val = 0 then Function.update (row r) .evalsFit (.fin ((v r : ℤ) : K)) else row r) :: t r)) := by
      funext r
      by_cases hr : r.val = 0
      · simp [hr, Progress.fill, Progress.setLast, Except.bind]
      · simp [hr]
    rw [this]
    exact Runs.fin _
  · rw [(h4 .evalsFit (by decide) r).2 ⟨⟨0, by omega⟩, ((v ⟨0, by omega⟩ : ℤ) : K), by simp⟩]
    congr 1
    rw [Finset.sum_eq_single (⟨0, by omega⟩ : Fin p)]
    · simp
    · intro s _ hs
      have : s.val ≠ 0 := fun h => hs (Fin.ext h)
      simp [this, hrow]
    · simp

end

example : timer [0, 2] [.predict 0 3, .copy 0 1, .predict 1 7, .loglike 0, .predict 2 5] (fun o => ⟨o, 0⟩) = (8, 1) := by decide

example : (timer [0] ([.copy 0 1, .predict 1 7, .predict 1 1] ++ [.assign 0 1]) (fun o => ⟨o, 0⟩)).1 = 8 := by decide

example : timer [0, 2] [.predict 0 3, .copy 0 1, .predict 1 7, .loglike 0, .predict 2 5] (fun o => ⟨o, 0⟩) = (8, 1) := by
  rw [C119_timer [0, 2] (by decide) _ _ (by simp [Ev.overwrites])]
  decide

example : (timer [0] (.copy 0 1 :: [.predict 1 7, .predict 1 1] ++ [.assign 0 1]) (fun o => ⟨o, 0⟩)).1 = 8 := by
  rw [C119_batch_one 0 1 (by decide) _ _ (by simp)]
  decide

/-- C119: two processes with counters 10 and 4, three steps of the first with 5, 6 and 7 evaluations each: `2 * 21 + 6`. -/
example (row : Fin 2 → Progress.Row ℚ) (t : Fin 2 → Progress.Table ℚ) : ∃ row' : Fin 2 → Progress.Row ℚ,
    Runs (fun r : Fin 2 => monitored 2 (decide (r.val = 0)) (if r.val = 0 then 10 else 4) (fun j => 5 + j) 3 (row r :: t r)) (fun r => .ok (row' r :: t r)) ∧
    ∀ r, row' r .evalsAcquire = .fin 48 := by
  obtain ⟨row', h, hr⟩ := C119_acquire_partial (K := ℚ) (p := 2) (by decide) (fun r => if r.val = 0 then 10 else 4) (fun _ j => 5 + j) 3 row t
  refine ⟨row', h, fun r => ?_⟩
  rw [hr r]
  simp [Fin.sum_univ_two, List.range_succ]
  norm_num

example (t : Fin 2 → Progress.Table ℚ) : ∃ row' : Fin 2 → Progress.Row ℚ,
    Runs (fun r : Fin 2 => monitoredFit 2 (decide (r.val = 0)) (if r.val = 0 then 30 else 12) ((fun _ => .nan) :: t r)) (fun r => .ok (row' r :: t r)) ∧
    ∀ r, row' r .evalsFit = .fin 30 := by
  obtain ⟨row', h, hr⟩ := C119_fit_partial (K := ℚ) (p := 2) (by decide) (fun r => if r.val = 0 then 30 else 12) (fun _ _ => .nan) t (fun _ => rfl)
  exact ⟨row', h, fun r => by rw [hr r]; simp⟩

end GPry.Cost
