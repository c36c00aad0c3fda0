import Verif.SpmdProps2

set_option linter.all false

/-!
# The initial training in all the processes (run.py:1071-1198)
-/

namespace GPry.Spmd
open Prog

section Init
variable {P PX Θ K : Type} [Field K] [LinearOrder K]

/-- run.py:1117-1166: rounds (`n` left) in the process of rank `r`; `acc` are the points gathered so far, only used in
the main process. Returns them and `finished`. -/
def roundsMPI (cfg : Gpr.Cfg P PX Θ K) (k needed : ℕ) (draw : ℕ → ℕ → ℕ → P × Ext K) (r : ℕ) :
    ℕ → ℕ → List (P × Ext K) → Prog Run.RErr (List (P × Ext K) × Bool)
  | 0, _, acc => pure (acc, false)
  | n + 1, i, acc => do
    let mine := (List.range k).map (draw i r)
    let allX ← collect (mine.map Prod.fst)
    let allY ← collect (mine.map Prod.snd)
    let acc := match allX, allY with
      | some X, some Y => acc ++ X.flatten.zip Y.flatten
      | _, _ => acc
    let finished ← share 0 (if r = 0 then decide (needed ≤ Run.nFiniteNew cfg (acc.map Prod.snd)) else false)
    if finished then pure (acc, true) else roundsMPI cfg k needed draw r n (i + 1) acc

/-- run.py:1177-1193, main process: exception if there are not enough points, otherwise append them. -/
def appendInit (cfg : Gpr.Cfg P PX Θ K) (g : Gpr.State P PX Θ K) (q : List (P × Ext K) × Bool) :
    Except Run.RErr (Gpr.State P PX Θ K) :=
  if q.2 = false then .error .runtimeError
  else match Gpr.append cfg g { batch := some (q.1.map Prod.fst, q.1.map Prod.snd) } with
    | (_, some e) => .error (.fit e)
    | (g', none) => .ok g'

/-- progress.py:102-126 (as `progressSync`, with other exceptions). -/
def progressSync' : ℕ → Prog Run.RErr Unit
  | 0 => sync
  | n + 1 => do
    let _ ← collect ()
    share 0 ()
    progressSync' n

/-- run.py:1071-1198 `do_initial_training` in the process of rank `r` of `p`; all have the same surrogate `g` at the
beginning (run.py:257, 281). -/
def initialMPI (cfg : Gpr.Cfg P PX Θ K) (p nInitial maxInitial : ℕ) (verbose : ℤ) (draw : ℕ → ℕ → ℕ → P × Ext K)
    (g : Gpr.State P PX Θ K) (r : ℕ) : Prog Run.RErr (Gpr.State P PX Θ K) := do
  let needed := nInitial - g.yTrain.length
  let k ← share 0 (if r = 0 then Mpi.ceilDiv needed p else 0)
  if k = 0 then
    if 1 < verbose then pure g else raise .zeroDivision
  else
    sync
    let q ← roundsMPI cfg k needed draw r (Mpi.ceilDiv maxInitial k) 0 (g.xTrain.zip g.yTrain)
    let g' ← (if r = 0 then Prog.fin (appendInit cfg g q) else ret g)
    let g'' ← share 0 g'
    progressSync' 9
    pure g''

variable {p : ℕ}

theorem runs_progressSync' (hp : 0 < p) : ∀ n, Runs (fun _ : Fin p => progressSync' n) fun _ => .ok ()
  | 0 => runs_sync
  | n + 1 => Runs.bind (runs_collect fun _ => ()) (Runs.bind (runs_share ⟨0, hp⟩ fun _ => ()) (runs_progressSync' hp n))

theorem flatten_zip {α β γ : Type} (f : α → β) (g : α → γ) (L : List (List α)) :
    (L.map (List.map f)).flatten.zip (L.map (List.map g)).flatten = L.flatten.map fun a => (f a, g a) := by
  have h1 : (L.map (List.map f)).flatten = L.flatten.map f := by rw [List.map_flatten]
  have h2 : (L.map (List.map g)).flatten = L.flatten.map g := by rw [List.map_flatten]
  rw [h1, h2, List.zip_map']

theorem gathered (k : ℕ) (draw : ℕ → ℕ → ℕ → P × Ext K) (i : ℕ) :
    (List.ofFn fun r : Fin p => ((List.range k).map (draw i r)).map Prod.fst).flatten.zip
      (List.ofFn fun r : Fin p => ((List.range k).map (draw i r)).map Prod.snd).flatten = Run.roundPts p k draw i := by
  rw [ofFn_val fun r => ((List.range k).map (draw i r)).map Prod.fst,
    ofFn_val fun r => ((List.range k).map (draw i r)).map Prod.snd]
  have := flatten_zip Prod.fst Prod.snd ((List.range p).map fun r => (List.range k).map (draw i r))
  rw [List.map_map, List.map_map] at this
  unfold Run.roundPts
  rw [List.flatMap_def]
  simpa [Function.comp_def] using this

/-- All the processes leave the rounds at the same time, with the same answer; the main one with the points of the serial
model. -/
theorem runs_rounds (hp : 0 < p) (cfg : Gpr.Cfg P PX Θ K) (k needed : ℕ) (draw : ℕ → ℕ → ℕ → P × Ext K) :
    ∀ (n i : ℕ) (acc : Fin p → List (P × Ext K)), ∃ acc' : Fin p → List (P × Ext K),
      Runs (fun r : Fin p => roundsMPI cfg k needed draw r n i (acc r))
        (fun r => .ok (acc' r, (Run.initRounds cfg p k needed draw n i (acc ⟨0, hp⟩)).2)) ∧
      acc' ⟨0, hp⟩ = (Run.initRounds cfg p k needed draw n i (acc ⟨0, hp⟩)).1
  | 0, i, acc => ⟨acc, Runs.pure _, rfl⟩
  | n + 1, i, acc => by
    let acc1 : Fin p → List (P × Ext K) := fun r => if r.val = 0 then acc r ++ Run.roundPts p k draw i else acc r
    have key : ∀ (acc' : Fin p → List (P × Ext K)) (res : Bool),
        Runs (fun r : Fin p => if decide (needed ≤ Run.nFiniteNew cfg ((acc ⟨0, hp⟩ ++ Run.roundPts p k draw i).map Prod.snd))
            = true then pure (acc1 r, true) else roundsMPI cfg k needed draw r n (i + 1) (acc1 r))
          (fun r => .ok (acc' r, res)) →
        Runs (fun r : Fin p => roundsMPI cfg k needed draw r (n + 1) i (acc r)) (fun r => .ok (acc' r, res)) := by
      intro acc' res hh
      refine Runs.bind (runs_collect fun r : Fin p => ((List.range k).map (draw i r)).map Prod.fst)
        (Runs.bind (runs_collect fun r : Fin p => ((List.range k).map (draw i r)).map Prod.snd) ?_)
      have hm : ∀ r : Fin p, (match
          (if r.val = 0 then some (List.ofFn fun r : Fin p => ((List.range k).map (draw i r)).map Prod.fst) else none),
          (if r.val = 0 then some (List.ofFn fun r : Fin p => ((List.range k).map (draw i r)).map Prod.snd) else none) with
        | some X, some Y => acc r ++ X.flatten.zip Y.flatten
        | _, _ => acc r) = acc1 r := by
        intro r
        by_cases hr : r.val = 0
        · simp only [if_pos hr, acc1]
          rw [gathered]
        · simp only [if_neg hr, acc1]
      dsimp only
      simp only [hm]
      refine Runs.bind (runs_share ⟨0, hp⟩ fun r : Fin p =>
        if r.val = 0 then decide (needed ≤ Run.nFiniteNew cfg ((acc1 r).map Prod.snd)) else false) ?_
      simpa [acc1] using hh
    by_cases hd : needed ≤ Run.nFiniteNew cfg ((acc ⟨0, hp⟩ ++ Run.roundPts p k draw i).map Prod.snd)
    · have hi : Run.initRounds cfg p k needed draw (n + 1) i (acc ⟨0, hp⟩) =
          (acc ⟨0, hp⟩ ++ Run.roundPts p k draw i, true) := by
        rw [Run.initRounds]; rw [if_pos hd]
      rw [hi]
      refine ⟨acc1, key acc1 true ?_, by simp [acc1]⟩
      simp only [hd, decide_true, if_true]
      exact Runs.pure _
    · have hi : Run.initRounds cfg p k needed draw (n + 1) i (acc ⟨0, hp⟩) =
          Run.initRounds cfg p k needed draw n (i + 1) (acc1 ⟨0, hp⟩) := by
        rw [Run.initRounds]; rw [if_neg hd]; simp [acc1]
      obtain ⟨acc', h1, h2⟩ := runs_rounds hp cfg k needed draw n (i + 1) acc1
      rw [hi]
      refine ⟨acc', key acc' _ ?_, h2⟩
      simp only [hd, decide_false, Bool.false_eq_true, if_false]
      exact h1

/-- **C77, C54** for several processes, the part that holds: if the serial model of the initial training succeeds, all
the processes end up with its surrogate; if there is nothing to draw, all of them return, or raise the same exception. -/
theorem C77_initial_training_partial (hp : 0 < p) (cfg : Gpr.Cfg P PX Θ K) (nInitial maxInitial : ℕ) (verbose : ℤ)
    (draw : ℕ → ℕ → ℕ → P × Ext K) (g : Gpr.State P PX Θ K) :
    (∀ acc g', Run.initialTraining cfg p nInitial maxInitial verbose draw g = .ok (acc, g') →
      Runs (fun r : Fin p => initialMPI cfg p nInitial maxInitial verbose draw g r) fun _ => .ok g') ∧
    (Run.initialTraining cfg p nInitial maxInitial verbose draw g = .error .zeroDivision →
      Runs (fun r : Fin p => initialMPI cfg p nInitial maxInitial verbose draw g r) fun _ => .error .zeroDivision) := by
  unfold Run.initialTraining
  dsimp only
  by_cases hk : Mpi.ceilDiv (nInitial - g.yTrain.length) p = 0
  · simp only [if_pos hk]
    have hs : ∀ res, Runs (fun r : Fin p => if 1 < verbose then (pure g : Prog Run.RErr _) else raise .zeroDivision) res →
        Runs (fun r : Fin p => initialMPI cfg p nInitial maxInitial verbose draw g r) res := by
      intro res h
      refine Runs.bind (runs_share ⟨0, hp⟩ fun r : Fin p =>
        if r.val = 0 then Mpi.ceilDiv (nInitial - g.yTrain.length) p else 0) ?_
      simpa only [if_true, hk, ite_self] using h
    by_cases hv : 1 < verbose
    · simp only [if_pos hv] at hs ⊢
      refine ⟨?_, by simp⟩
      rintro acc g' h; cases h
      exact hs _ (Runs.pure _)
    · simp only [if_neg hv] at hs ⊢
      exact ⟨by simp, fun _ => hs _ (Runs.raise _)⟩
  · simp only [if_neg hk]
    obtain ⟨acc', h1, h2⟩ := runs_rounds hp cfg (Mpi.ceilDiv (nInitial - g.yTrain.length) p)
      (nInitial - g.yTrain.length) draw (Mpi.ceilDiv maxInitial (Mpi.ceilDiv (nInitial - g.yTrain.length) p)) 0
      (fun _ => g.xTrain.zip g.yTrain)
    refine ⟨?_, ?_⟩
    · intro acc g' h
      rcases hq : Run.initRounds cfg p (Mpi.ceilDiv (nInitial - g.yTrain.length) p) (nInitial - g.yTrain.length) draw
        (Mpi.ceilDiv maxInitial (Mpi.ceilDiv (nInitial - g.yTrain.length) p)) 0 (g.xTrain.zip g.yTrain) with ⟨a, b⟩
      rw [hq] at h h1 h2
      cases b with
      | false => simp at h
      | true =>
        dsimp only at h h1 h2
        have ha : appendInit cfg g (a, true) = .ok g' := by
          unfold appendInit
          simp only [Bool.true_eq_false, if_false]
          split at h
          · simp at h
          · rename_i g1 hg1
            cases h
            rw [hg1]
        refine Runs.bind (runs_share ⟨0, hp⟩ fun r : Fin p =>
          if r.val = 0 then Mpi.ceilDiv (nInitial - g.yTrain.length) p else 0) ?_
        simp only [if_true, if_neg hk]
        refine Runs.bind runs_sync (Runs.bind h1 ?_)
        have h3 : Runs (fun r : Fin p => (if r.val = 0 then Prog.fin (appendInit cfg g (acc' r, true)) else ret g :
            Prog Run.RErr (Gpr.State P PX Θ K))) fun r => .ok (if r.val = 0 then g' else g) := by
          have : (fun r : Fin p => (if r.val = 0 then Prog.fin (appendInit cfg g (acc' r, true)) else ret g :
            Prog Run.RErr (Gpr.State P PX Θ K))) = fun r : Fin p => ret (if r.val = 0 then g' else g) := by
            funext r
            by_cases hr : r.val = 0
            · have hr' : r = ⟨0, hp⟩ := Fin.ext hr
              rw [if_pos hr, if_pos hr, hr', h2, ha]; rfl
            · rw [if_neg hr, if_neg hr]
          rw [this]; exact Runs.ret _
        refine Runs.bind h3 (Runs.bind (runs_share ⟨0, hp⟩ fun r : Fin p => if r.val = 0 then g' else g)
          (Runs.bind (runs_progressSync' hp 9) ?_))
        simp only [if_true]
        exact Runs.pure _
    · intro h
      exfalso
      revert h
      split
      · simp
      · split <;> simp

/-- **C77**, negation: with more than one process, if the initial training fails in the main one (not enough finite
points within `max_initial` evaluations, or an exception in `append_to_data`), the processes deadlock: the others wait
for the surrogate. -/
theorem C77_failure_deadlocks (hp : 1 < p) (cfg : Gpr.Cfg P PX Θ K) (nInitial maxInitial : ℕ) (verbose : ℤ)
    (draw : ℕ → ℕ → ℕ → P × Ext K) (g : Gpr.State P PX Θ K) {e : Run.RErr}
    (h : Run.initialTraining cfg p nInitial maxInitial verbose draw g = .error e) (he : e ≠ .zeroDivision) :
    Deadlocks (fun r : Fin p => initialMPI cfg p nInitial maxInitial verbose draw g r) := by
  have hp0 : 0 < p := by omega
  unfold Run.initialTraining at h
  dsimp only at h
  by_cases hk : Mpi.ceilDiv (nInitial - g.yTrain.length) p = 0
  · simp only [if_pos hk] at h
    split_ifs at h with hv
    cases h; exact absurd rfl he
  · simp only [if_neg hk] at h
    obtain ⟨acc', h1, h2⟩ := runs_rounds hp0 cfg (Mpi.ceilDiv (nInitial - g.yTrain.length) p)
      (nInitial - g.yTrain.length) draw (Mpi.ceilDiv maxInitial (Mpi.ceilDiv (nInitial - g.yTrain.length) p)) 0
      (fun _ => g.xTrain.zip g.yTrain)
    rcases hq : Run.initRounds cfg p (Mpi.ceilDiv (nInitial - g.yTrain.length) p) (nInitial - g.yTrain.length) draw
      (Mpi.ceilDiv maxInitial (Mpi.ceilDiv (nInitial - g.yTrain.length) p)) 0 (g.xTrain.zip g.yTrain) with ⟨a, b⟩
    rw [hq] at h h1 h2
    dsimp only at h1 h2
    have ha : appendInit cfg g (a, b) = .error e := by
      unfold appendInit
      cases b with
      | false => simpa using h
      | true =>
        simp only [Bool.true_eq_false, if_false]
        dsimp only at h
        split at h
        · rename_i g1 e1 hg1
          cases h
          rw [hg1]
        · simp at h
    refine Runs.bind_deadlocks (runs_share ⟨0, hp0⟩ fun r : Fin p =>
      if r.val = 0 then Mpi.ceilDiv (nInitial - g.yTrain.length) p else 0) ?_
    simp only [if_true, if_neg hk]
    refine Runs.bind_deadlocks runs_sync (Runs.bind_deadlocks h1 ?_)
    refine deadlocks_of_kinds ⟨0, hp0⟩ ⟨1, hp⟩ ?_
    simp only [if_true, one_ne_zero, if_false, h2, ha]
    intro hh; cases hh

end Init

/-- C77: with two processes, both end with the surrogate with the eight points drawn in two rounds. -/
example : ∃ g, g.yAll.length = 8 ∧ Runs (fun r : Fin 2 => initialMPI (Gpr.exCfg true) 2 3 6 3 Run.exDraw Gpr.ex0 r)
    fun _ => .ok g := by
  have h8 : (Run.initialTraining (Gpr.exCfg true) 2 3 6 3 Run.exDraw Gpr.ex0).toOption.map (fun q => q.2.yAll.length) =
      some 8 := by decide +kernel
  rcases h : Run.initialTraining (Gpr.exCfg true) 2 3 6 3 Run.exDraw Gpr.ex0 with e | ⟨acc, g⟩
  · rw [h] at h8; exact absurd h8 (by simp [Except.toOption])
  · refine ⟨g, ?_, (C77_initial_training_partial (by decide) _ _ _ _ _ _).1 acc g h⟩
    rw [h] at h8
    simpa [Except.toOption] using h8

/-- C77: with two processes, three points needed and all of them infinite: deadlock after the last round. -/
example : Deadlocks (fun r : Fin 2 => initialMPI (Gpr.exCfg true) 2 3 6 3 (fun i r j => (100 * i + 10 * r + j, .negInf))
    Gpr.ex0 r) := by
  have h8 : (Run.initialTraining (Gpr.exCfg true) 2 3 6 3 (fun i r j => (100 * i + 10 * r + j, .negInf))
      Gpr.ex0).toOption.map (fun q => q.2.yAll.length) = none := by decide +kernel
  have h9 : (match Run.initialTraining (Gpr.exCfg true) 2 3 6 3 (fun i r j => (100 * i + 10 * r + j, .negInf))
      Gpr.ex0 with | .error e => e | .ok _ => .zeroDivision) = .runtimeError := by decide +kernel
  rcases h : Run.initialTraining (Gpr.exCfg true) 2 3 6 3 (fun i r j => (100 * i + 10 * r + j, .negInf))
      Gpr.ex0 with e | q
  · refine C77_failure_deadlocks (by decide) _ _ _ _ _ _ h ?_
    rw [h] at h9
    dsimp only at h9
    rw [h9]; decide
  · rw [h] at h8; exact absurd h8 (by simp [Except.toOption])

end GPry.Spmd
