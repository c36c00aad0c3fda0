import Verif.SpmdProps
import Mathlib.Tactic.FinCases

set_option linter.all false

/-!
# Examples for `Verif/SpmdProps.lean`
-/

namespace GPry.Spmd
open Prog

/-- C37: the second of three processes fails; all raise its message. -/
example : Runs (fun r : Fin 3 => isConvergedMPI true r
      (do let m ← share 0 (5 + r.val); if r.val = 1 then raise (.conv "not positive definite") else pure (decide (m = 5))))
    fun _ => .error (.conv "not positive definite") := by
  have h : Runs (fun r : Fin 3 => (do
      let m ← share 0 (5 + r.val)
      if r.val = 1 then raise (.conv "not positive definite") else pure (decide (m = 5)) : Prog Exc Bool))
      fun r => if r.val = 1 then .error (.conv "not positive definite") else .ok true := by
    refine Runs.bind (runs_share (⟨0, by decide⟩ : Fin 3) fun r => 5 + r.val) ?_
    have : (fun r : Fin 3 => (if r.val = 1 then raise (.conv "not positive definite")
        else pure (decide (5 + (⟨0, by decide⟩ : Fin 3).val = 5)) : Prog Exc Bool)) =
        fun r : Fin 3 => Prog.fin (if r.val = 1 then .error (.conv "not positive definite") else .ok true) := by
      funext r
      fin_cases r <;> rfl
    rw [this]
    exact Runs.fin _
  refine (C37_aware (by decide) h ?_).2 1 "not positive definite" rfl ?_
  · intro r e hr
    fin_cases r <;> simp at hr
    exact ⟨_, hr.symm⟩
  · intro r hr
    fin_cases r
    · exact ⟨true, rfl⟩
    · simp at hr
    · simp [Fin.lt_def] at hr

/-- C37: a criterion evaluated by the main process, and the policies of two criteria. -/
example : Runs (fun r : Fin 4 => checkConvergenceMPI r
      [⟨false, .n, fun _ => ret true⟩, ⟨false, .s, fun _ => raise (.conv "few points")⟩] []) fun _ => .ok false :=
  C37_check_convergence (by decide) [(⟨false, .n, fun _ => ret true⟩, some true),
    (⟨false, .s, fun _ => raise (.conv "few points")⟩, none)] (by
      intro c hc
      simp only [List.mem_cons, List.not_mem_nil, or_false] at hc
      rcases hc with rfl | rfl
      · exact .mainOk true rfl rfl
      · exact .mainFail "few points" rfl rfl)

/-- C37: a `TypeError` in the main process. -/
example : Deadlocks (fun r : Fin 2 => isConvergedMPI false r (raise (.other "TypeError"))) :=
  C37_main_exception_deadlocks (by decide) rfl (by simp)

/-- C03: two processes, three points. -/
example : Runs (fun r : Fin 2 => evalTruthMPI (fun x : ℕ => .ok (x * x)) 2 r [1, 2, 3]) fun _ => .ok [1, 4, 9] :=
  C03_eval_truth_mpi (by decide) (f := fun x => x * x) fun _ _ => rfl

/-- C78: the truth fails at the point of the second process. -/
example : Deadlocks (fun r : Fin 2 =>
    evalTruthMPI (fun x : ℕ => if x = 3 then .error (.other "LikelihoodError") else .ok (x * x)) 2 r [1, 2, 3]) :=
  C78_truth_exception_deadlocks (f := fun x => x * x) 1 0 (x := 3) (e := .other "LikelihoodError") (by decide) (by decide)
    (by
      intro y hy
      have : y = 1 ∨ y = 2 := by
        have h : Mpi.evalChunk 2 0 [1, 2, 3] = [1, 2] := by decide
        rw [show ((0 : Fin 2).val) = 0 from rfl, h] at hy
        simpa using hy
      rcases this with rfl | rfl <;> rfl)

/-- C39: the second process finds the best likelihood, the third one has no restarts. -/
example : Runs (fun r : Fin 3 => fitMPI r (if r.val = 2 then 0 else 1) (.ok (10 + r.val)) (fun g : ℕ => some g) 7)
    fun _ => .ok 11 :=
  C39_fit_mpi (p := 3) (by decide) (fun r => if r = 2 then 0 else 1) (fun r => 10 + r) (fun g : ℕ => some g) 7

/-- C79: `LinAlgError` in the second process. -/
example : Deadlocks (fun r : Fin 3 => fitMPI r 1 (if r.val = 1 then .error (.other "LinAlgError") else .ok (10 + r.val))
    (fun g : ℕ => some g) 7) :=
  C79_fit_exception_deadlocks (p := 3) (by decide) (fun _ => 1)
    (fun r => if r = 1 then .error (.other "LinAlgError") else .ok (10 + r)) (fun g : ℕ => some g) 7 1 0 (.inl (by decide))
    rfl fun _ => ⟨10, rfl⟩

end GPry.Spmd
