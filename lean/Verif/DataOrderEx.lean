import Verif.DataOrder3
import Verif.Conv
import Mathlib.Algebra.Order.Ring.Rat

set_option linter.all false

/-!
# The order of the training points: examples and what does depend on the order (C157)
-/

namespace GPry.DataOrder

open GPry Gpr

/-- A regressor with `NormalizeChi2_y` (of width 3) and fixed bounds; the preferred hyperparameter is the number of training points. -/
def chiCfg (svm : Bool) : Cfg ℕ Unit ℕ ℚ := { exCfg svm with fitY := fun _ _ ys => Pre.chi2Fit 3 ys }

theorem symm_exCfg (svm : Bool) : Symm (exCfg svm) :=
  ⟨fun _ _ _ _ => rfl, fun _ _ _ _ _ => rfl, fun T T' _ _ h => by simp [exCfg, h.length_eq], fun _ _ _ _ => rfl⟩

/-- The preprocessor of the targets that `gpry` uses by default meets the hypothesis. -/
theorem symm_chiCfg : Symm (chiCfg true) :=
  ⟨fun _ _ _ _ => rfl, fun py T T' h hn => (C157_fit_y (fun x => x) 3 (h.map _)).2.2 (by
      intro y hy
      obtain ⟨q, hq, rfl⟩ := List.mem_map.1 hy
      exact hn rfl q hq), fun T T' _ _ h => by simp [chiCfg, exCfg, h.length_eq], fun _ _ _ _ => rfl⟩

/-- Three points, one of them with value `-inf`, and two points one of which is far below the others. -/
def c1 : Call ℕ ℚ := { batch := some ([1, 2, 3], [.fin 1, .negInf, .fin 2]) }
def c2 : Call ℕ ℚ := { batch := some ([4, 5], [.fin (-50), .fin 6]), fit := .no }
def c1' : Call ℕ ℚ := { batch := some ([3, 1, 2], [.fin 2, .fin 1, .negInf]) }
def c2' : Call ℕ ℚ := { batch := some ([5, 4], [.fin 6, .fin (-50)]), fit := .no }

/-- The hypotheses of `C157_append` and `C157_history_partial`. -/
theorem same_c1 : SameCall false c1 c1' :=
  ⟨rfl, rfl, .inr ⟨[(1, .fin 1, 0), (2, .negInf, 0), (3, .fin 2, 0)], [(3, .fin 2, 0), (1, .fin 1, 0), (2, .negInf, 0)], by decide +kernel, rfl, rfl, .inr (.inl ⟨rfl, rfl⟩)⟩⟩

theorem same_c2 : SameCall false c2 c2' :=
  ⟨rfl, rfl, .inr ⟨[(4, .fin (-50), 0), (5, .fin 6, 0)], [(5, .fin 6, 0), (4, .fin (-50), 0)], by decide +kernel, rfl, rfl, .inr (.inl ⟨rfl, rfl⟩)⟩⟩

example : (run (chiCfg true) ex0 [c1, c2] = none ∧ run (chiCfg true) ex0 [c1', c2'] = none) ∨
    ∃ s s', run (chiCfg true) ex0 [c1, c2] = some s ∧ run (chiCfg true) ex0 [c1', c2'] = some s' ∧ Same false s s' := by
  refine C157_history_partial symm_chiCfg (.cons same_c1 (.cons same_c2 .nil)) (same_init _ _ _) fun _ => ⟨by simp [ex0, State.init], ?_⟩
  intro c hc y hy
  simp only [List.mem_cons, List.not_mem_nil, or_false] at hc
  rcases hc with rfl | rfl <;> simp [c1, c2, Call.ys] at hy
  · rcases hy with rfl | rfl | rfl <;> simp
  · rcases hy with rfl | rfl <;> simp

example : ((run (chiCfg true) ex0 [c1, c2]).map fun s => (s.xTrain, s.yTrain, s.yTrain')) = some ([1, 3, 5], [.fin 1, .fin 2, .fin 6], [.fin (-2/3), .fin (-1/3), .fin 1]) ∧
    ((run (chiCfg true) ex0 [c1', c2']).map fun s => (s.xTrain, s.yTrain, s.yTrain')) = some ([3, 1, 5], [.fin 2, .fin 1, .fin 6], [.fin (-1/3), .fin (-2/3), .fin 1]) := by
  decide +kernel

/-- With one noise level for each point. -/
example : SameCall true ({ batch := some ([1, 2], [.fin 1, .fin 4]), noise := some (.array [2, 3]) } : Call ℕ ℚ) ({ batch := some ([2, 1], [.fin 4, .fin 1]), noise := some (.array [3, 2]) } : Call ℕ ℚ) :=
  ⟨rfl, rfl, .inr ⟨[(1, .fin 1, 2), (2, .fin 4, 3)], [(2, .fin 4, 3), (1, .fin 1, 2)], by decide +kernel, rfl, rfl, .inr (.inr ⟨rfl, rfl, rfl⟩)⟩⟩

example : ((run (chiCfg true) (State.init () (.aff 0 1) (.array [])) [{ batch := some ([1, 2], [.fin 1, .fin 4]), noise := some (.array [2, 3]) }]).map fun s => (s.xTrain, s.noiseVar)) =
    some ([1, 2], [.fin (4 / 9), .fin 1]) := by decide +kernel

/-- The hypotheses of `C157_training_set` and `C157_regroup_partial`: one call instead of two. -/
def c12 : Call ℕ ℚ := { batch := some ([5, 4, 3, 2, 1], [.fin 6, .fin (-50), .fin 2, .negInf, .fin 1]) }

example : ∃ s s', run (chiCfg true) ex0 [c1, c2] = some s ∧ run (chiCfg true) ex0 [c12] = some s' ∧ s.px = s'.px ∧ s.py = s'.py ∧
    (s.xTrain'.zip s.yTrain').Perm (s'.xTrain'.zip s'.yTrain') := by
  rcases h : run (chiCfg true) ex0 [c1, c2] with _ | s
  · exact absurd (congrArg Option.isSome h) (by decide +kernel)
  rcases h' : run (chiCfg true) ex0 [c12] with _ | s'
  · exact absurd (congrArg Option.isSome h') (by decide +kernel)
  refine ⟨s, s', rfl, rfl, C157_regroup_partial ?_ symm_chiCfg (fun _ _ _ _ => rfl) (fun _ _ _ _ => rfl) _ _ _ _ _ _ _ _ ?_ h h' ?_ ?_ ?_ ?_ ?_⟩
  · exact exCfg_ok true
  · intro _ c hc y hy
    simp only [List.mem_cons, List.not_mem_nil, or_false] at hc
    rcases hc with rfl | rfl <;> simp [c1, c2, Call.ys] at hy
    · rcases hy with rfl | rfl | rfl <;> simp [Good]
    · rcases hy with rfl | rfl <;> simp [Good]
  · decide +kernel
  · intro _ c hc y hy
    simp only [List.mem_cons, List.not_mem_nil, or_false] at hc
    subst hc
    simp [c12, Call.ys] at hy
    rcases hy with rfl | rfl | rfl | rfl | rfl <;> simp [Good]
  · intro c hc
    simp only [List.mem_cons, List.not_mem_nil, or_false] at hc
    rcases hc with rfl | rfl <;> simp [c1, c2]
  · intro c hc
    simp only [List.mem_cons, List.not_mem_nil, or_false] at hc
    subst hc; simp [c12]
  · have := congrArg (Option.map fun s : State ℕ Unit ℕ ℚ => s.yTrain) h
    intro e
    simp only [Option.map_some, e] at this
    revert this
    decide +kernel

/-- Preprocessors, mean and covariance, trust region. -/
example : Pre.chi2Fit (3 : ℚ) [.fin 1, .negInf, .fin 5] = .ok (.aff 2 3) ∧ Pre.chi2Fit (3 : ℚ) [.negInf, .fin 5, .fin 1] = .ok (.aff 2 3) ∧
    Pre.normFitMedian [.fin 1, .fin 9, .fin (5 : ℚ)] = .aff 5 4 := by decide +kernel

example : Trust.updateTrust (fun s : ℚ => s) (fun _ : Fin 1 => ((0 : ℚ), (10 : ℚ))) (some 2) (some 3) [(fun _ => 4, 1), (fun _ => 5, 2), (fun _ => 9, -50)] none 10 =
    Trust.updateTrust (fun s : ℚ => s) (fun _ : Fin 1 => ((0 : ℚ), (10 : ℚ))) (some 2) (some 3) [(fun _ => 9, -50), (fun _ => 5, 2), (fun _ => 4, 1)] none 10 :=
  C157_trust _ _ _ _ (((List.Perm.swap _ _ _).cons _).trans ((List.Perm.swap _ _ _).trans ((List.Perm.swap _ _ _).cons _))) _ _

section
open Gp Matrix

theorem isChol_reindex {n m : Type*} [Fintype n] [DecidableEq n] [Fintype m] [DecidableEq m] {A L : Matrix n n ℝ} (h : IsChol A L) (e : m ≃ n) :
    IsChol (A.submatrix e e) (L.submatrix e e) := by
  refine ⟨fun i => h.pos _, ?_, ?_⟩
  · rw [det_submatrix_equiv_self, h.det]
    exact (Equiv.prod_comp e fun i => L i i).symm
  · rw [transpose_submatrix, submatrix_mul_equiv, h.eq]

/-- Positive definite matrices have Cholesky decompositions. -/
theorem exists_isChol : ∀ (n : ℕ) (A : Matrix (Fin n) (Fin n) ℝ), A.PosDef → ∃ L, IsChol A L
  | 0, A, _ => ⟨1, fun i => i.elim0, by simp, by ext i; exact i.elim0⟩
  | n + 1, A, hA => by
    let e : Fin n ⊕ Unit ≃ Fin (n + 1) := ((Equiv.refl _).sumCongr (Equiv.ofUnique Unit (Fin 1))).trans finSumFinEquiv
    obtain ⟨L, hL⟩ := exists_isChol_sum (exists_isChol n) (A.submatrix e e) (hA.submatrix e.injective)
    have := isChol_reindex hL e.symm
    rw [submatrix_submatrix, Equiv.self_comp_symm, submatrix_id_id] at this
    exact ⟨_, this⟩

/-- The hypotheses of `C157_linear_algebra`: 1 at 1, 5 at 4 and 7 at 6, in two orders. -/
example : (∀ x, exM.mean exChol2 (rawOf [(6, 7, 1), (1, 1, 1), (4, 5, 1)]) x = exM.mean exChol2 (rawOf [(1, 1, 1), (4, 5, 1), (6, 7, 1)]) x ∧
      exM.std exChol2 (rawOf [(6, 7, 1), (1, 1, 1), (4, 5, 1)]) x = exM.std exChol2 (rawOf [(1, 1, 1), (4, 5, 1), (6, 7, 1)]) x) ∧
    exM.lml exChol2 (rawOf [(6, 7, 1), (1, 1, 1), (4, 5, 1)]) = exM.lml exChol2 (rawOf [(1, 1, 1), (4, 5, 1), (6, 7, 1)]) := by
  refine C157_linear_algebra exM (((List.Perm.swap _ _ _).cons _).trans (List.Perm.swap _ _ _)) _ _
    (exChol2_isChol (exists_isChol _ _ (ex_noise_posDef _ ?_))) (exChol2_isChol (exists_isChol _ _ (ex_noise_posDef _ ?_)))
  · intro i; fin_cases i <;> rfl
  · intro i; fin_cases i <;> rfl

/-- A surrogate in two dimensions with linear kernel, noise 1, trust region and ceiling. -/
noncomputable def exPred (R : Raw (Fin 2) (Fin 2 → ℝ)) : Predict.St 2 2 :=
  ⟨true, fun _ => 1, ⟨fun x y => x ⬝ᵥ y, id, 0, 1⟩, exChol, R, none, some fun _ => (-3, 3), some 1.1, .negInf⟩

theorem dot_posDef (R : Raw (Fin 2) (Fin 2 → ℝ)) (h : ∀ i, R.noise i = 1) : (((exPred R).M.data R).kmat (exPred R).M.k).PosDef := by
  have : IsKernel (fun x y : Fin 2 → ℝ => x ⬝ᵥ y) := by
    intro l X
    have e : (Matrix.of fun i j => X i ⬝ᵥ X j) = Matrix.of X * (Matrix.of X)ᴴ := by
      ext i j
      simp [Matrix.mul_apply, dotProduct]
    rw [e]
    exact Matrix.posSemidef_self_mul_conjTranspose _
  apply this.kmat_posDef
  intro i
  norm_num [Model.data, exPred, h]

/-- The hypotheses of `C157_predict`. -/
example (X : List (Fin 2 → ℝ)) : (exPred ⟨![![3, 4], ![1, 2]], ![6, 5], 1⟩).predict X true = (exPred ⟨![![1, 2], ![3, 4]], ![5, 6], 1⟩).predict X true := by
  have := (C157_predict (exPred ⟨![![1, 2], ![3, 4]], ![5, 6], 1⟩) ⟨![![3, 4], ![1, 2]], ![6, 5], 1⟩ exChol (Equiv.swap 0 1) ?_
    (exChol_isFactor (dot_posDef _ fun _ => rfl)) (exChol_isFactor (dot_posDef ⟨![![3, 4], ![1, 2]], ![6, 5], 1⟩ fun _ => rfl)) X true).1
  · exact this
  · simp only [Raw.reorder, exPred]
    congr 1 <;> funext i <;> fin_cases i <;> rfl

end

/-! ## What depends on the order -/

/-- **C157** is false if one of the values is NaN: which exception is raised depends on the order. -/
theorem C157_nan_counterexample :
    (append (exCfg true) ex0 { batch := some ([1, 2], [.fin 1, .nan]) }).2 = some .assertionError ∧
    (append (exCfg true) ex0 { batch := some ([2, 1], [.nan, .fin 1]) }).2 = some .valueError := by decide +kernel

/-- **C157** is false for the division into calls if one of them does not fit anything: the same points give different transformed values. -/
theorem C157_regroup_counterexample :
    ((run (chiCfg true) ex0 [c1, { c2 with fitClf := false }]).map fun s => (s.py, s.yTrain')) = some (.aff (-1) 3, [.fin (2 / 3), .fin 1, .fin (7 / 3)]) ∧
    ((run (chiCfg true) ex0 [c12]).map fun s => (s.py, s.yTrain')) = some (.aff 3 3, [.fin 1, .fin (-1 / 3), .fin (-2 / 3)]) := by decide +kernel

/-- **C157** is false for `CorrectCounter` (convergence.py:848-869): a point that was predicted badly counts if it is the first of its batch and not if it is the last. -/
theorem C157_counter_counterexample :
    ((Conv.Counter.step (1 / 100 : ℚ) (1 / 100) 1 ⟨0, 0⟩ ⟨[.fin 1, .fin 2, .fin 3], [.fin 9, .fin 2, .fin 3], 3⟩).2.toOption = some true) ∧
    ((Conv.Counter.step (1 / 100 : ℚ) (1 / 100) 1 ⟨0, 0⟩ ⟨[.fin 2, .fin 3, .fin 1], [.fin 2, .fin 3, .fin 9], 3⟩).2.toOption = some false) := by decide +kernel

/-- Samples with weights, and a training set with an infinite value, in another order. -/
example : Cov.fromSamples [![(0 : ℚ), 1], ![2, 5], ![4, 3]] (some [1, 2, 3]) = Cov.fromSamples [![4, 3], ![0, 1], ![2, 5]] (some [3, 1, 2]) :=
  C157_samples (p := [(1, ![(0 : ℚ), 1]), (2, ![2, 5]), (3, ![4, 3])]) (p' := [(3, ![4, 3]), (1, ![0, 1]), (2, ![2, 5])])
    ((((List.Perm.swap _ _ _).cons _).trans (List.Perm.swap _ _ _)))

example (ex : ℚ → ℚ) : Cov.fromEvals ex [![(0 : ℚ), 1], ![2, 5], ![4, 3]] [.fin 1, .negInf, .fin 3] = Cov.fromEvals ex [![4, 3], ![0, 1], ![2, 5]] [.fin 3, .fin 1, .negInf] :=
  C157_evals ex (p := [(![(0 : ℚ), 1], .fin 1), (![2, 5], .negInf), (![4, 3], .fin 3)]) (p' := [(![4, 3], .fin 3), (![0, 1], .fin 1), (![2, 5], .negInf)])
    (((List.Perm.swap _ _ _).cons _).trans (List.Perm.swap _ _ _)) (by intro q hq; simp at hq; rcases hq with rfl | rfl | rfl <;> simp)

end GPry.DataOrder
