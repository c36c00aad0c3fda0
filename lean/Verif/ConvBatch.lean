import Verif.BatchLiesClf
import Verif.ConvProps

set_option linter.all false

/-!
# What `CorrectCounter` counts if `BatchOptimizer` proposes the points

No definitions of the code: run.py:838-878, 937-939 pass the second value returned by `multi_add`, without the entries of removed points, to
convergence.py:836-874.
-/

namespace GPry.PoolGp

open GPry Acq Predict Proposed Gp Matrix Kernels Batch Spmd

variable {d : ℕ} {B : Type}

/-- **C172** (partial: no classifier, no trust region, and nothing clipped at the points of the batch): the decision of `CorrectCounter`, and what it remembers, are
those that it would have with the predictions of the surrogate in place of the values returned with the batch; also if some points have been removed. -/
theorem C172_counted_partial {g : Surr d} (hg : Ok g) (hclf : g.clf = none) (ht : g.trust = none) {c : ℝ} (hc : g.clip = some c) (hne : g.all ≠ [])
    (env : Env (List ((Fin d → ℝ) × Ext ℝ)) (Fin d → ℝ) B ℝ) (nRestarts : ℕ) (props : ℕ → ℕ → List (Fin d → ℝ)) (bounds : Option B) (n : ℤ)
    (s' : List ((Fin d → ℝ) × Ext ℝ)) (outs : List (Out (Fin d → ℝ) ℝ)) (h : multiAdd (lieCfg g env nRestarts props) bounds n [] = .ok (s', outs))
    (hlow : ∀ o ∈ outs, ∀ w, g.value [] o.1 = .fin w →
      (∀ t, IsCeiling (rawOf g.noise g.all) c t → w < t) ∧ (∀ t, IsCeiling (rawOf g.noise g.all) (11 / 10) t → w ≤ t))
    (kept : List (Out (Fin d → ℝ) ℝ)) (hk : kept ⊆ outs) (reltol abstol nCorrect ymax : ℝ) (s : Conv.Counter ℝ) (newY : List (Ext ℝ)) :
    Conv.Counter.step reltol abstol nCorrect s ⟨newY, kept.map (fun o => o.2.1), ymax⟩ =
      Conv.Counter.step reltol abstol nCorrect s ⟨newY, kept.map (fun o => g.value [] o.1), ymax⟩ := by
  have := (C171_predictions_partial hg hclf ht hc hne env nRestarts props bounds n s' outs h hlow).1
  rw [List.map_congr_left fun o ho => this o (hk ho)]

/-- **C172** with a classifier (partial: no trust region, points predicted infinite or below the best value of the training set). -/
theorem C172_counted_classifier_partial {g : Surr d} (hg : Ok g) {c : Svm (Fin d → ℝ)} {t v k : ℝ} (ht0 : 0 ≤ t) (hc : g.clf = some (c, .fin t))
    (hv : Ext.npMax (g.all.map Prod.snd) = some (.fin v)) (ht : g.trust = none) (hk : g.clip = some k) (hk1 : 1 ≤ k)
    (env : Env (List ((Fin d → ℝ) × Ext ℝ)) (Fin d → ℝ) B ℝ) (nRestarts : ℕ) (props : ℕ → ℕ → List (Fin d → ℝ)) (bounds : Option B) (n : ℤ)
    (s' : List ((Fin d → ℝ) × Ext ℝ)) (outs : List (Out (Fin d → ℝ) ℝ)) (h : multiAdd (lieCfg g env nRestarts props) bounds n [] = .ok (s', outs))
    (hlow : ∀ o ∈ outs, ∀ w, g.value [] o.1 = .fin w → w < v)
    (kept : List (Out (Fin d → ℝ) ℝ)) (hkept : kept ⊆ outs) (reltol abstol nCorrect ymax : ℝ) (s : Conv.Counter ℝ) (newY : List (Ext ℝ)) :
    Conv.Counter.step reltol abstol nCorrect s ⟨newY, kept.map (fun o => o.2.1), ymax⟩ =
      Conv.Counter.step reltol abstol nCorrect s ⟨newY, kept.map (fun o => g.value [] o.1), ymax⟩ := by
  have := (C171_classifier_partial hg ht0 hc hv ht hk hk1 env nRestarts props bounds n s' outs h hlow).1
  rw [List.map_congr_left fun o ho => this o (hkept ho)]

/-! ## Counterexamples -/

/-- One new point: the counter goes up by one, or back to zero. -/
theorem counter_one (reltol abstol nCorrect ymax y p : ℝ) (s : Conv.Counter ℝ) :
    (Conv.Counter.step reltol abstol nCorrect s ⟨[.fin y], [.fin p], ymax⟩).1.nPred = (if |p - y| < |y - ymax| * reltol + abstol then s.nPred + 1 else 0) ∧
    (Conv.Counter.step reltol abstol nCorrect s ⟨[.fin y], [.negInf], ymax⟩).1.nPred = 0 := by
  constructor <;> simp [Conv.Counter.step, Conv.countLoop, Conv.correct, Ext.eqv, Ext.le]

/-- **C172** is false: outside of the trust region, a true value that the surrogate predicts to be minus infinity counts as predicted, whatever was counted before,
if it is close to what the copy predicts. For every surrogate, point and tolerance. (`Runner` passes the trust region as the bounds of the optimiser, run.py:841, so that
there this needs a local optimiser or a proposal which leaves its bounds.) -/
theorem C172_outside_counterexample (g : Surr d) {b : Fin d → ℝ × ℝ} (hb : g.trust = some b) (env : Env (List ((Fin d → ℝ) × Ext ℝ)) (Fin d → ℝ) B ℝ)
    (nRestarts : ℕ) (props : ℕ → ℕ → List (Fin d → ℝ)) (bounds : Option B) (s' : List ((Fin d → ℝ) × Ext ℝ)) (o : Out (Fin d → ℝ) ℝ)
    (h : multiAdd (lieCfg g env nRestarts props) bounds 1 [] = .ok (s', [o])) (hout : outside b o.1 = true) (w : ℝ) (hw : o.2.1 = .fin w)
    (reltol abstol nCorrect ymax y : ℝ) (hy : |w - y| < |y - ymax| * reltol + abstol) (s : Conv.Counter ℝ) :
    g.value [] o.1 ≠ .fin w ∧ (Conv.Counter.step reltol abstol nCorrect s ⟨[.fin y], [o.2.1], ymax⟩).1.nPred = s.nPred + 1 ∧
    (g.value [] o.1 = .negInf → (Conv.Counter.step reltol abstol nCorrect s ⟨[.fin y], [g.value [] o.1], ymax⟩).1.nPred = 0) := by
  refine ⟨hw ▸ C171_outside_counterexample g hb env nRestarts props bounds 1 s' o [] h hout w hw, ?_, fun e => ?_⟩
  · rw [hw, (counter_one reltol abstol nCorrect ymax y w s).1, if_pos hy]
  · rw [e, (counter_one reltol abstol nCorrect ymax y w s).2]

/-- **C172** is false with a `clip_factor` other than the default: at the point 4 the surrogate predicts 2, and 11/10 is returned with it. If the true value is 2, the
prediction counts as wrong, and if it is 11/10, as right. For every tolerance below 9/10, and whatever was counted before. -/
theorem C172_clip_counterexample (abstol reltol nCorrect : ℝ) (h0 : 0 < abstol) (h1 : abstol < 9 / 10) (s : Conv.Counter ℝ) :
    (cxB 3 none).value [] (fun _ => 4) = .fin 2 ∧
    ∃ y, multiAdd (lieCfg (cxB 3 none) cxEnv 1 fun _ _ => []) none 1 [] = .ok ([], [(fun _ => 4, y, .fin 1)]) ∧
      ((Conv.Counter.step reltol abstol nCorrect s ⟨[.fin 2], [y], 2⟩).1.nPred = 0 ∧
        (Conv.Counter.step reltol abstol nCorrect s ⟨[.fin 2], [(cxB 3 none).value [] fun _ => 4], 2⟩).1.nPred = s.nPred + 1) ∧
      (Conv.Counter.step reltol abstol nCorrect s ⟨[.fin (11 / 10)], [y], 11 / 10⟩).1.nPred = s.nPred + 1 ∧
        (Conv.Counter.step reltol abstol nCorrect s ⟨[.fin (11 / 10)], [(cxB 3 none).value [] fun _ => 4], 11 / 10⟩).1.nPred = 0 := by
  obtain ⟨-, ⟨e1, e2⟩, -⟩ := C171_counterexample
  refine ⟨e2, _, e1, ⟨?_, ?_⟩, ?_, ?_⟩
  · rw [(counter_one _ _ _ _ _ _ s).1, if_neg]
    rw [sub_self, abs_zero, zero_mul, zero_add, not_lt, abs_of_nonpos (by norm_num)]
    linarith
  · rw [e2, (counter_one _ _ _ _ _ _ s).1, if_pos]
    simpa using h0
  · rw [(counter_one _ _ _ _ _ _ s).1, if_pos]
    simpa using h0
  · rw [e2, (counter_one _ _ _ _ _ _ s).1, if_neg]
    rw [sub_self, abs_zero, zero_mul, zero_add, not_lt, abs_of_nonneg (by norm_num)]
    linarith

/-! ## Examples -/

example : ∃ y, multiAdd (lieCfg (cxB 3 none) cxEnv 1 fun _ _ => []) none 1 [] = .ok ([], [(fun _ => 4, y, .fin 1)]) ∧
    (Conv.Counter.step (1 / 100) (1 / 10) 4 ⟨3, 7⟩ ⟨[.fin 2], [y], 2⟩).1.nPred = 0 :=
  (C172_clip_counterexample (1 / 10) (1 / 100) 4 (by norm_num) (by norm_num) ⟨3, 7⟩).2.imp fun _ h => ⟨h.1, h.2.1.1⟩

/-- The point 4, outside of the trust region. -/
example : (Conv.Counter.step (1 / 100) (1 / 10) 4 ⟨3, 7⟩ ⟨[.fin 1], [(cxB (11 / 10) (some fun _ => (0, 2))).deepcopy.value [] fun _ => 4], 2⟩).1.nPred = 4 := by
  have hw : (cxB (11 / 10) (some fun _ => (0, 2))).deepcopy.value [] (fun _ => 4) = .fin (11 / 10) := by
    rw [cxB_deepcopy, cxB_value (by norm_num)]; norm_num
  exact (C172_outside_counterexample (cxB (11 / 10) (some fun _ => (0, 2))) (b := fun _ => (0, 2)) rfl cxEnv 1 (fun _ _ => []) none [] _ (cxEnv_one _) (by norm_num [outside, Tools.isInBounds, Ext.ge, Ext.le]) (11 / 10) hw
    (1 / 100) (1 / 10) 4 2 1 (by norm_num [abs_of_nonneg, abs_of_nonpos]) ⟨3, 7⟩).2.1

/-- The three points of `BatchLiesClf`, of which the first was removed: predicted infinite (true value minus infinity), and 3/4 (true value 1/2). -/
example : ∃ s' outs, multiAdd (lieCfg cxS exEnvClf 1 fun _ _ => []) none 3 [] = .ok (s', outs) ∧
    (Conv.Counter.step (1 / 100) (1 / 2) 4 ⟨3, 7⟩ ⟨[.negInf, .fin (1 / 2)], (outs.drop 1).map (fun o => o.2.1), 1⟩).1.nPred = 4 := by
  have h : ∃ s' outs, multiAdd (lieCfg cxS exEnvClf 1 fun _ _ => []) none 3 [] = .ok (s', outs) ∧
      outs.map (fun o => o.1) = [fun _ => 1, fun _ => -3, fun _ => 3 / 2] := by
    simp [multiAdd, serial, rankLoop, optimise, choose, pick, argmin, argminGo, lieCfg, exEnvClf, exEnv, Ext.neg, Ext.isFinite, Ext.isNan, Ext.lt]
  obtain ⟨s', outs, h1, h2⟩ := h
  refine ⟨s', outs, h1, ?_⟩
  have hx : ∀ o ∈ outs, o.1 0 ≤ 3 / 2 := by
    intro o ho
    have : o.1 ∈ outs.map (fun o => o.1) := List.mem_map_of_mem ho
    rw [h2] at this
    simp only [List.mem_cons, List.not_mem_nil, or_false] at this
    rcases this with e | e | e <;> rw [e] <;> norm_num
  rw [C172_counted_classifier_partial cxS_ok (by norm_num : (0 : ℝ) ≤ 2) rfl cxS_max rfl rfl (by norm_num) exEnvClf 1 (fun _ _ => []) none 3 s' outs h1 (by
    intro o ho w hw
    have := hx o ho
    rw [cxS_value _ (by linarith)] at hw
    split_ifs at hw
    cases hw
    linarith) (outs.drop 1) (List.drop_subset _ _)]
  rw [show (outs.drop 1).map (fun o => cxS.value [] o.1) = ((outs.map fun o => o.1).drop 1).map (cxS.value []) by
    rw [← List.map_drop, List.map_map]; rfl, h2]
  simp only [List.drop_succ_cons, List.drop_zero, List.map_cons, List.map_nil]
  rw [cxS_value _ (by norm_num), cxS_value _ (by norm_num)]
  norm_num [Conv.Counter.step, Conv.countLoop, Conv.correct, Ext.eqv, Ext.le, abs_of_nonneg, abs_of_nonpos]

/-- The two points of `BatchLies`, predicted 1/2 and 3/4: for the true values 1/2 and 1/4, the second is wrong. -/
example : ∃ s' outs, multiAdd (lieCfg (cxB 3 none) exEnv 1 fun _ _ => []) none 2 [] = .ok (s', outs) ∧
    (Conv.Counter.step (1 / 100) (1 / 10) 4 ⟨3, 7⟩ ⟨[.fin (1 / 2), .fin (1 / 4)], outs.map (fun o => o.2.1), 1⟩).1.nPred = 0 ∧
    (Conv.Counter.step (1 / 100) (1 / 10) 4 ⟨3, 7⟩ ⟨[.fin (1 / 2), .fin (3 / 4)], outs.map (fun o => o.2.1), 1⟩).1.nPred = 5 := by
  have h : multiAdd (lieCfg (cxB 3 none) exEnv 1 fun _ _ => []) none 2 [] =
      .ok ([(fun _ => 1, (cxB 3 none).deepcopy.value [] fun _ => 1)], [(fun _ => 1, (cxB 3 none).deepcopy.value [] fun _ => 1, .fin 1),
        (fun _ => 3 / 2, (cxB 3 none).deepcopy.value [(fun _ => 1, (cxB 3 none).deepcopy.value [] fun _ => 1)] fun _ => 3 / 2, .fin 1)]) := by
    simp [multiAdd, serial, rankLoop, optimise, choose, pick, argmin, argminGo, lieCfg, exEnv, Ext.neg, Ext.isFinite, Ext.isNan, Ext.lt]
  have hce : ∀ c t, IsCeiling (rawOf (cxB 3 none).noise (cxB 3 none).all) c t → 1 ≤ c → 1 ≤ t := by
    intro c t ht hc
    obtain ⟨i, j, h3, h4, rfl⟩ := ht.eq
    have a := h3 (1 : Fin 2)
    have b := h4 i
    have e : (rawOf (cxB 3 none).noise (cxB 3 none).all).y (1 : Fin 2) = 1 := rfl
    nlinarith
  have := C172_counted_partial (cxB_ok 3 none) rfl rfl rfl (by simp [cxB]) exEnv 1 (fun _ _ => []) none 2 _ _ h (by
    intro o ho w hw
    have hb : w < 1 := by
      rw [cxB_value (by norm_num)] at hw
      cases hw
      simp only [List.mem_cons, List.not_mem_nil, or_false] at ho
      rcases ho with rfl | rfl <;> norm_num
    exact ⟨fun t ht => hb.trans_le (hce _ t ht (by norm_num)), fun t ht => hb.le.trans (hce _ t ht (by norm_num))⟩) _ (List.Subset.refl _)
  refine ⟨_, _, h, ?_, ?_⟩ <;> rw [this] <;> simp only [List.map_cons, List.map_nil, cxB_value (show (1 : ℝ) ≤ 3 by norm_num)] <;>
    norm_num [Conv.Counter.step, Conv.countLoop, Conv.correct, Ext.eqv, Ext.le, abs_of_nonneg, abs_of_nonpos]

end GPry.PoolGp
