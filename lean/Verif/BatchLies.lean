import Verif.PoolGpProps
import Verif.BatchProps

set_option linter.all false

/-!
# The predictions that `BatchOptimizer` returns

gp_acquisition.py:397-500 with the Gaussian process of `PoolGp`: real numbers, exact arithmetic, a single noise level. (With a classifier: `BatchLiesClf`.)
-/

namespace GPry.PoolGp

open GPry Acq Predict Proposed Gp Matrix Kernels Batch Spmd

variable {d : ℕ} {B : Type}

/-- gpr.py:1354-1433 `__deepcopy__`: the clip factor is the default of the constructor, and there is no trust region. (There is none either after a lie
has been appended, if `trust_region_factor` is `None`, the default; other values are not modelled here.) -/
noncomputable def Surr.deepcopy (g : Surr d) : Surr d := { g with clip := some (11 / 10), trust := none }

/-- gp_acquisition.py:478 `gpr_.predict(X_opt)`, with the lies appended so far. (NaN: an exception.) -/
noncomputable def Surr.value (g : Surr d) (lies : List ((Fin d → ℝ) × Ext ℝ)) (x : Fin d → ℝ) : Ext ℝ :=
  match (g.st lies).predict [x] false with
  | .ok ([m], _) => m
  | _ => .nan

/-- gp_acquisition.py:441-491: the surrogate `gpr_` is the copy with the lies, those that are finite in its training set (`Surr.train`). The local optimiser and
the proposals are those of `env`, `props`, which may depend on the lies. -/
noncomputable def lieCfg (g : Surr d) (env : Env (List ((Fin d → ℝ) × Ext ℝ)) (Fin d → ℝ) B ℝ) (nRestarts : ℕ) (props : ℕ → ℕ → List (Fin d → ℝ)) :
    Cfg (List ((Fin d → ℝ) × Ext ℝ)) (Fin d → ℝ) B ℝ where
  env := env
  nRestarts := nRestarts
  props := props
  predict := g.deepcopy.value
  append := fun l x y => .ok (l ++ [(x, y)])

theorem deepcopy_ok {g : Surr d} (hg : Ok g) : Ok g.deepcopy := ⟨hg.kernel, hg.scale, hg.noise, hg.chol, hg.trained⟩

theorem ceiling_unique {n : ℕ} {R : Raw (Fin n) (Fin d → ℝ)} {c t t' : ℝ} (h : IsCeiling R c t) (h' : IsCeiling R c t') : t = t' := by
  obtain ⟨i, j, h1, h2, rfl⟩ := h.eq
  obtain ⟨i', j', h1', h2', rfl⟩ := h'.eq
  have e1 : R.y i = R.y i' := le_antisymm (h1' i) (h1 i')
  have e2 : R.y j = R.y j' := le_antisymm (h2 j') (h2' j)
  rw [e1, e2]

/-- Without a classifier and without a trust region, the prediction is the mean or the ceiling. -/
theorem value_eq {g : Surr d} (hclf : g.clf = none) (ht : g.trust = none) {c : ℝ} (hc : g.clip = some c) (hne : g.all ≠ [])
    (lies : List ((Fin d → ℝ) × Ext ℝ)) (x : Fin d → ℝ) :
    ∃ t, IsCeiling (rawOf g.noise (g.train lies)) c t ∧ g.value lies x = .fin (min (g.M.mean (g.chol _) (rawOf g.noise (g.train lies)) x) t) := by
  have hl : 0 < (g.train lies).length := by
    rw [train_none hclf, List.length_append]
    have := List.length_pos_iff.2 hne
    omega
  obtain ⟨t, hce⟩ : ∃ t, ceiling c (List.ofFn (rawOf g.noise (g.train lies)).y) = .ok t := by
    have hn : List.ofFn (rawOf g.noise (g.train lies)).y ≠ [] := by
      rw [ne_eq, List.ofFn_eq_nil_iff]
      omega
    generalize List.ofFn (rawOf g.noise (g.train lies)).y = l at hn
    cases l with
    | nil => exact absurd rfl hn
    | cons a l => exact ⟨_, rfl⟩
  refine ⟨t, ceiling_spec hce, ?_⟩
  have hm : (g.st lies).means [x] = .ok [min (g.M.mean (g.chol _) (rawOf g.noise (g.train lies)) x) t] := by
    unfold St.means
    dsimp only [Surr.st]
    rw [hc]
    dsimp only
    rw [hce]
    rfl
  unfold Surr.value St.predict
  have hs : (g.st lies).svm = none := by simp [Surr.st, hclf]
  have hf : (g.st lies).fitted = true := rfl
  have htr : (g.st lies).trust = none := ht
  simp [hs, hf, hm, St.trustMask, htr]

/-- **C171** (partial: no classifier, no trust region, and nothing clipped at the points of the batch): with any number of processes, the values that
`BatchOptimizer.multi_add` returns with its points are what the surrogate predicts at them, although all but the first are predicted by a copy to which the
points before have been appended. -/
theorem C171_predictions_partial {g : Surr d} (hg : Ok g) (hclf : g.clf = none) (ht : g.trust = none) {c : ℝ} (hc : g.clip = some c) (hne : g.all ≠ [])
    (env : Env (List ((Fin d → ℝ) × Ext ℝ)) (Fin d → ℝ) B ℝ) (nRestarts : ℕ) (props : ℕ → ℕ → List (Fin d → ℝ)) (bounds : Option B) (n : ℤ)
    (s' : List ((Fin d → ℝ) × Ext ℝ)) (outs : List (Out (Fin d → ℝ) ℝ)) (h : multiAdd (lieCfg g env nRestarts props) bounds n [] = .ok (s', outs))
    (hlow : ∀ o ∈ outs, ∀ w, g.value [] o.1 = .fin w →
      (∀ t, IsCeiling (rawOf g.noise g.all) c t → w < t) ∧ (∀ t, IsCeiling (rawOf g.noise g.all) (11 / 10) t → w ≤ t)) :
    (∀ o ∈ outs, o.2.1 = g.value [] o.1) ∧
    ∀ p, 0 < p → Runs (fun r : Fin p => multiAddPar (lieCfg g env nRestarts props) bounds n [] p r.val) fun _ => .ok outs := by
  refine ⟨?_, fun p hp => C58_parallel _ bounds n [] s' outs p hp h⟩
  obtain ⟨-, ss, h0, hss⟩ := C58_batch_partial _ _ _ _ _ _ h
  have et : g.train [] = g.all := by rw [train_none hclf, List.append_nil]
  -- the mean of the Gaussian process at a point of the batch is what the surrogate predicts, and below the ceiling of the copy
  have hmean : ∀ o ∈ outs, g.value [] o.1 = .fin (g.M.mean (g.chol _) (rawOf g.noise (g.train [])) o.1) ∧
      ∀ t, IsCeiling (rawOf g.noise (g.train [])) (11 / 10) t → g.M.mean (g.chol _) (rawOf g.noise (g.train [])) o.1 ≤ t := by
    intro o ho
    obtain ⟨t, h1, h2⟩ := value_eq hclf ht hc hne [] o.1
    obtain ⟨h3, h4⟩ := hlow o ho _ h2
    rw [← et] at h3 h4
    have h5 := h3 t h1
    have h6 : g.M.mean (g.chol _) (rawOf g.noise (g.train [])) o.1 < t := by
      by_contra hcon
      rw [min_eq_right (not_lt.1 hcon)] at h5
      exact lt_irrefl _ h5
    rw [min_eq_left h6.le] at h2 h4
    exact ⟨h2, h4⟩
  have key : ∀ i, ∀ hi : i < outs.length, Lies g.deepcopy (ss i) → outs[i].2.1 = .fin (g.M.mean (g.chol _) (rawOf g.noise (g.train [])) outs[i].1) ∧
      outs[i].2.1 = .fin (g.M.mean (g.chol _) (rawOf g.noise (g.deepcopy.train (ss i))) outs[i].1) := by
    intro i hi hl
    obtain ⟨⟨_, hgood⟩, -⟩ := hss i hi
    obtain ⟨t, h1, h2⟩ := value_eq (g := g.deepcopy) hclf rfl rfl hne (ss i) outs[i].1
    have h3 := lies_mean (deepcopy_ok hg) hclf (ss i) hl outs[i].1
    have h4 : outs[i].2.1 = g.deepcopy.value (ss i) outs[i].1 := hgood.lie
    have h5 : g.M.mean (g.chol _) (rawOf g.noise (g.deepcopy.train (ss i))) outs[i].1 = g.M.mean (g.chol _) (rawOf g.noise (g.train [])) outs[i].1 := h3
    obtain ⟨t0, h6, -⟩ := value_eq (g := g.deepcopy) hclf rfl rfl hne [] outs[i].1
    have h7 : t0 ≤ t := by
      have e : g.deepcopy.train (ss i) = g.deepcopy.train [] ++ ss i := by
        rw [train_none (g := g.deepcopy) hclf, train_none (g := g.deepcopy) hclf, List.append_nil]
      rw [e] at h1
      exact ceiling_mono (by norm_num) h6 h1
    have h8 := (hmean outs[i] (List.getElem_mem hi)).2 t0 h6
    have h9 : g.deepcopy.M.mean (g.deepcopy.chol _) (rawOf g.deepcopy.noise (g.deepcopy.train (ss i))) outs[i].1 ≤ t := by
      rw [h3]; exact h8.trans h7
    rw [min_eq_left h9] at h2
    exact ⟨by rw [h4, h2, h3]; rfl, by rw [h4, h2]; rfl⟩
  have hlies : ∀ i, i < outs.length → Lies g.deepcopy (ss i) := by
    intro i
    induction i with
    | zero =>
      intro _ j q hq
      rw [h0] at hq
      simp at hq
    | succ i ih =>
      intro hi
      have hl := ih (by omega)
      obtain ⟨-, happ⟩ := hss i (by omega)
      have e : ss i ++ [(outs[i].1, outs[i].2.1)] = ss (i + 1) := by
        have := happ hi
        simpa [lieCfg] using this
      rw [← e]
      intro j q hq
      rcases Nat.lt_trichotomy j (ss i).length with hj | hj | hj
      · rw [List.getElem?_append_left hj] at hq
        rw [List.take_append_of_le_length hj.le]
        exact hl j q hq
      · subst hj
        rw [List.getElem?_append_right le_rfl, Nat.sub_self] at hq
        simp only [List.getElem?_cons_zero, Option.some.injEq] at hq
        subst hq
        rw [List.take_left]
        exact (key i (by omega) hl).2
      · rw [List.getElem?_eq_none (by simp; omega)] at hq
        cases hq
  intro o ho
  obtain ⟨i, hi, rfl⟩ := List.mem_iff_getElem.1 ho
  rw [(hmean _ (List.getElem_mem hi)).1]
  exact (key i hi (hlies i hi)).1

/-! ## Clipping, and what the copy loses -/

/-- Linear kernel, training points 0 and 1 with values 0 and 1, noise level 1. -/
noncomputable def cxB (c : ℝ) (trust : Option (Fin 1 → ℝ × ℝ)) : Surr 1 :=
  { M := ⟨fun x y => ∑ i, (1 : ℝ) * (x i * y i), id, 0, 1⟩, chol := fun _ => exChol, all := [(fun _ => 0, .fin 0), (fun _ => 1, .fin 1)], noise := 1,
    clf := none, prior := fun _ => 1, trust := trust, clip := some c }

theorem cxB_ok (c : ℝ) (trust : Option (Fin 1 → ℝ × ℝ)) : Ok (cxB c trust) where
  kernel := Kernels.isKernel_dot (fun _ => 1) (fun _ => zero_le_one)
  scale := one_pos
  noise := one_pos
  chol := fun _ _ h => exChol_isFactor h
  trained := by rintro c hc; cases hc

theorem mean_alpha {g : Surr d} (hg : Ok g) (l : List ((Fin d → ℝ) × Ext ℝ)) : ∃ α : Fin l.length → ℝ,
    (g.M.data (rawOf g.noise l)).kmat g.M.k *ᵥ α = (g.M.data (rawOf g.noise l)).y ∧
    ∀ x, g.M.mean (g.chol _) (rawOf g.noise l) x = ((g.M.data (rawOf g.noise l)).kTrans g.M.k (g.M.trX x) ⬝ᵥ α) * g.M.s + g.M.mu :=
  ⟨_, kmat_alpha (hg.chol _ _ (posDef hg _ fun _ => rfl)), fun _ => rfl⟩

theorem cxB_mean (c : ℝ) (trust : Option (Fin 1 → ℝ × ℝ)) (x : Fin 1 → ℝ) :
    (cxB c trust).M.mean ((cxB c trust).chol _) (rawOf (cxB c trust).noise ((cxB c trust).train [])) x = x 0 / 2 := by
  rw [show (cxB c trust).train [] = [(fun _ => 0, .fin 0), (fun _ => 1, .fin 1)] from by rw [train_none rfl]; rfl]
  obtain ⟨α, ha, hm⟩ := mean_alpha (cxB_ok c trust) [(fun _ => 0, .fin 0), (fun _ => 1, .fin 1)]
  rw [hm]
  change Fin 2 → ℝ at α
  have h1 := congrFun ha (1 : Fin 2)
  simp [Matrix.mulVec, dotProduct, Fin.sum_univ_two, Data.kmat, Model.data, cxB, rawOf, num] at h1
  simp [dotProduct, Fin.sum_univ_two, Data.kTrans, Model.data, cxB, rawOf]
  linear_combination (x 0 / 2) * h1

/-- With the clipped lie 11/10 at 4. -/
theorem cxB_mean_lie (c : ℝ) (trust : Option (Fin 1 → ℝ × ℝ)) :
    (cxB c trust).M.mean ((cxB c trust).chol _) (rawOf (cxB c trust).noise ((cxB c trust).train [(fun _ => 4, .fin (11 / 10))])) (fun _ => 1) = 3 / 10 := by
  rw [show (cxB c trust).train [(fun _ => 4, .fin (11 / 10))] = [(fun _ => 0, .fin 0), (fun _ => 1, .fin 1), (fun _ => 4, .fin (11 / 10))] from by
    rw [train_none rfl]; rfl]
  obtain ⟨α, ha, hm⟩ := mean_alpha (cxB_ok c trust) [(fun _ => 0, .fin 0), (fun _ => 1, .fin 1), (fun _ => 4, .fin (11 / 10))]
  rw [hm]
  change Fin 3 → ℝ at α
  have h1 := congrFun ha (1 : Fin 3)
  have h2 := congrFun ha (2 : Fin 3)
  simp [Matrix.mulVec, dotProduct, Fin.sum_univ_three, Data.kmat, Model.data, cxB, rawOf, num] at h1 h2
  simp [dotProduct, Fin.sum_univ_three, Data.kTrans, Model.data, cxB, rawOf]
  linarith

theorem cxB_value {c : ℝ} (hc : 1 ≤ c) (x : Fin 1 → ℝ) : (cxB c none).value [] x = .fin (min (x 0 / 2) c) := by
  obtain ⟨t, h1, h2⟩ := value_eq (g := cxB c none) rfl rfl rfl (by simp [cxB]) [] x
  rw [h2, cxB_mean]
  rw [show (cxB c none).train [] = [(fun _ => 0, .fin 0), (fun _ => 1, .fin 1)] from by rw [train_none rfl]; rfl] at h1
  obtain ⟨i, j, h3, h4, rfl⟩ := h1.eq
  change Fin 2 at i j
  have a := h3 (1 : Fin 2)
  have b := h4 (0 : Fin 2)
  fin_cases i <;> fin_cases j
  all_goals first
    | (exfalso; norm_num [rawOf, num] at a; done)
    | (exfalso; norm_num [rawOf, num] at b; done)
    | norm_num [rawOf, num]

theorem cxB_deepcopy (c : ℝ) (trust : Option (Fin 1 → ℝ × ℝ)) : (cxB c trust).deepcopy = cxB (11 / 10) none := rfl

theorem cxB_value_lie : (cxB (11 / 10) none).value [(fun _ => 4, .fin (11 / 10))] (fun _ => 1) = .fin (3 / 10) := by
  obtain ⟨t, h1, h2⟩ := value_eq (g := cxB (11 / 10) none) rfl rfl rfl (by simp [cxB]) [(fun _ => 4, .fin (11 / 10))] (fun _ => 1)
  rw [h2, cxB_mean_lie]
  rw [show (cxB (11 / 10) none).train [(fun _ => 4, .fin (11 / 10))] = [(fun _ => 0, .fin 0), (fun _ => 1, .fin 1), (fun _ => 4, .fin (11 / 10))] from by
    rw [train_none rfl]; rfl] at h1
  obtain ⟨i, j, h3, h4, rfl⟩ := h1.eq
  have a := h3 (1 : Fin 3)
  have b := h4 i
  have e : (rawOf (cxB (11 / 10) none).noise [(fun _ : Fin 1 => (0 : ℝ), Ext.fin (0 : ℝ)), (fun _ => 1, .fin 1), (fun _ => 4, .fin (11 / 10))]).y (1 : Fin 3) = 1 := rfl
  rw [min_eq_left]
  nlinarith

/-- An optimiser that ends in 4 for the first point of a batch, in 1 for the others. -/
noncomputable def cxEnv : Env (List ((Fin 1 → ℝ) × Ext ℝ)) (Fin 1 → ℝ) Unit ℝ where
  isIn := fun _ _ => true
  train := fun _ => [fun _ => 1]
  acq := fun _ _ => .fin 0
  loc := fun l _ _ => (if l.isEmpty then fun _ => 4 else fun _ => 1, .fin (-1))
  prior := ()
  nRep := 0

theorem cxEnv_two (g : Surr 1) : multiAdd (lieCfg g cxEnv 1 fun _ _ => []) none 2 [] =
    .ok ([(fun _ => 4, g.deepcopy.value [] fun _ => 4)], [(fun _ => 4, g.deepcopy.value [] fun _ => 4, .fin 1),
      (fun _ => 1, g.deepcopy.value [(fun _ => 4, g.deepcopy.value [] fun _ => 4)] fun _ => 1, .fin 1)]) := by
  simp [multiAdd, serial, rankLoop, optimise, choose, pick, argmin, argminGo, lieCfg, cxEnv, Ext.neg, Ext.isFinite, Ext.isNan, Ext.lt]

theorem cxEnv_one (g : Surr 1) : multiAdd (lieCfg g cxEnv 1 fun _ _ => []) none 1 [] =
    .ok ([], [(fun _ => 4, g.deepcopy.value [] fun _ => 4, .fin 1)]) := by
  simp [multiAdd, serial, rankLoop, optimise, choose, pick, argmin, argminGo, lieCfg, cxEnv, Ext.neg, Ext.isFinite, Ext.isNan, Ext.lt]

/-- **C171** is false in general. (1) With the default `clip_factor`: where the prediction for the first point has been clipped, it is not what the Gaussian
process predicts there, and changes the following ones: 3/10 is returned for the second point, for which the surrogate predicts 1/2. (2) With another
`clip_factor`, which the copy does not have: 11/10 is returned, the surrogate predicts 2. (3) Outside of the trust region, which the copy does not have: a
number is returned, the surrogate predicts minus infinity. -/
theorem C171_counterexample :
    (multiAdd (lieCfg (cxB (11 / 10) none) cxEnv 1 fun _ _ => []) none 2 [] =
      .ok ([(fun _ => 4, .fin (11 / 10))], [(fun _ => 4, .fin (11 / 10), .fin 1), (fun _ => 1, .fin (3 / 10), .fin 1)]) ∧
      (cxB (11 / 10) none).value [] (fun _ => 1) = .fin (1 / 2)) ∧
    (multiAdd (lieCfg (cxB 3 none) cxEnv 1 fun _ _ => []) none 1 [] = .ok ([], [(fun _ => 4, .fin (11 / 10), .fin 1)]) ∧
      (cxB 3 none).value [] (fun _ => 4) = .fin 2) ∧
    (multiAdd (lieCfg (cxB (11 / 10) (some fun _ => (0, 2))) cxEnv 1 fun _ _ => []) none 1 [] = .ok ([], [(fun _ => 4, .fin (11 / 10), .fin 1)]) ∧
      (cxB (11 / 10) (some fun _ => (0, 2))).value [] (fun _ => 4) = .negInf) := by
  have h4 : (cxB (11 / 10) none).value [] (fun _ => 4) = .fin (11 / 10) := by
    rw [cxB_value (by norm_num)]; norm_num
  refine ⟨⟨?_, ?_⟩, ⟨?_, ?_⟩, ?_, ?_⟩
  · rw [cxEnv_two, cxB_deepcopy, h4, cxB_value_lie]
  · rw [cxB_value (by norm_num)]; norm_num
  · rw [cxEnv_one, cxB_deepcopy, h4]
  · rw [cxB_value (by norm_num)]; norm_num
  · rw [cxEnv_one, cxB_deepcopy, h4]
  · have hc : ceiling (11 / 10) (List.ofFn (rawOf (1 : ℝ) [(fun _ : Fin 1 => (0 : ℝ), Ext.fin (0 : ℝ)), (fun _ => 1, .fin 1)]).y) = .ok (11 / 10) := by
      simp [ceiling, rawOf, num, Tools.maxOf, Tools.minOf]
    have hm : ((cxB (11 / 10) (some fun _ => (0, 2))).st []).means [fun _ => 4] = .ok [min (4 / 2) (11 / 10)] := by
      unfold St.means
      dsimp only [Surr.st]
      rw [show (cxB (11 / 10) (some fun _ => (0, 2))).clip = some (11 / 10) from rfl]
      dsimp only
      rw [List.map_singleton, cxB_mean]
      rw [show (cxB (11 / 10) (some fun _ => (0, 2))).train [] = [(fun _ => 0, .fin 0), (fun _ => 1, .fin 1)] from by rw [train_none rfl]; rfl]
      rw [show (cxB (11 / 10) (some fun _ => (0, 2))).noise = 1 from rfl, hc]
      rfl
    have ho : outside (fun _ : Fin 1 => ((0 : ℝ), (2 : ℝ))) (fun _ => 4) = true := by
      simp [outside, Tools.isInBounds, Ext.ge, Ext.le]
      norm_num
    unfold Surr.value St.predict
    have hs : ((cxB (11 / 10) (some fun _ => (0, 2))).st []).svm = none := rfl
    have hf : ((cxB (11 / 10) (some fun _ => (0, 2))).st []).fitted = true := rfl
    have htr : ((cxB (11 / 10) (some fun _ => (0, 2))).st []).trust = some fun _ => (0, 2) := rfl
    have hmi : ((cxB (11 / 10) (some fun _ => (0, 2))).st []).minf = .negInf := rfl
    simp [hs, hf, hm, St.trustMask, htr, ho, maskSet, hmi]

/-! ## Example -/

/-- An optimiser that ends in 1 for the first point of a batch, in 3/2 for the others. -/
noncomputable def exEnv : Env (List ((Fin 1 → ℝ) × Ext ℝ)) (Fin 1 → ℝ) Unit ℝ where
  isIn := fun _ _ => true
  train := fun _ => [fun _ => 1]
  acq := fun _ _ => .fin 0
  loc := fun l _ _ => (if l.isEmpty then fun _ => 1 else fun _ => 3 / 2, .fin (-1))
  prior := ()
  nRep := 0

/-- Two points, predicted 1/2 and 3/4, below the ceilings 11/10 and 3. -/
example : ∃ s' outs, multiAdd (lieCfg (cxB 3 none) exEnv 1 fun _ _ => []) none 2 [] = .ok (s', outs) ∧ outs.map (fun o => o.1 0) = [1, 3 / 2] ∧
    outs.map (fun o => o.2.1) = [.fin (1 / 2), .fin (3 / 4)] := by
  have h : multiAdd (lieCfg (cxB 3 none) exEnv 1 fun _ _ => []) none 2 [] =
      .ok ([(fun _ => 1, (cxB 3 none).deepcopy.value [] fun _ => 1)], [(fun _ => 1, (cxB 3 none).deepcopy.value [] fun _ => 1, .fin 1),
        (fun _ => 3 / 2, (cxB 3 none).deepcopy.value [(fun _ => 1, (cxB 3 none).deepcopy.value [] fun _ => 1)] fun _ => 3 / 2, .fin 1)]) := by
    simp [multiAdd, serial, rankLoop, optimise, choose, pick, argmin, argminGo, lieCfg, exEnv, Ext.neg, Ext.isFinite, Ext.isNan, Ext.lt]
  have hce : ∀ c t, IsCeiling (rawOf (cxB 3 none).noise (cxB 3 none).all) c t → 1 ≤ c → 1 ≤ t := by
    intro c t ht hc
    obtain ⟨i, j, h3, h4, rfl⟩ := ht.eq
    have a := h3 (1 : Fin 2)
    have b := h4 i
    have e : (rawOf (cxB 3 none).noise (cxB 3 none).all).y (1 : Fin 2) = 1 := rfl
    nlinarith
  have := (C171_predictions_partial (cxB_ok 3 none) rfl rfl rfl (by simp [cxB]) exEnv 1 (fun _ _ => []) none 2 _ _ h (by
    intro o ho w hw
    have hb : w < 1 := by
      rw [cxB_value (by norm_num)] at hw
      cases hw
      simp only [List.mem_cons, List.not_mem_nil, or_false] at ho
      rcases ho with rfl | rfl <;> norm_num
    exact ⟨fun t ht => hb.trans_le (hce _ t ht (by norm_num)), fun t ht => hb.le.trans (hce _ t ht (by norm_num))⟩)).1
  refine ⟨_, _, h, by simp, ?_⟩
  rw [List.map_congr_left (fun o ho => this o ho)]
  simp only [List.map_cons, List.map_nil, cxB_value (show (1 : ℝ) ≤ 3 by norm_num)]
  norm_num

end GPry.PoolGp
