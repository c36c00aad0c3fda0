import Verif.BatchLies
import Verif.PoolGpClf

set_option linter.all false

/-!
# The predictions that `BatchOptimizer` returns, with a classifier

No definitions of the code. C171 holds with a classifier if the points of the batch are predicted below the best value of the training set, or infinite; and of
the first point of a batch.
-/

namespace GPry.PoolGp

open GPry Acq Predict Proposed Gp Matrix Kernels Batch Spmd

variable {d : ℕ} {B : Type}

theorem npMax2_mem (a b : Ext ℝ) : Ext.npMax2 a b = a ∨ Ext.npMax2 a b = b := by
  unfold Ext.npMax2
  split_ifs <;> simp

theorem npMax_mem {l : List (Ext ℝ)} {m : Ext ℝ} (h : Ext.npMax l = some m) : m ∈ l := by
  cases l with
  | nil => cases h
  | cons y l =>
    simp only [Ext.npMax, Option.some.injEq] at h
    subst h
    induction l generalizing y with
    | nil => simp
    | cons z l ih =>
      rw [List.foldl_cons]
      rcases npMax2_mem y z with e | e <;> rw [e]
      · rcases List.mem_cons.1 (ih y) with h | h
        · rw [h]; simp
        · exact List.mem_cons_of_mem _ (List.mem_cons_of_mem _ h)
      · exact List.mem_cons_of_mem _ (ih z)

/-- The best value is in the training set. -/
theorem best_mem {g : Surr d} {c : Svm (Fin d → ℝ)} {t v : ℝ} (ht : 0 ≤ t) (hc : g.clf = some (c, .fin t))
    (hv : Ext.npMax (g.all.map Prod.snd) = some (.fin v)) {l : List ((Fin d → ℝ) × Ext ℝ)} (hb : Below v l) : ∃ z, (z, Ext.fin v) ∈ g.train l := by
  obtain ⟨q, hq, e⟩ := List.mem_map.1 (npMax_mem hv)
  refine ⟨q.1, ?_⟩
  rw [train_below hc hv hb]
  refine List.mem_filter.2 ⟨List.mem_append_left _ (by rw [← e]; exact hq), ?_⟩
  simp [Gpr.isFiniteRaw, Ext.ge, Ext.le, Ext.sub, Ext.isFinite, ht]

theorem ceiling_ge {g : Surr d} {v : ℝ} {l : List ((Fin d → ℝ) × Ext ℝ)} {z : Fin d → ℝ} (h : (z, Ext.fin v) ∈ g.train l) {k t : ℝ} (hk : 1 ≤ k)
    (ht : IsCeiling (rawOf g.noise (g.train l)) k t) : v ≤ t := by
  obtain ⟨i, j, h1, h2, rfl⟩ := ht.eq
  obtain ⟨n, hn, e⟩ := List.mem_iff_getElem.1 h
  have a := h1 ⟨n, hn⟩
  have b := h2 i
  have e' : (rawOf g.noise (g.train l)).y ⟨n, hn⟩ = v := by
    show num ((g.train l)[n]).2 = v
    rw [e]; rfl
  rw [e'] at a
  nlinarith

/-- What the classifier says does not depend on the lies. Where it says finite, the prediction is the mean or the ceiling. -/
theorem value_clf {g : Surr d} (hg : Ok g) {c : Svm (Fin d → ℝ)} {T : Ext ℝ} (hc : g.clf = some (c, T)) (ht : g.trust = none) {k : ℝ} (hk : g.clip = some k)
    (l : List ((Fin d → ℝ) × Ext ℝ)) (hne : g.train l ≠ []) (x : Fin d → ℝ) :
    ((c.allFinite = false ∧ (c.atLeastOneFinite = false ∨ c.decide (g.M.trX x) = false)) ∧ g.value l x = .negInf) ∨
    (¬ (c.allFinite = false ∧ (c.atLeastOneFinite = false ∨ c.decide (g.M.trX x) = false)) ∧
      ∃ t, IsCeiling (rawOf g.noise (g.train l)) k t ∧ g.value l x = .fin (min (g.M.mean (g.chol _) (rawOf g.noise (g.train l)) x) t)) := by
  have htr := hg.trained _ hc
  have hl : 0 < (g.train l).length := List.length_pos_iff.2 hne
  obtain ⟨t, hce⟩ : ∃ t, ceiling k (List.ofFn (rawOf g.noise (g.train l)).y) = .ok t := by
    have hn : List.ofFn (rawOf g.noise (g.train l)).y ≠ [] := by
      rw [ne_eq, List.ofFn_eq_nil_iff]
      omega
    generalize List.ofFn (rawOf g.noise (g.train l)).y = l at hn
    cases l with
    | nil => exact absurd rfl hn
    | cons a l => exact ⟨_, rfl⟩
  have hm : (g.st l).means [x] = .ok [min (g.M.mean (g.chol _) (rawOf g.noise (g.train l)) x) t] := by
    unfold St.means
    dsimp only [Surr.st]
    rw [hk]
    dsimp only
    rw [hce]
    rfl
  have hs : (g.st l).svm = some c := by simp [Surr.st, hc]
  have hf : (g.st l).fitted = true := rfl
  have htr' : (g.st l).trust = none := ht
  have hmi : (g.st l).minf = .negInf := rfl
  have hM : (g.st l).M = g.M := rfl
  dsimp only at htr
  unfold Surr.value St.predict
  simp only [hs, hf, Bool.not_true, Bool.false_eq_true, if_false, Svm.predict, htr, hM]
  cases h1 : c.allFinite
  · cases h2 : c.atLeastOneFinite
    · left; simp [hmi]
    · cases h3 : c.decide (g.M.trX x)
      · left; simp [h3, hmi]
      · right
        refine ⟨by simp, t, ceiling_spec hce, ?_⟩
        simp [h3, maskGet, hm, St.trustMask, htr', scatter, maskSet]
  · right
    refine ⟨by simp, t, ceiling_spec hce, ?_⟩
    simp [maskGet, hm, St.trustMask, htr', scatter, maskSet]

/-- **C171** with a classifier (partial: no trust region, and the points of the batch are predicted infinite or below the best value of the training set): with
any number of processes, the values that `BatchOptimizer.multi_add` returns with its points are what the surrogate predicts at them. -/
theorem C171_classifier_partial {g : Surr d} (hg : Ok g) {c : Svm (Fin d → ℝ)} {t v k : ℝ} (ht0 : 0 ≤ t) (hc : g.clf = some (c, .fin t))
    (hv : Ext.npMax (g.all.map Prod.snd) = some (.fin v)) (ht : g.trust = none) (hk : g.clip = some k) (hk1 : 1 ≤ k)
    (env : Env (List ((Fin d → ℝ) × Ext ℝ)) (Fin d → ℝ) B ℝ) (nRestarts : ℕ) (props : ℕ → ℕ → List (Fin d → ℝ)) (bounds : Option B) (n : ℤ)
    (s' : List ((Fin d → ℝ) × Ext ℝ)) (outs : List (Out (Fin d → ℝ) ℝ)) (h : multiAdd (lieCfg g env nRestarts props) bounds n [] = .ok (s', outs))
    (hlow : ∀ o ∈ outs, ∀ w, g.value [] o.1 = .fin w → w < v) :
    (∀ o ∈ outs, o.2.1 = g.value [] o.1) ∧
    ∀ p, 0 < p → Runs (fun r : Fin p => multiAddPar (lieCfg g env nRestarts props) bounds n [] p r.val) fun _ => .ok outs := by
  refine ⟨?_, fun p hp => C58_parallel _ bounds n [] s' outs p hp h⟩
  obtain ⟨-, ss, h0, hss⟩ := C58_batch_partial _ _ _ _ _ _ h
  have hb0 : Below v ([] : List ((Fin d → ℝ) × Ext ℝ)) := by intro q hq; cases hq
  have hgd : g.deepcopy.clf = some (c, .fin t) := hc
  have hvd : Ext.npMax (g.deepcopy.all.map Prod.snd) = some (.fin v) := hv
  have etr : ∀ l, g.deepcopy.train l = g.train l := fun l => rfl
  -- one point
  have key : ∀ (l : List ((Fin d → ℝ) × Ext ℝ)), Below v l →
      (∀ x, g.M.mean (g.chol _) (rawOf g.noise (g.train l)) x = g.M.mean (g.chol _) (rawOf g.noise (g.train [])) x) →
      ∀ x, (∀ w, g.value [] x = .fin w → w < v) → g.deepcopy.value l x = g.value [] x ∧
        (g.value [] x = .negInf ∨ ∃ w, g.value [] x = .fin w ∧ w ≤ v ∧ w = g.M.mean (g.chol _) (rawOf g.noise (g.train l)) x) := by
    intro l hb hmean x hx
    obtain ⟨z, hz⟩ := best_mem ht0 hc hv hb
    obtain ⟨z0, hz0⟩ := best_mem ht0 hc hv hb0
    have a := value_clf (deepcopy_ok hg) hgd rfl rfl l (List.ne_nil_of_mem hz) x
    have a0 := value_clf hg hc ht hk [] (List.ne_nil_of_mem hz0) x
    rcases a0 with ⟨i0, e0⟩ | ⟨i0, t0, hce0, e0⟩
    · rcases a with ⟨i, e⟩ | ⟨i, -⟩
      · exact ⟨by rw [e, e0], .inl e0⟩
      · exact absurd i0 i
    · rcases a with ⟨i, -⟩ | ⟨i, t1, hce, e⟩
      · exact absurd i i0
      · have h1 := ceiling_ge hz0 hk1 hce0
        have h2 : v ≤ t1 := ceiling_ge (g := g.deepcopy) hz (by norm_num) hce
        have h3 := hx _ e0
        have h4 : g.M.mean (g.chol _) (rawOf g.noise (g.train [])) x < v := by
          rcases min_lt_iff.1 h3 with h | h
          · exact h
          · exact absurd h (not_lt.2 h1)
        rw [min_eq_left (h4.le.trans h1)] at e0
        have h5 : g.deepcopy.M.mean (g.deepcopy.chol _) (rawOf g.deepcopy.noise (g.deepcopy.train l)) x =
            g.M.mean (g.chol _) (rawOf g.noise (g.train [])) x := hmean x
        rw [h5, min_eq_left (h4.le.trans h2)] at e
        exact ⟨by rw [e, e0], .inr ⟨_, e0, h4.le, (hmean x).symm⟩⟩
  have hinv : ∀ i, i < outs.length → Below v (ss i) ∧
      ∀ x, g.M.mean (g.chol _) (rawOf g.noise (g.train (ss i))) x = g.M.mean (g.chol _) (rawOf g.noise (g.train [])) x := by
    intro i
    induction i with
    | zero =>
      intro _
      rw [h0]
      exact ⟨hb0, fun _ => rfl⟩
    | succ i ih =>
      intro hi
      obtain ⟨hb, hmean⟩ := ih (by omega)
      obtain ⟨⟨_, hgood⟩, happ⟩ := hss i (by omega)
      have e : ss i ++ [(outs[i].1, outs[i].2.1)] = ss (i + 1) := by
        have := happ hi
        simpa [lieCfg] using this
      have hlie : outs[i].2.1 = g.deepcopy.value (ss i) outs[i].1 := hgood.lie
      obtain ⟨k1, k2⟩ := key (ss i) hb hmean outs[i].1 (hlow _ (List.getElem_mem (by omega)))
      rw [k1] at hlie
      have hb' : Below v (ss (i + 1)) := by
        rw [← e]
        intro q hq
        rcases List.mem_append.1 hq with hq | hq
        · exact hb q hq
        · rw [List.mem_singleton] at hq
          subst hq
          rcases k2 with h | ⟨w, h, hw, -⟩
          · exact .inl (hlie.trans h)
          · exact .inr ⟨w, hlie.trans h, hw⟩
      refine ⟨hb', fun x => ?_⟩
      rw [← hmean x]
      have etrain : g.train (ss (i + 1)) = g.train (ss i) ++ [(outs[i].1, outs[i].2.1)].filter (fun q => Gpr.isFiniteRaw (.fin t) (.fin v) q.2) := by
        rw [train_below hc hv hb', train_below hc hv hb, ← e, ← List.append_assoc, List.filter_append]
      rw [etrain]
      apply mean_append hg
      intro q hq
      obtain ⟨hq1, hq2⟩ := List.mem_filter.1 hq
      rw [List.mem_singleton] at hq1
      subst hq1
      rcases k2 with h | ⟨w, h, -, hw⟩
      · rw [hlie, h] at hq2
        simp [Gpr.isFiniteRaw, Ext.isFinite] at hq2
      · rw [← hw]; exact hlie.trans h
  intro o ho
  obtain ⟨i, hi, rfl⟩ := List.mem_iff_getElem.1 ho
  obtain ⟨hb, hmean⟩ := hinv i hi
  obtain ⟨⟨_, hgood⟩, -⟩ := hss i hi
  have hlie : outs[i].2.1 = g.deepcopy.value (ss i) outs[i].1 := hgood.lie
  rw [hlie]
  exact (key (ss i) hb hmean _ (hlow _ ho)).1

/-! ## The first point of a batch -/

theorem maskSet_false (v : Ext ℝ) (m : List (Ext ℝ)) : maskSet v [false] m = m := by
  cases m <;> simp [maskSet]

/-- Within the trust region the prediction is that without a trust region. -/
theorem value_inside (g : Surr d) (l : List ((Fin d → ℝ) × Ext ℝ)) (x : Fin d → ℝ) (hin : ∀ b, g.trust = some b → outside b x = false) :
    ({ g with trust := none } : Surr d).value l x = g.value l x := by
  have key : ∀ m : List (Ext ℝ), (g.st l).trustMask [x] false m = m := by
    intro m
    unfold St.trustMask
    cases ht : g.trust with
    | none => simp [Surr.st, ht]
    | some b => simp [Surr.st, ht, hin b ht, maskSet_false]
  have key' : ∀ m : List (Ext ℝ), (({ g with trust := none } : Surr d).st l).trustMask [x] false m = m := fun m => rfl
  unfold Surr.value St.predict
  simp only [key, key']
  rfl

/-- **C171**, the first point of a batch (or the only one), with the default `clip_factor`, with or without a classifier: if it is within the trust region, the
value returned with it is what the surrogate predicts there, clipped or not. -/
theorem C171_first_partial (g : Surr d) (hk : g.clip = some (11 / 10)) (env : Env (List ((Fin d → ℝ) × Ext ℝ)) (Fin d → ℝ) B ℝ) (nRestarts : ℕ)
    (props : ℕ → ℕ → List (Fin d → ℝ)) (bounds : Option B) (n : ℤ) (s' : List ((Fin d → ℝ) × Ext ℝ)) (o : Out (Fin d → ℝ) ℝ) (outs : List (Out (Fin d → ℝ) ℝ))
    (h : multiAdd (lieCfg g env nRestarts props) bounds n [] = .ok (s', o :: outs)) (hin : ∀ b, g.trust = some b → outside b o.1 = false) :
    o.2.1 = g.value [] o.1 := by
  obtain ⟨-, ss, h0, hss⟩ := C58_batch_partial _ _ _ _ _ _ h
  obtain ⟨⟨_, hgood⟩, -⟩ := hss 0 (by simp)
  have hlie : o.2.1 = g.deepcopy.value (ss 0) o.1 := hgood.lie
  have e : g.deepcopy = { g with trust := none } := by
    unfold Surr.deepcopy
    rw [← hk]
  rw [hlie, h0, e, value_inside g [] o.1 hin]

/-- **C171** is false of any point outside of the trust region which the copy predicts to be finite: minus infinity is what the surrogate predicts there. -/
theorem C171_outside_counterexample (g : Surr d) {b : Fin d → ℝ × ℝ} (hb : g.trust = some b) (env : Env (List ((Fin d → ℝ) × Ext ℝ)) (Fin d → ℝ) B ℝ)
    (nRestarts : ℕ) (props : ℕ → ℕ → List (Fin d → ℝ)) (bounds : Option B) (n : ℤ) (s' : List ((Fin d → ℝ) × Ext ℝ)) (o : Out (Fin d → ℝ) ℝ)
    (outs : List (Out (Fin d → ℝ) ℝ)) (h : multiAdd (lieCfg g env nRestarts props) bounds n [] = .ok (s', o :: outs)) (hout : outside b o.1 = true)
    (w : ℝ) (hw : o.2.1 = .fin w) : g.value [] o.1 ≠ o.2.1 := by
  rw [hw]
  unfold Surr.value St.predict
  have hm : ∀ m : List (Ext ℝ), (g.st []).trustMask [o.1] false m = maskSet .negInf [true] m := by
    intro m
    have h : (g.st []).trust = some b := hb
    have h' : (g.st []).minf = .negInf := rfl
    simp [St.trustMask, h, hout, h']
  have hl : ∀ m : List (Ext ℝ), maskSet .negInf [true] m ≠ [.fin w] := by
    intro m hm
    cases m <;> simp [maskSet] at hm
  simp only [hm]
  intro hcon
  split at hcon
  · rename_i m _ he
    subst hcon
    split at he
    · simp only [Except.ok.injEq, Prod.mk.injEq] at he
      exact hl _ he.1
    · split at he
      · split at he
        · cases he
        · simp only [Except.ok.injEq, Prod.mk.injEq] at he
          exact hl _ he.1
      · split at he
        · cases he
        · split at he
          · simp only [Except.ok.injEq, Prod.mk.injEq, List.map_cons, List.map_nil, List.cons.injEq] at he
            cases he.1.1
          · split at he
            · cases he
            · simp only [Except.ok.injEq, Prod.mk.injEq] at he
              exact hl _ he.1
  · cases hcon

/-- A point within the trust region, and one where the prediction is clipped. -/
example : ∃ s' o, multiAdd (lieCfg (cxB (11 / 10) (some fun _ => (0, 2))) exEnv 1 fun _ _ => []) none 1 [] = .ok (s', [o]) ∧ o.1 = (fun _ => 1) ∧
    o.2.1 = (cxB (11 / 10) (some fun _ => (0, 2))).value [] (fun _ => 1) := by
  have h : ∃ s' o, multiAdd (lieCfg (cxB (11 / 10) (some fun _ => (0, 2))) exEnv 1 fun _ _ => []) none 1 [] = .ok (s', [o]) ∧ o.1 = (fun _ => 1) := by
    simp [multiAdd, serial, rankLoop, optimise, choose, pick, argmin, argminGo, lieCfg, exEnv, Ext.neg, Ext.isFinite, Ext.isNan, Ext.lt]
  obtain ⟨s', o, h1, h2⟩ := h
  refine ⟨s', o, h1, h2, ?_⟩
  rw [← h2]
  refine C171_first_partial _ rfl _ _ _ _ _ _ _ _ h1 ?_
  intro b hb
  cases hb
  rw [h2]
  norm_num [outside, Tools.isInBounds, Ext.ge, Ext.le]

example : (cxB (11 / 10) none).deepcopy.value [] (fun _ => 4) = (cxB (11 / 10) none).value [] (fun _ => 4) :=
  C171_first_partial (cxB (11 / 10) none) rfl _ _ _ _ _ _ _ _ (cxEnv_one _) (by intro b hb; cases hb)

/-- The point 4, outside of the trust region. -/
example : (cxB (11 / 10) (some fun _ => (0, 2))).value [] (fun _ => 4) ≠ (cxB (11 / 10) (some fun _ => (0, 2))).deepcopy.value [] (fun _ => 4) :=
  C171_outside_counterexample _ rfl _ _ _ _ _ _ _ _ (cxEnv_one _) (by norm_num [outside, Tools.isInBounds, Ext.ge, Ext.le]) (11 / 10)
    (by rw [cxB_deepcopy, cxB_value (by norm_num)]; norm_num)

/-! ## Example -/

/-- `cxB` with a classifier: finite where the coordinate is not negative, and within 2 of the best value. -/
noncomputable def exClf : Svm (Fin 1 → ℝ) := ⟨true, false, true, fun x => decide (0 ≤ x 0)⟩

noncomputable def cxS : Surr 1 :=
  { cxB 3 none with all := [(fun _ => 0, .fin 0), (fun _ => 1, .fin 1), (fun _ => -1, .negInf)], clf := some (exClf, .fin 2) }

theorem cxS_ok : Ok cxS where
  kernel := (cxB_ok 3 none).kernel
  scale := one_pos
  noise := one_pos
  chol := (cxB_ok 3 none).chol
  trained := by
    intro c hc
    cases hc
    rfl

theorem cxS_max : Ext.npMax (cxS.all.map Prod.snd) = some (.fin 1) := by
  norm_num [cxS, Ext.npMax, Ext.npMax2, Ext.lt, Ext.isNan]

theorem cxS_train : cxS.train [] = [(fun _ => 0, .fin 0), (fun _ => 1, .fin 1)] := by
  rw [train_below (show cxS.clf = some (exClf, .fin 2) from rfl) cxS_max (by intro q hq; cases hq), List.append_nil]
  simp [cxS, Gpr.isFiniteRaw, Ext.isFinite, Ext.ge, Ext.le, Ext.sub]

theorem cxS_mean (x : Fin 1 → ℝ) : cxS.M.mean (cxS.chol _) (rawOf cxS.noise (cxS.train [])) x = x 0 / 2 := by
  rw [cxS_train]
  have h := cxB_mean 3 none x
  rw [show (cxB 3 none).train [] = [(fun _ => 0, .fin 0), (fun _ => 1, .fin 1)] from by rw [train_none rfl]; rfl] at h
  exact h

theorem cxS_value (x : Fin 1 → ℝ) (hx : x 0 ≤ 2) : cxS.value [] x = if 0 ≤ x 0 then .fin (x 0 / 2) else .negInf := by
  have hne : (((fun _ => 1 : Fin 1 → ℝ)), Ext.fin (1 : ℝ)) ∈ cxS.train [] := by rw [cxS_train]; simp
  have h := value_clf cxS_ok (show cxS.clf = some (exClf, .fin 2) from rfl) rfl rfl [] (List.ne_nil_of_mem hne) x
  have hd : exClf.decide (cxS.M.trX x) = decide (0 ≤ x 0) := rfl
  rw [hd] at h
  rcases h with ⟨h1, h2⟩ | ⟨h1, t, h2, h3⟩
  · have : ¬ 0 ≤ x 0 := by simpa [exClf] using h1
    rw [h2, if_neg this]
  · have h0 : 0 ≤ x 0 := by simpa [exClf] using h1
    have h4 : (1 : ℝ) ≤ t := ceiling_ge hne (by norm_num) h2
    rw [h3, if_pos h0, cxS_mean, min_eq_left (by linarith)]

/-- An optimiser that ends in 1 for the first point of a batch, then in -3, then in 3/2. -/
noncomputable def exEnvClf : Env (List ((Fin 1 → ℝ) × Ext ℝ)) (Fin 1 → ℝ) Unit ℝ :=
  { exEnv with loc := fun l _ _ => (match l with | [] => fun _ => 1 | [_] => fun _ => -3 | _ => fun _ => 3 / 2, .fin (-1)) }

/-- Three points, predicted 1/2, infinite, and 3/4. -/
example : ∃ s' outs, multiAdd (lieCfg cxS exEnvClf 1 fun _ _ => []) none 3 [] = .ok (s', outs) ∧ outs.map (fun o => o.1 0) = [1, -3, 3 / 2] ∧
    outs.map (fun o => o.2.1) = [.fin (1 / 2), .negInf, .fin (3 / 4)] := by
  have h : ∃ s' outs, multiAdd (lieCfg cxS exEnvClf 1 fun _ _ => []) none 3 [] = .ok (s', outs) ∧
      outs.map (fun o => o.1) = [fun _ => 1, fun _ => -3, fun _ => 3 / 2] := by
    simp [multiAdd, serial, rankLoop, optimise, choose, pick, argmin, argminGo, lieCfg, exEnvClf, exEnv, Ext.neg, Ext.isFinite, Ext.isNan, Ext.lt]
  obtain ⟨s', outs, h1, h2⟩ := h
  have hx : ∀ o ∈ outs, o.1 0 ≤ 3 / 2 := by
    intro o ho
    have : o.1 ∈ outs.map (fun o => o.1) := List.mem_map_of_mem ho
    rw [h2] at this
    simp only [List.mem_cons, List.not_mem_nil, or_false] at this
    rcases this with e | e | e <;> rw [e] <;> norm_num
  have h3 := (C171_classifier_partial cxS_ok (by norm_num : (0 : ℝ) ≤ 2) rfl cxS_max rfl rfl (by norm_num) exEnvClf 1 (fun _ _ => []) none 3 s' outs h1 (by
    intro o ho w hw
    have := hx o ho
    rw [cxS_value _ (by linarith)] at hw
    split_ifs at hw
    cases hw
    linarith)).1
  refine ⟨s', outs, h1, ?_, ?_⟩
  · rw [show outs.map (fun o => o.1 0) = (outs.map fun o => o.1).map fun x => x 0 by rw [List.map_map]; rfl, h2]
    simp
  · rw [List.map_congr_left (fun o ho => h3 o ho), show outs.map (fun o => cxS.value [] o.1) = (outs.map fun o => o.1).map (cxS.value []) by
      rw [List.map_map]; rfl, h2]
    simp only [List.map_cons, List.map_nil]
    rw [cxS_value _ (by norm_num), cxS_value _ (by norm_num), cxS_value _ (by norm_num)]
    norm_num

end GPry.PoolGp
