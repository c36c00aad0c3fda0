import Verif.PoolGpProps

set_option linter.all false

/-!
# The ranked pool with a Gaussian process and a classifier

No definitions of the code. With a classifier, C167 holds for lies that are not above the best value of the training set (`C167_classifier_counterexample`
has one that is).
-/

namespace GPry.PoolGp

open GPry Acq AcqPts Predict NoraSpmd Nora Ranked Spmd Proposed Gp Matrix Kernels

variable {d : ℕ}

/-- Values that are minus infinity or numbers not above `v`. -/
def Below (v : ℝ) (lies : List ((Fin d → ℝ) × Ext ℝ)) : Prop := ∀ q ∈ lies, q.2 = .negInf ∨ ∃ w, q.2 = .fin w ∧ w ≤ v

theorem foldl_below (v : ℝ) (l : List (Ext ℝ)) (h : ∀ y ∈ l, y = .negInf ∨ ∃ w, y = .fin w ∧ w ≤ v) : l.foldl Ext.npMax2 (.fin v) = .fin v := by
  induction l with
  | nil => rfl
  | cons y l ih =>
    have hy : Ext.npMax2 (.fin v) y = .fin v := by
      rcases h y (by simp) with rfl | ⟨w, rfl, hw⟩
      · simp [Ext.npMax2, Ext.isNan, Ext.lt]
      · simp [Ext.npMax2, Ext.isNan, Ext.lt, not_lt.2 hw]
    rw [List.foldl_cons, hy]
    exact ih fun z hz => h z (by simp [hz])

/-- Lies that are not above the best value leave it what it is. -/
theorem npMax_below {v : ℝ} {all lies : List ((Fin d → ℝ) × Ext ℝ)} (hv : Ext.npMax (all.map Prod.snd) = some (.fin v)) (hb : Below v lies) :
    Ext.npMax ((all ++ lies).map Prod.snd) = some (.fin v) := by
  rw [List.map_append]
  cases h : all.map Prod.snd with
  | nil => rw [h] at hv; cases hv
  | cons y ys =>
    rw [h] at hv
    simp only [Ext.npMax, Option.some.injEq] at hv
    simp only [List.cons_append, Ext.npMax, List.foldl_append, hv, Option.some.injEq]
    refine foldl_below v _ fun z hz => ?_
    obtain ⟨q, hq, rfl⟩ := List.mem_map.1 hz
    exact hb q hq

/-- The training set with such lies: what is not further than the threshold below the best value, in the order in which it was added. -/
theorem train_below {g : Surr d} {c : Svm (Fin d → ℝ)} {T : Ext ℝ} (hc : g.clf = some (c, T)) {v : ℝ}
    (hv : Ext.npMax (g.all.map Prod.snd) = some (.fin v)) {lies : List ((Fin d → ℝ) × Ext ℝ)} (hb : Below v lies) :
    g.train lies = (g.all ++ lies).filter fun q => Gpr.isFiniteRaw T (.fin v) q.2 := by
  unfold Surr.train
  have e : ∀ y, g.isFin ((g.all ++ lies).map Prod.snd) y = Gpr.isFiniteRaw T (.fin v) y := by
    intro y
    unfold Surr.isFin
    rw [hc, npMax_below hv hb]
    rfl
  have e0 : ∀ y, g.isFin (g.all.map Prod.snd) y = Gpr.isFiniteRaw T (.fin v) y := by
    intro y
    unfold Surr.isFin
    rw [hc, hv]
    rfl
  simp only [e, e0]
  split_ifs with h
  · rfl
  · rw [List.filter_append]
    have : lies.filter (fun q => Gpr.isFiniteRaw T (.fin v) q.2) = [] := by
      rw [List.filter_eq_nil_iff]
      intro q hq hf
      exact h (List.any_eq_true.2 ⟨q, hq, hf⟩)
    rw [this, List.append_nil]

/-- **C167** with a classifier (partial: the lies are not above the best value): one more lie does not increase the acquisition function anywhere. -/
theorem C167_shrinks_classifier_partial {g : Surr d} (hg : Ok g) {c : Svm (Fin d → ℝ)} {T : Ext ℝ} (hc : g.clf = some (c, T)) {v : ℝ}
    (hv : Ext.npMax (g.all.map Prod.snd) = some (.fin v)) (k : Proposed.Kind) {zeta : ℝ} (hz : 0 < zeta) (baseline : ℝ)
    (pre : List (List ℝ × Ext ℝ)) (q : List ℝ × Ext ℝ) (hb : Below v ((pre ++ [q]).map fun q => (pt d q.1, q.2))) (x : List ℝ) (y : Ext ℝ) :
    leV (g.cond k zeta baseline (pre ++ [q]) x y) (g.cond k zeta baseline pre x y) = true := by
  have hb1 : Below v (pre.map fun q => (pt d q.1, q.2)) := fun r hr => hb r (by rw [List.map_append]; exact List.mem_append_left _ hr)
  by_cases hy : y = .negInf ∨ ∃ m, y = .fin m
  · obtain ⟨s, h, hs⟩ := predictStd_one hg (pre.map fun q => (pt d q.1, q.2)) (pt d x)
    obtain ⟨s', h', hs'⟩ := predictStd_one hg ((pre ++ [q]).map fun q => (pt d q.1, q.2)) (pt d x)
    rw [cond_fin k zeta baseline h hy, cond_fin k zeta baseline h' hy]
    obtain ⟨e, he⟩ : ∃ e, g.train ((pre ++ [q]).map fun q => (pt d q.1, q.2)) = g.train (pre.map fun q => (pt d q.1, q.2)) ++ e := by
      rw [train_below hc hv hb, train_below hc hv hb1, List.map_append, ← List.append_assoc, List.filter_append]
      exact ⟨_, rfl⟩
    have h0 : 0 ≤ s' := by
      rw [hs']; split_ifs
      · exact le_rfl
      · exact std_nonneg hg _ _
    refine f_mono k hz _ _ _ hy h0 ?_
    rw [hs, hs']
    split_ifs
    · exact le_rfl
    · rw [he]; exact std_append hg _ _ _
  · rw [cond_other g k zeta baseline _ x hy, cond_other g k zeta baseline _ x hy]
    simp [leV, geV]

/-- **C167** with a classifier (partial: the lies are not above the best value): at the points of the training set and at the lies within the threshold of
the best value the acquisition function is minus infinity. -/
theorem C167_lie_classifier_partial {g : Surr d} (hg : Ok g) {c : Svm (Fin d → ℝ)} {t v : ℝ} (hc : g.clf = some (c, .fin t))
    (hv : Ext.npMax (g.all.map Prod.snd) = some (.fin v)) (k : Proposed.Kind) {zeta : ℝ} (hz : 0 < zeta) (baseline : ℝ)
    (lies : List (List ℝ × Ext ℝ)) (hb : Below v (lies.map fun q => (pt d q.1, q.2))) (x : List ℝ) (w : ℝ) (hw : v - t ≤ w)
    (hx : (pt d x, Ext.fin w) ∈ g.all ++ lies.map fun q => (pt d q.1, q.2)) (y : Ext ℝ) : g.cond k zeta baseline lies x y = some ⊥ := by
  apply C167_lie hg k hz
  rw [train_below hc hv hb]
  refine List.mem_map.2 ⟨(pt d x, .fin w), List.mem_filter.2 ⟨hx, ?_⟩, rfl⟩
  simp [Gpr.isFiniteRaw, Ext.ge, Ext.le, Ext.sub, Ext.isFinite]
  linarith

/-! ## Examples -/

theorem cxG_max : Ext.npMax (cxG.all.map Prod.snd) = some (.fin 1) := by
  norm_num [cxG, Ext.npMax, Ext.npMax2, Ext.lt, Ext.isNan]

/-- A lie at (20, 0) with a value of 1/2, below the best one: the value at (0, 2) does not increase. -/
example : leV (cxG.cond .linear 1 1 [([20, 0], .fin (1 / 2))] [0, 2] (.fin 0)) (cxG.cond .linear 1 1 [] [0, 2] (.fin 0)) = true :=
  C167_shrinks_classifier_partial cxG_ok rfl cxG_max .linear one_pos 1 [] ([20, 0], .fin (1 / 2))
    (by intro q hq; simp only [List.nil_append, List.map_cons, List.map_nil, List.mem_singleton] at hq; subst hq; exact .inr ⟨1 / 2, rfl, by norm_num⟩) _ _

/-- The point of the lie is not taken again. -/
example (y : Ext ℝ) : cxG.cond .nonlinear 1 1 [([20, 0], .fin (1 / 2))] [20, 0] y = some ⊥ :=
  C167_lie_classifier_partial cxG_ok rfl cxG_max .nonlinear one_pos 1 [([20, 0], .fin (1 / 2))]
    (by intro q hq; simp only [List.map_cons, List.map_nil, List.mem_singleton] at hq; subst hq; exact .inr ⟨1 / 2, rfl, by norm_num⟩)
    [20, 0] (1 / 2) (by norm_num) (by simp) y

end GPry.PoolGp
