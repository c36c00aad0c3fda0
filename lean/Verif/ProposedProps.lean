import Verif.Proposed
import Verif.NoraSpmdProps
import Verif.AcqPtsProps
import Verif.PredictProps
import Verif.PredictGrad
import Verif.BatchProps
import Verif.PoolEx

set_option linter.all false

namespace GPry.Proposed

open GPry Acq AcqPts Predict NoraSpmd Nora Ranked Spmd

variable {d n : ℕ}

/-! ## The values of NORA -/

theorem sigmaEff_eq_zero (noise std : ℝ) : sigmaEff noise std = 0 ↔ std ^ 2 ≤ noise ^ 2 := by
  unfold sigmaEff
  rw [Real.sqrt_eq_zero (le_max_right _ _)]
  constructor
  · intro h
    have := le_max_left (std ^ 2 - noise ^ 2) 0
    linarith
  · intro h
    exact max_eq_right (by linarith)

theorem sigmaEff_eq {noise std : ℝ} (h : noise ^ 2 < std ^ 2) : sigmaEff noise std = Real.sqrt (std ^ 2 - noise ^ 2) := by
  unfold sigmaEff
  rw [max_eq_left (by linarith)]

theorem f_negInf (k : Kind) {zeta : ℝ} (hz : 0 < zeta) (noise baseline std : ℝ) : k.f zeta noise baseline .negInf std = .negInf := by
  have h2 : (2 * zeta) ≠ 0 := by positivity
  have h3 : 0 < 2 * zeta := by positivity
  unfold Kind.f Kind.logSigma
  simp only [Ext.subFin, mulR, if_neg h2, if_pos h3]
  split_ifs <;> cases k <;> rfl

theorem f_fin (k : Kind) (zeta noise baseline m std : ℝ) :
    (std ^ 2 ≤ noise ^ 2 → k.f zeta noise baseline (.fin m) std = .negInf) ∧
    (noise ^ 2 < std ^ 2 → ∃ v, k.f zeta noise baseline (.fin m) std = .fin v) := by
  unfold Kind.f Kind.logSigma
  constructor
  · intro h
    rw [if_pos ((sigmaEff_eq_zero noise std).2 h)]
    rfl
  · intro h
    rw [if_neg fun hc => absurd ((sigmaEff_eq_zero noise std).1 hc) (not_le.2 h)]
    cases k <;> exact ⟨_, rfl⟩

/-- A point has a value above `-inf` only if its mean is finite and its standard deviation is above the noise. -/
theorem f_above (k : Kind) {zeta : ℝ} (hz : 0 < zeta) (noise baseline : ℝ) (mu : Ext ℝ) (std : ℝ) (hmu : mu = .negInf ∨ ∃ m, mu = .fin m) :
    (toV (k.f zeta noise baseline mu std) ≠ none ∧ toV (k.f zeta noise baseline mu std) ≠ some ⊤) ∧
    (toV (k.f zeta noise baseline mu std) ≠ some ⊥ ↔ mu ≠ .negInf ∧ noise ^ 2 < std ^ 2) := by
  rcases hmu with rfl | ⟨m, rfl⟩
  · rw [f_negInf k hz]
    simp [toV]
  · rcases le_or_gt (std ^ 2) (noise ^ 2) with h | h
    · rw [(f_fin k zeta noise baseline m std).1 h]
      simp [toV, h]
    · obtain ⟨v, hv⟩ := (f_fin k zeta noise baseline m std).2 h
      rw [hv]
      simp [toV, h]

theorem pred_spec (st : St d n) (hfit : st.fitted = true) (hminf : st.minf = .negInf) (hs : 0 ≤ st.M.s) (x : Fin d → ℝ) (m : Ext ℝ) (s : ℝ)
    (h : st.predict [x] false = .ok ([m], [s])) :
    (m = .negInf ↔ st.Infinite x ∨ st.Outside false x) ∧ (m = .negInf ∨ ∃ v, m = .fin v) ∧ 0 ≤ s := by
  obtain ⟨-, -, h3⟩ := C14_predict st hfit hminf hs _ _ _ _ h
  obtain ⟨a, b, c, _⟩ := h3 0 (by simp) (by simp) (by simp)
  simp only [List.getElem_cons_zero] at a b c
  refine ⟨a, ?_, c⟩
  by_cases hm : m = .negInf
  · exact .inl hm
  · obtain ⟨v, hv, _⟩ := b hm
    exact .inr ⟨v, hv⟩

/-- **C164** for NORA: whatever the number of processes, no point that `multi_add` returns is one that the classifier says infinite or that
is outside of the trust region, and the standard deviations predicted at them are above the noise. `X` are the points of the sample, as
in C121. (Missing there and here: a sample of which no point is left after the reweighting, in which case nothing is returned.) -/
theorem C164_nora {p : ℕ} (hp : 0 < p) (k : Kind) {zeta : ℝ} (hz : 0 < zeta) {noise : ℝ} (hno : 0 ≤ noise) (baseline : ℝ)
    (st : St d n) (hfit : st.fitted = true) (hminf : st.minf = .negInf) (hs : 0 ≤ st.M.s)
    (q : Par ℝ EReal) (hpred : ∀ x, st.predict [pt d x] false = .ok ([(q.pred x).1], [(q.pred x).2])) (hacq : ∀ mu std, q.acq mu std = toV (k.f zeta noise baseline mu std))
    (hnan : ∀ pre x y, q.cfg.cond pre x y ≠ none) (hinf : ∀ pre x y, q.cfg.cond pre x y ≠ some ⊤) (hsort : SortsDesc q.cfg.argsortDesc)
    (horder : ∀ l, (q.order l).Perm l) (hn : q.n ≠ 0) (hm : q.m ≠ 0)
    (draw : Fin p → Prog AErr (Option (List (List ℝ) × Option (List ℝ)))) (D : List (List ℝ) × Option (List ℝ))
    (hd : Runs draw fun r => .ok (if r.val = 0 then some D else none)) (s : Fin p → PState ℝ) (i : ℕ) (hi : ∀ r, (s r).i = i)
    (X proposed : List (List ℝ))
    (hX : (sampleNow q.m i q.force = true ∧ X = D.1 ∧ proposed = []) ∨
      (sampleNow q.m i q.force = false ∧ proposed = (s ⟨0, hp⟩).proposed ∧
        ∃ o w, (s ⟨0, hp⟩).mc.orig = some o ∧ Nora.reweight q.pred q.inB o = .ok w ∧ X = w.X)) :
    ∃ (out : List (List ℝ)) (s' : Fin p → PState ℝ),
      Runs (fun r : Fin p => multiAdd p r q (draw r) (s r)) (fun r => .ok (s' r, out, out.map fun x => (q.pred x).1)) ∧
      out.Subperm (candidates X proposed X) ∧
      (∀ x ∈ out, ¬ st.Infinite (pt d x) ∧ ¬ st.Outside false (pt d x) ∧ noise < (q.pred x).2) ∧
      ((∃ x ∈ candidates X proposed X, ¬ st.Infinite (pt d x) ∧ ¬ st.Outside false (pt d x) ∧ noise < (q.pred x).2) → out ≠ []) := by
  have hmu : ∀ x, ((q.pred x).1 = .negInf ↔ st.Infinite (pt d x) ∨ st.Outside false (pt d x)) ∧
      ((q.pred x).1 = .negInf ∨ ∃ m, (q.pred x).1 = .fin m) ∧ 0 ≤ (q.pred x).2 :=
    fun x => pred_spec st hfit hminf hs _ _ _ (hpred x)
  have habove : ∀ x, q.acq (q.pred x).1 (q.pred x).2 ≠ some ⊥ ↔ ¬ st.Infinite (pt d x) ∧ ¬ st.Outside false (pt d x) ∧ noise < (q.pred x).2 := by
    intro x
    rw [hacq, (f_above k hz noise baseline _ _ (hmu x).2.1).2, Ne, (hmu x).1, not_or, sq_lt_sq₀ hno (hmu x).2.2, and_assoc]
  obtain ⟨out, s', h1, _, _, _, _, h6, _, h8, _, h10, _⟩ := C121_multi_add_partial hp q hnan hinf hsort horder
    (fun x => by rw [hacq]; exact (f_above k hz noise baseline _ _ (hmu x).2.1).1) hn hm draw D hd s i hi X proposed hX
  refine ⟨out, s', h1, h6, fun x hx => (habove x).1 (h10 x hx), ?_⟩
  rintro ⟨x, hx, h⟩ rfl
  obtain ⟨y, hy, _⟩ := h8 ⟨x, hx, (habove x).2 h⟩
  cases hy

/-! ## BatchOptimizer -/

/-- What BatchOptimizer has seen if the acquisition function is minus infinity at the point that it returns. -/
structure NoneFound {S P B K : Type} (c : Batch.Cfg S P B K) (b : B) (i : ℕ) (s : S) : Prop where
  /-- none of the proposals of the restarts has a number -/
  props : ∀ j, 0 < j → j < c.nRestarts → ∀ x ∈ c.props i j, (c.env.acq s x).isFinite = false
  /-- nor has the training point from which the first run starts -/
  train : 0 < c.nRestarts → ∀ x, (c.env.train s).reverse.find? (c.env.isIn b) = some x → (c.env.acq s x).isFinite = false

theorem batch_none {S P B K : Type} [Field K] [LinearOrder K] [IsStrictOrderedRing K] (c : Batch.Cfg S P B K) (bounds : Option B)
    (N : ℤ) (copy s' : S) (outs : List (Batch.Out P K))
    (hloc : ∀ s x, (c.env.loc s x (bounds.getD c.env.prior)).2 = (c.env.acq s (c.env.loc s x (bounds.getD c.env.prior)).1).neg)
    (hfin : ∀ s x, (c.env.acq s x).isFinite = true → (c.env.loc s x (bounds.getD c.env.prior)).2.isFinite = true)
    (h : Batch.multiAdd c bounds N copy = .ok (s', outs)) :
    (outs.length : ℤ) = N ∧ ∃ ss : ℕ → S, ss 0 = copy ∧ ∀ (i : ℕ) (hi : i < outs.length),
      outs[i].2.1 = c.predict (ss i) outs[i].1 ∧
      (i + 1 < outs.length → c.append (ss i) outs[i].1 outs[i].2.1 = .ok (ss (i + 1))) ∧
      (c.env.acq (ss i) outs[i].1 = .negInf → NoneFound c (bounds.getD c.env.prior) i (ss i)) := by
  obtain ⟨h1, ss, h2, h3⟩ := Batch.C58_batch_partial c bounds N copy s' outs h
  refine ⟨h1, ss, h2, fun i hi => ?_⟩
  obtain ⟨⟨cands, hg⟩, h4⟩ := h3 i hi
  refine ⟨hg.lie, h4, fun hneg => ?_⟩
  obtain ⟨v, hv, -, -, hv4⟩ := hg.mem
  -- the result of every restart has minus the acquisition value at the point
  have hres : ∀ j q, (Batch.optimise c.env none (ss i) j (some (bounds.getD c.env.prior)) (c.props i j)).2 = .ok q → q.2 = (c.env.acq (ss i) q.1).neg := by
    intro j q hq
    obtain ⟨a, b, e⟩ := Batch.C85_optimise_partial c.env (ss i) none (.inl rfl) j _ _ q hq
    by_cases hj : j = 0
    · obtain ⟨x, rest, -, -, -, rfl⟩ := a hj
      exact hloc _ _
    · by_cases hex : ∃ x ∈ c.props i j, (c.env.acq (ss i) x).isFinite = true
      · obtain ⟨x, -, rfl, -⟩ := b hj hex
        exact hloc _ _
      · obtain ⟨x, -, rfl⟩ := e hj fun x hx => by
          by_contra hc
          exact hex ⟨x, hx, by simpa using hc⟩
        rfl
  have hnth : ∀ q ∈ cands, ∃ j < c.nRestarts, (Batch.optimise c.env none (ss i) j (some (bounds.getD c.env.prior)) (c.props i j)).2 = .ok q := by
    intro q hq
    obtain ⟨m, hm, rfl⟩ := List.getElem_of_mem hq
    have hm' : m < (List.range c.nRestarts).length := by rw [hg.restarts.length_eq]; exact hm
    have := (List.forall₂_iff_get.1 hg.restarts).2 m hm' hm
    simp only [List.get_eq_getElem, List.getElem_range] at this
    exact ⟨m, by simpa using hm', this⟩
  have hall : ∀ j < c.nRestarts, ∃ q ∈ cands, (Batch.optimise c.env none (ss i) j (some (bounds.getD c.env.prior)) (c.props i j)).2 = .ok q := by
    intro j hj
    have hj' : j < (List.range c.nRestarts).length := by simpa using hj
    have hj2 : j < cands.length := by rw [← hg.restarts.length_eq]; exact hj'
    have := (List.forall₂_iff_get.1 hg.restarts).2 j hj' hj2
    simp only [List.get_eq_getElem, List.getElem_range] at this
    exact ⟨_, List.getElem_mem hj2, this⟩
  -- so none of them found a number
  have hnone : ∀ q ∈ cands, q.2.isFinite = false := by
    intro q hq
    by_contra hc
    apply hv4 ⟨q, hq, by simpa using hc⟩
    obtain ⟨j, _, hj⟩ := hnth _ hv
    have hvj := hres j _ hj
    rw [hneg] at hvj
    exact hvj
  constructor
  · intro j hj0 hj x hx
    by_contra hc
    obtain ⟨q, hq, hj2⟩ := hall j hj
    obtain ⟨y, hy, rfl, -⟩ := (Batch.C85_optimise_partial c.env (ss i) none (.inl rfl) j _ _ q hj2).2.1 (by omega) ⟨x, hx, by simpa using hc⟩
    have := hnone _ hq
    rw [hfin _ _ (by simpa using (List.mem_filter.1 (List.mem_of_mem_take hy)).2)] at this
    cases this
  · intro h0 x hx
    by_contra hc
    obtain ⟨q, hq, hj2⟩ := hall 0 h0
    have hq2 : q = c.env.loc (ss i) x (bounds.getD c.env.prior) := by
      unfold Batch.optimise at hj2
      simp only [Option.getD_none, Option.getD_some, if_true, hx] at hj2
      exact (Except.ok.inj hj2).symm
    have := hnone _ hq
    rw [hq2, hfin _ _ (by simpa using hc)] at this
    cases this

/-- **C164** for BatchOptimizer, partial. The acquisition function is minus infinity where the prediction is (LogExp, C80); the local optimiser
returns a point and minus the value of the acquisition function there, which is a number if it is one where it starts. Then a point
predicted to be infinite is returned only if the acquisition function is a number at none of the proposals of any restart, nor at the
last training point within the bounds. The surrogate that predicts is the one to which the points before have been appended. -/
theorem C164_batch_partial {S P B K : Type} [Field K] [LinearOrder K] [IsStrictOrderedRing K] (c : Batch.Cfg S P B K) (bounds : Option B)
    (N : ℤ) (copy s' : S) (outs : List (Batch.Out P K))
    (hacq : ∀ s x, c.predict s x = .negInf → c.env.acq s x = .negInf)
    (hloc : ∀ s x, (c.env.loc s x (bounds.getD c.env.prior)).2 = (c.env.acq s (c.env.loc s x (bounds.getD c.env.prior)).1).neg)
    (hfin : ∀ s x, (c.env.acq s x).isFinite = true → (c.env.loc s x (bounds.getD c.env.prior)).2.isFinite = true)
    (h : Batch.multiAdd c bounds N copy = .ok (s', outs)) :
    (outs.length : ℤ) = N ∧ ∃ ss : ℕ → S, ss 0 = copy ∧ ∀ (i : ℕ) (hi : i < outs.length),
      outs[i].2.1 = c.predict (ss i) outs[i].1 ∧
      (i + 1 < outs.length → c.append (ss i) outs[i].1 outs[i].2.1 = .ok (ss (i + 1))) ∧
      (outs[i].2.1 = .negInf → NoneFound c (bounds.getD c.env.prior) i (ss i)) := by
  obtain ⟨h1, ss, h2, h3⟩ := batch_none c bounds N copy s' outs hloc hfin h
  refine ⟨h1, ss, h2, fun i hi => ⟨(h3 i hi).1, (h3 i hi).2.1, fun hneg => (h3 i hi).2.2 (hacq _ _ ((h3 i hi).1.symm.trans hneg))⟩⟩

/-- Integers, of which the negative ones are predicted to be infinite. The acquisition function is minus infinity there and at the training
points, and the local optimiser stays where it starts. -/
def infCfg (props : ℕ → ℕ → List ℤ) : Batch.Cfg (List ℤ) ℤ Unit ℚ :=
  { env :=
      { isIn := fun _ _ => true, train := id, acq := fun g x => if x < 0 ∨ x ∈ g then .negInf else .fin x,
        loc := fun g x _ => (x, if x < 0 ∨ x ∈ g then .posInf else .fin (-x)), prior := (), nRep := 1 },
    nRestarts := 3, props := props, predict := fun _ x => if x < 0 then .negInf else .fin x, append := fun g x _ => .ok (g ++ [x]) }

theorem infCfg_ok (props : ℕ → ℕ → List ℤ) :
    (∀ s x, (infCfg props).predict s x = .negInf → (infCfg props).env.acq s x = .negInf) ∧
    (∀ s x, ((infCfg props).env.loc s x ()).2 = ((infCfg props).env.acq s ((infCfg props).env.loc s x ()).1).neg) ∧
    (∀ s x, ((infCfg props).env.acq s x).isFinite = true → ((infCfg props).env.loc s x ()).2.isFinite = true) := by
  refine ⟨fun s x h => ?_, fun s x => ?_, fun s x h => ?_⟩
  · simp only [infCfg] at h ⊢
    split_ifs at h with h1
    rw [if_pos (.inl h1)]
  · simp only [infCfg]
    split_ifs <;> rfl
  · simp only [infCfg] at h ⊢
    split_ifs at h ⊢
    · cases h
    · rfl

/-- **C164** is false of BatchOptimizer: if the acquisition function is a number at none of the proposals, the last proposal of the last restart
is returned, also if it is predicted to be infinite, as here. The hypotheses of `C164_batch_partial` are met. -/
theorem C164_batch_counterexample :
    Batch.multiAdd (infCfg fun _ _ => [-1, -2]) none 1 [5] = .ok ([5], [(-2, .negInf, .negInf)]) := by
  decide +kernel

/-- **C164** is false of BatchOptimizer with other acquisition functions: where the prediction is infinite, the standard deviation and the
expected improvement are the number 0, and not minus infinity, so nothing discards the point. -/
theorem C164_other_counterexample (cdf pdf : ℝ → ℝ) (g : Surrogate d (n + 1)) (hfit : g.st.fitted = true) (hminf : g.st.minf = .negInf) (hs : 0 ≤ g.st.M.s)
    (hc : ∀ c, g.st.svm = some c → c.trained = true) (x : Fin d → ℝ) (hx : g.st.Infinite x) (a xi : ℝ) :
    ((Leaf.mu a).eval cdf pdf g [x]).2 = .ok [.negInf] ∧ ((Leaf.std a).eval cdf pdf g [x]).2 = .ok [.fin 0] ∧
    ((Leaf.ei xi).eval cdf pdf g [x]).2 = .ok [.fin 0] := by
  obtain ⟨ms, ss, h⟩ := C14_returns g.st hc [x] false
  obtain ⟨h1, h2, h3⟩ := C14_predict g.st hfit hminf hs _ _ _ _ h
  match ms, ss, h1, h2 with
  | [m], [s], _, _ =>
    obtain ⟨a, _, _, c, _⟩ := h3 0 (by simp) (by simp) (by simp)
    simp only [List.getElem_cons_zero] at a c
    have hm := a.2 (.inl hx)
    have hs0 := c hx
    subst hm hs0
    simp [Leaf.eval, noGrad, h, Except.map, eiValues, maskGet, scatter]

/-! ## The values are those of the acquisition function -/

theorem f_eq_logExp1 {zeta : ℝ} (hz : 0 < zeta) (noise baseline : ℝ) (mu : Ext ℝ) (std : ℝ) (hmu : mu = .negInf ∨ ∃ m, mu = .fin m) :
    Kind.linear.f zeta noise baseline mu std = logExp1 zeta noise baseline mu std := by
  rcases hmu with rfl | ⟨m, rfl⟩
  · rw [f_negInf _ hz]; rfl
  · rcases le_or_gt (std ^ 2) (noise ^ 2) with h | h
    · rw [(f_fin _ zeta noise baseline m std).1 h]
      simp only [logExp1, if_neg (not_lt.2 h)]
    · have h0 : sigmaEff noise std ≠ 0 := fun hc => absurd ((sigmaEff_eq_zero noise std).1 hc) (not_le.2 h)
      simp only [Kind.f, Kind.logSigma, if_neg h0, logExp1, if_pos h, Ext.subFin, mulR, add, Ext.neg, Ext.sub, sub_neg_eq_add]
      rw [sigmaEff_eq h]

theorem f_eq_nonlinear1 {zeta : ℝ} (hz : 0 < zeta) (noise baseline : ℝ) (mu : Ext ℝ) (std : ℝ) (hmu : mu = .negInf ∨ ∃ m, mu = .fin m) :
    Kind.nonlinear.f zeta noise baseline mu std = nonlinear1 zeta noise baseline mu std := by
  rcases hmu with rfl | ⟨m, rfl⟩
  · rw [f_negInf _ hz]; rfl
  · rcases le_or_gt (std ^ 2) (noise ^ 2) with h | h
    · rw [(f_fin _ zeta noise baseline m std).1 h]
      simp only [nonlinear1, if_neg (not_lt.2 h)]
    · have h0 : sigmaEff noise std ≠ 0 := fun hc => absurd ((sigmaEff_eq_zero noise std).1 hc) (not_le.2 h)
      have h1 := C81_nonlinear m std baseline noise zeta (by linarith)
      unfold nonlinearF at h1
      simp only [nonlinear1, if_pos h, ← h1]
      simp only [Kind.f, Kind.logSigma, if_neg h0, Ext.subFin, mulR, add, Ext.neg, Ext.sub, sub_neg_eq_add]
      rfl

/-- **C165**, partial: at any points, the values with which NORA ranks are those of the acquisition function, if the noise level of the surrogate is a number and
the acquisition function has no `sigma_n` of its own, and `zeta` is positive. Missing: the other cases, see the counterexamples. -/
theorem C165_values_partial (k : Kind) {zeta : ℝ} (hz : 0 < zeta) (cdf pdf : ℝ → ℝ) (g : Surrogate d n) (hfit : g.st.fitted = true)
    (hminf : g.st.minf = .negInf) (hs : 0 ≤ g.st.M.s) (noise : ℝ) (hno : g.noise = .scalar noise) (X : List (Fin d → ℝ))
    (mus : List (Ext ℝ)) (stds : List ℝ) (h : g.st.predict X false = .ok (mus, stds)) :
    noraValues k zeta g.yMax g.noise mus stds = ((k.leaf zeta none).eval cdf pdf g X).2 := by
  obtain ⟨h1, h2, h3⟩ := C14_predict g.st hfit hminf hs _ _ _ _ h
  have hl : mus.length = stds.length := by rw [h1, h2]
  have hmu : ∀ mu ∈ mus, mu = .negInf ∨ ∃ m, mu = .fin m := by
    intro mu hmu
    obtain ⟨i, hi, rfl⟩ := List.getElem_of_mem hmu
    obtain ⟨_, b, _⟩ := h3 i (by omega) hi (by omega)
    by_cases hc : mus[i] = .negInf
    · exact .inl hc
    · obtain ⟨v, hv, _⟩ := b hc
      exact .inr ⟨v, hv⟩
  have hzip : ∀ (F G : Ext ℝ → ℝ → Ext ℝ), (∀ mu std, (mu = .negInf ∨ ∃ m, mu = .fin m) → F mu std = G mu std) →
      ∀ (a : List (Ext ℝ)) (b : List ℝ), (∀ mu ∈ a, mu = .negInf ∨ ∃ m, mu = .fin m) → List.zipWith F a b = List.zipWith G a b := by
    intro F G hFG a
    induction a with
    | nil => intro b _; simp
    | cons x a ih =>
      intro b hb
      cases b with
      | nil => simp
      | cons y b =>
        rw [List.zipWith_cons_cons, List.zipWith_cons_cons, hFG x y (hb x (by simp)), ih b fun mu hm => hb mu (by simp [hm])]
  rw [hno]
  cases k with
  | linear =>
    simp only [noraValues, Kind.leaf, Leaf.eval, noGrad, h, Except.map, hno, noiseVar]
    rw [logExpValues_eq _ _ _ _ _ hl, hzip _ _ (f_eq_logExp1 hz noise g.yMax) mus stds hmu]
  | nonlinear =>
    simp only [noraValues, Kind.leaf, Leaf.eval, noGrad, h, Except.map, hno, noiseVar]
    rw [nonlinearValues_eq _ _ _ _ _ hl, hzip _ _ (f_eq_nonlinear1 hz noise g.yMax) mus stds hmu]

/-- **C165** is false if the acquisition function is given its own noise level `sigma_n`: NORA ranks with the one of the surrogate. So at a point
whose standard deviation is between the two, one is minus infinity (the point is excluded) and the other one is a number. -/
theorem C165_sigma_n_counterexample (k : Kind) {zeta : ℝ} (hz : 0 < zeta) (cdf pdf : ℝ → ℝ) (g : Surrogate d n) (noise s : ℝ) (hno : g.noise = .scalar noise)
    (x : Fin d → ℝ) (m std : ℝ) (h : g.st.predict [x] false = .ok ([.fin m], [std])) :
    (noise ^ 2 < std ^ 2 → std ^ 2 ≤ s ^ 2 → ((k.leaf zeta (some s)).eval cdf pdf g [x]).2 = .ok [.negInf] ∧
      ∃ v, noraValues k zeta g.yMax g.noise [.fin m] [std] = .ok [.fin v]) ∧
    (s ^ 2 < std ^ 2 → std ^ 2 ≤ noise ^ 2 → (∃ v, ((k.leaf zeta (some s)).eval cdf pdf g [x]).2 = .ok [.fin v]) ∧
      noraValues k zeta g.yMax g.noise [.fin m] [std] = .ok [.negInf]) := by
  have hcall : ((k.leaf zeta (some s)).eval cdf pdf g [x]).2 = .ok [k.f zeta s g.yMax (.fin m) std] := by
    cases k with
    | linear =>
      simp only [Kind.leaf, Leaf.eval, noGrad, h, Except.map, noiseVar]
      rw [logExpValues_eq _ _ _ _ _ rfl, f_eq_logExp1 hz _ _ _ _ (.inr ⟨m, rfl⟩)]
      rfl
    | nonlinear =>
      simp only [Kind.leaf, Leaf.eval, noGrad, h, Except.map, noiseVar]
      rw [nonlinearValues_eq _ _ _ _ _ rfl, f_eq_nonlinear1 hz _ _ _ _ (.inr ⟨m, rfl⟩)]
      rfl
  have hn : noraValues k zeta g.yMax g.noise [.fin m] [std] = .ok [k.f zeta noise g.yMax (.fin m) std] := by rw [hno]; rfl
  rw [hcall, hn]
  refine ⟨fun h1 h2 => ⟨by rw [(f_fin k zeta s g.yMax m std).1 h2], ?_⟩, fun h1 h2 => ⟨?_, by rw [(f_fin k zeta noise g.yMax m std).1 h2]⟩⟩
  · obtain ⟨v, hv⟩ := (f_fin k zeta noise g.yMax m std).2 h1
    exact ⟨v, by rw [hv]⟩
  · obtain ⟨v, hv⟩ := (f_fin k zeta s g.yMax m std).2 h1
    exact ⟨v, by rw [hv]⟩

/-- **C165** is false if every training point has its own noise level: NORA raises, unless the process has as many points of the sample as there are training points (or there
is only one of either), though the acquisition function can be called. -/
theorem C165_array_counterexample (k : Kind) (zeta : ℝ) (cdf pdf : ℝ → ℝ) (g : Surrogate d n) (ns : List ℝ) (hno : g.noise = .array ns) (X : List (Fin d → ℝ))
    (mus : List (Ext ℝ)) (stds : List ℝ) (h : g.st.predict X false = .ok (mus, stds))
    (h1 : ns.length ≠ 1) (h2 : stds.length ≠ 1) (h3 : ns.length ≠ stds.length) :
    noraValues k zeta g.yMax g.noise mus stds = .error .valueError ∧ ∃ vs, ((k.leaf zeta none).eval cdf pdf g X).2 = .ok vs := by
  constructor
  · rw [hno]
    unfold noraValues
    dsimp only
    rw [if_neg h3]
    split
    · exact absurd rfl h1
    · exact absurd rfl h2
    · rfl
  · cases k <;> (simp only [Kind.leaf, Leaf.eval, noGrad, h, Except.map]; exact ⟨_, rfl⟩)

/-- **C165**: a single noise level in an array is the same as the number. -/
theorem C165_one_noise_level (k : Kind) (zeta baseline noise : ℝ) (mus : List (Ext ℝ)) (stds : List ℝ) :
    noraValues k zeta baseline (.array [noise]) mus stds = noraValues k zeta baseline (.scalar noise) mus stds := by
  unfold noraValues
  dsimp only
  split
  · rename_i h
    obtain ⟨s, rfl⟩ := List.length_eq_one_iff.1 h.symm
    cases mus <;> simp
  · rfl

/-- **C165**: the acquisition values are compared in the pool as the numbers of numpy are, infinities and NaN included. -/
theorem C165_comparisons (a b : Ext ℝ) : Ranked.geV (toV a) (toV b) = a.ge b := by
  cases a <;> cases b <;> simp [toV, Ranked.geV, Ext.ge, Ext.le]

/-- **C165** is false with `zeta = 0`: where the prediction is infinite NORA has NaN (which the pool refuses), the acquisition function has minus infinity. -/
theorem C165_zeta_counterexample (k : Kind) (cdf pdf : ℝ → ℝ) (g : Surrogate d n) (noise std : ℝ) (hno : g.noise = .scalar noise)
    (x : Fin d → ℝ) (h : g.st.predict [x] false = .ok ([.negInf], [std])) :
    noraValues k 0 g.yMax g.noise [.negInf] [std] = .ok [.nan] ∧ ((k.leaf 0 none).eval cdf pdf g [x]).2 = .ok [.negInf] := by
  constructor
  · rw [hno]
    simp [noraValues, Kind.f, Ext.subFin, mulR, add, Ext.sub]
  · cases k with
    | linear =>
      simp only [Kind.leaf, Leaf.eval, noGrad, h, Except.map]
      rw [logExpValues_eq _ _ _ _ _ rfl]
      rfl
    | nonlinear =>
      simp only [Kind.leaf, Leaf.eval, noGrad, h, Except.map]
      rw [nonlinearValues_eq _ _ _ _ _ rfl]
      rfl

/-! ## Examples -/

/-- A sample of which one point is said infinite by the classifier, and another one is outside of the trust region (`exPred`). -/
noncomputable def exPar : Par ℝ EReal where
  n := 3
  m := 3
  force := false
  pred x := match exPred.predict [pt 1 x] false with
    | .ok ([m], [s]) => (m, s)
    | _ => (.nan, 0)
  inB := none
  acq mu std := toV (Kind.linear.f 1 0 1 mu std)
  cfg := { cond := fun _ _ _ => some 0, argsortDesc := exSort }
  order := List.reverse
  x0 := [0]
  a0 := 1

theorem exPar_pred (x : List ℝ) : exPred.predict [pt 1 x] false = .ok ([(exPar.pred x).1], [(exPar.pred x).2]) := by
  obtain ⟨ms, ss, h⟩ := C14_returns exPred (by rintro c hc; cases hc; rfl) [pt 1 x] false
  obtain ⟨h1, h2, -⟩ := C14_predict exPred rfl rfl (by simp [exPred, exClip]) _ _ _ _ h
  match ms, ss, h1, h2 with
  | [m], [s], _, _ => simp only [exPar, h]

example : ∃ (out : List (List ℝ)) (s' : Fin 2 → PState ℝ),
    Runs (fun r : Fin 2 => multiAdd 2 r exPar (.ret (if r.val = 0 then some ([[0], [1], [3], [5]], none) else none))
      { i := 0, mc := { orig := none, re := none, isRe := false }, proposed := [] })
      (fun r => .ok (s' r, out, out.map fun x => (exPar.pred x).1)) ∧ ∀ x ∈ out, x = [1] ∨ x = [3] := by
  obtain ⟨out, s', h1, h2, h3, h4⟩ := C164_nora (p := 2) (by norm_num) .linear (zeta := 1) one_pos (noise := 0) le_rfl 1 exPred rfl rfl
    (by simp [exPred, exClip]) exPar exPar_pred (fun _ _ => rfl) (by simp [exPar]) (by simp [exPar]) exSort_sorts
    (fun l => List.reverse_perm l) (by decide) (by decide)
    (fun r => .ret (if r.val = 0 then some ([[0], [1], [3], [5]], none) else none)) ([[0], [1], [3], [5]], none) (Runs.ret _)
    (fun _ => { i := 0, mc := { orig := none, re := none, isRe := false }, proposed := [] }) 0 (fun _ => rfl) [[0], [1], [3], [5]] []
    (.inl ⟨rfl, rfl, rfl⟩)
  refine ⟨out, s', h1, fun x hx => ?_⟩
  have hx2 : x ∈ [[(0 : ℝ)], [1], [3], [5]] := by simpa only [candidates, List.length_nil, if_true] using h2.subset hx
  obtain ⟨ha, hb, -⟩ := h3 x hx
  simp only [List.mem_cons, List.not_mem_nil, or_false] at hx2
  rcases hx2 with rfl | rfl | rfl | rfl
  · exact absurd ⟨_, rfl, rfl, Or.inr (by simp [exPred, exClip, pt])⟩ ha
  · exact .inl rfl
  · exact .inr rfl
  · exact absurd ⟨rfl, _, rfl, 0, Or.inr (by simp [pt]; norm_num)⟩ hb

/-- Two points, where some of the proposals are predicted to be infinite: they are not returned. -/
theorem exInf : Batch.multiAdd (infCfg fun i j => [-1, 2 * i + j, 5]) none 2 [5] = .ok ([5, 2], [(2, .fin 2, .fin 2), (4, .fin 4, .fin 4)]) := by
  decide +kernel

example : ∃ ss : ℕ → List ℤ, ss 0 = [5] ∧ ss 1 = [5, 2] := by
  obtain ⟨-, ss, h0, H⟩ := C164_batch_partial (infCfg fun i j => [-1, 2 * i + j, 5]) none 2 [5] _ _ (infCfg_ok _).1 (infCfg_ok _).2.1 (infCfg_ok _).2.2 exInf
  have := (H 0 (by simp)).2.1 (by simp)
  rw [h0] at this
  exact ⟨ss, h0, (Except.ok.inj this).symm⟩

example : ∀ x ∈ [-1, (-2 : ℤ)], ((infCfg fun _ _ => [-1, -2]).env.acq [5] x).isFinite = false := by
  obtain ⟨-, ss, h0, H⟩ := C164_batch_partial (infCfg fun _ _ => [-1, -2]) none 1 [5] _ _ (infCfg_ok _).1 (infCfg_ok _).2.1 (infCfg_ok _).2.2 C164_batch_counterexample
  have := ((H 0 (by simp)).2.2 rfl).props 1 (by norm_num) (by decide)
  rw [h0] at this
  exact this

noncomputable def exSur (noise : Noise) : Surrogate 1 1 := { st := exPred, noise := noise, yMax := 1, gradOk := fun _ => true }

example (cdf pdf : ℝ → ℝ) : ((Leaf.ei 0).eval cdf pdf (exSur (.scalar 0)) [fun _ => 0]).2 = .ok [.fin 0] :=
  (C164_other_counterexample cdf pdf (exSur (.scalar 0)) rfl rfl (by simp [exSur, exPred, exClip]) (by rintro c hc; cases hc; rfl) (fun _ => 0)
    ⟨_, rfl, rfl, Or.inr (by simp [exSur, exPred, exClip])⟩ 1 0).2.2

/-- Four points, two of which have no value. -/
example (cdf pdf : ℝ → ℝ) : ∃ mus stds, exPred.predict [fun _ => 0, fun _ => 1, fun _ => 3, fun _ => 5] false = .ok (mus, stds) ∧
    noraValues .linear 1 1 (.scalar (1 / 10)) mus stds =
      ((Leaf.logExp 1 none).eval cdf pdf (exSur (.scalar (1 / 10))) [fun _ => 0, fun _ => 1, fun _ => 3, fun _ => 5]).2 := by
  obtain ⟨ms, ss, h⟩ := C14_returns exPred (by rintro c hc; cases hc; rfl) [fun _ => 0, fun _ => 1, fun _ => 3, fun _ => 5] false
  exact ⟨ms, ss, h, C165_values_partial .linear one_pos cdf pdf (exSur (.scalar (1 / 10))) rfl rfl (by simp [exSur, exPred, exClip]) _ rfl _ ms ss h⟩

theorem exClip_rawVar : (exClip.M.data exClip.R).rawVar exClip.chol exClip.M.k (fun _ => 1) = 1 / 2 := by
  have hK : (exClip.M.data exClip.R).kmat exClip.M.k 0 0 = 2 := by
    simp [Gp.Data.kmat, exClip, Gp.Model.data, Kernels.KExpr.eval]; norm_num
  have hV : ((exClip.M.data exClip.R).update exClip.chol exClip.M.k).V = Matrix.of fun _ _ => (Real.sqrt 2)⁻¹ := by
    show (chol1 _)⁻¹ = _
    apply Matrix.inv_eq_left_inv
    ext i j
    fin_cases i; fin_cases j
    have h2 : Real.sqrt 2 ≠ 0 := by positivity
    simp only [Fin.zero_eta, Fin.isValue, Matrix.mul_apply, Finset.univ_unique, Fin.default_eq_zero, Matrix.of_apply, Finset.sum_singleton, chol1, Matrix.one_apply_eq]
    rw [hK]
    exact inv_mul_cancel₀ h2
  unfold Gp.Data.rawVar
  dsimp only
  rw [hV]
  have hk : (exClip.M.data exClip.R).kTrans exClip.M.k (fun _ => 1) 0 = 1 := by
    simp [Gp.Data.kTrans, exClip, Gp.Model.data, Kernels.KExpr.eval]
  have hkk : exClip.M.k (fun _ => 1) (fun _ => 1) = 1 := by simp [exClip, Kernels.KExpr.eval]
  rw [hkk]
  simp only [dotProduct, Matrix.mulVec, Finset.univ_unique, Fin.default_eq_zero, Finset.sum_singleton, Matrix.of_apply, hk]
  have h2 : Real.sqrt 2 * Real.sqrt 2 = 2 := Real.mul_self_sqrt (by norm_num)
  have : (Real.sqrt 2)⁻¹ * 1 * ((Real.sqrt 2)⁻¹ * 1) = (Real.sqrt 2 * Real.sqrt 2)⁻¹ := by rw [mul_inv]; ring
  rw [this, h2]
  norm_num

/-- The point 1 with `sigma_n = 1`: the acquisition function excludes it, NORA does not. -/
example (cdf pdf : ℝ → ℝ) : ((Leaf.logExp 1 (some 1)).eval cdf pdf (exSur (.scalar 0)) [fun _ => 1]).2 = .ok [.negInf] ∧
    ∃ m std v, exPred.predict [fun _ => 1] false = .ok ([m], [std]) ∧ noraValues .linear 1 1 (.scalar 0) [m] [std] = .ok [.fin v] := by
  have hnI : ¬ exPred.Infinite (fun _ => 1) := by
    rintro ⟨c, hc, _, h2⟩
    cases hc
    simp [exPred, exClip] at h2
  have hnO : ¬ exPred.Outside false (fun _ => 1) := by
    rintro ⟨_, b, hb, j, hj⟩
    cases hb
    rcases hj with hj | hj <;> linarith
  obtain ⟨ms, ss, h⟩ := C14_returns exPred (by rintro c hc; cases hc; rfl) [fun _ => 1] false
  obtain ⟨h1, h2, h3⟩ := C14_predict exPred rfl rfl (by simp [exPred, exClip]) _ _ _ _ h
  match ms, ss, h1, h2 with
  | [m], [s], _, _ =>
    obtain ⟨a, b, c, _, e⟩ := h3 0 (by simp) (by simp) (by simp)
    simp only [List.getElem_cons_zero] at a b c e
    obtain ⟨v, rfl, _⟩ := b fun hc => (a.1 hc).elim hnI hnO
    have hstd : s ^ 2 = 1 / 2 := by
      rw [e hnI]
      have hv : exPred.M.std exPred.chol exPred.R (fun _ => 1) = (exClip.M.data exClip.R).std exClip.chol exClip.M.k (fun _ => 1) * 1 := rfl
      rw [hv]
      unfold Gp.Data.std
      dsimp only
      rw [exClip_rawVar, if_neg (by norm_num), mul_one, Real.sq_sqrt (by norm_num)]
    obtain ⟨h4, w, h5⟩ := (C165_sigma_n_counterexample .linear one_pos cdf pdf (exSur (.scalar 0)) 0 1 rfl (fun _ => 1) v s h).1 (by rw [hstd]; norm_num) (by rw [hstd]; norm_num)
    exact ⟨h4, _, s, w, h, h5⟩

/-- Four points and two noise levels. -/
example (cdf pdf : ℝ → ℝ) : ∃ mus stds, exPred.predict [fun _ => 0, fun _ => 1, fun _ => 3, fun _ => 5] false = .ok (mus, stds) ∧
    noraValues .linear 1 1 (.array [1, 2]) mus stds = .error .valueError := by
  obtain ⟨ms, ss, h⟩ := C14_returns exPred (by rintro c hc; cases hc; rfl) [fun _ => 0, fun _ => 1, fun _ => 3, fun _ => 5] false
  obtain ⟨h1, h2, -⟩ := C14_predict exPred rfl rfl (by simp [exPred, exClip]) _ _ _ _ h
  exact ⟨ms, ss, h, (C165_array_counterexample .linear 1 cdf pdf (exSur (.array [1, 2])) [1, 2] rfl _ ms ss h (by simp) (by rw [h2]; simp) (by rw [h2]; simp)).1⟩

/-- One noise level in an array, two points of the sample. -/
example : noraValues .linear 1 0 (.array [0]) [.fin 1, .negInf] [1, 1] = .ok [.fin 2, .negInf] := by
  rw [C165_one_noise_level]
  simp [noraValues, Kind.f, Kind.logSigma, sigmaEff, Ext.subFin, mulR, add, Ext.sub, Ext.neg]

/-- `inf >= -inf`, and NaN is not comparable. -/
example : Ranked.geV (toV .posInf) (toV .negInf) = true ∧ Ranked.geV (toV .nan) (toV .negInf) = false := by
  rw [C165_comparisons, C165_comparisons]
  simp [Ext.ge, Ext.le]

/-- The point 0 is said infinite. -/
example : ∃ std, noraValues .nonlinear 0 1 (.scalar 0) [.negInf] [std] = .ok [.nan] := by
  obtain ⟨ms, ss, h⟩ := C14_returns exPred (by rintro c hc; cases hc; rfl) [fun _ => 0] false
  obtain ⟨h1, h2, h3⟩ := C14_predict exPred rfl rfl (by simp [exPred, exClip]) _ _ _ _ h
  match ms, ss, h1, h2 with
  | [m], [s], _, _ =>
    have hm : m = .negInf := (h3 0 (by simp) (by simp) (by simp)).1.2 (.inl ⟨_, rfl, rfl, Or.inr (by simp [exPred, exClip])⟩)
    subst hm
    exact ⟨s, (C165_zeta_counterexample .nonlinear id id (exSur (.scalar 0)) 0 s rfl (fun _ => 0) h).1⟩

end GPry.Proposed
