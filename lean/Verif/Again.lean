import Verif.ProposedProps
import Verif.GpProps
import Verif.GprProps

set_option linter.all false

/-!
# Points of the training set are not proposed again

No definitions of the code. NORA and BatchOptimizer with LogExp (or NonlinearLogExp) and a single noise level, exact arithmetic.
-/

namespace GPry.Again

open GPry Acq AcqPts Predict NoraSpmd Nora Ranked Spmd Proposed Matrix

variable {d n : ℕ}

/-- The standard deviation that is predicted at a training point is not above its noise level. -/
theorem std_train (st : St d n) (hfit : st.fitted = true) (hminf : st.minf = .negInf) (hs : 0 < st.M.s) (hk : ∀ x y, st.M.k x y = st.M.k y x)
    (hp : ((st.M.data st.R).kmat st.M.k).PosDef) (hc : Gp.IsFactor ((st.M.data st.R).kmat st.M.k) (st.chol ((st.M.data st.R).kmat st.M.k)))
    (i : Fin n) (ign : Bool) (m : Ext ℝ) (s : ℝ) (h : st.predict [st.R.X i] ign = .ok ([m], [s])) :
    0 ≤ s ∧ s ≤ |st.R.noise i| ∧ (m = .negInf ∨ ∃ v, m = .fin v) := by
  obtain ⟨-, -, h3⟩ := C14_predict st hfit hminf hs.le _ _ _ _ h
  obtain ⟨_, b, c, e, f⟩ := h3 0 (by simp) (by simp) (by simp)
  simp only [List.getElem_cons_zero] at b c e f
  refine ⟨c, ?_, ?_⟩
  · by_cases hI : st.Infinite (st.R.X i)
    · rw [e hI]; exact abs_nonneg _
    · rw [f hI]; exact (Gp.C18_std st.chol st.M st.R hs hk hp hc i).1
  · by_cases hm : m = .negInf
    · exact .inl hm
    · obtain ⟨v, hv, _⟩ := b hm
      exact .inr ⟨v, hv⟩

/-- **C166**: with a single noise level, `LogExp` and `NonlinearLogExp` (without `sigma_n`) are minus infinity at every point of the training set. -/
theorem C166_acquisition (k : Proposed.Kind) {zeta : ℝ} (hz : 0 < zeta) (cdf pdf : ℝ → ℝ) (g : Surrogate d n) (hfit : g.st.fitted = true)
    (hminf : g.st.minf = .negInf) (hs : 0 < g.st.M.s) (hk : ∀ x y, g.st.M.k x y = g.st.M.k y x) (hp : ((g.st.M.data g.st.R).kmat g.st.M.k).PosDef)
    (hc : Gp.IsFactor ((g.st.M.data g.st.R).kmat g.st.M.k) (g.st.chol ((g.st.M.data g.st.R).kmat g.st.M.k))) (noise : ℝ)
    (hno : g.noise = .scalar noise) (hR : ∀ i, g.st.R.noise i = noise) (i : Fin n) (hok : ∀ c, g.st.svm = some c → c.trained = true) :
    ((k.leaf zeta none).eval cdf pdf g [g.st.R.X i]).2 = .ok [.negInf] := by
  obtain ⟨n, rfl⟩ : ∃ m, n = m + 1 := ⟨n - 1, by have := i.isLt; omega⟩
  obtain ⟨ms, ss, h⟩ := C14_returns g.st hok [g.st.R.X i] false
  obtain ⟨h1, h2, -⟩ := C14_predict g.st hfit hminf hs.le _ _ _ _ h
  match ms, ss, h1, h2 with
  | [m], [s], _, _ =>
    obtain ⟨h3, h4, h5⟩ := std_train g.st hfit hminf hs hk hp hc i false m s h
    rw [← C165_values_partial k hz cdf pdf g hfit hminf hs.le noise hno _ _ _ h, hno]
    have hsq : s ^ 2 ≤ noise ^ 2 := by
      rw [hR] at h4
      rw [← sq_abs noise]
      exact pow_le_pow_left₀ h3 h4 2
    show Except.ok [k.f zeta noise g.yMax m s] = _
    rcases h5 with rfl | ⟨v, rfl⟩
    · rw [f_negInf k hz]
    · rw [(f_fin k zeta noise g.yMax v s).1 hsq]

/-- **C166**: no point that NORA proposes is in the training set, whatever the number of processes and the sample. (The hypotheses are those of C164.) -/
theorem C166_nora {p : ℕ} (hp : 0 < p) (k : Proposed.Kind) {zeta : ℝ} (hz : 0 < zeta) {noise : ℝ} (hno : 0 ≤ noise) (baseline : ℝ)
    (st : St d n) (hfit : st.fitted = true) (hminf : st.minf = .negInf) (hs : 0 < st.M.s) (hk : ∀ x y, st.M.k x y = st.M.k y x)
    (hpd : ((st.M.data st.R).kmat st.M.k).PosDef) (hc : Gp.IsFactor ((st.M.data st.R).kmat st.M.k) (st.chol ((st.M.data st.R).kmat st.M.k)))
    (hR : ∀ i, st.R.noise i = noise)
    (q : Par ℝ EReal) (hpred : ∀ x, st.predict [pt d x] false = .ok ([(q.pred x).1], [(q.pred x).2]))
    (hacq : ∀ mu std, q.acq mu std = toV (k.f zeta noise baseline mu std))
    (hnan : ∀ pre x y, q.cfg.cond pre x y ≠ none) (hinf : ∀ pre x y, q.cfg.cond pre x y ≠ some ⊤) (hsort : SortsDesc q.cfg.argsortDesc)
    (horder : ∀ l, (q.order l).Perm l) (hn : q.n ≠ 0) (hm : q.m ≠ 0)
    (draw : Fin p → Prog AErr (Option (List (List ℝ) × Option (List ℝ)))) (D : List (List ℝ) × Option (List ℝ))
    (hd : Runs draw fun r => .ok (if r.val = 0 then some D else none)) (s : Fin p → PState ℝ) (i : ℕ) (hi : ∀ r, (s r).i = i)
    (X proposed : List (List ℝ))
    (hX : (sampleNow q.m i q.force = true ∧ X = D.1 ∧ proposed = []) ∨
      (sampleNow q.m i q.force = false ∧ proposed = (s ⟨0, hp⟩).proposed ∧
        ∃ o w, (s ⟨0, hp⟩).mc.orig = some o ∧ Nora.reweight q.pred q.inB o = .ok w ∧ X = w.X)) :
    ∃ (out : List (List ℝ)) (s' : Fin p → PState ℝ),
      Runs (fun r : Fin p => multiAdd p r q (draw r) (s r)) (fun r => .ok (s' r, out, out.map fun x => (q.pred x).1)) ∧
      out.Subperm (candidates X proposed X) ∧ ∀ x ∈ out, ∀ j, pt d x ≠ st.R.X j := by
  obtain ⟨out, s', h1, h2, h3, -⟩ := C164_nora hp k hz hno baseline st hfit hminf hs.le q hpred hacq hnan hinf hsort horder hn hm draw D hd s i hi X
    proposed hX
  refine ⟨out, s', h1, h2, fun x hx j hj => ?_⟩
  have h4 := hpred x
  rw [hj] at h4
  have h5 := (std_train st hfit hminf hs hk hpd hc j false _ _ h4).2.1
  rw [hR, abs_of_nonneg hno] at h5
  exact absurd (h3 x hx).2.2 (not_lt.2 h5)

/-! ## BatchOptimizer -/

section Batch
variable {P PX Θ K B B' : Type} [Field K] [LinearOrder K] [IsStrictOrderedRing K]
open Gpr Copy Batch

theorem appendLie_data {cfg : Gpr.Cfg P PX Θ K} (hcfg : CfgOk cfg) (region : Option (List P → List (Ext K) → B)) (w w' : Pair P PX Θ K B) (x : P) (lie : Ext K)
    (hl : Good lie) (hi : Inv cfg w.copy.st) (h : appendLie cfg region w x lie = .ok w') :
    Inv cfg w'.copy.st ∧ w'.copy.st.xAll = w.copy.st.xAll ++ [x] ∧ w'.copy.st.yAll = w.copy.st.yAll ++ [lie] := by
  unfold appendLie at h
  cases ha : Gpr.append cfg w.copy.st (lieCall w.copy.st x lie) with
  | mk st' e =>
    have hg : cfg.useSvm = true → ∀ y ∈ (lieCall w.copy.st x lie).ys, Good y := by
      intro _ y hy
      have : y = lie := by simpa [lieCall, Call.ys] using hy
      rw [this]; exact hl
    have ho : (w.copy.append cfg region (lieCall w.copy.st x lie)).1.st = st' ∧ (w.copy.append cfg region (lieCall w.copy.st x lie)).2 = e := by
      unfold Obj.append
      rw [ha]
      cases e with
      | some e => exact ⟨rfl, rfl⟩
      | none =>
        dsimp only
        split
        · exact ⟨rfl, rfl⟩
        · split <;> exact ⟨rfl, rfl⟩
    split at h
    · cases h
    · rename_i hn
      cases h
      rw [ho.2] at hn
      subst hn
      have hst : (w.append cfg region true (lieCall w.copy.st x lie)).copy.st = st' := by
        simp only [Pair.append, if_true]
        exact ho.1
      rw [hst]
      have hg' : cfg.useSvm = true → ∀ y ∈ w.copy.st.yAll ++ (lieCall w.copy.st x lie).ys, Good y := by
        intro hu y hy
        rcases List.mem_append.1 hy with hy | hy
        · exact hi.2.1 hu y hy
        · exact hg hu y hy
      obtain ⟨h1, h2, -⟩ := append_data hcfg hg' hi.1 ha
      exact ⟨inv_step hcfg hg hi ha, h1, h2⟩

/-- **C166** for BatchOptimizer, partial. The acquisition function is minus infinity at the training points (`C166_acquisition`), the local optimiser is
as in C164. Then the `i`-th point of a batch is none of the training points, nor one of the points of the batch before it, unless the
acquisition function is a number nowhere where it was evaluated; of those points are meant the ones classified as finite together with all the values, lies included. Missing: the other ones. -/
theorem C166_batch_partial {cfg : Gpr.Cfg P PX Θ K} (hcfg : CfgOk cfg) (region : Option (List P → List (Ext K) → B)) (c : Batch.Cfg (Pair P PX Θ K B) P B' K)
    (happ : c.append = appendLie cfg region) (htr : c.env.train = fun w => w.copy.st.xTrain) (bounds : Option B') (N : ℤ) (w0 w' : Pair P PX Θ K B)
    (outs : List (Batch.Out P K)) (hi0 : Inv cfg w0.copy.st) (hgood : ∀ w x, Good (c.predict w x))
    (hacq : ∀ w, ∀ x ∈ c.env.train w, c.env.acq w x = .negInf)
    (hloc : ∀ s x, (c.env.loc s x (bounds.getD c.env.prior)).2 = (c.env.acq s (c.env.loc s x (bounds.getD c.env.prior)).1).neg)
    (hfin : ∀ s x, (c.env.acq s x).isFinite = true → (c.env.loc s x (bounds.getD c.env.prior)).2.isFinite = true)
    (h : Batch.multiAdd c bounds N w0 = .ok (w', outs)) :
    ∃ ss : ℕ → Pair P PX Θ K B, ss 0 = w0 ∧ ∀ (i : ℕ) (hi : i < outs.length),
      (ss i).copy.st.xAll = w0.copy.st.xAll ++ (outs.take i).map (·.1) ∧ (ss i).copy.st.yAll = w0.copy.st.yAll ++ (outs.take i).map (·.2.1) ∧
      ∀ (x : P) (y : Ext K), (x, y) ∈ (w0.copy.st.xAll ++ (outs.take i).map (·.1)).zip (w0.copy.st.yAll ++ (outs.take i).map (·.2.1)) →
        KeptBy cfg (w0.copy.st.yAll ++ (outs.take i).map (·.2.1)) y → outs[i].1 = x → NoneFound c (bounds.getD c.env.prior) i (ss i) := by
  obtain ⟨-, ss, h2, h3⟩ := batch_none c bounds N w0 w' outs hloc hfin h
  have hinv : ∀ i, i < outs.length → Inv cfg (ss i).copy.st ∧ (ss i).copy.st.xAll = w0.copy.st.xAll ++ (outs.take i).map (·.1) ∧
      (ss i).copy.st.yAll = w0.copy.st.yAll ++ (outs.take i).map (·.2.1) := by
    intro i
    induction i with
    | zero => intro _; rw [h2]; exact ⟨hi0, by simp, by simp⟩
    | succ i ih =>
      intro hi
      obtain ⟨a, b, e⟩ := ih (by omega)
      obtain ⟨hlie, hap, -⟩ := h3 i (by omega)
      have hap := hap hi
      rw [happ] at hap
      obtain ⟨a', b', e'⟩ := appendLie_data hcfg region _ _ _ _ (by rw [hlie]; exact hgood _ _) a hap
      refine ⟨a', ?_, ?_⟩
      · rw [b', b, List.take_succ_eq_append_getElem (by omega), List.map_append]
        simp
      · rw [e', e, List.take_succ_eq_append_getElem (by omega), List.map_append]
        simp
  refine ⟨ss, h2, fun i hi => ⟨(hinv i hi).2.1, (hinv i hi).2.2, fun x y hxy hkept hx => ?_⟩⟩
  obtain ⟨⟨-, -, hxt, -⟩, hxa, hya⟩ := hinv i hi
  apply (h3 i hi).2.2
  apply hacq
  rw [htr, hx]
  show x ∈ (ss i).copy.st.xTrain
  rw [hxt, hxa, hya]
  refine List.mem_map.2 ⟨(x, y), ?_, rfl⟩
  unfold specTrain
  rw [List.mem_filter]
  exact ⟨hxy, by simpa using hkept⟩

/-- Restarts end in point 7 if it is not in the training set; predictions are very low everywhere. -/
def lowCfg (lie : Ext ℚ) : Batch.Cfg (Copy.Pair ℕ Unit ℕ ℚ Unit) ℕ Unit ℚ :=
  { env :=
      { isIn := fun _ _ => true, train := fun w => w.copy.st.xTrain, acq := fun w x => if x = 7 ∧ 7 ∉ w.copy.st.xTrain then .fin 1 else .negInf,
        loc := fun w _ _ => (7, if 7 ∉ w.copy.st.xTrain then .fin (-1) else .posInf), prior := (), nRep := 0 },
    nRestarts := 2, props := fun _ _ => [7, 8], predict := fun _ _ => lie, append := appendLie Gpr.exCfgY none }

theorem lowCfg_ok (lie : Ext ℚ) :
    (∀ w, ∀ x ∈ (lowCfg lie).env.train w, (lowCfg lie).env.acq w x = .negInf) ∧
    (∀ s x, ((lowCfg lie).env.loc s x ()).2 = ((lowCfg lie).env.acq s ((lowCfg lie).env.loc s x ()).1).neg) ∧
    (∀ s x, ((lowCfg lie).env.acq s x).isFinite = true → ((lowCfg lie).env.loc s x ()).2.isFinite = true) := by
  refine ⟨fun w x hx => ?_, fun s x => ?_, fun s x h => ?_⟩
  · simp only [lowCfg] at hx ⊢
    rw [if_neg]
    rintro ⟨rfl, h⟩
    exact h hx
  · simp only [lowCfg, true_and]
    split_ifs <;> rfl
  · simp only [lowCfg] at h ⊢
    split_ifs at h with h1
    · rw [if_pos h1.2]; rfl
    · cases h

/-- **C166** is false of BatchOptimizer if the lie is so low that it is classified as infinite: it does not enter the training set of the copy, and the
same point is proposed again. -/
theorem C166_lie_counterexample : (match Batch.multiAdd (lowCfg (.fin (-1000))) none 2 ⟨surStart, surStart.deepcopy⟩ with
    | .ok (w, outs) => decide (w.copy.st.xTrain = [1, 3] ∧ outs = [(7, .fin (-1000), .fin 1), (7, .fin (-1000), .fin 1)])
    | .error _ => false) = true := by
  decide +kernel

/-- With a higher lie, the second point is another one (the acquisition function is a number nowhere). -/
theorem exLow : (match Batch.multiAdd (lowCfg (.fin 0)) none 2 ⟨surStart, surStart.deepcopy⟩ with
    | .ok (w, outs) => decide (w.copy.st.xTrain = [1, 3, 7] ∧ outs = [(7, .fin 0, .fin 1), (8, .fin 0, .negInf)])
    | .error _ => false) = true := by
  decide +kernel

end Batch

/-! ## Other noise levels -/

/-- Two training points with noise levels 3 and 0. -/
noncomputable def exTwo : St 1 2 :=
  { fitted := true, prior := fun _ => 1, M := ⟨fun x y => open Classical in if x = y then 100 else 0, id, 0, 1⟩,
    chol := fun K => diagonal fun i => Real.sqrt (K i i), R := ⟨fun i _ => i.val, fun _ => 0, ![3, 0]⟩,
    svm := none, trust := none, clip := none, minf := .negInf }

theorem exTwo_kmat : (exTwo.M.data exTwo.R).kmat exTwo.M.k = diagonal ![109, 100] := by
  have h01 : (fun _ : Fin 1 => ((0 : ℕ) : ℝ)) ≠ fun _ => ((1 : ℕ) : ℝ) := fun h => by simpa using congrFun h 0
  ext i j
  fin_cases i <;> fin_cases j
  · simp [Gp.Data.kmat, exTwo, Gp.Model.data]; norm_num
  · simpa [Gp.Data.kmat, exTwo, Gp.Model.data] using h01
  · simpa [Gp.Data.kmat, exTwo, Gp.Model.data] using h01.symm
  · simp [Gp.Data.kmat, exTwo, Gp.Model.data]

theorem exTwo_factor : Gp.IsFactor ((exTwo.M.data exTwo.R).kmat exTwo.M.k) (exTwo.chol ((exTwo.M.data exTwo.R).kmat exTwo.M.k)) := by
  rw [exTwo_kmat]
  constructor
  · show IsUnit (diagonal fun i => Real.sqrt ((diagonal ![(109 : ℝ), 100]) i i))
    rw [isUnit_iff_isUnit_det, det_diagonal, isUnit_iff_ne_zero, Fin.prod_univ_two]
    have h1 : (0 : ℝ) < Real.sqrt 109 := by positivity
    have h2 : (0 : ℝ) < Real.sqrt 100 := by positivity
    simpa using ⟨h1.ne', h2.ne'⟩
  · show (diagonal fun i => Real.sqrt ((diagonal ![(109 : ℝ), 100]) i i)) * (diagonal fun i => Real.sqrt ((diagonal ![(109 : ℝ), 100]) i i))ᵀ = _
    rw [diagonal_transpose, diagonal_mul_diagonal]
    congr 1
    funext i
    fin_cases i <;> simp

theorem exTwo_std : exTwo.M.std exTwo.chol exTwo.R (exTwo.R.X 0) ^ 2 = 900 / 109 := by
  have hk : ∀ x y, exTwo.M.k x y = exTwo.M.k y x := by
    intro x y
    simp only [exTwo, eq_comm]
  have h := Gp.rawVar_train hk exTwo_factor 0
  have hinv : ((exTwo.M.data exTwo.R).kmat exTwo.M.k)⁻¹ 0 0 = 1 / 109 := by
    refine (congrFun (congrFun (inv_eq_left_inv (A := (exTwo.M.data exTwo.R).kmat exTwo.M.k) (B := diagonal ![1 / 109, 1 / 100]) ?_) 0) 0).trans (by simp)
    rw [exTwo_kmat, diagonal_mul_diagonal, ← diagonal_one]
    congr 1
    funext i
    fin_cases i <;> norm_num
  have hvar : (exTwo.M.data exTwo.R).var 0 = 9 := by simp [Gp.Model.data, exTwo]; norm_num
  rw [hinv, hvar] at h
  have hr : (exTwo.M.data exTwo.R).rawVar exTwo.chol exTwo.M.k (exTwo.M.trX (exTwo.R.X 0)) = 900 / 109 := by
    rw [show exTwo.M.trX (exTwo.R.X 0) = (exTwo.M.data exTwo.R).X 0 from rfl, h]; norm_num
  unfold Gp.Model.std Gp.Data.std
  dsimp only
  rw [hr, if_neg (by norm_num), show exTwo.M.s = 1 from rfl, mul_one, Real.sq_sqrt (by norm_num)]

/-- **C166** is false with one noise level per training point: the acquisition function subtracts their mean, so that it can be a number at a training point
with a noise level above the mean. -/
theorem C166_individual_counterexample (cdf pdf : ℝ → ℝ) : ∃ g : Surrogate 1 2, g.st = exTwo ∧ g.noise = .array (List.ofFn exTwo.R.noise) ∧
    ∃ v, ((Leaf.logExp 1 none).eval cdf pdf g [exTwo.R.X 0]).2 = .ok [.fin v] := by
  refine ⟨⟨exTwo, .array (List.ofFn exTwo.R.noise), 0, fun _ => true⟩, rfl, rfl, ?_⟩
  obtain ⟨ms, ss, h⟩ := C14_returns exTwo (by rintro c hc; cases hc) [exTwo.R.X 0] false
  obtain ⟨h1, h2, h3⟩ := C14_predict exTwo rfl rfl (by simp [exTwo]) _ _ _ _ h
  match ms, ss, h1, h2 with
  | [m], [s], _, _ =>
    obtain ⟨a, b, _, _, e⟩ := h3 0 (by simp) (by simp) (by simp)
    simp only [List.getElem_cons_zero] at a b e
    have hI : ¬ exTwo.Infinite (exTwo.R.X 0) := by rintro ⟨c, hc, _⟩; cases hc
    have hO : ¬ exTwo.Outside false (exTwo.R.X 0) := by rintro ⟨_, b, hb, _⟩; cases hb
    obtain ⟨v, rfl, _⟩ := b fun hc => (a.1 hc).elim hI hO
    have hs : s ^ 2 = 900 / 109 := by rw [e hI, exTwo_std]
    have hn : noiseVar none (.array (List.ofFn exTwo.R.noise)) = 3 / 2 := by
      simp [noiseVar, exTwo]
    have hlt : (3 / 2 : ℝ) ^ 2 < s ^ 2 := by rw [hs]; norm_num
    simp only [Leaf.eval, noGrad, h, Except.map, hn]
    rw [logExpValues_eq _ _ _ _ _ rfl]
    simp only [List.zipWith_cons_cons, List.zipWith_nil_left, logExp1, if_pos hlt]
    exact ⟨_, rfl⟩

/-- **C166** is false if the acquisition function is given a `sigma_n` below the noise level: the example has one training point, 1, with noise level 1. -/
theorem C166_sigma_n_counterexample (cdf pdf : ℝ → ℝ) : ∃ v,
    ((Leaf.logExp 1 (some 0)).eval cdf pdf ⟨exClip, .scalar 1, 1, fun _ => true⟩ [exClip.R.X 0]).2 = .ok [.fin v] := by
  obtain ⟨ms, ss, h⟩ := C14_returns exClip (by rintro c hc; cases hc) [exClip.R.X 0] false
  obtain ⟨h1, h2, h3⟩ := C14_predict exClip rfl rfl (by simp [exClip]) _ _ _ _ h
  match ms, ss, h1, h2 with
  | [m], [s], _, _ =>
    obtain ⟨a, b, _, _, e⟩ := h3 0 (by simp) (by simp) (by simp)
    simp only [List.getElem_cons_zero] at a b e
    have hI : ¬ exClip.Infinite (exClip.R.X 0) := by rintro ⟨c, hc, _⟩; cases hc
    have hO : ¬ exClip.Outside false (exClip.R.X 0) := by rintro ⟨_, b, hb, _⟩; cases hb
    obtain ⟨v, rfl, _⟩ := b fun hc => (a.1 hc).elim hI hO
    have hs : s ^ 2 = 1 / 2 := by
      rw [e hI]
      have hv : exClip.M.std exClip.chol exClip.R (exClip.R.X 0) = (exClip.M.data exClip.R).std exClip.chol exClip.M.k (fun _ => 1) * 1 := rfl
      rw [hv]
      unfold Gp.Data.std
      dsimp only
      rw [exClip_rawVar, if_neg (by norm_num), mul_one, Real.sq_sqrt (by norm_num)]
    have hlt : (0 : ℝ) ^ 2 < s ^ 2 := by rw [hs]; norm_num
    simp only [Leaf.eval, noGrad, h, Except.map, noiseVar]
    rw [logExpValues_eq _ _ _ _ _ rfl]
    simp only [List.zipWith_cons_cons, List.zipWith_nil_left, logExp1, if_pos hlt]
    exact ⟨_, rfl⟩

/-! ## Examples -/

theorem exClip_kmat : (exClip.M.data exClip.R).kmat exClip.M.k 0 0 = 2 := by
  simp [Gp.Data.kmat, exClip, Gp.Model.data, Kernels.KExpr.eval]; norm_num

theorem exClip_posDef : ((exClip.M.data exClip.R).kmat exClip.M.k).PosDef := by
  have : (exClip.M.data exClip.R).kmat exClip.M.k = diagonal fun _ => 2 := by
    ext i j
    fin_cases i; fin_cases j
    simpa using exClip_kmat
  rw [this]
  exact PosDef.diagonal fun _ => by norm_num

theorem exClip_symm (x y : Fin 1 → ℝ) : exClip.M.k x y = exClip.M.k y x := by
  simp [exClip, Kernels.KExpr.eval, mul_comm]

theorem exClip_factor : Gp.IsFactor ((exClip.M.data exClip.R).kmat exClip.M.k) (exClip.chol ((exClip.M.data exClip.R).kmat exClip.M.k)) :=
  chol1_isFactor (by rw [exClip_kmat]; norm_num)

/-- At the training point 1, which has noise level 1. -/
example (cdf pdf : ℝ → ℝ) : ((Leaf.logExp 1 none).eval cdf pdf ⟨exClip, .scalar 1, 1, fun _ => true⟩ [fun _ => 1]).2 = .ok [.negInf] :=
  C166_acquisition .linear one_pos cdf pdf ⟨exClip, .scalar 1, 1, fun _ => true⟩ rfl rfl (by simp [exClip]) exClip_symm exClip_posDef exClip_factor 1 rfl
    (fun _ => rfl) 0 (by rintro c hc; cases hc)

/-- NORA with a sample of which one point is in the training set. -/
noncomputable def exPar : Par ℝ EReal where
  n := 3
  m := 3
  force := false
  pred x := match exClip.predict [pt 1 x] false with
    | .ok ([m], [s]) => (m, s)
    | _ => (.nan, 0)
  inB := none
  acq mu std := toV (Proposed.Kind.linear.f 1 1 1 mu std)
  cfg := { cond := fun _ _ _ => some 0, argsortDesc := exSort }
  order := List.reverse
  x0 := [0]
  a0 := 1

theorem exPar_pred (x : List ℝ) : exClip.predict [pt 1 x] false = .ok ([(exPar.pred x).1], [(exPar.pred x).2]) := by
  obtain ⟨ms, ss, h⟩ := C14_returns exClip (by rintro c hc; cases hc) [pt 1 x] false
  obtain ⟨h1, h2, -⟩ := C14_predict exClip rfl rfl (by simp [exClip]) _ _ _ _ h
  match ms, ss, h1, h2 with
  | [m], [s], _, _ => simp only [exPar, h]

example : ∃ (out : List (List ℝ)) (s' : Fin 2 → PState ℝ),
    Runs (fun r : Fin 2 => multiAdd 2 r exPar (.ret (if r.val = 0 then some ([[1], [5]], none) else none))
      { i := 0, mc := { orig := none, re := none, isRe := false }, proposed := [] })
      (fun r => .ok (s' r, out, out.map fun x => (exPar.pred x).1)) ∧ ∀ x ∈ out, x = [5] := by
  obtain ⟨out, s', h1, h2, h3⟩ := C166_nora (p := 2) (by norm_num) .linear (zeta := 1) one_pos (noise := 1) zero_le_one 1 exClip rfl rfl
    (by simp [exClip]) exClip_symm exClip_posDef exClip_factor (fun _ => rfl) exPar exPar_pred (fun _ _ => rfl) (by simp [exPar]) (by simp [exPar]) exSort_sorts
    (fun l => List.reverse_perm l) (by decide) (by decide)
    (fun r => .ret (if r.val = 0 then some ([[1], [5]], none) else none)) ([[1], [5]], none) (Runs.ret _)
    (fun _ => { i := 0, mc := { orig := none, re := none, isRe := false }, proposed := [] }) 0 (fun _ => rfl) [[1], [5]] []
    (.inl ⟨rfl, rfl, rfl⟩)
  refine ⟨out, s', h1, fun x hx => ?_⟩
  have hx2 : x ∈ [[(1 : ℝ)], [5]] := by simpa only [candidates, List.length_nil, if_true] using h2.subset hx
  simp only [List.mem_cons, List.not_mem_nil, or_false] at hx2
  rcases hx2 with rfl | rfl
  · exact absurd (by funext j; simp [pt, exClip, Fin.fin_one_eq_zero j]) (h3 _ hx 0)
  · rfl

section BatchExample

theorem surStart_inv : Gpr.Inv Gpr.exCfgY Batch.surStart.deepcopy.st := by
  have hg : Gpr.exCfgY.useSvm = true → ∀ y ∈ Gpr.callA.ys, Gpr.Good y := by
    intro _ y hy
    have hy : y ∈ [Ext.fin (1 : ℚ), .negInf, .fin 2] := hy
    simp only [List.mem_cons, List.not_mem_nil, or_false] at hy
    rcases hy with rfl | rfl | rfl <;> simp [Gpr.Good]
  have hn : (Gpr.append Gpr.exCfgY Gpr.ex0 Gpr.callA).2.isSome = false := by decide +kernel
  cases h : Gpr.append Gpr.exCfgY Gpr.ex0 Gpr.callA with
  | mk st e =>
    rw [h] at hn
    cases e with
    | some e => cases hn
    | none =>
      have : Batch.surStart.deepcopy.st = st := by
        show ((Gpr.run Gpr.exCfgY Gpr.ex0 [Gpr.callA]).getD Gpr.ex0) = st
        simp [Gpr.run, h]
      rw [this]
      exact Gpr.inv_step (cfg := Gpr.exCfgY) (Gpr.exCfg_ok true) hg (Gpr.inv_init _ _ _ _) h

/-- The training points are 1 and 3, and the threshold is 20 below the best value. Neither is the first point of a batch, but if nothing has a number. -/
example (w' : Copy.Pair ℕ Unit ℕ ℚ Unit) (outs : List (Batch.Out ℕ ℚ)) (h : Batch.multiAdd (lowCfg (.fin 0)) none 2 ⟨Batch.surStart, Batch.surStart.deepcopy⟩ = .ok (w', outs))
    (hl : 0 < outs.length) (h3 : outs[0].1 = 3) : Proposed.NoneFound (lowCfg (.fin 0)) () 0 ⟨Batch.surStart, Batch.surStart.deepcopy⟩ := by
  obtain ⟨ss, h0, h2⟩ := C166_batch_partial (cfg := Gpr.exCfgY) (Gpr.exCfg_ok true) none (lowCfg (.fin 0)) rfl rfl none 2 _ w' outs surStart_inv
    (fun _ _ => by simp [lowCfg, Gpr.Good]) (lowCfg_ok _).1 (lowCfg_ok _).2.1 (lowCfg_ok _).2.2 h
  rw [← h0]
  have hy : Batch.surStart.deepcopy.st.yAll = [.fin 1, .negInf, .fin 2] := by decide +kernel
  have hx : Batch.surStart.deepcopy.st.xAll = [1, 2, 3] := by decide +kernel
  refine (h2 0 hl).2.2 3 (.fin 2) (by simp [hx, hy]) (fun _ => ⟨2, rfl, .inl fun w hw => ?_⟩) h3
  simp only [List.take_zero, List.map_nil, List.append_nil, hy, List.mem_cons, Ext.fin.injEq, reduceCtorEq, List.not_mem_nil, or_false, false_or] at hw
  refine .inr ⟨20, rfl, ?_⟩
  rcases hw with rfl | rfl <;> norm_num

end BatchExample

end GPry.Again
