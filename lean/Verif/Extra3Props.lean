import Verif.RunProps
import Verif.AcqProps
import Verif.GprAttrProps
import Verif.ConvInitProps
import Verif.KernelHypProps
import Verif.ConvMcProps
import Verif.AcqObjProps
import Verif.SlicesProps

set_option linter.all false

/-!
# Refusals and special cases, continued (C51, C54, C59, C82, C99, C107, C108, C110, C111, C115)
-/

namespace GPry.Run

variable {P PX Θ K : Type*} [Field K] [LinearOrder K] [IsStrictOrderedRing K]

/-- **C54**: what counts as finite when the initial points are drawn: with a classifier, values not further than the threshold below the largest
one; without, all finite values. -/
theorem C54_counted (cfg : Gpr.Cfg P PX Θ K) (top t : K) (y : Ext K) :
    (cfg.useSvm = true → cfg.thr = .fin t → (initIsFinite cfg (.fin top) y = true ↔ ∃ v, y = .fin v ∧ top - v ≤ t)) ∧
    (cfg.useSvm = false → (initIsFinite cfg (.fin top) y = true ↔ ∃ v, y = .fin v)) := by
  unfold initIsFinite
  refine ⟨fun h1 h2 => ?_, fun h1 => ?_⟩
  · rw [if_pos h1, h2]
    cases y <;> simp [Gpr.isFiniteRaw, Ext.sub, Ext.neg, Ext.ge, Ext.le, Ext.isFinite]
    rw [add_comm]
  · rw [h1]
    cases y <;> simp [Ext.sub, Ext.isFinite]

example (cfg : Gpr.Cfg ℕ ℕ ℕ ℚ) (h : cfg.useSvm = true) (ht : cfg.thr = .fin 20) :
    initIsFinite cfg (.fin 3) (.fin (-17)) = true ∧ initIsFinite cfg (.fin 3) (.fin (-18)) = false := by
  refine ⟨((C54_counted cfg 3 20 _).1 h ht).2 ⟨-17, rfl, by norm_num⟩, ?_⟩
  by_contra hc
  rw [Bool.not_eq_false] at hc
  obtain ⟨v, hv, hle⟩ := ((C54_counted cfg 3 20 _).1 h ht).1 hc
  cases hv
  norm_num at hle

end GPry.Run

namespace GPry.Acq

/-- **C59**: the vector set on a single acquisition function must not be longer than its number of free hyperparameters: `ValueError`, and no
hyperparameter changes. -/
theorem C59_too_long (i : ℕ) (h : Heap) (t : List ℝ) (ht : (freeValues (h i)).length < t.length) :
    (TExpr.leaf i).setTheta h t = (h, some .valueError) := by
  have key : ∀ (l : List Hp) (t : List ℝ), (freeValues l).length < t.length → ∃ l' a r, setLeaf l t = .ok (l', a :: r) := by
    intro l
    induction l with
    | nil =>
      intro t ht
      cases t with
      | nil => simp [freeValues] at ht
      | cons a r => exact ⟨_, _, _, rfl⟩
    | cons p l ih =>
      intro t ht
      obtain ⟨v, f⟩ := p
      cases f with
      | true =>
        obtain ⟨l', a, r, e⟩ := ih t (by simpa [freeValues] using ht)
        exact ⟨_, _, _, by simp only [setLeaf]; rw [e]⟩
      | false =>
        cases t with
        | nil => simp at ht
        | cons b t =>
          obtain ⟨l', a, r, e⟩ := ih t (by simpa [freeValues] using ht)
          exact ⟨_, _, _, by simp only [setLeaf]; rw [e]⟩
  obtain ⟨l', a, r, e⟩ := key (h i) t ht
  simp only [TExpr.setTheta]
  rw [e]

example : (TExpr.leaf 0).setTheta (fun _ => [⟨some 3, false⟩, ⟨none, true⟩]) [1, 2] = (fun _ => [⟨some 3, false⟩, ⟨none, true⟩], some .valueError) :=
  C59_too_long _ _ _ (by simp [freeValues])

/-- **C82**: where the standard deviation is zero, the expected improvement and its gradient are zero. -/
theorem C82_zero_std {d : ℕ} (cdf pdf : ℝ → ℝ) (yOpt xi mu std : ℝ) (h : std ≤ 0) (muGrad stdGrad : Fin d → ℝ) :
    eiValue cdf pdf yOpt xi mu std = 0 ∧ eiGrad cdf pdf yOpt xi mu std muGrad stdGrad = 0 := by
  unfold eiValue eiGrad
  rw [if_neg (not_lt.2 h), if_neg (not_lt.2 h)]
  exact ⟨rfl, rfl⟩

example : eiValue (fun x => x) (fun _ => 1) 3 (1 / 100) 5 0 = 0 := (C82_zero_std (d := 1) _ _ _ _ _ _ le_rfl (fun _ => 0) fun _ => 0).1

/-- **C51**: an array with a single noise level gives the same gradient as the number. -/
theorem C51_one_noise {d : ℕ} (twoDim : Bool) (zeta n : ℝ) (sigmaN : Option ℝ) (mu : Ext ℝ) (std : ℝ) (muGrad stdGrad : Fin d → ℝ) :
    logExpGrad twoDim zeta sigmaN (.array [n]) mu std muGrad stdGrad = logExpGrad twoDim zeta sigmaN (.scalar n) mu std muGrad stdGrad := by
  have hv : noiseVar sigmaN (.array [n]) = noiseVar sigmaN (.scalar n) := by cases sigmaN <;> simp [noiseVar]
  unfold logExpGrad
  cases sigmaN <;> cases twoDim <;> simp only [hv]

example : logExpGrad (d := 1) false 1 none (.array [2]) (.fin 0) 2 (fun _ => 1) (fun _ => 1) = logExpGrad false 1 none (.scalar 2) (.fin 0) 2 (fun _ => 1) (fun _ => 1) :=
  C51_one_noise _ _ _ _ _ _ _ _

/-- **C51** without classifier, in a point where the standard deviation does not exceed the noise: the gradient is infinite. -/
theorem C51_below_noise {d : ℕ} (zeta n : ℝ) (mu : Ext ℝ) (std : ℝ) (h : std ≤ n) (muGrad stdGrad : Fin d → ℝ) :
    logExpGrad false zeta none (.scalar n) mu std muGrad stdGrad = .ok fun _ => .posInf := by
  unfold logExpGrad
  simp [not_lt.2 h]

example : logExpGrad (d := 1) false 1 none (.scalar 2) (.fin 0) 2 (fun _ => 1) (fun _ => 1) = .ok fun _ => .posInf := C51_below_noise _ _ _ _ le_rfl _ _

/-- **C51** is false with a classifier and an array of two or more noise levels: where the gradient is computed at all, it raises unless
there are as many noise levels (training points) as parameters, and then each component takes the noise of another training point. -/
theorem C51_array_counterexample {d : ℕ} (zeta m std : ℝ) (a b : ℝ) (l : List ℝ) (muGrad stdGrad : Fin d → ℝ)
    (h : ((a :: b :: l).sum / (a :: b :: l).length) ^ 2 < std ^ 2) :
    (l.length + 2 ≠ d → logExpGrad true zeta none (.array (a :: b :: l)) (.fin m) std muGrad stdGrad = .error .valueError) ∧
    ∀ e : l.length + 2 = d, logExpGrad true zeta none (.array (a :: b :: l)) (.fin m) std muGrad stdGrad =
      .ok fun j => .fin (stdGrad j / (std - (a :: b :: l).get (j.cast e.symm)) + 2 * zeta * muGrad j) := by
  have hm : (decide (0 < std ^ 2 - noiseVar none (.array (a :: b :: l)) ^ 2) && (Ext.fin m).isFinite) = true := by
    have : 0 < std ^ 2 - noiseVar none (.array (a :: b :: l)) ^ 2 := sub_pos.2 h
    rw [decide_eq_true this]
    rfl
  have hl : (a :: b :: l).length = l.length + 2 := rfl
  constructor
  · intro hd
    unfold logExpGrad
    simp only [hm]
    rw [dif_neg (hl ▸ hd)]
    rfl
  · intro e
    unfold logExpGrad
    simp only [hm]
    rw [dif_pos (hl ▸ e)]
    rfl

example : logExpGrad (d := 3) true 1 none (.array [1, 2]) (.fin 0) 2 (fun _ => 1) (fun _ => 1) = .error .valueError :=
  (C51_array_counterexample 1 0 2 1 2 [] _ _ (by norm_num)).1 (by decide)

end GPry.Acq

namespace GPry.Gpr

variable {P PX Θ K : Type*} [Field K] [LinearOrder K]

theorem updateModel_fitted (cfg : Cfg P PX Θ K) (st : State P PX Θ K) : (updateModel cfg st).1.fitted = st.fitted := by
  unfold updateModel
  split
  · rfl
  · split
    · rfl
    · split
      · rfl
      · split <;> rfl

theorem fitHyper_fitted (cfg : Cfg P PX Θ K) (n : Option ℕ) (st : State P PX Θ K) :
    (st.fitted = true → (fitHyper cfg n st).1.fitted = true) ∧
    (n.getD cfg.nRestarts ≠ 0 → cfg.canOptimise = true → (fitHyper cfg n st).2 = none → (fitHyper cfg n st).1.fitted = true) := by
  unfold fitHyper
  dsimp only
  split
  · rename_i h0
    split
    · exact ⟨fun h => h, fun h1 h2 => by simp [h1, h2] at h0⟩
    · exact ⟨fun h => by rw [updateModel_fitted]; exact h, fun h1 h2 => by simp [h1, h2] at h0⟩
  · split
    · exact ⟨fun h => h, fun _ _ h => by cases h⟩
    · split
      · rename_i st' e hu
        refine ⟨fun h => ?_, fun _ _ h => by cases h⟩
        have := updateModel_fitted cfg { st with theta := some (cfg.optimise st.xTrain' st.yTrain' st.noiseVar st.theta (n.getD cfg.nRestarts)) }
        rw [hu] at this
        rw [this]; exact h
      · exact ⟨fun _ => rfl, fun _ _ _ => rfl⟩

theorem appendFit_fitted (cfg : Cfg P PX Θ K) (st : State P PX Θ K) (c : Call P K) (mask : List Bool) (nz : List (Ext K)) :
    (st.fitted = true → (appendFit cfg st c mask nz).1.fitted = true) ∧
    (∀ n, c.fit = .yes n → n.getD cfg.nRestarts ≠ 0 → cfg.canOptimise = true → (appendFit cfg st c mask nz).2 = none →
      (appendFit cfg st c mask nz).1.fitted = true) := by
  unfold appendFit
  dsimp only
  split
  · exact ⟨fun h => h, fun _ _ _ _ h => by cases h⟩
  · split
    · exact ⟨fun h => h, fun _ _ _ _ h => by cases h⟩
    · split
      · rename_i n hn
        refine ⟨fun h => (fitHyper_fitted cfg n _).1 h, fun m hm => ?_⟩
        rw [hn] at hm
        cases hm
        exact (fitHyper_fitted cfg n _).2
      · rename_i hn
        refine ⟨fun h => by rw [updateModel_fitted]; exact h, fun m hm => absurd hm (hn m)⟩

theorem appendMid_fitted (cfg : Cfg P PX Θ K) (st : State P PX Θ K) (c : Call P K) (fc : Bool) (t : Ext K) (mask : List Bool) :
    (st.fitted = true → (appendMid cfg st c fc t mask).1.fitted = true) ∧
    (∀ n, c.fit = .yes n → n.getD cfg.nRestarts ≠ 0 → cfg.canOptimise = true → (appendMid cfg st c fc t mask).2 = none →
      (c.batch = none ∨ (appendMid cfg st c fc t mask).1.nLastFinite ≠ 0) → (appendMid cfg st c fc t mask).1.fitted = true) := by
  have fail : ∀ {a : State P PX Θ K} {e : Err}, a.fitted = st.fitted →
      (st.fitted = true → (a, some e).1.fitted = true) ∧ (∀ n, c.fit = .yes n → n.getD cfg.nRestarts ≠ 0 → cfg.canOptimise = true →
        (a, some e).2 = none → (c.batch = none ∨ (a, some e).1.nLastFinite ≠ 0) → (a, some e).1.fitted = true) :=
    fun h => ⟨fun h' => by rw [h]; exact h', fun _ _ _ _ h => by cases h⟩
  have hif : (if fc = true then { st with px := cfg.fitX st.px (maskL mask st.xAll) (maskL mask st.yAll) } else st).fitted = st.fitted := by
    split <;> rfl
  unfold appendMid
  split
  · exact fail rfl
  · dsimp only
    split
    · refine fail ?_; first | rfl | exact hif | (split <;> rfl)
    · split
      · refine fail ?_; first | rfl | exact hif | (split <;> rfl)
      · split
        · refine fail ?_; first | rfl | exact hif | (split <;> rfl)
        · split
          · rename_i st1 e hs
            refine fail ?_
            split at hs
            · split at hs
              · split at hs
                · cases hs; first | rfl | exact hif | (split <;> rfl)
                · split at hs
                  · cases hs; first | rfl | exact hif | (split <;> rfl)
                  · split at hs
                    · cases hs
                    · cases hs; first | rfl | exact hif | (split <;> rfl)
              · cases hs
            · cases hs
          · rename_i st1 lm hs
            have h1 : st1.fitted = st.fitted := by
              split at hs
              · split at hs
                · split at hs
                  · cases hs
                  · split at hs
                    · cases hs
                    · split at hs
                      · cases hs; first | rfl | exact hif | (split <;> rfl)
                      · cases hs
                · cases hs; first | rfl | exact hif | (split <;> rfl)
              · cases hs; first | rfl | exact hif | (split <;> rfl)
            split
            · rename_i h0
              refine ⟨fun h => by rw [h1]; exact h, fun n hn _ _ _ hb => ?_⟩
              rcases hb with hb | hb
              · have := h0.2
                rw [hb, hn] at this
                simp at this
              · exact absurd h0.1 hb
            · refine ⟨fun h => (appendFit_fitted cfg _ c mask _).1 (by rw [← h1] at h; exact h), fun n a b d e _ => (appendFit_fitted cfg _ c mask _).2 n a b d e⟩

/-- **C110**: `fitted` becomes true with every successful call that fits the hyperparameters (with at least one restart) on new finite points or on
request without points, and no call makes it false again, not even one that raises. -/
theorem C110_fitted (cfg : Cfg P PX Θ K) (st : State P PX Θ K) (c : Call P K) :
    (st.fitted = true → (append cfg st c).1.fitted = true) ∧
    (∀ n, c.fit = .yes n → n.getD cfg.nRestarts ≠ 0 → cfg.canOptimise = true → (append cfg st c).2 = none →
      (c.batch = none ∨ (append cfg st c).1.nLastFinite ≠ 0) → (append cfg st c).1.fitted = true) := by
  have fail : ∀ {a : State P PX Θ K} {e : Err}, a.fitted = st.fitted →
      (st.fitted = true → (a, some e).1.fitted = true) ∧ (∀ n, c.fit = .yes n → n.getD cfg.nRestarts ≠ 0 → cfg.canOptimise = true →
        (a, some e).2 = none → (c.batch = none ∨ (a, some e).1.nLastFinite ≠ 0) → (a, some e).1.fitted = true) :=
    fun h => ⟨fun h' => by rw [h]; exact h', fun _ _ _ _ h => by cases h⟩
  unfold append
  split
  · exact fail rfl
  · dsimp only
    split
    · exact fail rfl
    · split
      · exact fail rfl
      · split
        · exact fail rfl
        · split
          · split
            · exact fail rfl
            · split
              · exact fail rfl
              · exact ⟨fun h => (appendMid_fitted cfg _ c _ _ _).1 h, fun n a b d e f => (appendMid_fitted cfg _ c _ _ _).2 n a b d e f⟩
          · exact ⟨fun h => (appendMid_fitted cfg _ c _ _ _).1 h, fun n a b d e f => (appendMid_fitted cfg _ c _ _ _).2 n a b d e f⟩

example : (append (exCfg true) ex0 { callA with fit := .yes (some 3) }).1.fitted = true ∧
    (append (exCfg true) (append (exCfg true) ex0 { callA with fit := .yes (some 3) }).1 callQuick).1.fitted = true := by
  have h := (C110_fitted (exCfg true) ex0 { callA with fit := .yes (some 3) }).2 (some 3) rfl (by decide) rfl (by decide +kernel) (.inr (by decide +kernel))
  exact ⟨h, (C110_fitted (exCfg true) _ callQuick).1 h⟩

end GPry.Gpr

namespace GPry.ConvInit

open Cobaya

variable {K : Type*} [Field K] [LinearOrder K] [FloorRing K]

/-- **C108**: a number of draws of zero counts as not given; only two non-zero numbers exclude each other. -/
theorem C108_zero_draws (intStr : List Char → Option ℤ) (p : Dict String (PVal K)) (x : K) (hn : get p "n_draws" = some (.num x)) :
    (x = 0 → setDraws intStr p = .ok (.inr ((get p "n_draws_per_dimsquared").getD (.num 10)))) ∧
    (x ≠ 0 → get p "n_draws_per_dimsquared" = none → setDraws intStr p = .ok (.inl (trunc x))) ∧
    (∀ y, get p "n_draws_per_dimsquared" = some (.num y) → (setDraws intStr p = .error .value ↔ x ≠ 0 ∧ y ≠ 0)) := by
  unfold setDraws
  rw [hn]
  refine ⟨?_, ?_, ?_⟩
  · rintro rfl
    simp [PVal.truthy]
  · intro hx h
    rw [h]
    simp [PVal.truthy, hx, toInt]
  · intro y hy
    rw [hy]
    by_cases hx : x = 0 <;> by_cases hy0 : y = 0 <;> simp [PVal.truthy, hx, hy0, toInt]

example : setDraws (K := ℚ) (fun _ => none) [("n_draws", .num 0), ("n_draws_per_dimsquared", .num 20)] = .ok (.inr (.num 20)) :=
  (C108_zero_draws _ _ 0 rfl).1 rfl

end GPry.ConvInit

namespace GPry.KernelHyp

variable {K : Type*} [Field K] [LinearOrder K]

/-- **C99**: dynamic bounds of the length scale need the bounds of the prior: `TypeError` without. -/
theorem C99_dynamic_refused (v : Val K) (b : Bnd K) (prior : Option (List (K × K))) :
    (∃ e, mkLen v b prior = .error e) ↔ (b = .dynamic ∧ prior = none ∧ mkLen v b prior = .error .typeError) := by
  cases b <;> cases prior <;> simp [mkLen]

example : ∃ r, mkLen (.scalar (1 : ℚ)) .dynamic (some [(0, 10)]) = .ok r := by
  cases h : mkLen (.scalar (1 : ℚ)) .dynamic (some [(0, 10)]) with
  | ok r => exact ⟨r, rfl⟩
  | error e => exact absurd ((C99_dynamic_refused _ _ _).1 ⟨e, h⟩).2.1 (by simp)

theorem assign_long (hs : List (Hyper K)) : ∀ (th : List K), need hs < th.length → assign hs th = .error .valueError := by
  induction hs with
  | nil =>
    intro th h
    cases th with
    | nil => simp [need] at h
    | cons a r => rfl
  | cons p l ih =>
    intro th h
    unfold need at h
    unfold assign
    by_cases hf : p.fixed = true
    · rw [if_pos hf]
      exact ih th (by simpa [hf] using h)
    · rw [if_neg hf]
      rw [if_neg hf] at h
      by_cases h1 : 1 < p.nElem
      · rw [if_pos h1] at h ⊢
        rw [if_neg (by omega), ih _ (by rw [List.length_drop]; omega)]
      · rw [if_neg h1] at h ⊢
        cases th with
        | nil => simp at h
        | cons t th =>
          dsimp only
          rw [ih th (by simp at h; omega)]

/-- **C99**: a vector longer than one that is accepted is refused with `ValueError`. -/
theorem C99_too_long (k k' : Kern K) (th0 th : List K) (h0 : k.setTheta th0 = .ok k') (hl : th0.length < th.length) :
    k.setTheta th = .error .valueError := by
  unfold Kern.setTheta at h0 ⊢
  cases hk : k.hypers with
  | error e => rw [hk] at h0; cases h0
  | ok hs =>
    rw [hk] at h0
    dsimp only at h0 ⊢
    cases ha : assign hs th0 with
    | error e => rw [ha] at h0; cases h0
    | ok r =>
      have := (assign_ok hs th0).1 ⟨r, ha⟩
      rw [assign_long hs th (by omega)]

example : mkLen (.vec [(1 : ℚ), 2]) .dynamic none = .error .typeError := rfl

end GPry.KernelHyp

namespace GPry.ConvMc

variable {K : Type*} [Field K] [LinearOrder K] {d : ℕ}

/-- **C107**: a new sample is drawn with the covariance of the reweighted sample if there is one and it is valid, otherwise with the last covariance
found, or none; if it cannot be drawn the check fails. -/
theorem C107_proposal (P : Par d K) (s : State d K) (c : Call d K) (ha : c.acq = none) :
    (s.coll = none → (getNew P s c).2 = match c.mcmc (s.kl.last.map Cov.MeanCov.cov) with
      | none => .error .check
      | some k => .ok (false, k.stat)) ∧
    (∀ coll m, s.coll = some coll → tryReuse P s c coll = .ok (false, m) →
      (getNew P s c).2 = match c.mcmc (if P.valid m.cov then some m.cov else s.kl.last.map Cov.MeanCov.cov) with
        | none => .error .check
        | some k => .ok (false, k.stat)) := by
  unfold getNew
  rw [ha]
  unfold fromMc sampleMc
  refine ⟨fun h => ?_, fun coll m h ht => ?_⟩
  · dsimp only
    rw [h]
    dsimp only [proposal]
    cases c.mcmc (s.kl.last.map Cov.MeanCov.cov) <;> rfl
  · dsimp only
    rw [h]
    dsimp only
    have ht' : ∀ l t, tryReuse P { kl := s.kl, thres := l, evals := s.evals, nReused := s.nReused, coll := t } c coll = .ok (false, m) :=
      fun _ _ => ht
    rw [ht']
    dsimp only [proposal]
    cases c.mcmc (if P.valid m.cov = true then some m.cov else s.kl.last.map Cov.MeanCov.cov) <;> rfl

/-- **C107**: what "the larger of the two divergences" means if one is not a number: the second counts only if it is larger than the first, so that it
is ignored if it is NaN, whereas the sample is not used again if the first is NaN. -/
theorem C107_reuse_divergences (P : Par d K) (h : List (Call d K)) (c : Call d K) :
    reusing P (after P State.init h) c = true ↔
      c.acq = none ∧ reuses P State.init h < P.maxReused ∧
        ∃ coll m o a b v, (after P State.init h).coll = some coll ∧ reweighted P.ex c.predict coll = .ok m ∧ (after P State.init h).kl.last = some o ∧
          Cov.klNorm P.kl m.mean m.cov o.mean o.cov = .ok a ∧ Cov.klNorm P.kl o.mean o.cov m.mean m.cov = .ok b ∧
          (after P State.init h).kl.values.getLast? = some v ∧
          ((Ext.lt a b = true ∧ Ext.lt (.fin 0) b = true ∧ Ext.lt b v = true) ∨ (Ext.lt a b = false ∧ Ext.lt (.fin 0) a = true ∧ Ext.lt a v = true)) := by
  rw [C107_reuse]
  refine and_congr_right fun _ => ⟨?_, ?_⟩
  · rintro ⟨coll, m, k, v, h1, h2, h3, h4, h5, h6, h7⟩
    refine ⟨h7, coll, m, ?_⟩
    unfold reuseKl at h3
    cases ho : (after P State.init h).kl.last with
    | none => rw [ho] at h3; cases h3
    | some o =>
      rw [ho] at h3
      dsimp only at h3
      cases ha : Cov.klNorm P.kl m.mean m.cov o.mean o.cov with
      | error e => rw [ha] at h3; cases h3
      | ok a =>
        rw [ha] at h3
        dsimp only at h3
        cases hb : Cov.klNorm P.kl o.mean o.cov m.mean m.cov with
        | error e => rw [hb] at h3; cases h3
        | ok b =>
          rw [hb] at h3
          simp only [Except.ok.injEq] at h3
          refine ⟨o, a, b, v, h1, h2, rfl, ha, hb, h4, ?_⟩
          unfold Ext.pyMax2 Ext.gt at h3
          cases hlt : Ext.lt a b with
          | true => rw [hlt, if_pos rfl] at h3; subst h3; exact .inl ⟨rfl, h5, h6⟩
          | false => rw [hlt] at h3; simp only [Bool.false_eq_true, if_false] at h3; subst h3; exact .inr ⟨rfl, h5, h6⟩
  · rintro ⟨h7, coll, m, o, a, b, v, h1, h2, ho, ha, hb, h4, h5⟩
    have hk : reuseKl P m (after P State.init h).kl.last = .ok (Ext.pyMax2 a b) := by
      unfold reuseKl
      rw [ho]
      dsimp only
      rw [ha]
      dsimp only
      rw [hb]
    refine ⟨coll, m, _, v, h1, h2, hk, h4, ?_⟩
    unfold Ext.pyMax2 Ext.gt
    rcases h5 with ⟨e, h5, h6⟩ | ⟨e, h5, h6⟩
    · rw [e, if_pos rfl]; exact ⟨h5, h6, h7⟩
    · rw [e]; exact ⟨h5, h6, h7⟩

/-- **C107** with a sample of the acquisition: if the numbers of points and weights differ or one of the weights is negative the check fails
(`ConvergenceCheckError`, a NaN is recorded); if the weights add up to zero, `ZeroDivisionError` leaves `is_converged` and nothing is recorded; otherwise no
other exception is raised, and the mean and covariance kept for the next call are those of the sample. -/
theorem C107_acquisition (P : Par d K) (s : State d K) (c : Call d K) (X : List (Fin d → K)) (w : List K) (ha : c.acq = some (X, w)) :
    (w.length ≠ X.length ∨ (w.sum ≠ 0 ∧ ∃ a ∈ w, a < 0) →
      (step P s c).2 = .error .check ∧ (step P s c).1.kl.values = s.kl.values ++ [.nan]) ∧
    (w.length = X.length → w.sum = 0 → step P s c = (s, .error (.other .zeroDiv))) ∧
    (w.length = X.length → w.sum ≠ 0 → (∀ a ∈ w, 0 ≤ a) →
      (∀ e, (step P s c).2 ≠ .error (.other e)) ∧ ∃ o, (step P s c).1.kl.last = some o ∧ o.cov.ndim = 2 ∧
        (∀ i, o.mean i = .fin (((w.zip X).map fun q => q.1 * q.2 i).sum / ((w.zip X).map Prod.fst).sum))) := by
  have hstep : ∀ r : Except Cov.Err (Cov.MeanCov d K), Cov.fromAcquisition X w = r → getNew P s c = (s, acqOutcome r) := by
    rintro r rfl
    unfold getNew
    rw [ha]
  refine ⟨fun h => ?_, fun hl h0 => ?_, fun hl h0 hpos => ?_⟩
  · have hf : Cov.fromAcquisition X w = .error .value := by
      unfold Cov.fromAcquisition Cov.average
      by_cases hl : w.length ≠ X.length
      · simp [hl]
      · rcases h with h | ⟨h0, a, haw, hneg⟩
        · exact absurd h hl
        · have hany : w.any (fun a => decide (a < 0)) = true := List.any_eq_true.2 ⟨a, haw, by simpa using hneg⟩
          simp only [ne_eq, not_not] at hl
          simp only [hl, ne_eq, not_true_eq_false, if_false, h0, Cov.npCov, hany, if_true]
    unfold step
    rw [hstep _ hf]
    constructor
    · simp [acqOutcome, finish, Conv.KL.gaussian, Conv.KL.converged, outcome]
    · simp [acqOutcome, finish, Conv.KL.gaussian, Conv.KL.converged, outcome]
  · have hf : Cov.fromAcquisition X w = .error .zeroDiv := by
      simp [Cov.fromAcquisition, Cov.average, hl, h0]
    unfold step
    rw [hstep _ hf]
    rfl
  · have hany : w.any (fun a => decide (a < 0)) = false := by
      rw [List.any_eq_false]
      intro a haw
      simpa using hpos a haw
    obtain ⟨C, hf⟩ : ∃ C, Cov.fromAcquisition X w = .ok ⟨fun i => .fin (Cov.wmean (w.zip X) i), Cov.atleast2d C⟩ := by
      unfold Cov.fromAcquisition Cov.average Cov.npCov
      simp only [hl, ne_eq, not_true_eq_false, if_false, h0, hany, Bool.false_eq_true]
      exact ⟨_, rfl⟩
    unfold step
    rw [hstep _ hf]
    simp only [acqOutcome]
    constructor
    · intro e
      unfold finish outcome
      dsimp only
      split <;> simp
    · refine ⟨⟨fun i => .fin (Cov.wmean (w.zip X) i), Cov.atleast2d C⟩, ?_, rfl, fun i => rfl⟩
      unfold finish
      dsimp only
      rw [converged_fst, gaussian_last]
      rfl

/-- One of the two divergences is NaN. -/
def nanPar (first : Bool) : Par 2 ℚ :=
  { exPar with kl := fun m0 _ m1 _ => match m0 0, m1 0 with
      | .fin a, .fin b => .ok (if decide (a < b) = first then .nan else .fin |a - b|)
      | _, _ => .ok .nan }

/-- The other one is 3, below the last value (12 or 8): the sample is used again if the second is NaN, and not if the first is. -/
example : reusing (nanPar false) (after (nanPar false) State.init [exCall 20 20, exCall 5 8]) (exCall 0 0) = true ∧
    reusing (nanPar true) (after (nanPar true) State.init [exCall 0 0, exCall 5 8]) (exCall 0 0) = false := by decide +kernel

/-- Two points with weights of different signs, with no weight, and with a weight each. -/
example : (step exPar State.init ⟨some ([![0, 0], ![1, 0]], [3, -1]), fun _ => .fin 0, fun _ => none, 3, 2⟩).1.kl.values = [.nan] :=
  ((C107_acquisition exPar State.init ⟨some ([![0, 0], ![1, 0]], [3, -1]), fun _ => .fin 0, fun _ => none, 3, 2⟩ _ _ rfl).1
    (.inr ⟨by norm_num, -1, by simp, by norm_num⟩)).2

example : ∃ o, (step exPar State.init ⟨some ([![0, 0], ![1, 0]], [3, 1]), fun _ => .fin 0, fun _ => none, 3, 2⟩).1.kl.last = some o ∧
    o.mean 0 = .fin (1 / 4) := by
  obtain ⟨-, o, h1, -, h2⟩ := (C107_acquisition exPar State.init ⟨some ([![0, 0], ![1, 0]], [3, 1]), fun _ => .fin 0, fun _ => none, 3, 2⟩ _ _ rfl).2.2
    rfl (by norm_num) (by intro a ha; simp at ha; rcases ha with rfl | rfl <;> norm_num)
  exact ⟨o, h1, by rw [h2 0]; norm_num⟩

/-- First call: the chain starts without covariance, and its result is used. -/
example : (getNew exPar State.init (exCall 3 4)).2 = .ok (false, (exColl 3 4).stat) := (C107_proposal exPar State.init (exCall 3 4) rfl).1 rfl

end GPry.ConvMc

namespace GPry.AcqObj

open Cobaya

variable {K : Type} [Field K] [LinearOrder K] [IsStrictOrderedRing K]

/-- **C111**: parameters are compared as Python does: `True` equals 1 and `False` equals 0, and nothing else. -/
theorem C111_booleans (b : Bool) (x : Ext K) : Pv.same (.bool b) (.num x) = true ↔ x = .fin (if b then 1 else 0) := by
  cases b <;> simp [Pv.same, Pv.norm, Pv.isNan, eq_comm]

example : Pv.same (.bool false) (.num (.fin (0 : ℚ))) = true ∧ Pv.same (.bool false) (.num (.nan : Ext ℚ)) ≠ true :=
  ⟨(C111_booleans _ _).2 rfl, fun h => by cases (C111_booleans _ _).1 h⟩

/-- **C111**: a number beside an operator becomes a constant that is not fixed, so that its value can be set through the parameters of the result. -/
theorem C111_number_operand (a : Af K) (x : Ext K) :
    ("k2__constant_value".toList, Sum.inl (.num x)) ∈ (add a (.num x)).getParams ∧
    ("k2__fixed".toList, Sum.inl (.bool false)) ∈ (add a (.num x)).getParams ∧
    ("k1__constant_value".toList, Sum.inl (.num x)) ∈ (rmul a (.num x)).getParams ∧
    ("k1__fixed".toList, Sum.inl (.bool false)) ∈ (rmul a (.num x)).getParams := by
  refine ⟨?_, ?_, ?_, ?_⟩ <;> simp [add, rmul, toAf, const, Af.getParams, nested]

example : Pv.same (.bool true) (.num (.fin (1 : ℚ))) = true ∧ Pv.same (.bool true) (.num (.fin (2 : ℚ))) = false := by decide

end GPry.AcqObj

namespace GPry.Slices

open GPry.Cobaya (Dict Str)

variable {K : Type*} [Field K] {Y : Type*}

/-- **C115**: an empty point is refused with `TypeError`; an index below minus the dimension with `IndexError`, if nothing before it is refused. -/
theorem C115_refused (f : List K → Out Y) (x : List K) (bounds : List (K × K)) (n : ℤ) :
    (∀ is n, prepareList f [] bounds is n = .error .typeError) ∧
    (∀ i : ℤ, x ≠ [] → bounds.length = x.length → 2 ≤ n → i < -(x.length : ℤ) → prepareList f x bounds (some [i]) n = .error .indexError) := by
  refine ⟨fun is n => by simp [prepareList], fun i hx hb hn hi => ?_⟩
  have hl : 0 < x.length := List.length_pos_iff.2 hx
  have hp : pyPos bounds.length i = none := by
    unfold pyPos
    rw [if_neg (by omega), if_neg (by rw [hb]; omega)]
  have hgen : (Truth.generic "x_" x.length).length = x.length := by simp [Truth.generic]
  unfold prepareList
  dsimp only
  rw [if_neg (by omega), if_neg (by simp; omega), if_neg (by rw [hgen, hb]; omega), if_neg (by omega)]
  simp [loop, hp]

/-- **C115**: the empty dictionary gives the empty list of slices. -/
theorem C115_empty_dict (bounds : DBounds K) (n : ℤ) :
    (prepareDict [] bounds none n : Except Err (Slices K Y)) = if n < 2 then .error .valueError else .ok ⟨[], [], [], []⟩ := rfl

example : (prepareList (fun _ : List ℚ => (.val 1 : Out ℕ)) [1, 2] [(0, 3), (0, 3)] (some [-3]) 5) = .error .indexError :=
  (C115_refused _ _ _ 5).2 _ (by simp) rfl (by decide) (by decide)

end GPry.Slices
