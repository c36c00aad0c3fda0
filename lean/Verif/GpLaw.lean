import Verif.GpProps
import Mathlib.Probability.Distributions.Gaussian.IsGaussianProcess.Basic
import Mathlib.Probability.Distributions.Gaussian.HasGaussianLaw.Independence
import Mathlib.Probability.Kernel.CondDistrib

set_option linter.all false

/-! # The prediction of the surrogate is a conditional distribution (C125) -/

namespace GPry.Gp

open MeasureTheory ProbabilityTheory Matrix
open scoped ENNReal

variable {P : Type*} {n : Type*} [Fintype n] [DecidableEq n] {Ω : Type*} [MeasurableSpace Ω]

/-- A Gaussian process `g` with constant mean and the covariance function of the surrogate, and independent normal errors `ε` of the measurements. -/
structure NoisyGp (M : Model P) (noise : n → ℝ) (g : P → Ω → ℝ) (ε : n → Ω → ℝ) (μ : Measure Ω) : Prop where
  gaussian : IsGaussianProcess (Sum.elim g ε) μ
  mean_g : ∀ x, ∫ ω, g x ω ∂μ = M.mu
  mean_ε : ∀ i, ∫ ω, ε i ω ∂μ = 0
  cov_g : ∀ x x', cov[g x, g x'; μ] = M.s ^ 2 * M.k (M.trX x) (M.trX x')
  cov_ε : ∀ i j, cov[ε i, ε j; μ] = if i = j then noise i ^ 2 else 0
  cov_gε : ∀ x i, cov[g x, ε i; μ] = 0

/-- Disintegration: a variable that is the sum of a function of `Y` and of a variable independent of `Y`. -/
theorem condDistrib_add_indep {β : Type*} [MeasurableSpace β] {μ : Measure Ω} [IsFiniteMeasure μ] {Y : Ω → β} {R : Ω → ℝ} (hY : AEMeasurable Y μ)
    (hR : AEMeasurable R μ) (h : IndepFun R Y μ) {m : β → ℝ} (hm : Measurable m) :
    ∀ᵐ y ∂(μ.map Y), condDistrib (fun ω => m (Y ω) + R ω) Y μ y = (μ.map R).map (m y + ·) := by
  have hf : Measurable fun p : β × ℝ => m p.1 + p.2 := by fun_prop
  have hk : Measurable fun y => (μ.map R).map (m y + ·) := by
    refine Measure.measurable_of_measurable_coe _ fun s hs => ?_
    have : (fun y => ((μ.map R).map (m y + ·)) s) = fun y => (μ.map R) (Prod.mk y ⁻¹' ((fun p : β × ℝ => m p.1 + p.2) ⁻¹' s)) := by
      ext y
      rw [Measure.map_apply (by fun_prop) hs]
      rfl
    rw [this]
    exact measurable_measure_prodMk_left (hf hs)
  let κ : Kernel β ℝ := ⟨fun y => (μ.map R).map (m y + ·), hk⟩
  have : IsFiniteKernel κ := ⟨⟨μ Set.univ, measure_lt_top _ _, fun y => by
    show ((μ.map R).map (m y + ·)) Set.univ ≤ _
    rw [Measure.map_apply (by fun_prop) MeasurableSet.univ, Set.preimage_univ, Measure.map_apply_of_aemeasurable hR MeasurableSet.univ, Set.preimage_univ]⟩⟩
  refine condDistrib_ae_eq_of_measure_eq_compProd (κ := κ) Y (by fun_prop) ?_
  have hg : Measurable fun p : β × ℝ => (p.1, m p.1 + p.2) := by fun_prop
  have e : μ.map (fun ω => (Y ω, m (Y ω) + R ω)) = ((μ.map Y).prod (μ.map R)).map fun p => (p.1, m p.1 + p.2) := by
    rw [← (indepFun_iff_map_prod_eq_prod_map_map hY hR).mp h.symm, AEMeasurable.map_map_of_aemeasurable (by fun_prop) (by fun_prop)]
    rfl
  rw [e]
  ext s hs
  rw [Measure.map_apply hg hs, Measure.prod_apply (hg hs), Measure.compProd_apply hs]
  refine lintegral_congr fun y => ?_
  show _ = ((μ.map R).map (m y + ·)) (Prod.mk y ⁻¹' s)
  rw [Measure.map_apply (by fun_prop) (measurable_prodMk_left hs)]
  rfl

/-- **C125**: for a Gaussian process with the covariance function of the surrogate and normal errors with the given noise levels, the distribution of the
value at any point given the values of the training set is the normal distribution with the mean and the standard deviation of `predict`. -/
theorem C125_conditional (chol : Matrix n n ℝ → Matrix n n ℝ) (M : Model P) (hs : 0 < M.s) (X : n → P) (noise : n → ℝ)
    (hc : ∀ y, IsFactor ((M.data ⟨X, y, noise⟩).kmat M.k) (chol ((M.data ⟨X, y, noise⟩).kmat M.k)))
    {g : P → Ω → ℝ} {ε : n → Ω → ℝ} {μ : Measure Ω} [IsProbabilityMeasure μ] (h : NoisyGp M noise g ε μ) (x : P) :
    ∀ᵐ y ∂(μ.map fun ω i => g (X i) ω + ε i ω),
      condDistrib (g x) (fun ω i => g (X i) ω + ε i ω) μ y =
        gaussianReal (M.mean chol ⟨X, y, noise⟩ x) ((M.std chol ⟨X, y, noise⟩ x) ^ 2).toNNReal := by
  classical
  obtain ⟨K, hK⟩ : ∃ K, K = (M.data ⟨X, 0, noise⟩).kmat M.k := ⟨_, rfl⟩
  obtain ⟨kT, hkT⟩ : ∃ kT, kT = (M.data ⟨X, 0, noise⟩).kTrans M.k (M.trX x) := ⟨_, rfl⟩
  have hKy : ∀ y, (M.data ⟨X, y, noise⟩).kmat M.k = K := fun y => by rw [hK]; rfl
  have hkTy : ∀ y, (M.data ⟨X, y, noise⟩).kTrans M.k (M.trX x) = kT := fun y => by rw [hkT]; rfl
  obtain ⟨w, hw⟩ : ∃ w, w = K⁻¹ *ᵥ kT := ⟨_, rfl⟩
  have hu : IsUnit K.det := by rw [← hKy 0]; exact isUnit_kmat (hc 0)
  have hKw : K *ᵥ w = kT := by rw [hw, mulVec_mulVec, mul_nonsing_inv _ hu, one_mulVec]
  have hs2 : M.s ^ 2 ≠ 0 := (pow_pos hs 2).ne'
  -- the measurements
  obtain ⟨Y, hYdef⟩ : ∃ Y : n → Ω → ℝ, Y = fun i ω => g (X i) ω + ε i ω := ⟨_, rfl⟩
  have hYf : (fun ω i => g (X i) ω + ε i ω) = fun ω i => Y i ω := by rw [hYdef]
  have Lg : ∀ x, HasGaussianLaw (g x) μ := fun x => h.gaussian.hasGaussianLaw_eval (.inl x)
  have Lε : ∀ i, HasGaussianLaw (ε i) μ := fun i => h.gaussian.hasGaussianLaw_eval (.inr i)
  have mg : ∀ x, MemLp (g x) 2 μ := fun x => (Lg x).memLp_two
  have mε : ∀ i, MemLp (ε i) 2 μ := fun i => (Lε i).memLp_two
  have mY : ∀ i, MemLp (Y i) 2 μ := fun i => by rw [hYdef]; exact (mg _).add (mε i)
  have cgY : ∀ x j, cov[g x, Y j; μ] = M.s ^ 2 * M.k (M.trX x) (M.trX (X j)) := by
    intro x j
    have : Y j = g (X j) + ε j := by rw [hYdef]; rfl
    rw [this, covariance_add_right (mg _) (mg _) (mε _), h.cov_g, h.cov_gε, add_zero]
  have cYY : ∀ i j, cov[Y i, Y j; μ] = M.s ^ 2 * K i j := by
    intro i j
    have : Y i = g (X i) + ε i := by rw [hYdef]; rfl
    have hj : Y j = g (X j) + ε j := by rw [hYdef]; rfl
    rw [this, covariance_add_left (mg _) (mε _) (mY j), cgY, hj, covariance_add_right (mε _) (mg _) (mε _), covariance_comm, h.cov_gε, h.cov_ε, hK]
    show _ = M.s ^ 2 * (M.k (M.trX (X i)) (M.trX (X j)) + diagonal (fun i => (noise i / M.s) ^ 2) i j)
    rw [diagonal_apply]
    split_ifs
    · field_simp
      ring
    · ring
  have hsym : ∀ i j, K i j = K j i := by
    intro i j
    have := covariance_comm (X := Y i) (Y := Y j) (μ := μ)
    rw [cYY, cYY] at this
    exact mul_left_cancel₀ hs2 this
  -- the residual
  obtain ⟨R, hRdef⟩ : ∃ R : Ω → ℝ, R = fun ω => g x ω - ∑ i, w i * Y i ω := ⟨_, rfl⟩
  have mR : MemLp R 2 μ := by
    rw [hRdef]
    exact (mg x).sub (memLp_finset_sum _ fun i _ => (mY i).const_mul _)
  have cR : ∀ {Z : Ω → ℝ}, MemLp Z 2 μ → cov[R, Z; μ] = cov[g x, Z; μ] - ∑ i, w i * cov[Y i, Z; μ] := by
    intro Z hZ
    rw [hRdef, covariance_fun_sub_left (mg x) (memLp_finset_sum _ fun i _ => (mY i).const_mul _) hZ, covariance_fun_sum_left (fun i => (mY i).const_mul _) hZ]
    congr 1
    refine Finset.sum_congr rfl fun i _ => ?_
    rw [covariance_const_mul_left]
  have cRY : ∀ j, cov[R, Y j; μ] = 0 := by
    intro j
    rw [cR (mY j), cgY]
    simp_rw [cYY]
    have h1 := congrFun hKw j
    have h2 : kT j = M.k (M.trX x) (M.trX (X j)) := by rw [hkT]; rfl
    have h3 : ∑ i, w i * (M.s ^ 2 * K i j) = M.s ^ 2 * (K *ᵥ w) j := by
      rw [mulVec, dotProduct, Finset.mul_sum]
      refine Finset.sum_congr rfl fun i _ => ?_
      rw [hsym i j]
      ring
    rw [h3, h1, h2, sub_self]
  have hvar : Var[R; μ] = M.s ^ 2 * (M.k (M.trX x) (M.trX x) - kT ⬝ᵥ K⁻¹ *ᵥ kT) := by
    rw [← covariance_self mR.aemeasurable, covariance_comm]
    have : cov[R, R; μ] = cov[R, g x; μ] := by
      conv_lhs => rw [covariance_comm, cR mR]
      have h0 : ∀ i, cov[Y i, R; μ] = 0 := fun i => by rw [covariance_comm, cRY]
      simp only [h0, mul_zero, Finset.sum_const_zero, sub_zero]
      exact covariance_comm _ _
    rw [this, cR (mg x), h.cov_g]
    have h0 : ∀ i, cov[Y i, g x; μ] = M.s ^ 2 * kT i := fun i => by rw [covariance_comm, cgY, hkT]; rfl
    simp_rw [h0]
    rw [← hw, dotProduct, mul_sub, Finset.mul_sum]
    congr 1
    exact Finset.sum_congr rfl fun i _ => by ring
  have hmean : ∫ ω, R ω ∂μ = M.mu - ∑ i, w i * M.mu := by
    have hY1 : ∀ i, ∫ ω, Y i ω ∂μ = M.mu := by
      intro i
      rw [hYdef]
      rw [integral_add ((mg _).integrable (by norm_num)) ((mε _).integrable (by norm_num)), h.mean_g, h.mean_ε, add_zero]
    have hi : ∀ i, Integrable (Y i) μ := fun i => (mY i).integrable (by norm_num)
    rw [hRdef]
    rw [integral_sub ((mg _).integrable (by norm_num)) (integrable_finset_sum _ fun i _ => (hi i).const_mul _), integral_finset_sum _ fun i _ => (hi i).const_mul _, h.mean_g]
    congr 1
    refine Finset.sum_congr rfl fun i _ => ?_
    rw [integral_const_mul, hY1]
  -- joint law
  have hjoint : HasGaussianLaw (fun ω => ((fun (_ : Unit) => R ω), fun i => Y i ω)) μ := by
    obtain ⟨I, hI⟩ : ∃ I : Finset (P ⊕ n), I = insert (Sum.inl x) (Finset.univ.image (fun i => Sum.inl (X i)) ∪ Finset.univ.image Sum.inr) := ⟨_, rfl⟩
    have hx : Sum.inl x ∈ I := by rw [hI]; simp
    have hX : ∀ i, (Sum.inl (X i) : P ⊕ n) ∈ I := fun i => by rw [hI]; simp
    have hε : ∀ i, (Sum.inr i : P ⊕ n) ∈ I := fun i => by rw [hI]; simp
    let L : (I → ℝ) →ₗ[ℝ] (Unit → ℝ) × (n → ℝ) :=
      { toFun := fun z => (fun _ => z ⟨_, hx⟩ - ∑ i, w i * (z ⟨_, hX i⟩ + z ⟨_, hε i⟩), fun i => z ⟨_, hX i⟩ + z ⟨_, hε i⟩)
        map_add' := by
          intro a b
          ext i
          · simp only [Pi.add_apply, Prod.fst_add, mul_add, Finset.sum_add_distrib]
            ring
          · simp only [Pi.add_apply, Prod.snd_add]
            ring
        map_smul' := by
          intro c a
          ext i
          · simp only [Pi.smul_apply, smul_eq_mul, RingHom.id_apply, Prod.smul_fst, mul_sub, Finset.mul_sum]
            congr 1
            exact Finset.sum_congr rfl fun i _ => by ring
          · simp only [Pi.smul_apply, smul_eq_mul, RingHom.id_apply, Prod.smul_snd]
            ring }
    have := (h.gaussian.hasGaussianLaw I).map (LinearMap.toContinuousLinearMap L)
    have e : (fun ω => ((fun (_ : Unit) => R ω), fun i => Y i ω)) = ⇑(LinearMap.toContinuousLinearMap L) ∘ fun ω => I.restrict ((Sum.elim g ε) · ω) := by
      ext ω i
      · rw [hRdef, hYdef]; rfl
      · rw [hYdef]; rfl
    rw [e]
    exact this
  have hind : IndepFun R (fun ω i => Y i ω) μ := by
    have := hjoint.indepFun_of_covariance_eval (X := fun _ : Unit => R) fun _ j => cRY j
    exact this.comp (φ := fun r : Unit → ℝ => r ()) (ψ := id) (by fun_prop) measurable_id
  have hlaw : μ.map R = gaussianReal (M.mu - ∑ i, w i * M.mu) (M.s ^ 2 * (M.k (M.trX x) (M.trX x) - kT ⬝ᵥ K⁻¹ *ᵥ kT)).toNNReal := by
    have h1 : HasGaussianLaw R μ := by
      have := hjoint.fst.map (ContinuousLinearMap.proj (R := ℝ) (φ := fun _ : Unit => ℝ) ())
      exact this
    rw [h1.map_eq_gaussianReal, hmean, hvar]
  have hfin := condDistrib_add_indep (μ := μ) (Y := fun ω i => Y i ω) (R := R) (aemeasurable_pi_lambda _ fun i => (mY i).aemeasurable) mR.aemeasurable hind
    (m := fun y => ∑ i, w i * y i) (by fun_prop)
  have hgx : (fun ω => (∑ i, w i * Y i ω) + R ω) = g x := by
    ext ω
    rw [hRdef]
    ring
  rw [hgx] at hfin
  rw [hYf]
  filter_upwards [hfin] with y hy
  rw [hy, hlaw, gaussianReal_map_const_add]
  have hm : M.mean chol ⟨X, y, noise⟩ x = M.mu - ∑ i, w i * M.mu + ∑ i, w i * y i := by
    unfold Model.mean Data.mean
    rw [update_alpha (hc y), hKy, hkTy]
    have hyd : (M.data ⟨X, y, noise⟩).y = fun i => (y i - M.mu) / M.s := rfl
    have hKi : K⁻¹ᵀ = K⁻¹ := by
      rw [transpose_nonsing_inv]
      congr 1
      ext i j
      exact hsym j i
    rw [hyd, dotProduct_mulVec, ← mulVec_transpose, hKi, ← hw, dotProduct, Finset.sum_mul, ← sub_eq_zero]
    have : ∀ i, w i * ((y i - M.mu) / M.s) * M.s = w i * y i - w i * M.mu := fun i => by field_simp
    simp_rw [this, Finset.sum_sub_distrib]
    ring
  have hv : (M.std chol ⟨X, y, noise⟩ x) ^ 2 = M.s ^ 2 * (M.k (M.trX x) (M.trX x) - kT ⬝ᵥ K⁻¹ *ᵥ kT) := by
    unfold Model.std Data.std
    rw [rawVar_eq (hc y), hKy, hkTy]
    have h0 : 0 ≤ M.k (M.trX x) (M.trX x) - kT ⬝ᵥ K⁻¹ *ᵥ kT := by
      have := variance_nonneg R μ
      rw [hvar] at this
      exact nonneg_of_mul_nonneg_right this (pow_pos hs 2)
    dsimp only
    rw [if_neg (not_lt.mpr h0), mul_pow, Real.sq_sqrt h0]
    ring
  rw [hm, hv]

/-! ## Example: random lines through the origin, measured once -/

theorem ex_law : NoisyGp exM exR.noise (fun x (ω : ℝ × ℝ) => x * ω.1) (fun _ ω => ω.2) ((gaussianReal 0 1).prod (gaussianReal 0 1)) := by
  have h1 : HasGaussianLaw (fun ω : ℝ × ℝ => ω.1) ((gaussianReal 0 1).prod (gaussianReal 0 1)) :=
    ⟨by rw [show (fun ω : ℝ × ℝ => ω.1) = Prod.fst from rfl, Measure.map_fst_prod]; simp; infer_instance⟩
  have h2 : HasGaussianLaw (fun ω : ℝ × ℝ => ω.2) ((gaussianReal 0 1).prod (gaussianReal 0 1)) :=
    ⟨by rw [show (fun ω : ℝ × ℝ => ω.2) = Prod.snd from rfl, Measure.map_snd_prod]; simp; infer_instance⟩
  have hi : IndepFun (fun ω : ℝ × ℝ => ω.1) (fun ω : ℝ × ℝ => ω.2) ((gaussianReal 0 1).prod (gaussianReal 0 1)) := indepFun_prod (X := id) (Y := id) measurable_id measurable_id
  have h12 := IndepFun.hasGaussianLaw h1 h2 hi
  have e1 : ∫ ω : ℝ × ℝ, ω.1 ∂((gaussianReal 0 1).prod (gaussianReal 0 1)) = 0 := by
    rw [integral_fun_fst (f := fun x : ℝ => x)]
    simp
  have e2 : ∫ ω : ℝ × ℝ, ω.2 ∂((gaussianReal 0 1).prod (gaussianReal 0 1)) = 0 := by
    rw [integral_fun_snd (f := fun x : ℝ => x)]
    simp
  have c1 : cov[fun ω : ℝ × ℝ => ω.1, fun ω : ℝ × ℝ => ω.1; (gaussianReal 0 1).prod (gaussianReal 0 1)] = 1 := by
    rw [covariance_self h1.aemeasurable]
    have := variance_map (μ := (gaussianReal 0 1).prod (gaussianReal 0 1)) (Y := fun ω : ℝ × ℝ => ω.1) (X := fun x : ℝ => x) (by fun_prop) (by fun_prop)
    rw [show (fun ω : ℝ × ℝ => ω.1) = Prod.fst from rfl, Measure.map_fst_prod] at this
    simp only [measure_univ, one_smul, variance_fun_id_gaussianReal] at this
    exact this.symm
  have c2 : cov[fun ω : ℝ × ℝ => ω.2, fun ω : ℝ × ℝ => ω.2; (gaussianReal 0 1).prod (gaussianReal 0 1)] = 1 := by
    rw [covariance_self h2.aemeasurable]
    have := variance_map (μ := (gaussianReal 0 1).prod (gaussianReal 0 1)) (Y := fun ω : ℝ × ℝ => ω.2) (X := fun x : ℝ => x) (by fun_prop) (by fun_prop)
    rw [show (fun ω : ℝ × ℝ => ω.2) = Prod.snd from rfl, Measure.map_snd_prod] at this
    simp only [measure_univ, one_smul, variance_fun_id_gaussianReal] at this
    exact this.symm
  have c12 := hi.covariance_eq_zero h1.memLp_two h2.memLp_two
  refine ⟨⟨fun I => ?_⟩, ?_, ?_, ?_, ?_, ?_⟩
  · let L : (ℝ × ℝ) →ₗ[ℝ] (I → ℝ) :=
      { toFun := fun z t => Sum.elim (fun x : ℝ => x * z.1) (fun _ : Unit => z.2) t.1
        map_add' := by
          intro a b
          ext ⟨t, ht⟩
          cases t <;> simp [mul_add]
        map_smul' := by
          intro c a
          ext ⟨t, ht⟩
          cases t <;> simp <;> ring }
    have := h12.map (LinearMap.toContinuousLinearMap L)
    have e : (fun ω : ℝ × ℝ => I.restrict ((Sum.elim (fun x (ω : ℝ × ℝ) => x * ω.1) (fun (_ : Unit) ω => ω.2)) · ω)) =
        ⇑(LinearMap.toContinuousLinearMap L) ∘ fun ω => (ω.1, ω.2) := by
      ext ω ⟨t, ht⟩
      cases t <;> rfl
    rw [e]
    exact this
  · intro x
    rw [integral_const_mul, e1]
    simp [exM]
  · intro i
    exact e2
  · intro x x'
    rw [covariance_const_mul_left, covariance_const_mul_right, c1]
    simp [exM, linK]
  · intro i j
    rw [c2]
    simp [exR]
  · intro x i
    rw [covariance_const_mul_left, c12, mul_zero]

/-- One measurement `y` of a random line at 1 with an error of standard deviation 1: at `x`, the prediction is the conditional distribution. -/
example (x : ℝ) : ∀ᵐ y ∂(((gaussianReal 0 1).prod (gaussianReal 0 1)).map fun (ω : ℝ × ℝ) (_ : Unit) => exR.X () * ω.1 + ω.2),
    condDistrib (fun ω : ℝ × ℝ => x * ω.1) (fun ω (_ : Unit) => exR.X () * ω.1 + ω.2) ((gaussianReal 0 1).prod (gaussianReal 0 1)) y =
      gaussianReal (exM.mean exChol ⟨exR.X, y, exR.noise⟩ x) ((exM.std exChol ⟨exR.X, y, exR.noise⟩ x) ^ 2).toNNReal :=
  C125_conditional exChol exM (by norm_num [exM]) exR.X exR.noise (fun y => exChol_isFactor (exR_posDef)) ex_law x

end GPry.Gp
