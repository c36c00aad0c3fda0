import Verif.StatProps
import Mathlib.Probability.Distributions.Gaussian.Multivariate
import Mathlib.InformationTheory.KullbackLeibler.Basic
import Mathlib.Analysis.SpecialFunctions.Gaussian.FourierTransform

set_option linter.all false

/-! # `kl_norm` is the Kullback-Leibler divergence of normal distributions (C60) -/

namespace GPry.Stat

open MeasureTheory ProbabilityTheory Real InformationTheory
open scoped Matrix MatrixOrder RealInnerProductSpace

variable {d : ℕ}

/-- Logarithm of the density of a normal distribution. -/
noncomputable def logpdf (μ : EuclideanSpace ℝ (Fin d)) (S : Matrix (Fin d) (Fin d) ℝ) (x : EuclideanSpace ℝ (Fin d)) : ℝ :=
  -(1 / 2) * ((x - μ).ofLp ⬝ᵥ S⁻¹ *ᵥ (x - μ).ofLp) - 1 / 2 * log S.det - d / 2 * log (2 * π)

/-- The standard normal distribution has a density. -/
theorem stdGaussian_withDensity :
    stdGaussian (EuclideanSpace ℝ (Fin d)) = volume.withDensity fun x => ENNReal.ofReal (exp (-(1 / 2) * ‖x‖ ^ 2 - d / 2 * log (2 * π))) := by
  have hcont : Continuous fun x : EuclideanSpace ℝ (Fin d) => exp (-(1 / 2) * ‖x‖ ^ 2 - d / 2 * log (2 * π)) := by fun_prop
  have hint : Integrable (fun x : EuclideanSpace ℝ (Fin d) => exp (-(1 / 2) * ‖x‖ ^ 2 - d / 2 * log (2 * π))) := by
    have h := GaussianFourier.integrable_cexp_neg_mul_sq_norm_add (V := EuclideanSpace ℝ (Fin d)) (b := 1 / 2) (by norm_num) 0 0
    have h2 := h.re.mul_const (exp (-(d / 2 * log (2 * π))))
    refine h2.congr (Filter.Eventually.of_forall fun x => ?_)
    simp only [sub_eq_add_neg, exp_add]
    congr 1
    have : (-(1 / 2 : ℂ) * (‖x‖ : ℂ) ^ 2 + 0 * ((⟪(0 : EuclideanSpace ℝ (Fin d)), x⟫ : ℝ) : ℂ)) = ((-(1 / 2) * ‖x‖ ^ 2 : ℝ) : ℂ) := by
      push_cast; ring
    rw [this, ← Complex.ofReal_exp]
    exact Complex.ofReal_re _
  have hfin : IsFiniteMeasure (volume.withDensity fun x : EuclideanSpace ℝ (Fin d) => ENNReal.ofReal (exp (-(1 / 2) * ‖x‖ ^ 2 - d / 2 * log (2 * π)))) :=
    isFiniteMeasure_withDensity_ofReal hint.2
  apply Measure.ext_of_charFun
  ext t
  rw [charFun_stdGaussian, charFun_apply, integral_withDensity_eq_integral_toReal_smul (by fun_prop) (by simp)]
  have h := GaussianFourier.integral_cexp_neg_mul_sq_norm_add (V := EuclideanSpace ℝ (Fin d)) (b := 1 / 2) (by norm_num) Complex.I t
  have hf : ∀ x : EuclideanSpace ℝ (Fin d), (ENNReal.ofReal (exp (-(1 / 2) * ‖x‖ ^ 2 - d / 2 * log (2 * π)))).toReal • Complex.exp (((⟪x, t⟫ : ℝ) : ℂ) * Complex.I)
      = ((exp (-(d / 2 * log (2 * π))) : ℝ) : ℂ) * Complex.exp (-(1 / 2) * (‖x‖ : ℂ) ^ 2 + Complex.I * ((⟪t, x⟫ : ℝ) : ℂ)) := by
    intro x
    rw [ENNReal.toReal_ofReal (exp_pos _).le, sub_eq_add_neg, exp_add, Complex.real_smul, Complex.exp_add, real_inner_comm]
    rw [Complex.ofReal_mul, Complex.ofReal_exp (-(1 / 2) * ‖x‖ ^ 2), mul_comm Complex.I]
    push_cast
    ring
  simp_rw [hf]
  rw [integral_const_mul, h]
  rw [finrank_euclideanSpace_fin]
  have hpow : ((π : ℂ) / (1 / 2)) ^ ((d : ℂ) / 2) = ((exp (d / 2 * log (2 * π)) : ℝ) : ℂ) := by
    have h1 : ((π : ℂ) / (1 / 2)) = ((2 * π : ℝ) : ℂ) := by push_cast; ring
    have h2 : ((d : ℂ) / 2) = ((d / 2 : ℝ) : ℂ) := by push_cast; ring
    rw [h1, h2, ← Complex.ofReal_cpow (by positivity), Real.rpow_def_of_pos (by positivity), mul_comm (log _)]
  rw [hpow, ← mul_assoc, ← Complex.ofReal_mul, ← exp_add, neg_add_cancel, exp_zero, Complex.ofReal_one, one_mul, Complex.I_sq]
  congr 1
  ring

theorem sqrt_facts {S : Matrix (Fin d) (Fin d) ℝ} (hS : S.PosDef) :
    CFC.sqrt S * CFC.sqrt S = S ∧ (CFC.sqrt S)ᵀ = CFC.sqrt S ∧ IsUnit (CFC.sqrt S).det ∧ (CFC.sqrt S).det ^ 2 = S.det := by
  have hB : CFC.sqrt S * CFC.sqrt S = S := CFC.sqrt_mul_sqrt_self _ hS.posSemidef.nonneg
  have hsym : (CFC.sqrt S)ᵀ = CFC.sqrt S := by
    have := (CFC.sqrt_nonneg S).isSelfAdjoint
    exact this
  refine ⟨hB, hsym, ?_, ?_⟩
  · have : IsUnit S.det := (Matrix.isUnit_iff_isUnit_det S).mp hS.isUnit
    rw [← hB, Matrix.det_mul] at this
    exact isUnit_of_mul_isUnit_left this
  · rw [sq, ← Matrix.det_mul, hB]

theorem whiten {S : Matrix (Fin d) (Fin d) ℝ} (hS : S.PosDef) (μ z : EuclideanSpace ℝ (Fin d)) :
    logpdf μ S (μ + Matrix.toEuclideanCLM (𝕜 := ℝ) (CFC.sqrt S) z) = -(1 / 2) * ‖z‖ ^ 2 - 1 / 2 * log S.det - d / 2 * log (2 * π) := by
  obtain ⟨hB, hsym, hdet, -⟩ := sqrt_facts hS
  have e : (μ + Matrix.toEuclideanCLM (𝕜 := ℝ) (CFC.sqrt S) z - μ).ofLp = (CFC.sqrt S).mulVec z.ofLp := by
    rw [add_sub_cancel_left]
    simp
  have hi : S⁻¹ = (CFC.sqrt S)⁻¹ * (CFC.sqrt S)⁻¹ := by rw [← Matrix.mul_inv_rev, hB]
  have hq : (CFC.sqrt S).mulVec z.ofLp ⬝ᵥ S⁻¹.mulVec ((CFC.sqrt S).mulVec z.ofLp) = ‖z‖ ^ 2 := by
    rw [hi, ← Matrix.mulVec_mulVec, Matrix.mulVec_mulVec (M := (CFC.sqrt S)⁻¹) (N := CFC.sqrt S), Matrix.nonsing_inv_mul _ hdet, Matrix.one_mulVec, Matrix.dotProduct_mulVec,
      ← Matrix.mulVec_transpose, Matrix.transpose_nonsing_inv, hsym, Matrix.mulVec_mulVec, Matrix.nonsing_inv_mul _ hdet, Matrix.one_mulVec,
      EuclideanSpace.real_norm_sq_eq]
    simp only [dotProduct, sq]
  unfold logpdf
  rw [e, hq]

theorem continuous_logpdf (μ : EuclideanSpace ℝ (Fin d)) (S : Matrix (Fin d) (Fin d) ℝ) : Continuous (logpdf μ S) := by
  unfold logpdf
  simp only [dotProduct, Matrix.mulVec]
  fun_prop

/-- The density of a normal distribution with positive definite covariance matrix. -/
theorem multivariateGaussian_withDensity (μ : EuclideanSpace ℝ (Fin d)) {S : Matrix (Fin d) (Fin d) ℝ} (hS : S.PosDef) :
    multivariateGaussian μ S = volume.withDensity fun x => ENNReal.ofReal (exp (logpdf μ S x)) := by
  obtain ⟨hB, hsym, hdet, hsq⟩ := sqrt_facts hS
  have hmeas : Measurable fun x : EuclideanSpace ℝ (Fin d) => μ + Matrix.toEuclideanCLM (𝕜 := ℝ) (CFC.sqrt S) x := by fun_prop
  have hl := continuous_logpdf μ S
  ext s hs
  rw [multivariateGaussian, Measure.map_apply hmeas hs, stdGaussian_withDensity, withDensity_apply _ (hmeas hs), withDensity_apply _ hs]
  have hdetL : LinearMap.det (Matrix.toEuclideanCLM (𝕜 := ℝ) (CFC.sqrt S)).toLinearMap = (CFC.sqrt S).det := by
    rw [Matrix.coe_toEuclideanCLM_eq_toEuclideanLin, Matrix.toEuclideanLin_eq_toLin, LinearMap.det_toLin]
  have hmap := Measure.map_linearMap_addHaar_eq_smul_addHaar (volume : Measure (EuclideanSpace ℝ (Fin d)))
    (f := (Matrix.toEuclideanCLM (𝕜 := ℝ) (CFC.sqrt S)).toLinearMap) (by rw [hdetL]; exact hdet.ne_zero)
  rw [hdetL] at hmap
  have hg : Measurable fun x : EuclideanSpace ℝ (Fin d) => s.indicator (fun x => ENNReal.ofReal (exp (logpdf μ S x))) (μ + x) := by
    refine Measurable.comp (g := s.indicator (fun x => ENNReal.ofReal (exp (logpdf μ S x)))) ?_ (by fun_prop)
    exact Measurable.indicator (by fun_prop) hs
  have h1 := lintegral_map (μ := (volume : Measure (EuclideanSpace ℝ (Fin d)))) hg
    (g := fun x => (Matrix.toEuclideanCLM (𝕜 := ℝ) (CFC.sqrt S)).toLinearMap x) (by fun_prop)
  rw [hmap, lintegral_smul_measure, lintegral_add_left_eq_self (μ := (volume : Measure (EuclideanSpace ℝ (Fin d))))
    (fun x => s.indicator (fun x => ENNReal.ofReal (exp (logpdf μ S x))) x) μ] at h1
  rw [← lintegral_indicator hs, ← lintegral_indicator (hmeas hs)]
  have habs : |(CFC.sqrt S).det| = exp (1 / 2 * log S.det) := by
    rw [← hsq, Real.log_pow, ← Real.log_abs]
    push_cast
    rw [← mul_assoc, show (1 / 2 : ℝ) * 2 = 1 by norm_num, one_mul, exp_log (abs_pos.mpr hdet.ne_zero)]
  have hpt : ∀ a : EuclideanSpace ℝ (Fin d), ((fun x : EuclideanSpace ℝ (Fin d) => μ + Matrix.toEuclideanCLM (𝕜 := ℝ) (CFC.sqrt S) x) ⁻¹' s).indicator
      (fun x => ENNReal.ofReal (exp (-(1 / 2) * ‖x‖ ^ 2 - d / 2 * log (2 * π)))) a =
      ENNReal.ofReal |(CFC.sqrt S).det| * s.indicator (fun x => ENNReal.ofReal (exp (logpdf μ S x)))
        (μ + (Matrix.toEuclideanCLM (𝕜 := ℝ) (CFC.sqrt S)).toLinearMap a) := by
    intro a
    by_cases ha : μ + Matrix.toEuclideanCLM (𝕜 := ℝ) (CFC.sqrt S) a ∈ s
    · rw [Set.indicator_of_mem (by exact ha), Set.indicator_of_mem (by exact ha)]
      show _ = ENNReal.ofReal |(CFC.sqrt S).det| * ENNReal.ofReal (exp (logpdf μ S (μ + Matrix.toEuclideanCLM (𝕜 := ℝ) (CFC.sqrt S) a)))
      rw [whiten hS, habs, ← ENNReal.ofReal_mul (exp_pos _).le, ← exp_add]
      congr 2
      ring
    · rw [Set.indicator_of_notMem (by exact ha), Set.indicator_of_notMem (by exact ha), mul_zero]
  rw [lintegral_congr hpt, lintegral_const_mul' _ _ ENNReal.ofReal_ne_top, ← h1, smul_eq_mul, ← mul_assoc, ← ENNReal.ofReal_mul (abs_nonneg _),
    abs_inv, mul_inv_cancel₀ (abs_ne_zero.mpr hdet.ne_zero), ENNReal.ofReal_one, one_mul]

/-- Expectation of a quadratic form. -/
theorem integral_quad (μ m : EuclideanSpace ℝ (Fin d)) {S : Matrix (Fin d) (Fin d) ℝ} (hS : S.PosSemidef) (A : Matrix (Fin d) (Fin d) ℝ) :
    Integrable (fun x : EuclideanSpace ℝ (Fin d) => (x - m).ofLp ⬝ᵥ A *ᵥ (x - m).ofLp) (multivariateGaussian μ S) ∧
    ∫ x, (x - m).ofLp ⬝ᵥ A *ᵥ (x - m).ofLp ∂(multivariateGaussian μ S) = (A * S).trace + (μ - m).ofLp ⬝ᵥ A *ᵥ (μ - m).ofLp := by
  have h2 : ∀ i, MemLp (fun x : EuclideanSpace ℝ (Fin d) => x i) 2 (multivariateGaussian μ S) := by
    intro i
    exact (IsGaussian.memLp_two_id (μ := multivariateGaussian μ S)).continuousLinearMap_comp (EuclideanSpace.proj i : EuclideanSpace ℝ (Fin d) →L[ℝ] ℝ)
  have h2' : ∀ i, MemLp (fun x : EuclideanSpace ℝ (Fin d) => x i - m i) 2 (multivariateGaussian μ S) := fun i => (h2 i).sub (memLp_const _)
  have hmean : ∀ i, ∫ x, x i ∂(multivariateGaussian μ S) = μ i := by
    intro i
    have := (EuclideanSpace.proj i : EuclideanSpace ℝ (Fin d) →L[ℝ] ℝ).integral_comp_comm (IsGaussian.integrable_id (μ := multivariateGaussian μ S))
    simpa using this
  have hint : ∀ i j, Integrable (fun x : EuclideanSpace ℝ (Fin d) => (x i - m i) * (x j - m j)) (multivariateGaussian μ S) := fun i j =>
    (h2' i).integrable_mul (h2' j)
  have hij : ∀ i j, ∫ x, (x i - m i) * (x j - m j) ∂(multivariateGaussian μ S) = S i j + (μ i - m i) * (μ j - m j) := by
    intro i j
    have hc := covariance_eval_multivariateGaussian (μ := μ) hS i j
    rw [covariance_eq_sub (h2 i) (h2 j), hmean, hmean] at hc
    have e : ∀ x : EuclideanSpace ℝ (Fin d), (x i - m i) * (x j - m j) = x i * x j - m j * x i - m i * x j + m i * m j := fun x => by ring
    have i1 : Integrable (fun x : EuclideanSpace ℝ (Fin d) => x i * x j) (multivariateGaussian μ S) := (h2 i).integrable_mul (h2 j)
    have i2 : ∀ i, Integrable (fun x : EuclideanSpace ℝ (Fin d) => x i) (multivariateGaussian μ S) := fun i => (h2 i).integrable (by norm_num)
    simp_rw [e]
    rw [integral_add (by exact (i1.sub ((i2 i).const_mul _)).sub ((i2 j).const_mul _)) (integrable_const _),
      integral_sub (by exact i1.sub ((i2 i).const_mul _)) ((i2 j).const_mul _), integral_sub i1 ((i2 i).const_mul _), integral_const_mul, integral_const_mul, hmean, hmean]
    simp only [Pi.mul_apply] at hc
    simp only [integral_const, probReal_univ, smul_eq_mul]
    linarith
  have e : ∀ x : EuclideanSpace ℝ (Fin d), (x - m).ofLp ⬝ᵥ A *ᵥ (x - m).ofLp = ∑ i, ∑ j, A i j * ((x i - m i) * (x j - m j)) := by
    intro x
    simp only [dotProduct, Matrix.mulVec, Finset.mul_sum]
    refine Finset.sum_congr rfl fun i _ => Finset.sum_congr rfl fun j _ => ?_
    show (x i - m i) * (A i j * (x j - m j)) = _
    ring
  simp_rw [e]
  constructor
  · exact integrable_finset_sum _ fun i _ => integrable_finset_sum _ fun j _ => (hint i j).const_mul _
  · have hs : ∫ x : EuclideanSpace ℝ (Fin d), ∑ i, ∑ j, A i j * ((x i - m i) * (x j - m j)) ∂(multivariateGaussian μ S) =
        ∑ i, ∑ j, (A i j * S i j + A i j * ((μ i - m i) * (μ j - m j))) := by
      rw [integral_finset_sum (Finset.univ) (f := fun i (x : EuclideanSpace ℝ (Fin d)) => ∑ j, A i j * ((x i - m i) * (x j - m j)))
        fun i _ => integrable_finset_sum _ fun j _ => (hint i j).const_mul _]
      refine Finset.sum_congr rfl fun i _ => ?_
      rw [integral_finset_sum (Finset.univ) (f := fun j (x : EuclideanSpace ℝ (Fin d)) => A i j * ((x i - m i) * (x j - m j)))
        fun j _ => (hint i j).const_mul _]
      refine Finset.sum_congr rfl fun j _ => ?_
      rw [integral_const_mul, hij, mul_add]
    rw [hs]
    simp_rw [Finset.sum_add_distrib]
    congr 1
    simp only [Matrix.trace, Matrix.diag, Matrix.mul_apply]
    have hsym : ∀ i j, S i j = S j i := fun i j => by
      have := hS.1.apply i j
      simpa using this.symm
    exact Finset.sum_congr rfl fun i _ => Finset.sum_congr rfl fun j _ => by rw [hsym i j]

/-- **C60** (meaning): for positive definite covariance matrices, the number computed by `kl_norm` is the Kullback-Leibler divergence between the two normal
distributions. -/
theorem C60_is_divergence (m0 m1 : EuclideanSpace ℝ (Fin d)) {S0 S1 : Matrix (Fin d) (Fin d) ℝ} (h0 : S0.PosDef) (h1 : S1.PosDef) :
    klDiv (multivariateGaussian m0 S0) (multivariateGaussian m1 S1) = ENNReal.ofReal (klNorm m0.ofLp S0 m1.ofLp S1) := by
  have c0 := continuous_logpdf m0 S0
  have c1 := continuous_logpdf m1 S1
  have hd : multivariateGaussian m0 S0 = (multivariateGaussian m1 S1).withDensity fun x => ENNReal.ofReal (exp (logpdf m0 S0 x - logpdf m1 S1 x)) := by
    rw [multivariateGaussian_withDensity m0 h0, multivariateGaussian_withDensity m1 h1, ← withDensity_mul _ (by fun_prop) (by fun_prop)]
    congr 1
    ext x
    rw [Pi.mul_apply, ← ENNReal.ofReal_mul (exp_pos _).le, ← exp_add]
    congr 2
    ring
  have hac : multivariateGaussian m0 S0 ≪ multivariateGaussian m1 S1 := by
    rw [hd]
    exact withDensity_absolutelyContinuous _ _
  have hrn : (multivariateGaussian m0 S0).rnDeriv (multivariateGaussian m1 S1) =ᵐ[multivariateGaussian m0 S0]
      fun x => ENNReal.ofReal (exp (logpdf m0 S0 x - logpdf m1 S1 x)) := by
    apply hac.ae_eq
    conv_lhs => rw [hd]
    exact Measure.rnDeriv_withDensity _ (by fun_prop)
  have hllr : llr (multivariateGaussian m0 S0) (multivariateGaussian m1 S1) =ᵐ[multivariateGaussian m0 S0] fun x => logpdf m0 S0 x - logpdf m1 S1 x := by
    filter_upwards [hrn] with x hx
    rw [llr, hx, ENNReal.toReal_ofReal (exp_pos _).le, log_exp]
  have q0 := integral_quad m0 m0 h0.posSemidef S0⁻¹
  have q1 := integral_quad m0 m1 h0.posSemidef S1⁻¹
  have hdiff : ∀ x, logpdf m0 S0 x - logpdf m1 S1 x = 1 / 2 * ((x - m1).ofLp ⬝ᵥ S1⁻¹ *ᵥ (x - m1).ofLp) - 1 / 2 * ((x - m0).ofLp ⬝ᵥ S0⁻¹ *ᵥ (x - m0).ofLp)
      + 1 / 2 * (log S1.det - log S0.det) := by
    intro x
    unfold logpdf
    ring
  have hint : Integrable (fun x => logpdf m0 S0 x - logpdf m1 S1 x) (multivariateGaussian m0 S0) := by
    simp_rw [hdiff]
    exact ((q1.1.const_mul _).sub (q0.1.const_mul _)).add (integrable_const _)
  rw [klDiv_of_ac_of_integrable hac (hint.congr hllr.symm), integral_congr_ae hllr]
  simp only [probReal_univ, add_sub_cancel_right]
  congr 1
  simp_rw [hdiff]
  rw [integral_add (by exact (q1.1.const_mul _).sub (q0.1.const_mul _)) (integrable_const _), integral_sub (q1.1.const_mul _) (q0.1.const_mul _), integral_const_mul,
    integral_const_mul, q0.2, q1.2]
  have hdet : IsUnit S0.det := (Matrix.isUnit_iff_isUnit_det S0).mp h0.isUnit
  rw [Matrix.nonsing_inv_mul _ hdet, Matrix.trace_one]
  have hsub : m1.ofLp - m0.ofLp = -(m0 - m1).ofLp := by
    ext i
    simp
  unfold klNorm
  rw [hsub, Matrix.mulVec_neg, neg_dotProduct, dotProduct_neg, neg_neg]
  simp only [sub_self, integral_const, probReal_univ, smul_eq_mul, one_mul]
  simp
  ring

/-- Two parameters, correlated distribution against an uncorrelated one. -/
example : klDiv (multivariateGaussian !₂[0, 0] !![2, 1; 1, 2]) (multivariateGaussian !₂[1, 0] 1) =
    ENNReal.ofReal (klNorm ![0, 0] !![2, 1; 1, 2] ![1, 0] 1) := by
  have h : (!![2, 1; 1, 2] : Matrix (Fin 2) (Fin 2) ℝ).PosDef := by
    refine Matrix.PosDef.of_dotProduct_mulVec_pos (by ext i j; fin_cases i <;> fin_cases j <;> simp) fun v hv => ?_
    simp only [star_trivial, dotProduct, Matrix.mulVec, Fin.sum_univ_two, Matrix.of_apply, Matrix.cons_val_zero, Matrix.cons_val_one, Matrix.cons_val', Matrix.cons_val_fin_one]
    have : v 0 ≠ 0 ∨ v 1 ≠ 0 := by
      by_contra hc
      push Not at hc
      exact hv (by ext i; fin_cases i <;> simp [hc])
    rcases this with h | h
    · nlinarith [sq_nonneg (v 0 + v 1), sq_nonneg (v 1), pow_pos (sq_pos_of_ne_zero h) 1]
    · nlinarith [sq_nonneg (v 0 + v 1), sq_nonneg (v 0), pow_pos (sq_pos_of_ne_zero h) 1]
  exact C60_is_divergence _ _ h Matrix.PosDef.one

end GPry.Stat
