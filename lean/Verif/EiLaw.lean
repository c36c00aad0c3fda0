import Verif.AcqProps
import Mathlib.Probability.Distributions.Gaussian.Real
import Mathlib.MeasureTheory.Integral.IntegralEqImproper
import Mathlib.MeasureTheory.Integral.IntervalIntegral.FundThmCalculus
import Mathlib.Analysis.Calculus.Deriv.MeanValue

set_option linter.all false

/-! # C126: `ExpectedImprovement` is the expectation of the improvement -/

namespace GPry.Acq

open Kernels

open MeasureTheory ProbabilityTheory Set Filter Topology

/-- The distribution function of the standard normal distribution, `scipy.stats.norm.cdf` (used at acquisition_functions.py:841). -/
noncomputable def normCdf (t : ℝ) : ℝ := (gaussianReal 0 1).real (Iic t)

/-- The density of the standard normal distribution, `scipy.stats.norm.pdf` (used at acquisition_functions.py:842). -/
noncomputable def normPdf (t : ℝ) : ℝ := gaussianPDFReal 0 1 t

theorem normPdf_def (t : ℝ) : normPdf t = (√(2 * Real.pi))⁻¹ * Real.exp (-t ^ 2 / 2) := by
  simp [normPdf, gaussianPDFReal]

theorem normPdf_pos (t : ℝ) : 0 < normPdf t := gaussianPDFReal_pos _ _ _ one_ne_zero

theorem normPdf_neg (t : ℝ) : normPdf (-t) = normPdf t := by rw [normPdf_def, normPdf_def, neg_sq]

theorem hasDerivAt_normPdf (t : ℝ) : HasDerivAt normPdf (-t * normPdf t) t := by
  have e : normPdf = fun t => (√(2 * Real.pi))⁻¹ * Real.exp (-t ^ 2 / 2) := funext normPdf_def
  have h : HasDerivAt (fun t : ℝ => -t ^ 2 / 2) (-t) t := by
    have := ((hasDerivAt_pow 2 t).neg).div_const 2
    refine this.congr_deriv ?_
    simp
    ring
  rw [e]
  refine ((h.exp).const_mul _).congr_deriv ?_
  ring

theorem continuous_normPdf : Continuous normPdf :=
  continuous_iff_continuousAt.2 fun t => (hasDerivAt_normPdf t).continuousAt

theorem integrable_normPdf : Integrable normPdf := integrable_gaussianPDFReal 0 1

theorem normCdf_eq (t : ℝ) : normCdf t = ∫ x in Iic t, normPdf x := by
  rw [normCdf, measureReal_def, gaussianReal_apply_eq_integral 0 one_ne_zero,
    ENNReal.toReal_ofReal (setIntegral_nonneg measurableSet_Iic fun x _ => gaussianPDFReal_nonneg _ _ _)]
  rfl

theorem hasDerivAt_normCdf (t : ℝ) : HasDerivAt normCdf (normPdf t) t := by
  have e : normCdf = fun t => normCdf 0 + ∫ x in (0 : ℝ)..t, normPdf x := by
    funext t
    rw [← intervalIntegral.integral_Iic_sub_Iic integrable_normPdf.integrableOn integrable_normPdf.integrableOn, ← normCdf_eq, ← normCdf_eq]
    ring
  rw [e]
  exact (continuous_normPdf.integral_hasStrictDerivAt 0 t).hasDerivAt.const_add _

theorem normCdf_pos (t : ℝ) : 0 < normCdf t := by
  have : 0 < (gaussianReal 0 1) (Iic t) := by
    have h := gaussianReal_absolutelyContinuous' 0 (one_ne_zero (α := NNReal))
    rw [pos_iff_ne_zero]
    intro h0
    have := h h0
    simp at this
  exact ENNReal.toReal_pos this.ne' (measure_ne_top _ _)

theorem normCdf_eq_Ioi (a : ℝ) : normCdf a = ∫ x in Ioi (-a), normPdf x := by
  rw [normCdf_eq, ← integral_comp_neg_Iic]
  exact setIntegral_congr_fun measurableSet_Iic fun x _ => (normPdf_neg x).symm

theorem tendsto_normPdf : Tendsto normPdf atTop (𝓝 0) := by
  have e : normPdf = fun t => (√(2 * Real.pi))⁻¹ * Real.exp (-t ^ 2 / 2) := funext normPdf_def
  rw [e]
  have : Tendsto (fun t : ℝ => -t ^ 2 / 2) atTop atBot := by
    have h : Tendsto (fun t : ℝ => t ^ 2 / 2) atTop atTop := (tendsto_pow_atTop (two_ne_zero)).atTop_div_const two_pos
    have := tendsto_neg_atTop_atBot.comp h
    refine this.congr fun t => ?_
    simp
    ring
  simpa using (Real.tendsto_exp_atBot.comp this).const_mul (√(2 * Real.pi))⁻¹

theorem integrable_mul_normPdf : Integrable fun x => x * normPdf x := by
  have h : Integrable (fun x : ℝ => x) (gaussianReal 0 1) := (memLp_id_gaussianReal 1).integrable (by simp)
  rw [gaussianReal_of_var_ne_zero _ one_ne_zero, integrable_withDensity_iff_integrable_smul' (measurable_gaussianPDF 0 1) (by simp [gaussianPDF])] at h
  refine h.congr (Eventually.of_forall fun x => ?_)
  simp only [toReal_gaussianPDF, smul_eq_mul, normPdf]
  ring

/-- Mean of the positive part of a standard normal variable shifted by `a`. -/
theorem integral_pos_part (a : ℝ) : ∫ z, max (z + a) 0 ∂(gaussianReal 0 1) = a * normCdf a + normPdf a := by
  rw [integral_gaussianReal_eq_integral_smul one_ne_zero]
  have e : (fun z => gaussianPDFReal 0 1 z • max (z + a) 0) = (Ioi (-a)).indicator fun z => z * normPdf z + a * normPdf z := by
    funext z
    by_cases hz : z ∈ Ioi (-a)
    · rw [indicator_of_mem hz, max_eq_left (by have := mem_Ioi.1 hz; linarith)]
      simp only [smul_eq_mul, normPdf]
      ring
    · rw [indicator_of_notMem hz, max_eq_right (by have := not_lt.1 (fun h => hz (mem_Ioi.2 h)); linarith)]
      simp
  rw [e, integral_indicator measurableSet_Ioi, integral_add integrable_mul_normPdf.integrableOn (integrable_normPdf.const_mul a).integrableOn,
    integral_const_mul, ← normCdf_eq_Ioi]
  have h := integral_Ioi_of_hasDerivAt_of_tendsto' (f := fun t => -normPdf t) (f' := fun x => x * normPdf x) (a := -a) (m := -0)
    (fun x _ => (hasDerivAt_normPdf x).neg.congr_deriv (by ring)) integrable_mul_normPdf.integrableOn tendsto_normPdf.neg
  rw [h, normPdf_neg]
  ring

/-- **C126**: at a point where the surrogate has a positive standard deviation, `ExpectedImprovement` is the mean of `max(f - y_max - xi, 0)` for
a normal variable `f` with the mean and the standard deviation of the surrogate. -/
theorem C126_expectation (yOpt xi mu std : ℝ) (h : 0 < std) :
    eiValue normCdf normPdf yOpt xi mu std = ∫ f, max (f - yOpt - xi) 0 ∂(gaussianReal mu (std ^ 2).toNNReal) := by
  have hm : gaussianReal mu (std ^ 2).toNNReal = (gaussianReal 0 1).map (fun z => std * z + mu) := by
    have h1 := gaussianReal_map_const_mul (μ := 0) (v := 1) std
    have h2 := gaussianReal_map_add_const (μ := std * 0) (v := NNReal.mk (std ^ 2) (sq_nonneg _) * 1) mu
    rw [← h1, Measure.map_map (by fun_prop) (by fun_prop)] at h2
    have e : (fun z => std * z + mu) = (fun x => x + mu) ∘ fun x => std * x := rfl
    rw [e, h2]
    congr 1
    · ring
    · ext
      simp [Real.coe_toNNReal _ (sq_nonneg std)]
  rw [hm, integral_map (by fun_prop) (by fun_prop)]
  have e : ∀ z, max (std * z + mu - yOpt - xi) 0 = std * max (z + (mu - yOpt - xi) / std) 0 := by
    intro z
    rw [mul_max_of_nonneg _ _ h.le, mul_zero]
    congr 1
    field_simp
    ring
  simp_rw [e]
  rw [integral_const_mul, integral_pos_part, eiValue, if_pos h]
  field_simp

/-- **C126** (no uncertainty): where the standard deviation is zero the value is 0, which is the mean of the improvement if and only if the mean of the
surrogate does not exceed `y_max + xi`. -/
theorem C126_zero_std (yOpt xi mu : ℝ) :
    eiValue normCdf normPdf yOpt xi mu 0 = 0 ∧
    (eiValue normCdf normPdf yOpt xi mu 0 = ∫ f, max (f - yOpt - xi) 0 ∂(gaussianReal mu ((0 : ℝ) ^ 2).toNNReal) ↔ mu ≤ yOpt + xi) := by
  have h0 : eiValue normCdf normPdf yOpt xi mu 0 = 0 := by rw [eiValue, if_neg (lt_irrefl _)]
  refine ⟨h0, ?_⟩
  have e : ((0 : ℝ) ^ 2).toNNReal = 0 := by simp
  rw [h0, e, gaussianReal_zero_var, integral_dirac]
  constructor
  · intro h
    have := le_max_left (mu - yOpt - xi) 0
    linarith
  · intro h
    rw [max_eq_right (by linarith)]

/-- The mean of the improvement in units of the standard deviation. -/
noncomputable def hEi (a : ℝ) : ℝ := a * normCdf a + normPdf a

theorem hasDerivAt_hEi (a : ℝ) : HasDerivAt hEi (normCdf a) a := by
  refine (((hasDerivAt_id a).mul (hasDerivAt_normCdf a)).add (hasDerivAt_normPdf a)).congr_deriv ?_
  simp

theorem strictMono_hEi : StrictMono hEi :=
  strictMono_of_deriv_pos fun a => by rw [(hasDerivAt_hEi a).deriv]; exact normCdf_pos a

theorem hEi_nonneg (a : ℝ) : 0 ≤ hEi a := by
  rw [hEi, ← integral_pos_part]
  exact integral_nonneg fun z => le_max_right _ _

theorem hEi_pos (a : ℝ) : 0 < hEi a := (hEi_nonneg (a - 1)).trans_lt (strictMono_hEi (by linarith))

theorem ei_eq (yOpt xi mu std : ℝ) (h : 0 < std) : eiValue normCdf normPdf yOpt xi mu std = std * hEi ((mu - yOpt - xi) / std) := by
  rw [eiValue, if_pos h, hEi]
  field_simp

theorem le_hEi (a : ℝ) : a < hEi a := by
  -- `h(a) - a` is strictly decreasing and non-negative
  have hd : ∀ x, HasDerivAt (fun x => hEi x - x) (normCdf x - 1) x := fun x => (hasDerivAt_hEi x).sub (hasDerivAt_id x)
  have hlt : ∀ x, normCdf x < 1 := by
    intro x
    have h1 : normCdf x + normCdf (-x) = 1 := by
      rw [normCdf_eq_Ioi (-x), normCdf_eq, neg_neg]
      have := integral_gaussianPDFReal_eq_one 0 (one_ne_zero (α := NNReal))
      rw [← this, ← integral_add_compl (measurableSet_Iic (a := x)) (integrable_gaussianPDFReal 0 1), compl_Iic]
      rfl
    linarith [normCdf_pos (-x)]
  have hanti : StrictAnti fun x => hEi x - x :=
    strictAnti_of_deriv_neg fun x => by rw [(hd x).deriv]; linarith [hlt x]
  have hge : ∀ x, 0 ≤ hEi x - x := by
    intro x
    have hi : Integrable (fun z : ℝ => z) (gaussianReal 0 1) := (memLp_id_gaussianReal 1).integrable (by simp)
    have hs : Integrable (fun z : ℝ => z + x) (gaussianReal 0 1) := hi.add (integrable_const x)
    have : ∫ z, (z + x) ∂(gaussianReal 0 1) ≤ ∫ z, max (z + x) 0 ∂(gaussianReal 0 1) :=
      integral_mono hs (hs.sup (integrable_const 0)) fun z => le_max_left _ _
    rw [integral_add hi (integrable_const x), integral_id_gaussianReal, integral_pos_part] at this
    simp at this
    rw [hEi]
    linarith
  have := hanti (show a < a + 1 by linarith)
  have h2 := hge (a + 1)
  simp only at this
  linarith

/-- **C126** (bounds): with a positive standard deviation the value is larger than zero and than the improvement of the mean. -/
theorem C126_bounds (yOpt xi mu std : ℝ) (h : 0 < std) :
    max (mu - yOpt - xi) 0 < eiValue normCdf normPdf yOpt xi mu std := by
  rw [ei_eq _ _ _ _ h]
  refine max_lt ?_ (mul_pos h (hEi_pos _))
  have := mul_lt_mul_of_pos_left (le_hEi ((mu - yOpt - xi) / std)) h
  rwa [mul_div_cancel₀ _ h.ne'] at this

/-- **C126** (order): the value grows strictly with the mean and with the standard deviation of the surrogate, and decreases strictly with `y_max` and
with `xi`. -/
theorem C126_order (yOpt xi mu std : ℝ) (h : 0 < std) :
    (∀ mu', mu < mu' → eiValue normCdf normPdf yOpt xi mu std < eiValue normCdf normPdf yOpt xi mu' std) ∧
    (∀ std', std < std' → eiValue normCdf normPdf yOpt xi mu std < eiValue normCdf normPdf yOpt xi mu std') ∧
    (∀ yOpt', yOpt < yOpt' → eiValue normCdf normPdf yOpt' xi mu std < eiValue normCdf normPdf yOpt xi mu std) ∧
    (∀ xi', xi < xi' → eiValue normCdf normPdf yOpt xi' mu std < eiValue normCdf normPdf yOpt xi mu std) := by
  have key : ∀ a b : ℝ, a < b → std * hEi (a / std) < std * hEi (b / std) := fun a b hab =>
    mul_lt_mul_of_pos_left (strictMono_hEi (div_lt_div_of_pos_right hab h)) h
  refine ⟨fun m' hm => ?_, fun s' hs => ?_, fun y' hy => ?_, fun x' hx => ?_⟩
  · rw [ei_eq _ _ _ _ h, ei_eq _ _ _ _ h]
    exact key _ _ (by linarith)
  · have h' : 0 < s' := h.trans hs
    rw [ei_eq _ _ _ _ h, ei_eq _ _ _ _ h']
    obtain ⟨c, hc⟩ : ∃ c, c = mu - yOpt - xi := ⟨_, rfl⟩
    rw [← hc]
    have hd : ∀ s : ℝ, 0 < s → HasDerivAt (fun s => s * hEi (c / s)) (normPdf (c / s)) s := by
      intro s hs
      have h1 : HasDerivAt (fun s : ℝ => c / s) (-c / s ^ 2) s := by
        have := (hasDerivAt_inv hs.ne').const_mul c
        refine this.congr_deriv ?_
        ring
      have h2 := (hasDerivAt_id s).mul ((hasDerivAt_hEi (c / s)).comp s h1)
      refine h2.congr_deriv ?_
      simp only [id, Function.comp, hEi]
      field_simp
      ring
    have hm : StrictMonoOn (fun s => s * hEi (c / s)) (Ioi 0) := by
      refine strictMonoOn_of_deriv_pos (convex_Ioi 0) (fun s hs => (hd s hs).continuousAt.continuousWithinAt) ?_
      intro s hs
      rw [interior_Ioi] at hs
      rw [(hd s hs).deriv]
      exact normPdf_pos _
    exact hm h h' hs
  · rw [ei_eq _ _ _ _ h, ei_eq _ _ _ _ h]
    exact key _ _ (by linarith)
  · rw [ei_eq _ _ _ _ h, ei_eq _ _ _ _ h]
    exact key _ _ (by linarith)

/-- The functions of the standard normal distribution meet the hypotheses of `C82_ei_gradient_partial`: the gradient that is returned with the value is
wrong for the normal distribution whenever the mean of the surrogate has a slope. -/
theorem C126_gradient_wrong {d : ℕ} (yOpt xi : ℝ) (mu std : (Fin d → ℝ) → ℝ) (x : Fin d → ℝ) (mg sg : Fin d → ℝ)
    (hm : ∀ j, HasPartial mu x j (mg j)) (hs : ∀ j, HasPartial std x j (sg j)) (hpos : 0 < std x) (j : Fin d) :
    HasPartial (fun z => eiValue normCdf normPdf yOpt xi (mu z) (std z)) x j (eiGrad normCdf normPdf yOpt xi (mu x) (std x) mg sg j) ↔ mg j = 0 := by
  rw [(C82_ei_gradient_partial normCdf normPdf hasDerivAt_normCdf hasDerivAt_normPdf yOpt xi mu std x mg sg hm hs hpos j).2.2]
  rw [mul_eq_zero, or_iff_left (normCdf_pos _).ne']

/-- A point with the mean at the best value found: the value is `σ / √(2 π)`. -/
example : eiValue normCdf normPdf 3 0 3 2 = 2 * (√(2 * Real.pi))⁻¹ ∧ 0 < eiValue normCdf normPdf 3 0 3 2 := by
  constructor
  · rw [eiValue, if_pos (by norm_num)]
    simp only [normPdf_def]
    simp
  · have := C126_bounds 3 0 3 2 (by norm_num)
    simpa using this

/-- The value is not the mean of the improvement at a point of zero uncertainty with a mean above the best value. -/
example : eiValue normCdf normPdf 3 0 5 0 = 0 ∧ ∫ f, max (f - 3 - 0) 0 ∂(gaussianReal 5 ((0 : ℝ) ^ 2).toNNReal) = 2 := by
  refine ⟨(C126_zero_std 3 0 5).1, ?_⟩
  have e : ((0 : ℝ) ^ 2).toNNReal = 0 := by simp
  rw [e, gaussianReal_zero_var, integral_dirac]
  norm_num

example : eiValue normCdf normPdf 3 0 5 2 = ∫ f, max (f - 3 - 0) 0 ∂(gaussianReal 5 ((2 : ℝ) ^ 2).toNNReal) :=
  C126_expectation 3 0 5 2 (by norm_num)

/-- A larger mean, a larger standard deviation, a smaller best value: more is expected. -/
example : eiValue normCdf normPdf 3 0 5 2 < eiValue normCdf normPdf 3 0 6 2 ∧ eiValue normCdf normPdf 3 0 5 2 < eiValue normCdf normPdf 3 0 5 4 ∧
    eiValue normCdf normPdf 4 0 5 2 < eiValue normCdf normPdf 3 0 5 2 := by
  obtain ⟨h1, h2, h3, -⟩ := C126_order 3 0 5 2 (by norm_num)
  exact ⟨h1 6 (by norm_num), h2 4 (by norm_num), h3 4 (by norm_num)⟩

end GPry.Acq
