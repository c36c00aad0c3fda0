import Verif.RoundKl
import Verif.CredProps
import Verif.Gpr
import Mathlib.MeasureTheory.Integral.IntegralEqImproper
import Mathlib.Analysis.Real.Pi.Bounds

set_option linter.all false

/-!
# Thresholds in numbers of standard deviations, in double precision (C152)

gpry/tools.py:100-118, gpry/gpr.py:315-327, 1468-1473: the tail probability that `erfc` returns is rounded, the inverse of the
survival function is not.
-/

namespace GPry.Round

open GPry GPry.Cred MeasureTheory ProbabilityTheory Real

/-- tools.py:106 -/
noncomputable def nstdFl (n1 : ℝ) (d : ℕ) : Ext ℝ := sqrtE (chi2isf (r64.fl (erfc (n1 / √2))) d)

/-- tools.py:118 -/
noncomputable def deltaFl (n1 : ℝ) (d : ℕ) : Ext ℝ :=
  match nstdFl n1 d with
  | .fin v => .fin (0.5 * v ^ 2)
  | .posInf => .posInf
  | .negInf => .posInf
  | .nan => .nan

/-- Tail of the exponential of the square. -/
theorem erfc_le {x : ℝ} (hx : 1 ≤ x) : erfc x ≤ exp (-x ^ 2) := by
  have hd : ∀ t ∈ Set.Ici x, HasDerivAt (fun t => -(1 / 2) * exp (-t ^ 2)) (t * exp (-t ^ 2)) t := by
    intro t _
    have h1 : HasDerivAt (fun t : ℝ => -t ^ 2) (-(2 * t)) t := by
      have := (hasDerivAt_pow 2 t).neg
      rw [show (2 : ℝ) * t = ((2 : ℕ) : ℝ) * t ^ (2 - 1) by norm_num]
      exact this
    have := (h1.exp).const_mul (-(1 / 2) : ℝ)
    rw [show t * exp (-t ^ 2) = -(1 / 2) * (exp (-t ^ 2) * -(2 * t)) by ring]
    exact this
  have hlim : Filter.Tendsto (fun t : ℝ => -(1 / 2) * exp (-t ^ 2)) Filter.atTop (nhds 0) := by
    have h1 : Filter.Tendsto (fun t : ℝ => -t ^ 2) Filter.atTop Filter.atBot :=
      Filter.tendsto_neg_atTop_atBot.comp (Filter.tendsto_pow_atTop two_ne_zero)
    have := (Real.tendsto_exp_atBot.comp h1).const_mul (-(1 / 2))
    simpa using this
  have hpos : ∀ t ∈ Set.Ioi x, 0 ≤ t * exp (-t ^ 2) := fun t ht => by
    have : x < t := ht
    have := exp_pos (-t ^ 2)
    nlinarith
  have hint := integrableOn_Ioi_deriv_of_nonneg' hd hpos hlim
  have hval := integral_Ioi_of_hasDerivAt_of_nonneg' hd hpos hlim
  have hle : ∫ t in Set.Ioi x, exp (-t ^ 2) ≤ ∫ t in Set.Ioi x, t * exp (-t ^ 2) := by
    apply setIntegral_mono_on _ hint measurableSet_Ioi
    · intro t ht
      have h1 : x < t := ht
      have := exp_pos (-t ^ 2)
      nlinarith
    · have := integrable_exp_neg_mul_sq (b := 1) one_pos
      simp only [neg_mul, one_mul] at this
      exact this.integrableOn
  rw [hval] at hle
  have hpi : 1 ≤ √π := by
    rw [Real.one_le_sqrt]
    linarith [Real.pi_gt_three]
  unfold erfc
  have h2 : 2 / √π ≤ 2 := by
    rw [div_le_iff₀ (by linarith)]
    linarith
  have h3 : 0 ≤ ∫ t in Set.Ioi x, exp (-t ^ 2) := setIntegral_nonneg measurableSet_Ioi fun t _ => (exp_pos _).le
  calc 2 / √π * ∫ t in Set.Ioi x, exp (-t ^ 2) ≤ 2 * ∫ t in Set.Ioi x, exp (-t ^ 2) := mul_le_mul_of_nonneg_right h2 h3
    _ ≤ 2 * (0 - -(1 / 2) * exp (-x ^ 2)) := by linarith
    _ = exp (-x ^ 2) := by ring

theorem erfc_tiny {n1 : ℝ} (h : 39 ≤ n1) : r64.fl (erfc (n1 / √2)) = 0 := by
  have h2 : (0 : ℝ) < √2 := by positivity
  have hs : √2 ^ 2 = 2 := Real.sq_sqrt (by norm_num)
  have hs2 : √2 ≤ 2 := by nlinarith
  refine fl_tiny (erfc_pos n1).le ((erfc_le ?_).trans_lt (exp_tiny ?_))
  · rw [le_div_iff₀ h2]; linarith
  · rw [div_pow, hs]; nlinarith

/-- **C152** is false: from 39 standard deviations on, the radius and the threshold are infinite, in any number of dimensions. -/
theorem C152_infinite_counterexample (n1 : ℝ) (h : 39 ≤ n1) (d : ℕ) (hd : 1 ≤ d) : nstdFl n1 d = .posInf ∧ deltaFl n1 d = .posInf := by
  have e : nstdFl n1 d = .posInf := by
    unfold nstdFl
    rw [erfc_tiny h]
    unfold chi2isf
    rw [if_neg (by push Not; exact ⟨by omega, le_rfl, by norm_num⟩), if_pos rfl]
    rfl
  refine ⟨e, ?_⟩
  unfold deltaFl
  rw [e]

/-- **C152** is false: with such a threshold, all values that are numbers are classified as finite, however low. -/
theorem C152_all_finite_counterexample (n1 : ℝ) (h : 39 ≤ n1) (d : ℕ) (hd : 1 ≤ d) (y : ℝ) (ys : List ℝ) :
    Gpr.isFiniteAll (deltaFl n1 d) ((y :: ys).map .fin) = .ok ((y :: ys).map fun _ => true) := by
  rw [(C152_infinite_counterexample n1 h d hd).2]
  unfold Gpr.isFiniteAll
  have hm : Ext.npMax ((y :: ys).map Ext.fin) = some (.fin (ys.foldl max y)) := by
    show some ((ys.map Ext.fin).foldl Ext.npMax2 (.fin y)) = _
    rw [npMax_fin]
  rw [hm]
  simp only [List.map_map]
  congr 1

set_option exponentiation.threshold 2000 in
theorem erfc_ge {n1 : ℝ} (h : n1 ≤ 38) : (2 : ℝ) ^ (-1074 : ℤ) ≤ erfc (n1 / √2) := by
  rw [erfc_eq]
  have h1 : (gaussianReal 0 1).real (Set.Ioc 38 38.4) ≤ (gaussianReal 0 1).real (Set.Ioi n1) :=
    measureReal_mono (fun x hx => lt_of_le_of_lt h hx.1)
  have h2 : 0.4 * gaussianPDFReal 0 1 38.4 ≤ (gaussianReal 0 1).real (Set.Ioc 38 38.4) := by
    rw [measureReal_def, gaussianReal_apply_eq_integral 0 one_ne_zero, ENNReal.toReal_ofReal
      (setIntegral_nonneg measurableSet_Ioc fun x _ => gaussianPDFReal_nonneg _ _ _)]
    have hc : ∫ x in Set.Ioc (38 : ℝ) 38.4, gaussianPDFReal 0 1 38.4 = 0.4 * gaussianPDFReal 0 1 38.4 := by
      rw [setIntegral_const, smul_eq_mul]
      congr 1
      simp [measureReal_def]
      norm_num
    rw [← hc]
    apply setIntegral_mono_on
    · exact integrableOn_const (by simp)
    · exact (integrable_gaussianPDFReal 0 1).integrableOn
    · exact measurableSet_Ioc
    · intro x hx
      rw [gaussianPDFReal_def]
      simp only
      apply mul_le_mul_of_nonneg_left _ (by positivity)
      apply exp_le_exp.2
      obtain ⟨ha, hb⟩ := hx
      simp only [sub_zero, NNReal.coe_one, mul_one]
      rw [div_le_div_iff_of_pos_right (by norm_num)]
      nlinarith
  have h3 : exp (-740) ≤ 2 * (0.4 * gaussianPDFReal 0 1 38.4) := by
    rw [gaussianPDFReal_def]
    simp only [sub_zero, NNReal.coe_one, mul_one]
    have hpi : √(2 * π) ≤ 3 := by
      rw [show (3 : ℝ) = √9 by rw [show (9 : ℝ) = 3 ^ 2 by norm_num, Real.sqrt_sq (by norm_num)]]
      apply Real.sqrt_le_sqrt
      linarith [Real.pi_lt_d2]
    have hpos : 0 < √(2 * π) := by positivity
    have hinv : 1 / 3 ≤ (√(2 * π))⁻¹ := by
      rw [one_div]
      exact inv_anti₀ hpos hpi
    have he : exp (-740) = exp (-(38.4 : ℝ) ^ 2 / 2) * exp (-2.72) := by rw [← exp_add]; norm_num
    have he2 : exp (-2.72) ≤ 1 / 4 := by
      have h4 : (4 : ℝ) ≤ exp 2 := by
        have := Real.exp_one_gt_d9
        have h5 : exp 2 = exp 1 * exp 1 := by rw [← exp_add]; norm_num
        rw [h5]; nlinarith
      have h6 : exp 2 ≤ exp 2.72 := exp_le_exp.2 (by norm_num)
      rw [exp_neg, one_div]
      exact inv_anti₀ (by norm_num) (h4.trans h6)
    rw [he]
    have hx := exp_pos (-(38.4 : ℝ) ^ 2 / 2)
    nlinarith
  have h4 : (2 : ℝ) ^ (-1074 : ℤ) ≤ exp (-740) := by
    rw [Real.exp_neg, _root_.zpow_neg, inv_le_inv₀ (by positivity) (exp_pos _)]
    have he : exp 1 < 2.7183 := by have := Real.exp_one_lt_d9; linarith
    have h3 : exp 740 = exp 1 ^ 740 := by rw [← Real.exp_nat_mul]; norm_num
    rw [h3]
    calc exp 1 ^ 740 ≤ 2.7183 ^ 740 := pow_le_pow_left₀ (exp_pos _).le he.le _
      _ ≤ 2 ^ 1074 := by norm_num
      _ = (2 : ℝ) ^ (1074 : ℤ) := by norm_cast
  linarith

/-- **C152**, what remains: up to 38 standard deviations the radius and the threshold are numbers, and the probability beyond the radius is
the one-dimensional one, rounded to a double. -/
theorem C152_finite_partial (n1 : ℝ) (h0 : 0 ≤ n1) (h : n1 ≤ 38) (d : ℕ) (hd : 1 ≤ d) :
    ∃ R, 0 ≤ R ∧ nstdFl n1 d = .fin R ∧ deltaFl n1 d = .fin (R ^ 2 / 2) ∧
      (stdNormal d).real {z | R < √(∑ i, z i ^ 2)} = r64.fl ((gaussianReal 0 1).real (Set.Icc (-n1) n1)ᶜ) := by
  obtain ⟨k, rfl⟩ : ∃ k, d = k + 1 := ⟨d - 1, by omega⟩
  have hcompl : (gaussianReal 0 1).real (Set.Icc (-n1) n1)ᶜ = erfc (n1 / √2) := by
    rw [probReal_compl_eq_one_sub measurableSet_Icc, erfc_eq]
    have := mass1_compl h0
    unfold mass1 at this
    linarith
  have hpos : 0 < r64.fl (erfc (n1 / √2)) := by
    have hm : (2 : ℝ) ^ (-1074 : ℤ) ∈ r64.F := ⟨1, -1074, by norm_num, le_rfl, by simp⟩
    exact lt_of_lt_of_le (by positivity) (r64.le_fl hm (erfc_ge h))
  have hle : r64.fl (erfc (n1 / √2)) ≤ 1 := by
    refine r64.fl_le (by simpa using pow_mem 0) ?_
    rw [← hcompl]
    exact measureReal_le_one
  obtain ⟨x, hx, hisf, hcdf⟩ := chi2isf_eq k hpos hle
  have e : nstdFl n1 (k + 1) = .fin √x := by
    unfold nstdFl
    rw [hisf]
    unfold sqrtE
    simp only
    rw [if_neg (not_lt.2 hx)]
  refine ⟨√x, Real.sqrt_nonneg x, e, ?_, ?_⟩
  · unfold deltaFl
    rw [e]
    simp only
    congr 1
    norm_num
    ring
  · rw [hcompl]
    have hset : {z : Fin (k + 1) → ℝ | √x < √(∑ i, z i ^ 2)} = {z | ∑ i, z i ^ 2 ≤ x}ᶜ := by
      ext z
      simp only [Set.mem_setOf_eq, Set.mem_compl_iff, not_le]
      exact Real.sqrt_lt_sqrt_iff hx
    rw [hset, probReal_compl_eq_one_sub (measurableSet_le (measurable_ss _) measurable_const)]
    unfold chi2cdf at hcdf
    rw [hcdf]
    ring

/-! ## Examples -/

example : deltaFl 40 5 = .posInf := (C152_infinite_counterexample 40 (by norm_num) 5 (by norm_num)).2

example : Gpr.isFiniteAll (deltaFl 40 2) ([-1, -1000000000].map .fin) = .ok [true, true] :=
  C152_all_finite_counterexample 40 (by norm_num) 2 (by norm_num) (-1) [-1000000000]

example : ∃ R, 0 ≤ R ∧ nstdFl 20 3 = .fin R := by
  obtain ⟨R, h1, h2, -⟩ := C152_finite_partial 20 (by norm_num) (by norm_num) 3 (by norm_num)
  exact ⟨R, h1, h2⟩

end GPry.Round
