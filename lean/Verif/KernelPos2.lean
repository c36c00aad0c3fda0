import Verif.KernelPos
import Mathlib.NumberTheory.Real.Irrational

set_option linter.all false

namespace GPry.Kernels

open Real Gp MeasureTheory Set Filter Topology

variable {d : ℕ}

/-! ## Matern with `nu` 3/2 and 5/2 -/

/-- `(1 + r) exp(-r)` -/
noncomputable def m3 (r : ℝ) : ℝ := (1 + r) * exp (-r)

/-- `(1 + r + r²/3) exp(-r)` -/
noncomputable def m5 (r : ℝ) : ℝ := (1 + r + r ^ 2 / 3) * exp (-r)

theorem hasDerivAt_m3 (r : ℝ) : HasDerivAt m3 (-r * exp (-r)) r := by
  have h := ((hasDerivAt_id r).const_add 1).mul ((hasDerivAt_id r).neg.exp)
  refine h.congr_deriv ?_
  simp
  ring

theorem hasDerivAt_m5 (r : ℝ) : HasDerivAt m5 (-r / 3 * m3 r) r := by
  have h := (((hasDerivAt_id r).const_add 1).add (((hasDerivAt_id r).pow 2).div_const 3)).mul ((hasDerivAt_id r).neg.exp)
  refine h.congr_deriv ?_
  simp [m3]
  ring

theorem tendsto_m3 : Tendsto m3 atTop (𝓝 0) := by
  have h0 := tendsto_pow_mul_exp_neg_atTop_nhds_zero 0
  have h1 := tendsto_pow_mul_exp_neg_atTop_nhds_zero 1
  have := h0.add h1
  simp only [add_zero] at this
  refine this.congr fun r => ?_
  simp [m3]; ring

theorem tendsto_m5 : Tendsto m5 atTop (𝓝 0) := by
  have h2 := (tendsto_pow_mul_exp_neg_atTop_nhds_zero 2).div_const 3
  have := tendsto_m3.add h2
  simp only [add_zero, zero_div] at this
  refine this.congr fun r => ?_
  simp [m3, m5]; ring

theorem m3_nonneg {r : ℝ} (h : 0 ≤ r) : 0 ≤ m3 r := by unfold m3; positivity

theorem tendsto_sqrt_add (a : ℝ) : Tendsto (fun v : ℝ => √(a + v)) atTop atTop :=
  tendsto_sqrt_atTop.comp (tendsto_atTop_add_const_left _ _ tendsto_id)

/-- Integral of a function with derivative `-r/b * h(r)` composed with the square root. -/
theorem integral_sqrt {F h : ℝ → ℝ} {b : ℝ} (hb : 0 < b) (hF : ∀ r, HasDerivAt F (-r / b * h r) r) (hh : ∀ r, 0 ≤ r → 0 ≤ h r)
    (ht : Tendsto F atTop (𝓝 0)) {a : ℝ} (ha : 0 ≤ a) :
    IntegrableOn (fun v => h √(a + v)) (Ioi 0) ∧ ∫ v in Ioi (0 : ℝ), h √(a + v) = 2 * b * F √a := by
  have hder : ∀ v ∈ Ioi (0 : ℝ), HasDerivAt (fun v => -(2 * b) * F √(a + v)) (h √(a + v)) v := by
    intro v hv
    have hv : 0 < v := hv
    have hp : 0 < a + v := by positivity
    have h1 := (hF √(a + v)).comp v (((hasDerivAt_id v).const_add a).sqrt (by simpa using hp.ne'))
    have h2 := h1.const_mul (-(2 * b))
    refine h2.congr_deriv ?_
    have := (sqrt_pos.2 hp).ne'
    simp only [id]
    field_simp
  have hcont : ContinuousWithinAt (fun v => -(2 * b) * F √(a + v)) (Ici 0) 0 := by
    refine ContinuousAt.continuousWithinAt ?_
    refine continuousAt_const.mul ?_
    refine ContinuousAt.comp (g := F) (hF _).continuousAt ?_
    exact (continuous_sqrt.comp (continuous_const.add continuous_id)).continuousAt
  have hpos : ∀ v ∈ Ioi (0 : ℝ), 0 ≤ h √(a + v) := fun v _ => hh _ (sqrt_nonneg _)
  have hlim : Tendsto (fun v => -(2 * b) * F √(a + v)) atTop (𝓝 0) := by
    have := (ht.comp (tendsto_sqrt_add a)).const_mul (-(2 * b))
    simpa using this
  refine ⟨integrableOn_Ioi_deriv_of_nonneg hcont hder hpos hlim, ?_⟩
  rw [integral_Ioi_of_hasDerivAt_of_nonneg hcont hder hpos hlim]
  simp

theorem isKernel_m3 (ls : Fin d → ℝ) {c v : ℝ} (hc : 0 ≤ c) (hv : 0 ≤ v) :
    IsKernel fun x y : Fin d → ℝ => m3 √(c * sqDist ls x y + v) := by
  have hnn : ∀ x y : Fin d → ℝ, 0 ≤ c * sqDist ls x y + v := fun x y => by
    have := sqDist_nonneg ls x y; positivity
  have key := fun x y : Fin d → ℝ => integral_sqrt (F := m3) (h := fun r => exp (-r)) (b := 1) one_pos
    (fun r => by simpa using hasDerivAt_m3 r) (fun r _ => (exp_pos _).le) tendsto_m3 (hnn x y)
  have h := isKernel_smul (a := 1 / 2) (by norm_num) (isKernel_integral (P := Fin d → ℝ)
    (f := fun w x y => exp (-√(c * sqDist ls x y + v + w))) (fun w hw => by
      have hw : 0 < w := hw
      have := isKernel_exp_sqrt (d := d) ls (c := c) (v := v + w) hc (by positivity)
      simpa only [add_assoc] using this) fun x y => (key x y).1)
  convert h using 3 with x y
  rw [(key x y).2]
  ring

theorem isKernel_m5 (ls : Fin d → ℝ) {c v : ℝ} (hc : 0 ≤ c) (hv : 0 ≤ v) :
    IsKernel fun x y : Fin d → ℝ => m5 √(c * sqDist ls x y + v) := by
  have hnn : ∀ x y : Fin d → ℝ, 0 ≤ c * sqDist ls x y + v := fun x y => by
    have := sqDist_nonneg ls x y; positivity
  have key := fun x y : Fin d → ℝ => integral_sqrt (F := m5) (h := m3) (b := 3) (by norm_num)
    hasDerivAt_m5 (fun r hr => m3_nonneg hr) tendsto_m5 (hnn x y)
  have h := isKernel_smul (a := 1 / 6) (by norm_num) (isKernel_integral (P := Fin d → ℝ)
    (f := fun w x y => m3 √(c * sqDist ls x y + v + w)) (fun w hw => by
      have hw : 0 < w := hw
      have := isKernel_m3 (d := d) ls (c := c) (v := v + w) hc (by positivity)
      simpa only [add_assoc] using this) fun x y => (key x y).1)
  convert h using 3 with x y
  rw [(key x y).2]
  ring

/-! ## Periodic kernel in one dimension -/

theorem isKernel_cos (f : (Fin d → ℝ) → ℝ) : IsKernel fun x y : Fin d → ℝ => cos (f x - f y) := by
  have := isKernel_add (isKernel_feature fun x : Fin d → ℝ => cos (f x)) (isKernel_feature fun x : Fin d → ℝ => sin (f x))
  simpa only [← cos_sub] using this

theorem isKernel_expSine (ls period : ℝ) (general : ℕ → ℝ → ℝ) :
    IsKernel ((KExpr.expSine ls period : KExpr 1).eval general) := by
  have h := isKernel_smul (a := exp (-(1 / ls ^ 2))) (exp_pos _).le (isKernel_exp (isKernel_smul (a := 1 / ls ^ 2) (by positivity)
    (isKernel_cos (d := 1) fun x => 2 * (π / period * x 0))))
  convert h using 3 with x y
  simp only [KExpr.eval, sqDist, Finset.univ_unique, Fin.default_eq_zero, Fin.isValue, Finset.sum_singleton, div_one, sqrt_sq_eq_abs]
  rw [← exp_add]
  congr 1
  have h1 : sin (π / period * |x 0 - y 0|) ^ 2 = sin (π / period * (x 0 - y 0)) ^ 2 := by
    rcases abs_choice (x 0 - y 0) with h | h
    · rw [h]
    · rw [h, mul_neg, sin_neg, neg_sq]
  have h2 : cos (2 * (π / period * x 0) - 2 * (π / period * y 0)) = 1 - 2 * sin (π / period * (x 0 - y 0)) ^ 2 := by
    rw [show 2 * (π / period * x 0) - 2 * (π / period * y 0) = 2 * (π / period * (x 0 - y 0)) by ring, cos_two_mul, cos_sq']
    ring
  rw [div_pow, h1, h2]
  ring

/-! ## All the kernels -/

/-- Kernel expressions for which the matrices are positive semidefinite: constants not negative, `alpha > 0`, periodic
kernels in one dimension only, whole powers. -/
def KExpr.Positive {d : ℕ} : KExpr d → Prop
  | .rbf _ => True
  | .matern nu2 _ => nu2 = 1 ∨ nu2 = 3 ∨ nu2 = 5
  | .rq _ alpha => 0 < alpha
  | .expSine _ _ => d = 1
  | .const c => 0 ≤ c
  | .white => True
  | .dot _ => True
  | .sum a b => a.Positive ∧ b.Positive
  | .prod a b => a.Positive ∧ b.Positive
  | .pow a p => a.Positive ∧ ∃ n : ℕ, p = n

/-- C106: kernel matrices are symmetric and positive semidefinite, for any expression as above, points and length scales. -/
theorem C106_kernel (general : ℕ → ℝ → ℝ) {d : ℕ} (e : KExpr d) (h : e.Positive) : IsKernel (e.eval general) := by
  induction e with
  | rbf ls =>
    have := isKernel_gauss ls (u := 1 / 2) (by norm_num)
    convert this using 3 with x y
    simp only [KExpr.eval]
    congr 1
    ring
  | matern nu2 ls =>
    rcases h with rfl | rfl | rfl
    · have := isKernel_exp_sqrt ls (c := 1) (v := 0) (by norm_num) le_rfl
      convert this using 3 with x y
      simp [KExpr.eval, maternVal]
    · have := isKernel_m3 ls (c := 3) (v := 0) (by norm_num) le_rfl
      convert this using 3 with x y
      simp [KExpr.eval, maternVal, m3]
    · have := isKernel_m5 ls (c := 5) (v := 0) (by norm_num) le_rfl
      convert this using 3 with x y
      have := sqDist_nonneg ls x y
      simp only [KExpr.eval, maternVal, m5, add_zero]
      rw [sqrt_mul (by norm_num : (0 : ℝ) ≤ 5), mul_pow, sq_sqrt this, sq_sqrt (by norm_num : (0 : ℝ) ≤ 5)]
      congr 2
      ring
  | rq ls alpha => exact isKernel_rq _ h
  | expSine ls period =>
    have hd : d = 1 := h
    subst hd
    exact isKernel_expSine ls period general
  | const c => exact isKernel_const h
  | white => exact isKernel_zero
  | dot s =>
    have := isKernel_add (isKernel_dot (d := d) (fun _ => 1) fun _ => zero_le_one) (isKernel_const (a := s ^ 2) (sq_nonneg s))
    convert this using 3 with x y
    simp [KExpr.eval]
  | sum a b iha ihb => exact isKernel_add (iha h.1) (ihb h.2)
  | prod a b iha ihb => exact isKernel_mul (iha h.1) (ihb h.2)
  | pow a p ih =>
    obtain ⟨ha, n, rfl⟩ := h
    have := isKernel_pow (ih ha) n
    convert this using 3 with x y
    simp [KExpr.eval]

open Matrix in
/-- C106: so with positive noise levels the matrix of the surrogate is positive definite whatever the training set (repeated
points included): a Cholesky factor exists, and with it the predicted variance is between zero and that of the prior. -/
theorem C106_factor (general : ℕ → ℝ → ℝ) (e : KExpr d) (h : e.Positive) {n : Type*} [Fintype n] [DecidableEq n]
    (M : Gp.Model (Fin d → ℝ)) (hk : M.k = e.eval general) (hs : M.s ≠ 0) (R : Gp.Raw n (Fin d → ℝ)) (hn : ∀ i, R.noise i ≠ 0) :
    ((M.data R).kmat M.k).PosDef ∧ (∃ L, IsFactor ((M.data R).kmat M.k) L) ∧
    ∀ (chol : Matrix n n ℝ → Matrix n n ℝ), IsFactor ((M.data R).kmat M.k) (chol ((M.data R).kmat M.k)) → ∀ x,
      0 ≤ (M.data R).rawVar chol M.k x ∧ (M.data R).rawVar chol M.k x ≤ M.k x x := by
  have hK : IsKernel M.k := hk ▸ C106_kernel general e h
  have hv : ∀ i, 0 < (M.data R).var i := fun i => by
    have : R.noise i / M.s ≠ 0 := div_ne_zero (hn i) hs
    show 0 < (R.noise i / M.s) ^ 2
    positivity
  have hp := hK.kmat_posDef (M.data R) hv
  exact ⟨hp, exists_isFactor hp, fun chol hc x => C17_variance_nonneg chol hK (M.data R) (fun i => (hv i).le) hp hc x⟩

/-- three points -/
theorem three_points {P : Type*} {k : P → P → ℝ} (h : IsKernel k) (x y z : P) (a b c : ℝ) :
    0 ≤ a * a * k x x + b * b * k y y + c * c * k z z + 2 * (a * b * k x y) + 2 * (a * c * k x z) + 2 * (b * c * k y z) := by
  have := (isKernel_iff.1 h).2 3 ![x, y, z] ![a, b, c]
  simp [quad, Fin.sum_univ_three] at this
  rw [h.symm y x, h.symm z x, h.symm z y] at this
  linarith

/-- C106 is false for the periodic kernel with two parameters, whatever the length scale: with period 1, the matrix of
the points (0,0), (1,0), (0,1) is not positive semidefinite. -/
theorem C106_periodic_counterexample (general : ℕ → ℝ → ℝ) (ls : ℝ) (hl : ls ≠ 0) :
    ¬ IsKernel ((KExpr.expSine ls 1 : KExpr 2).eval general) := by
  intro h
  have := three_points h ![0, 0] ![1, 0] ![0, 1] (-2) 1 1
  simp [KExpr.eval, sqDist, Fin.sum_univ_two] at this
  have h2 : (1 + 1 : ℝ) = 2 := by norm_num
  rw [h2] at this
  have hs : sin (π * √2) ≠ 0 := by
    rw [Ne, sin_eq_zero_iff]
    rintro ⟨n, hn⟩
    have : (n : ℝ) = √2 := by
      have := pi_pos.ne'
      rw [mul_comm] at hn
      exact mul_left_cancel₀ this hn
    exact irrational_sqrt_two ⟨n, by exact_mod_cast this⟩
  have hlt : exp (-(2 * (sin (π * √2) / ls) ^ 2)) < 1 := by
    rw [exp_lt_one_iff]
    have : sin (π * √2) / ls ≠ 0 := div_ne_zero hs hl
    have : 0 < (sin (π * √2) / ls) ^ 2 := by positivity
    linarith
  linarith

/-- C106 is false for powers that are not whole: the square root of the product kernel. -/
theorem C106_power_counterexample (general : ℕ → ℝ → ℝ) :
    ¬ IsKernel ((KExpr.pow (.dot 0) (1 / 2) : KExpr 2).eval general) := by
  intro h
  have := three_points h ![1, 0] ![1, 1] ![0, 1] 1 (-1) 1
  simp [KExpr.eval, Fin.sum_univ_two] at this
  have h2 : (1 + 1 : ℝ) = 2 := by norm_num
  rw [h2] at this
  have h3 : (2 : ℝ) ^ (2⁻¹ : ℝ) = √2 := by rw [sqrt_eq_rpow]; norm_num
  rw [h3] at this
  have h4 : √2 < 2 := by
    rw [sqrt_lt' (by norm_num)]; norm_num
  linarith

/-- C106 is false for negative constants. -/
theorem C106_constant_counterexample (general : ℕ → ℝ → ℝ) (c : ℝ) (hc : c < 0) :
    ¬ IsKernel ((KExpr.const c : KExpr d).eval general) := by
  intro h
  have := three_points h 0 0 0 1 0 0
  simp [KExpr.eval] at this
  linarith

/-- The default kernel of the regressor (gpr.py:353-363, constant times RBF), and others. -/
example : (KExpr.prod (.const 3) (.rbf ![1, 2]) : KExpr 2).Positive := ⟨by norm_num [KExpr.Positive], trivial⟩

example : (KExpr.sum (.pow (.matern 5 ![1, 2]) 3) (.prod (.rq 1 2) (.dot 1)) : KExpr 2).Positive :=
  ⟨⟨by simp [KExpr.Positive], 3, by norm_num⟩, by norm_num [KExpr.Positive], trivial⟩

example (general : ℕ → ℝ → ℝ) : IsKernel ((KExpr.prod (.const 3) (.rbf ![1, 2]) : KExpr 2).eval general) :=
  C106_kernel general _ ⟨by norm_num [KExpr.Positive], trivial⟩

/-- Two training points at the same place, with noise: the matrix still has a factor. -/
example (general : ℕ → ℝ → ℝ) : ∃ L, IsFactor
    (((⟨(KExpr.rbf (fun _ => 1) : KExpr 1).eval general, id, 0, 2⟩ : Gp.Model (Fin 1 → ℝ)).data
      (⟨fun _ _ => 5, fun _ => 1, fun _ => 1⟩ : Gp.Raw (Fin 2) (Fin 1 → ℝ))).kmat ((KExpr.rbf (fun _ => 1) : KExpr 1).eval general)) L :=
  (C106_factor general (.rbf fun _ => 1) trivial ⟨(KExpr.rbf (fun _ => 1) : KExpr 1).eval general, id, 0, 2⟩ rfl (by norm_num)
    ⟨fun _ _ => 5, fun _ => 1, fun _ => 1⟩ (by norm_num)).2.1

end GPry.Kernels
