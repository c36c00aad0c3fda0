import Verif.Kernels
import Mathlib.Analysis.SpecialFunctions.Pow.Deriv
import Mathlib.Analysis.SpecialFunctions.Sqrt
import Mathlib.Analysis.SpecialFunctions.Trigonometric.Deriv
import Mathlib.Analysis.SpecialFunctions.ExpDeriv
import Mathlib.Analysis.SpecialFunctions.Exponential
import Mathlib.Analysis.SpecialFunctions.Trigonometric.Bounds
import Mathlib.Analysis.Calculus.Deriv.Pow
import Mathlib.Analysis.Calculus.Deriv.Abs
import Mathlib.Tactic.Linarith
import Mathlib.Tactic.NormNum
import Mathlib.Tactic.Ring
import Mathlib.Tactic.FieldSimp

set_option linter.all false

namespace GPry.Kernels

open Real

variable {d : ℕ}

/-- `g` is the derivative of `f` at `x` with respect to coordinate `j`. -/
def HasPartial (f : (Fin d → ℝ) → ℝ) (x : Fin d → ℝ) (j : Fin d) (g : ℝ) : Prop :=
  HasDerivAt (fun t => f (Function.update x j t)) g (x j)

theorem HasPartial.congr_deriv {f : (Fin d → ℝ) → ℝ} {x j g g'} (h : HasPartial f x j g) (e : g = g') : HasPartial f x j g' := e ▸ h

theorem HasPartial.add {f f' : (Fin d → ℝ) → ℝ} {x j g g'} (h : HasPartial f x j g) (h' : HasPartial f' x j g') :
    HasPartial (fun x => f x + f' x) x j (g + g') := HasDerivAt.add h h'

theorem HasPartial.mul {f f' : (Fin d → ℝ) → ℝ} {x j g g'} (h : HasPartial f x j g) (h' : HasPartial f' x j g') :
    HasPartial (fun x => f x * f' x) x j (f x * g' + f' x * g) := by
  have := HasDerivAt.mul h h'
  simp only [Function.update_eq_self] at this
  have e : g * f' x + f x * g' = f x * g' + f' x * g := by ring
  rw [← e]
  exact this

theorem hasPartial_const (c : ℝ) (x : Fin d → ℝ) (j : Fin d) : HasPartial (fun _ => c) x j 0 := hasDerivAt_const _ _

theorem HasPartial.comp {f : (Fin d → ℝ) → ℝ} {φ : ℝ → ℝ} {x j g φ'} (h : HasPartial f x j g)
    (hφ : HasDerivAt φ φ' (f x)) : HasPartial (fun x => φ (f x)) x j (φ' * g) := by
  unfold HasPartial at h ⊢
  have hφ2 : HasDerivAt φ φ' (f (Function.update x j (x j))) := by rwa [Function.update_eq_self]
  exact HasDerivAt.comp (x j) hφ2 h

theorem hasPartial_coord (x : Fin d → ℝ) (i j : Fin d) : HasPartial (fun x => x i) x j (if i = j then 1 else 0) := by
  unfold HasPartial
  by_cases h : i = j
  · subst h
    simp only [Function.update_self, if_true]
    exact hasDerivAt_id _
  · simp only [Function.update_of_ne h, if_neg h]
    exact hasDerivAt_const _ _

theorem hasPartial_sum {f : Fin d → (Fin d → ℝ) → ℝ} {x j} {g : Fin d → ℝ} (h : ∀ i, HasPartial (f i) x j (g i)) :
    HasPartial (fun x => ∑ i, f i x) x j (∑ i, g i) := by
  unfold HasPartial at *
  exact HasDerivAt.fun_sum fun i _ => h i

theorem hasPartial_sqDist (ls x y : Fin d → ℝ) (j : Fin d) :
    HasPartial (fun x => sqDist ls x y) x j (2 * ((x j - y j) / ls j / ls j)) := by
  have h : ∀ i, HasPartial (fun x => ((x i - y i) / ls i) ^ 2) x j (if i = j then 2 * ((x i - y i) / ls i / ls i) else 0) := by
    intro i
    have h1 := hasPartial_coord x i j
    have h2 : HasDerivAt (fun t : ℝ => ((t - y i) / ls i) ^ 2) (2 * ((x i - y i) / ls i / ls i)) (x i) := by
      have := (((hasDerivAt_id (x i)).sub_const (y i)).div_const (ls i)).pow 2
      refine this.congr_deriv ?_
      simp; ring
    refine (HasPartial.comp (φ := fun t => ((t - y i) / ls i) ^ 2) h1 h2).congr_deriv ?_
    split_ifs <;> simp
  have := hasPartial_sum h
  refine this.congr_deriv ?_
  simp

theorem sqDist_nonneg (ls x y : Fin d → ℝ) : 0 ≤ sqDist ls x y := Finset.sum_nonneg fun i _ => sq_nonneg _

theorem sqDist_zero {ls x y : Fin d → ℝ} (h : sqDist ls x y = 0) (i : Fin d) : (x i - y i) / ls i = 0 := by
  unfold sqDist at h
  rw [Finset.sum_eq_zero_iff_of_nonneg (fun i _ => sq_nonneg _)] at h
  exact pow_eq_zero_iff (two_ne_zero) |>.1 (h i (Finset.mem_univ i))

/-- Where the distance is not zero. -/
theorem hasPartial_dist {ls x y : Fin d → ℝ} (h : √(sqDist ls x y) ≠ 0) (j : Fin d) :
    HasPartial (fun x => √(sqDist ls x y)) x j ((x j - y j) / ls j / ls j / √(sqDist ls x y)) := by
  have hne : sqDist ls x y ≠ 0 := by intro h0; rw [h0, sqrt_zero] at h; exact h rfl
  have := (hasPartial_sqDist ls x y j).comp (Real.hasDerivAt_sqrt hne)
  refine this.congr_deriv ?_
  field_simp

/-- A function that differs from its value at zero distance by at most a multiple of the square of the distance has
derivative zero there. -/
theorem hasPartial_of_sq {ls x y : Fin d → ℝ} {f : (Fin d → ℝ) → ℝ} {c : ℝ} (h0 : sqDist ls x y = 0)
    (hf : ∀ z, |f z - f x| ≤ c * sqDist ls z y) (j : Fin d) : HasPartial f x j 0 := by
  have hq : ∀ t, sqDist ls (Function.update x j t) y = ((t - x j) / ls j) ^ 2 := by
    intro t
    unfold sqDist
    rw [Finset.sum_eq_single j]
    · rw [Function.update_self]
      have := sqDist_zero h0 j
      have e : (t - y j) / ls j = (t - x j) / ls j + (x j - y j) / ls j := by ring
      rw [e, this, add_zero]
    · intro i _ hi
      rw [Function.update_of_ne hi, sqDist_zero h0 i]; simp
    · simp
  unfold HasPartial
  rw [hasDerivAt_iff_isLittleO]
  have h1 : (fun t => f (Function.update x j t) - f (Function.update x j (x j)) - (t - x j) • (0 : ℝ)) =O[nhds (x j)]
      fun t => (t - x j) ^ 2 := by
    apply Asymptotics.IsBigO.of_bound (|c / ls j ^ 2|)
    apply Filter.Eventually.of_forall
    intro t
    rw [Function.update_eq_self, smul_zero, sub_zero, Real.norm_eq_abs, Real.norm_eq_abs, ← abs_mul]
    refine (hf _).trans ?_
    rw [hq]
    refine le_trans (le_of_eq ?_) (le_abs_self _)
    rw [div_pow]; ring
  refine h1.trans_isLittleO ?_
  have h2 : (fun t : ℝ => (t - x j) ^ 2) = fun t => (t - x j) * (t - x j) := by funext t; ring
  rw [h2]
  have h3 : (fun t : ℝ => t - x j) =o[nhds (x j)] fun _ => (1 : ℝ) := by
    rw [Asymptotics.isLittleO_one_iff]
    have : Filter.Tendsto (fun t : ℝ => t - x j) (nhds (x j)) (nhds (x j - x j)) :=
      (continuous_id.sub continuous_const).tendsto (x j)
    rwa [sub_self] at this
  simpa using (Asymptotics.isBigO_refl (fun t : ℝ => t - x j) (nhds (x j))).mul_isLittleO h3

/-! ## Leaves -/

theorem rbf_grad (ls x y : Fin d → ℝ) (j : Fin d) :
    HasPartial (fun x => exp (-0.5 * sqDist ls x y)) x j (exp (-0.5 * sqDist ls x y) * -1 * ((x j - y j) / ls j) / ls j) := by
  have h1 : HasDerivAt (fun q : ℝ => exp (-0.5 * q)) (exp (-0.5 * sqDist ls x y) * -0.5) (sqDist ls x y) := by
    have := ((hasDerivAt_id (sqDist ls x y)).const_mul (-0.5 : ℝ)).exp
    simpa using this
  refine ((hasPartial_sqDist ls x y j).comp h1).congr_deriv ?_
  ring

theorem matern32_val (s : ℝ) (hs : 0 ≤ s) : |(1 + s) * exp (-s) - 1| ≤ s ^ 2 := by
  have h1 : (1 + s) * exp (-s) ≤ 1 := by
    have := add_one_le_exp s
    calc (1 + s) * exp (-s) ≤ exp s * exp (-s) := mul_le_mul_of_nonneg_right (by linarith) (exp_pos _).le
      _ = 1 := by rw [← exp_add]; simp
  have h2 : 1 - s ^ 2 ≤ (1 + s) * exp (-s) := by
    have := add_one_le_exp (-s)
    calc 1 - s ^ 2 = (1 + s) * (-s + 1) := by ring
      _ ≤ _ := mul_le_mul_of_nonneg_left this (by linarith)
  rw [abs_le]; constructor <;> linarith [sq_nonneg s]

theorem matern52_val (s : ℝ) (hs : 0 ≤ s) : |(1 + s + s ^ 2 / 3) * exp (-s) - 1| ≤ s ^ 2 := by
  have h1 : (1 + s + s ^ 2 / 3) * exp (-s) ≤ 1 := by
    have := quadratic_le_exp_of_nonneg hs
    calc (1 + s + s ^ 2 / 3) * exp (-s) ≤ exp s * exp (-s) :=
          mul_le_mul_of_nonneg_right (by nlinarith [sq_nonneg s]) (exp_pos _).le
      _ = 1 := by rw [← exp_add]; simp
  have h0 : 0 ≤ (1 + s + s ^ 2 / 3) * exp (-s) := mul_nonneg (by positivity) (exp_pos _).le
  have h2 : 1 - s ^ 2 ≤ (1 + s + s ^ 2 / 3) * exp (-s) := by
    rcases le_or_gt s 1 with hs1 | hs1
    · have := add_one_le_exp (-s)
      have h3 : (1 + s + s ^ 2 / 3) * (-s + 1) ≤ (1 + s + s ^ 2 / 3) * exp (-s) :=
        mul_le_mul_of_nonneg_left this (by positivity)
      nlinarith [sq_nonneg s, mul_nonneg (sq_nonneg s) (sub_nonneg.2 hs1)]
    · nlinarith
  rw [abs_le]; constructor <;> linarith [sq_nonneg s]

theorem matern_grad (general : ℕ → ℝ → ℝ) {nu2 ndim : ℕ} {ls x y : Fin d → ℝ} {g : Fin d → ℝ}
    (h : maternGrad nu2 ndim ls x y = .ok g) (h12 : nu2 = 1 → sqDist ls x y ≠ 0) (j : Fin d) :
    HasPartial (fun x => maternVal general nu2 √(sqDist ls x y)) x j (g j) := by
  have hsq : sqDist ls x y = √(sqDist ls x y) ^ 2 := (Real.sq_sqrt (sqDist_nonneg _ _ _)).symm
  unfold maternGrad at h
  dsimp only at h
  split at h
  · -- 1/2
    have hr : √(sqDist ls x y) ≠ 0 := by
      intro h0; rw [h0] at hsq; exact h12 rfl (by simpa using hsq)
    simp only [if_neg hr] at h
    split at h
    · simp at h
    rw [Except.ok.injEq] at h
    subst h
    have h1 : HasDerivAt (fun r : ℝ => exp (-r)) (exp (-√(sqDist ls x y)) * -1) √(sqDist ls x y) :=
      ((hasDerivAt_id _).neg).exp
    refine ((hasPartial_dist hr j).comp (φ := fun r => maternVal general 1 r) h1).congr_deriv ?_
    ring
  · -- 3/2
    rw [Except.ok.injEq] at h
    subst h
    by_cases hr : √(sqDist ls x y) = 0
    · rw [hr] at hsq
      have h0 : sqDist ls x y = 0 := by simpa using hsq
      refine HasPartial.congr_deriv (hasPartial_of_sq (c := 3) h0 ?_ j) ?_
      · intro z
        show |maternVal general 3 √(sqDist ls z y) - maternVal general 3 √(sqDist ls x y)| ≤ _
        rw [hr]
        have := matern32_val (√3 * √(sqDist ls z y)) (by positivity)
        have e : maternVal general 3 0 = 1 := by simp [maternVal]
        rw [e]
        refine this.trans (le_of_eq ?_)
        rw [mul_pow, Real.sq_sqrt (by norm_num), Real.sq_sqrt (sqDist_nonneg _ _ _)]
      · rw [if_pos hr]; simp
    · have h1 : HasDerivAt (fun r : ℝ => (1 + √3 * r) * exp (-(√3 * r)))
          (√3 * exp (-(√3 * √(sqDist ls x y))) + (1 + √3 * √(sqDist ls x y)) * (exp (-(√3 * √(sqDist ls x y))) * -√3))
          √(sqDist ls x y) := by
        have ha : HasDerivAt (fun r : ℝ => 1 + √3 * r) √3 √(sqDist ls x y) := by
          simpa using ((hasDerivAt_id √(sqDist ls x y)).const_mul √3).const_add 1
        have hb : HasDerivAt (fun r : ℝ => exp (-(√3 * r))) (exp (-(√3 * √(sqDist ls x y))) * -√3) √(sqDist ls x y) := by
          simpa using (((hasDerivAt_id √(sqDist ls x y)).const_mul √3).neg).exp
        exact ha.mul hb
      refine ((hasPartial_dist hr j).comp (φ := fun r => maternVal general 3 r) h1).congr_deriv ?_
      rw [if_neg hr]
      ring
  · -- 5/2
    rw [Except.ok.injEq] at h
    subst h
    have h5 : √5 ^ 2 = (5 : ℝ) := Real.sq_sqrt (by norm_num)
    by_cases hr : √(sqDist ls x y) = 0
    · rw [hr] at hsq
      have h0 : sqDist ls x y = 0 := by simpa using hsq
      refine HasPartial.congr_deriv (hasPartial_of_sq (c := 5) h0 ?_ j) ?_
      · intro z
        show |maternVal general 5 √(sqDist ls z y) - maternVal general 5 √(sqDist ls x y)| ≤ _
        rw [hr]
        have := matern52_val (√5 * √(sqDist ls z y)) (by positivity)
        have e : maternVal general 5 0 = 1 := by simp [maternVal]
        rw [e]
        have e2 : maternVal general 5 √(sqDist ls z y) =
            (1 + √5 * √(sqDist ls z y) + (√5 * √(sqDist ls z y)) ^ 2 / 3) * exp (-(√5 * √(sqDist ls z y))) := by
          show (1 + √5 * √(sqDist ls z y) + 5 / 3 * √(sqDist ls z y) ^ 2) * exp (-(√5 * √(sqDist ls z y))) = _
          rw [mul_pow, h5]; ring
        rw [e2]
        refine this.trans (le_of_eq ?_)
        rw [mul_pow, h5, Real.sq_sqrt (sqDist_nonneg _ _ _)]
      · rw [if_pos hr]
        have := sqDist_zero h0 j
        simp [this]
    · have h1 : HasDerivAt (fun r : ℝ => (1 + √5 * r + 5 / 3 * r ^ 2) * exp (-(√5 * r)))
          ((√5 + 5 / 3 * (2 * √(sqDist ls x y))) * exp (-(√5 * √(sqDist ls x y))) +
            (1 + √5 * √(sqDist ls x y) + 5 / 3 * √(sqDist ls x y) ^ 2) * (exp (-(√5 * √(sqDist ls x y))) * -√5))
          √(sqDist ls x y) := by
        have ha : HasDerivAt (fun r : ℝ => 1 + √5 * r + 5 / 3 * r ^ 2) (√5 + 5 / 3 * (2 * √(sqDist ls x y)))
            √(sqDist ls x y) := by
          have h2 := ((hasDerivAt_id √(sqDist ls x y)).const_mul √5).const_add 1
          have h3 := ((hasDerivAt_id √(sqDist ls x y)).pow 2).const_mul (5 / 3 : ℝ)
          have h4 := h2.add h3
          refine HasDerivAt.congr_deriv (f := fun r : ℝ => 1 + √5 * r + 5 / 3 * r ^ 2) h4 ?_
          simp
        have hb : HasDerivAt (fun r : ℝ => exp (-(√5 * r))) (exp (-(√5 * √(sqDist ls x y))) * -√5) √(sqDist ls x y) := by
          simpa using (((hasDerivAt_id √(sqDist ls x y)).const_mul √5).neg).exp
        exact ha.mul hb
      refine ((hasPartial_dist hr j).comp (φ := fun r => maternVal general 5 r) h1).congr_deriv ?_
      rw [if_neg hr, hsq, Real.sqrt_sq (Real.sqrt_nonneg _)]
      field_simp
      ring
  · exact absurd h (by simp)

theorem rq_grad {ls alpha : ℝ} (ha : 0 < alpha) (x y : Fin d → ℝ) (j : Fin d) :
    HasPartial (fun x => (1 + sqDist (fun _ => ls) x y / (2 * alpha)) ^ (-alpha)) x j
      ((sqDist (fun _ => ls) x y / (2 * alpha) + 1) ^ (-alpha - 1) * -1 * ((x j - y j) / ls / ls)) := by
  have hq := sqDist_nonneg (fun _ => ls) x y
  have hpos : 0 < 1 + sqDist (fun _ => ls) x y / (2 * alpha) := by positivity
  have h1 : HasDerivAt (fun q : ℝ => (1 + q / (2 * alpha)) ^ (-alpha))
      (1 / (2 * alpha) * -alpha * (1 + sqDist (fun _ => ls) x y / (2 * alpha)) ^ (-alpha - 1)) (sqDist (fun _ => ls) x y) := by
    have := (((hasDerivAt_id (sqDist (fun _ => ls) x y)).div_const (2 * alpha)).const_add 1).rpow_const (p := -alpha)
      (Or.inl hpos.ne')
    simpa using this
  refine ((hasPartial_sqDist (fun _ => ls) x y j).comp h1).congr_deriv ?_
  rw [add_comm 1]
  field_simp

theorem expSine_grad {ls period : ℝ} (x y : Fin d → ℝ) (j : Fin d) :
    HasPartial (fun x => exp (-2 * (sin (π / period * √(sqDist (fun _ => 1) x y)) / ls) ^ 2)) x j
      ((if √(sqDist (fun _ => 1) x y) = 0 then 0 else π / (period * √(sqDist (fun _ => 1) x y))) *
        exp (-2 * (sin (√(sqDist (fun _ => 1) x y) * (π / period)) / ls) ^ 2) *
        (-2 * sin (2 * (√(sqDist (fun _ => 1) x y) * (π / period))) / ls ^ 2) * (x j - y j)) := by
  by_cases hr : √(sqDist (fun _ => 1) x y) = 0
  · have h0 : sqDist (fun _ => 1) x y = 0 := by
      have := Real.sq_sqrt (sqDist_nonneg (fun _ => (1 : ℝ)) x y)
      rw [hr] at this; simpa using this.symm
    rw [if_pos hr]
    refine HasPartial.congr_deriv (hasPartial_of_sq (c := 2 * (π / period / ls) ^ 2) h0 ?_ j) (by ring)
    intro z
    rw [hr, mul_zero, sin_zero, zero_div]
    have e : exp (-2 * (0 : ℝ) ^ 2) = 1 := by simp
    rw [e]
    obtain ⟨u, hu⟩ : ∃ u, u = (sin (π / period * √(sqDist (fun _ => 1) z y)) / ls) ^ 2 := ⟨_, rfl⟩
    rw [← hu]
    have hu0 : 0 ≤ u := hu ▸ sq_nonneg _
    have hub : u ≤ (π / period / ls) ^ 2 * sqDist (fun _ => 1) z y := by
      have hs : sin (π / period * √(sqDist (fun _ => 1) z y)) ^ 2 ≤ (π / period * √(sqDist (fun _ => 1) z y)) ^ 2 :=
        sq_le_sq.2 (Real.abs_sin_le_abs)
      rw [hu, div_pow, div_pow (π / period) ls, div_mul_eq_mul_div ((π / period) ^ 2)]
      refine div_le_div_of_nonneg_right (hs.trans (le_of_eq ?_)) (sq_nonneg _)
      rw [mul_pow, Real.sq_sqrt (sqDist_nonneg _ _ _)]
    have h1 : exp (-2 * u) ≤ 1 := exp_le_one_iff.2 (by linarith)
    have h2 := add_one_le_exp (-2 * u)
    rw [abs_le]
    constructor <;> nlinarith
  · rw [if_neg hr]
    obtain ⟨r, hrd⟩ : ∃ r, r = √(sqDist (fun _ => 1) x y) := ⟨_, rfl⟩
    have h1 : HasDerivAt (fun r : ℝ => exp (-2 * (sin (π / period * r) / ls) ^ 2))
        (exp (-2 * (sin (π / period * r) / ls) ^ 2) *
          (-2 * (2 * (sin (π / period * r) / ls) * (cos (π / period * r) * (π / period) / ls)))) r := by
      have ha : HasDerivAt (fun r : ℝ => sin (π / period * r)) (cos (π / period * r) * (π / period)) r := by
        simpa using ((hasDerivAt_id r).const_mul (π / period)).sin
      have hb := (((ha.div_const ls).pow 2).const_mul (-2 : ℝ)).exp
      simpa using hb
    rw [hrd] at h1
    refine ((hasPartial_dist hr j).comp (φ := fun r : ℝ => exp (-2 * (sin (π / period * r) / ls) ^ 2)) h1).congr_deriv ?_
    rw [sin_two_mul, mul_comm √(sqDist (fun _ => 1) x y) (π / period)]
    field_simp
    try ring

theorem dot_grad (s : ℝ) (x y : Fin d → ℝ) (j : Fin d) : HasPartial (fun x => ∑ i, x i * y i + s ^ 2) x j (y j) := by
  have h : ∀ i, HasPartial (fun x : Fin d → ℝ => x i * y i) x j (if i = j then y i else 0) := by
    intro i
    have := (hasPartial_coord x i j).mul (hasPartial_const (y i) x j)
    refine this.congr_deriv ?_
    split_ifs <;> simp
  have := (hasPartial_sum h).add (hasPartial_const (s ^ 2) x j)
  refine this.congr_deriv ?_
  simp

/-! ## Expressions -/

/-- What has to be assumed of the hyperparameters, and of the two points: the power of a kernel is taken of a positive
value; for `Matern(nu=0.5)` the points have to be different. -/
def KExpr.Regular (general : ℕ → ℝ → ℝ) : KExpr d → (Fin d → ℝ) → (Fin d → ℝ) → Prop
  | matern nu2 ls, x, y => nu2 = 1 → sqDist ls x y ≠ 0
  | rq _ alpha, _, _ => 0 < alpha
  | sum a b, x, y | prod a b, x, y => a.Regular general x y ∧ b.Regular general x y
  | pow a _, x, y => a.Regular general x y ∧ 0 < a.eval general x y
  | _, _, _ => True

/-- **C53**, partial: if `gradient_x` returns something, it is the gradient. For all expressions, by induction. -/
theorem C53_gradient_partial (general : ℕ → ℝ → ℝ) (e : KExpr d) : ∀ (ndim : ℕ) (x y g : Fin d → ℝ), e.Regular general x y →
    e.gradX general ndim x y = .ok g → ∀ j, HasPartial (fun x => e.eval general x y) x j (g j) := by
  induction e with
  | rbf ls => intro ndim x y g _ h j; cases h; exact rbf_grad ls x y j
  | matern nu2 ls => intro ndim x y g hr h j; exact matern_grad general h hr j
  | rq ls alpha => intro ndim x y g hr h j; cases h; exact rq_grad hr x y j
  | expSine ls period => intro ndim x y g _ h j; cases h; exact expSine_grad x y j
  | const c => intro ndim x y g _ h j; cases h; exact hasPartial_const c x j
  | white => intro ndim x y g _ h j; cases h; exact hasPartial_const 0 x j
  | dot s => intro ndim x y g _ h j; cases h; exact dot_grad s x y j
  | sum a b iha ihb =>
    intro ndim x y g hr h j
    rw [KExpr.gradX] at h
    cases ha : a.gradX general ndim x y with
    | error e => rw [ha] at h; simp at h
    | ok u =>
      cases hb : b.gradX general ndim x y with
      | error e => rw [ha, hb] at h; simp at h
      | ok v =>
        rw [ha, hb] at h
        cases h
        exact (iha ndim x y u hr.1 ha j).add (ihb ndim x y v hr.2 hb j)
  | prod a b iha ihb =>
    intro ndim x y g hr h j
    rw [KExpr.gradX] at h
    cases ha : a.gradX general (ndim + 1) x y with
    | error e => split at h <;> simp_all
    | ok u =>
      cases hb : b.gradX general (ndim + 1) x y with
      | error e => split at h <;> simp_all
      | ok v =>
        by_cases hea : a.evalOk (ndim + 1) = true
        · by_cases heb : b.evalOk (ndim + 1) = true
          · have e1 : a.evalE general (ndim + 1) x y = .ok (a.eval general x y) := if_pos hea
            have e2 : b.evalE general (ndim + 1) x y = .ok (b.eval general x y) := if_pos heb
            rw [ha, hb, e1, e2] at h
            cases h
            exact (iha _ x y u hr.1 ha j).mul (ihb _ x y v hr.2 hb j)
          · have e2 : b.evalE general (ndim + 1) x y = .error .valueError := if_neg heb
            rw [ha, hb, e2] at h
            split at h <;> simp_all
        · have e1 : a.evalE general (ndim + 1) x y = .error .valueError := if_neg hea
          rw [ha, hb, e1] at h
          split at h <;> simp_all
  | pow a p iha =>
    intro ndim x y g hr h j
    rw [KExpr.gradX] at h
    by_cases hea : a.evalOk (ndim + 1) = true
    · have e1 : a.evalE general (ndim + 1) x y = .ok (a.eval general x y) := if_pos hea
      rw [e1] at h
      cases ha : a.gradX general ndim x y with
      | error e => rw [ha] at h; simp at h
      | ok u =>
        rw [ha] at h
        cases h
        have h1 : HasDerivAt (fun k : ℝ => k ^ p) (p * a.eval general x y ^ (p - 1)) (a.eval general x y) := by
          have := (hasDerivAt_id (a.eval general x y)).rpow_const (p := p) (Or.inl hr.2.ne')
          simpa using this
        exact (iha ndim x y u hr.1 ha j).comp h1
    · have e1 : a.evalE general (ndim + 1) x y = .error .valueError := if_neg hea
      rw [e1] at h
      simp at h

/-- Levels of products and powers, counted by the dimensions they add to `x`; `gradX` returns something if there is one at
most. Constant subexpressions do not count. -/
def KExpr.Flat : KExpr d → ℕ → Prop
  | matern nu2 _, k => nu2 = 3 ∨ nu2 = 5 ∨ nu2 = 1 ∧ (k = 1 ∨ d = 1)
  | sum a b, k => a.Flat k ∧ b.Flat k
  | prod a b, k => a.Flat (k + 1) ∧ b.Flat (k + 1) ∧ a.evalOk (k + 1) ∧ b.evalOk (k + 1)
  | pow a _, k => a.Flat k ∧ a.evalOk (k + 1)
  | _, _ => True

/-- **C53**: `gradient_x` returns something for these expressions: sums of kernels, and of products or powers of kernels
that are not products or powers themselves. -/
theorem C53_returns_partial (general : ℕ → ℝ → ℝ) (e : KExpr d) : ∀ (ndim : ℕ) (x y : Fin d → ℝ), 1 ≤ ndim → e.Flat ndim →
    ∃ g, e.gradX general ndim x y = .ok g := by
  induction e with
  | rbf ls => intros; exact ⟨_, rfl⟩
  | matern nu2 ls =>
    intro ndim x y h1 h
    rcases h with rfl | rfl | ⟨rfl, h⟩
    · exact ⟨_, rfl⟩
    · exact ⟨_, rfl⟩
    · rw [KExpr.gradX]
      unfold maternGrad
      dsimp only
      rw [if_neg (by rintro ⟨ha, hb⟩; rcases h with h | h <;> omega)]
      exact ⟨_, rfl⟩
  | rq ls alpha => intros; exact ⟨_, rfl⟩
  | expSine ls period => intros; exact ⟨_, rfl⟩
  | const c => intros; exact ⟨_, rfl⟩
  | white => intros; exact ⟨_, rfl⟩
  | dot s => intros; exact ⟨_, rfl⟩
  | sum a b iha ihb =>
    intro ndim x y h1 h
    obtain ⟨u, hu⟩ := iha ndim x y h1 h.1
    obtain ⟨v, hv⟩ := ihb ndim x y h1 h.2
    rw [KExpr.gradX, hu, hv]
    exact ⟨_, rfl⟩
  | prod a b iha ihb =>
    intro ndim x y h1 h
    obtain ⟨u, hu⟩ := iha (ndim + 1) x y (by omega) h.1
    obtain ⟨v, hv⟩ := ihb (ndim + 1) x y (by omega) h.2.1
    rw [KExpr.gradX, hu, hv]
    unfold KExpr.evalE
    rw [if_pos h.2.2.1, if_pos h.2.2.2]
    exact ⟨_, rfl⟩
  | pow a p iha =>
    intro ndim x y h1 h
    obtain ⟨u, hu⟩ := iha ndim x y h1 h.1
    rw [KExpr.gradX, hu]
    unfold KExpr.evalE
    rw [if_pos h.2]
    exact ⟨_, rfl⟩

/-- Expressions made of constants and noise only. -/
def KExpr.NoDep : KExpr d → Prop
  | const _ | white => True
  | sum a b | prod a b => a.NoDep ∧ b.NoDep
  | pow a _ => a.NoDep
  | _ => False

/-- `k - 1` products surround the expression. A product or a power in a product must not depend on the points; Matern has gradients for
`nu` = 1/2, 3/2 and 5/2, the first not directly in one product unless there is only one dimension. -/
def KExpr.GradOk : KExpr d → ℕ → Prop
  | matern nu2 _, k => nu2 = 3 ∨ nu2 = 5 ∨ nu2 = 1 ∧ (k ≠ 2 ∨ d = 1)
  | sum a b, k => a.GradOk k ∧ b.GradOk k
  | prod a b, k => a.GradOk (k + 1) ∧ b.GradOk (k + 1) ∧ (k = 1 ∨ a.NoDep ∧ b.NoDep)
  | pow a _, k => a.GradOk k ∧ (k = 1 ∨ a.NoDep)
  | _, _ => True

theorem KExpr.evalOk_iff (e : KExpr d) (k : ℕ) : e.evalOk k = true ↔ k ≤ 2 ∨ e.NoDep := by
  induction e with
  | sum a b iha ihb | prod a b iha ihb =>
    rw [KExpr.evalOk, Bool.and_eq_true, iha, ihb, KExpr.NoDep]
    tauto
  | pow a p iha => rw [KExpr.evalOk, iha, KExpr.NoDep]
  | const c => simp [KExpr.evalOk, KExpr.NoDep]
  | white => simp [KExpr.evalOk, KExpr.NoDep]
  | _ => simp [KExpr.evalOk, KExpr.NoDep]

/-- **C53**: exactly for these expressions `gradient_x` returns something, whatever the points are. -/
theorem C53_returns_iff (general : ℕ → ℝ → ℝ) (e : KExpr d) : ∀ (ndim : ℕ) (x y : Fin d → ℝ), 1 ≤ ndim →
    ((∃ g, e.gradX general ndim x y = .ok g) ↔ e.GradOk ndim) := by
  induction e with
  | matern nu2 ls =>
    intro ndim x y h1
    rw [KExpr.gradX, KExpr.GradOk]
    unfold maternGrad
    dsimp only
    split
    · split
      · rename_i h; simp; omega
      · rename_i h; simp; omega
    · simp
    · simp
    · rename_i h1 h3 h5
      simp; exact ⟨h3, h5, fun h => absurd h h1⟩
  | sum a b iha ihb =>
    intro ndim x y h1
    rw [KExpr.gradX, KExpr.GradOk, ← iha ndim x y h1, ← ihb ndim x y h1]
    cases a.gradX general ndim x y <;> cases b.gradX general ndim x y <;> simp
  | prod a b iha ihb =>
    intro ndim x y h1
    have e1 := a.evalOk_iff (ndim + 1)
    have e2 := b.evalOk_iff (ndim + 1)
    rw [KExpr.gradX, KExpr.GradOk, ← iha (ndim + 1) x y (by omega), ← ihb (ndim + 1) x y (by omega)]
    have e3 : (ndim = 1 ∨ a.NoDep ∧ b.NoDep) ↔ a.evalOk (ndim + 1) = true ∧ b.evalOk (ndim + 1) = true := by
      rw [e1, e2]
      have : ndim + 1 ≤ 2 ↔ ndim = 1 := by omega
      rw [this]; tauto
    rw [e3]
    unfold KExpr.evalE
    cases a.gradX general (ndim + 1) x y <;> cases b.gradX general (ndim + 1) x y <;> cases a.evalOk (ndim + 1) <;> cases b.evalOk (ndim + 1) <;> simp
  | pow a p iha =>
    intro ndim x y h1
    have e1 := a.evalOk_iff (ndim + 1)
    rw [KExpr.gradX, KExpr.GradOk, ← iha ndim x y h1]
    have e3 : (ndim = 1 ∨ a.NoDep) ↔ a.evalOk (ndim + 1) = true := by
      rw [e1]
      have : ndim + 1 ≤ 2 ↔ ndim = 1 := by omega
      rw [this]
    rw [e3]
    unfold KExpr.evalE
    cases a.gradX general ndim x y <;> cases a.evalOk (ndim + 1) <;> simp
  | _ => intros; simp [KExpr.gradX, KExpr.GradOk]

/-- A product of a constant and a product of a constant and noise has a gradient; with a RBF kernel added to the inner constant it has none. -/
example (general : ℕ → ℝ → ℝ) (x y : Fin 2 → ℝ) :
    (∃ g, (KExpr.prod (.const 2) (.prod (.const 3) .white)).gradX general 1 x y = .ok g) ∧
    ¬ ∃ g, (KExpr.prod (.const 2) (.prod (.sum (.const 3) (.rbf fun _ => 1)) .white)).gradX general 1 x y = .ok g := by
  constructor
  · rw [C53_returns_iff general _ 1 x y le_rfl]
    simp [KExpr.GradOk, KExpr.NoDep]
  · rw [C53_returns_iff general _ 1 x y le_rfl]
    simp [KExpr.GradOk, KExpr.NoDep]

/-- **C53** is false for products of products (and powers in products) that are not constant: `ValueError`. -/
theorem C53_nested_product_counterexample (general : ℕ → ℝ → ℝ) (c : ℝ) (ls ls' x y : Fin d → ℝ) (p : ℝ) :
    (KExpr.prod (.prod (.const c) (.rbf ls)) (.rbf ls')).gradX general 1 x y = .error .valueError ∧
    (KExpr.prod (.const c) (.pow (.rbf ls) p)).gradX general 1 x y = .error .valueError := by
  constructor <;> simp [KExpr.gradX, KExpr.evalE, KExpr.evalOk]

/-- **C53** is false for `Matern(nu=0.5)` where the points agree: the function returns something, but there is no
derivative. -/
theorem C53_matern12_counterexample (general : ℕ → ℝ → ℝ) :
    (KExpr.matern 1 (fun _ : Fin 1 => 1)).gradX general 1 (fun _ => 0) (fun _ => 0) = .ok (fun _ => -1) ∧
    ∀ g, ¬ HasPartial (fun x => (KExpr.matern 1 (fun _ : Fin 1 => 1)).eval general x (fun _ => 0)) (fun _ => 0) 0 g := by
  constructor
  · simp [KExpr.gradX, maternGrad, sqDist]
  · intro g hg
    unfold HasPartial at hg
    have e : (fun t : ℝ => (KExpr.matern 1 (fun _ : Fin 1 => 1)).eval general (Function.update (fun _ => 0) 0 t) (fun _ => 0)) =
        fun t => exp (-|t|) := by
      funext t
      simp [KExpr.eval, maternVal, sqDist, Real.sqrt_sq_eq_abs]
    rw [e] at hg
    have h1 : HasDerivAt (fun t : ℝ => Real.log (exp (-|t|))) (g / exp (-|0|)) 0 := hg.log (exp_pos _).ne'
    have h2 : HasDerivAt (fun t : ℝ => |t|) (-(g / exp (-|0|))) 0 := by
      have := h1.neg
      refine this.congr_of_eventuallyEq (Filter.Eventually.of_forall fun t => ?_)
      simp
    exact not_differentiableAt_abs_zero h2.differentiableAt

/-- C53: a constant times an RBF kernel plus a Matern kernel, in two dimensions. -/
example (general : ℕ → ℝ → ℝ) (x y : Fin 2 → ℝ) :
    ∃ g, (KExpr.sum (.prod (.const 2) (.rbf fun _ => 3)) (.matern 5 fun _ => 1)).gradX general 1 x y = .ok g ∧
    ∀ j, HasPartial (fun x => (KExpr.sum (.prod (.const 2) (.rbf fun _ => 3)) (.matern 5 fun _ => 1)).eval general x y) x j (g j) := by
  obtain ⟨g, hg⟩ := C53_returns_partial general (KExpr.sum (.prod (.const 2) (.rbf fun _ => 3)) (.matern 5 fun _ => 1)) 1 x y
    le_rfl (by simp [KExpr.Flat, KExpr.evalOk])
  exact ⟨g, hg, C53_gradient_partial general _ 1 x y g (by simp [KExpr.Regular]) hg⟩

end GPry.Kernels
