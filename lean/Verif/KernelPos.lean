import Mathlib.Analysis.Matrix.Order
import Mathlib.Analysis.SpecialFunctions.Exponential
import Mathlib.Analysis.SpecialFunctions.Gamma.Basic
import Mathlib.Analysis.SpecialFunctions.Gaussian.GaussianIntegral
import Mathlib.Analysis.SpecialFunctions.ImproperIntegrals
import Mathlib.Analysis.SpecialFunctions.Sqrt
import Mathlib.MeasureTheory.Integral.IntegralEqImproper
import Verif.Kernels
import Verif.GpProps

set_option linter.all false

/-!
# Kernel matrices are positive semidefinite (C106)
-/

namespace GPry.Gp

open Matrix

section Closure
variable {P : Type*} {k k' : P → P → ℝ}

/-- Quadratic form of a kernel matrix. -/
def quad (k : P → P → ℝ) {l : ℕ} (X : Fin l → P) (c : Fin l → ℝ) : ℝ := ∑ i, ∑ j, c i * c j * k (X i) (X j)

theorem isKernel_iff : IsKernel k ↔ (∀ x y, k x y = k y x) ∧ ∀ (l : ℕ) (X : Fin l → P) (c : Fin l → ℝ), 0 ≤ quad k X c := by
  have e : ∀ (l : ℕ) (X : Fin l → P) (c : Fin l → ℝ), star c ⬝ᵥ ((Matrix.of fun i j => k (X i) (X j)) *ᵥ c) = quad k X c := by
    intro l X c
    simp only [star_trivial, dotProduct, mulVec, quad, Matrix.of_apply, Finset.mul_sum]
    refine Finset.sum_congr rfl fun i _ => Finset.sum_congr rfl fun j _ => ?_
    ring
  constructor
  · intro h
    refine ⟨h.symm, fun l X c => ?_⟩
    rw [← e]
    exact (posSemidef_iff_dotProduct_mulVec.1 (h l X)).2 c
  · rintro ⟨hs, h⟩ l X
    rw [posSemidef_iff_dotProduct_mulVec]
    refine ⟨?_, fun c => by rw [e]; exact h l X c⟩
    ext i j
    simp [Matrix.conjTranspose, hs (X i) (X j)]

theorem isKernel_add (h : IsKernel k) (h' : IsKernel k') : IsKernel fun x y => k x y + k' x y :=
  fun l X => (h l X).add (h' l X)

theorem isKernel_mul (h : IsKernel k) (h' : IsKernel k') : IsKernel fun x y => k x y * k' x y :=
  fun l X => (h l X).hadamard (h' l X)

theorem isKernel_feature (f : P → ℝ) : IsKernel fun x y => f x * f y := by
  rw [isKernel_iff]
  refine ⟨fun x y => mul_comm _ _, fun l X c => ?_⟩
  have : quad (fun x y => f x * f y) X c = (∑ i, c i * f (X i)) ^ 2 := by
    rw [sq, Finset.sum_mul_sum, quad]
    refine Finset.sum_congr rfl fun i _ => Finset.sum_congr rfl fun j _ => ?_
    ring
  rw [this]
  exact sq_nonneg _

theorem isKernel_const {a : ℝ} (ha : 0 ≤ a) : IsKernel fun _ _ : P => a := by
  have := isKernel_feature fun _ : P => √a
  simpa [Real.mul_self_sqrt ha] using this

theorem isKernel_zero : IsKernel fun _ _ : P => (0 : ℝ) := isKernel_const le_rfl

theorem isKernel_smul {a : ℝ} (ha : 0 ≤ a) (h : IsKernel k) : IsKernel fun x y => a * k x y :=
  isKernel_mul (isKernel_const ha) h

theorem isKernel_sum {ι : Type*} (s : Finset ι) {f : ι → P → P → ℝ} (h : ∀ i ∈ s, IsKernel (f i)) :
    IsKernel fun x y => ∑ i ∈ s, f i x y := by
  classical
  induction s using Finset.induction_on with
  | empty => simpa using isKernel_zero
  | insert i s hi ih =>
    simp only [Finset.sum_insert hi]
    exact isKernel_add (h i (by simp)) (ih fun j hj => h j (by simp [hj]))

theorem isKernel_pow (h : IsKernel k) (n : ℕ) : IsKernel fun x y => k x y ^ n := by
  induction n with
  | zero => simpa using isKernel_const (P := P) zero_le_one
  | succ n ih => simpa only [pow_succ] using isKernel_mul ih h

theorem isKernel_limit {f : ℕ → P → P → ℝ} (h : ∀ n, IsKernel (f n))
    (ht : ∀ x y, Filter.Tendsto (fun n => f n x y) Filter.atTop (nhds (k x y))) : IsKernel k := by
  rw [isKernel_iff]
  refine ⟨fun x y => ?_, fun l X c => ?_⟩
  · refine tendsto_nhds_unique (ht x y) ?_
    simp only [(h _).symm x y]
    exact ht y x
  · refine ge_of_tendsto' (x := Filter.atTop) (f := fun n => quad (f n) X c) ?_ fun n => (isKernel_iff.1 (h n)).2 l X c
    unfold quad
    exact tendsto_finset_sum _ fun i _ => tendsto_finset_sum _ fun j _ => (ht _ _).const_mul _

theorem isKernel_exp (h : IsKernel k) : IsKernel fun x y => Real.exp (k x y) := by
  refine isKernel_limit (f := fun n x y => ∑ i ∈ Finset.range n, k x y ^ i / (i.factorial : ℝ)) ?_ ?_
  · intro n
    refine isKernel_sum _ fun i _ => ?_
    have := isKernel_smul (a := 1 / (i.factorial : ℝ)) (by positivity) (isKernel_pow h i)
    simpa [div_eq_inv_mul] using this
  · intro x y
    have := (NormedSpace.expSeries_div_hasSum_exp (k x y)).tendsto_sum_nat
    rwa [← Real.exp_eq_exp_ℝ] at this

theorem isKernel_comp {Q : Type*} (f : Q → P) (h : IsKernel k) : IsKernel fun x y => k (f x) (f y) :=
  fun l X => h l fun i => f (X i)

/-- The kernel relative to a point. -/
theorem isKernel_centre (h : IsKernel k) (o : P) : IsKernel fun x y => k x y - k x o - k o y + k o o := by
  rw [isKernel_iff]
  refine ⟨fun x y => by rw [h.symm x y, h.symm x o, h.symm o y]; ring, fun l X c => ?_⟩
  have := (isKernel_iff.1 h).2 (l + 1) (Fin.cons o X) (Fin.cons (-∑ i, c i) c)
  have e : quad k (Fin.cons o X : Fin (l + 1) → P) (Fin.cons (-∑ i, c i) c) =
      quad (fun x y => k x y - k x o - k o y + k o o) X c := by
    have t0 : (∑ i, c i) * (∑ i, c i) = ∑ i, ∑ j, c i * c j := by rw [Finset.sum_mul_sum]
    have t1 : (∑ i, c i) * ∑ j, c j * k o (X j) = ∑ i, ∑ j, c i * (c j * k o (X j)) := by rw [Finset.sum_mul_sum]
    have t2 : (∑ i, c i * k (X i) o) * (∑ j, c j) = ∑ i, ∑ j, c i * k (X i) o * c j := by rw [Finset.sum_mul_sum]
    simp only [quad, Fin.sum_univ_succ, Fin.cons_zero, Fin.cons_succ]
    have r1 : ∀ S : ℝ, ∑ j, -S * c j * k o (X j) = -(S * ∑ j, c j * k o (X j)) := by
      intro S
      rw [Finset.mul_sum, ← Finset.sum_neg_distrib]
      exact Finset.sum_congr rfl fun j _ => by ring
    have r2 : ∀ S : ℝ, ∑ i, (c i * -S * k (X i) o + ∑ j, c i * c j * k (X i) (X j)) =
        -((∑ i, c i * k (X i) o) * S) + ∑ i, ∑ j, c i * c j * k (X i) (X j) := by
      intro S
      rw [Finset.sum_add_distrib, Finset.sum_mul, ← Finset.sum_neg_distrib]
      congr 1
      exact Finset.sum_congr rfl fun j _ => by ring
    rw [r1, r2, t1, t2]
    have t3 : -(∑ i, c i) * -(∑ i, c i) * k o o = ∑ i, ∑ j, c i * c j * k o o := by
      rw [neg_mul_neg, t0, Finset.sum_mul]
      exact Finset.sum_congr rfl fun i _ => by rw [Finset.sum_mul]
    rw [t3]
    simp only [← Finset.sum_neg_distrib, ← Finset.sum_add_distrib]
    refine Finset.sum_congr rfl fun i _ => Finset.sum_congr rfl fun j _ => ?_
    ring
  rw [← e]
  exact this

open MeasureTheory in
/-- Mixture of kernels. -/
theorem isKernel_integral {f : ℝ → P → P → ℝ} (h : ∀ t ∈ Set.Ioi (0 : ℝ), IsKernel (f t))
    (hi : ∀ x y, IntegrableOn (fun t => f t x y) (Set.Ioi 0)) : IsKernel fun x y => ∫ t in Set.Ioi (0 : ℝ), f t x y := by
  rw [isKernel_iff]
  constructor
  · intro x y
    exact setIntegral_congr_fun measurableSet_Ioi fun t ht => (h t ht).symm x y
  · intro l X c
    have : quad (fun x y => ∫ t in Set.Ioi (0 : ℝ), f t x y) X c = ∫ t in Set.Ioi (0 : ℝ), quad (f t) X c := by
      unfold quad
      rw [integral_finset_sum _ fun i _ => integrable_finset_sum _ fun j _ => (hi _ _).const_mul _]
      refine Finset.sum_congr rfl fun i _ => ?_
      rw [integral_finset_sum _ fun j _ => (hi _ _).const_mul _]
      refine Finset.sum_congr rfl fun j _ => ?_
      rw [integral_const_mul]
    rw [this]
    exact setIntegral_nonneg measurableSet_Ioi fun t ht => (isKernel_iff.1 (h t ht)).2 l X c

end Closure

end GPry.Gp

namespace GPry.Kernels

open Real Gp MeasureTheory Set

variable {d : ℕ}

theorem isKernel_dot (w : Fin d → ℝ) (hw : ∀ i, 0 ≤ w i) : IsKernel fun x y : Fin d → ℝ => ∑ i, w i * (x i * y i) :=
  isKernel_sum _ fun i _ => isKernel_smul (hw i) (isKernel_feature fun x : Fin d → ℝ => x i)

/-- Gaussian kernels of any width. -/
theorem isKernel_gauss (ls : Fin d → ℝ) {u : ℝ} (hu : 0 ≤ u) : IsKernel fun x y : Fin d → ℝ => exp (-(u * sqDist ls x y)) := by
  have h := isKernel_mul (isKernel_feature fun x : Fin d → ℝ => exp (-(u * ∑ i, (x i / ls i) ^ 2)))
    (isKernel_exp (isKernel_dot (fun i => 2 * u * (1 / ls i) ^ 2) fun i => by positivity))
  convert h using 3 with x y
  rw [← exp_add, ← exp_add]
  congr 1
  unfold sqDist
  simp only [Finset.mul_sum, ← Finset.sum_neg_distrib, ← Finset.sum_add_distrib]
  refine Finset.sum_congr rfl fun i _ => ?_
  ring

theorem sqDist_nonneg (ls x y : Fin d → ℝ) : 0 ≤ sqDist ls x y := Finset.sum_nonneg fun i _ => sq_nonneg _

/-! ## Rational quadratic -/

theorem isKernel_rq (ls : Fin d → ℝ) {alpha : ℝ} (ha : 0 < alpha) :
    IsKernel fun x y : Fin d → ℝ => (1 + sqDist ls x y / (2 * alpha)) ^ (-alpha) := by
  have hr : ∀ x y : Fin d → ℝ, 0 < 1 + sqDist ls x y / (2 * alpha) := fun x y => by
    have := sqDist_nonneg ls x y; positivity
  have hi : ∀ x y : Fin d → ℝ, IntegrableOn (fun t : ℝ => t ^ (alpha - 1) * exp (-((1 + sqDist ls x y / (2 * alpha)) * t))) (Ioi 0) := by
    intro x y
    have := integrableOn_rpow_mul_exp_neg_mul_rpow (s := alpha - 1) (p := 1) (b := 1 + sqDist ls x y / (2 * alpha))
      (by linarith) one_pos (hr x y)
    simpa only [rpow_one, neg_mul] using this
  have h := isKernel_smul (a := (Gamma alpha)⁻¹) (inv_nonneg.2 (Gamma_pos_of_pos ha).le)
    (isKernel_integral (P := Fin d → ℝ) (f := fun t x y => t ^ (alpha - 1) * exp (-((1 + sqDist ls x y / (2 * alpha)) * t)))
      (fun t ht => by
        have ht : 0 < t := ht
        have := isKernel_smul (a := t ^ (alpha - 1) * exp (-t)) (by positivity)
          (isKernel_gauss (d := d) ls (u := t / (2 * alpha)) (by positivity))
        convert this using 3 with x y
        rw [mul_assoc, ← exp_add]
        congr 2
        ring) hi)
  convert h using 3 with x y
  rw [integral_rpow_mul_exp_neg_mul_Ioi ha (hr x y), one_div, inv_rpow (hr x y).le, rpow_neg (hr x y).le]
  have := (Gamma_pos_of_pos ha).ne'
  generalize (((1 + sqDist ls x y / (2 * alpha)) ^ alpha)⁻¹ : ℝ) = z
  rw [mul_comm z, ← mul_assoc, inv_mul_cancel₀ this, one_mul]

/-! ## Exponential of minus the distance -/

/-- auxiliary integrand -/
noncomputable def g (u : ℝ) : ℝ := (1 - exp (-u)) * u ^ (-(3 / 2) : ℝ)

theorem g_nonneg {u : ℝ} (hu : 0 < u) : 0 ≤ g u := by
  have : exp (-u) ≤ 1 := exp_le_one_iff.2 (by linarith)
  exact mul_nonneg (by linarith) (rpow_nonneg hu.le _)

theorem g_pos {u : ℝ} (hu : 0 < u) : 0 < g u := by
  have : exp (-u) < 1 := by rw [exp_lt_one_iff]; linarith
  exact mul_pos (by linarith) (rpow_pos_of_pos hu _)

theorem g_cont : ContinuousOn g (Ioi 0) := by
  intro u hu
  have hu : 0 < u := hu
  refine ContinuousAt.continuousWithinAt ?_
  unfold g
  exact ContinuousAt.mul (by fun_prop) (continuousAt_rpow_const _ _ (Or.inl hu.ne'))

theorem g_integrable : IntegrableOn g (Ioi 0) := by
  rw [← Ioc_union_Ioi_eq_Ioi (zero_le_one (α := ℝ)), integrableOn_union]
  constructor
  · have h1 : IntegrableOn (fun u : ℝ => u ^ (-(1 / 2) : ℝ)) (Ioc 0 1) := by
      have := (intervalIntegral.intervalIntegrable_rpow' (a := 0) (b := 1) (r := -(1 / 2)) (by norm_num))
      rwa [intervalIntegrable_iff_integrableOn_Ioc_of_le zero_le_one] at this
    refine Integrable.mono' h1 ((g_cont.mono Ioc_subset_Ioi_self).aestronglyMeasurable measurableSet_Ioc) ?_
    rw [ae_restrict_iff' measurableSet_Ioc]
    refine Filter.Eventually.of_forall fun u hu => ?_
    have hu0 : 0 < u := hu.1
    rw [norm_of_nonneg (g_nonneg hu0)]
    have h2 : 1 - exp (-u) ≤ u := by have := add_one_le_exp (-u); linarith
    have h3 : u ^ (-(1 / 2) : ℝ) = u * u ^ (-(3 / 2) : ℝ) := by
      rw [← rpow_one_add' hu0.le (by norm_num)]; norm_num
    rw [h3]
    exact mul_le_mul_of_nonneg_right h2 (rpow_nonneg hu0.le _)
  · have h1 : IntegrableOn (fun u : ℝ => u ^ (-(3 / 2) : ℝ)) (Ioi 1) := integrableOn_Ioi_rpow_of_lt (by norm_num) one_pos
    refine Integrable.mono' h1 ((g_cont.mono (Ioi_subset_Ioi zero_le_one)).aestronglyMeasurable measurableSet_Ioi) ?_
    rw [ae_restrict_iff' measurableSet_Ioi]
    refine Filter.Eventually.of_forall fun u hu => ?_
    have hu0 : 0 < u := zero_lt_one.trans hu
    rw [norm_of_nonneg (g_nonneg hu0)]
    have : 1 - exp (-u) ≤ 1 := by have := exp_pos (-u); linarith
    calc g u ≤ 1 * u ^ (-(3 / 2) : ℝ) := mul_le_mul_of_nonneg_right this (rpow_nonneg hu0.le _)
      _ = _ := one_mul _

/-- the constant -/
noncomputable def gC : ℝ := ∫ u in Ioi (0 : ℝ), g u

theorem gC_pos : 0 < gC := by
  rw [gC, setIntegral_pos_iff_support_of_nonneg_ae]
  · have : Function.support g ∩ Ioi 0 = Ioi 0 := by
      rw [inter_eq_right]
      exact fun u hu => (g_pos hu).ne'
    rw [this]
    simp
  · rw [Filter.EventuallyLE, ae_restrict_iff' measurableSet_Ioi]
    exact Filter.Eventually.of_forall fun u hu => g_nonneg hu
  · exact g_integrable

theorem g_mul {a : ℝ} (ha : 0 < a) {u : ℝ} (hu : 0 < u) :
    (1 - exp (-(a * u))) * u ^ (-(3 / 2) : ℝ) = a ^ (3 / 2 : ℝ) * g (a * u) := by
  unfold g
  rw [mul_rpow ha.le hu.le]
  have : a ^ (3 / 2 : ℝ) * a ^ (-(3 / 2) : ℝ) = 1 := by rw [← rpow_add ha]; norm_num
  calc _ = (1 - exp (-(a * u))) * u ^ (-(3 / 2) : ℝ) * (a ^ (3 / 2 : ℝ) * a ^ (-(3 / 2) : ℝ)) := by rw [this, mul_one]
    _ = _ := by ring

theorem sqrt_integrable {a : ℝ} (ha : 0 ≤ a) : IntegrableOn (fun u : ℝ => (1 - exp (-(a * u))) * u ^ (-(3 / 2) : ℝ)) (Ioi 0) := by
  rcases ha.eq_or_lt with rfl | ha
  · simp
  · have h1 : IntegrableOn (fun u => g (a * u)) (Ioi 0) := by
      rw [integrableOn_Ioi_comp_mul_left_iff g 0 ha, mul_zero]; exact g_integrable
    exact IntegrableOn.congr_fun (h1.const_mul (a ^ (3 / 2 : ℝ))) (fun u hu => (g_mul ha hu).symm) measurableSet_Ioi

theorem sqrt_integral {a : ℝ} (ha : 0 ≤ a) : ∫ u in Ioi (0 : ℝ), (1 - exp (-(a * u))) * u ^ (-(3 / 2) : ℝ) = gC * √a := by
  rcases ha.eq_or_lt with rfl | ha
  · simp
  · rw [setIntegral_congr_fun measurableSet_Ioi fun u hu => g_mul ha hu, integral_const_mul,
      integral_comp_mul_left_Ioi g 0 ha, mul_zero]
    show a ^ (3 / 2 : ℝ) * (a⁻¹ * gC) = _
    have : a ^ (3 / 2 : ℝ) * a⁻¹ = √a := by
      rw [← rpow_neg_one, ← rpow_add ha, sqrt_eq_rpow]; norm_num
    rw [← mul_assoc, this, mul_comm]

/-- `exp(-√(c |x-y|² + v))` -/
theorem isKernel_exp_sqrt (ls : Fin d → ℝ) {c v : ℝ} (hc : 0 ≤ c) (hv : 0 ≤ v) :
    IsKernel fun x y : Fin d → ℝ => exp (-√(c * sqDist ls x y + v)) := by
  have hnn : ∀ x y : Fin d → ℝ, 0 ≤ c * sqDist ls x y + v := fun x y => by
    have := sqDist_nonneg ls x y; positivity
  -- the square root relative to the origin, as a mixture
  let G : (Fin d → ℝ) → (Fin d → ℝ) → ℝ → ℝ := fun x y u => (1 - exp (-((c * sqDist ls x y + v) * u))) * u ^ (-(3 / 2) : ℝ)
  have hG : ∀ x y, IntegrableOn (G x y) (Ioi 0) := fun x y => sqrt_integrable (hnn x y)
  have hI : ∀ x y, ∫ u in Ioi (0 : ℝ), G x y u = gC * √(c * sqDist ls x y + v) := fun x y => sqrt_integral (hnn x y)
  have h1 : IsKernel fun x y : Fin d → ℝ => ∫ u in Ioi (0 : ℝ), (G x 0 u + G 0 y u - G x y u - G 0 0 u) := by
    refine isKernel_integral (f := fun u x y => G x 0 u + G 0 y u - G x y u - G 0 0 u) ?_ ?_
    · intro u hu
      have hu : 0 < u := hu
      have := isKernel_smul (a := u ^ (-(3 / 2) : ℝ) * exp (-(v * u))) (by positivity)
        (isKernel_centre (isKernel_gauss (d := d) ls (u := c * u) (by positivity)) 0)
      convert this using 3 with x y
      have e : ∀ x y : Fin d → ℝ, exp (-((c * sqDist ls x y + v) * u)) = exp (-(v * u)) * exp (-(c * u * sqDist ls x y)) := by
        intro x y; rw [← exp_add]; congr 1; ring
      simp only [G, e]
      ring
    · intro x y
      exact (((hG x 0).add (hG 0 y)).sub (hG x y)).sub (hG 0 0)
  have h2 : IsKernel fun x y : Fin d → ℝ => √(c * sqDist ls x 0 + v) + √(c * sqDist ls 0 y + v) - √(c * sqDist ls x y + v) - √(c * sqDist ls 0 0 + v) := by
    have := isKernel_smul (a := gC⁻¹) (inv_nonneg.2 gC_pos.le) h1
    convert this using 3 with x y
    have i1 : IntegrableOn (fun u => G x 0 u + G 0 y u) (Ioi 0) := (hG x 0).add (hG 0 y)
    have i2 : IntegrableOn (fun u => G x 0 u + G 0 y u - G x y u) (Ioi 0) := i1.sub (hG x y)
    rw [integral_sub i2 (hG 0 0), integral_sub i1 (hG x y), integral_add (hG x 0) (hG 0 y), hI, hI, hI, hI]
    have := gC_pos.ne'
    field_simp
  have h3 := isKernel_mul (isKernel_exp h2) (isKernel_smul (a := exp √(c * sqDist ls (0 : Fin d → ℝ) 0 + v)) (exp_pos _).le
    (isKernel_feature fun x : Fin d → ℝ => exp (-√(c * sqDist ls x 0 + v))))
  convert h3 using 3 with x y
  have hs : sqDist ls y 0 = sqDist ls 0 y := by
    unfold sqDist; refine Finset.sum_congr rfl fun i _ => ?_; ring
  rw [← exp_add, ← exp_add, ← exp_add, hs]
  congr 1
  ring

end GPry.Kernels
