import Verif.CredProps
import Verif.Align
import Verif.StatProps

set_option linter.all false

/-! # The criterion `TrainAlignment` (C124), and the divergence of normal distributions as an integral (C60) -/

namespace GPry.Align

open GPry GPry.Cred MeasureTheory ProbabilityTheory Real
open scoped Matrix MatrixOrder

variable {d : ℕ}

/-- Mass of a region of a normal distribution limited by a level of the log-density. -/
theorem mass_ellipsoid (μ : EuclideanSpace ℝ (Fin d)) {S : Matrix (Fin d) (Fin d) ℝ} (hS : S.PosDef) (t : ℝ) :
    (multivariateGaussian μ S).real {x | (x - μ).ofLp ⬝ᵥ S⁻¹ *ᵥ (x - μ).ofLp ≤ t} = chi2cdf t d := by
  have hmeas : Measurable fun x : EuclideanSpace ℝ (Fin d) => μ + Matrix.toEuclideanCLM (𝕜 := ℝ) (CFC.sqrt S) x := by fun_prop
  have hq : Measurable fun x : EuclideanSpace ℝ (Fin d) => (x - μ).ofLp ⬝ᵥ S⁻¹ *ᵥ (x - μ).ofLp := by
    simp only [dotProduct, Matrix.mulVec]
    fun_prop
  have hset : MeasurableSet {x : EuclideanSpace ℝ (Fin d) | (x - μ).ofLp ⬝ᵥ S⁻¹ *ᵥ (x - μ).ofLp ≤ t} := measurableSet_le hq measurable_const
  unfold chi2cdf stdNormal
  rw [measureReal_def, measureReal_def, multivariateGaussian, Measure.map_apply hmeas hset, ← map_pi_eq_stdGaussian,
    Measure.map_apply (by fun_prop) (hmeas hset)]
  congr 2
  ext z
  have hB : CFC.sqrt S * CFC.sqrt S = S := CFC.sqrt_mul_sqrt_self _ hS.posSemidef.nonneg
  have hsym : (CFC.sqrt S).transpose = CFC.sqrt S := by
    have := (CFC.sqrt_nonneg S).isSelfAdjoint
    exact this
  have hdet : IsUnit (CFC.sqrt S).det := by
    have : IsUnit S.det := (Matrix.isUnit_iff_isUnit_det S).mp hS.isUnit
    rw [← hB, Matrix.det_mul] at this
    exact isUnit_of_mul_isUnit_left this
  have hq : (CFC.sqrt S).mulVec z ⬝ᵥ S⁻¹.mulVec ((CFC.sqrt S).mulVec z) = ∑ i, z i ^ 2 := by
    have hi : S⁻¹ = (CFC.sqrt S)⁻¹ * (CFC.sqrt S)⁻¹ := by rw [← Matrix.mul_inv_rev, hB]
    rw [hi, ← Matrix.mulVec_mulVec, Matrix.mulVec_mulVec (M := (CFC.sqrt S)⁻¹) (N := CFC.sqrt S), Matrix.nonsing_inv_mul _ hdet, Matrix.one_mulVec, Matrix.dotProduct_mulVec,
      ← Matrix.mulVec_transpose, Matrix.transpose_nonsing_inv, hsym, Matrix.mulVec_mulVec, Matrix.nonsing_inv_mul _ hdet, Matrix.one_mulVec]
    simp only [dotProduct, sq]
  have e : (μ + Matrix.toEuclideanCLM (𝕜 := ℝ) (CFC.sqrt S) (WithLp.toLp 2 z) - μ).ofLp = (CFC.sqrt S).mulVec z := by
    rw [add_sub_cancel_left]
    simp
  show (μ + Matrix.toEuclideanCLM (𝕜 := ℝ) (CFC.sqrt S) (WithLp.toLp 2 z) - μ).ofLp ⬝ᵥ
    S⁻¹ *ᵥ (μ + Matrix.toEuclideanCLM (𝕜 := ℝ) (CFC.sqrt S) (WithLp.toLp 2 z) - μ).ofLp ≤ t ↔ ∑ i, z i ^ 2 ≤ t
  rw [e, hq]

theorem quad_nonneg {S : Matrix (Fin d) (Fin d) ℝ} (hS : S.PosDef) (v : Fin d → ℝ) : 0 ≤ v ⬝ᵥ S⁻¹ *ᵥ v ∧ (v ⬝ᵥ S⁻¹ *ᵥ v = 0 ↔ v = 0) := by
  have hi : S⁻¹.PosDef := hS.inv
  by_cases hv : v = 0
  · subst hv; simp
  · have := hi.dotProduct_mulVec_pos hv
    simp only [star_trivial] at this
    exact ⟨this.le, fun h => absurd h this.ne', fun h => absurd h hv⟩

theorem align_eq {S : Matrix (Fin d) (Fin d) ℝ} (hS : S.PosDef) (m1 m2 : Fin d → ℝ) :
    align m1 m2 S = .ok (.fin (chi2cdf ((m1 - m2) ⬝ᵥ S⁻¹ *ᵥ (m1 - m2)) d)) := by
  have h := (quad_nonneg hS (m1 - m2)).1
  unfold align credOfChi2 credibility
  rw [if_neg hS.det_pos.ne', if_neg (not_lt.mpr h), Real.sq_sqrt h]

/-- **C124** (meaning). For a mean and a positive definite covariance matrix, the value of `criterion_value_from_means_cov` is the probability, under the
normal distribution with this mean and covariance, of the points with a density at least that of the other mean: of the smallest credible region
that contains it. -/
theorem C124_mass (μ m : EuclideanSpace ℝ (Fin d)) {S : Matrix (Fin d) (Fin d) ℝ} (hS : S.PosDef) :
    align μ.ofLp m.ofLp S = .ok (.fin ((multivariateGaussian μ S).real
      {x | (x - μ).ofLp ⬝ᵥ S⁻¹ *ᵥ (x - μ).ofLp ≤ (m - μ).ofLp ⬝ᵥ S⁻¹ *ᵥ (m - μ).ofLp})) := by
  rw [align_eq hS, mass_ellipsoid μ hS]
  congr 3
  have : μ.ofLp - m.ofLp = -(m - μ).ofLp := by
    ext i
    simp
  rw [this, Matrix.mulVec_neg, neg_dotProduct, dotProduct_neg, neg_neg]

theorem chi2cdf_lt_one (k : ℕ) {x : ℝ} (hx : 0 ≤ x) : chi2cdf x (k + 1) < 1 :=
  (chi2cdf_lt k hx (lt_add_one x)).trans_le measureReal_le_one

/-- **C124** (range). The value is at least 0 and less than 1; it is 0 if and only if the means are equal. -/
theorem C124_range (hd : 1 ≤ d) (m1 m2 : Fin d → ℝ) {S : Matrix (Fin d) (Fin d) ℝ} (hS : S.PosDef) :
    ∃ v, align m1 m2 S = .ok (.fin v) ∧ 0 ≤ v ∧ v < 1 ∧ (v = 0 ↔ m1 = m2) := by
  obtain ⟨k, rfl⟩ : ∃ k, d = k + 1 := ⟨d - 1, by omega⟩
  obtain ⟨h0, h1⟩ := quad_nonneg hS (m1 - m2)
  refine ⟨_, align_eq hS m1 m2, measureReal_nonneg, chi2cdf_lt_one k h0, ?_⟩
  rw [← sub_eq_zero (a := m1), ← h1]
  constructor
  · intro h
    by_contra hne
    have := chi2cdf_lt k le_rfl (lt_of_le_of_ne h0 (Ne.symm hne))
    rw [chi2cdf_zero, h] at this
    exact lt_irrefl _ this
  · intro h
    rw [h, chi2cdf_zero]

/-- **C124** (order). The further the means are apart in a direction, the larger the value. -/
theorem C124_mono (hd : 1 ≤ d) (m v : Fin d → ℝ) (hv : v ≠ 0) {S : Matrix (Fin d) (Fin d) ℝ} (hS : S.PosDef) (s t : ℝ) (hs : 0 ≤ s) (hst : s < t) :
    ∃ a b, align m (m + s • v) S = .ok (.fin a) ∧ align m (m + t • v) S = .ok (.fin b) ∧ a < b := by
  obtain ⟨k, rfl⟩ : ∃ k, d = k + 1 := ⟨d - 1, by omega⟩
  have hq : ∀ r : ℝ, (m - (m + r • v)) ⬝ᵥ S⁻¹ *ᵥ (m - (m + r • v)) = r ^ 2 * (v ⬝ᵥ S⁻¹ *ᵥ v) := by
    intro r
    have : m - (m + r • v) = (-r) • v := by ext i; simp
    rw [this, Matrix.mulVec_smul, smul_dotProduct, dotProduct_smul]
    simp only [smul_eq_mul]
    ring
  have hpos : 0 < v ⬝ᵥ S⁻¹ *ᵥ v := lt_of_le_of_ne (quad_nonneg hS v).1 fun h => hv ((quad_nonneg hS v).2.mp h.symm)
  refine ⟨_, _, align_eq hS _ _, align_eq hS _ _, ?_⟩
  rw [hq, hq]
  exact chi2cdf_lt k (mul_nonneg (sq_nonneg _) hpos.le) (by nlinarith [mul_pos (sub_pos.mpr hst) hpos])

/-- **C124** (units). The value does not depend on the parametrisation: an invertible affine transformation of the parameters does not change it. -/
theorem C124_affine (m1 m2 b : Fin d → ℝ) {S A : Matrix (Fin d) (Fin d) ℝ} (hA : IsUnit A.det) :
    align (A *ᵥ m1 + b) (A *ᵥ m2 + b) (A * S * Aᵀ) = align m1 m2 S := by
  have hAt : IsUnit Aᵀ.det := by rwa [Matrix.det_transpose]
  unfold align
  have hdet : (A * S * Aᵀ).det = 0 ↔ S.det = 0 := by
    rw [Matrix.det_mul, Matrix.det_mul, Matrix.det_transpose]
    simp [hA.ne_zero]
  by_cases h0 : S.det = 0
  · rw [if_pos h0, if_pos (hdet.mpr h0)]
  · rw [if_neg h0, if_neg (fun h => h0 (hdet.mp h))]
    congr 2
    have e : A *ᵥ m1 + b - (A *ᵥ m2 + b) = A *ᵥ (m1 - m2) := by
      rw [Matrix.mulVec_sub]; abel
    rw [e, Matrix.mul_inv_rev, Matrix.mul_inv_rev, Matrix.mulVec_mulVec, Matrix.mul_assoc, Matrix.mul_assoc, Matrix.nonsing_inv_mul _ hA, Matrix.mul_one,
      ← Matrix.mulVec_mulVec, Matrix.dotProduct_mulVec, ← Matrix.mulVec_transpose, Matrix.transpose_nonsing_inv, Matrix.transpose_transpose, Matrix.mulVec_mulVec,
      Matrix.nonsing_inv_mul _ hA, Matrix.one_mulVec]

/-- **C124** (what is stored). Positive definite covariance matrix: the value stored is the one returned, between 0.001 and 1, and it is the
probability above unless this is smaller than 0.001. -/
theorem C124_stored (hd : 1 ≤ d) (μ m : EuclideanSpace ℝ (Fin d)) {S : Matrix (Fin d) (Fin d) ℝ} (hS : S.PosDef) :
    ∃ c, value μ.ofLp m.ofLp S = (.fin c, some (.fin c)) ∧ 1e-3 ≤ c ∧ c < 1 ∧
      c = max 1e-3 ((multivariateGaussian μ S).real
        {x | (x - μ).ofLp ⬝ᵥ S⁻¹ *ᵥ (x - μ).ofLp ≤ (m - μ).ofLp ⬝ᵥ S⁻¹ *ᵥ (m - μ).ofLp}) := by
  obtain ⟨v, hv, h0, h1, -⟩ := C124_range hd μ.ofLp m.ofLp hS
  have hm := C124_mass μ m hS
  rw [hv] at hm
  have hm' := Ext.fin.inj (Except.ok.inj hm)
  rw [← hm']
  refine ⟨max 1e-3 v, ?_, le_max_left _ _, max_lt (by norm_num) h1, rfl⟩
  have hc : cap (.fin v) = .fin (max 1e-3 v) := by
    show (if v < 1e-3 then Ext.fin 1e-3 else Ext.fin v) = _
    split_ifs with h
    · rw [max_eq_left h.le]
    · rw [max_eq_right (not_lt.mp h)]
  simp only [value, hv, hc]
  rw [if_neg (by simp [Ext.lt, not_lt.mpr h0])]

/-- **C124** (failure). A `ConvergenceCheckError` is raised if and only if the covariance matrix is singular; NaN is stored then. A covariance matrix
with both signs does not raise: if the quadratic form is negative, NaN is stored and returned. -/
theorem C124_failure (m1 m2 : Fin d → ℝ) (S : Matrix (Fin d) (Fin d) ℝ) :
    ((value m1 m2 S).2 = none ↔ S.det = 0) ∧ (S.det = 0 → (value m1 m2 S).1 = .nan) ∧
    (S.det ≠ 0 → (m1 - m2) ⬝ᵥ S⁻¹ *ᵥ (m1 - m2) < 0 → value m1 m2 S = (.nan, some .nan)) := by
  by_cases h0 : S.det = 0
  · simp [value, align, h0]
  · by_cases hq : (m1 - m2) ⬝ᵥ S⁻¹ *ᵥ (m1 - m2) < 0
    · have : value m1 m2 S = (.nan, some .nan) := by
        simp only [value, align, if_neg h0, credOfChi2, if_pos hq]
        rfl
      rw [this]
      simp [h0]
    · have hc : (0 : ℝ) ≤ credibility (√((m1 - m2) ⬝ᵥ S⁻¹ *ᵥ (m1 - m2))) d := measureReal_nonneg
      have : (value m1 m2 S).2 ≠ none := by
        simp only [value, align, if_neg h0, credOfChi2, if_neg hq]
        rw [if_neg (by simp only [Ext.lt, decide_eq_true_eq]; exact not_lt.mpr hc)]
        simp
      exact ⟨⟨fun h => absurd h this, fun h => absurd h h0⟩, fun h => absurd h h0, fun _ h => absurd h hq⟩

section Window
variable {α K : Type*} [Field K] [LinearOrder K] [IsStrictOrderedRing K] [FloorRing K]

/-- **C124** (training points). For `0 ≤ frac_training ≤ 1` and a product with the number of points of at least 1, the mean is the one of the latest
`⌊n · frac_training⌋` points of the training set. -/
theorem C124_window_partial (train : List α) (frac : K) (h1 : frac ≤ 1) (hn : 1 ≤ (train.length : K) * frac) :
    window train frac <:+ train ∧ (((window train frac).length : ℕ) : ℤ) = ⌊(train.length : K) * frac⌋ := by
  have hpos : 0 < ⌊(train.length : K) * frac⌋ := Int.floor_pos.mpr hn
  have hle : ⌊(train.length : K) * frac⌋ ≤ train.length := by
    have : ⌊(train.length : K) * frac⌋ ≤ ⌊((train.length : ℕ) : K)⌋ :=
      Int.floor_le_floor (mul_le_of_le_one_right (Nat.cast_nonneg _) h1)
    simpa using this
  have hw : window train frac = train.drop (train.length - (⌊(train.length : K) * frac⌋).toNat) := by
    unfold window lastSlice toInt
    rw [if_neg (not_lt.mpr (zero_le_one.trans hn)), if_pos hpos]
  rw [hw]
  refine ⟨List.drop_suffix _ _, ?_⟩
  rw [List.length_drop]
  omega

/-- **C124** (counterexample to "the latest `frac_training` of the training set"): if the fraction amounts to less than one point, *all* points are used. -/
theorem C124_window_counterexample (train : List α) (frac : K) (h0 : 0 ≤ frac) (hn : (train.length : K) * frac < 1) : window train frac = train := by
  have h : ⌊(train.length : K) * frac⌋ = 0 := by
    rw [Int.floor_eq_zero_iff]
    exact ⟨mul_nonneg (Nat.cast_nonneg _) h0, hn⟩
  unfold window lastSlice toInt
  rw [if_neg (not_lt.mpr (mul_nonneg (Nat.cast_nonneg _) h0)), h]
  simp

end Window

/-! ## Examples -/

/-- Half of the training set: the latest two of five points. A tenth of it: all of them. -/
example : window [1, 2, 3, 4, 5] (1 / 2 : ℚ) = [4, 5] ∧ window [1, 2, 3, 4, 5] (1 / 10 : ℚ) = [1, 2, 3, 4, 5] ∧
    window [1, 2, 3, 4, 5] (-1 / 2 : ℚ) = [3, 4, 5] := by decide +kernel

/-- Two parameters, unit covariance, one standard deviation away: a number strictly between 0 and 1. -/
example : ∃ v, align ![0, 0] ![1, 0] (1 : Matrix (Fin 2) (Fin 2) ℝ) = .ok (.fin v) ∧ 0 < v ∧ v < 1 := by
  obtain ⟨v, hv, h0, h1, h⟩ := C124_range (by norm_num) ![0, 0] ![1, 0] (Matrix.PosDef.one (n := Fin 2) (R := ℝ))
  refine ⟨v, hv, lt_of_le_of_ne h0 fun e => ?_, h1⟩
  have := congrFun (h.mp e.symm) 0
  simp at this

/-- An indefinite matrix: NaN without an error. -/
example : value ![0, 0] ![1, 0] (!![-1, 0; 0, 1] : Matrix (Fin 2) (Fin 2) ℝ) = (.nan, some .nan) := by
  apply (C124_failure _ _ _).2.2
  · simp [Matrix.det_fin_two]
  · rw [Matrix.inv_def]
    simp [Matrix.det_fin_two, Matrix.adjugate_fin_two, dotProduct, Matrix.mulVec, Fin.sum_univ_two]

/-- A repeated parameter: singular matrix. -/
example : (value ![0, 0] ![1, 0] (!![1, 1; 1, 1] : Matrix (Fin 2) (Fin 2) ℝ)).2 = none :=
  (C124_failure _ _ _).1.mpr (by simp [Matrix.det_fin_two])

/-- The number of the criterion for two unit normals one unit apart is the mass of the unit disc. -/
example : align (d := 2) ![0, 0] ![1, 0] 1 = .ok (.fin ((multivariateGaussian (0 : EuclideanSpace ℝ (Fin 2)) 1).real
    {x | x.ofLp ⬝ᵥ x.ofLp ≤ 1})) := by
  have := C124_mass (d := 2) 0 (WithLp.toLp 2 ![1, 0]) (Matrix.PosDef.one (n := Fin 2) (R := ℝ))
  have e : (![0, 0] : Fin 2 → ℝ) = 0 := by ext i; fin_cases i <;> rfl
  simpa [e] using this

example : ∃ a b, align (d := 2) ![0, 0] ![1, 0] 1 = .ok (.fin a) ∧ align (d := 2) ![0, 0] ![2, 0] 1 = .ok (.fin b) ∧ a < b := by
  have := C124_mono (d := 2) (by norm_num) ![0, 0] ![1, 0] (fun h => by simpa using congrFun h 0) (Matrix.PosDef.one (n := Fin 2) (R := ℝ)) 1 2
    (by norm_num) (by norm_num)
  simpa using this

/-- The first parameter in other units. -/
example : align (d := 2) ![5, 0] ![1005, 0] !![1000000, 0; 0, 1] = align ![0, 0] ![1, 0] 1 := by
  have := C124_affine (d := 2) ![0, 0] ![1, 0] ![5, 0] (S := 1) (A := !![1000, 0; 0, 1]) (by simp [Matrix.det_fin_two])
  rw [← this]
  congr 1
  · ext i; fin_cases i <;> simp [Matrix.mulVec, dotProduct, Fin.sum_univ_two]
  · ext i; fin_cases i <;> simp [Matrix.mulVec, dotProduct, Fin.sum_univ_two] <;> norm_num
  · ext i j; fin_cases i <;> fin_cases j <;> simp [Matrix.mul_apply, Fin.sum_univ_two] <;> norm_num

/-- The number that is stored and returned. -/
example : ∃ c, value (d := 2) ![0, 0] ![1, 0] 1 = (.fin c, some (.fin c)) ∧ 1e-3 ≤ c ∧ c < 1 := by
  obtain ⟨c, h, h0, h1, -⟩ := C124_stored (d := 2) (by norm_num) 0 (WithLp.toLp 2 ![1, 0]) (Matrix.PosDef.one (n := Fin 2) (R := ℝ))
  have e : (![0, 0] : Fin 2 → ℝ) = 0 := by ext i; fin_cases i <;> rfl
  exact ⟨c, by simpa [e] using h, h0, h1⟩

example : window [1, 2, 3, 4, 5, 6, 7] (1 / 2 : ℚ) <:+ [1, 2, 3, 4, 5, 6, 7] ∧ (window [1, 2, 3, 4, 5, 6, 7] (1 / 2 : ℚ)).length = 3 := by
  obtain ⟨h, hl⟩ := C124_window_partial [1, 2, 3, 4, 5, 6, 7] (1 / 2 : ℚ) (by norm_num) (by norm_num)
  have e : ⌊(([1, 2, 3, 4, 5, 6, 7] : List ℕ).length : ℚ) * (1 / 2)⌋ = 3 := by norm_num [Int.floor_eq_iff]
  exact ⟨h, by exact_mod_cast hl.trans e⟩

end GPry.Align
