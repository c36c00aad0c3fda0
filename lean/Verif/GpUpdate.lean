import Verif.GpProps

set_option linter.all false

/-!
# Conditioning on one more point (gpry/gpr.py:996-1020, 1104-1273; gpry/gp_acquisition.py:486-497, 1549-1560)

Definitions of `Gp.lean`. What appending a point changes in the predictions, with fixed hyperparameters and preprocessors (as `BatchOptimizer`
and `RankedPool` do with their lies).
-/

namespace GPry.Gp

open Matrix

variable {P : Type*} {n m l : Type*} [Fintype n] [DecidableEq n] [Fintype m] [DecidableEq m] [Fintype l] [DecidableEq l]

/-- Covariance of two points under the Gaussian process conditioned on the training set, in the units of the target. Specification: the code
never computes it. -/
noncomputable def Model.cov (M : Model P) (R : Raw n P) (x e : P) : ℝ :=
  M.s ^ 2 * (M.k (M.trX x) (M.trX e) -
    (fun i => M.k (M.trX x) (M.trX (R.X i))) ⬝ᵥ (((M.data R).kmat M.k)⁻¹ *ᵥ fun i => M.k (M.trX e) (M.trX (R.X i))))

/-- One point. -/
def one (e : P) (y noise : ℝ) : Raw Unit P := ⟨fun _ => e, fun _ => y, fun _ => noise⟩

section
variable {chol : Matrix n n ℝ → Matrix n n ℝ} {chol' : Matrix (n ⊕ Unit) (n ⊕ Unit) ℝ → Matrix (n ⊕ Unit) (n ⊕ Unit) ℝ}

theorem kmat_one (M : Model P) (hk : ∀ x y, M.k x y = M.k y x) (R : Raw n P) (e : P) (y noise : ℝ) (v : n → ℝ) (t : ℝ) :
    (M.data (R.append (one e y noise))).kmat M.k *ᵥ Sum.elim v (fun _ => t) =
      Sum.elim ((M.data R).kmat M.k *ᵥ v + t • (M.data R).kTrans M.k (M.trX e))
        fun _ => (M.data R).kTrans M.k (M.trX e) ⬝ᵥ v + (M.k (M.trX e) (M.trX e) + (noise / M.s) ^ 2) * t := by
  have h : (Sum.elim v fun _ : Unit => t) = Sum.elim v 0 + (Sum.elim 0 (fun _ => t) : n ⊕ Unit → ℝ) := by
    funext i; cases i <;> simp
  rw [h, mulVec_add, kmat_append M.k hk]
  funext i
  cases i with
  | inl i =>
    simp only [Pi.add_apply, Sum.elim_inl]
    congr 1
    show ∑ j, _ = _
    rw [Fintype.sum_sum_type]
    simp only [Sum.elim_inl, Sum.elim_inr, Pi.zero_apply, mul_zero, Finset.sum_const_zero, zero_add, Finset.univ_unique, Finset.sum_singleton]
    unfold Data.kmat
    rw [Matrix.add_apply, diagonal_apply_ne _ (by simp), add_zero, mul_comm]
    show t * M.k _ _ = t * M.k _ _
    rw [hk]
    rfl
  | inr i =>
    simp only [Pi.add_apply, Sum.elim_inr]
    congr 1
    show ∑ j, _ = _
    rw [Fintype.sum_sum_type]
    simp only [Sum.elim_inl, Sum.elim_inr, Pi.zero_apply, mul_zero, Finset.sum_const_zero, zero_add, Finset.univ_unique, Finset.sum_singleton]
    unfold Data.kmat
    rw [Matrix.add_apply, diagonal_apply_eq]
    rfl

/-- The Schur complement: variance of the prediction at the new point, with noise, in transformed units. -/
noncomputable def schur (M : Model P) (R : Raw n P) (e : P) (noise : ℝ) : ℝ :=
  M.k (M.trX e) (M.trX e) + (noise / M.s) ^ 2 - (M.data R).kTrans M.k (M.trX e) ⬝ᵥ (((M.data R).kmat M.k)⁻¹ *ᵥ (M.data R).kTrans M.k (M.trX e))

theorem schur_ne (M : Model P) (hk : ∀ x y, M.k x y = M.k y x) (R : Raw n P) (e : P) (y noise : ℝ)
    (hu : IsUnit ((M.data R).kmat M.k).det) (hu' : IsUnit ((M.data (R.append (one e y noise))).kmat M.k).det) : schur M R e noise ≠ 0 := by
  intro h0
  have h := kmat_one M hk R e y noise (-(((M.data R).kmat M.k)⁻¹ *ᵥ (M.data R).kTrans M.k (M.trX e))) 1
  rw [mulVec_neg, mulVec_mulVec, mul_nonsing_inv _ hu, one_mulVec, one_smul, neg_add_cancel, dotProduct_neg] at h
  have hz : (Sum.elim (0 : n → ℝ) fun _ : Unit => -((M.data R).kTrans M.k (M.trX e) ⬝ᵥ (((M.data R).kmat M.k)⁻¹ *ᵥ (M.data R).kTrans M.k (M.trX e))) +
      (M.k (M.trX e) (M.trX e) + (noise / M.s) ^ 2) * 1) = 0 := by
    funext i
    cases i with
    | inl i => rfl
    | inr i =>
      simp only [Sum.elim_inr, Pi.zero_apply, mul_one]
      unfold schur at h0
      linarith
  rw [hz] at h
  have h2 := congrArg (fun v => ((M.data (R.append (one e y noise))).kmat M.k)⁻¹ *ᵥ v) h
  simp only [mulVec_mulVec, nonsing_inv_mul _ hu', one_mulVec, mulVec_zero] at h2
  have h3 := congrFun h2 (Sum.inr ())
  simp at h3

/-- The solution of a system with the larger matrix. -/
theorem inv_one (M : Model P) (hk : ∀ x y, M.k x y = M.k y x) (R : Raw n P) (e : P) (y noise : ℝ)
    (hu : IsUnit ((M.data R).kmat M.k).det) (hu' : IsUnit ((M.data (R.append (one e y noise))).kmat M.k).det) (p : n → ℝ) (q t : ℝ)
    (ht : t = (q - (M.data R).kTrans M.k (M.trX e) ⬝ᵥ (((M.data R).kmat M.k)⁻¹ *ᵥ p)) / schur M R e noise) :
    ((M.data (R.append (one e y noise))).kmat M.k)⁻¹ *ᵥ Sum.elim p (fun _ => q) =
      Sum.elim (((M.data R).kmat M.k)⁻¹ *ᵥ p - t • (((M.data R).kmat M.k)⁻¹ *ᵥ (M.data R).kTrans M.k (M.trX e))) fun _ => t := by
  have hS := schur_ne M hk R e y noise hu hu'
  have h : (M.data (R.append (one e y noise))).kmat M.k *ᵥ
      Sum.elim (((M.data R).kmat M.k)⁻¹ *ᵥ p - t • (((M.data R).kmat M.k)⁻¹ *ᵥ (M.data R).kTrans M.k (M.trX e))) (fun _ => t) =
      Sum.elim p (fun _ => q) := by
    rw [kmat_one M hk]
    funext i
    cases i with
    | inl i =>
      simp only [Sum.elim_inl]
      rw [mulVec_sub, mulVec_smul, mulVec_mulVec, mulVec_mulVec, mul_nonsing_inv _ hu, one_mulVec, one_mulVec, sub_add_cancel]
    | inr i =>
      simp only [Sum.elim_inr]
      rw [dotProduct_sub, dotProduct_smul]
      have ht2 : t * schur M R e noise = q - (M.data R).kTrans M.k (M.trX e) ⬝ᵥ (((M.data R).kmat M.k)⁻¹ *ᵥ p) := by rw [ht, div_mul_cancel₀ _ hS]
      unfold schur at ht2
      simp only [smul_eq_mul]
      linarith
  rw [← h, mulVec_mulVec, nonsing_inv_mul _ hu', one_mulVec]

theorem std_sq (M : Model P) (hK : IsKernel M.k) (R : Raw n P) (hp : ((M.data R).kmat M.k).PosDef)
    (hc : IsFactor ((M.data R).kmat M.k) (chol ((M.data R).kmat M.k))) (x : P) :
    M.std chol R x ^ 2 = M.s ^ 2 * (M.data R).rawVar chol M.k (M.trX x) := by
  have h := (C17_variance_nonneg chol hK (M.data R) (fun i => sq_nonneg _) hp hc (M.trX x)).1
  unfold Model.std Data.std
  dsimp only
  rw [if_neg (not_lt.2 h), mul_pow, Real.sq_sqrt h]
  ring

theorem schur_eq (M : Model P) (hK : IsKernel M.k) (hs : 0 < M.s) (R : Raw n P) (hp : ((M.data R).kmat M.k).PosDef)
    (hc : IsFactor ((M.data R).kmat M.k) (chol ((M.data R).kmat M.k))) (e : P) (noise : ℝ) :
    M.s ^ 2 * schur M R e noise = M.std chol R e ^ 2 + noise ^ 2 := by
  rw [std_sq M hK R hp hc, rawVar_eq hc]
  unfold schur
  have : M.s ^ 2 * (noise / M.s) ^ 2 = noise ^ 2 := by field_simp
  linear_combination this

theorem kTrans_one (M : Model P) (R : Raw n P) (e : P) (y noise : ℝ) (x : P) :
    (M.data (R.append (one e y noise))).kTrans M.k x = Sum.elim ((M.data R).kTrans M.k x) fun _ => M.k x (M.trX e) := by
  funext i; cases i <;> rfl

theorem elim_dot (a b : n → ℝ) (c d : ℝ) : (Sum.elim a fun _ : Unit => c) ⬝ᵥ (Sum.elim b fun _ : Unit => d) = a ⬝ᵥ b + c * d := by
  show ∑ i, _ = _
  rw [Fintype.sum_sum_type]
  simp [dotProduct]

/-- **C142**: the mean after appending one point changes by the conditional covariance with the new point, over the variance of the new value
(prediction and noise), times the difference between the value and its prediction. -/
theorem C142_mean (M : Model P) (hK : IsKernel M.k) (hs : 0 < M.s) (R : Raw n P) (e : P) (y noise : ℝ)
    (hp : ((M.data R).kmat M.k).PosDef) (hc : IsFactor ((M.data R).kmat M.k) (chol ((M.data R).kmat M.k)))
    (hc' : IsFactor ((M.data (R.append (one e y noise))).kmat M.k) (chol' ((M.data (R.append (one e y noise))).kmat M.k))) (x : P) :
    M.mean chol' (R.append (one e y noise)) x =
      M.mean chol R x + M.cov R x e / (M.std chol R e ^ 2 + noise ^ 2) * (y - M.mean chol R e) := by
  have hk := hK.symm
  have hu := isUnit_kmat hc
  have hu' := isUnit_kmat hc'
  have hS := schur_eq M hK hs R hp hc e noise
  have hS0 := schur_ne M hk R e y noise hu hu'
  have hy : (M.data (R.append (one e y noise))).y = Sum.elim (M.data R).y fun _ => (y - M.mu) / M.s := by
    funext i; cases i <;> rfl
  unfold Model.mean Data.mean
  rw [update_alpha hc', update_alpha hc, hy, inv_one M hk R e y noise hu hu' _ _ _ rfl, kTrans_one, elim_dot, dotProduct_sub, dotProduct_smul,
    ← hS]
  unfold Model.cov
  have e1 : (fun i => M.k (M.trX x) (M.trX (R.X i))) = (M.data R).kTrans M.k (M.trX x) := rfl
  have e2 : (fun i => M.k (M.trX e) (M.trX (R.X i))) = (M.data R).kTrans M.k (M.trX e) := rfl
  rw [e1, e2, smul_eq_mul]
  field_simp
  ring

/-- **C142**: the variance after appending one point decreases by the square of that covariance over the variance of the new value. -/
theorem C142_variance (M : Model P) (hK : IsKernel M.k) (hs : 0 < M.s) (R : Raw n P) (e : P) (y noise : ℝ)
    (hp : ((M.data R).kmat M.k).PosDef) (hc : IsFactor ((M.data R).kmat M.k) (chol ((M.data R).kmat M.k)))
    (hp' : ((M.data (R.append (one e y noise))).kmat M.k).PosDef)
    (hc' : IsFactor ((M.data (R.append (one e y noise))).kmat M.k) (chol' ((M.data (R.append (one e y noise))).kmat M.k))) (x : P) :
    M.std chol' (R.append (one e y noise)) x ^ 2 =
      M.std chol R x ^ 2 - M.cov R x e ^ 2 / (M.std chol R e ^ 2 + noise ^ 2) := by
  have hk := hK.symm
  have hu := isUnit_kmat hc
  have hu' := isUnit_kmat hc'
  have hS := schur_eq M hK hs R hp hc e noise
  have hS0 := schur_ne M hk R e y noise hu hu'
  rw [std_sq M hK _ hp' hc', std_sq M hK R hp hc x, rawVar_eq hc', rawVar_eq hc, kTrans_one, inv_one M hk R e y noise hu hu' _ _ _ rfl, elim_dot,
    dotProduct_sub, dotProduct_smul, ← hS]
  have hsym : (M.data R).kTrans M.k (M.trX e) ⬝ᵥ (((M.data R).kmat M.k)⁻¹ *ᵥ (M.data R).kTrans M.k (M.trX x)) =
      (M.data R).kTrans M.k (M.trX x) ⬝ᵥ (((M.data R).kmat M.k)⁻¹ *ᵥ (M.data R).kTrans M.k (M.trX e)) := by
    rw [dotProduct_mulVec, ← mulVec_transpose, transpose_nonsing_inv, kmat_symm hk, dotProduct_comm]
  unfold Model.cov
  have e1 : (fun i => M.k (M.trX x) (M.trX (R.X i))) = (M.data R).kTrans M.k (M.trX x) := rfl
  have e2 : (fun i => M.k (M.trX e) (M.trX (R.X i))) = (M.data R).kTrans M.k (M.trX e) := rfl
  rw [e1, e2, smul_eq_mul, hsym]
  field_simp
  ring

theorem cov_self (M : Model P) (hK : IsKernel M.k) (R : Raw n P) (hp : ((M.data R).kmat M.k).PosDef)
    (hc : IsFactor ((M.data R).kmat M.k) (chol ((M.data R).kmat M.k))) (e : P) : M.cov R e e = M.std chol R e ^ 2 := by
  rw [std_sq M hK R hp hc, rawVar_eq hc]
  rfl

theorem value_var_pos (M : Model P) (hK : IsKernel M.k) (hs : 0 < M.s) (R : Raw n P) (e : P) (y noise : ℝ)
    (hp : ((M.data R).kmat M.k).PosDef) (hc : IsFactor ((M.data R).kmat M.k) (chol ((M.data R).kmat M.k)))
    (hu' : IsUnit ((M.data (R.append (one e y noise))).kmat M.k).det) : 0 < M.std chol R e ^ 2 + noise ^ 2 := by
  have h1 := schur_eq M hK hs R hp hc e noise
  have h2 := schur_ne M hK.symm R e y noise (isUnit_kmat hc) hu'
  have h3 : M.std chol R e ^ 2 + noise ^ 2 ≠ 0 := by
    rw [← h1]
    exact mul_ne_zero (pow_ne_zero _ hs.ne') h2
  exact lt_of_le_of_ne (by positivity) h3.symm

/-- **C142**: exactly when a lie changes the mean somewhere: unless it is the prediction, wherever the conditional covariance is not zero. -/
theorem C142_lie_iff (M : Model P) (hK : IsKernel M.k) (hs : 0 < M.s) (R : Raw n P) (e : P) (y noise : ℝ)
    (hp : ((M.data R).kmat M.k).PosDef) (hc : IsFactor ((M.data R).kmat M.k) (chol ((M.data R).kmat M.k)))
    (hc' : IsFactor ((M.data (R.append (one e y noise))).kmat M.k) (chol' ((M.data (R.append (one e y noise))).kmat M.k))) (x : P) :
    M.mean chol' (R.append (one e y noise)) x = M.mean chol R x ↔ y = M.mean chol R e ∨ M.cov R x e = 0 := by
  have hpos := value_var_pos M hK hs R e y noise hp hc (isUnit_kmat hc')
  rw [C142_mean M hK hs R e y noise hp hc hc' x]
  constructor
  · intro h
    have h1 : M.cov R x e / (M.std chol R e ^ 2 + noise ^ 2) * (y - M.mean chol R e) = 0 := by linarith
    rcases mul_eq_zero.1 h1 with h2 | h2
    · rcases div_eq_zero_iff.1 h2 with h3 | h3
      · exact .inr h3
      · exact absurd h3 hpos.ne'
    · exact .inl (by linarith)
  · rintro (h | h) <;> rw [h] <;> simp

/-- **C142**: at the point itself the mean moves towards the value, all the way if there is no noise, and the standard deviation ends below both the noise and
what it was. -/
theorem C142_at_point (M : Model P) (hK : IsKernel M.k) (hs : 0 < M.s) (R : Raw n P) (e : P) (y noise : ℝ)
    (hp : ((M.data R).kmat M.k).PosDef) (hc : IsFactor ((M.data R).kmat M.k) (chol ((M.data R).kmat M.k)))
    (hp' : ((M.data (R.append (one e y noise))).kmat M.k).PosDef)
    (hc' : IsFactor ((M.data (R.append (one e y noise))).kmat M.k) (chol' ((M.data (R.append (one e y noise))).kmat M.k))) :
    (∃ w, 0 ≤ w ∧ w ≤ 1 ∧ (noise = 0 → w = 1) ∧ M.mean chol' (R.append (one e y noise)) e = (1 - w) * M.mean chol R e + w * y) ∧
    (noise ≠ 0 → 0 < M.std chol R e →
      1 / M.std chol' (R.append (one e y noise)) e ^ 2 = 1 / M.std chol R e ^ 2 + 1 / noise ^ 2) ∧
    (noise = 0 → M.std chol' (R.append (one e y noise)) e = 0) := by
  have hpos := value_var_pos M hK hs R e y noise hp hc (isUnit_kmat hc')
  have hv := C142_variance M hK hs R e y noise hp hc hp' hc' e
  rw [cov_self M hK R hp hc] at hv
  refine ⟨⟨M.std chol R e ^ 2 / (M.std chol R e ^ 2 + noise ^ 2), by positivity, ?_, ?_, ?_⟩, ?_, ?_⟩
  · rw [div_le_one hpos]
    nlinarith [sq_nonneg noise]
  · intro h
    subst h
    rw [zero_pow two_ne_zero, add_zero] at hpos ⊢
    exact div_self hpos.ne'
  · rw [C142_mean M hK hs R e y noise hp hc hc' e, cov_self M hK R hp hc]
    ring
  · intro h0 h1
    rw [hv]
    have : M.std chol R e ^ 2 - (M.std chol R e ^ 2) ^ 2 / (M.std chol R e ^ 2 + noise ^ 2) =
        M.std chol R e ^ 2 * noise ^ 2 / (M.std chol R e ^ 2 + noise ^ 2) := by
      field_simp
      ring
    rw [this]
    field_simp
    ring
  · intro h0
    subst h0
    rw [zero_pow two_ne_zero, add_zero] at hv hpos
    have : M.std chol R e ^ 2 - (M.std chol R e ^ 2) ^ 2 / M.std chol R e ^ 2 = 0 := by
      field_simp
      ring
    rw [this] at hv
    exact pow_eq_zero_iff two_ne_zero |>.1 hv

theorem exR_cov (x e : ℝ) : exM.cov exR x e = x * e / 2 := by
  have hu := isUnit_kmat (exChol_isFactor exR_posDef)
  have h : (exM.data exR).kmat exM.k *ᵥ (fun _ => e / 2) = fun i => exM.k (exM.trX e) (exM.trX (exR.X i)) := by
    funext i
    simp [mulVec, dotProduct, Data.kmat, Model.data, exM, exR, linK]
    ring
  unfold Model.cov
  rw [← h, mulVec_mulVec, nonsing_inv_mul _ hu, one_mulVec]
  simp [dotProduct, exM, exR, linK]
  ring

theorem exR_std_sq (e : ℝ) : exM.std exChol exR e ^ 2 = e ^ 2 / 2 := by
  rw [← cov_self exM linK_isKernel exR exR_posDef (exChol_isFactor exR_posDef), exR_cov]
  ring

/-- C142: the value 5 at the point 4, where 2 was predicted with variance 8, with noise 1. -/
example (x : ℝ) : exM.mean exChol (exR.append (one 4 5 1)) x = x / 2 + 2 * x / 9 * 3 ∧
    exM.std exChol (exR.append (one 4 5 1)) x ^ 2 = x ^ 2 / 2 - (2 * x) ^ 2 / 9 := by
  have h1 := C142_mean exM linK_isKernel (by norm_num [exM]) exR 4 5 1 exR_posDef (exChol_isFactor exR_posDef) (exChol_isFactor (ex_posDef 5)) x
  have h2 := C142_variance exM linK_isKernel (by norm_num [exM]) exR 4 5 1 exR_posDef (exChol_isFactor exR_posDef) (ex_posDef 5)
    (exChol_isFactor (ex_posDef 5)) x
  rw [exR_mean, exR_mean, exR_cov, exR_std_sq] at h1
  rw [exR_cov, exR_std_sq, exR_std_sq] at h2
  exact ⟨h1.trans (by ring), h2.trans (by ring)⟩

/-- C142: that value changes the mean everywhere but at 0. -/
example (x : ℝ) : exM.mean exChol (exR.append (one 4 5 1)) x = exM.mean exChol exR x ↔ x = 0 := by
  rw [C142_lie_iff exM linK_isKernel (by norm_num [exM]) exR 4 5 1 exR_posDef (exChol_isFactor exR_posDef) (exChol_isFactor (ex_posDef 5)) x,
    exR_cov, exR_mean]
  norm_num

/-- C142: 1/8 + 1 is the inverse of the variance afterwards. -/
example : 1 / exM.std exChol (exR.append (one 4 5 1)) 4 ^ 2 = 9 / 8 := by
  have h := (C142_at_point exM linK_isKernel (by norm_num [exM]) exR 4 5 1 exR_posDef (exChol_isFactor exR_posDef) (ex_posDef 5)
    (exChol_isFactor (ex_posDef 5))).2.1 (by norm_num) (by
      have h0 : 0 ≤ exM.std exChol exR 4 := mul_nonneg (Real.sqrt_nonneg _) (by norm_num [exM])
      refine lt_of_le_of_ne h0 fun h => ?_
      have := exR_std_sq 4
      rw [← h] at this
      norm_num at this)
  rw [h, exR_std_sq]
  norm_num

end

/-! ## Order of the points -/

/-- The points of a training set in another order. -/
def Raw.reorder (R : Raw n P) (f : m ≃ n) : Raw m P := ⟨R.X ∘ f, R.y ∘ f, R.noise ∘ f⟩

theorem kmat_reorder (M : Model P) (R : Raw n P) (f : m ≃ n) :
    (M.data (R.reorder f)).kmat M.k = ((M.data R).kmat M.k).submatrix f f := by
  unfold Data.kmat
  ext i j
  simp only [Matrix.add_apply, submatrix_apply]
  congr 1
  by_cases h : i = j
  · subst h; rw [diagonal_apply_eq, diagonal_apply_eq]; rfl
  · rw [diagonal_apply_ne _ h, diagonal_apply_ne _ (fun h' => h (f.injective h'))]

theorem inv_reorder (A : Matrix n n ℝ) (f : m ≃ n) (v w : n → ℝ) :
    (v ∘ f) ⬝ᵥ ((A.submatrix f f)⁻¹ *ᵥ (w ∘ f)) = v ⬝ᵥ (A⁻¹ *ᵥ w) := by
  rw [inv_submatrix_equiv]
  have : A⁻¹.submatrix f f *ᵥ (w ∘ f) = (A⁻¹ *ᵥ w) ∘ f := by
    rw [submatrix_mulVec_equiv]
    congr 2
    funext i
    simp
  rw [this, comp_equiv_dotProduct_comp_equiv]

/-- **C142**: predictions do not depend on the order of the training points. -/
theorem C142_order (chol : Matrix n n ℝ → Matrix n n ℝ) (chol' : Matrix m m ℝ → Matrix m m ℝ) (M : Model P) (R : Raw n P) (f : m ≃ n)
    (hc : IsFactor ((M.data R).kmat M.k) (chol ((M.data R).kmat M.k)))
    (hc' : IsFactor ((M.data (R.reorder f)).kmat M.k) (chol' ((M.data (R.reorder f)).kmat M.k))) (x : P) :
    M.mean chol' (R.reorder f) x = M.mean chol R x ∧ M.std chol' (R.reorder f) x = M.std chol R x := by
  have hkt : (M.data (R.reorder f)).kTrans M.k (M.trX x) = (M.data R).kTrans M.k (M.trX x) ∘ f := rfl
  have hy : (M.data (R.reorder f)).y = (M.data R).y ∘ f := rfl
  constructor
  · unfold Model.mean Data.mean
    rw [update_alpha hc', update_alpha hc, kmat_reorder, hkt, hy, inv_reorder]
  · unfold Model.std Data.std
    dsimp only
    rw [rawVar_eq hc', rawVar_eq hc, kmat_reorder, hkt, inv_reorder]

/-- **C142**: two batches one after the other are one batch, and their order does not matter. -/
theorem C142_batches (M : Model P) (R : Raw n P) (E : Raw m P) (F : Raw l P) (c1 : Matrix ((n ⊕ m) ⊕ l) ((n ⊕ m) ⊕ l) ℝ → Matrix ((n ⊕ m) ⊕ l) ((n ⊕ m) ⊕ l) ℝ)
    (c2 : Matrix (n ⊕ (m ⊕ l)) (n ⊕ (m ⊕ l)) ℝ → Matrix (n ⊕ (m ⊕ l)) (n ⊕ (m ⊕ l)) ℝ)
    (c3 : Matrix ((n ⊕ l) ⊕ m) ((n ⊕ l) ⊕ m) ℝ → Matrix ((n ⊕ l) ⊕ m) ((n ⊕ l) ⊕ m) ℝ)
    (h1 : IsFactor ((M.data ((R.append E).append F)).kmat M.k) (c1 ((M.data ((R.append E).append F)).kmat M.k)))
    (h2 : IsFactor ((M.data (R.append (E.append F))).kmat M.k) (c2 ((M.data (R.append (E.append F))).kmat M.k)))
    (h3 : IsFactor ((M.data ((R.append F).append E)).kmat M.k) (c3 ((M.data ((R.append F).append E)).kmat M.k))) (x : P) :
    (M.mean c2 (R.append (E.append F)) x = M.mean c1 ((R.append E).append F) x ∧
      M.std c2 (R.append (E.append F)) x = M.std c1 ((R.append E).append F) x) ∧
    (M.mean c3 ((R.append F).append E) x = M.mean c1 ((R.append E).append F) x ∧
      M.std c3 ((R.append F).append E) x = M.std c1 ((R.append E).append F) x) := by
  constructor
  · have e : R.append (E.append F) = ((R.append E).append F).reorder (Equiv.sumAssoc n m l).symm := by
      unfold Raw.reorder Raw.append
      congr 1 <;> (funext i; rcases i with i | i | i <;> rfl)
    rw [e] at h2 ⊢
    exact C142_order _ _ M _ _ h1 h2 x
  · let f : (n ⊕ l) ⊕ m ≃ (n ⊕ m) ⊕ l :=
      ((Equiv.sumAssoc n l m).trans ((Equiv.refl n).sumCongr (Equiv.sumComm l m))).trans (Equiv.sumAssoc n m l).symm
    have e : (R.append F).append E = ((R.append E).append F).reorder f := by
      unfold Raw.reorder Raw.append
      congr 1 <;> (funext i; rcases i with (i | i) | i <;> rfl)
    rw [e] at h3 ⊢
    exact C142_order _ _ M _ _ h1 h3 x

/-- C142: the points 1 and 4 in the other order. -/
example (x : ℝ) : exM.mean exChol ((exR.append (exE 5)).reorder (Equiv.sumComm Unit Unit)) x = exM.mean exChol (exR.append (exE 5)) x :=
  (C142_order exChol exChol exM (exR.append (exE 5)) (Equiv.sumComm Unit Unit) (exChol_isFactor (ex_posDef 5))
    (exChol_isFactor (by
      apply linK_isKernel.kmat_posDef
      intro i
      cases i <;> norm_num [Model.data, exM, Raw.append, Raw.reorder, exR, exE])) x).1

theorem ex_noise_posDef {n : Type*} [Fintype n] [DecidableEq n] (R : Raw n ℝ) (h : ∀ i, R.noise i = 1) : ((exM.data R).kmat exM.k).PosDef := by
  apply linK_isKernel.kmat_posDef
  intro i
  norm_num [Model.data, exM, h]

/-- C142: 5 at 4 and 7 at 6, appended together or in any order. -/
example (x : ℝ) : exM.mean exChol (exR.append ((one 4 5 1).append (one 6 7 1))) x = exM.mean exChol ((exR.append (one 4 5 1)).append (one 6 7 1)) x ∧
    exM.std exChol ((exR.append (one 6 7 1)).append (one 4 5 1)) x = exM.std exChol ((exR.append (one 4 5 1)).append (one 6 7 1)) x := by
  have h := C142_batches exM exR (one 4 5 1) (one 6 7 1) exChol exChol exChol
    (exChol_isFactor (ex_noise_posDef _ (by rintro ((i | i) | i) <;> rfl))) (exChol_isFactor (ex_noise_posDef _ (by rintro (i | i | i) <;> rfl)))
    (exChol_isFactor (ex_noise_posDef _ (by rintro ((i | i) | i) <;> rfl))) x
  exact ⟨h.1.1, h.2.2⟩

end GPry.Gp
