import Verif.GpRepeat
import Mathlib.LinearAlgebra.Matrix.SchurComplement
import Mathlib.LinearAlgebra.Matrix.Block
import Mathlib.Analysis.SpecialFunctions.Log.Basic

set_option linter.all false

/-!
# The quantity maximised by the fit of the hyperparameters (gpry/gpr.py:875-881, 935-989)

`GaussianProcessRegressor.log_marginal_likelihood` counts the call and returns that of scikit-learn (not in the repository): by its documentation the
logarithm of the marginal likelihood of the training data, computed from the Cholesky factor `L` of the kernel matrix with the noise variances on its
diagonal as `-1/2 y.alpha - sum(log(diag(L))) - n/2 log(2 pi)` (Rasmussen & Williams, algorithm 2.1). That formula is `Data.lml`; it is an assumption
on scikit-learn. Definitions of `Gp.lean`.
-/

namespace GPry.Gp

open Matrix

variable {P : Type*} {n m : Type*} [Fintype n] [DecidableEq n] [Fintype m] [DecidableEq m]

/-- scikit-learn's `log_marginal_likelihood`, as documented. -/
noncomputable def Data.lml (chol : Matrix n n ℝ → Matrix n n ℝ) (k : P → P → ℝ) (D : Data n P) : ℝ :=
  -(1 / 2) * (D.y ⬝ᵥ (D.update chol k).alpha) - ∑ i, Real.log (chol (D.kmat k) i i) - Fintype.card n / 2 * Real.log (2 * Real.pi)

/-- gpr.py:876-881 `log_marginal_likelihood`, with the hyperparameters of the kernel of `M`. -/
noncomputable def Model.lml (chol : Matrix n n ℝ → Matrix n n ℝ) (M : Model P) (R : Raw n P) : ℝ := (M.data R).lml chol M.k

/-- What is assumed of the Cholesky decomposition here: the diagonal of the factor is positive and its product the determinant (`IsChol.of_lower`: as of any
triangular matrix). -/
structure IsChol (K L : Matrix n n ℝ) : Prop where
  pos : ∀ i, 0 < L i i
  det : L.det = ∏ i, L i i
  eq : L * Lᵀ = K

/-- A lower triangular factor with positive diagonal. -/
theorem IsChol.of_lower {n : Type*} [Fintype n] [LinearOrder n] {K L : Matrix n n ℝ} (h : ∀ i j, i < j → L i j = 0) (hp : ∀ i, 0 < L i i) (he : L * Lᵀ = K) :
    IsChol K L :=
  ⟨hp, det_of_isLowerTriangular L (fun i j hij => h i j hij), he⟩

theorem IsChol.isFactor {K L : Matrix n n ℝ} (h : IsChol K L) : IsFactor K L :=
  ⟨(isUnit_iff_isUnit_det _).2 (by rw [h.det]; exact (Finset.prod_pos fun i _ => h.pos i).ne'.isUnit), h.eq⟩

theorem IsChol.sum_log {K L : Matrix n n ℝ} (h : IsChol K L) : ∑ i, Real.log (L i i) = 1 / 2 * Real.log K.det := by
  have h1 : K.det = L.det ^ 2 := by rw [← h.eq, det_mul, det_transpose, sq]
  have h2 : Real.log L.det = ∑ i, Real.log (L i i) := by
    rw [h.det, Real.log_prod (fun i _ => (h.pos i).ne')]
  rw [h1, Real.log_pow, h2]
  push_cast
  ring

theorem IsChol.det_pos {K L : Matrix n n ℝ} (h : IsChol K L) : 0 < K.det := by
  rw [← h.eq, det_mul, det_transpose, h.det]
  have := Finset.prod_pos fun i (_ : i ∈ Finset.univ) => h.pos i
  positivity

theorem lml_eq {chol : Matrix n n ℝ → Matrix n n ℝ} {k : P → P → ℝ} {D : Data n P} (h : IsChol (D.kmat k) (chol (D.kmat k))) :
    D.lml chol k = -(1 / 2) * (D.y ⬝ᵥ ((D.kmat k)⁻¹ *ᵥ D.y)) - 1 / 2 * Real.log (D.kmat k).det - Fintype.card n / 2 * Real.log (2 * Real.pi) := by
  unfold Data.lml
  rw [update_alpha h.isFactor, h.sum_log]

/-- **C154**: it does not depend on the order of the training points. -/
theorem C154_order (chol : Matrix n n ℝ → Matrix n n ℝ) (chol' : Matrix m m ℝ → Matrix m m ℝ) (M : Model P) (R : Raw n P) (f : m ≃ n)
    (hc : IsChol ((M.data R).kmat M.k) (chol ((M.data R).kmat M.k)))
    (hc' : IsChol ((M.data (R.reorder f)).kmat M.k) (chol' ((M.data (R.reorder f)).kmat M.k))) :
    M.lml chol' (R.reorder f) = M.lml chol R := by
  have hy : (M.data (R.reorder f)).y = (M.data R).y ∘ f := rfl
  unfold Model.lml
  rw [lml_eq hc', lml_eq hc, kmat_reorder, hy, inv_reorder, det_submatrix_equiv_self, Fintype.card_congr f]

section
variable {chol : Matrix n n ℝ → Matrix n n ℝ} {chol' : Matrix (n ⊕ Unit) (n ⊕ Unit) ℝ → Matrix (n ⊕ Unit) (n ⊕ Unit) ℝ}

theorem det_one (M : Model P) (hk : ∀ x y, M.k x y = M.k y x) (R : Raw n P) (e : P) (y noise : ℝ) (hu : IsUnit ((M.data R).kmat M.k).det) :
    ((M.data (R.append (one e y noise))).kmat M.k).det = ((M.data R).kmat M.k).det * schur M R e noise := by
  have hb : (M.data (R.append (one e y noise))).kmat M.k = fromBlocks ((M.data R).kmat M.k)
      (Matrix.of fun i _ => (M.data R).kTrans M.k (M.trX e) i) (Matrix.of fun _ i => (M.data R).kTrans M.k (M.trX e) i)
      (Matrix.of fun _ _ : Unit => M.k (M.trX e) (M.trX e) + (noise / M.s) ^ 2) := by
    unfold Data.kmat
    ext i j
    rw [Matrix.add_apply]
    rcases i with i | i <;> rcases j with j | j
    · rw [fromBlocks_apply₁₁, Matrix.add_apply]
      by_cases h : i = j
      · subst h; rw [diagonal_apply_eq, diagonal_apply_eq]; rfl
      · rw [diagonal_apply_ne _ h, diagonal_apply_ne _ (fun h' => h (Sum.inl_injective h'))]; rfl
    · rw [fromBlocks_apply₁₂, diagonal_apply_ne _ (by simp), add_zero]
      exact hk _ _
    · rw [fromBlocks_apply₂₁, diagonal_apply_ne _ (by simp), add_zero]
      rfl
    · rw [fromBlocks_apply₂₂, diagonal_apply_eq]
      rfl
  haveI : Invertible ((M.data R).kmat M.k) := ((isUnit_iff_isUnit_det _).2 hu).invertible
  rw [hb, det_fromBlocks₁₁]
  congr 1
  unfold schur
  rw [det_unique, invOf_eq_nonsing_inv, Matrix.sub_apply, Matrix.mul_assoc]
  rfl

theorem dot_one (M : Model P) (hk : ∀ x y, M.k x y = M.k y x) (R : Raw n P) (e : P) (y noise : ℝ)
    (hu : IsUnit ((M.data R).kmat M.k).det) (hu' : IsUnit ((M.data (R.append (one e y noise))).kmat M.k).det) (p : n → ℝ) (q : ℝ) :
    (Sum.elim p fun _ => q) ⬝ᵥ (((M.data (R.append (one e y noise))).kmat M.k)⁻¹ *ᵥ Sum.elim p (fun _ => q)) =
      p ⬝ᵥ (((M.data R).kmat M.k)⁻¹ *ᵥ p) +
        (q - (M.data R).kTrans M.k (M.trX e) ⬝ᵥ (((M.data R).kmat M.k)⁻¹ *ᵥ p)) ^ 2 / schur M R e noise := by
  have hsym : p ⬝ᵥ (((M.data R).kmat M.k)⁻¹ *ᵥ (M.data R).kTrans M.k (M.trX e)) =
      (M.data R).kTrans M.k (M.trX e) ⬝ᵥ (((M.data R).kmat M.k)⁻¹ *ᵥ p) := by
    rw [dotProduct_mulVec, ← mulVec_transpose, transpose_nonsing_inv, kmat_symm hk, dotProduct_comm]
  rw [inv_one M hk R e y noise hu hu' p q _ rfl, elim_dot, dotProduct_sub, dotProduct_smul, hsym, smul_eq_mul]
  ring

/-- The same with the determinant, whatever the factorisation. -/
noncomputable def lmlDet (k : P → P → ℝ) (D : Data n P) : ℝ :=
  -(1 / 2) * (D.y ⬝ᵥ ((D.kmat k)⁻¹ *ᵥ D.y)) - 1 / 2 * Real.log (D.kmat k).det - Fintype.card n / 2 * Real.log (2 * Real.pi)

theorem chain_aux (M : Model P) (hK : IsKernel M.k) (hs : 0 < M.s) (R : Raw n P) (e : P) (y noise : ℝ)
    (hp : ((M.data R).kmat M.k).PosDef) (hc : IsFactor ((M.data R).kmat M.k) (chol ((M.data R).kmat M.k)))
    (hp' : ((M.data (R.append (one e y noise))).kmat M.k).PosDef) :
    0 < M.std chol R e ^ 2 + noise ^ 2 ∧
    lmlDet M.k (M.data (R.append (one e y noise))) = lmlDet M.k (M.data R) + Real.log M.s -
      (y - M.mean chol R e) ^ 2 / (2 * (M.std chol R e ^ 2 + noise ^ 2)) - 1 / 2 * Real.log (2 * Real.pi * (M.std chol R e ^ 2 + noise ^ 2)) := by
  have hk := hK.symm
  have hu := isUnit_kmat hc
  have hu' : IsUnit ((M.data (R.append (one e y noise))).kmat M.k).det := hp'.det_pos.ne'.isUnit
  have hpos := value_var_pos M hK hs R e y noise hp hc hu'
  have hS := schur_eq M hK hs R hp hc e noise
  have hy : (M.data (R.append (one e y noise))).y = Sum.elim (M.data R).y fun _ => (y - M.mu) / M.s := by
    funext i; cases i <;> rfl
  have hm : M.mean chol R e = (M.data R).kTrans M.k (M.trX e) ⬝ᵥ (((M.data R).kmat M.k)⁻¹ *ᵥ (M.data R).y) * M.s + M.mu := by
    unfold Model.mean Data.mean
    rw [update_alpha hc]
  refine ⟨hpos, ?_⟩
  obtain ⟨V, hV⟩ : ∃ V, V = M.std chol R e ^ 2 + noise ^ 2 := ⟨_, rfl⟩
  rw [← hV] at hpos hS ⊢
  have hS0 : schur M R e noise = V / M.s ^ 2 := by rw [← hS]; field_simp
  have hd := hp.det_pos
  unfold lmlDet
  rw [hy, dot_one M hk R e y noise hu hu', det_one M hk R e y noise hu, hm, hS0,
    Real.log_mul hd.ne' (by positivity), Real.log_div hpos.ne' (by positivity), Real.log_mul (by positivity) hpos.ne', Real.log_pow, Fintype.card_sum,
    Fintype.card_unit]
  generalize (M.data R).kTrans M.k (M.trX e) ⬝ᵥ (((M.data R).kmat M.k)⁻¹ *ᵥ (M.data R).y) = z
  push_cast
  field_simp
  ring

theorem IsFactor.posDef {K L : Matrix n n ℝ} (h : IsFactor K L) : K.PosDef := by
  have h1 := PosDef.mul_conjTranspose_self L (vecMul_injective_iff_isUnit.2 h.isUnit)
  rwa [conjTranspose_eq_transpose_of_trivial, h.eq] at h1

/-- **C154**: appending a point adds the logarithm of the density that the regressor predicted for its value: the normal one whose mean is that predicted, and
whose variance is that predicted plus the square of the noise level. (`M.s` because values are divided by it in `preprocessing_y`.) -/
theorem C154_chain (M : Model P) (hK : IsKernel M.k) (hs : 0 < M.s) (R : Raw n P) (e : P) (y noise : ℝ)
    (hc : IsChol ((M.data R).kmat M.k) (chol ((M.data R).kmat M.k)))
    (hc' : IsChol ((M.data (R.append (one e y noise))).kmat M.k) (chol' ((M.data (R.append (one e y noise))).kmat M.k))) :
    M.lml chol' (R.append (one e y noise)) = M.lml chol R + Real.log M.s +
      Real.log (1 / Real.sqrt (2 * Real.pi * (M.std chol R e ^ 2 + noise ^ 2)) *
        Real.exp (-(y - M.mean chol R e) ^ 2 / (2 * (M.std chol R e ^ 2 + noise ^ 2)))) := by
  have h := chain_aux M hK hs R e y noise hc.isFactor.posDef hc.isFactor hc'.isFactor.posDef
  have hpos := h.1
  unfold Model.lml
  rw [lml_eq hc', lml_eq hc]
  refine h.2.trans ?_
  rw [Real.log_mul (by positivity) (Real.exp_ne_zero _), Real.log_exp, Real.log_div one_ne_zero (by positivity), Real.log_one, Real.log_sqrt (by positivity)]
  unfold lmlDet
  ring

end

theorem repeated_aux (M : Model P) (hK : IsKernel M.k) (hs : 0 < M.s) (R : Raw n P) (e : P) (y1 y2 s1 s2 v s : ℝ) (h1 : 0 < s1) (h2 : 0 < s2)
    (hn : 1 / s ^ 2 = 1 / s1 ^ 2 + 1 / s2 ^ 2) (hv : v / s ^ 2 = y1 / s1 ^ 2 + y2 / s2 ^ 2)
    (hp : ((M.data (R.append (one e v s))).kmat M.k).PosDef)
    (hp2 : ((M.data ((R.append (one e y1 s1)).append (one e y2 s2))).kmat M.k).PosDef) :
    lmlDet M.k (M.data ((R.append (one e y1 s1)).append (one e y2 s2))) = lmlDet M.k (M.data (R.append (one e v s))) -
      (y1 - y2) ^ 2 / (2 * (s1 ^ 2 + s2 ^ 2)) - 1 / 2 * Real.log (2 * Real.pi * (s1 ^ 2 + s2 ^ 2)) + Real.log M.s := by
  have hp1 := posDef_of_append M _ _ hp2
  have hp0 := posDef_of_append M _ _ hp1
  have hf0 := exChol_isFactor hp0
  have hf1 := exChol_isFactor hp1
  obtain ⟨b0, e0⟩ := chain_aux M hK hs R e y1 s1 hp0 hf0 hp1
  obtain ⟨b1, e1⟩ := chain_aux M hK hs (R.append (one e y1 s1)) e y2 s2 hp1 hf1 hp2
  obtain ⟨b2, e2⟩ := chain_aux M hK hs R e v s hp0 hf0 hp
  have hm := C142_mean M hK hs R e y1 s1 hp0 hf0 hf1 e
  have hV := C142_variance M hK hs R e y1 s1 hp0 hf0 hp1 hf1 e
  rw [cov_self M hK R hp0 hf0] at hm hV
  rw [hm, hV, e0] at e1
  rw [hV] at b1
  have hB : 0 ≤ M.std exChol R e ^ 2 := sq_nonneg _
  generalize M.std exChol R e ^ 2 = B at *
  generalize M.mean exChol R e = u at *
  have hs2 : s ^ 2 = s1 ^ 2 * s2 ^ 2 / (s1 ^ 2 + s2 ^ 2) := by
    rw [← one_div_one_div (s ^ 2), hn]
    field_simp
    ring
  have hv2 : v = (y1 * s2 ^ 2 + y2 * s1 ^ 2) / (s1 ^ 2 + s2 ^ 2) := by
    have : v = v / s ^ 2 * s ^ 2 := by
      rw [div_mul_cancel₀]
      rw [hs2]; positivity
    rw [this, hv, hs2]
    field_simp
  rw [e1, e2]
  have hpi : 0 < 2 * Real.pi := by positivity
  have hlog : Real.log (B + s1 ^ 2) + Real.log (B - B ^ 2 / (B + s1 ^ 2) + s2 ^ 2) = Real.log (s1 ^ 2 + s2 ^ 2) + Real.log (B + s ^ 2) := by
    rw [← Real.log_mul b0.ne' b1.ne', ← Real.log_mul (by positivity) b2.ne', hs2]
    congr 1
    field_simp
    ring
  have hquad : (y1 - u) ^ 2 / (2 * (B + s1 ^ 2)) + (y2 - (u + B / (B + s1 ^ 2) * (y1 - u))) ^ 2 / (2 * (B - B ^ 2 / (B + s1 ^ 2) + s2 ^ 2)) =
      (v - u) ^ 2 / (2 * (B + s ^ 2)) + (y1 - y2) ^ 2 / (2 * (s1 ^ 2 + s2 ^ 2)) := by
    have a1 : B - B ^ 2 / (B + s1 ^ 2) + s2 ^ 2 = (B * (s1 ^ 2 + s2 ^ 2) + s1 ^ 2 * s2 ^ 2) / (B + s1 ^ 2) := by
      field_simp
      ring
    have a2 : B + s1 ^ 2 * s2 ^ 2 / (s1 ^ 2 + s2 ^ 2) = (B * (s1 ^ 2 + s2 ^ 2) + s1 ^ 2 * s2 ^ 2) / (s1 ^ 2 + s2 ^ 2) := by
      field_simp
    have a3 : 0 < B * (s1 ^ 2 + s2 ^ 2) + s1 ^ 2 * s2 ^ 2 := by positivity
    rw [hs2, hv2, a1, a2]
    field_simp
    ring
  rw [Real.log_mul hpi.ne' b0.ne', Real.log_mul hpi.ne' b1.ne', Real.log_mul hpi.ne' b2.ne', Real.log_mul hpi.ne' (by positivity)]
  linear_combination (-1 / 2 : ℝ) * hlog - hquad

/-- **C154**: two evaluations of one point, and one with the weighted mean of their values and the sum of their inverse variances: the difference does not depend on
the kernel, nor on the rest of the training set. -/
theorem C154_repeated {chol : Matrix (n ⊕ Unit) (n ⊕ Unit) ℝ → Matrix (n ⊕ Unit) (n ⊕ Unit) ℝ}
    {chol' : Matrix ((n ⊕ Unit) ⊕ Unit) ((n ⊕ Unit) ⊕ Unit) ℝ → Matrix ((n ⊕ Unit) ⊕ Unit) ((n ⊕ Unit) ⊕ Unit) ℝ}
    (M : Model P) (hK : IsKernel M.k) (hs : 0 < M.s) (R : Raw n P) (e : P) (y1 y2 s1 s2 v s : ℝ) (h1 : 0 < s1) (h2 : 0 < s2)
    (hn : 1 / s ^ 2 = 1 / s1 ^ 2 + 1 / s2 ^ 2) (hv : v / s ^ 2 = y1 / s1 ^ 2 + y2 / s2 ^ 2)
    (hc : IsChol ((M.data (R.append (one e v s))).kmat M.k) (chol ((M.data (R.append (one e v s))).kmat M.k)))
    (hc' : IsChol ((M.data ((R.append (one e y1 s1)).append (one e y2 s2))).kmat M.k)
      (chol' ((M.data ((R.append (one e y1 s1)).append (one e y2 s2))).kmat M.k))) :
    M.lml chol' ((R.append (one e y1 s1)).append (one e y2 s2)) = M.lml chol (R.append (one e v s)) -
      (y1 - y2) ^ 2 / (2 * (s1 ^ 2 + s2 ^ 2)) - 1 / 2 * Real.log (2 * Real.pi * (s1 ^ 2 + s2 ^ 2)) + Real.log M.s := by
  have hc1 : M.lml chol' ((R.append (one e y1 s1)).append (one e y2 s2)) = lmlDet M.k (M.data ((R.append (one e y1 s1)).append (one e y2 s2))) := lml_eq hc'
  have hc2 : M.lml chol (R.append (one e v s)) = lmlDet M.k (M.data (R.append (one e v s))) := lml_eq hc
  rw [hc1, hc2]
  exact repeated_aux M hK hs R e y1 y2 s1 s2 v s h1 h2 hn hv hc.isFactor.posDef hc'.isFactor.posDef

/-- **C154**: so the hyperparameters preferred by the fit are the same: of any two kernels, the one with the larger value with the repeated point is that with the
larger value with the merged one. -/
theorem C154_fit {chol : Matrix (n ⊕ Unit) (n ⊕ Unit) ℝ → Matrix (n ⊕ Unit) (n ⊕ Unit) ℝ}
    {chol' : Matrix ((n ⊕ Unit) ⊕ Unit) ((n ⊕ Unit) ⊕ Unit) ℝ → Matrix ((n ⊕ Unit) ⊕ Unit) ((n ⊕ Unit) ⊕ Unit) ℝ}
    {T : Type*} (kern : T → P → P → ℝ) (trX : P → P) (mu sd : ℝ) (hK : ∀ t, IsKernel (kern t)) (hs : 0 < sd) (R : Raw n P) (e : P)
    (y1 y2 s1 s2 v s : ℝ) (h1 : 0 < s1) (h2 : 0 < s2)
    (hn : 1 / s ^ 2 = 1 / s1 ^ 2 + 1 / s2 ^ 2) (hv : v / s ^ 2 = y1 / s1 ^ 2 + y2 / s2 ^ 2)
    (hc : ∀ K : Matrix (n ⊕ Unit) (n ⊕ Unit) ℝ, K.PosDef → IsChol K (chol K))
    (hc' : ∀ K : Matrix ((n ⊕ Unit) ⊕ Unit) ((n ⊕ Unit) ⊕ Unit) ℝ, K.PosDef → IsChol K (chol' K))
    (hR : ∀ i, R.noise i ≠ 0) (t t' : T) :
    Model.lml chol' ⟨kern t, trX, mu, sd⟩ ((R.append (one e y1 s1)).append (one e y2 s2)) ≤
        Model.lml chol' ⟨kern t', trX, mu, sd⟩ ((R.append (one e y1 s1)).append (one e y2 s2)) ↔
      Model.lml chol ⟨kern t, trX, mu, sd⟩ (R.append (one e v s)) ≤ Model.lml chol ⟨kern t', trX, mu, sd⟩ (R.append (one e v s)) := by
  have hs0 : s ≠ 0 := by
    rintro rfl
    rw [zero_pow two_ne_zero, div_zero] at hn
    have : 0 < 1 / s1 ^ 2 + 1 / s2 ^ 2 := by positivity
    linarith
  have key : ∀ t, _ := fun t => C154_repeated ⟨kern t, trX, mu, sd⟩ (hK t) hs R e y1 y2 s1 s2 v s h1 h2 hn hv
    (hc _ ((hK t).kmat_posDef _ (by
      rintro (i | i)
      · have := hR i; show 0 < (R.noise i / sd) ^ 2; positivity
      · show 0 < (s / sd) ^ 2; positivity)))
    (hc' _ ((hK t).kmat_posDef _ (by
      rintro ((i | i) | i)
      · have := hR i; show 0 < (R.noise i / sd) ^ 2; positivity
      · show 0 < (s1 / sd) ^ 2; positivity
      · show 0 < (s2 / sd) ^ 2; positivity)))
  rw [key t, key t']
  constructor <;> intro h <;> linarith

/-! ## Examples -/

/-- One step of the decomposition: the last row. -/
theorem exists_isChol_sum (h : ∀ K : Matrix n n ℝ, K.PosDef → ∃ L, IsChol K L) (K : Matrix (n ⊕ Unit) (n ⊕ Unit) ℝ) (hK : K.PosDef) : ∃ L, IsChol K L := by
  have hA : K.toBlocks₁₁.PosDef := hK.submatrix (Sum.inl_injective (α := n) (β := Unit))
  obtain ⟨L, hL⟩ := h _ hA
  have hLu : IsUnit L.det := (isUnit_iff_isUnit_det _).1 hL.isFactor.isUnit
  have hsym : K.toBlocks₂₁ = K.toBlocks₁₂ᵀ := by
    ext i j
    have := congrFun (congrFun hK.isHermitian (Sum.inr i)) (Sum.inl j)
    rw [conjTranspose_apply, star_trivial] at this
    exact this.symm
  let W : Matrix n Unit ℝ := L⁻¹ * K.toBlocks₁₂
  have hdet := hK.det_pos
  haveI : Invertible K.toBlocks₁₁ := hA.isUnit.invertible
  rw [← fromBlocks_toBlocks K, det_fromBlocks₁₁, det_unique (_ - _), invOf_eq_nonsing_inv, hsym] at hdet
  have hWW : K.toBlocks₁₂ᵀ * K.toBlocks₁₁⁻¹ * K.toBlocks₁₂ = Wᵀ * W := by
    rw [← hL.eq, Matrix.mul_inv_rev]
    simp only [W, transpose_mul, transpose_nonsing_inv, Matrix.mul_assoc]
  rw [hWW] at hdet
  have hpos : 0 < (K.toBlocks₂₂ - Wᵀ * W) default default := (mul_pos_iff_of_pos_left hA.det_pos).1 hdet
  let c : ℝ := Real.sqrt ((K.toBlocks₂₂ - Wᵀ * W) default default)
  have hc : 0 < c := Real.sqrt_pos.2 hpos
  refine ⟨fromBlocks L 0 Wᵀ (Matrix.of fun _ _ => c), ?_, ?_, ?_⟩
  · rintro (i | i)
    · exact hL.pos i
    · exact hc
  · rw [det_fromBlocks_zero₁₂, hL.det, det_unique, Fintype.prod_sum_type]
    simp
  · rw [fromBlocks_transpose, fromBlocks_multiply, ← fromBlocks_toBlocks K]
    congr 1
    · rw [← hL.eq]; simp
    · simp only [transpose_transpose, transpose_zero, Matrix.zero_mul, add_zero, W]
      rw [mul_nonsing_inv_cancel_left _ _ hLu]
    · rw [hsym, transpose_zero, Matrix.mul_zero, add_zero, ← transpose_mul]
      simp only [W]
      rw [mul_nonsing_inv_cancel_left _ _ hLu]
    · ext i j
      rw [transpose_transpose, Matrix.add_apply]
      have e1 : ((Matrix.of fun _ _ : Unit => c) * (Matrix.of fun _ _ : Unit => c)ᵀ) i j = c * c := by simp [Matrix.mul_apply]
      rw [e1, Real.mul_self_sqrt hpos.le, Matrix.sub_apply]
      cases i; cases j
      show _ + (_ - _) = _
      ring

theorem exists_isChol_unit (K : Matrix Unit Unit ℝ) (hK : K.PosDef) : ∃ L, IsChol K L := by
  have h := hK.det_pos
  rw [det_unique] at h
  refine ⟨Matrix.of fun _ _ => Real.sqrt (K default default), fun _ => Real.sqrt_pos.2 h, by rw [det_unique]; simp, ?_⟩
  ext i j
  simp only [Matrix.mul_apply, transpose_apply, of_apply, Finset.univ_unique, Finset.sum_singleton]
  rw [Real.mul_self_sqrt h.le]

/-- A decomposition that satisfies the hypotheses for every positive definite matrix that has one. -/
noncomputable def exChol2 (A : Matrix n n ℝ) : Matrix n n ℝ :=
  open Classical in if h : ∃ L, IsChol A L then h.choose else 1

theorem exChol2_isChol {A : Matrix n n ℝ} (h : ∃ L, IsChol A L) : IsChol A (exChol2 A) := by
  unfold exChol2
  rw [dif_pos h]
  exact h.choose_spec

theorem ex_chol1 {K : Matrix Unit Unit ℝ} (h : K.PosDef) : IsChol K (exChol2 K) := exChol2_isChol (exists_isChol_unit K h)
theorem ex_chol2 {K : Matrix (Unit ⊕ Unit) (Unit ⊕ Unit) ℝ} (h : K.PosDef) : IsChol K (exChol2 K) :=
  exChol2_isChol (exists_isChol_sum exists_isChol_unit K h)
theorem ex_chol3 {K : Matrix ((Unit ⊕ Unit) ⊕ Unit) ((Unit ⊕ Unit) ⊕ Unit) ℝ} (h : K.PosDef) : IsChol K (exChol2 K) :=
  exChol2_isChol (exists_isChol_sum (exists_isChol_sum exists_isChol_unit) K h)

/-- The matrix with rows (2, 0) and (1, 3) is the decomposition of that with rows (4, 2) and (2, 10). -/
example : IsChol !![4, 2; 2, 10] (!![2, 0; 1, 3] : Matrix (Fin 2) (Fin 2) ℝ) :=
  IsChol.of_lower (by intro i j; fin_cases i <;> fin_cases j <;> simp) (by intro i; fin_cases i <;> simp) (by ext i j; fin_cases i <;> fin_cases j <;> simp [Matrix.mul_apply, Fin.sum_univ_two] <;> norm_num)

/-- C154: 5 at the point 4, with noise 1; there 2 was predicted with variance 8. -/
example : exM.lml exChol2 (exR.append (one 4 5 1)) = exM.lml exChol2 exR + Real.log exM.s +
    Real.log (1 / Real.sqrt (2 * Real.pi * 9) * Real.exp (-(1 / 2))) := by
  have hp := exR_posDef
  have h := C154_chain exM linK_isKernel (by norm_num [exM]) exR 4 5 1 (ex_chol1 hp) (ex_chol2 (ex_one_posDef 5))
  have hm : exM.mean exChol2 exR 4 = 2 := by
    rw [show exM.mean exChol2 exR 4 = exM.mean exChol exR 4 by
      unfold Model.mean Data.mean; rw [update_alpha (ex_chol1 hp).isFactor, update_alpha (exChol_isFactor hp)], exR_mean]
    norm_num
  have hv : exM.std exChol2 exR 4 ^ 2 = 8 := by
    rw [std_sq exM linK_isKernel exR hp (ex_chol1 hp).isFactor, rawVar_eq (ex_chol1 hp).isFactor, ← rawVar_eq (exChol_isFactor hp),
      ← std_sq exM linK_isKernel exR hp (exChol_isFactor hp), exR_std_sq]
    norm_num
  rw [h, hm, hv]
  norm_num

/-- C154: in the other order. -/
example : exM.lml exChol2 ((exR.append (one 4 5 1)).reorder (Equiv.sumComm Unit Unit)) = exM.lml exChol2 (exR.append (one 4 5 1)) :=
  C154_order exChol2 exChol2 exM _ (Equiv.sumComm Unit Unit) (ex_chol2 (ex_one_posDef 5))
    (ex_chol2 (ex_noise_posDef _ (by rintro (i | i) <;> rfl)))

theorem linK_scaled (a : ℝ) : IsKernel fun x y => a ^ 2 * linK x y := by
  intro l X
  have h := (linK_isKernel.posSemidef X).smul (sq_nonneg a)
  exact h

/-- C154: 3 and 7 at the point 4 with noise 1 each, or 5 with variance 1/2; linear kernels of any amplitude. -/
example (a b : ℝ) :
    Model.lml exChol2 ⟨fun x y => a ^ 2 * linK x y, id, 0, 1⟩ ((exR.append (one 4 3 1)).append (one 4 7 1)) ≤
        Model.lml exChol2 ⟨fun x y => b ^ 2 * linK x y, id, 0, 1⟩ ((exR.append (one 4 3 1)).append (one 4 7 1)) ↔
      Model.lml exChol2 ⟨fun x y => a ^ 2 * linK x y, id, 0, 1⟩ (exR.append (one 4 5 (Real.sqrt (1 / 2)))) ≤
        Model.lml exChol2 ⟨fun x y => b ^ 2 * linK x y, id, 0, 1⟩ (exR.append (one 4 5 (Real.sqrt (1 / 2)))) :=
  C154_fit (fun a x y => a ^ 2 * linK x y) id 0 1 (fun a => linK_scaled a) one_pos exR 4 3 7 1 1 5 _ one_pos one_pos
    (by rw [Real.sq_sqrt (by norm_num)]; norm_num) (by rw [Real.sq_sqrt (by norm_num)]; norm_num) (fun _ h => ex_chol2 h) (fun _ h => ex_chol3 h)
    (fun i => by norm_num [exR]) a b

end GPry.Gp
