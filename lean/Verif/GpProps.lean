import Verif.Gp
import Mathlib.Tactic.Linarith
import Mathlib.Tactic.NormNum
import Mathlib.Tactic.Ring
import Mathlib.Tactic.FieldSimp
import Mathlib.Tactic.FinCases
import Mathlib.LinearAlgebra.Matrix.Notation
import Mathlib.Data.Matrix.Block

set_option linter.all false

namespace GPry.Gp

open Matrix

variable {P : Type*} {n m : Type*} [Fintype n] [DecidableEq n] [Fintype m] [DecidableEq m]

/-! ## The factors are those of the inverse -/

theorem update_alpha {chol : Matrix n n ℝ → Matrix n n ℝ} {k : P → P → ℝ} {D : Data n P}
    (hc : IsFactor (D.kmat k) (chol (D.kmat k))) : (D.update chol k).alpha = (D.kmat k)⁻¹ *ᵥ D.y := by
  unfold Data.update kernelInverse
  dsimp only
  rw [hc.eq]

theorem isUnit_kmat {chol : Matrix n n ℝ → Matrix n n ℝ} {k : P → P → ℝ} {D : Data n P}
    (hc : IsFactor (D.kmat k) (chol (D.kmat k))) : IsUnit (D.kmat k).det := by
  have h := congrArg det hc.eq
  rw [det_mul, det_transpose] at h
  have h1 := (isUnit_iff_isUnit_det _).1 hc.isUnit
  rw [← h]
  exact h1.mul h1

theorem kmat_alpha {chol : Matrix n n ℝ → Matrix n n ℝ} {k : P → P → ℝ} {D : Data n P}
    (hc : IsFactor (D.kmat k) (chol (D.kmat k))) : D.kmat k *ᵥ (D.update chol k).alpha = D.y := by
  rw [update_alpha hc, mulVec_mulVec, mul_nonsing_inv _ (isUnit_kmat hc), one_mulVec]

theorem rawVar_eq {chol : Matrix n n ℝ → Matrix n n ℝ} {k : P → P → ℝ} {D : Data n P}
    (hc : IsFactor (D.kmat k) (chol (D.kmat k))) (x : P) :
    D.rawVar chol k x = k x x - D.kTrans k x ⬝ᵥ ((D.kmat k)⁻¹ *ᵥ D.kTrans k x) := by
  unfold Data.rawVar Data.update kernelInverse
  dsimp only
  obtain ⟨L, hL⟩ : ∃ L, L = chol (D.kmat k) := ⟨_, rfl⟩
  rw [← hL] at hc ⊢
  rw [← hc.eq, Matrix.mul_inv_rev]
  rw [← mulVec_mulVec, dotProduct_mulVec (D.kTrans k x), ← mulVec_transpose, transpose_nonsing_inv, transpose_transpose]

/-! ## C18: interpolation -/

/-- **C18**: at a training point the difference between its value and the mean is the noise variance times the component
of `alpha_` (in the units of the target: the square of its noise level over the scale). With no noise the mean is the
value. -/
theorem C18_residual (chol : Matrix n n ℝ → Matrix n n ℝ) (M : Model P) (R : Raw n P) (hs : M.s ≠ 0)
    (hc : IsFactor ((M.data R).kmat M.k) (chol ((M.data R).kmat M.k))) (i : n) :
    R.y i - M.mean chol R (R.X i) = R.noise i ^ 2 / M.s * ((M.data R).update chol M.k).alpha i ∧
    (R.noise i = 0 → M.mean chol R (R.X i) = R.y i) := by
  have h := congrFun (kmat_alpha hc) i
  have h1 : ((M.data R).kmat M.k *ᵥ ((M.data R).update chol M.k).alpha) i =
      (M.data R).mean chol M.k (M.trX (R.X i)) + (R.noise i / M.s) ^ 2 * ((M.data R).update chol M.k).alpha i := by
    unfold Data.kmat
    rw [add_mulVec, Pi.add_apply, mulVec_diagonal]
    rfl
  rw [h1] at h
  have hy : (M.data R).y i = (R.y i - M.mu) / M.s := rfl
  rw [hy] at h
  have hm : M.mean chol R (R.X i) = (M.data R).mean chol M.k (M.trX (R.X i)) * M.s + M.mu := rfl
  have h2 : R.y i - M.mean chol R (R.X i) = R.noise i ^ 2 / M.s * ((M.data R).update chol M.k).alpha i := by
    rw [hm]
    rw [eq_div_iff hs] at h
    have h3 : R.noise i ^ 2 / M.s = (R.noise i / M.s) ^ 2 * M.s := by field_simp
    rw [h3]
    linarith [h]
  refine ⟨h2, fun h0 => ?_⟩
  rw [h0] at h2
  simp at h2
  linarith

theorem kTrans_train (k : P → P → ℝ) (D : Data n P) (i : n) :
    D.kTrans k (D.X i) = D.kmat k i - Pi.single i (D.var i) := by
  funext j
  unfold Data.kTrans Data.kmat
  by_cases h : j = i
  · subst h; simp
  · simp [h, diagonal_apply_ne _ (Ne.symm h)]

theorem kmat_symm {k : P → P → ℝ} (hk : ∀ x y, k x y = k y x) (D : Data n P) : (D.kmat k)ᵀ = D.kmat k := by
  unfold Data.kmat
  rw [transpose_add, diagonal_transpose]
  congr 1
  ext i j
  exact hk _ _

theorem rawVar_train {chol : Matrix n n ℝ → Matrix n n ℝ} {k : P → P → ℝ} (hk : ∀ x y, k x y = k y x) {D : Data n P}
    (hc : IsFactor (D.kmat k) (chol (D.kmat k))) (i : n) :
    D.rawVar chol k (D.X i) = D.var i - D.var i ^ 2 * (D.kmat k)⁻¹ i i := by
  have hrow : D.kmat k i = D.kmat k *ᵥ Pi.single i 1 := by
    funext j
    rw [mulVec_single_one]
    exact congrFun (congrFun (kmat_symm hk D).symm i) j |>.trans rfl
  have hinv : (D.kmat k)⁻¹ *ᵥ D.kmat k i = Pi.single i 1 := by
    rw [hrow, mulVec_mulVec, nonsing_inv_mul _ (isUnit_kmat hc), one_mulVec]
  have hsym : ∀ v w : n → ℝ, v ⬝ᵥ ((D.kmat k)⁻¹ *ᵥ w) = w ⬝ᵥ ((D.kmat k)⁻¹ *ᵥ v) := by
    intro v w
    rw [dotProduct_mulVec, ← mulVec_transpose, transpose_nonsing_inv, kmat_symm hk, dotProduct_comm]
  have hdiag : D.kmat k i i = k (D.X i) (D.X i) + D.var i := by
    unfold Data.kmat; simp
  have hsingle : Pi.single i (D.var i) = D.var i • (Pi.single i 1 : n → ℝ) := by
    rw [← Pi.single_smul]; simp
  rw [rawVar_eq hc, kTrans_train, mulVec_sub, hinv, sub_dotProduct, dotProduct_sub, dotProduct_sub, hsym (D.kmat k i), hinv,
    dotProduct_single, single_dotProduct, single_dotProduct]
  rw [hsingle, mulVec_smul, mulVec_single_one]
  simp only [Pi.smul_apply, smul_eq_mul, Pi.single_eq_same, mul_one, hdiag, col_apply]
  ring

/-- **C18**: the standard deviation at a training point is at most its noise level, and zero if it has no noise. -/
theorem C18_std (chol : Matrix n n ℝ → Matrix n n ℝ) (M : Model P) (R : Raw n P) (hs : 0 < M.s)
    (hk : ∀ x y, M.k x y = M.k y x) (hp : ((M.data R).kmat M.k).PosDef)
    (hc : IsFactor ((M.data R).kmat M.k) (chol ((M.data R).kmat M.k))) (i : n) :
    M.std chol R (R.X i) ≤ |R.noise i| ∧ (R.noise i = 0 → M.std chol R (R.X i) = 0) := by
  have hv := rawVar_train hk hc i
  have hvar : (M.data R).var i = (R.noise i / M.s) ^ 2 := rfl
  have hX : (M.data R).X i = M.trX (R.X i) := rfl
  have hpos : 0 ≤ ((M.data R).kmat M.k)⁻¹ i i := hp.inv.diag_pos.le
  have hle : (M.data R).rawVar chol M.k (M.trX (R.X i)) ≤ (R.noise i / M.s) ^ 2 := by
    rw [← hX, hv, hvar]
    have := mul_nonneg (sq_nonneg ((R.noise i / M.s) ^ 2)) hpos
    linarith
  have hstd : M.std chol R (R.X i) ≤ |R.noise i| := by
    unfold Model.std Data.std
    dsimp only
    have h1 : Real.sqrt (if (M.data R).rawVar chol M.k (M.trX (R.X i)) < 0 then 0
        else (M.data R).rawVar chol M.k (M.trX (R.X i))) ≤ |R.noise i / M.s| := by
      rw [← Real.sqrt_sq_eq_abs]
      apply Real.sqrt_le_sqrt
      split_ifs
      · positivity
      · exact hle
    calc _ ≤ |R.noise i / M.s| * M.s := mul_le_mul_of_nonneg_right h1 hs.le
      _ = |R.noise i| := by rw [abs_div, abs_of_pos hs]; field_simp
  refine ⟨hstd, fun h0 => ?_⟩
  rw [h0, abs_zero] at hstd
  apply le_antisymm hstd
  unfold Model.std Data.std
  dsimp only
  exact mul_nonneg (Real.sqrt_nonneg _) hs.le

/-! ## C16: kriging believer -/

theorem kmat_append (k : P → P → ℝ) (hk : ∀ x y, k x y = k y x) (M : Model P) (R : Raw n P) (E : Raw m P) (v : n → ℝ) :
    (M.data (R.append E)).kmat k *ᵥ Sum.elim v 0 =
      Sum.elim ((M.data R).kmat k *ᵥ v) fun j => (M.data R).kTrans k (M.trX (E.X j)) ⬝ᵥ v := by
  funext i
  cases i with
  | inl i =>
    show ∑ j, _ = ∑ j, _
    rw [Fintype.sum_sum_type]
    simp only [Sum.elim_inl, Sum.elim_inr, Pi.zero_apply, mul_zero, Finset.sum_const_zero, add_zero]
    apply Finset.sum_congr rfl
    intro j _
    congr 1
    unfold Data.kmat
    rw [Matrix.add_apply, Matrix.add_apply]
    congr 1
    by_cases h : i = j
    · subst h; rw [diagonal_apply_eq, diagonal_apply_eq]; rfl
    · rw [diagonal_apply_ne _ h, diagonal_apply_ne _ (by simpa using h)]
  | inr i =>
    show ∑ j, _ = ∑ j, _
    rw [Fintype.sum_sum_type]
    simp only [Sum.elim_inl, Sum.elim_inr, Pi.zero_apply, mul_zero, Finset.sum_const_zero, add_zero]
    apply Finset.sum_congr rfl
    intro j _
    congr 1
    unfold Data.kmat
    rw [Matrix.add_apply, diagonal_apply_ne _ (by simp), add_zero]
    rfl

/-- **C16**: any number of points appended, with any noise levels, whose values are the mean predicted at them, without
refitting anything, leave the predicted mean unchanged everywhere. (The mean before clipping and masking, see the
counterexample.) -/
theorem C16_kriging_believer_partial (chol : Matrix n n ℝ → Matrix n n ℝ) (chol' : Matrix (n ⊕ m) (n ⊕ m) ℝ → Matrix (n ⊕ m) (n ⊕ m) ℝ)
    (M : Model P) (hk : ∀ x y, M.k x y = M.k y x) (hs : M.s ≠ 0) (R : Raw n P) (E : Raw m P)
    (hc : IsFactor ((M.data R).kmat M.k) (chol ((M.data R).kmat M.k)))
    (hc' : IsFactor ((M.data (R.append E)).kmat M.k) (chol' ((M.data (R.append E)).kmat M.k)))
    (hlie : ∀ j, E.y j = M.mean chol R (E.X j)) (x : P) :
    M.mean chol' (R.append E) x = M.mean chol R x := by
  have halpha : ((M.data (R.append E)).update chol' M.k).alpha = Sum.elim ((M.data R).update chol M.k).alpha 0 := by
    have h1 : (M.data (R.append E)).kmat M.k *ᵥ Sum.elim ((M.data R).update chol M.k).alpha 0 = (M.data (R.append E)).y := by
      rw [kmat_append M.k hk, kmat_alpha hc]
      funext i
      cases i with
      | inl i => rfl
      | inr j =>
        show _ = (E.y j - M.mu) / M.s
        rw [hlie j]
        unfold Model.mean Data.mean
        rw [add_sub_cancel_right, mul_div_cancel_right₀ _ hs]
        rfl
    rw [update_alpha hc', ← h1, mulVec_mulVec, nonsing_inv_mul _ (isUnit_kmat hc'), one_mulVec]
  unfold Model.mean Data.mean
  rw [halpha]
  congr 2
  show ∑ i, _ = ∑ i, _
  rw [Fintype.sum_sum_type]
  simp only [Sum.elim_inl, Sum.elim_inr, Pi.zero_apply, mul_zero, Finset.sum_const_zero, add_zero]
  rfl

/-! ## C17: the variance decreases -/

/-- A kernel: its matrices are positive semi-definite. -/
def IsKernel (k : P → P → ℝ) : Prop := ∀ (l : ℕ) (X : Fin l → P), (Matrix.of fun i j => k (X i) (X j)).PosSemidef

theorem IsKernel.symm {k : P → P → ℝ} (h : IsKernel k) (x y : P) : k x y = k y x := by
  have := (h 2 ![x, y]).1
  have := congrFun (congrFun this 0) 1
  simpa [Matrix.conjTranspose] using this.symm

theorem IsKernel.posSemidef {k : P → P → ℝ} (h : IsKernel k) {l : Type*} [Fintype l] (X : l → P) :
    (Matrix.of fun i j => k (X i) (X j)).PosSemidef := by
  classical
  have e := Fintype.equivFin l
  have := (h _ (X ∘ e.symm)).submatrix e
  convert this using 1
  ext i j
  simp

/-- A kernel matrix with positive noise is positive definite. -/
theorem IsKernel.kmat_posDef {k : P → P → ℝ} (h : IsKernel k) (D : Data n P) (hv : ∀ i, 0 < D.var i) : (D.kmat k).PosDef := by
  unfold Data.kmat
  exact PosDef.posSemidef_add (h.posSemidef D.X) (posDef_diagonal_iff.2 hv)

/-- Completing the square. -/
theorem two_sub_le {A : Matrix n n ℝ} (hA : A.PosDef) (b v : n → ℝ) :
    2 * (v ⬝ᵥ b) - v ⬝ᵥ (A *ᵥ v) ≤ b ⬝ᵥ (A⁻¹ *ᵥ b) := by
  have hu : IsUnit A.det := (isUnit_iff_isUnit_det A).1 hA.isUnit
  have hsym : Aᵀ = A := by
    have := hA.1
    rwa [IsHermitian, conjTranspose_eq_transpose_of_trivial] at this
  have h := hA.posSemidef.dotProduct_mulVec_nonneg (A⁻¹ *ᵥ b - v)
  rw [star_trivial, mulVec_sub, mulVec_mulVec, mul_nonsing_inv _ hu, one_mulVec, sub_dotProduct, dotProduct_sub,
    dotProduct_sub] at h
  have h1 : (A⁻¹ *ᵥ b) ⬝ᵥ (A *ᵥ v) = v ⬝ᵥ b := by
    rw [dotProduct_mulVec, ← mulVec_transpose, hsym, mulVec_mulVec, mul_nonsing_inv _ hu, one_mulVec, dotProduct_comm]
  have h2 : (A⁻¹ *ᵥ b) ⬝ᵥ b = b ⬝ᵥ (A⁻¹ *ᵥ b) := dotProduct_comm _ _
  rw [h1, h2] at h
  linarith

/-- **C17**: appending points, with any values and noise levels, without refitting, does not increase the variance, nor the
standard deviation, anywhere; nor therefore any acquisition value that increases with it, at the same mean. -/
theorem C17_variance_antitone (chol : Matrix n n ℝ → Matrix n n ℝ) (chol' : Matrix (n ⊕ m) (n ⊕ m) ℝ → Matrix (n ⊕ m) (n ⊕ m) ℝ)
    (M : Model P) (hk : ∀ x y, M.k x y = M.k y x) (hs : 0 ≤ M.s) (R : Raw n P) (E : Raw m P)
    (hc : IsFactor ((M.data R).kmat M.k) (chol ((M.data R).kmat M.k)))
    (hp' : ((M.data (R.append E)).kmat M.k).PosDef)
    (hc' : IsFactor ((M.data (R.append E)).kmat M.k) (chol' ((M.data (R.append E)).kmat M.k))) (x : P) :
    (M.data (R.append E)).rawVar chol' M.k (M.trX x) ≤ (M.data R).rawVar chol M.k (M.trX x) ∧
    M.std chol' (R.append E) x ≤ M.std chol R x ∧
    (∀ acq : ℝ → ℝ → ℝ, (∀ y, Monotone (acq y)) → ∀ y, acq y (M.std chol' (R.append E) x) ≤ acq y (M.std chol R x)) := by
  have hvar : (M.data (R.append E)).rawVar chol' M.k (M.trX x) ≤ (M.data R).rawVar chol M.k (M.trX x) := by
    rw [rawVar_eq hc, rawVar_eq hc']
    have hkt : (M.data (R.append E)).kTrans M.k (M.trX x) =
        Sum.elim ((M.data R).kTrans M.k (M.trX x)) ((fun j => M.k (M.trX x) (M.trX (E.X j)))) := by
      funext i; cases i <;> rfl
    have h := two_sub_le hp' ((M.data (R.append E)).kTrans M.k (M.trX x))
      (Sum.elim (((M.data R).kmat M.k)⁻¹ *ᵥ (M.data R).kTrans M.k (M.trX x)) 0)
    rw [kmat_append M.k hk, mulVec_mulVec, mul_nonsing_inv _ (isUnit_kmat hc), one_mulVec] at h
    have h1 : ∀ (v : n → ℝ) (w : n ⊕ m → ℝ), Sum.elim v (0 : m → ℝ) ⬝ᵥ w = v ⬝ᵥ (w ∘ Sum.inl) := by
      intro v w
      show ∑ i, _ = ∑ i, _
      rw [Fintype.sum_sum_type]
      simp
    rw [h1, h1] at h
    rw [show ((M.data (R.append E)).kTrans M.k (M.trX x)) ∘ Sum.inl = (M.data R).kTrans M.k (M.trX x) from rfl,
      Sum.elim_comp_inl] at h
    rw [dotProduct_comm] at h
    linarith
  have hstd : M.std chol' (R.append E) x ≤ M.std chol R x := by
    unfold Model.std Data.std
    dsimp only
    refine mul_le_mul_of_nonneg_right (Real.sqrt_le_sqrt ?_) hs
    split_ifs with h1 h2 h2
    · exact le_rfl
    · exact not_lt.1 h2
    · exact absurd (lt_of_le_of_lt hvar h2) h1
    · exact hvar
  exact ⟨hvar, hstd, fun acq hacq y => hacq y hstd⟩

/-- **C17**: the variance is not negative (so that in exact arithmetic nothing is ever set to zero), and at most the
variance of the prior. -/
theorem C17_variance_nonneg (chol : Matrix n n ℝ → Matrix n n ℝ) {k : P → P → ℝ} (hk : IsKernel k) (D : Data n P)
    (hv : ∀ i, 0 ≤ D.var i) (hp : (D.kmat k).PosDef) (hc : IsFactor (D.kmat k) (chol (D.kmat k))) (x : P) :
    0 ≤ D.rawVar chol k x ∧ D.rawVar chol k x ≤ k x x := by
  rw [rawVar_eq hc]
  have h0 : 0 ≤ D.kTrans k x ⬝ᵥ ((D.kmat k)⁻¹ *ᵥ D.kTrans k x) := by
    have := hp.inv.posSemidef.dotProduct_mulVec_nonneg (D.kTrans k x)
    rwa [star_trivial] at this
  refine ⟨?_, by linarith⟩
  -- the matrix of the training points and `x`
  have hu := isUnit_kmat hc
  obtain ⟨w, hw⟩ : ∃ w, w = (D.kmat k)⁻¹ *ᵥ D.kTrans k x := ⟨_, rfl⟩
  have hKw : D.kmat k *ᵥ w = D.kTrans k x := by rw [hw, mulVec_mulVec, mul_nonsing_inv _ hu, one_mulVec]
  have hG := (hk.posSemidef (Sum.elim D.X fun _ : Unit => x)).dotProduct_mulVec_nonneg (Sum.elim (-w) fun _ => 1)
  rw [star_trivial] at hG
  obtain ⟨G, hGd⟩ : ∃ G : Matrix n n ℝ, G = Matrix.of fun i j => k (D.X i) (D.X j) := ⟨_, rfl⟩
  have hexp : (Sum.elim (-w) fun _ : Unit => (1 : ℝ)) ⬝ᵥ
      ((Matrix.of fun i j => k (Sum.elim D.X (fun _ : Unit => x) i) (Sum.elim D.X (fun _ : Unit => x) j)) *ᵥ
        (Sum.elim (-w) fun _ => 1)) = w ⬝ᵥ (G *ᵥ w) - 2 * (w ⬝ᵥ D.kTrans k x) + k x x := by
    have e1 : (Matrix.of fun i j => k (Sum.elim D.X (fun _ : Unit => x) i) (Sum.elim D.X (fun _ : Unit => x) j)) *ᵥ
        (Sum.elim (-w) fun _ => 1) = Sum.elim (-(G *ᵥ w) + D.kTrans k x) (fun _ => -(w ⬝ᵥ D.kTrans k x) + k x x) := by
      funext i
      cases i with
      | inl i =>
        show ∑ j, _ = _
        rw [Fintype.sum_sum_type]
        simp only [Sum.elim_inl, Sum.elim_inr, of_apply, Finset.univ_unique, Finset.sum_singleton, mul_one, Pi.add_apply,
          Pi.neg_apply, mul_neg, Finset.sum_neg_distrib]
        congr 1
        · rw [hGd]; rfl
        · exact hk.symm _ _
      | inr i =>
        show ∑ j, _ = _
        rw [Fintype.sum_sum_type]
        simp only [Sum.elim_inl, Sum.elim_inr, of_apply, Finset.univ_unique, Finset.sum_singleton, mul_one, Pi.neg_apply,
          mul_neg, Finset.sum_neg_distrib]
        congr 2
        unfold dotProduct
        apply Finset.sum_congr rfl
        intro j _
        rw [mul_comm]; rfl
    rw [e1]
    show ∑ i, _ = _
    rw [Fintype.sum_sum_type]
    simp only [Sum.elim_inl, Sum.elim_inr, Finset.univ_unique, Finset.sum_singleton, one_mul]
    have : ∑ i, (-w) i * (-(G *ᵥ w) + D.kTrans k x) i = w ⬝ᵥ (G *ᵥ w) - w ⬝ᵥ D.kTrans k x := by
      show (-w) ⬝ᵥ (-(G *ᵥ w) + D.kTrans k x) = _
      rw [dotProduct_add, neg_dotProduct_neg, neg_dotProduct]; ring
    rw [this]; ring
  rw [hexp] at hG
  have hGw : w ⬝ᵥ (G *ᵥ w) = w ⬝ᵥ D.kTrans k x - w ⬝ᵥ (diagonal D.var *ᵥ w) := by
    have : D.kmat k = G + diagonal D.var := by rw [hGd]; rfl
    rw [← hKw, this, add_mulVec, dotProduct_add]; ring
  have hdw : 0 ≤ w ⬝ᵥ (diagonal D.var *ᵥ w) := by
    unfold dotProduct
    apply Finset.sum_nonneg
    intro i _
    rw [mulVec_diagonal]
    have := mul_nonneg (hv i) (mul_self_nonneg (w i))
    nlinarith
  rw [← hw, dotProduct_comm]
  linarith

/-! ## Examples -/

/-- The linear kernel, positions are numbers. -/
def linK (x y : ℝ) : ℝ := x * y

theorem linK_isKernel : IsKernel linK := by
  intro l X
  have := posSemidef_vecMulVec_self_star (fun i => X i)
  convert this using 1
  ext i j
  simp [linK, vecMulVec_apply]

/-- No preprocessing. -/
def exM : Model ℝ := ⟨linK, id, 0, 1⟩
/-- The point 1, with value 1 and noise 1. -/
def exR : Raw Unit ℝ := ⟨fun _ => 1, fun _ => 1, fun _ => 1⟩
/-- A lie at 4, with some value and noise 1. -/
def exE (y : ℝ) : Raw Unit ℝ := ⟨fun _ => 4, fun _ => y, fun _ => 1⟩

/-- A square root as factor: any positive definite matrix has one. -/
theorem exists_isFactor {A : Matrix n n ℝ} (hA : A.PosDef) : ∃ L, IsFactor A L := by
  have hs := hA.1.spectral_theorem
  rw [Unitary.conjStarAlgAut_apply] at hs
  obtain ⟨U, hU⟩ : ∃ U : Matrix n n ℝ, U = (hA.1.eigenvectorUnitary : Matrix n n ℝ) := ⟨_, rfl⟩
  have hUU : star U * U = 1 := by rw [hU]; exact Unitary.coe_star_mul_self _
  have hUU' : U * star U = 1 := by rw [hU]; exact Unitary.coe_mul_star_self _
  have hD : (diagonal (RCLike.ofReal ∘ hA.1.eigenvalues) : Matrix n n ℝ) =
      diagonal (fun i => Real.sqrt (hA.1.eigenvalues i)) * diagonal (fun i => Real.sqrt (hA.1.eigenvalues i)) := by
    rw [diagonal_mul_diagonal]
    congr 1
    funext i
    rw [Real.mul_self_sqrt (hA.eigenvalues_pos i).le]
    rfl
  refine ⟨U * diagonal (fun i => Real.sqrt (hA.1.eigenvalues i)), ?_, ?_⟩
  · apply IsUnit.mul
    · exact IsUnit.of_mul_eq_one _ hUU'
    · rw [isUnit_iff_isUnit_det, det_diagonal, isUnit_iff_ne_zero, Finset.prod_ne_zero_iff]
      intro i _
      exact (Real.sqrt_pos.2 (hA.eigenvalues_pos i)).ne'
  · conv_rhs => rw [hs, hD]
    rw [← hU, star_eq_conjTranspose, conjTranspose_eq_transpose_of_trivial, transpose_mul, diagonal_transpose]
    simp only [Matrix.mul_assoc]

theorem ex_posDef (y : ℝ) : ((exM.data (exR.append (exE y))).kmat exM.k).PosDef := by
  apply linK_isKernel.kmat_posDef
  intro i
  cases i <;> norm_num [Model.data, exM, Raw.append, exR, exE]

/-- A factorisation that satisfies the hypotheses for every positive definite matrix. -/
noncomputable def exChol (A : Matrix n n ℝ) : Matrix n n ℝ :=
  open Classical in if h : A.PosDef then (exists_isFactor h).choose else 1

theorem exChol_isFactor {A : Matrix n n ℝ} (h : A.PosDef) : IsFactor A (exChol A) := by
  unfold exChol
  rw [dif_pos h]
  exact (exists_isFactor h).choose_spec

theorem exR_posDef : ((exM.data exR).kmat exM.k).PosDef := by
  apply linK_isKernel.kmat_posDef
  intro i
  norm_num [Model.data, exM, exR]

theorem exR_mean (x : ℝ) : exM.mean exChol exR x = x / 2 := by
  have hc := exChol_isFactor exR_posDef
  have h := congrFun (kmat_alpha hc) ()
  have h1 : ((exM.data exR).kmat exM.k *ᵥ ((exM.data exR).update exChol exM.k).alpha) () =
      2 * ((exM.data exR).update exChol exM.k).alpha () := by
    simp [mulVec, dotProduct, Data.kmat, Model.data, exM, exR, linK]
    norm_num
  rw [h1] at h
  have h2 : (exM.data exR).y () = 1 := by norm_num [Model.data, exM, exR]
  rw [h2] at h
  unfold Model.mean Data.mean
  simp only [dotProduct, Finset.univ_unique, Finset.sum_singleton]
  have h3 : (exM.data exR).kTrans exM.k (exM.trX x) () = x := by simp [Data.kTrans, Model.data, exM, exR, linK]
  have h4 : exM.s = 1 := rfl
  have h5 : exM.mu = 0 := rfl
  show (exM.data exR).kTrans exM.k (exM.trX x) () * ((exM.data exR).update exChol exM.k).alpha () * exM.s + exM.mu = _
  rw [h3, h4, h5]
  have : ((exM.data exR).update exChol exM.k).alpha () = 1 / 2 := by linarith
  rw [this]; ring

theorem exR_append_mean (y x : ℝ) : exM.mean exChol (exR.append (exE y)) x = x * (1 + 4 * y) / 18 := by
  have hc := exChol_isFactor (ex_posDef y)
  obtain ⟨α, hα⟩ : ∃ α, α = ((exM.data (exR.append (exE y))).update exChol exM.k).alpha := ⟨_, rfl⟩
  have h := kmat_alpha hc
  rw [← hα] at h
  have h1 := congrFun h (Sum.inl ())
  have h2 := congrFun h (Sum.inr ())
  simp [mulVec, dotProduct, Data.kmat, Model.data, exM, exR, exE, linK, Raw.append] at h1 h2
  unfold Model.mean Data.mean
  rw [← hα]
  simp [dotProduct, Data.kTrans, Model.data, exM, exR, exE, linK, Raw.append]
  linear_combination (x / 18) * h1 + (4 * x / 18) * h2

/-- **C16** is false for the clipped mean: the only training value is 1, so predictions are clipped to 1 (for any
`clip_factor`). The mean at 4 is 2, and 1 after clipping. With that lie the prediction at 1, far below the clipping level
before and after, changes from 1/2 to 5/18. -/
theorem C16_clip_counterexample :
    exM.mean exChol exR 4 = 2 ∧ exM.mean exChol exR 1 = 1 / 2 ∧
    exM.mean exChol (exR.append (exE (min 2 1))) 1 = 5 / 18 := by
  refine ⟨?_, ?_, ?_⟩
  · rw [exR_mean]; norm_num
  · rw [exR_mean]
  · rw [exR_append_mean, min_eq_right (by norm_num)]; norm_num

/-- C16: with the lie 2 nothing changes. -/
example (x : ℝ) : exM.mean exChol (exR.append (exE 2)) x = exM.mean exChol exR x :=
  C16_kriging_believer_partial exChol exChol exM (linK_isKernel.symm) (by norm_num [exM]) exR (exE 2)
    (exChol_isFactor exR_posDef) (exChol_isFactor (ex_posDef 2)) (fun j => by rw [exR_mean]; norm_num [exE]) x

/-- C17, C18: the hypotheses are met. -/
example (x : ℝ) : exM.std exChol (exR.append (exE 0)) x ≤ exM.std exChol exR x ∧ exM.std exChol exR 1 ≤ |1| :=
  ⟨(C17_variance_antitone exChol exChol exM linK_isKernel.symm (by norm_num [exM]) exR (exE 0)
    (exChol_isFactor exR_posDef) (ex_posDef 0) (exChol_isFactor (ex_posDef 0)) x).2.1,
   (C18_std exChol exM exR (by norm_num [exM]) linK_isKernel.symm exR_posDef (exChol_isFactor exR_posDef) ()).1⟩

/-- C18: the residual at the training point is noise squared times the weight. -/
example : exR.y () - exM.mean exChol exR 1 = ((exM.data exR).update exChol exM.k).alpha () := by
  have := (C18_residual exChol exM exR (by norm_num [exM]) (exChol_isFactor exR_posDef) ()).1
  simpa [exR, exM] using this

example (x : ℝ) : 0 ≤ (exM.data exR).rawVar exChol exM.k x ∧ (exM.data exR).rawVar exChol exM.k x ≤ x * x :=
  C17_variance_nonneg exChol linK_isKernel (exM.data exR) (by intro i; simp [Model.data]; positivity) exR_posDef (exChol_isFactor exR_posDef) x

end GPry.Gp
