import Verif.Stat
import Mathlib.Algebra.Order.Star.Real
import Mathlib.Tactic.Linarith
import Mathlib.Tactic.NormNum
import Mathlib.Tactic.Ring
import Mathlib.Tactic.FinCases
import Mathlib.LinearAlgebra.Matrix.Notation
import Mathlib.LinearAlgebra.Matrix.Determinant.Basic
import Mathlib.Algebra.Star.UnitaryStarAlgAut

set_option linter.all false

namespace GPry.Stat

open Matrix

section KL
variable {n : Type*} [Fintype n] [DecidableEq n]

/-- A positive definite matrix is `Rᵀ R` with an invertible `R`. -/
theorem exists_factor {P : Matrix n n ℝ} (hP : P.PosDef) : ∃ R : Matrix n n ℝ, IsUnit R ∧ P = Rᵀ * R := by
  have hs := hP.1.spectral_theorem
  rw [Unitary.conjStarAlgAut_apply] at hs
  obtain ⟨U, hU⟩ : ∃ U : Matrix n n ℝ, U = (hP.1.eigenvectorUnitary : Matrix n n ℝ) := ⟨_, rfl⟩
  have hUU : star U * U = 1 := by rw [hU]; exact Unitary.coe_star_mul_self _
  have hUU' : U * star U = 1 := by rw [hU]; exact Unitary.coe_mul_star_self _
  have hD : (diagonal (RCLike.ofReal ∘ hP.1.eigenvalues) : Matrix n n ℝ) =
      diagonal (fun i => Real.sqrt (hP.1.eigenvalues i)) * diagonal (fun i => Real.sqrt (hP.1.eigenvalues i)) := by
    rw [diagonal_mul_diagonal]
    congr 1
    funext i
    rw [Real.mul_self_sqrt (hP.eigenvalues_pos i).le]
    rfl
  refine ⟨diagonal (fun i => Real.sqrt (hP.1.eigenvalues i)) * star U, ?_, ?_⟩
  · apply IsUnit.mul
    · rw [isUnit_iff_isUnit_det, det_diagonal, isUnit_iff_ne_zero, Finset.prod_ne_zero_iff]
      intro i _
      exact (Real.sqrt_pos.2 (hP.eigenvalues_pos i)).ne'
    · exact IsUnit.of_mul_eq_one _ hUU
  · conv_lhs => rw [hs, hD]
    rw [← hU, star_eq_conjTranspose, conjTranspose_eq_transpose_of_trivial, transpose_mul, diagonal_transpose,
      transpose_transpose]
    simp only [Matrix.mul_assoc]

/-- The matrix part of the divergence. -/
theorem trace_log_det {M : Matrix n n ℝ} (hM : M.PosDef) :
    0 ≤ M.trace - Fintype.card n - Real.log M.det ∧ (M.trace - Fintype.card n - Real.log M.det = 0 → M = 1) := by
  have h1 : M.trace - Fintype.card n - Real.log M.det =
      ∑ i, (hM.1.eigenvalues i - 1 - Real.log (hM.1.eigenvalues i)) := by
    rw [hM.1.trace_eq_sum_eigenvalues, hM.1.det_eq_prod_eigenvalues]
    simp only [RCLike.ofReal_real_eq_id, id]
    rw [Real.log_prod (fun i _ => (hM.eigenvalues_pos i).ne')]
    rw [Finset.sum_sub_distrib, Finset.sum_sub_distrib]
    simp
  have h2 : ∀ i, 0 ≤ hM.1.eigenvalues i - 1 - Real.log (hM.1.eigenvalues i) := fun i => by
    have := Real.log_le_sub_one_of_pos (hM.eigenvalues_pos i)
    linarith
  rw [h1]
  refine ⟨Finset.sum_nonneg fun i _ => h2 i, fun h => ?_⟩
  rw [Finset.sum_eq_zero_iff_of_nonneg (fun i _ => h2 i)] at h
  have h3 : ∀ i, hM.1.eigenvalues i = 1 := by
    intro i
    by_contra hne
    have := Real.log_lt_sub_one_of_pos (hM.eigenvalues_pos i) hne
    have := h i (Finset.mem_univ i)
    linarith
  have hs := hM.1.spectral_theorem
  have h4 : (diagonal (RCLike.ofReal ∘ hM.1.eigenvalues) : Matrix n n ℝ) = 1 := by
    rw [← diagonal_one]
    congr 1
    funext i
    simp [h3 i]
  rw [h4, map_one] at hs
  exact hs

/-- **C60**: the divergence between two Gaussians with positive definite covariance matrices, in any dimension, is not
negative, and it is zero exactly if means and covariance matrices agree. -/
theorem C60_divergence (m0 m1 : n → ℝ) {S0 S1 : Matrix n n ℝ} (h0 : S0.PosDef) (h1 : S1.PosDef) :
    0 ≤ klNorm m0 S0 m1 S1 ∧ (klNorm m0 S0 m1 S1 = 0 ↔ m0 = m1 ∧ S0 = S1) := by
  obtain ⟨R, hRu, hR⟩ := exists_factor h1.inv
  obtain ⟨M, hMdef⟩ : ∃ M, M = R * S0 * Rᵀ := ⟨_, rfl⟩
  have hM : M.PosDef := by
    have := (Matrix.IsUnit.posDef_star_right_conjugate_iff hRu (x := S0)).2 h0
    rw [star_eq_conjTranspose, conjTranspose_eq_transpose_of_trivial] at this
    rwa [hMdef]
  have htr : (S1⁻¹ * S0).trace = M.trace := by
    rw [hR, hMdef, Matrix.mul_assoc, trace_mul_comm]
  have hdet : Real.log M.det = Real.log S0.det - Real.log S1.det := by
    have e1 : M.det = S1⁻¹.det * S0.det := by
      rw [hR, hMdef, det_mul, det_mul, det_mul]; ring
    rw [e1, Real.log_mul h1.inv.det_pos.ne' h0.det_pos.ne', det_nonsing_inv, Ring.inverse_eq_inv', Real.log_inv]
    ring
  have hq : 0 ≤ (m1 - m0) ⬝ᵥ (S1⁻¹ *ᵥ (m1 - m0)) := by
    have := h1.inv.posSemidef.dotProduct_mulVec_nonneg (m1 - m0)
    simpa using this
  obtain ⟨ht0, ht1⟩ := trace_log_det hM
  have hkl : klNorm m0 S0 m1 S1 = 0.5 * ((M.trace - Fintype.card n - Real.log M.det) +
      (m1 - m0) ⬝ᵥ (S1⁻¹ *ᵥ (m1 - m0))) := by
    unfold klNorm
    rw [htr, hdet]; ring
  constructor
  · rw [hkl]; positivity
  · constructor
    · intro h
      rw [hkl] at h
      have hsum : (M.trace - Fintype.card n - Real.log M.det) + (m1 - m0) ⬝ᵥ (S1⁻¹ *ᵥ (m1 - m0)) = 0 := by linarith
      have hM1 : M = 1 := ht1 (by linarith)
      have hq0 : (m1 - m0) ⬝ᵥ (S1⁻¹ *ᵥ (m1 - m0)) = 0 := by linarith
      constructor
      · by_contra hne
        have := h1.inv.dotProduct_mulVec_pos (x := m1 - m0) (sub_ne_zero.2 (Ne.symm hne))
        simp only [star_trivial] at this
        linarith
      · have hRdet : IsUnit R.det := (isUnit_iff_isUnit_det R).1 hRu
        have e : S1⁻¹ * S0 = 1 := by
          have h2 : R * S0 * Rᵀ = 1 := hMdef ▸ hM1
          have h3 : R * (S0 * Rᵀ) = 1 := by rw [← Matrix.mul_assoc]; exact h2
          have h4 : S0 * Rᵀ * R = 1 := by
            have := mul_eq_one_comm.1 h3
            exact this
          have h5 : S0 * (Rᵀ * R) = 1 := by rw [← Matrix.mul_assoc]; exact h4
          rw [hR]
          exact mul_eq_one_comm.1 h5
        have hu1 : IsUnit S1.det := (isUnit_iff_isUnit_det S1).1 h1.isUnit
        calc S0 = S1 * (S1⁻¹ * S0) := by rw [← Matrix.mul_assoc, mul_nonsing_inv _ hu1, Matrix.one_mul]
          _ = S1 := by rw [e, Matrix.mul_one]
    · rintro ⟨rfl, rfl⟩
      have hu : IsUnit S0.det := (isUnit_iff_isUnit_det S0).1 h0.isUnit
      unfold klNorm
      rw [nonsing_inv_mul _ hu]
      simp

/-- **C60**: it does not depend on the units of the parameters: it is unchanged by an invertible linear map and a shift. -/
theorem C60_affine_invariant (m0 m1 b : n → ℝ) {S0 S1 : Matrix n n ℝ} (h0 : S0.PosDef) (h1 : S1.PosDef) {A : Matrix n n ℝ}
    (hA : IsUnit A) :
    klNorm (A *ᵥ m0 + b) (A * S0 * Aᵀ) (A *ᵥ m1 + b) (A * S1 * Aᵀ) = klNorm m0 S0 m1 S1 := by
  have hAd : IsUnit A.det := (isUnit_iff_isUnit_det A).1 hA
  have hAd0 : A.det ≠ 0 := hAd.ne_zero
  have hinv : (A * S1 * Aᵀ)⁻¹ = Aᵀ⁻¹ * S1⁻¹ * A⁻¹ := by
    rw [Matrix.mul_inv_rev, Matrix.mul_inv_rev, Matrix.mul_assoc]
  have hAt : Aᵀ * Aᵀ⁻¹ = 1 := mul_nonsing_inv _ (by rw [det_transpose]; exact hAd)
  have hAi : A⁻¹ * A = 1 := nonsing_inv_mul _ hAd
  have htr : ((A * S1 * Aᵀ)⁻¹ * (A * S0 * Aᵀ)).trace = (S1⁻¹ * S0).trace := by
    rw [hinv]
    have : Aᵀ⁻¹ * S1⁻¹ * A⁻¹ * (A * S0 * Aᵀ) = Aᵀ⁻¹ * (S1⁻¹ * S0 * Aᵀ) := by
      calc Aᵀ⁻¹ * S1⁻¹ * A⁻¹ * (A * S0 * Aᵀ) = Aᵀ⁻¹ * (S1⁻¹ * ((A⁻¹ * A) * (S0 * Aᵀ))) := by
            simp only [Matrix.mul_assoc]
        _ = _ := by rw [hAi, Matrix.one_mul, Matrix.mul_assoc]
    rw [this, trace_mul_comm, Matrix.mul_assoc, hAt, Matrix.mul_one]
  have hd : (A *ᵥ m1 + b) - (A *ᵥ m0 + b) = A *ᵥ (m1 - m0) := by rw [mulVec_sub]; abel
  have hqf : (A *ᵥ (m1 - m0)) ⬝ᵥ ((A * S1 * Aᵀ)⁻¹ *ᵥ (A *ᵥ (m1 - m0))) = (m1 - m0) ⬝ᵥ (S1⁻¹ *ᵥ (m1 - m0)) := by
    rw [hinv, mulVec_mulVec, Matrix.mul_assoc, hAi, Matrix.mul_one]
    rw [dotProduct_comm, dotProduct_mulVec, ← mulVec_transpose, mulVec_mulVec, ← Matrix.mul_assoc, hAt, Matrix.one_mul,
      dotProduct_comm]
  unfold klNorm
  rw [hd, hqf, htr]
  rw [det_mul, det_mul, det_mul, det_mul, det_transpose]
  rw [Real.log_mul (mul_ne_zero hAd0 h1.det_pos.ne') hAd0, Real.log_mul hAd0 h1.det_pos.ne',
    Real.log_mul (mul_ne_zero hAd0 h0.det_pos.ne') hAd0, Real.log_mul hAd0 h0.det_pos.ne']
  ring

/-- C60: two one-dimensional Gaussians. -/
example : 0 < klNorm (n := Fin 1) (fun _ => 0) 1 (fun _ => 1) 1 := by
  have h := C60_divergence (n := Fin 1) (fun _ => 0) (fun _ => 1) (S0 := 1) (S1 := 1) PosDef.one PosDef.one
  refine lt_of_le_of_ne h.1 fun he => ?_
  have := (h.2.1 he.symm).1
  have := congrFun this 0
  norm_num at this

/-- **C80**: multiplying all the weights by a number does not change the result; it is zero for equal log-densities; a
common off-set of p and q drops out; points where log p is not finite are ignored. -/
theorem C80_kl_mc (samples : List (Option ℝ × ℝ × ℝ)) :
    (∀ c, c ≠ 0 → klMc (samples.map fun s => (s.1, s.2.1, c * s.2.2)) = klMc samples) ∧
    (∀ c, klMc (samples.map fun s => (s.1.map (· + c), s.2.1 + c, s.2.2)) = klMc samples) ∧
    ((∀ s ∈ samples, ∀ p, s.1 = some p → p = s.2.1) → klMc samples = 0) ∧
    klMc (samples.filter fun s => s.1.isSome) = klMc samples := by
  refine ⟨?_, ?_, ?_, ?_⟩
  · intro c hc
    unfold klMc
    dsimp only
    have h1 : ((samples.map fun s => (s.1, s.2.1, c * s.2.2)).filterMap fun s => s.1.map fun p => (p, s.2.1, s.2.2)) =
        (samples.filterMap fun s => s.1.map fun p => (p, s.2.1, s.2.2)).map fun s => (s.1, s.2.1, c * s.2.2) := by
      rw [List.filterMap_map, List.map_filterMap]
      congr 1
      funext s
      rcases s with ⟨_ | p, q, w⟩ <;> simp
    rw [h1, List.map_map, List.map_map]
    have h2 : ∀ (l : List (ℝ × ℝ × ℝ)) (f : ℝ × ℝ × ℝ → ℝ), (l.map fun s => c * f s).sum = c * (l.map f).sum := by
      intro l f; induction l with
      | nil => simp
      | cons a l ih => simp [ih, mul_add]
    have e1 : (fun s : ℝ × ℝ × ℝ => s.2.2 * (s.1 - s.2.1)) ∘ (fun s : ℝ × ℝ × ℝ => (s.1, s.2.1, c * s.2.2)) =
        fun s : ℝ × ℝ × ℝ => c * (s.2.2 * (s.1 - s.2.1)) := by funext s; simp [mul_assoc]
    have e2 : (fun s : ℝ × ℝ × ℝ => s.2.2) ∘ (fun s : ℝ × ℝ × ℝ => (s.1, s.2.1, c * s.2.2)) =
        fun s : ℝ × ℝ × ℝ => c * s.2.2 := by funext s; simp
    rw [e1, e2, h2, h2, mul_div_mul_left _ _ hc]
  · intro c
    unfold klMc
    dsimp only
    have h1 : ((samples.map fun s => (s.1.map (· + c), s.2.1 + c, s.2.2)).filterMap
          fun s => s.1.map fun p => (p, s.2.1, s.2.2)) =
        (samples.filterMap fun s => s.1.map fun p => (p, s.2.1, s.2.2)).map fun s => (s.1 + c, s.2.1 + c, s.2.2) := by
      rw [List.filterMap_map, List.map_filterMap]
      congr 1
      funext s
      rcases s with ⟨_ | p, q, w⟩ <;> simp
    rw [h1, List.map_map, List.map_map]
    congr 2
    congr 1
    funext s
    simp
  · intro h
    unfold klMc
    dsimp only
    rw [List.sum_eq_zero, zero_div]
    intro x hx
    obtain ⟨s, hs, rfl⟩ := List.mem_map.1 hx
    obtain ⟨t, ht, he⟩ := List.mem_filterMap.1 hs
    cases hp : t.1 with
    | none => rw [hp] at he; simp at he
    | some p =>
      rw [hp] at he
      simp only [Option.map_some, Option.some.injEq] at he
      rw [← he, h t ht p hp]; simp
  · unfold klMc
    dsimp only
    rw [List.filterMap_filter]
    congr 3
    all_goals
      congr 1
      funext s
      cases s.1 <;> simp

/-- C80: one point masked, the others weighted. -/
example : klMc [(some 1, 0, 2), (none, 7, 5), (some 4, 1, 1)] = 5 / 3 := by
  have h : ([(some 1, 0, 2), (none, 7, 5), (some 4, 1, 1)] : List (Option ℝ × ℝ × ℝ)).filterMap
      (fun s => s.1.map fun p => (p, s.2.1, s.2.2)) = [(1, 0, 2), (4, 1, 1)] := rfl
  unfold klMc
  dsimp only
  rw [h]; norm_num

end KL

section Mahalanobis
variable {d : ℕ}

theorem IsChol.isUnit {S L : Matrix (Fin d) (Fin d) ℝ} (h : IsChol S L) : IsUnit L := by
  rw [isUnit_iff_isUnit_det]
  have : L.det = ∏ i, L i i := by
    apply det_of_lowerTriangular
    intro i j hij
    exact h.lower i j hij
  rw [this, isUnit_iff_ne_zero, Finset.prod_ne_zero_iff]
  exact fun i _ => (h.diag i).ne'

/-- The Cholesky factor of a diagonal matrix with entries 1. -/
theorem IsChol.eq_one {L : Matrix (Fin d) (Fin d) ℝ} (h : IsChol 1 L) : L = 1 := by
  have hLt : L * Lᵀ = 1 := h.eq
  have : Invertible L := h.isUnit.invertible
  have hb : BlockTriangular L (OrderDual.toDual) := fun i j hij => h.lower i j hij
  have hinv := blockTriangular_inv_of_blockTriangular hb
  have hLi : L⁻¹ = Lᵀ := inv_eq_right_inv hLt
  have hup : ∀ i j, j < i → L i j = 0 := by
    intro i j hij
    have : L⁻¹ j i = 0 := hinv hij
    rw [hLi] at this
    exact this
  ext i j
  rcases lt_trichotomy i j with hij | rfl | hij
  · rw [h.lower i j hij, one_apply_ne hij.ne]
  · have := congrFun (congrFun hLt i) i
    rw [mul_apply, Finset.sum_eq_single i] at this
    · rw [one_apply_eq] at this ⊢
      have hp := h.diag i
      rw [transpose_apply] at this
      nlinarith
    · intro k _ hk
      rcases lt_or_gt_of_ne hk with hk | hk
      · rw [hup i k hk, zero_mul]
      · rw [h.lower i k hk, zero_mul]
    · simp
  · rw [hup i j hij, one_apply_ne hij.ne']

/-- **C61**, partial: right for diagonal covariance matrices. (For others, see the counterexample.) -/
theorem C61_diagonal_partial (chol : Matrix (Fin d) (Fin d) ℝ → Matrix (Fin d) (Fin d) ℝ)
    (hchol : ∀ S, S.PosDef → IsChol S (chol S)) (v point mean : Fin d → ℝ) (hv : ∀ i, 0 < v i) :
    gaussianDistance chol point mean (diagonal v) ^ 2 =
      (point - mean) ⬝ᵥ ((diagonal v)⁻¹ *ᵥ (point - mean)) := by
  have hsd : stdDiag (diagonal v) = diagonal fun i => Real.sqrt (v i) := by
    unfold stdDiag; congr 1; funext i; rw [diagonal_apply_eq]
  have hinv : ∀ w : Fin d → ℝ, (∀ i, 0 < w i) → (diagonal w)⁻¹ = diagonal fun i => (w i)⁻¹ := by
    intro w hw
    apply inv_eq_right_inv
    rw [diagonal_mul_diagonal, ← diagonal_one]
    congr 1
    funext i
    exact mul_inv_cancel₀ (hw i).ne'
  have hs : ∀ i, 0 < Real.sqrt (v i) := fun i => Real.sqrt_pos.2 (hv i)
  have hcorr : corrmat (diagonal v) = 1 := by
    unfold corrmat
    rw [hsd, hinv _ hs, diagonal_mul_diagonal, diagonal_mul_diagonal, ← diagonal_one]
    congr 1
    funext i
    have := Real.mul_self_sqrt (hv i).le
    have hne := (hs i).ne'
    field_simp
    nlinarith
  have hone : chol 1 = 1 := (hchol 1 PosDef.one).eq_one
  unfold gaussianDistance
  dsimp only
  rw [hcorr, hone, Matrix.mul_one, hsd, hinv _ hs, hinv _ hv]
  rw [Real.sq_sqrt (Finset.sum_nonneg fun i _ => sq_nonneg _)]
  unfold dotProduct
  apply Finset.sum_congr rfl
  intro i _
  rw [mulVec_diagonal, mulVec_diagonal, mul_pow, inv_pow, Real.sq_sqrt (hv i).le]
  ring

/-- The covariance matrix of the counterexample, its Cholesky factor. -/
noncomputable def exS : Matrix (Fin 2) (Fin 2) ℝ := !![1, 3/5; 3/5, 1]
/-- The Cholesky factor. -/
noncomputable def exL : Matrix (Fin 2) (Fin 2) ℝ := !![1, 0; 3/5, 4/5]

theorem exL_chol : IsChol exS exL := by
  constructor
  · intro i j hij
    fin_cases i <;> fin_cases j <;> simp [exL] at hij ⊢
  · intro i; fin_cases i <;> norm_num [exL]
  · ext i j
    fin_cases i <;> fin_cases j <;> norm_num [exL, exS, mul_apply, Fin.sum_univ_two]

theorem exS_posDef : exS.PosDef := by
  have := (PosDef.mul_conjTranspose_self exL (by
    rw [Matrix.vecMul_injective_iff_isUnit]; exact exL_chol.isUnit))
  rw [conjTranspose_eq_transpose_of_trivial, exL_chol.eq] at this
  exact this

/-- Cholesky factors are unique. -/
theorem IsChol.unique {S L M : Matrix (Fin d) (Fin d) ℝ} (hL : IsChol S L) (hM : IsChol S M) : L = M := by
  -- `M⁻¹ L` is a Cholesky factor of the identity
  have hMu := hM.isUnit
  have : Invertible M := hMu.invertible
  have hMd : IsUnit M.det := (isUnit_iff_isUnit_det M).1 hMu
  have hbL : BlockTriangular L (OrderDual.toDual) := fun i j hij => hL.lower i j hij
  have hbM : BlockTriangular M (OrderDual.toDual) := fun i j hij => hM.lower i j hij
  have hbMi := blockTriangular_inv_of_blockTriangular hbM
  have hb := hbMi.mul hbL
  have hdiag : ∀ i, M⁻¹ i i * M i i = 1 := by
    intro i
    have h1 := congrFun (congrFun (nonsing_inv_mul M hMd) i) i
    rw [mul_apply, Finset.sum_eq_single i, one_apply_eq] at h1
    · exact h1
    · intro k _ hk
      rcases lt_or_gt_of_ne hk with hk | hk
      · rw [hM.lower k i hk, mul_zero]
      · rw [show M⁻¹ i k = 0 from hbMi hk, zero_mul]
    · simp
  have hone : IsChol 1 (M⁻¹ * L) := by
    refine ⟨fun i j hij => hb hij, fun i => ?_, ?_⟩
    · rw [mul_apply, Finset.sum_eq_single i]
      · have h1 := hdiag i
        have h2 := hM.diag i
        have h3 : 0 < M⁻¹ i i := by
          by_contra hn
          push Not at hn
          nlinarith
        exact mul_pos h3 (hL.diag i)
      · intro k _ hk
        rcases lt_or_gt_of_ne hk with hk | hk
        · rw [hL.lower k i hk, mul_zero]
        · rw [show M⁻¹ i k = 0 from hbMi hk, zero_mul]
      · simp
    · rw [transpose_mul]
      have h2 : M⁻¹ * L * (Lᵀ * M⁻¹ᵀ) = M⁻¹ * (L * Lᵀ) * M⁻¹ᵀ := by simp only [Matrix.mul_assoc]
      rw [h2, hL.eq, ← hM.eq, ← Matrix.mul_assoc, nonsing_inv_mul M hMd, Matrix.one_mul, transpose_nonsing_inv,
        mul_nonsing_inv _ (by rw [det_transpose]; exact hMd)]
  have h1 := hone.eq_one
  calc L = M * (M⁻¹ * L) := by rw [← Matrix.mul_assoc, mul_nonsing_inv M hMd, Matrix.one_mul]
    _ = M := by rw [h1, Matrix.mul_one]

/-- **C61** is false in general: for this correlated Gaussian the squared distance of (1, 0) is 25/16, the function gives
34/25. -/
theorem C61_correlated_counterexample (chol : Matrix (Fin 2) (Fin 2) ℝ → Matrix (Fin 2) (Fin 2) ℝ)
    (hchol : ∀ S, S.PosDef → IsChol S (chol S)) :
    exS.PosDef ∧ gaussianDistance chol ![1, 0] 0 exS ^ 2 = 34 / 25 ∧
    (![1, 0] - 0) ⬝ᵥ (exS⁻¹ *ᵥ (![1, 0] - 0)) = (25 / 16 : ℝ) := by
  have hsd : stdDiag exS = 1 := by
    unfold stdDiag
    rw [← diagonal_one]
    congr 1
    funext i
    fin_cases i <;> simp [exS]
  have hcorr : corrmat exS = exS := by unfold corrmat; rw [hsd]; simp
  have hc : chol exS = exL := (hchol _ exS_posDef).unique exL_chol
  refine ⟨exS_posDef, ?_, ?_⟩
  · unfold gaussianDistance
    dsimp only
    rw [hcorr, hc, hsd, Real.sq_sqrt (Finset.sum_nonneg fun i _ => sq_nonneg _)]
    simp [exL, Fin.sum_univ_two, mulVec, dotProduct]
    norm_num
  · have hi : exS⁻¹ = !![25/16, -15/16; -15/16, 25/16] := by
      apply inv_eq_right_inv
      ext i j
      fin_cases i <;> fin_cases j <;> norm_num [exS, mul_apply, Fin.sum_univ_two]
    rw [hi]
    simp [mulVec, dotProduct, Fin.sum_univ_two]

/-- C61: the hypotheses on the covariance matrix are met with different variances. -/
example : ∀ i, 0 < (![1, 4] : Fin 2 → ℝ) i := by intro i; fin_cases i <;> norm_num

end Mahalanobis

/-- C61: two independent parameters with variances 1 and 4. -/
example (chol : Matrix (Fin 2) (Fin 2) ℝ → Matrix (Fin 2) (Fin 2) ℝ) (hchol : ∀ S, S.PosDef → IsChol S (chol S)) :
    gaussianDistance chol ![3, 8] ![0, 0] (diagonal ![1, 4]) ^ 2 = 25 := by
  have hv : ∀ i, 0 < (![1, 4] : Fin 2 → ℝ) i := by intro i; fin_cases i <;> norm_num
  have e : (diagonal (![1, 4] : Fin 2 → ℝ))⁻¹ = diagonal ![1, 1 / 4] := by
    apply inv_eq_right_inv
    rw [diagonal_mul_diagonal, ← diagonal_one]
    congr 1
    funext i; fin_cases i <;> norm_num
  rw [C61_diagonal_partial chol hchol _ _ _ hv, e]
  simp [mulVec, dotProduct, Fin.sum_univ_two, diagonal]
  norm_num

end GPry.Stat
