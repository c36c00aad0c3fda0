import Verif.GpUpdate
import Mathlib.Algebra.Order.BigOperators.Ring.Finset

set_option linter.all false

/-!
# Several evaluations of the same point (gpry/gpr.py:996-1020, 1104-1273)

Definitions of `Gp.lean`. Nothing in gpr.py looks for points that are already in the training set: an evaluation of a point of the training set
is appended as one more row. What it does to the predictions, with fixed hyperparameters and preprocessors.
-/

namespace GPry.Gp

open Matrix

variable {P : Type*} {n m : Type*} [Fintype n] [DecidableEq n] [Fintype m] [DecidableEq m]

/-- Several evaluations of one point: values and noise levels. -/
def many (e : P) (y noise : m → ℝ) : Raw m P := ⟨fun _ => e, y, noise⟩

/-- The noise level of one evaluation as precise as all of them: the inverse variances add up. -/
noncomputable def together (noise : m → ℝ) : ℝ := Real.sqrt (1 / ∑ i, 1 / noise i ^ 2)

/-- Mean of the values weighted with the inverse variances. -/
noncomputable def weighted (y noise : m → ℝ) : ℝ := (∑ i, y i / noise i ^ 2) / ∑ i, 1 / noise i ^ 2

theorem prec_pos [Nonempty m] {noise : m → ℝ} (h0 : ∀ i, noise i ≠ 0) : 0 < ∑ i, 1 / noise i ^ 2 :=
  Finset.sum_pos (fun i _ => by have := h0 i; positivity) Finset.univ_nonempty

theorem together_sq [Nonempty m] {noise : m → ℝ} (h0 : ∀ i, noise i ≠ 0) : together noise ^ 2 = 1 / ∑ i, 1 / noise i ^ 2 := by
  unfold together
  exact Real.sq_sqrt (one_div_nonneg.2 (prec_pos h0).le)

/-- The kernel matrix with several evaluations of one point. -/
theorem kmat_many (M : Model P) (hk : ∀ x y, M.k x y = M.k y x) (R : Raw n P) (e : P) (y noise : m → ℝ) (v : n → ℝ) (t : m → ℝ) :
    (M.data (R.append (many e y noise))).kmat M.k *ᵥ Sum.elim v t =
      Sum.elim ((M.data R).kmat M.k *ᵥ v + (∑ l, t l) • (M.data R).kTrans M.k (M.trX e))
        fun l => (M.data R).kTrans M.k (M.trX e) ⬝ᵥ v + M.k (M.trX e) (M.trX e) * (∑ l, t l) + (noise l / M.s) ^ 2 * t l := by
  funext i
  unfold Data.kmat
  rw [add_mulVec, Pi.add_apply, mulVec_diagonal]
  cases i with
  | inl i =>
    simp only [Sum.elim_inl, Pi.add_apply, add_mulVec, mulVec_diagonal, Pi.smul_apply, smul_eq_mul]
    have : (Matrix.of (fun i j => M.k ((M.data (R.append (many e y noise))).X i) ((M.data (R.append (many e y noise))).X j)) *ᵥ Sum.elim v t) (Sum.inl i) =
        (Matrix.of (fun i j => M.k ((M.data R).X i) ((M.data R).X j)) *ᵥ v) i + ∑ l, M.k (M.trX (R.X i)) (M.trX e) * t l := by
      show ∑ j, _ = _
      rw [Fintype.sum_sum_type]
      rfl
    rw [this, ← Finset.mul_sum]
    have h1 : (M.data (R.append (many e y noise))).var (Sum.inl i) = (M.data R).var i := rfl
    have h2 : (M.data R).kTrans M.k (M.trX e) i = M.k (M.trX (R.X i)) (M.trX e) := hk _ _
    rw [h1, h2]
    ring
  | inr i =>
    simp only [Sum.elim_inr]
    have : (Matrix.of (fun i j => M.k ((M.data (R.append (many e y noise))).X i) ((M.data (R.append (many e y noise))).X j)) *ᵥ Sum.elim v t) (Sum.inr i) =
        (M.data R).kTrans M.k (M.trX e) ⬝ᵥ v + ∑ l, M.k (M.trX e) (M.trX e) * t l := by
      show ∑ j, _ = _
      rw [Fintype.sum_sum_type]
      rfl
    rw [this, ← Finset.mul_sum]
    rfl

section
variable {chol : Matrix (n ⊕ Unit) (n ⊕ Unit) ℝ → Matrix (n ⊕ Unit) (n ⊕ Unit) ℝ} {chol' : Matrix (n ⊕ m) (n ⊕ m) ℝ → Matrix (n ⊕ m) (n ⊕ m) ℝ}

/-- Solutions with the larger matrix from those with the smaller one: any quadratic form of vectors that do not tell the evaluations apart. -/
theorem many_dot [Nonempty m] (M : Model P) (hk : ∀ x y, M.k x y = M.k y x) (hs : M.s ≠ 0) (R : Raw n P) (e : P) (y noise : m → ℝ) (y1 : ℝ)
    (h0 : ∀ i, noise i ≠ 0)
    (hu : IsUnit ((M.data (R.append (one e y1 (together noise)))).kmat M.k).det)
    (hu' : IsUnit ((M.data (R.append (many e y noise))).kmat M.k).det) (p a : n → ℝ) (q : m → ℝ) (c : ℝ) :
    (Sum.elim a fun _ : m => c) ⬝ᵥ (((M.data (R.append (many e y noise))).kmat M.k)⁻¹ *ᵥ Sum.elim p q) =
      (Sum.elim a fun _ : Unit => c) ⬝ᵥ (((M.data (R.append (one e y1 (together noise)))).kmat M.k)⁻¹ *ᵥ Sum.elim p fun _ => weighted q noise) := by
  obtain ⟨w, hw⟩ : ∃ w, w = ((M.data (R.append (one e y1 (together noise)))).kmat M.k)⁻¹ *ᵥ Sum.elim p fun _ => weighted q noise := ⟨_, rfl⟩
  have hw' : (M.data (R.append (one e y1 (together noise)))).kmat M.k *ᵥ w = Sum.elim p fun _ => weighted q noise := by
    rw [hw, mulVec_mulVec, mul_nonsing_inv _ hu, one_mulVec]
  rw [← hw]
  obtain ⟨v, t, rfl⟩ : ∃ v t, w = Sum.elim v fun _ : Unit => t := ⟨w ∘ Sum.inl, w (Sum.inr ()), by funext i; cases i <;> rfl⟩
  rw [kmat_one M hk] at hw'
  have h1 : (M.data R).kmat M.k *ᵥ v + t • (M.data R).kTrans M.k (M.trX e) = p := by
    funext i; exact congrFun hw' (Sum.inl i)
  have h2 : (M.data R).kTrans M.k (M.trX e) ⬝ᵥ v + (M.k (M.trX e) (M.trX e) + (together noise / M.s) ^ 2) * t = weighted q noise :=
    congrFun hw' (Sum.inr ())
  have hP := prec_pos h0
  obtain ⟨S, hS⟩ : ∃ S, S = ∑ i, 1 / noise i ^ 2 := ⟨_, rfl⟩
  rw [← hS] at hP
  have hT : (together noise / M.s) ^ 2 = 1 / (S * M.s ^ 2) := by
    rw [div_pow, together_sq h0, ← hS]; field_simp
  rw [hT] at h2
  obtain ⟨f, hf⟩ : ∃ f, f = (M.data R).kTrans M.k (M.trX e) ⬝ᵥ v + M.k (M.trX e) (M.trX e) * t := ⟨_, rfl⟩
  have hsum : ∑ l, (q l - f) / (noise l / M.s) ^ 2 = t := by
    have e1 : ∀ l, (q l - f) / (noise l / M.s) ^ 2 = M.s ^ 2 * (q l / noise l ^ 2) - M.s ^ 2 * f * (1 / noise l ^ 2) := by
      intro l
      have := h0 l
      field_simp
    rw [Finset.sum_congr rfl fun l _ => e1 l, Finset.sum_sub_distrib, ← Finset.mul_sum, ← Finset.mul_sum, ← hS]
    unfold weighted at h2
    rw [← hS] at h2
    have h3 : f + 1 / (S * M.s ^ 2) * t = (∑ i, q i / noise i ^ 2) / S := by rw [hf, ← h2]; ring
    have h4 : ∑ i, q i / noise i ^ 2 = S * f + t / M.s ^ 2 := by
      rw [eq_div_iff hP.ne'] at h3
      rw [← h3]
      field_simp
    rw [h4]
    field_simp
    ring
  have hsol : (M.data (R.append (many e y noise))).kmat M.k *ᵥ Sum.elim v (fun l => (q l - f) / (noise l / M.s) ^ 2) = Sum.elim p q := by
    rw [kmat_many M hk, hsum, h1]
    congr 1
    funext l
    rw [← hf, mul_div_cancel₀ _ (pow_ne_zero 2 (div_ne_zero (h0 l) hs))]
    ring
  rw [← hsol, mulVec_mulVec, nonsing_inv_mul _ hu', one_mulVec]
  show ∑ i, _ = ∑ i, _
  rw [Fintype.sum_sum_type, Fintype.sum_sum_type]
  simp only [Sum.elim_inl, Sum.elim_inr, ← Finset.mul_sum, hsum]
  simp

theorem weighted_const [Nonempty m] {noise : m → ℝ} (h0 : ∀ i, noise i ≠ 0) (c : ℝ) : weighted (fun _ => c) noise = c := by
  have := prec_pos h0
  unfold weighted
  rw [div_eq_iff this.ne', Finset.mul_sum]
  exact Finset.sum_congr rfl fun i _ => by ring

theorem weighted_affine [Nonempty m] {noise : m → ℝ} (h0 : ∀ i, noise i ≠ 0) (y : m → ℝ) (u s : ℝ) :
    weighted (fun i => (y i - u) / s) noise = (weighted y noise - u) / s := by
  have := prec_pos h0
  unfold weighted
  have e : ∑ i, (y i - u) / s / noise i ^ 2 = (∑ i, y i / noise i ^ 2 - u * ∑ i, 1 / noise i ^ 2) / s := by
    rw [Finset.mul_sum, ← Finset.sum_sub_distrib, Finset.sum_div]
    exact Finset.sum_congr rfl fun i _ => by ring
  rw [e]
  field_simp

/-- **C153**: evaluations of one point with values `y i` and noise levels `noise i` give the same predictions everywhere as one evaluation with the mean of the values
weighted with the inverse variances, whose inverse variance is the sum of the inverse variances. -/
theorem C153_repeated [Nonempty m] (M : Model P) (hK : IsKernel M.k) (hs : 0 < M.s) (R : Raw n P) (e : P) (y noise : m → ℝ)
    (h0 : ∀ i, noise i ≠ 0) (s : ℝ) (hn : 1 / s ^ 2 = ∑ i, 1 / noise i ^ 2) (v : ℝ) (hv : v / s ^ 2 = ∑ i, y i / noise i ^ 2)
    (hc : IsFactor ((M.data (R.append (one e v s))).kmat M.k) (chol ((M.data (R.append (one e v s))).kmat M.k)))
    (hc' : IsFactor ((M.data (R.append (many e y noise))).kmat M.k) (chol' ((M.data (R.append (many e y noise))).kmat M.k))) (x : P) :
    M.mean chol' (R.append (many e y noise)) x = M.mean chol (R.append (one e v s)) x ∧
    M.std chol' (R.append (many e y noise)) x = M.std chol (R.append (one e v s)) x := by
  have hP := prec_pos h0
  have hs0 : s ^ 2 = together noise ^ 2 := by rw [together_sq h0, ← hn, one_div_one_div]
  have hsne : s ^ 2 ≠ 0 := by rw [hs0, together_sq h0]; positivity
  have hv' : v = weighted y noise := by
    unfold weighted
    rw [← hv, ← hn, div_div_div_cancel_right₀ hsne, div_one]
  have hkm : (M.data (R.append (one e v s))).kmat M.k = (M.data (R.append (one e v (together noise)))).kmat M.k := by
    unfold Data.kmat
    congr 2
    funext i
    cases i with
    | inl i => rfl
    | inr i =>
      show (s / M.s) ^ 2 = (together noise / M.s) ^ 2
      rw [div_pow, div_pow, hs0]
  have hu := isUnit_kmat hc
  have hu' := isUnit_kmat hc'
  rw [hkm] at hu
  have hkt : (M.data (R.append (many e y noise))).kTrans M.k (M.trX x) = Sum.elim ((M.data R).kTrans M.k (M.trX x)) fun _ => M.k (M.trX x) (M.trX e) := by
    funext i; cases i <;> rfl
  have hy : (M.data (R.append (many e y noise))).y = Sum.elim (M.data R).y fun i => (y i - M.mu) / M.s := by
    funext i; cases i <;> rfl
  have hy1 : (M.data (R.append (one e v s))).y = Sum.elim (M.data R).y fun _ => (v - M.mu) / M.s := by
    funext i; cases i <;> rfl
  constructor
  · unfold Model.mean Data.mean
    rw [update_alpha hc', update_alpha hc, hkm, hkt, hy, hy1, kTrans_one, many_dot M hK.symm hs.ne' R e y noise v h0 hu hu', weighted_affine h0, hv']
  · unfold Model.std Data.std
    dsimp only
    rw [rawVar_eq hc', rawVar_eq hc, hkm, kTrans_one, hkt, many_dot M hK.symm hs.ne' R e y noise v h0 hu hu', weighted_const h0]

/-- The matrix with one evaluation as precise as all of them is positive definite if that with all of them is. -/
theorem posDef_one_of_many [Nonempty m] (M : Model P) (hk : ∀ x y, M.k x y = M.k y x) (R : Raw n P) (e : P) (y : m → ℝ) (s v : ℝ)
    (hp : ((M.data (R.append (many e y fun _ => s))).kmat M.k).PosDef) :
    ((M.data (R.append (one e v (s / Real.sqrt (Fintype.card m))))).kmat M.k).PosDef := by
  have hN : (0 : ℝ) < Fintype.card m := by exact_mod_cast Fintype.card_pos
  refine PosDef.of_dotProduct_mulVec_pos ?_ fun w hw => ?_
  · show _ᴴ = _
    rw [conjTranspose_eq_transpose_of_trivial, kmat_symm hk]
  obtain ⟨u, t, rfl⟩ : ∃ u t, w = Sum.elim u fun _ : Unit => t := ⟨w ∘ Sum.inl, w (Sum.inr ()), by funext i; cases i <;> rfl⟩
  have h := hp.dotProduct_mulVec_pos (x := Sum.elim u fun _ : m => t / Fintype.card m) (fun h => hw (by
    funext i
    cases i with
    | inl i => exact congrFun h (Sum.inl i)
    | inr i =>
      have := congrFun h (Sum.inr (Classical.arbitrary m))
      simp only [Sum.elim_inr, Pi.zero_apply, div_eq_zero_iff] at this ⊢
      exact this.resolve_right hN.ne'))
  rw [star_trivial] at h ⊢
  rw [kmat_many M hk] at h
  rw [kmat_one M hk, elim_dot]
  have e1 : ∑ _l : m, t / (Fintype.card m : ℝ) = t := by
    rw [Finset.sum_const, Finset.card_univ, nsmul_eq_mul]; field_simp
  rw [e1] at h
  have e2 : ∀ (a b : n → ℝ) (c d : ℝ), (Sum.elim a fun _ : m => c) ⬝ᵥ (Sum.elim b fun _ : m => d) = a ⬝ᵥ b + Fintype.card m * (c * d) := by
    intro a b c d
    show ∑ i, _ = _
    rw [Fintype.sum_sum_type]
    simp [dotProduct]
  rw [e2] at h
  refine lt_of_lt_of_eq h ?_
  congr 1
  have e3 : (s / Real.sqrt (Fintype.card m) / M.s) ^ 2 = (s / M.s) ^ 2 / Fintype.card m := by
    rw [div_pow, div_pow s, Real.sq_sqrt hN.le, div_pow]; ring
  rw [e3]
  generalize (s / M.s) ^ 2 = z
  field_simp
  ring

theorem posDef_of_append (M : Model P) (R : Raw n P) (E : Raw m P) (hp : ((M.data (R.append E)).kmat M.k).PosDef) :
    ((M.data R).kmat M.k).PosDef := by
  have h := hp.submatrix (Sum.inl_injective (α := n) (β := m))
  have e : ((M.data (R.append E)).kmat M.k).submatrix Sum.inl Sum.inl = (M.data R).kmat M.k := by
    unfold Data.kmat
    ext i j
    simp only [submatrix_apply, Matrix.add_apply]
    congr 1
    by_cases h : i = j
    · subst h; rw [diagonal_apply_eq, diagonal_apply_eq]; rfl
    · rw [diagonal_apply_ne _ h, diagonal_apply_ne _ (fun h' => h (Sum.inl_injective h'))]
  rwa [e] at h

/-- **C153**: with `N` evaluations of one point with noise level `s` the variance and the mean there, from those without them: the standard deviation is at most
`s / √N`, however large it was, and the weight of the mean of the values grows with `N`. -/
theorem C153_same_noise [Nonempty m] {chol0 : Matrix n n ℝ → Matrix n n ℝ} (M : Model P) (hK : IsKernel M.k) (hs : 0 < M.s) (R : Raw n P) (e : P) (y : m → ℝ) (s : ℝ)
    (h0 : 0 < s) (hp : ((M.data (R.append (many e y fun _ => s))).kmat M.k).PosDef)
    (hc0 : IsFactor ((M.data R).kmat M.k) (chol0 ((M.data R).kmat M.k)))
    (hc' : IsFactor ((M.data (R.append (many e y fun _ => s))).kmat M.k) (chol' ((M.data (R.append (many e y fun _ => s))).kmat M.k))) :
    M.std chol' (R.append (many e y fun _ => s)) e ^ 2 =
      M.std chol0 R e ^ 2 * s ^ 2 / (Fintype.card m * M.std chol0 R e ^ 2 + s ^ 2) ∧
    M.std chol' (R.append (many e y fun _ => s)) e ≤ s / Real.sqrt (Fintype.card m) ∧
    M.mean chol' (R.append (many e y fun _ => s)) e =
      (s ^ 2 * M.mean chol0 R e + M.std chol0 R e ^ 2 * ∑ i, y i) / (Fintype.card m * M.std chol0 R e ^ 2 + s ^ 2) := by
  have hN : (0 : ℝ) < Fintype.card m := by exact_mod_cast Fintype.card_pos
  have hq : (s / Real.sqrt (Fintype.card m)) ^ 2 = s ^ 2 / Fintype.card m := by rw [div_pow, Real.sq_sqrt hN.le]
  have hp0 := posDef_of_append M R _ hp
  have hp1 := posDef_one_of_many M hK.symm R e y s ((∑ i, y i) / Fintype.card m) hp
  have hc := exChol_isFactor hp1
  have h := C153_repeated (chol := exChol) (chol' := chol') M hK hs R e y (fun _ => s) (fun _ => h0.ne') (s / Real.sqrt (Fintype.card m))
    (by rw [hq, Finset.sum_const, Finset.card_univ, nsmul_eq_mul]; field_simp) ((∑ i, y i) / Fintype.card m)
    (by rw [hq, ← Finset.sum_div]; field_simp) hc hc' e
  have hv := C142_variance M hK hs R e ((∑ i, y i) / Fintype.card m) (s / Real.sqrt (Fintype.card m)) hp0 hc0 hp1 hc e
  have hm := C142_mean M hK hs R e ((∑ i, y i) / Fintype.card m) (s / Real.sqrt (Fintype.card m)) hp0 hc0 hc e
  rw [cov_self M hK R hp0 hc0, hq] at hv hm
  rw [h.1, h.2]
  have hB : 0 ≤ M.std chol0 R e ^ 2 := sq_nonneg _
  obtain ⟨B, hB'⟩ : ∃ B, B = M.std chol0 R e ^ 2 := ⟨_, rfl⟩
  rw [← hB'] at hv hm hB ⊢
  have hD : 0 < Fintype.card m * B + s ^ 2 := by positivity
  have hD2 : 0 < B + s ^ 2 / Fintype.card m := by positivity
  have hE : B + s ^ 2 / (Fintype.card m : ℝ) = (Fintype.card m * B + s ^ 2) / Fintype.card m := by field_simp
  have h1 : M.std exChol (R.append (one e ((∑ i, y i) / Fintype.card m) (s / Real.sqrt (Fintype.card m)))) e ^ 2 =
      B * s ^ 2 / (Fintype.card m * B + s ^ 2) := by
    rw [hv, hE]
    field_simp
    ring
  refine ⟨h1, ?_, ?_⟩
  · refine le_of_sq_le_sq ?_ (by positivity)
    rw [h1, hq, div_le_div_iff₀ hD hN]
    nlinarith [mul_nonneg hB (sq_nonneg s), pow_pos h0 2, mul_pos (pow_pos h0 2) (pow_pos h0 2)]
  · rw [hm, hE]
    field_simp
    ring

end

/-- **C153**: without noise the same point cannot be in the training set twice: the kernel matrix has no factorisation (`scipy.linalg.cholesky` raises). -/
theorem C153_no_noise (M : Model P) (R : Raw n P) (i j : n) (hij : i ≠ j) (hX : M.trX (R.X i) = M.trX (R.X j)) (hi : R.noise i = 0)
    (hj : R.noise j = 0) : ¬ ∃ L, IsFactor ((M.data R).kmat M.k) L := by
  rintro ⟨L, hL⟩
  have hu := isUnit_kmat (chol := fun _ => L) hL
  refine hu.ne_zero (det_zero_of_row_eq hij ?_)
  have hrow : ∀ i, R.noise i = 0 → (M.data R).kmat M.k i = fun l => M.k (M.trX (R.X i)) (M.trX (R.X l)) := by
    intro i hi
    funext l
    unfold Data.kmat
    rw [Matrix.add_apply]
    by_cases h : i = l
    · subst h
      rw [diagonal_apply_eq]
      show M.k _ _ + (R.noise i / M.s) ^ 2 = _
      rw [hi]
      simp
      rfl
    · rw [diagonal_apply_ne _ h, add_zero]
      rfl
  rw [hrow i hi, hrow j hj, hX]

theorem ex_many_posDef (y : Fin 4 → ℝ) : ((exM.data (exR.append (many 4 y fun _ => 2))).kmat exM.k).PosDef := by
  apply linK_isKernel.kmat_posDef
  intro i
  cases i <;> norm_num [Model.data, exM, Raw.append, exR, many]

theorem ex_one_posDef (y : ℝ) : ((exM.data (exR.append (one 4 y 1))).kmat exM.k).PosDef := by
  apply linK_isKernel.kmat_posDef
  intro i
  cases i <;> norm_num [Model.data, exM, Raw.append, exR, one]

/-- C153: four evaluations at 4 with noise 2 and values 3, 4, 6, 7 are one evaluation with value 5 and noise 1. -/
example (x : ℝ) : exM.mean exChol (exR.append (many 4 ![3, 4, 6, 7] fun _ => 2)) x = exM.mean exChol (exR.append (one 4 5 1)) x ∧
    exM.std exChol (exR.append (many 4 ![3, 4, 6, 7] fun _ => 2)) x = exM.std exChol (exR.append (one 4 5 1)) x :=
  C153_repeated exM linK_isKernel (by norm_num [exM]) exR 4 ![3, 4, 6, 7] (fun _ => 2) (fun _ => by norm_num) 1 (by norm_num [Fin.sum_univ_four]) 5
    (by simp [Fin.sum_univ_four]; norm_num) (exChol_isFactor (ex_one_posDef 5)) (exChol_isFactor (ex_many_posDef _)) x

/-- C153: 2 was predicted there with variance 8; 8/9 is the variance with the four evaluations. -/
example : exM.std exChol (exR.append (many 4 ![3, 4, 6, 7] fun _ => 2)) 4 ^ 2 = 8 / 9 ∧
    exM.mean exChol (exR.append (many 4 ![3, 4, 6, 7] fun _ => 2)) 4 = 14 / 3 := by
  have h := C153_same_noise (chol0 := exChol) (chol' := exChol) exM linK_isKernel (by norm_num [exM]) exR 4 ![3, 4, 6, 7] 2 (by norm_num) (ex_many_posDef _)
    (exChol_isFactor exR_posDef) (exChol_isFactor (ex_many_posDef _))
  rw [exR_std_sq, exR_mean] at h
  refine ⟨h.1.trans (by norm_num), h.2.2.trans (by simp [Fin.sum_univ_four]; norm_num)⟩

/-- C153: the point 4 twice, without noise. -/
example : ¬ ∃ L, IsFactor ((exM.data (exR.append (many 4 (fun _ : Fin 2 => 5) fun _ => 0))).kmat exM.k) L :=
  C153_no_noise exM _ (Sum.inr 0) (Sum.inr 1) (by decide) rfl rfl rfl

end GPry.Gp
