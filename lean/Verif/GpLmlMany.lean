import Verif.GpLml
import Mathlib.Logic.Equiv.Fin.Basic

set_option linter.all false

/-!
# Any number of evaluations of one point, and the fit (gpry/gpr.py:875-881, 935-989)

`C154_repeated` (`GpLml.lean`) for any number of evaluations, by induction on it. Definitions of `Gp.lean`, `GpRepeat.lean`, `GpLml.lean`.
-/

namespace GPry.Gp

open Matrix

variable {P : Type*} {n m : Type*} [Fintype n] [DecidableEq n] [Fintype m] [DecidableEq m]

theorem lmlDet_reorder (M : Model P) (R : Raw n P) (f : m ≃ n) : lmlDet M.k (M.data (R.reorder f)) = lmlDet M.k (M.data R) := by
  have hy : (M.data (R.reorder f)).y = (M.data R).y ∘ f := rfl
  unfold lmlDet
  rw [kmat_reorder, hy, inv_reorder, det_submatrix_equiv_self, Fintype.card_congr f]

theorem posDef_reorder (M : Model P) (R : Raw n P) (f : m ≃ n) (h : ((M.data R).kmat M.k).PosDef) : ((M.data (R.reorder f)).kmat M.k).PosDef := by
  rw [kmat_reorder]
  exact h.submatrix f.injective

/-- Points with noise do not spoil the matrix. -/
theorem posDef_append (M : Model P) (hK : IsKernel M.k) (hs : 0 < M.s) (R : Raw n P) (E : Raw m P) (hE : ∀ i, E.noise i ≠ 0)
    (hp : ((M.data R).kmat M.k).PosDef) : ((M.data (R.append E)).kmat M.k).PosDef := by
  have hps := hK.posSemidef (M.data (R.append E)).X
  refine PosDef.of_dotProduct_mulVec_pos ?_ fun w hw => ?_
  · show _ᴴ = _
    rw [conjTranspose_eq_transpose_of_trivial, kmat_symm hK.symm]
  rw [star_trivial]
  obtain ⟨u, t, rfl⟩ : ∃ u t, w = Sum.elim u t := ⟨w ∘ Sum.inl, w ∘ Sum.inr, by funext i; cases i <;> rfl⟩
  have h0 := hps.dotProduct_mulVec_nonneg (Sum.elim u t)
  rw [star_trivial] at h0
  have hd : Sum.elim u t ⬝ᵥ ((M.data (R.append E)).kmat M.k *ᵥ Sum.elim u t) =
      Sum.elim u t ⬝ᵥ (Matrix.of (fun i j => M.k ((M.data (R.append E)).X i) ((M.data (R.append E)).X j)) *ᵥ Sum.elim u t) +
        (∑ i, (R.noise i / M.s) ^ 2 * u i ^ 2 + ∑ i, (E.noise i / M.s) ^ 2 * t i ^ 2) := by
    unfold Data.kmat
    rw [add_mulVec, dotProduct_add]
    congr 1
    show ∑ i, _ = _
    rw [Fintype.sum_sum_type]
    congr 1 <;> refine Finset.sum_congr rfl fun i _ => ?_
    · rw [mulVec_diagonal]
      show u i * ((R.noise i / M.s) ^ 2 * u i) = _
      ring
    · rw [mulVec_diagonal]
      show t i * ((E.noise i / M.s) ^ 2 * t i) = _
      ring
  by_cases ht : t = 0
  · subst ht
    have hu : u ≠ 0 := fun h => hw (by subst h; funext i; cases i <;> rfl)
    have h1 := hp.dotProduct_mulVec_pos hu
    rw [star_trivial] at h1
    refine lt_of_lt_of_eq h1 ?_
    rw [hd]
    unfold Data.kmat
    rw [add_mulVec, dotProduct_add]
    congr 1
    · show ∑ i, _ = ∑ i, _
      rw [Fintype.sum_sum_type]
      simp only [Sum.elim_inl, Sum.elim_inr, Pi.zero_apply, zero_mul, Finset.sum_const_zero, add_zero]
      refine Finset.sum_congr rfl fun i _ => ?_
      congr 1
      show ∑ j, _ = ∑ j, _
      rw [Fintype.sum_sum_type]
      simp only [Sum.elim_inl, Sum.elim_inr, Pi.zero_apply, mul_zero, Finset.sum_const_zero, add_zero]
      rfl
    · simp only [Pi.zero_apply, ne_eq, OfNat.ofNat_ne_zero, not_false_eq_true, zero_pow, mul_zero, Finset.sum_const_zero, add_zero]
      show ∑ i, _ = _
      refine Finset.sum_congr rfl fun i _ => ?_
      rw [mulVec_diagonal]
      show u i * ((R.noise i / M.s) ^ 2 * u i) = _
      ring
  · obtain ⟨i, hi⟩ : ∃ i, t i ≠ 0 := by
      by_contra h
      exact ht (funext fun i => by by_contra h'; exact h ⟨i, h'⟩)
    have h1 : 0 < ∑ i, (E.noise i / M.s) ^ 2 * t i ^ 2 :=
      Finset.sum_pos' (fun i _ => by positivity) ⟨i, Finset.mem_univ _, by have := hE i; positivity⟩
    have h2 : 0 ≤ ∑ i, (R.noise i / M.s) ^ 2 * u i ^ 2 := Finset.sum_nonneg fun i _ => by positivity
    rw [hd]
    have h0' : 0 ≤ Sum.elim u t ⬝ᵥ (Matrix.of (fun i j => M.k ((M.data (R.append E)).X i) ((M.data (R.append E)).X j)) *ᵥ Sum.elim u t) := h0
    linarith

/-- The evaluations of one point that come before the last one, and the last one. -/
theorem many_last (R : Raw n P) (e : P) (k : ℕ) (y noise : Fin (k + 1) → ℝ) :
    ∃ f : (n ⊕ Fin k) ⊕ Unit ≃ n ⊕ Fin (k + 1), (R.append (many e y noise)).reorder f =
      (R.append (many e (fun i => y i.castSucc) fun i => noise i.castSucc)).append (one e (y (Fin.last k)) (noise (Fin.last k))) := by
  refine ⟨(Equiv.sumAssoc n (Fin k) Unit).trans (Equiv.sumCongr (Equiv.refl n) ((Equiv.optionEquivSumPUnit (Fin k)).symm.trans finSuccEquivLast.symm)), ?_⟩
  unfold Raw.reorder Raw.append
  simp only [Raw.mk.injEq]
  refine ⟨?_, ?_, ?_⟩ <;> funext i <;> rcases i with (i | i) | i <;> simp [many, one]

/-- What the evaluations of one point tell about each other. -/
noncomputable def agreement (sd : ℝ) (y noise : m → ℝ) (v s : ℝ) : ℝ :=
  (Fintype.card m - 1) * (Real.log sd - 1 / 2 * Real.log (2 * Real.pi)) - ∑ i, Real.log (noise i) + Real.log s -
    1 / 2 * (∑ i, y i ^ 2 / noise i ^ 2 - v ^ 2 / s ^ 2)

theorem many_aux (M : Model P) (hK : IsKernel M.k) (hs : 0 < M.s) (R : Raw n P) (e : P) (hp : ((M.data R).kmat M.k).PosDef) :
    ∀ (k : ℕ) (y noise : Fin (k + 1) → ℝ) (v s : ℝ), (∀ i, 0 < noise i) → 0 < s → 1 / s ^ 2 = ∑ i, 1 / noise i ^ 2 → v / s ^ 2 = ∑ i, y i / noise i ^ 2 →
      lmlDet M.k (M.data (R.append (many e y noise))) = lmlDet M.k (M.data (R.append (one e v s))) + agreement M.s y noise v s := by
  intro k
  induction k with
  | zero =>
    intro y noise v s h0 hs0 hn hv
    rw [Fin.sum_univ_one] at hn hv
    have hn0 := h0 0
    have e1 : s = noise 0 := by
      rw [one_div, one_div, _root_.inv_inj] at hn
      exact (sq_eq_sq₀ hs0.le hn0.le).1 hn
    have e2 : v = y 0 := by
      rw [e1] at hv
      exact (div_left_inj' (by positivity)).1 hv
    have hz : ∀ i : Fin (0 + 1), i = 0 := fun i => Fin.ext (by omega)
    have e3 : R.append (many e y noise) = (R.append (one e v s)).reorder (Equiv.sumCongr (Equiv.refl n) ⟨fun _ => (), fun _ => 0, fun i => (hz i).symm, fun _ => rfl⟩) := by
      unfold Raw.reorder Raw.append
      simp only [Raw.mk.injEq]
      refine ⟨?_, ?_, ?_⟩ <;> funext i <;> rcases i with i | i <;> simp [many, one, e1, e2]
      · rw [hz i]
      · rw [hz i]
    rw [e3, lmlDet_reorder]
    unfold agreement
    rw [Fin.sum_univ_one, Fin.sum_univ_one, e1, e2]
    simp
  | succ k ih =>
    intro y noise v s h0 hs0 hn hv
    obtain ⟨f, hf⟩ := many_last R e (k + 1) y noise
    rw [Fin.sum_univ_castSucc] at hn hv
    have h0' : ∀ i : Fin (k + 1), noise i.castSucc ≠ 0 := fun i => (h0 _).ne'
    have hP := prec_pos h0'
    obtain ⟨S, hS⟩ : ∃ S, S = ∑ i : Fin (k + 1), 1 / noise i.castSucc ^ 2 := ⟨_, rfl⟩
    obtain ⟨W, hW⟩ : ∃ W, W = ∑ i : Fin (k + 1), y i.castSucc / noise i.castSucc ^ 2 := ⟨_, rfl⟩
    rw [← hS] at hP hn
    rw [← hW] at hv
    obtain ⟨s', hs', hs2⟩ : ∃ s' : ℝ, 0 < s' ∧ 1 / s' ^ 2 = S :=
      ⟨Real.sqrt (1 / S), Real.sqrt_pos.2 (by positivity), by rw [Real.sq_sqrt (by positivity), one_div_one_div]⟩
    obtain ⟨v', hv'⟩ : ∃ v' : ℝ, v' / s' ^ 2 = W := ⟨W * s' ^ 2, by field_simp⟩
    have h := ih (fun i => y i.castSucc) (fun i => noise i.castSucc) v' s' (fun i => h0 _) hs' (hs2.trans hS) (hv'.trans hW)
    have pA := posDef_append M hK hs R (many e (fun i : Fin (k + 1) => y i.castSucc) fun i : Fin (k + 1) => noise i.castSucc) h0' hp
    have pB := posDef_append M hK hs R (one e v' s') (fun _ => hs'.ne') hp
    have hl : ∀ i : Unit, (one e (y (Fin.last (k + 1))) (noise (Fin.last (k + 1)))).noise i ≠ 0 := fun _ => (h0 _).ne'
    have pA' := posDef_append M hK hs _ (one e (y (Fin.last (k + 1))) (noise (Fin.last (k + 1)))) hl pA
    have pB' := posDef_append M hK hs _ (one e (y (Fin.last (k + 1))) (noise (Fin.last (k + 1)))) hl pB
    have cA := (chain_aux M hK hs _ e _ _ pA (exChol_isFactor pA) pA').2
    have cB := (chain_aux M hK hs _ e _ _ pB (exChol_isFactor pB) pB').2
    obtain ⟨g1, g2⟩ := C153_repeated (chol := exChol) (chol' := exChol) M hK hs R e (fun i : Fin (k + 1) => y i.castSucc)
      (fun i : Fin (k + 1) => noise i.castSucc) h0' s' (hs2.trans hS) v' (hv'.trans hW) (exChol_isFactor pB) (exChol_isFactor pA) e
    rw [g1, g2] at cA
    have hrep := repeated_aux M hK hs R e v' (y (Fin.last (k + 1))) s' (noise (Fin.last (k + 1))) v s hs' (h0 _)
      (by rw [hn, hs2]) (by rw [hv, hv']) (posDef_append M hK hs R (one e v s) (fun _ => hs0.ne') hp) pB'
    rw [← lmlDet_reorder M _ f, hf]
    have ht := h0 (Fin.last (k + 1))
    rw [← hs2] at hn
    rw [← hv'] at hv
    unfold agreement at h ⊢
    rw [Fin.sum_univ_castSucc (fun i => Real.log (noise i)), Fin.sum_univ_castSucc (fun i => y i ^ 2 / noise i ^ 2), Fintype.card_fin]
    rw [Fintype.card_fin] at h
    generalize noise (Fin.last (k + 1)) = t at *
    generalize y (Fin.last (k + 1)) = z at *
    have q1 : s' ^ 2 + t ^ 2 = s' ^ 2 * t ^ 2 / s ^ 2 := by
      rw [div_eq_mul_one_div, hn]
      field_simp
      ring
    have q2 : Real.log (2 * Real.pi * (s' ^ 2 + t ^ 2)) = Real.log (2 * Real.pi) + 2 * Real.log s' + 2 * Real.log t - 2 * Real.log s := by
      rw [Real.log_mul (x := 2 * Real.pi) (by positivity) (by positivity), q1, Real.log_div (by positivity) (by positivity), Real.log_mul (x := s' ^ 2) (by positivity) (by positivity),
        Real.log_pow, Real.log_pow, Real.log_pow]
      push_cast
      ring
    have q3 : (v' - z) ^ 2 / (s' ^ 2 + t ^ 2) = v' ^ 2 / s' ^ 2 + z ^ 2 / t ^ 2 - v ^ 2 / s ^ 2 := by
      have w1 : v ^ 2 / s ^ 2 = (v / s ^ 2) ^ 2 * s ^ 2 := by field_simp
      have w2 : s ^ 2 = s' ^ 2 * t ^ 2 / (s' ^ 2 + t ^ 2) := by rw [q1]; field_simp
      rw [w1, hv, w2]
      field_simp
      ring
    have q4 : (v' - z) ^ 2 / (2 * (s' ^ 2 + t ^ 2)) = 1 / 2 * ((v' - z) ^ 2 / (s' ^ 2 + t ^ 2)) := by
      field_simp
    rw [q4, q3, q2] at hrep
    push_cast at h ⊢
    linear_combination cA - cB + h + hrep

/-- **C154**: any number of evaluations of one point, and one with the mean of their values weighted with the inverse variances and the sum of these: the difference
is a function of their values and noise levels alone (and of the scale of the values), neither of the kernel nor of the rest of the training set. -/
theorem C154_many [Nonempty m] {chol : Matrix (n ⊕ Unit) (n ⊕ Unit) ℝ → Matrix (n ⊕ Unit) (n ⊕ Unit) ℝ} {chol' : Matrix (n ⊕ m) (n ⊕ m) ℝ → Matrix (n ⊕ m) (n ⊕ m) ℝ}
    (M : Model P) (hK : IsKernel M.k) (hs : 0 < M.s) (R : Raw n P) (e : P) (y noise : m → ℝ) (v s : ℝ) (h0 : ∀ i, 0 < noise i) (hs0 : 0 < s)
    (hn : 1 / s ^ 2 = ∑ i, 1 / noise i ^ 2) (hv : v / s ^ 2 = ∑ i, y i / noise i ^ 2)
    (hc : IsChol ((M.data (R.append (one e v s))).kmat M.k) (chol ((M.data (R.append (one e v s))).kmat M.k)))
    (hc' : IsChol ((M.data (R.append (many e y noise))).kmat M.k) (chol' ((M.data (R.append (many e y noise))).kmat M.k))) :
    M.lml chol' (R.append (many e y noise)) = M.lml chol (R.append (one e v s)) +
      ((Fintype.card m - 1) * (Real.log M.s - 1 / 2 * Real.log (2 * Real.pi)) - ∑ i, Real.log (noise i) + Real.log s -
        1 / 2 * (∑ i, y i ^ 2 / noise i ^ 2 - v ^ 2 / s ^ 2)) := by
  have hc1 : M.lml chol' (R.append (many e y noise)) = lmlDet M.k (M.data (R.append (many e y noise))) := lml_eq hc'
  have hc2 : M.lml chol (R.append (one e v s)) = lmlDet M.k (M.data (R.append (one e v s))) := lml_eq hc
  rw [hc1, hc2]
  obtain ⟨k, hk⟩ : ∃ k, Fintype.card m = k + 1 := ⟨Fintype.card m - 1, by have := Fintype.card_pos (α := m); omega⟩
  let g : Fin (k + 1) ≃ m := (Fintype.equivFinOfCardEq hk).symm
  have e3 : (R.append (many e y noise)).reorder (Equiv.sumCongr (Equiv.refl n) g) = R.append (many e (y ∘ g) (noise ∘ g)) := by
    unfold Raw.reorder Raw.append
    simp only [Raw.mk.injEq]
    refine ⟨?_, ?_, ?_⟩ <;> funext i <;> rcases i with i | i <;> simp [many]
  rw [← lmlDet_reorder M _ (Equiv.sumCongr (Equiv.refl n) g), e3]
  have := many_aux M hK hs R e (posDef_of_append M _ _ hc.isFactor.posDef) k (y ∘ g) (noise ∘ g) v s (fun i => h0 _) hs0
    (hn.trans (Equiv.sum_comp g fun i => 1 / noise i ^ 2).symm) (hv.trans (Equiv.sum_comp g fun i => y i / noise i ^ 2).symm)
  rw [this]
  congr 1
  unfold agreement
  rw [Fintype.card_fin, hk]
  have s1 : ∑ i, Real.log ((noise ∘ g) i) = ∑ i, Real.log (noise i) := Equiv.sum_comp g fun i => Real.log (noise i)
  have s2 : ∑ i, (y ∘ g) i ^ 2 / (noise ∘ g) i ^ 2 = ∑ i, y i ^ 2 / noise i ^ 2 := Equiv.sum_comp g fun i => y i ^ 2 / noise i ^ 2
  rw [s1, s2]

/-- **C154**: so of any two kernels the fit prefers the same one. -/
theorem C154_many_fit [Nonempty m] {chol : Matrix (n ⊕ Unit) (n ⊕ Unit) ℝ → Matrix (n ⊕ Unit) (n ⊕ Unit) ℝ} {chol' : Matrix (n ⊕ m) (n ⊕ m) ℝ → Matrix (n ⊕ m) (n ⊕ m) ℝ}
    {T : Type*} (kern : T → P → P → ℝ) (trX : P → P) (mu sd : ℝ) (hK : ∀ t, IsKernel (kern t)) (hs : 0 < sd) (R : Raw n P) (e : P)
    (y noise : m → ℝ) (v s : ℝ) (h0 : ∀ i, 0 < noise i) (hs0 : 0 < s)
    (hn : 1 / s ^ 2 = ∑ i, 1 / noise i ^ 2) (hv : v / s ^ 2 = ∑ i, y i / noise i ^ 2)
    (hc : ∀ K : Matrix (n ⊕ Unit) (n ⊕ Unit) ℝ, K.PosDef → IsChol K (chol K))
    (hc' : ∀ K : Matrix (n ⊕ m) (n ⊕ m) ℝ, K.PosDef → IsChol K (chol' K)) (hR : ∀ i, R.noise i ≠ 0) (t t' : T) :
    Model.lml chol' ⟨kern t, trX, mu, sd⟩ (R.append (many e y noise)) ≤ Model.lml chol' ⟨kern t', trX, mu, sd⟩ (R.append (many e y noise)) ↔
      Model.lml chol ⟨kern t, trX, mu, sd⟩ (R.append (one e v s)) ≤ Model.lml chol ⟨kern t', trX, mu, sd⟩ (R.append (one e v s)) := by
  have key : ∀ t, _ := fun t => C154_many ⟨kern t, trX, mu, sd⟩ (hK t) hs R e y noise v s h0 hs0 hn hv
    (hc _ ((hK t).kmat_posDef _ (by
      rintro (i | i)
      · have := hR i; show 0 < (R.noise i / sd) ^ 2; positivity
      · show 0 < (s / sd) ^ 2; positivity)))
    (hc' _ ((hK t).kmat_posDef _ (by
      rintro (i | i)
      · have := hR i; show 0 < (R.noise i / sd) ^ 2; positivity
      · have := h0 i; show 0 < (noise i / sd) ^ 2; positivity)))
  rw [key t, key t']
  constructor <;> intro h <;> linarith

/-- The first `k` of a sequence of evaluations (point, value, noise level). -/
def first (q : ℕ → P × ℝ × ℝ) (k : ℕ) : Raw (Fin k) P := ⟨fun i => (q i).1, fun i => (q i).2.1, fun i => (q i).2.2⟩

theorem first_succ (q : ℕ → P × ℝ × ℝ) (k : ℕ) :
    ∃ f : Fin k ⊕ Unit ≃ Fin (k + 1), (first q (k + 1)).reorder f = (first q k).append (one (q k).1 (q k).2.1 (q k).2.2) := by
  refine ⟨(Equiv.optionEquivSumPUnit (Fin k)).symm.trans finSuccEquivLast.symm, ?_⟩
  unfold Raw.reorder Raw.append first
  simp only [Raw.mk.injEq]
  refine ⟨?_, ?_, ?_⟩ <;> funext i <;> rcases i with i | i <;> simp [one]

/-- **C154**: what the fit maximises is the sum, over the evaluations in the order in which they were made, of the logarithm of the density of each value that the
regressor predicted from those before it. -/
theorem C154_sum (chol : ∀ k, Matrix (Fin k) (Fin k) ℝ → Matrix (Fin k) (Fin k) ℝ) (hc : ∀ k (K : Matrix (Fin k) (Fin k) ℝ), K.PosDef → IsChol K (chol k K))
    (M : Model P) (hK : IsKernel M.k) (hs : 0 < M.s) (q : ℕ → P × ℝ × ℝ) (h0 : ∀ i, (q i).2.2 ≠ 0) (k : ℕ) :
    M.lml (chol k) (first q k) = ∑ i ∈ Finset.range k, (Real.log M.s +
      Real.log (1 / Real.sqrt (2 * Real.pi * (M.std (chol i) (first q i) (q i).1 ^ 2 + (q i).2.2 ^ 2)) *
        Real.exp (-((q i).2.1 - M.mean (chol i) (first q i) (q i).1) ^ 2 / (2 * (M.std (chol i) (first q i) (q i).1 ^ 2 + (q i).2.2 ^ 2))))) := by
  have hp : ∀ k, ((M.data (first q k)).kmat M.k).PosDef := fun k => hK.kmat_posDef _ fun i => by
    have := h0 i
    show 0 < ((q i).2.2 / M.s) ^ 2
    positivity
  have hl : ∀ k, M.lml (chol k) (first q k) = lmlDet M.k (M.data (first q k)) := fun k => lml_eq (hc k _ (hp k))
  induction k with
  | zero =>
    rw [hl, Finset.sum_range_zero]
    unfold lmlDet
    simp
  | succ k ih =>
    obtain ⟨f, hf⟩ := first_succ q k
    have hp' : ((M.data ((first q k).append (one (q k).1 (q k).2.1 (q k).2.2))).kmat M.k).PosDef := by
      rw [← hf]
      exact posDef_reorder M _ f (hp (k + 1))
    obtain ⟨hpos, h⟩ := chain_aux M hK hs (first q k) (q k).1 (q k).2.1 (q k).2.2 (hp k) (hc k _ (hp k)).isFactor hp'
    rw [Finset.sum_range_succ, ← ih, hl k, hl (k + 1), ← lmlDet_reorder M _ f, hf, h,
      Real.log_mul (by positivity) (Real.exp_ne_zero _), Real.log_exp, Real.log_div one_ne_zero (by positivity), Real.log_one, Real.log_sqrt (by positivity)]
    ring

/-! ## Examples -/

/-- The decomposition of matrices whose rows are counted in another way. -/
theorem exists_isChol_equiv (f : m ≃ n) (h : ∀ K : Matrix n n ℝ, K.PosDef → ∃ L, IsChol K L) (K : Matrix m m ℝ) (hK : K.PosDef) : ∃ L, IsChol K L := by
  obtain ⟨L, hL⟩ := h (K.submatrix f.symm f.symm) (hK.submatrix f.symm.injective)
  refine ⟨L.submatrix f f, fun i => hL.pos _, ?_, ?_⟩
  · rw [det_submatrix_equiv_self, hL.det]
    exact (Equiv.prod_comp f fun i => L i i).symm
  · rw [transpose_submatrix, submatrix_mul_equiv, hL.eq, submatrix_submatrix]
    simp

theorem exists_isChol_fin (k : ℕ) : ∀ K : Matrix (Unit ⊕ Fin k) (Unit ⊕ Fin k) ℝ, K.PosDef → ∃ L, IsChol K L := by
  induction k with
  | zero => exact exists_isChol_equiv (Equiv.sumEmpty Unit (Fin 0)) exists_isChol_unit
  | succ k ih =>
    exact exists_isChol_equiv ((Equiv.sumAssoc Unit (Fin k) Unit).trans
      (Equiv.sumCongr (Equiv.refl Unit) ((Equiv.optionEquivSumPUnit (Fin k)).symm.trans finSuccEquivLast.symm))).symm (exists_isChol_sum ih)

/-- C154: 1, 3, 4 and 8 at the point 4 with noise 2 each, or 4 with noise 1; linear kernels of any amplitude. -/
example (a b : ℝ) :
    Model.lml exChol2 ⟨fun x y => a ^ 2 * linK x y, id, 0, 1⟩ (exR.append (many 4 ![1, 3, 4, 8] fun _ => 2)) ≤
        Model.lml exChol2 ⟨fun x y => b ^ 2 * linK x y, id, 0, 1⟩ (exR.append (many 4 ![1, 3, 4, 8] fun _ => 2)) ↔
      Model.lml exChol2 ⟨fun x y => a ^ 2 * linK x y, id, 0, 1⟩ (exR.append (one 4 4 1)) ≤
        Model.lml exChol2 ⟨fun x y => b ^ 2 * linK x y, id, 0, 1⟩ (exR.append (one 4 4 1)) :=
  C154_many_fit (fun a x y => a ^ 2 * linK x y) id 0 1 (fun a => linK_scaled a) one_pos exR 4 ![1, 3, 4, 8] (fun _ => 2) 4 1 (fun _ => two_pos) one_pos
    (by simp [Fin.sum_univ_four]; norm_num) (by simp [Fin.sum_univ_four]; norm_num) (fun _ h => ex_chol2 h)
    (fun K h => exChol2_isChol (exists_isChol_fin 4 K h)) (fun i => by norm_num [exR]) a b

/-- C154: the difference in that case. -/
example : exM.lml exChol2 (exR.append (many 4 ![1, 3, 4, 8] fun _ => 2)) = exM.lml exChol2 (exR.append (one 4 4 1)) +
    3 * (Real.log exM.s - 1 / 2 * Real.log (2 * Real.pi)) - 4 * Real.log 2 - 13 / 4 := by
  rw [C154_many exM linK_isKernel (by norm_num [exM]) exR 4 ![1, 3, 4, 8] (fun _ => 2) 4 1 (fun _ => two_pos) one_pos
    (by simp [Fin.sum_univ_four]; norm_num) (by simp [Fin.sum_univ_four]; norm_num) (ex_chol2 (ex_one_posDef 4))
    (exChol2_isChol (exists_isChol_fin 4 _ (ex_many_posDef _)))]
  simp [Fin.sum_univ_four]
  ring

theorem exists_isChol_fins (k : ℕ) : ∀ K : Matrix (Fin k) (Fin k) ℝ, K.PosDef → ∃ L, IsChol K L := by
  induction k with
  | zero => exact fun K _ => ⟨0, fun i => i.elim0, by simp, by ext i; exact i.elim0⟩
  | succ k ih =>
    exact exists_isChol_equiv ((Equiv.optionEquivSumPUnit (Fin k)).symm.trans finSuccEquivLast.symm).symm (exists_isChol_sum ih)

/-- C154: the linear kernel, evaluations of the line with slope 2 at 0, 1, 2, ... with noise 1; the first value was certain but for its noise. -/
example : exM.lml exChol2 (first (fun i => ((i : ℝ), 2 * i, 1)) 1) = Real.log exM.s + Real.log (1 / Real.sqrt (2 * Real.pi)) := by
  have h := C154_sum (fun k => exChol2) (fun k K hK => exChol2_isChol (exists_isChol_fins k K hK)) exM linK_isKernel (by norm_num [exM])
    (fun i => ((i : ℝ), 2 * i, 1)) (fun i => by norm_num) 1
  rw [h, Finset.sum_range_one]
  have hm : exM.mean exChol2 (first (fun i => ((i : ℝ), 2 * (i : ℝ), (1 : ℝ))) 0) 0 = exM.mu := by
    unfold Model.mean Data.mean
    simp [dotProduct]
  have hv : exM.std exChol2 (first (fun i => ((i : ℝ), 2 * (i : ℝ), (1 : ℝ))) 0) 0 = 0 := by
    unfold Model.std Data.std Data.rawVar
    simp [dotProduct, exM, linK]
  simp only [Nat.cast_zero, hm, hv]
  norm_num [exM]

end GPry.Gp
