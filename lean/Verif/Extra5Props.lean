import Verif.ConvMcProps
import Verif.InputProps

set_option linter.all false

/-!
# Size of the cut in the reweighted mean (C107), and validity of covariance matrices under a change of units (C144)
-/

namespace GPry.ConvMc

open Cov

/-- Leaving out points of small weight moves a weighted mean by at most the share of their weight times the range of the values. -/
theorem cut_mean {α : Type*} (l : List α) (p : α → Bool) (f x : α → ℝ) (a b : ℝ) (hf : ∀ q ∈ l, 0 ≤ f q) (hx : ∀ q ∈ l, a ≤ x q ∧ x q ≤ b)
    (hS : 0 < ((l.filter p).map f).sum) (hab : a ≤ b) :
    |((l.filter p).map fun q => f q * x q).sum / ((l.filter p).map f).sum - (l.map fun q => f q * x q).sum / (l.map f).sum| ≤
      ((l.filter fun q => !p q).map f).sum / ((l.filter p).map f).sum * (b - a) := by
  have split : ∀ g : α → ℝ, (l.map g).sum = ((l.filter p).map g).sum + ((l.filter fun q => !p q).map g).sum := by
    intro g
    clear hf hx hS
    induction l with
    | nil => simp
    | cons q l ih =>
      rw [List.filter_cons, List.filter_cons]
      cases hp : p q
      · simp only [Bool.not_false, if_true, List.map_cons, List.sum_cons]
        rw [ih]; simp; ring
      · simp only [Bool.not_true, if_true, List.map_cons, List.sum_cons]
        rw [ih]; simp; ring
  have bnd : ∀ k : List α, (∀ q ∈ k, q ∈ l) → 0 ≤ (k.map f).sum ∧ a * (k.map f).sum ≤ (k.map fun q => f q * x q).sum ∧
      (k.map fun q => f q * x q).sum ≤ b * (k.map f).sum := by
    intro k hk
    induction k with
    | nil => simp
    | cons q k ih =>
      have hq := hk q (by simp)
      have h := ih fun r hr => hk r (by simp [hr])
      have h1 := hf q hq
      have h2 := hx q hq
      simp only [List.map_cons, List.sum_cons]
      refine ⟨by linarith [h.1], ?_, ?_⟩
      · nlinarith [h.2.1, mul_le_mul_of_nonneg_left h2.1 h1]
      · nlinarith [h.2.2, mul_le_mul_of_nonneg_left h2.2 h1]
  obtain ⟨-, hA1, hA2⟩ := bnd (l.filter p) fun q hq => (List.mem_filter.1 hq).1
  obtain ⟨hD, hC1, hC2⟩ := bnd (l.filter fun q => !p q) fun q hq => (List.mem_filter.1 hq).1
  rw [split f, split fun q => f q * x q]
  generalize ((l.filter p).map f).sum = S at *
  generalize ((l.filter fun q => !p q).map f).sum = D at *
  generalize ((l.filter p).map fun q => f q * x q).sum = A at *
  generalize ((l.filter fun q => !p q).map fun q => f q * x q).sum = C at *
  have hT : 0 < S + D := by linarith
  have e : A / S - (A + C) / (S + D) = (A * D - C * S) / (S * (S + D)) := by
    field_simp; ring
  rw [e, abs_div, abs_of_pos (mul_pos hS hT), div_mul_eq_mul_div, div_le_div_iff₀ (mul_pos hS hT) hS]
  have hN : |A * D - C * S| ≤ S * D * (b - a) := by
    rw [abs_le]
    constructor
    · nlinarith [mul_le_mul_of_nonneg_right hA1 hD, mul_le_mul_of_nonneg_right hC2 hS.le]
    · nlinarith [mul_le_mul_of_nonneg_right hA2 hD, mul_le_mul_of_nonneg_right hC1 hS.le]
  have h0 : 0 ≤ D * (b - a) := mul_nonneg hD (by linarith)
  calc |A * D - C * S| * S ≤ S * D * (b - a) * S := mul_le_mul_of_nonneg_right hN hS.le
    _ = D * (b - a) * (S * S) := by ring
    _ ≤ D * (b - a) * (S * (S + D)) := mul_le_mul_of_nonneg_left (by nlinarith) h0

/-- **C107** (what the cut costs): for a sample whose weights are at least one (those of a chain are numbers of repetitions), leaving out the points with a
new weight of at most 1e-8 moves each coordinate of the mean by at most `n * 1e-8` of the range of that coordinate in the sample. -/
theorem C107_cut {d : ℕ} (predict : (Fin d → ℝ) → Ext ℝ) (coll : Coll d ℝ) (y : (Fin d → ℝ) → ℝ)
    (hy : ∀ q ∈ coll.rows, predict q.1 = .fin (y q.1)) (hw : ∀ q ∈ coll.rows, 1 ≤ q.2.2)
    (m : MeanCov d ℝ) (h : reweighted Real.exp predict coll = .ok m) (i : Fin d) (a b : ℝ) (hx : ∀ q ∈ coll.rows, a ≤ q.1 i ∧ q.1 i ≤ b) :
    ∃ v, m.mean i = .fin v ∧
      |v - (coll.rows.map fun q => q.2.2 * Real.exp (y q.1 - q.2.1) * q.1 i).sum / (coll.rows.map fun q => q.2.2 * Real.exp (y q.1 - q.2.1)).sum| ≤
        coll.rows.length * (1 / 10 ^ 8) * (b - a) := by
  obtain ⟨q0, hq0, hmax, hm⟩ := C107_reweighted_mean predict coll y hy m h
  refine ⟨_, hm i, ?_⟩
  have hab : a ≤ b := (hx q0 hq0).1.trans (hx q0 hq0).2
  set l := coll.rows
  set f : (Fin d → ℝ) × ℝ × ℝ → ℝ := fun q => q.2.2 * Real.exp (y q.1 - q.2.1)
  set E := Real.exp (y q0.1 - q0.2.1) with hE
  have hE0 : 0 < E := Real.exp_pos _
  have hf : ∀ q ∈ l, 0 ≤ f q := fun q hq => mul_nonneg (by linarith [hw q hq]) (Real.exp_pos _).le
  set p : (Fin d → ℝ) × ℝ × ℝ → Bool := fun q => decide (E * (1 / 10 ^ 8) < f q) with hp
  have hfE : E ≤ f q0 := by
    show E ≤ q0.2.2 * E
    nlinarith [hw q0 hq0]
  have hS : E ≤ ((l.filter p).map f).sum := by
    have hmem : f q0 ∈ (l.filter p).map f := by
      refine List.mem_map.2 ⟨q0, List.mem_filter.2 ⟨hq0, ?_⟩, rfl⟩
      rw [hp]
      simp only [decide_eq_true_eq]
      nlinarith
    refine hfE.trans (List.single_le_sum ?_ _ hmem)
    intro z hz
    obtain ⟨q, hq, rfl⟩ := List.mem_map.1 hz
    exact hf q (List.mem_filter.1 hq).1
  have hD : ((l.filter fun q => !p q).map f).sum ≤ l.length * (1 / 10 ^ 8) * E := by
    have h1 : ((l.filter fun q => !p q).map f).sum ≤ ((l.filter fun q => !p q).map f).length • (E * (1 / 10 ^ 8)) := by
      refine List.sum_le_card_nsmul _ _ ?_
      intro z hz
      obtain ⟨q, hq, rfl⟩ := List.mem_map.1 hz
      have := (List.mem_filter.1 hq).2
      rw [hp] at this
      simpa using this
    refine h1.trans ?_
    rw [nsmul_eq_mul, List.length_map]
    have h2 : ((l.filter fun q => !p q).length : ℝ) ≤ l.length := by exact_mod_cast List.length_filter_le _ _
    calc ((l.filter fun q => !p q).length : ℝ) * (E * (1 / 10 ^ 8)) ≤ l.length * (E * (1 / 10 ^ 8)) :=
          mul_le_mul_of_nonneg_right h2 (by positivity)
      _ = _ := by ring
  have hS0 : 0 < ((l.filter p).map f).sum := hE0.trans_le hS
  refine (cut_mean l p f (fun q => q.1 i) a b hf hx hS0 hab).trans ?_
  refine mul_le_mul_of_nonneg_right ?_ (by linarith)
  rw [div_le_iff₀ hS0]
  exact hD.trans (mul_le_mul_of_nonneg_left hS (by positivity))

/-- A sample of two points, one of them with a factor `exp(-30)`, which is left out: the mean moves by at most 2e-8 of the range. -/
example (m : MeanCov 1 ℝ) (h : reweighted Real.exp (fun _ => .fin 0) (⟨[(![0], 0, 1), (![3], 30, 2)], ⟨fun _ => .fin 0, ⟨2, fun _ _ => .fin 1⟩⟩⟩ : Coll 1 ℝ) = .ok m) :
    ∃ v, m.mean 0 = .fin v ∧ |v - 6 * Real.exp (-30) / (1 + 2 * Real.exp (-30))| ≤ 6 / 10 ^ 8 := by
  obtain ⟨v, hv, hb⟩ := C107_cut _ _ (fun _ => 0) (by intro q _; rfl) (by intro q hq; simp at hq; rcases hq with rfl | rfl <;> norm_num) m h 0 0 3
    (by intro q hq; simp at hq; rcases hq with rfl | rfl <;> norm_num)
  refine ⟨v, hv, ?_⟩
  simp at hb
  norm_num at hb ⊢
  convert hb using 3
  ring

end GPry.ConvMc

namespace GPry.Input
open Matrix

variable {n : ℕ}

/-- **C144** (covariance matrices, `_partial`): a symmetric matrix is valid in one system of units if and only if it is in any other; unit `i` is
multiplied by `s i`. -/
theorem C144_covmat_partial (C : Matrix (Fin n) (Fin n) ℝ) (h : C.IsSymm) (s : Fin n → ℝ) (hs : ∀ i, 0 < s i) :
    isValidCovmat (Matrix.of fun i j => s i * C i j * s j) ↔ isValidCovmat C := by
  have h' : (Matrix.of fun i j => s i * C i j * s j : Matrix (Fin n) (Fin n) ℝ).IsSymm := by
    ext i j
    simp only [transpose_apply, of_apply]
    rw [h.apply i j]; ring
  rw [C127_covmat _ h, C127_covmat _ h']
  have key : ∀ (C : Matrix (Fin n) (Fin n) ℝ) (s : Fin n → ℝ), (∀ i, 0 < s i) → C.PosDef →
      (Matrix.of fun i j => s i * C i j * s j : Matrix (Fin n) (Fin n) ℝ).PosDef := by
    intro C s hs hC
    have e : (Matrix.of fun i j => s i * C i j * s j : Matrix (Fin n) (Fin n) ℝ) = (diagonal s)ᴴ * C * diagonal s := by
      ext i j
      rw [mul_diagonal, diagonal_conjTranspose, diagonal_mul]
      simp
    rw [e]
    refine hC.conjTranspose_mul_mul_same ?_
    intro u v huv
    ext i
    have := congrFun huv i
    rw [mulVec_diagonal, mulVec_diagonal] at this
    exact mul_left_cancel₀ (hs i).ne' this
  constructor
  · intro hp
    have := key _ (fun i => (s i)⁻¹) (fun i => inv_pos.2 (hs i)) hp
    convert this using 1
    ext i j
    simp only [of_apply]
    field_simp [(hs i).ne', (hs j).ne']
  · exact key C s hs

/-- **C144** (covariance matrices) is false in general: an asymmetric matrix is refused in one system of units and accepted in another. -/
theorem C144_covmat_counterexample :
    ∃ (C : Matrix (Fin 2) (Fin 2) ℝ) (s : Fin 2 → ℝ), (∀ i, 0 < s i) ∧ ¬ isValidCovmat C ∧ isValidCovmat (Matrix.of fun i j => s i * C i j * s j) := by
  refine ⟨!![1, 1 / 2; 0, 1], fun _ => 1 / 10 ^ 5, fun _ => by positivity, ?_, ?_⟩
  · intro hv
    have := hv.1 0 1
    unfold isClose at this
    simp at this
    norm_num at this
  · rw [C127_covmat_partial]
    refine ⟨diagonal fun _ => 1 / 10 ^ 10, posDef_diagonal_iff.2 fun i => by positivity, ?_, ?_⟩
    · intro i j h
      fin_cases i <;> fin_cases j <;> simp at h ⊢ <;> norm_num
    · intro i j
      fin_cases i <;> fin_cases j <;> simp <;> norm_num

/-- Units of the first parameter multiplied by 1000 (`C144_covmat_partial`). -/
example : isValidCovmat (Matrix.of fun i j => (![1000, 1] : Fin 2 → ℝ) i * (1 : Matrix (Fin 2) (Fin 2) ℝ) i j * (![1000, 1] : Fin 2 → ℝ) j) := by
  rw [C144_covmat_partial 1 isSymm_one _ (by intro i; fin_cases i <;> simp), C127_covmat _ isSymm_one]
  exact PosDef.one

end GPry.Input
