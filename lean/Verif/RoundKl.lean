import Verif.RoundPre
import Verif.StatProps
import Verif.ConvProps
import Mathlib.Analysis.Complex.ExponentialBounds

set_option linter.all false

/-!
# The divergence of the convergence criteria in double precision (C151)

tools.py:20-36 `kl_norm` with rounding, underflow and overflow. What LAPACK computes (logarithms of the determinants, inverse)
is given from outside, except for diagonal matrices.
-/

namespace GPry.Round

open GPry GPry.Stat Matrix

/-! ## Numbers -/

/-- Double precision with the exponents not limited above. -/
noncomputable def r64 : Rnd ℝ := binary ℝ 53 (by norm_num) (-1074)

/-- A rounded number that is too large becomes infinite. -/
noncomputable def ov (x : ℝ) : Ext ℝ := if 2 ^ 1024 ≤ x then .posInf else if x ≤ -2 ^ 1024 then .negInf else .fin x

/-- Rounding of a result. -/
noncomputable def rnd : Ext ℝ → Ext ℝ
  | .fin x => ov (r64.fl x)
  | v => v

noncomputable def subE (a b : Ext ℝ) : Ext ℝ := rnd (a.sub b)
noncomputable def addE (a b : Ext ℝ) : Ext ℝ := rnd (a.sub b.neg)

/-- Product with 0.5 -/
noncomputable def halfE (a : Ext ℝ) : Ext ℝ := rnd (a.divFin 2)

/-- `np.log` -/
noncomputable def logE : Ext ℝ → Ext ℝ
  | .fin x => if x = 0 then .negInf else if x < 0 then .nan else rnd (.fin (Real.log x))
  | .posInf => .posInf
  | .negInf => .nan
  | .nan => .nan

/-- `np.linalg.det` of a positive definite matrix: the exponential of the logarithm of the determinant, which LAPACK's
decomposition gives as a sum of logarithms. -/
noncomputable def detE (ld : ℝ) : Ext ℝ := rnd (.fin (Real.exp ld))

/-- tools.py:30-36, from the logarithms of the determinants of `cov_0` and `cov_1`, the trace and the quadratic form. -/
noncomputable def klE (dim : ℕ) (ld0 ld1 : ℝ) (tr q : Ext ℝ) : Ext ℝ :=
  halfE (addE (addE (subE (subE (logE (detE ld1)) (logE (detE ld0))) (.fin dim)) tr) q)

/-! ## Underflow and overflow -/

theorem fl_nonneg {x : ℝ} (h : 0 ≤ x) : 0 ≤ r64.fl x := r64.le_fl (zero_mem 53 (by norm_num) _) h

/-- Numbers below half the smallest positive one become zero. -/
theorem fl_tiny {x : ℝ} (h0 : 0 ≤ x) (h : x < 2 ^ (-1075 : ℤ)) : r64.fl x = 0 := by
  by_contra hne
  have hpos : 0 < r64.fl x := lt_of_le_of_ne (fl_nonneg h0) (Ne.symm hne)
  have hz : (0 : ℝ) ∈ r64.F := zero_mem 53 (by norm_num) _
  have hs := sub_pos' 53 (by norm_num) (-1074) (r64.mem x) hz hpos
  obtain ⟨n, hn⟩ := sub_multiple 53 (by norm_num) (-1074) (r64.mem x) hz
  rw [sub_zero] at hn
  have h2 : (0 : ℝ) < 2 ^ (-1074 : ℤ) := by positivity
  have hn1 : 1 ≤ n := by
    by_contra hc
    have : (n : ℝ) ≤ 0 := by exact_mod_cast (by omega : n ≤ 0)
    nlinarith
  have hge : (2 : ℝ) ^ (-1074 : ℤ) ≤ r64.fl x := by
    rw [hn]
    have : (1 : ℝ) ≤ n := by exact_mod_cast hn1
    nlinarith
  have hnear := r64.near x 0 hz
  rw [zero_sub, abs_neg, abs_of_nonneg h0] at hnear
  have e : (2 : ℝ) ^ (-1074 : ℤ) = 2 * 2 ^ (-1075 : ℤ) := by
    rw [show (-1074 : ℤ) = 1 + -1075 by norm_num, zpow_add₀ (by norm_num)]; norm_num
  have := le_abs_self (r64.fl x - x)
  linarith

set_option exponentiation.threshold 2000 in
theorem exp_tiny {t : ℝ} (h : t ≤ -746) : Real.exp t < 2 ^ (-1075 : ℤ) := by
  have h1 : Real.exp t ≤ Real.exp (-746) := Real.exp_le_exp.2 h
  refine lt_of_le_of_lt h1 ?_
  rw [Real.exp_neg, _root_.zpow_neg, inv_lt_inv₀ (Real.exp_pos _) (by positivity)]
  have h2 : (2.718 : ℝ) < Real.exp 1 := by have := Real.exp_one_gt_d9; linarith
  have h3 : Real.exp 746 = Real.exp 1 ^ 746 := by rw [← Real.exp_nat_mul]; norm_num
  rw [h3]
  calc (2 : ℝ) ^ (1075 : ℤ) = 2 ^ 1075 := by norm_cast
    _ < 2.718 ^ 746 := by norm_num
    _ ≤ Real.exp 1 ^ 746 := pow_le_pow_left₀ (by norm_num) h2.le _

set_option exponentiation.threshold 2000 in
theorem exp_huge {t : ℝ} (h : 710 ≤ t) : (2 : ℝ) ^ 1024 ≤ Real.exp t := by
  refine le_trans ?_ (Real.exp_le_exp.2 h)
  have h2 : (2.718 : ℝ) < Real.exp 1 := by have := Real.exp_one_gt_d9; linarith
  have h3 : Real.exp 710 = Real.exp 1 ^ 710 := by rw [← Real.exp_nat_mul]; norm_num
  rw [h3]
  calc (2 : ℝ) ^ 1024 ≤ 2.718 ^ 710 := by norm_num
    _ ≤ Real.exp 1 ^ 710 := pow_le_pow_left₀ (by norm_num) h2.le _

theorem pow_mem (k : ℕ) : (2 : ℝ) ^ k ∈ r64.F := ⟨1, k, by norm_num, by omega, by simp⟩

theorem detE_tiny {ld : ℝ} (h : ld ≤ -746) : detE ld = .fin 0 := by
  unfold detE rnd
  simp only
  rw [fl_tiny (Real.exp_pos _).le (exp_tiny h)]
  unfold ov
  rw [if_neg (by norm_num), if_neg (by norm_num)]

theorem detE_huge {ld : ℝ} (h : 710 ≤ ld) : detE ld = .posInf := by
  unfold detE rnd
  simp only
  unfold ov
  rw [if_pos (r64.le_fl (pow_mem 1024) (exp_huge h))]

theorem nan_absorbs (dim : ℕ) (tr q : Ext ℝ) : halfE (addE (addE (subE .nan (.fin dim)) tr) q) = .nan := by
  cases tr <;> cases q <;> rfl

/-- **C151**: the result of an operation is a number exactly if the rounded result is below the largest power of two in absolute value. -/
theorem C151_overflow (x : ℝ) : (∃ v, rnd (.fin x) = .fin v) ↔ |r64.fl x| < 2 ^ 1024 := by
  unfold rnd ov
  rw [abs_lt]
  dsimp only
  split_ifs with h1 h2
  · simp only [reduceCtorEq, exists_false, false_iff]
    exact fun h => absurd h.2 (not_lt.2 h1)
  · simp only [reduceCtorEq, exists_false, false_iff]
    exact fun h => absurd h.1 (not_lt.2 h2)
  · exact ⟨fun _ => ⟨not_le.1 h2, not_le.1 h1⟩, fun _ => ⟨_, rfl⟩⟩

example : ∃ v, rnd (.fin 1) = .fin v := by
  rw [C151_overflow, r64.fl_of_mem (by simpa using pow_mem 0), abs_one]
  exact one_lt_pow₀ (by norm_num) (by norm_num)

/-- **C151** is false: if both determinants are below about 1e-324 (logarithm at most -746), or both above about 1e308
(logarithm at least 710), the divergence is NaN, whatever the distributions. -/
theorem C151_determinants_counterexample (dim : ℕ) (ld0 ld1 : ℝ) (h : ld0 ≤ -746 ∧ ld1 ≤ -746 ∨ 710 ≤ ld0 ∧ 710 ≤ ld1) (tr q : Ext ℝ) :
    klE dim ld0 ld1 tr q = .nan := by
  have e : subE (logE (detE ld1)) (logE (detE ld0)) = .nan := by
    rcases h with ⟨h0, h1⟩ | ⟨h0, h1⟩
    · rw [detE_tiny h0, detE_tiny h1]
      simp [logE, subE, Ext.sub, rnd]
    · rw [detE_huge h0, detE_huge h1]
      rfl
  unfold klE
  rw [e, nan_absorbs]

theorem log_det_smul {n : Type*} [Fintype n] [DecidableEq n] {S : Matrix n n ℝ} (hS : S.PosDef) {s : ℝ} (hs : 0 < s) :
    Real.log ((s ^ 2 • S).det) = 2 * Fintype.card n * Real.log s + Real.log S.det := by
  rw [det_smul, Real.log_mul (by positivity) hS.det_pos.ne', Real.log_pow, Real.log_pow]
  push_cast
  ring

theorem kl_smul {n : Type*} [Fintype n] [DecidableEq n] (m0 m1 : n → ℝ) {S0 S1 : Matrix n n ℝ} (h0 : S0.PosDef) (h1 : S1.PosDef) {s : ℝ}
    (hs : 0 < s) : klNorm (s • m0) (s ^ 2 • S0) (s • m1) (s ^ 2 • S1) = klNorm m0 S0 m1 S1 := by
  have hA : IsUnit (s • (1 : Matrix n n ℝ)) := by
    rw [isUnit_iff_isUnit_det, det_smul, det_one, mul_one]
    exact (pow_pos hs _).ne'.isUnit
  have := C60_affine_invariant m0 m1 0 h0 h1 hA
  simpa [smul_mulVec, smul_smul, ← pow_two] using this

/-- **C151** is false: for any two normal distributions, in small enough (and in large enough) units the divergence of the
criteria is NaN, although the divergence does not depend on the units. The logarithms of the determinants need only be
right up to 1. -/
theorem C151_units_counterexample {n : Type*} [Fintype n] [DecidableEq n] [Nonempty n] (m0 m1 : n → ℝ) {S0 S1 : Matrix n n ℝ}
    (h0 : S0.PosDef) (h1 : S1.PosDef) : ∃ c C : ℝ, 0 < c ∧ 0 < C ∧ ∀ s : ℝ, 0 < s → s ≤ c ∨ C ≤ s →
      klNorm (s • m0) (s ^ 2 • S0) (s • m1) (s ^ 2 • S1) = klNorm m0 S0 m1 S1 ∧
      ∀ ld0 ld1, |ld0 - Real.log ((s ^ 2 • S0).det)| ≤ 1 → |ld1 - Real.log ((s ^ 2 • S1).det)| ≤ 1 → ∀ tr q,
        klE (Fintype.card n) ld0 ld1 tr q = .nan := by
  obtain ⟨B, hB⟩ : ∃ B, B = |Real.log S0.det| + |Real.log S1.det| := ⟨_, rfl⟩
  have hB0 : |Real.log S0.det| ≤ B := by rw [hB]; linarith [abs_nonneg (Real.log S1.det)]
  have hB1 : |Real.log S1.det| ≤ B := by rw [hB]; linarith [abs_nonneg (Real.log S0.det)]
  have hBn : 0 ≤ B := (abs_nonneg _).trans hB0
  have hcard : (1 : ℝ) ≤ Fintype.card n := by exact_mod_cast Fintype.card_pos
  refine ⟨Real.exp (-(747 + B)), Real.exp (711 + B), Real.exp_pos _, Real.exp_pos _, fun s hs hc => ⟨kl_smul m0 m1 h0 h1 hs, ?_⟩⟩
  intro ld0 ld1 hl0 hl1 tr q
  rw [log_det_smul h0 hs] at hl0
  rw [log_det_smul h1 hs] at hl1
  rw [abs_le] at hl0 hl1 hB0 hB1
  apply C151_determinants_counterexample
  rcases hc with hc | hc
  · left
    have hlog : Real.log s ≤ -(747 + B) := by
      rw [← Real.log_exp (-(747 + B))]
      exact Real.log_le_log hs hc
    have : (Fintype.card n : ℝ) * Real.log s ≤ -(747 + B) := by nlinarith
    constructor <;> linarith
  · right
    have hlog : 711 + B ≤ Real.log s := by
      rw [← Real.log_exp (711 + B)]
      exact Real.log_le_log (Real.exp_pos _) hc
    have : 711 + B ≤ (Fintype.card n : ℝ) * Real.log s := by nlinarith
    constructor <;> linarith

/-- **C151** is false: a history of calls of `GaussianKL` in such units never converges, whatever the samples and the limit. -/
theorem C151_never_counterexample {M : Type*} (dim : ℕ) (ld : M → ℝ) (tr q : M → M → Ext ℝ)
    (hld : (∀ m, ld m ≤ -746) ∨ ∀ m, 710 ≤ ld m) (limit : ℝ) (lt : ℕ) (hlt : 1 ≤ lt) (h : List (Option M)) (x : Option M) :
    (Conv.runCalls (fun s i => Conv.KL.converged limit lt
      (Conv.KL.gaussian (fun m m0 => some (klE dim (ld m) (ld m0) (tr m m0) (q m m0))) s i)) Conv.KL.init (h ++ [x])).2.getLast? ≠
      some (.ok true) := by
  intro hc
  rw [Conv.C36_gaussian_kl _ _ _ hlt] at hc
  obtain ⟨-, hv⟩ := hc
  obtain ⟨v, hv, -⟩ := hv h.length (by simp) (by simp; omega)
  revert hv
  unfold Conv.klSpec Conv.klEntry
  have hn : ∀ m m0, klE dim (ld m) (ld m0) (tr m m0) (q m m0) = .nan := fun m m0 =>
    C151_determinants_counterexample _ _ _ (hld.imp (fun H => ⟨H m, H m0⟩) fun H => ⟨H m, H m0⟩) _ _
  simp only [hn]
  split
  · split_ifs <;> simp
  · simp

/-! ## Determinants within range -/

theorem fl_err (x : ℝ) : |r64.fl x - x| ≤ 2 ^ (-53 : ℤ) * |x| + 2 ^ (-1075 : ℤ) := by
  by_cases h : |x| < (2 : ℝ) ^ (-1021 : ℤ)
  · have := binary_err 53 (by norm_num) (-1074) (-1021) (by norm_num) x h
    have e : (2 : ℝ) ^ ((-1021 : ℤ) - (53 : ℕ)) / 2 = 2 ^ (-1075 : ℤ) := by
      rw [show ((-1021 : ℤ) - (53 : ℕ)) = 1 + -1075 by norm_num, zpow_add₀ (by norm_num)]; norm_num
    rw [e] at this
    have h2 : (0 : ℝ) ≤ 2 ^ (-53 : ℤ) * |x| := by positivity
    exact this.trans (by linarith)
  · have h' : (2 : ℝ) ^ (-1022 : ℤ) ≤ |x| := by
      have : (2 : ℝ) ^ (-1022 : ℤ) ≤ 2 ^ (-1021 : ℤ) := zpow_le_zpow_right₀ (by norm_num) (by norm_num)
      linarith [not_lt.1 h]
    have := binary_rel 53 (by norm_num) (-1074) x (.inr (by norm_num at h' ⊢; exact h'))
    unfold Rel at this
    have h2 : (0 : ℝ) < 2 ^ (-1075 : ℤ) := by positivity
    exact this.trans (by push_cast; linarith)

/-- Rounding of numbers that are not too large. -/
theorem rnd_fin {x B : ℝ} (hB : B ≤ 2 ^ 1000) (hx : |x| ≤ B) : ∃ v, rnd (.fin x) = .fin v ∧ |v - x| ≤ 2 ^ (-53 : ℤ) * (B + 1) := by
  have he := fl_err x
  have h1 : (2 : ℝ) ^ (-1075 : ℤ) ≤ 2 ^ (-53 : ℤ) := zpow_le_zpow_right₀ (by norm_num) (by norm_num)
  have hu : (0 : ℝ) < 2 ^ (-53 : ℤ) := by positivity
  have hu1 : (2 : ℝ) ^ (-53 : ℤ) ≤ 1 := zpow_le_one_of_nonpos₀ (by norm_num) (by norm_num)
  have he2 : |r64.fl x - x| ≤ 2 ^ (-53 : ℤ) * (B + 1) := by nlinarith
  have hB0 : 0 ≤ B := (abs_nonneg x).trans hx
  have he3 : |r64.fl x - x| ≤ B + 1 := by nlinarith
  have hbig : (2 : ℝ) * 2 ^ 1000 + 1 < 2 ^ 1024 := by
    have : (2 : ℝ) ^ 1024 = 2 ^ 1000 * 2 ^ 24 := by rw [← pow_add]
    have h0 : (1 : ℝ) ≤ 2 ^ 1000 := one_le_pow₀ (by norm_num)
    rw [this]
    clear this
    generalize (2 : ℝ) ^ 1000 = P at *
    norm_num
    linarith
  rw [abs_le] at he3 hx
  refine ⟨r64.fl x, ?_, he2⟩
  unfold rnd ov
  simp only
  generalize (2 : ℝ) ^ 1000 = P at *
  generalize (2 : ℝ) ^ 1024 = Q at *
  rw [if_neg (by linarith), if_neg (by linarith)]

set_option exponentiation.threshold 2000 in
theorem exp_range {t : ℝ} (h1 : -708 ≤ t) (h2 : t ≤ 709) : (2 : ℝ) ^ (-1022 : ℤ) ≤ Real.exp t ∧ Real.exp t ≤ 2 ^ 1023 := by
  have he : Real.exp 1 < 2.7183 := by have := Real.exp_one_lt_d9; linarith
  constructor
  · refine le_trans ?_ (Real.exp_le_exp.2 h1)
    rw [Real.exp_neg, _root_.zpow_neg, inv_le_inv₀ (by positivity) (Real.exp_pos _)]
    have h3 : Real.exp 708 = Real.exp 1 ^ 708 := by rw [← Real.exp_nat_mul]; norm_num
    rw [h3]
    calc Real.exp 1 ^ 708 ≤ 2.7183 ^ 708 := pow_le_pow_left₀ (Real.exp_pos _).le he.le _
      _ ≤ 2 ^ 1022 := by norm_num
      _ = (2 : ℝ) ^ (1022 : ℤ) := by norm_cast
  · refine le_trans (Real.exp_le_exp.2 h2) ?_
    have h3 : Real.exp 709 = Real.exp 1 ^ 709 := by rw [← Real.exp_nat_mul]; norm_num
    rw [h3]
    calc Real.exp 1 ^ 709 ≤ 2.7183 ^ 709 := pow_le_pow_left₀ (Real.exp_pos _).le he.le _
      _ ≤ 2 ^ 1023 := by norm_num

theorem logE_range {ld : ℝ} (h1 : -708 ≤ ld) (h2 : ld ≤ 709) : ∃ v, logE (detE ld) = .fin v ∧ |v - ld| ≤ 713 * 2 ^ (-53 : ℤ) := by
  obtain ⟨hlo, hhi⟩ := exp_range h1 h2
  have hpos := Real.exp_pos ld
  obtain ⟨u, hu⟩ : ∃ u : ℝ, u = 2 ^ (-53 : ℤ) := ⟨_, rfl⟩
  have hu0 : 0 < u := by rw [hu]; positivity
  have hu1 : u ≤ 1 / 1000 := by rw [hu]; norm_num
  have hrel := binary_rel 53 (by norm_num) (-1074) (Real.exp ld) (.inr (by rw [abs_of_pos hpos]; norm_num at hlo ⊢; exact hlo))
  unfold Rel at hrel
  rw [abs_of_pos hpos] at hrel
  have hrel : |r64.fl (Real.exp ld) - Real.exp ld| ≤ u * Real.exp ld := by rw [hu]; exact_mod_cast hrel
  obtain ⟨e, he⟩ : ∃ e, e = r64.fl (Real.exp ld) := ⟨_, rfl⟩
  rw [← he, abs_le] at hrel
  have he0 : 0 < e := by nlinarith
  have hle : e ≤ 2 ^ 1023 := by rw [he]; exact r64.fl_le (pow_mem 1023) hhi
  have hdet : detE ld = .fin e := by
    unfold detE rnd ov
    simp only
    rw [← he]
    have : (2 : ℝ) ^ 1023 < 2 ^ 1024 := pow_lt_pow_right₀ (by norm_num) (by norm_num)
    have h0 : (0 : ℝ) < 2 ^ 1024 := by positivity
    generalize (2 : ℝ) ^ 1023 = P at *
    generalize (2 : ℝ) ^ 1024 = Q at *
    rw [if_neg (by linarith), if_neg (by linarith)]
  have hlog : |Real.log e - ld| ≤ 2 * u := by
    have hup : Real.log e ≤ ld + u := by
      rw [Real.log_le_iff_le_exp he0, Real.exp_add]
      have := Real.add_one_le_exp u
      nlinarith
    have hdn : ld - 2 * u ≤ Real.log e := by
      rw [Real.le_log_iff_exp_le he0, Real.exp_sub]
      rw [div_le_iff₀ (Real.exp_pos _)]
      have := Real.add_one_le_exp (2 * u)
      nlinarith [mul_pos he0 hu0]
    rw [abs_le]
    constructor <;> linarith
  rw [abs_le] at hlog
  have hb : |Real.log e| ≤ 710 := by rw [abs_le]; constructor <;> linarith
  obtain ⟨v, hv, hve⟩ := rnd_fin (B := 710) (by
    calc (710 : ℝ) ≤ 2 ^ 10 := by norm_num
      _ ≤ 2 ^ 1000 := pow_le_pow_right₀ (by norm_num) (by norm_num)) hb
  refine ⟨v, ?_, ?_⟩
  · rw [hdet]
    unfold logE
    simp only
    rw [if_neg he0.ne', if_neg (not_lt.2 he0.le), hv]
  · rw [← hu] at hve ⊢
    rw [abs_le] at hve ⊢
    constructor <;> linarith

/-- **C151**, what remains: if the determinants are within the range of the numbers, the divergence is a number, and it is the one
wanted up to the errors of what LAPACK gives (logarithms of the determinants, trace, quadratic form) and a rounding error of
about 1e-12. -/
theorem C151_range_partial {n : Type*} [Fintype n] [DecidableEq n] (m0 m1 : n → ℝ) (S0 S1 : Matrix n n ℝ) (ld0 ld1 t q : ℝ)
    (h0 : -708 ≤ ld0 ∧ ld0 ≤ 709) (h1 : -708 ≤ ld1 ∧ ld1 ≤ 709) (hB : Fintype.card n + |t| + |q| ≤ (2 : ℝ) ^ 900) :
    ∃ v, klE (Fintype.card n) ld0 ld1 (.fin t) (.fin q) = .fin v ∧
      |v - klNorm m0 S0 m1 S1| ≤ (|ld0 - Real.log S0.det| + |ld1 - Real.log S1.det| + |t - (S1⁻¹ * S0).trace| +
        |q - (m1 - m0) ⬝ᵥ (S1⁻¹ *ᵥ (m1 - m0))|) / 2 + (8192 + 8 * (Fintype.card n + |t| + |q|)) * 2 ^ (-53 : ℤ) := by
  obtain ⟨u, hu⟩ : ∃ u : ℝ, u = 2 ^ (-53 : ℤ) := ⟨_, rfl⟩
  have hu0 : 0 < u := by rw [hu]; positivity
  have hu1 : u ≤ 1 / 100000 := by rw [hu]; norm_num
  obtain ⟨N, hN⟩ : ∃ N : ℝ, N = Fintype.card n := ⟨_, rfl⟩
  have hN0 : 0 ≤ N := by rw [hN]; positivity
  have ht0 := abs_nonneg t
  have hq0 := abs_nonneg q
  have hbig : (100000 : ℝ) + 4 * 2 ^ 900 ≤ 2 ^ 1000 := by
    have : (2 : ℝ) ^ 1000 = 2 ^ 900 * 2 ^ 100 := by rw [← pow_add]
    have h0 : (1 : ℝ) ≤ 2 ^ 900 := one_le_pow₀ (by norm_num)
    have h1 : (100004 : ℝ) ≤ 2 ^ 100 := by norm_num
    rw [this]
    clear this
    generalize (2 : ℝ) ^ 900 = P at *
    generalize (2 : ℝ) ^ 100 = Q at *
    nlinarith
  have hP0 : (0 : ℝ) < 2 ^ 900 := by positivity
  generalize (2 : ℝ) ^ 900 = P at *
  have hQ : ∀ B : ℝ, B ≤ 100000 + 4 * P → B ≤ 2 ^ 1000 := fun B h => h.trans hbig
  clear hbig
  rw [← hN] at hB
  obtain ⟨a0, ha0, hb0⟩ := logE_range h0.1 h0.2
  obtain ⟨a1, ha1, hb1⟩ := logE_range h1.1 h1.2
  rw [← hu, abs_le] at hb0 hb1
  have htt := abs_le.1 (le_refl |t|)
  have hqq := abs_le.1 (le_refl |q|)
  obtain ⟨x1, e1, r1⟩ := rnd_fin (x := a1 - a0) (B := 1418) (hQ _ (by linarith)) (by rw [abs_le]; constructor <;> linarith)
  rw [← hu, abs_le] at r1
  obtain ⟨x2, e2, r2⟩ := rnd_fin (x := x1 - N) (B := 1420 + N) (hQ _ (by linarith)) (by rw [abs_le]; constructor <;> linarith)
  rw [← hu, abs_le] at r2
  have k2 : u * (1420 + N + 1) ≤ 1 + N := by nlinarith
  obtain ⟨x3, e3, r3⟩ := rnd_fin (x := x2 - -t) (B := 1421 + 2 * N + |t|) (hQ _ (by linarith)) (by rw [abs_le]; constructor <;> linarith)
  rw [← hu, abs_le] at r3
  have k3 : u * (1421 + 2 * N + |t| + 1) ≤ 1 + N + |t| := by nlinarith
  obtain ⟨x4, e4, r4⟩ := rnd_fin (x := x3 - -q) (B := 1422 + 3 * N + 2 * |t| + |q|) (hQ _ (by linarith)) (by rw [abs_le]; constructor <;> linarith)
  rw [← hu, abs_le] at r4
  have k4 : u * (1422 + 3 * N + 2 * |t| + |q| + 1) ≤ 1 + N + |t| + |q| := by nlinarith
  obtain ⟨x5, e5, r5⟩ := rnd_fin (x := x4 / 2) (B := 1423 + 4 * N + 3 * |t| + 2 * |q|) (hQ _ (by linarith)) (by rw [abs_le]; constructor <;> linarith)
  rw [← hu, abs_le] at r5
  refine ⟨x5, ?_, ?_⟩
  · unfold klE
    rw [ha0, ha1, ← hN]
    have f1 : subE (.fin a1) (.fin a0) = .fin x1 := e1
    have f2 : subE (.fin x1) (.fin N) = .fin x2 := e2
    have f3 : addE (.fin x2) (.fin t) = .fin x3 := e3
    have f4 : addE (.fin x3) (.fin q) = .fin x4 := e4
    have f5 : halfE (.fin x4) = .fin x5 := by
      unfold halfE Ext.divFin
      simp only
      rw [if_neg (by norm_num), e5]
    rw [f1, f2, f3, f4, f5]
  · rw [← hu]
    unfold klNorm
    rw [← hN]
    have g0 := abs_le.1 (le_refl |ld0 - Real.log S0.det|)
    have g1 := abs_le.1 (le_refl |ld1 - Real.log S1.det|)
    have gt := abs_le.1 (le_refl |t - (S1⁻¹ * S0).trace|)
    have gq := abs_le.1 (le_refl |q - (m1 - m0) ⬝ᵥ (S1⁻¹ *ᵥ (m1 - m0))|)
    have w1 : (8192 + 8 * (N + |t| + |q|)) * u = 8192 * u + 8 * (u * N) + 8 * (u * |t|) + 8 * (u * |q|) := by ring
    have pN : 0 ≤ u * N := by positivity
    have pt : 0 ≤ u * |t| := by positivity
    have pq : 0 ≤ u * |q| := by positivity
    rw [w1, abs_le]
    constructor <;> linarith

/-- **C151** is false: if only one of the determinants is too small, the divergence is infinite (new one too small) or the call
raises (old one too small: the divergence is minus infinity). -/
theorem C151_one_sided_counterexample (dim : ℕ) (ld0 ld1 t q : ℝ) (h1 : -708 ≤ ld1 ∧ ld1 ≤ 709) (h0 : ld0 ≤ -746) :
    klE dim ld0 ld1 (.fin t) (.fin q) = .posInf ∧ klE dim ld1 ld0 (.fin t) (.fin q) = .negInf := by
  obtain ⟨a, ha, -⟩ := logE_range h1.1 h1.2
  have hz : logE (detE ld0) = .negInf := by
    rw [detE_tiny h0]
    simp [logE]
  unfold klE
  rw [ha, hz]
  constructor
  · show halfE (addE (addE (subE .posInf (.fin dim)) (.fin t)) (.fin q)) = .posInf
    show rnd (if (2 : ℝ) < 0 then _ else _) = _
    rw [if_neg (by norm_num)]; rfl
  · show halfE (addE (addE (subE .negInf (.fin dim)) (.fin t)) (.fin q)) = .negInf
    show rnd (if (2 : ℝ) < 0 then _ else _) = _
    rw [if_neg (by norm_num)]; rfl

/-! ## Equal distributions -/

section Diag

variable {K : Type*} [Field K] [LinearOrder K] [IsStrictOrderedRing K] (R : Rnd K)

/-- tools.py:27-36 for diagonal matrices with the elements `c0`, `c1` (at most 8), and differences `dm` of the means; `l0`, `l1` are
the logarithms of the determinants. The inverse of a diagonal matrix is found by divisions; the products of the other elements
are zero. -/
def klDiag (l0 l1 : K) (c0 c1 dm : List K) : K :=
  let inv := c1.map (R.div 1)
  let tr := npSum R (List.zipWith R.mul inv c0)
  let q := npSum R (List.zipWith R.mul (List.zipWith R.mul dm inv) dm)
  R.mul (R.fl (1 / 2)) (R.add (R.add (R.sub (R.sub l1 l0) c0.length) tr) q)

variable [FloorRing K] (p : ℕ) (hp : 0 < p) (emin : ℤ)

/-- The number after 1. -/
theorem next_one {y : K} (hy : y ∈ (binary K p hp emin).F) (h : 1 < y) : 1 + (2 : K) ^ (1 - p : ℤ) ≤ y := by
  obtain ⟨m, e, hm, he, rfl⟩ := hy
  by_cases hep : e < 1 - p
  · exfalso
    have h1 : (m : K) * 2 ^ e < 1 := by
      have h2 : (m : K) < 2 ^ p := by
        have : m < 2 ^ p := lt_of_le_of_lt (le_abs_self m) hm
        exact_mod_cast this
      have h3 : (0 : K) < 2 ^ e := by positivity
      calc (m : K) * 2 ^ e < 2 ^ p * 2 ^ e := mul_lt_mul_of_pos_right h2 h3
        _ = 2 ^ ((p : ℤ) + e) := by rw [zpow_add₀ (by norm_num), zpow_natCast]
        _ ≤ 1 := zpow_le_one_of_nonpos₀ (by norm_num) (by omega)
    linarith
  · push Not at hep
    have h2 : (0 : K) < 2 ^ (1 - p : ℤ) := by positivity
    have e1 : (m : K) * 2 ^ e = (m * 2 ^ (e - (1 - p)).toNat : ℤ) * 2 ^ (1 - p : ℤ) := by
      push_cast
      rw [mul_assoc, ← zpow_natCast, Int.toNat_of_nonneg (by omega), ← zpow_add₀ (by norm_num), sub_add_cancel]
    have e2 : (1 : K) = (2 ^ (p - 1) : ℤ) * 2 ^ (1 - p : ℤ) := by
      push_cast
      rw [← zpow_natCast, ← zpow_add₀ (by norm_num), Nat.cast_sub hp]
      simp
    rw [e1] at h ⊢
    rw [e2] at h
    have h3 := lt_of_mul_lt_mul_right h h2.le
    have h4 : (2 ^ (p - 1) : ℤ) < m * 2 ^ (e - (1 - p)).toNat := by exact_mod_cast h3
    have h5 : ((2 ^ (p - 1) : ℤ) : K) + 1 ≤ (m * 2 ^ (e - (1 - p)).toNat : ℤ) := by exact_mod_cast h4
    calc (1 : K) + 2 ^ (1 - p : ℤ) = (((2 ^ (p - 1) : ℤ) : K) + 1) * 2 ^ (1 - p : ℤ) := by rw [add_mul, ← e2, one_mul]
      _ ≤ _ := mul_le_mul_of_nonneg_right h5 h2.le

/-- The relative error is smaller than half a unit in the last place of 1. -/
theorem rel_lt {x : K} (hx : (2 : K) ^ (emin + p - 1) ≤ x) : (binary K p hp emin).fl x < x * (1 + 2 ^ (-p : ℤ)) := by
  have hx0 : 0 < x := lt_of_lt_of_le (by positivity) hx
  have h2 : (0 : K) < 2 ^ (-p : ℤ) := by positivity
  have hlog : emin + p - 1 ≤ Int.log 2 x := (Int.zpow_le_iff_le_log (b := 2) (by norm_num) hx0).1 (by rwa [Nat.cast_ofNat])
  have h1 : |x| < (2 : K) ^ (Int.log 2 x + 1) := by
    have := Int.lt_zpow_succ_log_self (b := 2) (by norm_num) x
    rw [abs_of_pos hx0]
    rwa [Nat.cast_ofNat] at this
  have h3 : (2 : K) ^ Int.log 2 x ≤ x := by
    have := Int.zpow_log_le_self (b := 2) (by norm_num) hx0
    rwa [Nat.cast_ofNat] at this
  have he := binary_err p hp emin (Int.log 2 x + 1) (by omega) x h1
  have e : (2 : K) ^ (Int.log 2 x + 1 - p) / 2 = 2 ^ (-p : ℤ) * 2 ^ Int.log 2 x := by
    rw [show Int.log 2 x + 1 - (p : ℤ) = -p + Int.log 2 x + 1 by ring, zpow_add₀ (by norm_num), zpow_add₀ (by norm_num)]
    ring
  rw [e] at he
  rcases lt_or_eq_of_le h3 with h | h
  · have := le_abs_self ((binary K p hp emin).fl x - x)
    nlinarith
  · have hm : x ∈ (binary K p hp emin).F := by
      refine ⟨1, Int.log 2 x, ?_, by omega, ?_⟩
      · rw [abs_one]; exact one_lt_pow₀ (by norm_num) hp.ne'
      · rw [Int.cast_one, one_mul]; exact h.symm
    rw [(binary K p hp emin).fl_of_mem hm]
    nlinarith

/-- A number times its inverse is never rounded to more than 1. -/
theorem inv_mul_le {c : K} (hc : 0 < c) (hc1 : (2 : K) ^ (emin + p - 1) ≤ 1 / c) (he : emin ≤ 0) :
    (binary K p hp emin).mul ((binary K p hp emin).div 1 c) c ≤ 1 := by
  have h1 := rel_lt p hp emin hc1
  have h2 : (binary K p hp emin).div 1 c * c < 1 + 2 ^ (-p : ℤ) := by
    have : (binary K p hp emin).div 1 c * c < 1 / c * (1 + 2 ^ (-p : ℤ)) * c := mul_lt_mul_of_pos_right h1 hc
    have e : 1 / c * (1 + (2 : K) ^ (-p : ℤ)) * c = 1 + 2 ^ (-p : ℤ) := by field_simp
    rwa [e] at this
  by_contra hc2
  push Not at hc2
  have hmem := (binary K p hp emin).mem ((binary K p hp emin).div 1 c * c)
  have hn := next_one p hp emin hmem hc2
  have h1m : (1 : K) ∈ (binary K p hp emin).F := by
    have := nat_mem (K := K) p hp emin he 1 (Nat.one_le_two_pow)
    simpa using this
  by_cases hx : (binary K p hp emin).div 1 c * c ≤ 1
  · exact absurd ((binary K p hp emin).fl_le h1m hx) (not_le.2 hc2)
  push Not at hx
  have hnear := (binary K p hp emin).near ((binary K p hp emin).div 1 c * c) 1 h1m
  rw [abs_of_neg (by linarith : (1 : K) - (binary K p hp emin).div 1 c * c < 0)] at hnear
  have h3 := (le_abs_self _).trans hnear
  have e : (2 : K) ^ (1 - p : ℤ) = 2 * 2 ^ (-p : ℤ) := by rw [sub_eq_add_neg, zpow_add₀ (by norm_num), zpow_one]
  rw [e] at hn
  linarith

theorem foldl_add_le (he : emin ≤ 0) : ∀ (l : List K) (k : ℕ) (a : K), a ≤ k → (∀ x ∈ l, x ≤ 1) → k + l.length ≤ 2 ^ p →
    l.foldl (binary K p hp emin).add a ≤ ((k + l.length : ℕ) : K)
  | [], k, a, ha, _, _ => by simpa using ha
  | x :: l, k, a, ha, hl, hk => by
    rw [List.foldl_cons]
    have h1 : (binary K p hp emin).add a x ≤ ((k + 1 : ℕ) : K) := by
      refine (binary K p hp emin).fl_le (nat_mem p hp emin he _ (by simp at hk; omega)) ?_
      push_cast
      exact add_le_add ha (hl x (by simp))
    have := foldl_add_le he l (k + 1) _ h1 (fun y hy => hl y (by simp [hy])) (by simp at hk ⊢; omega)
    refine this.trans (le_of_eq ?_)
    congr 1
    simp; omega

theorem npSum_le (he : emin ≤ 0) (l : List K) (hl : ∀ x ∈ l, x ≤ 1) (hk : l.length ≤ 2 ^ p) :
    npSum (binary K p hp emin) l ≤ (l.length : K) := by
  cases l with
  | nil => simp [npSum]
  | cons a l =>
    unfold npSum
    have h1 := foldl_add_le p hp emin he l 0 0 (by simp) (fun y hy => hl y (by simp [hy])) (by simp at hk ⊢; omega)
    refine (binary K p hp emin).fl_le (nat_mem p hp emin he _ hk) ?_
    have := hl a (by simp)
    simp at h1 ⊢
    linarith

theorem npSum_zero (l : List K) (h : ∀ x ∈ l, x = 0) : npSum (binary K p hp emin) l = 0 := by
  have h0 : (0 : K) ∈ (binary K p hp emin).F := zero_mem p hp emin
  have hf : ∀ l : List K, (∀ x ∈ l, x = 0) → l.foldl (binary K p hp emin).add 0 = 0 := by
    intro l
    induction l with
    | nil => intro _; rfl
    | cons x l ih =>
      intro hl
      rw [List.foldl_cons, hl x (by simp)]
      have : (binary K p hp emin).add 0 0 = 0 := by
        unfold Rnd.add
        rw [add_zero, (binary K p hp emin).fl_of_mem h0]
      rw [this]
      exact ih fun y hy => hl y (by simp [hy])
  cases l with
  | nil => rfl
  | cons a l =>
    show (binary K p hp emin).add a (l.foldl (binary K p hp emin).add 0) = 0
    rw [hf l fun y hy => h y (by simp [hy]), h a (by simp)]
    unfold Rnd.add
    rw [add_zero, (binary K p hp emin).fl_of_mem h0]

/-- **C151**: the divergence of two equal distributions (with diagonal covariance) is never positive: it is zero, or the call raises. -/
theorem C151_equal (he : emin ≤ 0) (l : K) (c : List K) (hc : ∀ x ∈ c, 0 < x ∧ (2 : K) ^ (emin + p - 1) ≤ 1 / x)
    (hn : c.length ≤ 2 ^ p) : klDiag (binary K p hp emin) l l c c (List.replicate c.length 0) ≤ 0 := by
  have h0 : (0 : K) ∈ (binary K p hp emin).F := zero_mem p hp emin
  have hz : ∀ x : K, x = 0 → (binary K p hp emin).fl x = 0 := by rintro x rfl; exact (binary K p hp emin).fl_of_mem h0
  have hneg : -(c.length : K) ∈ (binary K p hp emin).F := by
    have := mem_of_le (K := K) p emin hp (-c.length) 0 (by rw [abs_neg, Nat.abs_cast]; exact_mod_cast hn) he
    simp only [zpow_zero, mul_one, Int.cast_neg, Int.cast_natCast] at this
    exact this
  have htr : npSum (binary K p hp emin) (List.zipWith (binary K p hp emin).mul (c.map ((binary K p hp emin).div 1)) c) ≤ (c.length : K) := by
    have hz : List.zipWith (binary K p hp emin).mul (c.map ((binary K p hp emin).div 1)) c =
        c.map fun x => (binary K p hp emin).mul ((binary K p hp emin).div 1 x) x := by
      rw [List.zipWith_map_left, List.zipWith_self]
    rw [hz]
    have := npSum_le p hp emin he (c.map fun x => (binary K p hp emin).mul ((binary K p hp emin).div 1 x) x) (by
      intro x hx
      obtain ⟨y, hy, rfl⟩ := List.mem_map.1 hx
      exact inv_mul_le p hp emin (hc y hy).1 (hc y hy).2 he) (by simpa using hn)
    simpa using this
  have hq : npSum (binary K p hp emin) (List.zipWith (binary K p hp emin).mul (List.zipWith (binary K p hp emin).mul
      (List.replicate c.length 0) (c.map ((binary K p hp emin).div 1))) (List.replicate c.length 0)) = 0 := by
    apply npSum_zero
    intro x hx
    obtain ⟨i, hi, rfl⟩ := List.mem_iff_getElem.1 hx
    simp only [List.getElem_zipWith, List.getElem_replicate]
    exact hz _ (mul_zero _)
  unfold klDiag
  simp only
  rw [hq]
  have e1 : (binary K p hp emin).sub ((binary K p hp emin).sub l l) (c.length : K) = -(c.length : K) := by
    unfold Rnd.sub
    rw [hz _ (sub_self l), zero_sub, (binary K p hp emin).fl_of_mem hneg]
  rw [e1]
  have e2 : (binary K p hp emin).add (-(c.length : K)) (npSum (binary K p hp emin)
      (List.zipWith (binary K p hp emin).mul (c.map ((binary K p hp emin).div 1)) c)) ≤ 0 :=
    (binary K p hp emin).fl_le h0 (by linarith)
  have e3 : (binary K p hp emin).add ((binary K p hp emin).add (-(c.length : K)) (npSum (binary K p hp emin)
      (List.zipWith (binary K p hp emin).mul (c.map ((binary K p hp emin).div 1)) c))) 0 ≤ 0 :=
    (binary K p hp emin).fl_le h0 (by linarith)
  have e4 : 0 ≤ (binary K p hp emin).fl (1 / 2) := (binary K p hp emin).le_fl h0 (by positivity)
  exact (binary K p hp emin).fl_le h0 (mul_nonpos_of_nonneg_of_nonpos e4 e3)

/-- Without rounding, it is the divergence for diagonal matrices. -/
theorem C151_exact {d : ℕ} (m0 m1 c0 c1 : Fin d → ℝ) (h : ∀ i, c1 i ≠ 0) :
    klDiag (exact ℝ) (Real.log (diagonal c0).det) (Real.log (diagonal c1).det) (List.ofFn c0) (List.ofFn c1) (List.ofFn (m1 - m0)) =
      klNorm m0 (diagonal c0) m1 (diagonal c1) := by
  have hsum : ∀ l : List ℝ, npSum (exact ℝ) l = l.sum := by
    have hf : ∀ (l : List ℝ) (a : ℝ), l.foldl (exact ℝ).add a = a + l.sum := by
      intro l
      induction l with
      | nil => intro a; simp
      | cons x l ih =>
        intro a
        rw [List.foldl_cons, ih, List.sum_cons]
        show a + x + l.sum = _
        ring
    intro l
    cases l with
    | nil => rfl
    | cons a l =>
      show a + l.foldl (exact ℝ).add 0 = _
      rw [hf, List.sum_cons, zero_add]
  have hz : ∀ f g : Fin d → ℝ, List.zipWith (exact ℝ).mul (List.ofFn f) (List.ofFn g) = List.ofFn fun i => f i * g i := by
    intro f g
    apply List.ext_getElem
    · simp
    · intro i h1 h2
      simp
      rfl
  have hi : (List.ofFn c1).map ((exact ℝ).div 1) = List.ofFn fun i => (c1 i)⁻¹ := by
    rw [List.map_ofFn]
    congr 1
    funext i
    show 1 / c1 i = _
    rw [one_div]
  have hinv : (diagonal c1)⁻¹ = diagonal fun i => (c1 i)⁻¹ := by
    apply inv_eq_right_inv
    rw [diagonal_mul_diagonal, ← diagonal_one]
    congr 1
    funext i
    exact mul_inv_cancel₀ (h i)
  unfold klDiag klNorm
  simp only
  rw [hi, hz, hz, hz, hsum, hsum, List.sum_ofFn, List.sum_ofFn, hinv, diagonal_mul_diagonal, trace_diagonal, List.length_ofFn, Fintype.card_fin]
  show (1 / 2 : ℝ) * ((Real.log (diagonal c1).det - Real.log (diagonal c0).det - d + _) + _) = _
  rw [show (0.5 : ℝ) = 1 / 2 by norm_num]
  congr 2
  unfold dotProduct
  apply Finset.sum_congr rfl
  intro i _
  rw [mulVec_diagonal]
  ring

end Diag

/-- **C151** is false: the divergence of two equal distributions, of two independent parameters of variance 49, is negative. -/
theorem C151_equal_counterexample (l : ℚ) : klDiag binary64 l l [49, 49] [49, 49] [0, 0] = -1 / 2 ^ 53 := by
  unfold klDiag
  rw [show binary64.sub l l = 0 by unfold Rnd.sub; rw [sub_self]; decide +kernel]
  decide +kernel

/-- **C151** is false: with samples that do not change at all (two independent parameters of variance 49), every call after the
first raises `ConvergenceCheckError`: `GaussianKL` never converges, whatever the limit. -/
theorem C151_constant_counterexample (l limit : ℚ) (lt : ℕ) (hlt : 1 ≤ lt) (n : ℕ) :
    (Conv.runCalls (fun s i => Conv.KL.converged limit lt
      (Conv.KL.gaussian (fun (c c0 : List ℚ) => some (.fin (klDiag binary64 l l c c0 [0, 0]))) s i)) Conv.KL.init
      (List.replicate n (some [49, 49]) ++ [some [49, 49]])).2.getLast? ≠ some (.ok true) := by
  intro hc
  rw [Conv.C36_gaussian_kl _ _ _ hlt] at hc
  obtain ⟨-, hv⟩ := hc
  obtain ⟨v, hv, -⟩ := hv n (by simp) (by simp; omega)
  revert hv
  have h1 : ((List.replicate n (some [49, 49]) ++ [some [49, 49]])[n]?).join = some ([49, 49] : List ℚ) := by
    rw [List.getElem?_append_right (by simp)]
    simp
  have h2 : (List.replicate n (some ([49, 49] : List ℚ)) ++ [some [49, 49]]).take n = List.replicate n (some ([49, 49] : List ℚ)) := by
    have := List.take_left (l₁ := List.replicate n (some ([49, 49] : List ℚ))) (l₂ := [some [49, 49]])
    rwa [List.length_replicate] at this
  unfold Conv.klSpec
  rw [h1, h2]
  have h3 : ((List.replicate n (some ([49, 49] : List ℚ))).filterMap id).getLast? = none ∨
      ((List.replicate n (some ([49, 49] : List ℚ))).filterMap id).getLast? = some [49, 49] := by
    rw [List.filterMap_replicate]
    cases n with
    | zero => left; rfl
    | succ k => right; simp [List.getLast?_replicate]
  rcases h3 with h3 | h3
  · rw [h3]; simp [Conv.klEntry]
  · rw [h3]
    unfold Conv.klEntry
    simp only
    rw [C151_equal_counterexample]
    have : (Ext.fin (-1 / 2 ^ 53 : ℚ)).lt (.fin 0) = true := by decide +kernel
    rw [this]
    simp

/-! ## Examples -/

/-- Twenty parameters with standard deviations 1e-9 (the amplitude of the primordial perturbations is 2e-9). -/
example (tr q : Ext ℝ) : klE 20 (20 * Real.log (1e-18)) (20 * Real.log (1e-18)) tr q = .nan := by
  have h : 20 * Real.log (1e-18) ≤ -746 := by
    have h1 : Real.log (1e-18 : ℝ) = -(18 * Real.log 10) := by
      rw [show (1e-18 : ℝ) = (10 ^ 18)⁻¹ by norm_num, Real.log_inv, Real.log_pow]; norm_num
    have h2 : (2.079 : ℝ) < Real.log 10 := by
      have h4 : Real.log 8 ≤ Real.log 10 := Real.log_le_log (by norm_num) (by norm_num)
      have h5 : Real.log 8 = 3 * Real.log 2 := by rw [show (8 : ℝ) = 2 ^ 3 by norm_num, Real.log_pow]; norm_num
      have := Real.log_two_gt_d9
      linarith
    rw [h1]
    linarith
  exact C151_determinants_counterexample 20 _ _ (.inl ⟨h, h⟩) tr q

example : ∃ c : ℝ, 0 < c ∧ klE 2 (Real.log ((c ^ 2 • (1 : Matrix (Fin 2) (Fin 2) ℝ)).det)) (Real.log ((c ^ 2 • (1 : Matrix (Fin 2) (Fin 2) ℝ)).det))
    (.fin 2) (.fin 1) = .nan := by
  obtain ⟨c, C, hc, -, h⟩ := C151_units_counterexample (n := Fin 2) ![0, 0] ![1, 0] PosDef.one PosDef.one
  exact ⟨c, hc, by simpa using (h c hc (.inl le_rfl)).2 _ _ (by simp) (by simp) (.fin 2) (.fin 1)⟩

example : ∃ v, klE 2 0 0 (.fin 2) (.fin 1) = .fin v ∧ |v - 1 / 2| ≤ 2 ^ (-39 : ℤ) := by
  obtain ⟨v, hv, he⟩ := C151_range_partial (n := Fin 2) ![0, 0] ![1, 0] 1 1 0 0 2 1 (by norm_num) (by norm_num) (by
    rw [Fintype.card_fin]
    calc ((2 : ℕ) : ℝ) + |2| + |1| ≤ 2 ^ 3 := by norm_num
      _ ≤ 2 ^ 900 := pow_le_pow_right₀ (by norm_num) (by norm_num))
  refine ⟨v, by simpa using hv, ?_⟩
  have e : klNorm ![0, 0] (1 : Matrix (Fin 2) (Fin 2) ℝ) ![1, 0] 1 = 1 / 2 := by
    simp [klNorm]
    norm_num
  rw [e] at he
  refine he.trans ?_
  simp
  norm_num

example : klE 3 (-800) 5 (.fin 1) (.fin 0) = .posInf := (C151_one_sided_counterexample 3 (-800) 5 1 0 (by norm_num) (by norm_num)).1

example : klDiag binary64 7 7 [49, 3] [49, 3] (List.replicate 2 0) ≤ 0 :=
  C151_equal 53 (by norm_num) (-1074) (by norm_num) 7 [49, 3] (by
    have h : (2 : ℚ) ^ ((-1074 : ℤ) + (53 : ℕ) - 1) ≤ 1 / 49 := by
      calc (2 : ℚ) ^ ((-1074 : ℤ) + (53 : ℕ) - 1) ≤ 2 ^ (-10 : ℤ) := zpow_le_zpow_right₀ (by norm_num) (by norm_num)
        _ ≤ 1 / 49 := by norm_num
    intro x hx
    simp at hx
    rcases hx with rfl | rfl
    · exact ⟨by norm_num, h⟩
    · exact ⟨by norm_num, h.trans (by norm_num)⟩) (by norm_num)

example : klDiag (exact ℝ) (Real.log (diagonal ![2, 3]).det) (Real.log (diagonal ![1, 4]).det) (List.ofFn ![2, 3]) (List.ofFn ![1, 4])
    (List.ofFn (![1, 0] - ![0, 0])) = klNorm ![0, 0] (diagonal ![2, 3]) ![1, 0] (diagonal ![1, 4]) :=
  C151_exact ![0, 0] ![1, 0] ![2, 3] ![1, 4] (by intro i; fin_cases i <;> norm_num)

/-- In other units of the same parameters it is not. -/
example : klDiag binary64 7 7 [4, 4] [4, 4] [0, 0] = 0 := by decide +kernel

example : (Conv.runCalls (fun s i => Conv.KL.converged 1 2
    (Conv.KL.gaussian (fun (c c0 : List ℚ) => some (.fin (klDiag binary64 3 3 c c0 [0, 0]))) s i)) Conv.KL.init
    (List.replicate 100 (some [49, 49]) ++ [some [49, 49]])).2.getLast? ≠ some (.ok true) :=
  C151_constant_counterexample 3 1 2 (by norm_num) 100

/-- Samples with determinants below the range. -/
example (h : List (Option ℕ)) (x : Option ℕ) :
    (Conv.runCalls (fun s i => Conv.KL.converged 1000 2
      (Conv.KL.gaussian (fun m m0 : ℕ => some (klE 20 (-800 - m) (-800 - m0) (.fin 20) (.fin 0))) s i)) Conv.KL.init (h ++ [x])).2.getLast? ≠
      some (.ok true) :=
  C151_never_counterexample 20 (fun m : ℕ => -800 - (m : ℝ)) (fun _ _ => .fin 20) (fun _ _ => .fin 0)
    (.inl fun m => by have : (0 : ℝ) ≤ m := Nat.cast_nonneg m; linarith) 1000 2 (by norm_num) h x

end GPry.Round
