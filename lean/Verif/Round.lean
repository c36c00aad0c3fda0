import Mathlib.Data.Int.Log
import Mathlib.Algebra.Order.Round
import Mathlib.Data.Rat.Floor
import Mathlib.Algebra.Order.Floor.Ring
import Mathlib.Algebra.Order.Field.Power
import Mathlib.Tactic.Linarith
import Mathlib.Tactic.Ring
import Mathlib.Tactic.FieldSimp
import Mathlib.Tactic.Positivity
import Mathlib.Tactic.NormNum

set_option linter.all false

/-!
# Floating point numbers

The other modules use exact arithmetic. Here, the result of every operation is rounded to a nearest representable number, as IEEE 754 asks of
`+`, `-`, `*` and `/`. The representable numbers are any set (`Rnd`); `binary` has the numbers `m * 2 ^ e` with `|m| < 2 ^ p` and `emin ≤ e`, ties to even,
so that `binary64` has the normal and subnormal numbers of double precision. Overflow is left out: there is no largest number.
-/

namespace GPry.Round

variable {K : Type*} [Field K] [LinearOrder K] [IsStrictOrderedRing K]

/-- Representable numbers, and rounding to a nearest one. -/
structure Rnd (K : Type*) [Field K] [LinearOrder K] where
  F : Set K
  fl : K → K
  mem : ∀ x, fl x ∈ F
  near : ∀ x, ∀ y ∈ F, |fl x - x| ≤ |y - x|

namespace Rnd

variable (R : Rnd K)

theorem fl_of_mem {x : K} (h : x ∈ R.F) : R.fl x = x := by
  have := R.near x x h
  rw [sub_self, abs_zero] at this
  exact sub_eq_zero.1 (abs_eq_zero.1 (le_antisymm this (abs_nonneg _)))

theorem fl_fl (x : K) : R.fl (R.fl x) = R.fl x := R.fl_of_mem (R.mem x)

theorem fl_le {x y : K} (hy : y ∈ R.F) (h : x ≤ y) : R.fl x ≤ y := by
  by_contra hc
  push Not at hc
  have := R.near x y hy
  rw [abs_of_nonneg (by linarith), abs_of_nonneg (by linarith)] at this
  linarith

theorem le_fl {x y : K} (hy : y ∈ R.F) (h : y ≤ x) : y ≤ R.fl x := by
  by_contra hc
  push Not at hc
  have := R.near x y hy
  rw [abs_of_nonpos (by linarith), abs_of_nonpos (by linarith)] at this
  linarith

theorem fl_mono {x y : K} (h : x ≤ y) : R.fl x ≤ R.fl y := by
  rcases eq_or_lt_of_le h with rfl | h
  · exact le_rfl
  by_contra hc
  push Not at hc
  by_cases h1 : x ≤ R.fl y
  · exact absurd (R.fl_le (R.mem y) h1) (not_le.2 hc)
  by_cases h2 : R.fl x ≤ y
  · exact absurd (R.le_fl (R.mem x) h2) (not_le.2 hc)
  push Not at h1 h2
  have a := R.near x _ (R.mem y)
  have b := R.near y _ (R.mem x)
  rw [abs_of_nonneg (by linarith), abs_of_nonpos (by linarith)] at a
  rw [abs_of_nonpos (by linarith), abs_of_nonneg (by linarith)] at b
  linarith

/-- Nothing representable lies strictly between a number and what it is rounded to. -/
theorem le_of_lt_fl {t x : K} (ht : t ∈ R.F) (h : t < R.fl x) : t ≤ x := by
  by_contra hc
  push Not at hc
  exact absurd (R.fl_le ht hc.le) (not_le.2 h)

theorem le_of_fl_lt {t x : K} (ht : t ∈ R.F) (h : R.fl x < t) : x ≤ t := by
  by_contra hc
  push Not at hc
  exact absurd (R.le_fl ht hc.le) (not_le.2 h)

/-! IEEE operations -/

def add (x y : K) : K := R.fl (x + y)
def sub (x y : K) : K := R.fl (x - y)
def mul (x y : K) : K := R.fl (x * y)
def div (x y : K) : K := R.fl (x / y)

end Rnd

/-- Exact arithmetic as a special case: everything is representable. -/
def exact (K : Type*) [Field K] [LinearOrder K] [IsStrictOrderedRing K] : Rnd K := ⟨Set.univ, id, fun _ => trivial, fun x y _ => by simp⟩

/-! ## Binary floating point numbers -/

section
variable [FloorRing K]

/-- To the nearest integer, ties to even. -/
def rne (q : K) : ℤ :=
  if Int.fract q < 1 / 2 then ⌊q⌋ else if 1 / 2 < Int.fract q then ⌊q⌋ + 1 else if ⌊q⌋ % 2 = 0 then ⌊q⌋ else ⌊q⌋ + 1

theorem rne_err (q : K) : |(rne q : K) - q| ≤ 1 / 2 := by
  have h0 := Int.fract_nonneg q
  have h1 := Int.fract_lt_one q
  have h2 := Int.self_sub_floor q
  unfold rne
  rw [abs_le]
  split_ifs <;> push_cast <;> constructor <;> linarith

theorem rne_near (q : K) (n : ℤ) : |(rne q : K) - q| ≤ |(n : K) - q| := by
  by_cases h : n = rne q
  · rw [h]
  have h1 : (1 : K) ≤ |(n : K) - rne q| := by
    have : (1 : ℤ) ≤ |n - rne q| := Int.one_le_abs (sub_ne_zero.2 h)
    exact_mod_cast this
  have h2 := rne_err q
  have h3 : |(n : K) - rne q| ≤ |(n : K) - q| + |(rne q : K) - q| := by
    have := abs_sub_le (n : K) q (rne q)
    rwa [abs_sub_comm q] at this
  linarith

variable (p : ℕ) (emin : ℤ)

/-- Numbers `m * 2 ^ e`. -/
def Fin2 (K : Type*) [Field K] (p : ℕ) (emin : ℤ) : Set K := {x | ∃ m e : ℤ, |m| < 2 ^ p ∧ emin ≤ e ∧ x = m * (2 : K) ^ e}

/-- Exponent of the last digit. -/
def lastExp (x : K) : ℤ := max emin (Int.log 2 |x| - p + 1)

def flBin (x : K) : K := rne (x / (2 : K) ^ lastExp p emin x) * (2 : K) ^ lastExp p emin x

theorem mem_of_le (hp : 0 < p) (m e : ℤ) (hm : |m| ≤ 2 ^ p) (he : emin ≤ e) : (m : K) * (2 : K) ^ e ∈ Fin2 K p emin := by
  rcases lt_or_eq_of_le hm with h | h
  · exact ⟨m, e, h, he, rfl⟩
  obtain ⟨q, rfl⟩ : ∃ q, p = q + 1 := ⟨p - 1, by omega⟩
  rcases abs_eq (by positivity : (0 : ℤ) ≤ 2 ^ (q + 1)) |>.1 h with h | h
  · refine ⟨2 ^ q, e + 1, ?_, by omega, ?_⟩
    · rw [abs_of_nonneg (by positivity)]; exact pow_lt_pow_right₀ (by norm_num) (by omega)
    · rw [h, zpow_add₀ (by norm_num)]; push_cast; ring
  · refine ⟨-2 ^ q, e + 1, ?_, by omega, ?_⟩
    · rw [abs_neg, abs_of_nonneg (by positivity)]; exact pow_lt_pow_right₀ (by norm_num) (by omega)
    · rw [h, zpow_add₀ (by norm_num)]; push_cast; ring

theorem abs_lt_lastExp (x : K) : |x| < (2 : K) ^ (lastExp p emin x + p) := by
  by_cases hx : x = 0
  · subst hx; rw [abs_zero]; positivity
  have h := Int.lt_zpow_succ_log_self (b := 2) (by norm_num) |x|
  refine lt_of_lt_of_le h ?_
  rw [Nat.cast_ofNat]
  apply zpow_le_zpow_right₀ (by norm_num)
  have := le_max_right emin (Int.log 2 |x| - p + 1)
  unfold lastExp
  omega

theorem flBin_mem (hp : 0 < p) (x : K) : flBin p emin x ∈ Fin2 K p emin := by
  refine mem_of_le p emin hp _ _ ?_ (le_max_left _ _)
  set e := lastExp p emin x
  have h2 : (0 : K) < (2 : K) ^ e := by positivity
  have h1 : |x / (2 : K) ^ e| < 2 ^ p := by
    rw [abs_div, abs_of_pos h2, div_lt_iff₀ h2, ← zpow_natCast, ← zpow_add₀ (by norm_num)]
    have := abs_lt_lastExp p emin x
    rwa [add_comm] at this
  have h3 := rne_err (x / (2 : K) ^ e)
  have h4 : |(rne (x / (2 : K) ^ e) : K)| < 2 ^ p + 1 := by
    have := abs_sub_abs_le_abs_sub (rne (x / (2 : K) ^ e) : K) (x / (2 : K) ^ e)
    linarith
  have h5 : |rne (x / (2 : K) ^ e)| < 2 ^ p + 1 := by exact_mod_cast h4
  omega

theorem flBin_near (hp : 0 < p) (x : K) (y : K) (hy : y ∈ Fin2 K p emin) : |flBin p emin x - x| ≤ |y - x| := by
  obtain ⟨m, e', hm, he', rfl⟩ := hy
  unfold flBin
  set e := lastExp p emin x with hedef
  have h2 : (0 : K) < (2 : K) ^ e := by positivity
  -- multiples of the last digit
  have key : ∀ n : ℤ, |(rne (x / (2 : K) ^ e) : K) * (2 : K) ^ e - x| ≤ |(n : K) * (2 : K) ^ e - x| := by
    intro n
    have e1 : ∀ k : K, |k * (2 : K) ^ e - x| = |k - x / (2 : K) ^ e| * (2 : K) ^ e := by
      intro k
      rw [← abs_of_pos h2, ← abs_mul, abs_of_pos h2]
      congr 1
      field_simp
    rw [e1, e1]
    exact mul_le_mul_of_nonneg_right (rne_near _ n) h2.le
  rcases le_or_gt e e' with h | h
  · have : (m : K) * (2 : K) ^ e' = ((m * 2 ^ (e' - e).toNat : ℤ) : K) * (2 : K) ^ e := by
      push_cast
      rw [mul_assoc, ← zpow_natCast, Int.toNat_of_nonneg (by omega), ← zpow_add₀ (by norm_num)]
      congr 2; omega
    rw [this]
    exact key _
  · -- `y` has smaller digits: it is not as large as `x`
    have hlog : e = Int.log 2 |x| - p + 1 := by
      rcases max_choice emin (Int.log 2 |x| - p + 1) with h' | h'
      · have : e = emin := h'
        omega
      · exact h'
    by_cases hx : x = 0
    · subst hx
      have := key 0
      simp only [Int.cast_zero, zero_mul, sub_self, abs_zero] at this
      exact this.trans (abs_nonneg _)
    have hge : (2 : K) ^ (e + p - 1) ≤ |x| := by
      have := Int.zpow_log_le_self (b := 2) (by norm_num) (abs_pos.2 hx)
      rw [Nat.cast_ofNat] at this
      rwa [show e + p - 1 = Int.log 2 |x| by omega]
    have hy : |(m : K) * (2 : K) ^ e'| ≤ (2 : K) ^ (e + p - 1) := by
      rw [abs_mul, abs_of_pos (by positivity : (0 : K) < 2 ^ e')]
      have hm' : |(m : K)| ≤ 2 ^ p := by exact_mod_cast hm.le
      calc |(m : K)| * 2 ^ e' ≤ 2 ^ p * 2 ^ e' := mul_le_mul_of_nonneg_right hm' (by positivity)
        _ = (2 : K) ^ (p + e' : ℤ) := by rw [zpow_add₀ (by norm_num), zpow_natCast]
        _ ≤ _ := zpow_le_zpow_right₀ (by norm_num) (by omega)
    have hP : ((2 ^ (p - 1) : ℤ) : K) * (2 : K) ^ e = (2 : K) ^ (e + p - 1) := by
      push_cast
      rw [← zpow_natCast, ← zpow_add₀ (by norm_num)]
      congr 1; omega
    obtain ⟨ya, yb⟩ := abs_le.1 hy
    rcases lt_or_gt_of_ne hx with h0 | h0
    · rw [abs_of_neg h0] at hge
      have := key (-2 ^ (p - 1))
      rw [Int.cast_neg, neg_mul, hP] at this
      refine this.trans ?_
      rw [abs_of_nonneg (by linarith), abs_of_nonneg (by linarith)]
      linarith
    · rw [abs_of_pos h0] at hge
      have := key (2 ^ (p - 1))
      rw [hP] at this
      refine this.trans ?_
      rw [abs_of_nonpos (by linarith), abs_of_nonpos (by linarith)]
      linarith

/-- Binary floating point numbers with `p` digits, ties to even. -/
def binary (K : Type*) [Field K] [LinearOrder K] [IsStrictOrderedRing K] [FloorRing K] (p : ℕ) (hp : 0 < p) (emin : ℤ) : Rnd K :=
  ⟨Fin2 K p emin, flBin p emin, flBin_mem p emin hp, flBin_near p emin hp⟩

/-- Double precision. -/
def binary64 : Rnd ℚ := binary ℚ 53 (by norm_num) (-1074)

end

example : binary64.fl (1 / 10) = 3602879701896397 / 36028797018963968 := by decide +kernel
example : binary64.fl (binary64.fl (1 / 10) + binary64.fl (2 / 10)) ≠ binary64.fl (3 / 10) := by decide +kernel
/-- `8.2 * 15` is `122.99999999999999`. -/
example : binary64.fl (binary64.fl (82 / 10) * 15) = 123 - 1 / 2 ^ 46 := by decide +kernel

end GPry.Round
