import Verif.RoundClassify
import Verif.Mpi

set_option linter.all false

/-!
# Counts computed with floating point numbers (C147)
-/

namespace GPry.Round

open GPry

variable {K : Type*} [Field K] [LinearOrder K] [IsStrictOrderedRing K] [FloorRing K] (R : Rnd K)

/-- `int(np.ceil(n / q))`: run.py:817, 1100, 1108-1109, mpi.py:98. The quotient of two integers is correctly rounded, as Python does. -/
def ceilQ (n q : ℕ) : ℤ := ⌈R.div (n : K) (q : K)⌉

/-- `int(x)` -/
def trunc (x : K) : ℤ := if 0 ≤ x then ⌊x⌋ else ⌈x⌉

/-- `int(n / q)`: mpi.py:101, progress.py:171-172 -/
def floorQ (n q : ℕ) : ℤ := trunc (R.div (n : K) (q : K))

/-- tools.py:212, 227-230: `int(float(value) * X)` for `value` followed by the letter, or convergence.py:700, gp_acquisition.py:697. The number that is written is rounded, then the
product. -/
def xnum (a : K) (d : ℕ) : ℤ := trunc (R.mul (R.fl a) (d : K))

/-- Integers up to `2 ^ p` are representable. -/
theorem nat_mem (p : ℕ) (hp : 0 < p) (emin : ℤ) (he : emin ≤ 0) (n : ℕ) (h : n ≤ 2 ^ p) : (n : K) ∈ (binary K p hp emin).F := by
  have := mem_of_le (K := K) p emin hp (n : ℤ) 0 (by rw [abs_of_nonneg (by positivity)]; exact_mod_cast h) he
  rw [zpow_zero, mul_one, Int.cast_natCast] at this
  exact this

theorem div_rel (p : ℕ) (hp : 0 < p) (emin : ℤ) (he : emin ≤ 1 - 2 * p) (n q : ℕ) (hq : 0 < q) (hq' : q ≤ 2 ^ p) (hn : n < 2 ^ p) :
    |(binary K p hp emin).div (n : K) q - (n : K) / q| < 1 / q := by
  have hqK : (0 : K) < q := by exact_mod_cast hq
  have hrel : Rel (binary K p hp emin) ((2 : K) ^ (-p : ℤ)) ((n : K) / q) := by
    apply binary_rel
    rcases Nat.eq_zero_or_pos n with h | h
    · left; simp [h]
    · right
      rw [abs_of_nonneg (by positivity)]
      have h1 : (1 : K) ≤ n := by exact_mod_cast h
      have h2 : (q : K) ≤ 2 ^ p := by exact_mod_cast hq'
      have h3 : (2 : K) ^ (emin + p - 1) ≤ 2 ^ (-p : ℤ) := zpow_le_zpow_right₀ (by norm_num) (by omega)
      refine h3.trans ?_
      rw [le_div_iff₀ hqK, zpow_neg, zpow_natCast]
      calc ((2 : K) ^ p)⁻¹ * q ≤ (2 ^ p)⁻¹ * 2 ^ p := mul_le_mul_of_nonneg_left h2 (by positivity)
        _ = 1 := inv_mul_cancel₀ (by positivity)
        _ ≤ n := h1
  refine lt_of_le_of_lt hrel ?_
  rw [abs_of_nonneg (by positivity), zpow_neg, zpow_natCast, ← mul_div_assoc]
  apply div_lt_div_of_pos_right _ hqK
  have h4 : (n : K) < 2 ^ p := by exact_mod_cast hn
  calc ((2 : K) ^ p)⁻¹ * n < (2 ^ p)⁻¹ * 2 ^ p := mul_lt_mul_of_pos_left h4 (by positivity)
    _ = 1 := inv_mul_cancel₀ (by positivity)

/-- **C147**: the quotient rounded up is the one of the integers, below `2 ^ p` (`2 ^ 53` in double precision). -/
theorem C147_ceil (p : ℕ) (hp : 0 < p) (emin : ℤ) (he : emin ≤ 1 - 2 * p) (n q : ℕ) (hq : 0 < q) (hq' : q ≤ 2 ^ p) (hn : n < 2 ^ p) :
    ceilQ (binary K p hp emin) n q = Mpi.ceilDiv n q := by
  have hqK : (0 : K) < q := by exact_mod_cast hq
  obtain ⟨l1, -⟩ := abs_lt.1 (div_rel (K := K) p hp emin he n q hq hq' hn)
  have hk : n ≤ Mpi.ceilDiv n q * q ∧ Mpi.ceilDiv n q * q < n + q := by
    unfold Mpi.ceilDiv
    have h1 := Nat.div_mul_le_self (n + (q - 1)) q
    have h2 := Nat.lt_div_mul_add (a := n + (q - 1)) hq
    omega
  generalize Mpi.ceilDiv n q = k at hk
  have hk1 : (n : K) ≤ k * q := by exact_mod_cast hk.1
  have hk2 : (k : K) * q + 1 ≤ n + q := by exact_mod_cast hk.2
  have hkle : k ≤ 2 ^ p := by
    by_contra hc
    push Not at hc
    have : k ≤ n := by
      rcases Nat.eq_zero_or_pos n with h | h
      · subst h
        have := hk.2
        have : k < 1 := by nlinarith
        omega
      · have : (k - 1) * q < n := by
          rcases k with _ | k
          · simpa using h
          · have := hk.2; rw [Nat.add_sub_cancel]; nlinarith
        have : k - 1 < n := lt_of_le_of_lt (Nat.le_mul_of_pos_right _ hq) this
        omega
    omega
  unfold ceilQ
  rw [Int.ceil_eq_iff]
  constructor
  · have : (k : K) - 1 + 1 / q ≤ n / q := by
      rw [le_div_iff₀ hqK, add_mul, div_mul_cancel₀ _ hqK.ne']
      linarith
    push_cast
    linarith
  · push_cast
    exact (binary K p hp emin).fl_le (nat_mem p hp emin (by omega) k hkle) ((div_le_iff₀ hqK).2 hk1)

/-- **C147**: rounding down. -/
theorem C147_floor (p : ℕ) (hp : 0 < p) (emin : ℤ) (he : emin ≤ 1 - 2 * p) (n q : ℕ) (hq : 0 < q) (hq' : q ≤ 2 ^ p) (hn : n < 2 ^ p) :
    floorQ (binary K p hp emin) n q = (n / q : ℕ) := by
  have hqK : (0 : K) < q := by exact_mod_cast hq
  obtain ⟨-, l2⟩ := abs_lt.1 (div_rel (K := K) p hp emin he n q hq hq' hn)
  have hk : n / q * q ≤ n ∧ n < n / q * q + q := ⟨Nat.div_mul_le_self n q, Nat.lt_div_mul_add hq⟩
  have hkn : n / q ≤ n := Nat.div_le_self _ _
  generalize n / q = k at hk hkn
  have hk1 : (k : K) * q ≤ n := by exact_mod_cast hk.1
  have hk2 : (n : K) + 1 ≤ k * q + q := by exact_mod_cast hk.2
  have hge : (k : K) ≤ (binary K p hp emin).div n q := (binary K p hp emin).le_fl (nat_mem p hp emin (by omega) k (by omega)) ((le_div_iff₀ hqK).2 hk1)
  unfold floorQ trunc
  rw [if_pos ((Nat.cast_nonneg k).trans hge), Int.floor_eq_iff]
  constructor
  · push_cast; exact hge
  · have : (n : K) / q ≤ k + 1 - 1 / q := by
      rw [div_le_iff₀ hqK, sub_mul, div_mul_cancel₀ _ hqK.ne']
      linarith
    push_cast
    linarith

/-- **C147**: a whole number of times the dimension is exact. -/
theorem C147_whole (p : ℕ) (hp : 0 < p) (emin : ℤ) (he : emin ≤ 0) (a d : ℕ) (ha : a ≤ 2 ^ p) (h : a * d ≤ 2 ^ p) : xnum (binary K p hp emin) (a : K) d = (a * d : ℕ) := by
  unfold xnum Rnd.mul
  rw [(binary K p hp emin).fl_of_mem (nat_mem p hp emin he a ha), ← Nat.cast_mul, (binary K p hp emin).fl_of_mem (nat_mem p hp emin he _ h)]
  unfold trunc
  rw [if_pos (Nat.cast_nonneg _), Int.floor_natCast]

/-- The two roundings of `a * d`. -/
theorem xnum_err (u a : K) (d : ℕ) (hu : 0 ≤ u) (hu1 : u ≤ 1) (ha : 0 ≤ a) (h1 : Rel R u a) (h2 : Rel R u (R.fl a * d)) : |R.mul (R.fl a) d - a * d| ≤ 3 * u * (a * d) := by
  have h1' : |R.fl a - a| ≤ u * |a| := h1
  have h2' : |R.mul (R.fl a) d - R.fl a * d| ≤ u * |R.fl a * d| := h2
  rw [abs_of_nonneg ha] at h1'
  have hd : (0 : K) ≤ d := Nat.cast_nonneg d
  have h3 : |R.fl a * d - a * d| ≤ u * a * d := by
    rw [← sub_mul, abs_mul, abs_of_nonneg hd]
    exact mul_le_mul_of_nonneg_right h1' hd
  have h4 : |R.fl a * d| ≤ (1 + u) * (a * d) := by
    have := abs_sub_abs_le_abs_sub (R.fl a * d) (a * d)
    rw [abs_of_nonneg (mul_nonneg ha hd)] at this
    linarith
  have h5 := abs_sub_le (R.mul (R.fl a) d) (R.fl a * d) (a * d)
  have h6 := mul_le_mul_of_nonneg_left h4 hu
  have h7 : u * ((1 + u) * (a * d)) ≤ 2 * u * (a * d) := by
    have := mul_nonneg hu (mul_nonneg ha hd)
    nlinarith [mul_le_mul_of_nonneg_right hu1 this]
  linarith

/-- **C147** (`_partial`): a decimal number `m / b` times the dimension is rounded down as it should be, if the product is not a whole number. -/
theorem C147_decimal_partial (u : K) (m b d : ℕ) (hb : 0 < b) (hu : 0 ≤ u) (hu1 : u ≤ 1) (h1 : Rel R u ((m : K) / b)) (h2 : Rel R u (R.fl ((m : K) / b) * d))
    (hsmall : 3 * u * (m * d) < 1) (hnot : ¬ b ∣ m * d) : xnum R ((m : K) / b) d = (m * d / b : ℕ) := by
  have hbK : (0 : K) < b := by exact_mod_cast hb
  have herr := xnum_err R u ((m : K) / b) d hu hu1 (by positivity) h1 h2
  have e : (m : K) / b * d = ((m * d : ℕ) : K) / b := by push_cast; ring
  rw [e] at herr
  have hk1 : (m * d / b) * b + 1 ≤ m * d := by
    have := Nat.div_mul_le_self (m * d) b
    rcases Nat.lt_or_eq_of_le this with h | h
    · exact h
    · exact absurd ⟨m * d / b, by rw [mul_comm b]; exact h.symm⟩ hnot
  have hk2 : m * d < m * d / b * b + b := Nat.lt_div_mul_add hb
  have hs : 3 * u * (((m * d : ℕ) : K) / b) < 1 / b := by
    rw [← mul_div_assoc]
    apply div_lt_div_of_pos_right _ hbK
    push_cast; exact hsmall
  generalize m * d / b = k at hk1 hk2
  generalize m * d = N at *
  have g1 : (k : K) * b + 1 ≤ N := by exact_mod_cast hk1
  have g2 : (N : K) + 1 ≤ k * b + b := by exact_mod_cast hk2
  have q1 : (k : K) + 1 / b ≤ N / b := by
    rw [le_div_iff₀ hbK, add_mul, div_mul_cancel₀ _ hbK.ne']; exact g1
  have q2 : (N : K) / b ≤ k + 1 - 1 / b := by
    rw [div_le_iff₀ hbK, sub_mul, div_mul_cancel₀ _ hbK.ne']; linarith
  obtain ⟨l1, l2⟩ := abs_le.1 herr
  unfold xnum trunc
  have hk : (k : K) ≤ R.mul (R.fl ((m : K) / b)) d := by linarith
  rw [if_pos ((Nat.cast_nonneg k).trans hk), Int.floor_eq_iff]
  push_cast
  exact ⟨hk, by linarith⟩

/-- **C147**: if the product is a whole number, the result is either that number or one less. -/
theorem C147_decimal_whole (u : K) (m b d k : ℕ) (hb : 0 < b) (hu : 0 ≤ u) (hu1 : u ≤ 1) (h1 : Rel R u ((m : K) / b)) (h2 : Rel R u (R.fl ((m : K) / b) * d))
    (hsmall : 3 * u * (m * d) < b) (hk : m * d = k * b) (hpos : 0 < k) : xnum R ((m : K) / b) d = k ∨ xnum R ((m : K) / b) d = (k : ℤ) - 1 := by
  have hbK : (0 : K) < b := by exact_mod_cast hb
  have herr := xnum_err R u ((m : K) / b) d hu hu1 (by positivity) h1 h2
  have e : (m : K) / b * d = k := by
    have : (m : K) * d = k * b := by exact_mod_cast hk
    field_simp
    linarith
  rw [e] at herr
  have hs : 3 * u * (k : K) < 1 := by
    have : (m : K) * d = k * b := by exact_mod_cast hk
    rw [this] at hsmall
    have h : 3 * u * k * b < 1 * b := by linarith
    exact lt_of_mul_lt_mul_right h hbK.le
  obtain ⟨l1, l2⟩ := abs_le.1 herr
  have k1 : (1 : K) ≤ k := by exact_mod_cast hpos
  unfold xnum trunc
  rw [if_pos (by linarith)]
  rcases le_or_gt (k : K) (R.mul (R.fl ((m : K) / b)) d) with h | h
  · left
    rw [Int.floor_eq_iff]; push_cast
    exact ⟨h, by linarith⟩
  · right
    rw [Int.floor_eq_iff]; push_cast
    exact ⟨by linarith, by linarith⟩

/-- **C147** is false of decimal numbers: `"8.2d"` in 15 dimensions is 122 (8.2 * 15 = 123), `"1.16d"` in 25 dimensions is 28 (1.16 * 25 = 29). -/
theorem C147_counterexample : xnum binary64 (82 / 10) 15 = 122 ∧ xnum binary64 (116 / 100) 25 = 28 ∧ (82 / 10 : ℚ) * 15 = 123 ∧ (116 / 100 : ℚ) * 25 = 29 := by
  refine ⟨by decide +kernel, by decide +kernel, by norm_num, by norm_num⟩

/-- **C147**: the bound of `C147_ceil` cannot be left out. -/
theorem C147_ceil_counterexample : ceilQ binary64 (2 ^ 53 + 1) (2 ^ 53) = 1 ∧ Mpi.ceilDiv (2 ^ 53 + 1) (2 ^ 53) = 2 := by
  refine ⟨by decide +kernel, by decide +kernel⟩

/-! ## Each theorem applied to concrete data -/

/-- 100 points for 7 processes. -/
example : ceilQ binary64 100 7 = 15 := C147_ceil 53 (by norm_num) (-1074) (by norm_num) 100 7 (by norm_num) (by norm_num) (by norm_num)

example : floorQ binary64 99 10 = 9 := C147_floor 53 (by norm_num) (-1074) (by norm_num) 99 10 (by norm_num) (by norm_num) (by norm_num)

example : xnum binary64 25 8 = 200 := by exact_mod_cast C147_whole (K := ℚ) 53 (by norm_num) (-1074) (by norm_num) 25 8 (by norm_num) (by norm_num)

/-- `"2.5d"` in 3 dimensions. -/
example : xnum binary64 (25 / 10) 3 = 7 := by
  have := C147_decimal_partial binary64 (1 / 2 ^ 53) 25 10 3 (by norm_num) (by norm_num) (by norm_num) (by unfold Rel; decide +kernel) (by unfold Rel; decide +kernel) (by norm_num) (by norm_num)
  exact_mod_cast this

example : xnum binary64 (82 / 10) 15 = 123 ∨ xnum binary64 (82 / 10) 15 = 122 := by
  have := C147_decimal_whole binary64 (1 / 2 ^ 53) 82 10 15 123 (by norm_num) (by norm_num) (by norm_num) (by unfold Rel; decide +kernel) (by unfold Rel; decide +kernel) (by norm_num) (by norm_num) (by norm_num)
  exact_mod_cast this

end GPry.Round
