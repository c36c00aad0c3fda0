import Verif.RoundCount
import Verif.Tools

set_option linter.all false

/-!
# Normalised targets, repeated points, and rounding (C148)
-/

namespace GPry.Round

open GPry

variable {K : Type*} [Field K] [LinearOrder K] [IsStrictOrderedRing K] (R : Rnd K)

/-! ## Normalised targets -/

/-- `np.sum` of at most 8 values: the first one plus the sum of the others. (numpy adds longer lists pairwise.) -/
def npSum : List K → K
  | [] => 0
  | a :: l => R.add a (l.foldl R.add 0)

/-- `np.mean`, preprocessing.py:561 -/
def npMean (ys : List K) : K := R.div (npSum R ys) ys.length

/-- The square of `np.std`, preprocessing.py:561: mean of the squares of the deviations. -/
def npVar (ys : List K) : K := R.div (npSum R (ys.map fun y => R.mul (R.sub y (npMean R ys)) (R.sub y (npMean R ys)))) ys.length

/-- preprocessing.py:620 `Normalize_y.inverse_transform` -/
def invY (mu s t : K) : K := R.add (R.mul t s) mu

/-- **C148**: transforming a target back gives the target, up to a few units in the last place of the target and of its distance to the mean. -/
theorem C148_roundtrip (u mu s y : K) (hs : 0 < s) (hu : 0 ≤ u) (hu1 : u ≤ 1 / 8) (h1 : Rel R u (y - mu)) (h2 : Rel R u (R.sub y mu / s)) (h3 : Rel R u (trY R mu s y * s))
    (h4 : Rel R u (R.mul (trY R mu s y) s + mu)) : |invY R mu s (trY R mu s y) - y| ≤ u * |y| + 14 * u * |y - mu| := by
  have e1 := trY_err R u mu s y hs hu h1 h2
  have h3' : |R.mul (trY R mu s y) s - trY R mu s y * s| ≤ u * |trY R mu s y * s| := h3
  have h4' : |invY R mu s (trY R mu s y) - (R.mul (trY R mu s y) s + mu)| ≤ u * |R.mul (trY R mu s y) s + mu| := h4
  generalize invY R mu s (trY R mu s y) = z at *
  generalize R.mul (trY R mu s y) s = w at *
  generalize trY R mu s y * s = t at *
  have n := abs_nonneg (y - mu)
  have m := mul_nonneg hu n
  have q : u * (u * |y - mu|) ≤ 1 / 8 * (u * |y - mu|) := mul_le_mul_of_nonneg_right hu1 m
  have a1 : |t - (y - mu)| ≤ 3 * u * |y - mu| := by
    refine e1.trans ?_
    nlinarith
  have a2 : |t| ≤ 2 * |y - mu| := by
    have := abs_sub_abs_le_abs_sub t (y - mu)
    nlinarith
  have a3 : |w - (y - mu)| ≤ 5 * u * |y - mu| := by
    have := abs_sub_le w t (y - mu)
    have := mul_le_mul_of_nonneg_left a2 hu
    linarith
  have a4 : |w + mu - y| ≤ 5 * u * |y - mu| := by
    rwa [show w + mu - y = w - (y - mu) by ring]
  have a5 : |w + mu| ≤ |y| + 5 * u * |y - mu| := by
    have := abs_sub_abs_le_abs_sub (w + mu) y
    linarith
  have a6 := abs_sub_le z (w + mu) y
  have a7 := mul_le_mul_of_nonneg_left a5 hu
  nlinarith

/-- **C148**: the order of the targets is kept; different ones can become equal. -/
theorem C148_order (mu s : K) (hs : 0 < s) (x y : K) : (x ≤ y → trY R mu s x ≤ trY R mu s y) ∧ (trY R mu s x < trY R mu s y → x < y) :=
  ⟨trY_mono R mu s hs, fun h => by
    by_contra hc
    push Not at hc
    exact absurd (trY_mono R mu s hs hc) (not_le.2 h)⟩

theorem C148_ties_counterexample : ∃ x y mu : ℚ, x ∈ binary64.F ∧ y ∈ binary64.F ∧ mu ∈ binary64.F ∧ x < y ∧ trY binary64 mu 1 x = trY binary64 mu 1 y :=
  ⟨1, 1 + 1 / 2 ^ 52, 2 ^ 40, one_mem64, ⟨2 ^ 52 + 1, -52, by norm_num, by norm_num, by norm_num⟩, ⟨1, 40, by norm_num, by norm_num, by norm_num⟩, by norm_num, by decide +kernel⟩

/-- **C148** is false of equal targets (C72 is the case without rounding, where the standard deviation is zero): three log-posteriors of 0.1 have a mean of 0.10000000000000002, and a standard deviation
of 1.4e-17 (`s`, the correctly rounded square root of the variance). The normalised targets are all -1 instead of 0, and the default noise level of 0.01 becomes 7e14. -/
theorem C148_equal_counterexample :
    let R := binary64
    let c := R.fl (1 / 10)
    let mu := npMean R [c, c, c]
    let s : ℚ := 1 / 2 ^ 56
    mu ≠ c ∧ (s - 1 / 2 ^ 109) ^ 2 < npVar R [c, c, c] ∧ npVar R [c, c, c] < (s + 1 / 2 ^ 109) ^ 2 ∧ [c, c, c].map (trY R mu s) = [-1, -1, -1] ∧
      7 * 10 ^ 14 < R.div (R.fl (1 / 100)) s := by
  refine ⟨by decide +kernel, by decide +kernel, by decide +kernel, by decide +kernel, by decide +kernel⟩

/-- Two equal targets have the variance zero. -/
theorem C148_two (p : ℕ) (hp : 0 < p) (emin : ℤ) [FloorRing K] (c : K) (hc : c ∈ (binary K p hp emin).F) :
    npMean (binary K p hp emin) [c, c] = c ∧ npVar (binary K p hp emin) [c, c] = 0 := by
  have h2 : c + c ∈ (binary K p hp emin).F := by
    obtain ⟨m, e, hm, he, rfl⟩ := hc
    exact ⟨m, e + 1, hm, by omega, by rw [zpow_add₀ (by norm_num)]; ring⟩
  have h0 : (binary K p hp emin).fl 0 = 0 := (binary K p hp emin).fl_of_mem (zero_mem p hp emin)
  have hm : npMean (binary K p hp emin) [c, c] = c := by
    simp only [npMean, npSum, List.foldl_cons, List.foldl_nil, Rnd.add, zero_add, Rnd.div, List.length_cons, List.length_nil]
    rw [(binary K p hp emin).fl_of_mem hc, (binary K p hp emin).fl_of_mem h2]
    have : (c + c) / ((0 + 1 + 1 : ℕ) : K) = c := by push_cast; field_simp; ring
    rw [this]
    exact (binary K p hp emin).fl_of_mem hc
  refine ⟨hm, ?_⟩
  unfold npVar
  rw [hm]
  simp [npSum, Rnd.add, Rnd.sub, Rnd.mul, Rnd.div, h0]

/-! ## Repeated points -/

/-- tools.py:250-251, `np.round(x, decimals=8)`: multiplied, rounded to an integer, divided. -/
def round8 [FloorRing K] (x : K) : K := R.div (rne (R.mul x 100000000) : K) 100000000

theorem rne_lt [FloorRing K] {x y : K} (h : x + 1 < y) : rne x < rne y := by
  have h1 := (abs_le.1 (rne_err x)).2
  have h2 := (abs_le.1 (rne_err y)).1
  have : (rne x : K) < rne y := by linarith
  exact_mod_cast this

theorem round8_lt (x y : ℚ) (hx : 0 ≤ x) (hy : y ≤ 1) (h : x + 11 / 1000000000 ≤ y) : round8 binary64 x < round8 binary64 y := by
  have ex := binary_err (K := ℚ) 53 (by norm_num) (-1074) 27 (by norm_num) (x * 100000000) (by rw [abs_of_nonneg (by positivity)]; norm_num; linarith)
  have ey := binary_err (K := ℚ) 53 (by norm_num) (-1074) 27 (by norm_num) (y * 100000000) (by rw [abs_of_nonneg (by linarith)]; norm_num; linarith)
  have ex' : |binary64.mul x 100000000 - x * 100000000| ≤ (2 : ℚ) ^ (-26 : ℤ) / 2 := ex
  have ey' : |binary64.mul y 100000000 - y * 100000000| ≤ (2 : ℚ) ^ (-26 : ℤ) / 2 := ey
  have e26 : (2 : ℚ) ^ (-26 : ℤ) = 1 / 67108864 := by norm_num
  rw [e26] at ex' ey'
  have a1 := abs_le.1 ex'
  have a2 := abs_le.1 ey'
  have hlt : rne (binary64.mul x 100000000) < rne (binary64.mul y 100000000) := rne_lt (by linarith)
  have b1 := abs_le.1 (rne_err (binary64.mul x 100000000))
  have b2 := abs_le.1 (rne_err (binary64.mul y 100000000))
  have hlt' : (rne (binary64.mul x 100000000) : ℚ) + 1 ≤ rne (binary64.mul y 100000000) := by exact_mod_cast hlt
  unfold round8
  generalize (rne (binary64.mul x 100000000) : ℚ) = k at *
  generalize (rne (binary64.mul y 100000000) : ℚ) = k' at *
  have c1 := binary_err (K := ℚ) 53 (by norm_num) (-1074) 2 (by norm_num) (k / 100000000) (by rw [abs_lt]; norm_num; constructor <;> linarith)
  have c2 := binary_err (K := ℚ) 53 (by norm_num) (-1074) 2 (by norm_num) (k' / 100000000) (by rw [abs_lt]; norm_num; constructor <;> linarith)
  have c1' : |binary64.div k 100000000 - k / 100000000| ≤ (2 : ℚ) ^ (-51 : ℤ) / 2 := c1
  have c2' : |binary64.div k' 100000000 - k' / 100000000| ≤ (2 : ℚ) ^ (-51 : ℤ) / 2 := c2
  have e51 : (2 : ℚ) ^ (-51 : ℤ) ≤ 1 / 10 ^ 12 := by norm_num
  have d1 := abs_le.1 c1'
  have d2 := abs_le.1 c2'
  linarith

/-- **C148**: a candidate equal to a training point is always taken for one. A candidate in the unit cube that differs from every training point in some coordinate by at least 1.1e-8 never is. -/
theorem C148_candidates (train cands : List (List ℚ)) (j : ℕ) (hj : j < cands.length) :
    (cands[j] ∈ train → (Tools.checkCandidates (round8 binary64) train cands).1[j]? = some true) ∧
    ((∀ t ∈ train, ∃ (i : ℕ) (x y : ℚ), t[i]? = some x ∧ cands[j][i]? = some y ∧ (0 ≤ x ∧ x ≤ 1) ∧ (0 ≤ y ∧ y ≤ 1) ∧ 11 / 1000000000 ≤ |x - y|) →
      (Tools.checkCandidates (round8 binary64) train cands).1[j]? = some false) := by
  have hflag : (Tools.checkCandidates (round8 binary64) train cands).1[j]? = some ((train.map (List.map (round8 binary64))).any (· == cands[j].map (round8 binary64))) := by
    simp [Tools.checkCandidates, Tools.inTraining, hj]
  rw [hflag]
  constructor
  · intro h
    rw [Option.some.injEq, List.any_eq_true]
    exact ⟨_, List.mem_map.2 ⟨_, h, rfl⟩, by simp⟩
  · intro h
    rw [Option.some.injEq, List.any_eq_false]
    intro r hr
    obtain ⟨t, ht, rfl⟩ := List.mem_map.1 hr
    obtain ⟨i, x, y, hx, hy, ⟨x0, x1⟩, ⟨y0, y1⟩, hd⟩ := h t ht
    rw [beq_iff_eq]
    intro he
    have := congrArg (·[i]?) he
    simp only [List.getElem?_map, hx, hy, Option.map_some, Option.some.injEq] at this
    rcases le_total x y with hxy | hxy
    · rw [abs_of_nonpos (by linarith)] at hd
      exact absurd this (round8_lt x y x0 y1 (by linarith)).ne
    · rw [abs_of_nonneg (by linarith)] at hd
      exact absurd this (round8_lt y x y0 x1 (by linarith)).ne'

/-- **C148** is false of points closer than the tolerance `tol=1e-8`: these differ by 2e-17, but the candidate is not taken for the training point. -/
theorem C148_tolerance_counterexample :
    let x := binary64.fl (499999999 / 10 ^ 17)
    let y := binary64.fl (500000001 / 10 ^ 17)
    y - x < 3 / 10 ^ 17 ∧ x < y ∧ (Tools.checkCandidates (round8 binary64) [[x]] [[y]]).1[0]? = some false := by
  refine ⟨by decide +kernel, by decide +kernel, by decide +kernel⟩

/-! ## Each theorem applied to concrete data -/

example : |invY binary64 (-7) (binary64.fl (33 / 10)) (trY binary64 (-7) (binary64.fl (33 / 10)) (-1)) - (-1)| ≤ 1 / 2 ^ 53 * |(-1 : ℚ)| + 14 * (1 / 2 ^ 53) * |(-1 : ℚ) - (-7)| :=
  C148_roundtrip binary64 (1 / 2 ^ 53) (-7) (binary64.fl (33 / 10)) (-1) (by decide +kernel) (by norm_num) (by norm_num) (by unfold Rel; decide +kernel) (by unfold Rel; decide +kernel)
    (by unfold Rel; decide +kernel) (by unfold Rel; decide +kernel)

example (h : trY binary64 (-7) 3 (-2) < trY binary64 (-7) 3 (-1)) : (-2 : ℚ) < -1 := (C148_order binary64 (-7) 3 (by norm_num) (-2) (-1)).2 h

example : npVar binary64 [binary64.fl (1 / 10), binary64.fl (1 / 10)] = 0 := (C148_two 53 (by norm_num) (-1074) _ (binary64.mem _)).2

example : (Tools.checkCandidates (round8 binary64) [[1 / 2, 1 / 4]] [[1 / 2, 1 / 4], [1 / 2, 1 / 8]]).1[1]? = some false := by
  refine (C148_candidates [[1 / 2, 1 / 4]] [[1 / 2, 1 / 4], [1 / 2, 1 / 8]] 1 (by simp)).2 ?_
  intro t ht
  rw [List.mem_singleton.1 ht]
  exact ⟨1, 1 / 4, 1 / 8, rfl, rfl, by norm_num, by norm_num, by rw [abs_of_pos] <;> norm_num⟩

end GPry.Round
