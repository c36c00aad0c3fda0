import Verif.RoundKl
import Verif.AcqProps

set_option linter.all false

/-!
# LogExp in floating point arithmetic (gpry/acquisition_functions.py:982-992, 1069-1074)

Rounding as in `Round.lean`. `std**2` and `noise_var**2.` are taken to be correctly rounded, as the products are; `np.sqrt` is (IEEE 754); `np.log` is any
function. Overflow is left out. Means may be infinite or NaN, standard deviations and `gp.y_max` are numbers.
-/

namespace GPry.Round

section
variable {K : Type*} [Field K] [LinearOrder K] [IsStrictOrderedRing K] [FloorRing K] {p : ℕ} {hp : 0 < p} {emin : ℤ}

/-- Numbers from a power of two on are multiples of its last place. -/
theorem multiple_of_le {l : ℤ} {y : K} (hy : y ∈ (binary K p hp emin).F) (h : (2 : K) ^ l ≤ y) : ∃ m : ℤ, y = m * 2 ^ (l + 1 - p) := by
  obtain ⟨m, e, hm, -, rfl⟩ := hy
  have h2 : (0 : K) < 2 ^ e := by positivity
  have h1 : (m : K) * 2 ^ e < 2 ^ (p : ℤ) * 2 ^ e := by
    refine mul_lt_mul_of_pos_right ?_ h2
    have := (abs_lt.1 hm).2
    rw [zpow_natCast]
    exact_mod_cast this
  rw [← zpow_add₀ (by norm_num)] at h1
  have h3 := (zpow_lt_zpow_iff_right₀ (by norm_num : (1 : K) < 2)).1 (h.trans_lt h1)
  refine ⟨m * 2 ^ (e - (l + 1 - p)).toNat, ?_⟩
  push_cast
  rw [mul_assoc, ← zpow_natCast, ← zpow_add₀ (by norm_num)]
  congr 2
  omega

/-- The next representable number is larger by more than half a unit in the last place of 1, relatively. -/
theorem next_rel {a b : K} (ha : a ∈ (binary K p hp emin).F) (hb : b ∈ (binary K p hp emin).F) (h0 : 0 < a) (h : a < b) :
    a * (1 + 2 ^ (-p : ℤ)) < b := by
  have h3 : (2 : K) ^ Int.log 2 a ≤ a := by
    have := Int.zpow_log_le_self (b := 2) (by norm_num) h0
    rwa [Nat.cast_ofNat] at this
  have h4 : a < (2 : K) ^ (Int.log 2 a + 1) := by
    have := Int.lt_zpow_succ_log_self (b := 2) (by norm_num) a
    rwa [Nat.cast_ofNat] at this
  obtain ⟨m, hm⟩ := multiple_of_le ha h3
  obtain ⟨m', hm'⟩ := multiple_of_le hb (h3.trans h.le)
  have hE : (0 : K) < 2 ^ (Int.log 2 a + 1 - p) := by positivity
  rw [hm, hm'] at h
  have h5 : (m : K) < m' := lt_of_mul_lt_mul_right h hE.le
  have h6 : (m : K) + 1 ≤ m' := by
    have : m < m' := by exact_mod_cast h5
    exact_mod_cast this
  have h7 : a + 2 ^ (Int.log 2 a + 1 - p) ≤ b := by
    rw [hm']
    calc a + 2 ^ (Int.log 2 a + 1 - p) = (m + 1) * 2 ^ (Int.log 2 a + 1 - p) := by rw [add_mul, one_mul, ← hm]
      _ ≤ _ := mul_le_mul_of_nonneg_right h6 hE.le
  have h8 : (2 : K) ^ (Int.log 2 a + 1 - p) = 2 ^ (Int.log 2 a + 1) * 2 ^ (-p : ℤ) := by
    rw [← zpow_add₀ (by norm_num)]; congr 1
  have h9 : (0 : K) < 2 ^ (-p : ℤ) := by positivity
  rw [h8] at h7
  nlinarith [mul_lt_mul_of_pos_right h4 h9]

/-- What is lost by rounding down. -/
theorem rel_ge {x : K} (hx : (2 : K) ^ (emin + p - 1) ≤ x) : x ≤ (binary K p hp emin).fl x * (1 + 2 ^ (-p : ℤ)) := by
  have hx0 : 0 < x := lt_of_lt_of_le (by positivity) hx
  have h2 : (0 : K) < 2 ^ (-p : ℤ) := by positivity
  have hlog : emin + p - 1 ≤ Int.log 2 x := (Int.zpow_le_iff_le_log (b := 2) (by norm_num) hx0).1 (by rwa [Nat.cast_ofNat])
  have h1 : |x| < (2 : K) ^ (Int.log 2 x + 1) := by
    have := Int.lt_zpow_succ_log_self (b := 2) (by norm_num) x
    rw [abs_of_pos hx0]
    rwa [Nat.cast_ofNat] at this
  have h3 : (2 : K) ^ Int.log 2 x ≤ x := by
    have := Int.zpow_log_le_self (b := 2) (by norm_num) hx0
    rwa [Nat.cast_ofNat] at this
  have he := binary_err p hp emin (Int.log 2 x + 1) (by omega) x h1
  have e : (2 : K) ^ (Int.log 2 x + 1 - p) / 2 = 2 ^ (-p : ℤ) * 2 ^ Int.log 2 x := by
    rw [show Int.log 2 x + 1 - (p : ℤ) = -p + Int.log 2 x + 1 by ring, zpow_add₀ (by norm_num), zpow_add₀ (by norm_num)]
    ring
  rw [e] at he
  have hm : (2 : K) ^ Int.log 2 x ∈ (binary K p hp emin).F := by
    refine ⟨1, Int.log 2 x, ?_, by omega, ?_⟩
    · rw [abs_one]; exact one_lt_pow₀ (by norm_num) hp.ne'
    · rw [Int.cast_one, one_mul]
  have h4 := (binary K p hp emin).le_fl hm h3
  have := neg_abs_le ((binary K p hp emin).fl x - x)
  nlinarith [mul_le_mul_of_nonneg_left h4 h2.le]

/-- Squares of different numbers stay different. -/
theorem sq_lt {a b : K} (ha : a ∈ (binary K p hp emin).F) (hb : b ∈ (binary K p hp emin).F) (h0 : 0 < a) (h : a < b) (hn : (2 : K) ^ (emin + p - 1) ≤ a * a) :
    (binary K p hp emin).mul a a < (binary K p hp emin).mul b b := by
  have h1 := next_rel ha hb h0 h
  have h2 : (0 : K) < 2 ^ (-p : ℤ) := by positivity
  have hb2 : a * a < b * b := by nlinarith
  have h3 := rel_ge (hp := hp) (hn.trans hb2.le)
  have h4 := rel_lt p hp emin hn
  unfold Rnd.mul
  have h5 : a * (1 + 2 ^ (-p : ℤ)) * (a * (1 + 2 ^ (-p : ℤ))) < b * b := by
    have : 0 < a * (1 + (2 : K) ^ (-p : ℤ)) := by positivity
    nlinarith
  have h6 : a * a * (1 + 2 ^ (-p : ℤ)) * (1 + 2 ^ (-p : ℤ)) < (binary K p hp emin).fl (b * b) * (1 + 2 ^ (-p : ℤ)) := by nlinarith
  exact h4.trans (lt_of_mul_lt_mul_right h6 (by positivity))

/-- Gradual underflow: the difference of different numbers is not rounded to zero. -/
theorem sub_pos_iff (a b : K) (ha : a ∈ (binary K p hp emin).F) (hb : b ∈ (binary K p hp emin).F) : 0 < (binary K p hp emin).sub a b ↔ b < a := by
  unfold Rnd.sub
  constructor
  · intro h
    by_contra hc
    push Not at hc
    exact absurd ((binary K p hp emin).fl_le (zero_mem p hp emin) (sub_nonpos.2 hc)) (not_le.2 h)
  · intro h
    have hE : (0 : K) < 2 ^ emin := by positivity
    have hmul : ∀ y ∈ (binary K p hp emin).F, ∃ m : ℤ, y = m * (2 : K) ^ emin := by
      rintro y ⟨m, e, -, he, rfl⟩
      refine ⟨m * 2 ^ (e - emin).toNat, ?_⟩
      push_cast
      rw [mul_assoc, ← zpow_natCast, ← zpow_add₀ (by norm_num)]
      congr 2
      omega
    obtain ⟨m, rfl⟩ := hmul a ha
    obtain ⟨m', rfl⟩ := hmul b hb
    have h1 : (m' : K) < m := lt_of_mul_lt_mul_right h hE.le
    have h2 : (m' : K) + 1 ≤ m := by
      have : m' < m := by exact_mod_cast h1
      exact_mod_cast this
    have hF : (2 : K) ^ emin ∈ (binary K p hp emin).F :=
      ⟨1, emin, by rw [abs_one]; exact one_lt_pow₀ (by norm_num) hp.ne', le_rfl, by simp⟩
    refine hE.trans_le ((binary K p hp emin).le_fl hF ?_)
    nlinarith
end

/-- acquisition_functions.py:983 `var`. -/
def varFl {K : Type*} [Field K] [LinearOrder K] (R : Rnd K) (std noise : K) : K := R.sub (R.mul std std) (R.mul noise noise)

/-- acquisition_functions.py:1069-1074 `LogExp.f` -/
noncomputable def logExpFFl (R : Rnd ℝ) (lg : ℝ → ℝ) (mu std baseline noise zeta : ℝ) : ℝ :=
  R.add (R.mul (R.mul 2 zeta) (R.sub mu baseline)) (lg (R.fl (Real.sqrt (max (varFl R std noise) 0))))

/-- acquisition_functions.py:983-992, one point. -/
noncomputable def logExpFl (R : Rnd ℝ) (lg : ℝ → ℝ) (zeta noise baseline : ℝ) (mu : Ext ℝ) (std : ℝ) : Ext ℝ :=
  match mu with
  | .fin m => if 0 < varFl R std noise then .fin (logExpFFl R lg m std baseline noise zeta) else .negInf
  | _ => .negInf

/-- The mask in floating point arithmetic. -/
theorem var_pos_iff {p : ℕ} {hp : 0 < p} {emin : ℤ} {std noise : ℝ} (hs : std ∈ (binary ℝ p hp emin).F) (hn : noise ∈ (binary ℝ p hp emin).F) (hs0 : 0 ≤ std)
    (hn0 : 0 ≤ noise) (hr : noise < std → (2 : ℝ) ^ (emin + p - 1) ≤ noise * noise ∨ noise = 0 ∧ (2 : ℝ) ^ emin ≤ std * std) :
    0 < varFl (binary ℝ p hp emin) std noise ↔ noise < std := by
  unfold varFl
  rw [sub_pos_iff ((binary ℝ p hp emin).mul std std) ((binary ℝ p hp emin).mul noise noise) ((binary ℝ p hp emin).mem _) ((binary ℝ p hp emin).mem _)]
  constructor
  · intro h
    by_contra hc
    push Not at hc
    exact absurd ((binary ℝ p hp emin).fl_mono (mul_self_le_mul_self hs0 hc)) (not_le.2 h)
  · intro h
    rcases hr h with h1 | ⟨rfl, h1⟩
    · have hpos : 0 < noise := by
        refine lt_of_le_of_ne hn0 fun h0 => ?_
        rw [← h0, mul_zero] at h1
        exact absurd h1 (not_le.2 (by positivity))
      exact sq_lt hn hs hpos h h1
    · have hF : (2 : ℝ) ^ emin ∈ (binary ℝ p hp emin).F :=
        ⟨1, emin, by rw [abs_one]; exact one_lt_pow₀ (by norm_num) hp.ne', le_rfl, by simp⟩
      have h2 := (binary ℝ p hp emin).le_fl hF h1
      have h3 : (binary ℝ p hp emin).mul 0 0 = 0 := by
        unfold Rnd.mul
        rw [mul_zero]
        exact (binary ℝ p hp emin).fl_of_mem (zero_mem p hp emin)
      rw [h3]
      exact lt_of_lt_of_le (by positivity) h2

/-- **C155**: in double precision (binary numbers of any precision and smallest exponent) a value is minus infinity exactly where the standard deviation does not exceed the
noise level or the mean is not finite, and a number elsewhere, if the square of the noise level does not underflow; or if the noise level is zero and the square
of the standard deviation does not underflow to zero. -/
theorem C155_mask (p : ℕ) (hp : 0 < p) (emin : ℤ) (lg : ℝ → ℝ) (zeta noise baseline std : ℝ) (mu : Ext ℝ)
    (hs : std ∈ (binary ℝ p hp emin).F) (hn : noise ∈ (binary ℝ p hp emin).F) (hs0 : 0 ≤ std)
    (hn0 : 0 ≤ noise) (hr : noise < std → (2 : ℝ) ^ (emin + p - 1) ≤ noise * noise ∨ noise = 0 ∧ (2 : ℝ) ^ emin ≤ std * std) :
    (logExpFl (binary ℝ p hp emin) lg zeta noise baseline mu std = .negInf ↔ std ≤ noise ∨ ¬ ∃ m, mu = .fin m) ∧
    (noise < std → ∀ m, mu = .fin m → ∃ v, logExpFl (binary ℝ p hp emin) lg zeta noise baseline mu std = .fin v) := by
  have hv := var_pos_iff hs hn hs0 hn0 hr
  constructor
  · cases mu with
    | fin m =>
      unfold logExpFl
      dsimp only
      by_cases h : noise < std
      · rw [if_pos (hv.2 h)]
        refine iff_of_false (by simp) ?_
        rintro (h1 | h1)
        · exact absurd h1 (not_le.2 h)
        · exact h1 ⟨m, rfl⟩
      · rw [if_neg (fun h' => h (hv.1 h'))]
        exact iff_of_true rfl (.inl (not_lt.1 h))
    | negInf => exact iff_of_true rfl (.inr (by rintro ⟨m, h⟩; cases h))
    | posInf => exact iff_of_true rfl (.inr (by rintro ⟨m, h⟩; cases h))
    | nan => exact iff_of_true rfl (.inr (by rintro ⟨m, h⟩; cases h))
  · rintro h m rfl
    unfold logExpFl
    dsimp only
    rw [if_pos (hv.2 h)]
    exact ⟨_, rfl⟩

/-- **C155**: rounding never inverts the order: a point with a mean and a standard deviation at least those of another one does not get a smaller value, whatever the
numbers are, if the logarithm does not decrease. -/
theorem C155_monotone (R : Rnd ℝ) (lg : ℝ → ℝ) (hlg : MonotoneOn lg (Set.Ici 0)) (zeta noise baseline m m' s s' : ℝ) (hz : 0 ≤ zeta) (hz0 : (0 : ℝ) ∈ R.F)
    (hs0 : 0 ≤ s) (hm : m ≤ m') (hs : s ≤ s') :
    Ext.lt (logExpFl R lg zeta noise baseline (.fin m') s') (logExpFl R lg zeta noise baseline (.fin m) s) = false := by
  have hvar : varFl R s noise ≤ varFl R s' noise :=
    R.fl_mono (sub_le_sub_right (R.fl_mono (mul_self_le_mul_self hs0 hs)) _)
  unfold logExpFl
  dsimp only
  by_cases h : 0 < varFl R s noise
  · rw [if_pos h, if_pos (h.trans_le hvar)]
    simp only [Ext.lt, decide_eq_false_iff_not, not_lt]
    unfold logExpFFl
    refine R.fl_mono (add_le_add (R.fl_mono (mul_le_mul_of_nonneg_left (R.fl_mono (sub_le_sub_right hm _)) (R.le_fl hz0 (by positivity)))) ?_)
    have h0 : ∀ x, 0 ≤ R.fl (Real.sqrt x) := fun x => R.le_fl hz0 (Real.sqrt_nonneg _)
    exact hlg (h0 _) (h0 _) (R.fl_mono (Real.sqrt_le_sqrt (max_le_max_right _ hvar)))
  · rw [if_neg h]
    split_ifs <;> rfl

/-- **C155**: without rounding these are the values of `Acq.lean`. -/
theorem C155_exact (zeta noise baseline : ℝ) (mus : List (Ext ℝ)) (stds : List ℝ) (h : mus.length = stds.length) :
    List.zipWith (logExpFl (exact ℝ) Real.log zeta noise baseline) mus stds = Acq.logExpValues zeta noise baseline mus stds := by
  rw [Acq.logExpValues_eq _ _ _ _ _ h]
  congr 1
  funext mu std
  have hv : varFl (exact ℝ) std noise = std ^ 2 - noise ^ 2 := by
    show std * std - noise * noise = _
    ring
  cases mu with
  | fin m =>
    unfold logExpFl Acq.logExp1
    dsimp only
    rw [hv]
    by_cases h : noise ^ 2 < std ^ 2
    · rw [if_pos h, if_pos (sub_pos.2 h)]
      unfold logExpFFl
      rw [hv, max_eq_left (sub_pos.2 h).le]
      rfl
    · rw [if_neg h, if_neg (fun h' => h (sub_pos.1 h'))]
  | negInf => rfl
  | posInf => rfl
  | nan => rfl

/-- **C155**, negation: where both squares underflow the value is minus infinity, however much the standard deviation exceeds the noise level. -/
theorem C155_underflow_counterexample (lg : ℝ → ℝ) (zeta noise baseline std : ℝ) (mu : Ext ℝ) (hs0 : 0 ≤ std) (hn0 : 0 ≤ noise)
    (hs : std < 2 ^ (-538 : ℤ)) (hn : noise < 2 ^ (-538 : ℤ)) : logExpFl r64 lg zeta noise baseline mu std = .negInf := by
  have key : ∀ x : ℝ, 0 ≤ x → x < 2 ^ (-538 : ℤ) → r64.mul x x = 0 := by
    intro x h0 h
    refine fl_tiny (mul_self_nonneg x) ?_
    calc x * x < 2 ^ (-538 : ℤ) * 2 ^ (-538 : ℤ) := mul_self_lt_mul_self h0 h
      _ = 2 ^ (-1076 : ℤ) := by rw [← zpow_add₀ (by norm_num)]; norm_num
      _ ≤ _ := zpow_le_zpow_right₀ (by norm_num) (by norm_num)
  have hv : varFl r64 std noise = 0 := by
    unfold varFl
    rw [key std hs0 hs, key noise hn0 hn]
    unfold Rnd.sub
    rw [sub_zero]
    exact r64.fl_of_mem (zero_mem 53 (by norm_num) _)
  cases mu with
  | fin m =>
    unfold logExpFl
    dsimp only
    rw [hv, if_neg (lt_irrefl _)]
  | negInf => rfl
  | posInf => rfl
  | nan => rfl

theorem neg_mem {K : Type*} [Field K] [LinearOrder K] [IsStrictOrderedRing K] [FloorRing K] {p : ℕ} {hp : 0 < p} {emin : ℤ} {y : K}
    (hy : y ∈ (binary K p hp emin).F) : -y ∈ (binary K p hp emin).F := by
  obtain ⟨m, e, hm, he, rfl⟩ := hy
  exact ⟨-m, e, by rwa [abs_neg], he, by push_cast; ring⟩

theorem absorb {t : ℝ} (h0 : 0 ≤ t) (h1 : t ≤ 1) : r64.fl (-2 ^ 60 + t) = -2 ^ 60 := by
  have hF : (-2 ^ 60 : ℝ) ∈ r64.F := neg_mem (pow_mem 60)
  have hn := r64.near (-2 ^ 60 + t) _ hF
  rw [show (-2 ^ 60 : ℝ) - (-2 ^ 60 + t) = -t by ring, abs_neg, abs_of_nonneg h0] at hn
  have h2 := abs_le.1 hn
  obtain ⟨m, hm⟩ := multiple_of_le (l := 59) (neg_mem (r64.mem (-2 ^ 60 + t))) (by
    have h3 : r64.fl (-2 ^ 60 + t) ≤ -2 ^ 60 + 2 := by linarith [h2.2]
    have h4 : ((2 : ℝ) ^ (59 : ℤ)) = 2 ^ 59 := by norm_num
    rw [h4]
    have : (2 : ℝ) ^ 60 = 2 * 2 ^ 59 := by norm_num
    have h5 : (2 : ℝ) ≤ 2 ^ 59 := by norm_num
    linarith)
  have e7 : (2 : ℝ) ^ (59 + 1 - (53 : ℕ) : ℤ) = 128 := by norm_num
  rw [e7] at hm
  have ha : (2 : ℝ) ^ 60 - 2 ≤ m * 128 := by rw [← hm]; linarith [h2.2]
  have hb : (m : ℝ) * 128 ≤ 2 ^ 60 := by rw [← hm]; linarith [h2.1]
  have ha' : (2 : ℤ) ^ 60 - 2 ≤ m * 128 := by exact_mod_cast ha
  have hb' : m * 128 ≤ 2 ^ 60 := by exact_mod_cast hb
  have hmm : m = 2 ^ 53 := by norm_num at ha' hb' ⊢; omega
  rw [hmm] at hm
  have : -r64.fl (-2 ^ 60 + t) = 2 ^ 60 := by rw [hm]; norm_num
  linarith

/-- **C155**, negation of the strict order: far below the largest value the standard deviation no longer counts. With `zeta = 1/2` and a mean `2 ^ 60` below `gp.y_max`, all
standard deviations between 1 and 2 get the same value. -/
theorem C155_ties_counterexample (lg : ℝ → ℝ) (hlg : ∀ x ∈ Set.Icc (1 : ℝ) 2, 0 ≤ lg x ∧ lg x ≤ 1) (s : ℝ) (hs : s ∈ Set.Icc (1 : ℝ) 2) :
    logExpFl r64 lg (1 / 2) 0 0 (.fin (-2 ^ 60)) s = .fin (-2 ^ 60) := by
  have h1 : (1 : ℝ) ∈ r64.F := by simpa using pow_mem 0
  have h2 : (2 : ℝ) ∈ r64.F := by simpa using pow_mem 1
  have h4 : (4 : ℝ) ∈ r64.F := by have := pow_mem 2; norm_num at this; exact this
  have h0 : (0 : ℝ) ∈ r64.F := zero_mem 53 (by norm_num) _
  have hv : varFl r64 s 0 = r64.fl (s * s) := by
    unfold varFl Rnd.sub Rnd.mul
    rw [mul_zero, r64.fl_of_mem h0, sub_zero, r64.fl_fl]
  have ha : 1 ≤ r64.fl (s * s) := r64.le_fl h1 (by nlinarith [hs.1])
  have hb : r64.fl (s * s) ≤ 4 := r64.fl_le h4 (by nlinarith [hs.1, hs.2])
  have hq1 : 1 ≤ Real.sqrt (r64.fl (s * s)) := Real.one_le_sqrt.2 ha
  have hq2 : Real.sqrt (r64.fl (s * s)) ≤ 2 := by
    rw [Real.sqrt_le_left (by norm_num)]
    linarith
  unfold logExpFl
  dsimp only
  rw [if_pos (by rw [hv]; linarith)]
  unfold logExpFFl
  rw [hv, max_eq_left (by linarith)]
  have hl := hlg _ ⟨r64.le_fl h1 hq1, r64.fl_le h2 hq2⟩
  congr 1
  unfold Rnd.add Rnd.mul Rnd.sub
  rw [mul_one_div_cancel (by norm_num : (2 : ℝ) ≠ 0), r64.fl_of_mem h1, sub_zero, one_mul, r64.fl_of_mem (neg_mem (pow_mem 60)),
    r64.fl_of_mem (neg_mem (pow_mem 60))]
  exact absorb hl.1 hl.2

/-- C155: the noise level of the defaults, and the next number. -/
example (lg : ℝ → ℝ) (zeta b m : ℝ) : ∃ v, logExpFl r64 lg zeta (1 / 64) b (.fin m) (1 / 64 + 2 ^ (-58 : ℤ)) = .fin v :=
  (C155_mask 53 (by norm_num) (-1074) lg zeta (1 / 64) b (1 / 64 + 2 ^ (-58 : ℤ)) (.fin m)
    ⟨2 ^ 52 + 1, -58, by norm_num, by norm_num, by norm_num⟩ ⟨1, -6, by norm_num, by norm_num, by norm_num⟩ (by positivity) (by positivity)
    (fun _ => .inl (by
      calc (2 : ℝ) ^ (-1074 + (53 : ℕ) - 1 : ℤ) ≤ 2 ^ (-12 : ℤ) := zpow_le_zpow_right₀ (by norm_num) (by norm_num)
        _ = _ := by norm_num))).2 (by
      have : (0 : ℝ) < 2 ^ (-58 : ℤ) := by positivity
      linarith) m rfl

/-- C155: no noise, any standard deviation that is not tiny. -/
example (lg : ℝ → ℝ) (zeta b : ℝ) : ∃ v, logExpFl r64 lg zeta 0 b (.fin 1) (2 ^ (-500 : ℤ)) = .fin v :=
  (C155_mask 53 (by norm_num) (-1074) lg zeta 0 b (2 ^ (-500 : ℤ)) (.fin 1) ⟨1, -500, by norm_num, by norm_num, by simp⟩ (zero_mem 53 (by norm_num) _)
    (by positivity) le_rfl (fun _ => .inr ⟨rfl, by rw [← zpow_add₀ (by norm_num)]; exact zpow_le_zpow_right₀ (by norm_num) (by norm_num)⟩)).2 (by positivity) 1 rfl

/-- C155: more variance, larger mean. -/
example : Ext.lt (logExpFl r64 (fun x => r64.fl x) 1 0 5 (.fin 3) 2) (logExpFl r64 (fun x => r64.fl x) 1 0 5 (.fin 1) 1) = false :=
  C155_monotone r64 _ (fun x _ y _ h => r64.fl_mono h) 1 0 5 1 3 1 2 (by norm_num) (zero_mem 53 (by norm_num) _) (by norm_num) (by norm_num) (by norm_num)

/-- C155: noise `2 ^ -600`, standard deviation a thousand times larger. -/
example (lg : ℝ → ℝ) : logExpFl r64 lg 1 (2 ^ (-600 : ℤ)) 0 (.fin 0) (1000 * 2 ^ (-600 : ℤ)) = .negInf :=
  C155_underflow_counterexample lg 1 _ 0 _ _ (by positivity) (by positivity) (by
    calc 1000 * (2 : ℝ) ^ (-600 : ℤ) < 2 ^ (10 : ℤ) * 2 ^ (-600 : ℤ) := mul_lt_mul_of_pos_right (by norm_num) (by positivity)
      _ = 2 ^ (-590 : ℤ) := by rw [← zpow_add₀ (by norm_num)]; norm_num
      _ ≤ _ := zpow_le_zpow_right₀ (by norm_num) (by norm_num)) (zpow_lt_zpow_right₀ (by norm_num) (by norm_num))

/-- C155: the same value for 1 and 2. -/
example : logExpFl r64 Real.log (1 / 2) 0 0 (.fin (-2 ^ 60)) 1 = logExpFl r64 Real.log (1 / 2) 0 0 (.fin (-2 ^ 60)) 2 := by
  have h : ∀ x ∈ Set.Icc (1 : ℝ) 2, 0 ≤ Real.log x ∧ Real.log x ≤ 1 := fun x hx =>
    ⟨Real.log_nonneg hx.1, (Real.log_le_sub_one_of_pos (by linarith [hx.1])).trans (by linarith [hx.2])⟩
  rw [C155_ties_counterexample Real.log h 1 (by norm_num), C155_ties_counterexample Real.log h 2 (by norm_num)]

end GPry.Round
