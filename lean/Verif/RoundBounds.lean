import Verif.Round
import Verif.ToolsProps
import Verif.PreprocProps
import Verif.ProposalProps
import Verif.Truth

set_option linter.all false

/-!
# Bounds and rounding (C145)

`Normalize_bounds`, `shrink_bounds` and uniform proposals with rounded operations.
-/

namespace GPry.Round

open GPry

variable {K : Type*} [Field K] [LinearOrder K] [IsStrictOrderedRing K] (R : Rnd K)

/-- preprocessing.py:380 `Normalize_bounds.transform`, one coordinate of positive width. -/
def transform (lo hi x : K) : K := R.div (R.sub x lo) (R.sub hi lo)

/-- preprocessing.py:395 `Normalize_bounds.inverse_transform`, one coordinate. The same operations: `scipy.stats.uniform.rvs` with the `loc` and `scale` of
proposal.py:153-155, numpy's `Generator.uniform` (truth.py:159, 163), ns_interfaces.py:471. -/
def inverse (lo hi z : K) : K := R.add (R.mul z (R.sub hi lo)) lo

/-- tools.py:350-360 `shrink_bounds`, one coordinate. -/
def shrink (factor : K) (b : K × K) (xs : List K) : Except Tools.TErr (K × K) :=
  match Tools.minOf xs, Tools.maxOf xs with
  | some lo, some hi =>
    let delta := R.mul (R.div (R.sub factor 1) 2) (R.sub hi lo)
    .ok (max (R.sub lo delta) b.1, min (R.add hi delta) b.2)
  | _, _ => .error .valueError

/-- Without rounding these are the functions of the other modules. -/
theorem exact_agrees (lo hi x : K) (h : lo < hi) (f : K) (b : K × K) (xs : List K) :
    Ext.fin (transform (exact K) lo hi x) = (⟨fun _ => lo, fun _ => hi⟩ : Pre.NormBounds 1 K).transform (fun _ => x) 0 ∧
      inverse (exact K) lo hi x = (⟨fun _ => lo, fun _ => hi⟩ : Pre.NormBounds 1 K).inverse (fun _ => x) 0 ∧
      [inverse (exact K) lo hi x] = Proposal.uniformPoint [(lo, hi)] [x] ∧ shrink (exact K) f b xs = Tools.shrinkBounds f b xs := by
  refine ⟨?_, rfl, ?_, rfl⟩
  · have hw : hi - lo ≠ 0 := sub_ne_zero.2 h.ne'
    simp [transform, Pre.NormBounds.transform, Ext.divFin, hw, Rnd.div, Rnd.sub, exact]
  · simp [inverse, Proposal.uniformPoint, Rnd.mul, Rnd.sub, Rnd.add, exact]; ring

theorem sub_mono_left {a b c : K} (h : a ≤ b) : R.sub a c ≤ R.sub b c := R.fl_mono (by linarith)

/-- **C145**: points within the bounds are transformed into the unit interval, the bounds exactly into 0 and 1, and the order is kept. -/
theorem C145_unit (h0 : 0 ∈ R.F) (h1 : 1 ∈ R.F) (lo hi : K) (hw : 0 < R.sub hi lo) :
    transform R lo hi lo = 0 ∧ transform R lo hi hi = 1 ∧ (∀ x y, x ≤ y → transform R lo hi x ≤ transform R lo hi y) ∧
      ∀ x, lo ≤ x → x ≤ hi → 0 ≤ transform R lo hi x ∧ transform R lo hi x ≤ 1 := by
  have a0 : transform R lo hi lo = 0 := by simp [transform, Rnd.div, Rnd.sub, R.fl_of_mem h0]
  have a1 : transform R lo hi hi = 1 := by simp [transform, Rnd.div, div_self hw.ne', R.fl_of_mem h1]
  have am : ∀ x y, x ≤ y → transform R lo hi x ≤ transform R lo hi y := fun x y h =>
    R.fl_mono (div_le_div_of_nonneg_right (sub_mono_left R h) hw.le)
  exact ⟨a0, a1, am, fun x hl hh => ⟨a0 ▸ am _ _ hl, a1 ▸ am _ _ hh⟩⟩

/-- **C145**: the inverse keeps the order, gives the lower bound for 0, and never less for positive numbers. It does not exceed the upper bound
if the number times the width is rounded to less than the width, or if the width is exact. -/
theorem C145_inverse (h0 : 0 ∈ R.F) (lo hi : K) (hlo : lo ∈ R.F) (hhi : hi ∈ R.F) (h : lo ≤ hi) :
    inverse R lo hi 0 = lo ∧ (∀ z z', z ≤ z' → inverse R lo hi z ≤ inverse R lo hi z') ∧
      (∀ z, 0 ≤ z → lo ≤ inverse R lo hi z) ∧
      (∀ z, z ≤ 1 → hi - lo ∈ R.F ∨ R.mul z (R.sub hi lo) < R.sub hi lo → inverse R lo hi z ≤ hi) := by
  have hw : 0 ≤ R.sub hi lo := R.le_fl h0 (by linarith)
  have a0 : inverse R lo hi 0 = lo := by simp [inverse, Rnd.mul, Rnd.add, R.fl_of_mem h0, R.fl_of_mem hlo]
  have am : ∀ z z', z ≤ z' → inverse R lo hi z ≤ inverse R lo hi z' := fun z z' hz =>
    R.fl_mono (by
      have : R.mul z (R.sub hi lo) ≤ R.mul z' (R.sub hi lo) := R.fl_mono (mul_le_mul_of_nonneg_right hz hw)
      linarith)
  refine ⟨a0, am, fun z hz => by have := am _ _ hz; rwa [a0] at this, ?_⟩
  intro z hz hc
  have hm : R.mul z (R.sub hi lo) ≤ hi - lo := by
    rcases hc with hc | hc
    · have e : R.sub hi lo = hi - lo := R.fl_of_mem hc
      rw [e]
      exact R.fl_le hc (by nlinarith)
    · exact R.le_of_lt_fl (R.mem _) hc
  exact R.fl_le hhi (by linarith)

/-- **C145** (distance): transforming and transforming back, if each operation has a relative error of at most `u`. -/
theorem C145_roundtrip (u : K) (hu : 0 ≤ u) (lo hi x : K) (hx : lo ≤ x) (hw : R.sub hi lo ≠ 0)
    (h1 : |R.sub x lo - (x - lo)| ≤ u * |x - lo|)
    (h2 : |transform R lo hi x - R.sub x lo / R.sub hi lo| ≤ u * |R.sub x lo / R.sub hi lo|)
    (h3 : |R.mul (transform R lo hi x) (R.sub hi lo) - transform R lo hi x * R.sub hi lo| ≤ u * |transform R lo hi x * R.sub hi lo|)
    (h4 : |inverse R lo hi (transform R lo hi x) - (R.mul (transform R lo hi x) (R.sub hi lo) + lo)| ≤ u * |R.mul (transform R lo hi x) (R.sub hi lo) + lo|) :
    |inverse R lo hi (transform R lo hi x) - x| ≤ (1 + u) * ((1 + u) ^ 3 - 1) * (x - lo) + u * |x| := by
  generalize R.mul (transform R lo hi x) (R.sub hi lo) = m at *
  generalize inverse R lo hi (transform R lo hi x) = r at *
  generalize transform R lo hi x = t at *
  generalize R.sub hi lo = w at *
  generalize R.sub x lo = a at *
  have hd : 0 ≤ x - lo := by linarith
  rw [abs_of_nonneg hd] at h1
  have hta : |t * w - a| ≤ u * |a| := by
    have e : t * w - a = (t - a / w) * w := by field_simp
    rw [e, abs_mul]
    calc |t - a / w| * |w| ≤ u * |a / w| * |w| := mul_le_mul_of_nonneg_right h2 (abs_nonneg _)
      _ = u * |a| := by rw [abs_div]; field_simp
  have ha : |a| ≤ (1 + u) * (x - lo) := by
    have := abs_sub_abs_le_abs_sub a (x - lo)
    rw [abs_of_nonneg hd] at this
    linarith
  have htw : |t * w| ≤ (1 + u) * |a| := by
    have := abs_sub_abs_le_abs_sub (t * w) a
    linarith
  have hm : |m - (x - lo)| ≤ ((1 + u) ^ 3 - 1) * (x - lo) := by
    have e : m - (x - lo) = (m - t * w) + (t * w - a) + (a - (x - lo)) := by ring
    rw [e]
    have s1 := abs_add_le ((m - t * w) + (t * w - a)) (a - (x - lo))
    have s2 := abs_add_le (m - t * w) (t * w - a)
    have q1 : u * |t * w| ≤ u * ((1 + u) * ((1 + u) * (x - lo))) := mul_le_mul_of_nonneg_left (htw.trans (mul_le_mul_of_nonneg_left ha (by linarith))) hu
    have q2 : u * |a| ≤ u * ((1 + u) * (x - lo)) := mul_le_mul_of_nonneg_left ha hu
    nlinarith
  have e : r - x = (r - (m + lo)) + (m - (x - lo)) := by ring
  have s1 := abs_add_le (r - (m + lo)) (m - (x - lo))
  have e2 : m + lo = x + (m - (x - lo)) := by ring
  have s2 := abs_add_le x (m - (x - lo))
  rw [← e2] at s2
  rw [e]
  have q : u * |m + lo| ≤ u * (|x| + ((1 + u) ^ 3 - 1) * (x - lo)) := mul_le_mul_of_nonneg_left (by linarith) hu
  nlinarith

/-! ## Shrinking -/

/-- **C145**: the new bounds are within the given ones and contain the samples, in spite of rounding. -/
theorem C145_shrink (h0 : 0 ∈ R.F) (b : K × K) (xs : List K) (hne : xs ≠ []) (hx : ∀ x ∈ xs, x ∈ R.F) (f : K) (hf : 1 ≤ f) :
    ∃ lo hi, shrink R f b xs = .ok (lo, hi) ∧ b.1 ≤ lo ∧ hi ≤ b.2 ∧ ∀ x ∈ xs, b.1 ≤ x → x ≤ b.2 → lo ≤ x ∧ x ≤ hi := by
  obtain ⟨m, M, hm, hM, hall, e⟩ : ∃ m M, m ∈ xs ∧ M ∈ xs ∧ (∀ x ∈ xs, m ≤ x ∧ x ≤ M) ∧ Tools.minOf xs = some m ∧ Tools.maxOf xs = some M := by
    cases xs with
    | nil => exact absurd rfl hne
    | cons a l =>
      obtain ⟨h1, h2⟩ := Tools.foldl_min_spec l a
      obtain ⟨h3, h4⟩ := Tools.foldl_max_spec l a
      exact ⟨_, _, h2, h4, fun x hx => ⟨h1 x hx, h3 x hx⟩, rfl, rfl⟩
  have hd : 0 ≤ R.mul (R.div (R.sub f 1) 2) (R.sub M m) := by
    have a1 : 0 ≤ R.sub f 1 := R.le_fl h0 (by linarith)
    have a2 : 0 ≤ R.div (R.sub f 1) 2 := R.le_fl h0 (by positivity)
    have a3 : 0 ≤ R.sub M m := R.le_fl h0 (by linarith [(hall m hm).2])
    exact R.le_fl h0 (mul_nonneg a2 a3)
  refine ⟨max (R.sub m (R.mul (R.div (R.sub f 1) 2) (R.sub M m))) b.1, min (R.add M (R.mul (R.div (R.sub f 1) 2) (R.sub M m))) b.2, by simp only [shrink, e.1, e.2],
    le_max_right _ _, min_le_right _ _, ?_⟩
  intro x hxs hl hh
  constructor
  · refine max_le ?_ hl
    exact (R.fl_le (hx m hm) (by linarith)).trans (hall x hxs).1
  · refine le_min ?_ hh
    exact (hall x hxs).2.trans (R.le_fl (hx M hM) (by linarith))

/-! ## Binary numbers -/

section
variable [FloorRing K] (p : ℕ) (hp : 0 < p) (emin : ℤ)

theorem zero_mem : (0 : K) ∈ (binary K p hp emin).F := ⟨0, emin, by simp, le_rfl, by simp⟩

/-- A difference of representable numbers is a multiple of the smallest one. -/
theorem sub_multiple {x y : K} (hx : x ∈ (binary K p hp emin).F) (hy : y ∈ (binary K p hp emin).F) : ∃ n : ℤ, x - y = n * (2 : K) ^ emin := by
  obtain ⟨m, e, -, he, rfl⟩ := hx
  obtain ⟨m', e', -, he', rfl⟩ := hy
  refine ⟨m * 2 ^ (e - emin).toNat - m' * 2 ^ (e' - emin).toNat, ?_⟩
  push_cast
  rw [sub_mul, mul_assoc, mul_assoc, ← zpow_natCast, ← zpow_natCast, Int.toNat_of_nonneg (by omega), Int.toNat_of_nonneg (by omega), ← zpow_add₀ (by norm_num),
    ← zpow_add₀ (by norm_num), sub_add_cancel, sub_add_cancel]

/-- Different bounds have a positive width, thanks to subnormal numbers. -/
theorem sub_pos' {x y : K} (hx : x ∈ (binary K p hp emin).F) (hy : y ∈ (binary K p hp emin).F) (h : y < x) : 0 < (binary K p hp emin).sub x y := by
  obtain ⟨n, hn⟩ := sub_multiple p hp emin hx hy
  have h2 : (0 : K) < 2 ^ emin := by positivity
  have h1 : 1 ≤ n := by
    by_contra hc
    have : (n : K) ≤ 0 := by exact_mod_cast (by omega : n ≤ 0)
    nlinarith
  have : (2 : K) ^ emin ∈ (binary K p hp emin).F := ⟨1, emin, by rw [abs_one]; exact one_lt_pow₀ (by norm_num) hp.ne', le_rfl, by simp⟩
  refine lt_of_lt_of_le h2 ((binary K p hp emin).le_fl this ?_)
  rw [hn]
  have : (1 : K) ≤ n := by exact_mod_cast h1
  nlinarith

theorem rne_int (n : ℤ) : rne (n : K) = n := by
  have := rne_near (n : K) n
  rw [sub_self, abs_zero] at this
  have h := sub_eq_zero.1 (abs_eq_zero.1 (le_antisymm this (abs_nonneg _)))
  exact_mod_cast h

/-- **C145**: random numbers of the unit interval with `p` digits, as numpy's `random` (at most `1 - 2 ^ (-p)`), give points within the bounds. -/
theorem C145_uniform (lo hi U : K) (hlo : lo ∈ (binary K p hp emin).F) (hhi : hi ∈ (binary K p hp emin).F) (h : lo ≤ hi) (hU0 : 0 ≤ U)
    (hU1 : U ≤ 1 - (2 : K) ^ (-(p : ℤ))) : lo ≤ inverse (binary K p hp emin) lo hi U ∧ inverse (binary K p hp emin) lo hi U ≤ hi := by
  obtain ⟨-, -, c, d⟩ := C145_inverse (binary K p hp emin) (zero_mem p hp emin) lo hi hlo hhi h
  have hpos : (0 : K) < (2 : K) ^ (-(p : ℤ)) := by positivity
  refine ⟨c U hU0, d U (by linarith) ?_⟩
  by_cases hD : hi - lo ∈ (binary K p hp emin).F
  · exact Or.inl hD
  right
  have hlt : lo < hi := by
    rcases eq_or_lt_of_le h with e | e
    · exact absurd (by rw [e, sub_self]; exact zero_mem p hp emin) hD
    · exact e
  set D := hi - lo with hDdef
  have hDpos : 0 < D := by rw [hDdef]; linarith
  obtain ⟨n, hn⟩ := sub_multiple p hp emin hhi hlo
  set e := lastExp p emin D with hedef
  have he : emin < e := by
    by_contra hc
    have hee : e = emin := le_antisymm (not_lt.1 hc) (le_max_left _ _)
    apply hD
    have : (binary K p hp emin).fl D = D := by
      show (rne (D / (2 : K) ^ e) : K) * (2 : K) ^ e = D
      have h2 : (2 : K) ^ e ≠ 0 := by positivity
      have : D / (2 : K) ^ e = n := by rw [div_eq_iff h2, hee]; exact hn
      rw [this, rne_int, hee]
      exact hn.symm
    rw [← this]
    exact (binary K p hp emin).mem _
  have hlog : e = Int.log 2 |D| - p + 1 := by
    rcases max_choice emin (Int.log 2 |D| - p + 1) with h' | h'
    · have : e = emin := h'
      omega
    · exact h'
  have hge : (2 : K) ^ (e + p - 1) ≤ D := by
    have := Int.zpow_log_le_self (b := 2) (by norm_num) (abs_pos.2 hDpos.ne')
    rw [Nat.cast_ofNat, abs_of_pos hDpos] at this
    rwa [show e + p - 1 = Int.log 2 |D| by omega, abs_of_pos hDpos]
  set w := (binary K p hp emin).sub hi lo with hw
  set k := rne (D / (2 : K) ^ e) with hk
  have hwk : w = k * (2 : K) ^ e := rfl
  have h2e : (0 : K) < (2 : K) ^ e := by positivity
  have hP : (((2 : ℤ) ^ (p - 1) : ℤ) : K) * (2 : K) ^ e = (2 : K) ^ (e + p - 1) := by
    push_cast
    rw [← zpow_natCast, ← zpow_add₀ (by norm_num)]
    congr 1; omega
  have hPm : (2 : K) ^ (e + p - 1) ∈ (binary K p hp emin).F := by
    rw [← hP]
    exact mem_of_le p emin hp _ _ (by rw [abs_of_nonneg (by positivity)]; exact pow_le_pow_right₀ (by norm_num) (by omega)) he.le
  have hwP : (2 : K) ^ (e + p - 1) ≤ w := (binary K p hp emin).le_fl hPm hge
  have hk1 : (2 : ℤ) ^ (p - 1) ≤ k := by
    rw [← hP, hwk] at hwP
    have := le_of_mul_le_mul_right hwP h2e
    exact_mod_cast this
  have hk2 : k ≤ 2 ^ p := by
    have h1 := abs_lt_lastExp p emin D
    rw [abs_of_pos hDpos] at h1
    have hm : (2 : K) ^ (e + p) ∈ (binary K p hp emin).F := by
      have := mem_of_le (K := K) p emin hp (2 ^ p) e (by rw [abs_of_nonneg (by positivity)]) he.le
      rwa [show (((2 : ℤ) ^ p : ℤ) : K) * (2 : K) ^ e = (2 : K) ^ (e + p) by push_cast; rw [← zpow_natCast, ← zpow_add₀ (by norm_num), add_comm]] at this
    have h3 : w ≤ (2 : K) ^ (e + p) := (binary K p hp emin).fl_le hm h1.le
    rw [hwk, add_comm, zpow_add₀ (by norm_num), zpow_natCast] at h3
    have := le_of_mul_le_mul_right h3 h2e
    exact_mod_cast this
  have hwpos : 0 < w := lt_of_lt_of_le (by positivity) hwP
  -- the random number takes off more than half of the last digit
  have hhalf : (2 : K) ^ (e - 1) ≤ w * (2 : K) ^ (-(p : ℤ)) := by
    calc (2 : K) ^ (e - 1) = (2 : K) ^ (e + p - 1) * (2 : K) ^ (-(p : ℤ)) := by rw [← zpow_add₀ (by norm_num)]; congr 1; ring
      _ ≤ _ := mul_le_mul_of_nonneg_right hwP hpos.le
  have hUw : U * w ≤ w - w * (2 : K) ^ (-(p : ℤ)) := by nlinarith
  have h2half : (2 : K) ^ e = 2 * (2 : K) ^ (e - 1) := by
    rw [← zpow_one_add₀ (by norm_num)]; congr 1; ring
  rcases eq_or_lt_of_le hk1 with hk1 | hk1
  · -- a power of two
    have hm : w - (2 : K) ^ (e - 1) ∈ (binary K p hp emin).F := by
      have := mem_of_le (K := K) p emin hp (2 ^ p - 1) (e - 1) (by
        have : (1 : ℤ) ≤ 2 ^ p := one_le_pow₀ (by norm_num)
        rw [abs_of_nonneg (by omega)]; omega) (by omega)
      have e1 : w - (2 : K) ^ (e - 1) = ((2 ^ p - 1 : ℤ) : K) * (2 : K) ^ (e - 1) := by
        obtain ⟨q, rfl⟩ : ∃ q, p = q + 1 := ⟨p - 1, by omega⟩
        rw [hwk, ← hk1, h2half]
        push_cast
        ring
      rw [e1]
      exact this
    refine lt_of_le_of_lt ((binary K p hp emin).fl_le hm (by linarith)) ?_
    have : (0 : K) < (2 : K) ^ (e - 1) := by positivity
    linarith
  · have hm : w - (2 : K) ^ e ∈ (binary K p hp emin).F := by
      have h1 : (0 : ℤ) < 2 ^ (p - 1) := by positivity
      have := mem_of_le (K := K) p emin hp (k - 1) e (by rw [abs_of_nonneg (by omega)]; omega) he.le
      rw [hwk]
      push_cast at this
      rwa [sub_mul, one_mul] at this
    have hstrict : (2 : K) ^ (e - 1) < w * (2 : K) ^ (-(p : ℤ)) := by
      calc (2 : K) ^ (e - 1) = (2 : K) ^ (e + p - 1) * (2 : K) ^ (-(p : ℤ)) := by rw [← zpow_add₀ (by norm_num)]; congr 1; ring
        _ < _ := by
          refine mul_lt_mul_of_pos_right ?_ hpos
          rw [← hP, hwk]
          refine mul_lt_mul_of_pos_right ?_ h2e
          exact_mod_cast hk1
    by_contra hc
    push Not at hc
    by_cases hlt2 : U * w ≤ w - (2 : K) ^ e
    · have := (binary K p hp emin).fl_le hm hlt2
      have h3 : w ≤ w - (2 : K) ^ e := hc.trans this
      linarith
    · push Not at hlt2
      have hn := (binary K p hp emin).near (U * w) _ hm
      have h3 : w ≤ (binary K p hp emin).fl (U * w) := hc
      rw [abs_of_nonneg (by linarith), abs_of_nonpos (by linarith)] at hn
      linarith

end

/-! ## Double precision -/

/-- **C145** is false of the inverse at the upper bound: with the bounds -1 and 0.3, which are transformed into 0 and 1, the number 1 is transformed back into
`0.30000000000000004`, which is out of the bounds; the log-posterior there is minus infinity and the likelihood is not called. (`transform_bounds` gives the
optimiser of the acquisition function the box from 0 to 1, gp_acquisition.py:337-338, 319.) -/
theorem C145_upper_counterexample : (-1 : ℚ) ∈ binary64.F ∧ binary64.fl (3 / 10) ∈ binary64.F ∧ transform binary64 (-1) (binary64.fl (3 / 10)) (binary64.fl (3 / 10)) = 1 ∧
    binary64.fl (3 / 10) < inverse binary64 (-1) (binary64.fl (3 / 10)) 1 ∧
    ∀ f, Truth.logp ⟨[(.fin (-1), .fin ((binary64.fl (3 / 10) : ℚ) : ℝ))], f⟩ [.fin ((inverse binary64 (-1) (binary64.fl (3 / 10)) 1 : ℚ) : ℝ)] = ([], .ok .negInf) := by
  have h1 : (-1 : ℚ) ∈ binary64.F := ⟨-1, 0, by norm_num, by norm_num, by norm_num⟩
  have h2 : binary64.fl (3 / 10) < inverse binary64 (-1) (binary64.fl (3 / 10)) 1 := by decide +kernel
  refine ⟨h1, binary64.mem _, by decide +kernel, h2, fun f => ?_⟩
  have h3 : ((binary64.fl (3 / 10) : ℚ) : ℝ) < ((inverse binary64 (-1) (binary64.fl (3 / 10)) 1 : ℚ) : ℝ) := by exact_mod_cast h2
  have : Truth.logprior ⟨[(.fin (-1), .fin ((binary64.fl (3 / 10) : ℚ) : ℝ))], f⟩ [.fin ((inverse binary64 (-1) (binary64.fl (3 / 10)) 1 : ℚ) : ℝ)] = .negInf := by
    unfold Truth.logprior
    rw [if_neg]
    simp [Tools.isInBounds, Ext.le, Ext.ge, not_le.2 h3]
  simp [Truth.logp, this]

/-- The same happens with the bounds -5 and 0.2, and 0.3 and 0.9; not with 0 and 1. -/
example : binary64.fl (2 / 10) < inverse binary64 (-5) (binary64.fl (2 / 10)) 1 ∧ binary64.fl (9 / 10) < inverse binary64 (binary64.fl (3 / 10)) (binary64.fl (9 / 10)) 1 ∧
    inverse binary64 0 1 1 = 1 := by decide +kernel

/-! ## Each theorem applied to concrete data -/

theorem one_mem64 : (1 : ℚ) ∈ binary64.F := ⟨1, 0, by norm_num, by norm_num, by norm_num⟩
theorem zero_mem64 : (0 : ℚ) ∈ binary64.F := zero_mem 53 (by norm_num) _
theorem int_mem64 (n : ℤ) (h : |n| < 2 ^ 53) : (n : ℚ) ∈ binary64.F := ⟨n, 0, h, by norm_num, by simp⟩

example : ∃ z, transform binary64 (-1) (binary64.fl (3 / 10)) (binary64.fl (1 / 10)) = z ∧ 0 ≤ z ∧ z ≤ 1 :=
  ⟨_, rfl, (C145_unit binary64 zero_mem64 one_mem64 (-1) (binary64.fl (3 / 10)) (by decide +kernel)).2.2.2 _ (by decide +kernel) (by decide +kernel)⟩

/-- One half is transformed back into the middle. -/
example : inverse binary64 (-1) (binary64.fl (3 / 10)) (1 / 2) ≤ binary64.fl (3 / 10) :=
  (C145_inverse binary64 zero_mem64 (-1) (binary64.fl (3 / 10)) ⟨-1, 0, by norm_num, by norm_num, by norm_num⟩ (binary64.mem _) (by decide +kernel)).2.2.2 _ (by norm_num)
    (Or.inr (by decide +kernel))

/-- Not the number itself, but close to it. -/
example : inverse binary64 (-5) (binary64.fl (2 / 10)) (transform binary64 (-5) (binary64.fl (2 / 10)) (binary64.fl (1 / 10))) ≠ binary64.fl (1 / 10) ∧
    |inverse binary64 (-5) (binary64.fl (2 / 10)) (transform binary64 (-5) (binary64.fl (2 / 10)) (binary64.fl (1 / 10))) - binary64.fl (1 / 10)| ≤
      (1 + 1 / 2 ^ 53) * ((1 + 1 / 2 ^ 53) ^ 3 - 1) * (binary64.fl (1 / 10) - (-5)) + 1 / 2 ^ 53 * |binary64.fl (1 / 10)| := by
  constructor
  · decide +kernel
  · exact C145_roundtrip binary64 (1 / 2 ^ 53) (by positivity) (-5) (binary64.fl (2 / 10)) (binary64.fl (1 / 10)) (by decide +kernel) (by decide +kernel) (by decide +kernel)
      (by decide +kernel) (by decide +kernel) (by decide +kernel)

example : ∃ lo hi, shrink binary64 (binary64.fl (11 / 10)) (0, binary64.fl (7 / 10)) [binary64.fl (1 / 10), binary64.fl (3 / 10), binary64.fl (2 / 10)] = .ok (lo, hi) ∧ 0 ≤ lo ∧
    lo ≤ binary64.fl (1 / 10) ∧ binary64.fl (3 / 10) ≤ hi := by
  obtain ⟨lo, hi, e, h1, -, h3⟩ := C145_shrink binary64 zero_mem64 (0, binary64.fl (7 / 10)) [binary64.fl (1 / 10), binary64.fl (3 / 10), binary64.fl (2 / 10)] (by simp)
    (by simp [binary64.mem]) (binary64.fl (11 / 10)) (by decide +kernel)
  exact ⟨lo, hi, e, h1, (h3 _ (by simp) (by decide +kernel) (by decide +kernel)).1, (h3 _ (by simp) (by decide +kernel) (by decide +kernel)).2⟩

/-- The largest random number, with the bounds of the counterexample. -/
example : inverse binary64 (-1) (binary64.fl (3 / 10)) (1 - 1 / 2 ^ 53) ≤ binary64.fl (3 / 10) :=
  (C145_uniform 53 (by norm_num) (-1074) (-1) (binary64.fl (3 / 10)) (1 - 1 / 2 ^ 53) ⟨-1, 0, by norm_num, by norm_num, by norm_num⟩ (binary64.mem _) (by decide +kernel) (by norm_num)
    (by norm_num [zpow_neg])).2

end GPry.Round
