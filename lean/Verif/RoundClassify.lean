import Verif.RoundBounds
import Verif.Gpr

set_option linter.all false

/-!
# Classification of the targets and rounding (C146)

`append_to_data` classifies the targets as given, and again after the transformation of the targets, and asserts that the results agree (gpr.py:690-734).
-/

namespace GPry.Round

open GPry

variable {K : Type*} [Field K] [LinearOrder K] [IsStrictOrderedRing K] (R : Rnd K)

/-- svm.py:290-295 `_is_finite_raw` with the maximum of the values, which are finite. -/
def classify (thr : K) (ys : List K) : List Bool := match Tools.maxOf ys with
  | none => []
  | some M => ys.map fun y => decide (R.sub M thr ≤ y)

/-- gpr.py:1475-1488 `_diff_threshold_if_keep_n_finite`, for finite values and threshold (`none`: IndexError). -/
def keepThr (eps : K) (n : ℕ) (ref : K) (ys : List K) : Option K :=
  if n ≤ 1 then some ref
  else
    let s := ys.insertionSort (· ≤ ·)
    match s.getLast?, s[s.length - min n s.length]? with
    | some top, some nth => some (max ref (R.add (R.sub top nth) eps))
    | _, _ => none

/-- preprocessing.py:603 `Normalize_y.transform` -/
def trY (mu s y : K) : K := R.div (R.sub y mu) s

/-- gpr.py:733-734: the assertion, after fitting the preprocessor (`mean_`, `std_`), with the threshold transformed by preprocessing.py:625. -/
def asserts (mu s thr : K) (ys : List K) : Prop := classify R thr ys = classify R (R.div thr s) (ys.map (trY R mu s))

instance (mu s thr : K) (ys : List K) : Decidable (asserts R mu s thr ys) := inferInstanceAs (Decidable (_ = _))

/-! ## Without rounding -/

theorem npMax_fin : ∀ (l : List K) (x : K), (l.map Ext.fin).foldl Ext.npMax2 (.fin x) = .fin (l.foldl max x)
  | [], x => rfl
  | y :: l, x => by
    have : Ext.npMax2 (.fin x) (.fin y) = .fin (max x y) := by
      by_cases h : x < y
      · simp [Ext.npMax2, Ext.isNan, Ext.lt, h, max_eq_right h.le]
      · simp [Ext.npMax2, Ext.isNan, Ext.lt, h, max_eq_left (not_lt.1 h)]
    simp only [List.map_cons, List.foldl_cons, this, npMax_fin l]

theorem exact_classify (thr : K) (ys : List K) (h : ys ≠ []) : Gpr.isFiniteAll (.fin thr) (ys.map .fin) = .ok (classify (exact K) thr ys) := by
  cases ys with
  | nil => exact absurd rfl h
  | cons y l =>
    simp only [Gpr.isFiniteAll, Ext.npMax, List.map_cons, npMax_fin, classify, Tools.maxOf, List.map_map]
    simp [Gpr.isFiniteRaw, Ext.ge, Ext.le, Ext.sub, Ext.isFinite, Rnd.sub, exact, Function.comp_def]

theorem exact_keepThr (eps : K) (n : ℕ) (ref : K) (ys : List K) :
    Gpr.diffThresholdKeepN eps (ys.map .fin) n (.fin ref) = match keepThr (exact K) eps n ref ys with
      | some t => .ok (.fin t)
      | none => .error .indexError := by
  have hs : Ext.sort (ys.map Ext.fin) = (ys.insertionSort (· ≤ ·)).map Ext.fin := by
    unfold Ext.sort
    symm
    apply List.map_insertionSort
    intro a _ b _
    simp [Ext.sortLe, Ext.le]
  unfold Gpr.diffThresholdKeepN keepThr
  split_ifs with h
  · rfl
  · simp only [hs, List.length_map, List.getLast?_map, List.getElem?_map]
    cases (ys.insertionSort (· ≤ ·)).getLast? with
    | none => rfl
    | some top =>
      cases (ys.insertionSort (· ≤ ·))[(ys.insertionSort (· ≤ ·)).length - min n (ys.insertionSort (· ≤ ·)).length]? with
      | none => rfl
      | some nth =>
        show Except.ok (if Ext.lt (.fin ref) (.fin (top - nth + eps)) = true then Ext.fin (top - nth + eps) else .fin ref) = .ok (.fin (max ref (top - nth + eps)))
        by_cases hc : ref < top - nth + eps
        · rw [if_pos (by simpa [Ext.lt] using hc), max_eq_right hc.le]
        · rw [if_neg (by simpa [Ext.lt] using hc), max_eq_left (not_lt.1 hc)]

/-! ## Largest value -/

theorem trY_mono (mu s : K) (hs : 0 < s) {x y : K} (h : x ≤ y) : trY R mu s x ≤ trY R mu s y :=
  R.fl_mono (div_le_div_of_nonneg_right (sub_mono_left R h) hs.le)

theorem foldl_max_mono {f : K → K} (hf : ∀ x y, x ≤ y → f x ≤ f y) : ∀ (l : List K) (x : K), (l.map f).foldl max (f x) = f (l.foldl max x)
  | [], x => rfl
  | y :: l, x => by
    have : max (f x) (f y) = f (max x y) := by
      rcases le_total x y with h | h
      · rw [max_eq_right h, max_eq_right (hf _ _ h)]
      · rw [max_eq_left h, max_eq_left (hf _ _ h)]
    simp only [List.map_cons, List.foldl_cons, this, foldl_max_mono hf l]

theorem maxOf_map {f : K → K} (hf : ∀ x y, x ≤ y → f x ≤ f y) (ys : List K) : Tools.maxOf (ys.map f) = (Tools.maxOf ys).map f := by
  cases ys with
  | nil => rfl
  | cons y l => simp [Tools.maxOf, foldl_max_mono hf]

/-! ## Values far enough from the threshold -/

/-- Relative error of at most `u`. -/
def Rel (u x : K) : Prop := |R.fl x - x| ≤ u * |x|

/-- No underflow in the operations that classify `y`. -/
structure Normal (u M mu s thr y : K) : Prop where
  raw : Rel R u (M - thr)
  sub : Rel R u (y - mu)
  div : Rel R u (R.sub y mu / s)
  scale : Rel R u (thr / s)
  diff : Rel R u (trY R mu s M - R.div thr s)

theorem trY_err (u mu s y : K) (hs : 0 < s) (hu : 0 ≤ u) (h1 : Rel R u (y - mu)) (h2 : Rel R u (R.sub y mu / s)) : |trY R mu s y * s - (y - mu)| ≤ (2 * u + u ^ 2) * |y - mu| := by
  unfold Rel at h1 h2
  have h1' : |R.sub y mu - (y - mu)| ≤ u * |y - mu| := h1
  have h2' : |trY R mu s y - R.sub y mu / s| ≤ u * |R.sub y mu / s| := h2
  generalize trY R mu s y = t at *
  generalize R.sub y mu = a at *
  have h3 : |t * s - a| ≤ u * |a| := by
    have e : t * s - a = (t - a / s) * s := by field_simp
    rw [e, abs_mul]
    calc |t - a / s| * |s| ≤ u * |a / s| * |s| := mul_le_mul_of_nonneg_right h2' (abs_nonneg _)
      _ = u * |a| := by rw [abs_div]; field_simp
  have h4 : |a| ≤ (1 + u) * |y - mu| := by
    have := abs_sub_abs_le_abs_sub a (y - mu)
    linarith
  have h5 := abs_sub_le (t * s) a (y - mu)
  nlinarith [mul_le_mul_of_nonneg_left h4 hu]

/-- The transformed difference to the threshold. -/
theorem diff_err (u M mu s thr y : K) (hs : 0 < s) (hu : 0 ≤ u) (hu1 : u ≤ 1) (ht : 0 ≤ thr) (hy : Normal R u M mu s thr y) (hM : Normal R u M mu s thr M) :
    |(trY R mu s y - (trY R mu s M - R.div thr s)) * s - (y - (M - thr))| ≤ 3 * u * (|y - mu| + |M - mu|) + u * thr ∧
      |trY R mu s M - R.div thr s| * s ≤ 4 * |M - mu| + 2 * thr := by
  have e1 := trY_err R u mu s y hs hu hy.sub hy.div
  have e2 := trY_err R u mu s M hs hu hM.sub hM.div
  have e3 : |R.div thr s * s - thr| ≤ u * thr := by
    have h : |R.div thr s - thr / s| ≤ u * |thr / s| := hy.scale
    have e : R.div thr s * s - thr = (R.div thr s - thr / s) * s := by field_simp
    rw [e, abs_mul]
    calc |R.div thr s - thr / s| * |s| ≤ u * |thr / s| * |s| := mul_le_mul_of_nonneg_right h (abs_nonneg _)
      _ = u * thr := by rw [abs_div, abs_of_nonneg ht]; field_simp
  generalize trY R mu s y = a at *
  generalize trY R mu s M = b at *
  generalize R.div thr s = t at *
  have hq : (2 * u + u ^ 2) ≤ 3 * u := by nlinarith
  constructor
  · have e : (a - (b - t)) * s - (y - (M - thr)) = (a * s - (y - mu)) - (b * s - (M - mu)) + (t * s - thr) := by ring
    rw [e]
    have s1 := abs_add_le ((a * s - (y - mu)) - (b * s - (M - mu))) (t * s - thr)
    have s2 := abs_sub (a * s - (y - mu)) (b * s - (M - mu))
    have q1 := mul_le_mul_of_nonneg_right hq (abs_nonneg (y - mu))
    have q2 := mul_le_mul_of_nonneg_right hq (abs_nonneg (M - mu))
    linarith
  · have h1 : |b - t| * s = |b * s - t * s| := by rw [← abs_of_pos hs, ← abs_mul, abs_of_pos hs, sub_mul]
    rw [h1]
    have s1 := abs_sub (b * s) (t * s)
    have s2 := abs_sub_abs_le_abs_sub (b * s) (M - mu)
    have s3 := abs_sub_abs_le_abs_sub (t * s) thr
    rw [abs_of_nonneg ht] at s3
    have q2 := mul_le_mul_of_nonneg_right hq (abs_nonneg (M - mu))
    have q3 : 3 * u * |M - mu| ≤ 3 * |M - mu| := mul_le_mul_of_nonneg_right (by linarith) (abs_nonneg _)
    have q4 : u * thr ≤ thr := by nlinarith
    linarith

/-- One value, classified twice. -/
theorem agree (u M mu s thr y : K) (hyF : y ∈ R.F) (hs : 0 < s) (hu : 0 ≤ u) (hu1 : u ≤ 1) (ht : 0 ≤ thr) (hy : Normal R u M mu s thr y) (hM : Normal R u M mu s thr M)
    (hd : 8 * u * (|y - mu| + |M - mu| + thr) + u * |M - thr| < |y - (M - thr)|) :
    (R.sub M thr ≤ y ↔ M - thr < y) ∧ (R.sub (trY R mu s M) (R.div thr s) ≤ trY R mu s y ↔ M - thr < y) := by
  obtain ⟨h1, h2⟩ := diff_err R u M mu s thr y hs hu hu1 ht hy hM
  have n1 := abs_nonneg (y - mu)
  have n2 := abs_nonneg (M - mu)
  have n3 := abs_nonneg (M - thr)
  have m1 := mul_nonneg hu n1
  have m2 := mul_nonneg hu n2
  have m3 := mul_nonneg hu ht
  have m4 := mul_nonneg hu n3
  have hraw : |R.sub M thr - (M - thr)| ≤ u * |M - thr| := hy.raw
  have htr : |R.sub (trY R mu s M) (R.div thr s) - (trY R mu s M - R.div thr s)| ≤ u * |trY R mu s M - R.div thr s| := hy.diff
  obtain ⟨l1, l2⟩ := abs_le.1 h1
  rcases lt_or_ge (M - thr) y with h | h
  · rw [abs_of_pos (show 0 < y - (M - thr) by linarith)] at hd
    refine ⟨⟨fun _ => h, fun _ => R.fl_le hyF h.le⟩, ⟨fun _ => h, fun _ => R.fl_le (R.mem _) ?_⟩⟩
    have : 0 ≤ (trY R mu s y - (trY R mu s M - R.div thr s)) * s := by nlinarith
    have := nonneg_of_mul_nonneg_left this hs
    linarith
  · rw [abs_of_nonpos (show y - (M - thr) ≤ 0 by linarith)] at hd
    constructor
    · refine ⟨fun hc => ?_, fun hc => absurd hc (not_lt.2 h)⟩
      have := (abs_le.1 hraw).1
      nlinarith
    · refine ⟨fun hc => ?_, fun hc => absurd hc (not_lt.2 h)⟩
      exfalso
      have k1 := (abs_le.1 htr).1
      have k2 : (trY R mu s y - (trY R mu s M - R.div thr s)) * s ≥ -(u * |trY R mu s M - R.div thr s|) * s := by
        apply mul_le_mul_of_nonneg_right _ hs.le
        linarith
      have k3 : u * |trY R mu s M - R.div thr s| * s ≤ u * (4 * |M - mu| + 2 * thr) := by
        rw [mul_assoc]; exact mul_le_mul_of_nonneg_left h2 hu
      nlinarith

/-- **C146**: if no value is too close to the threshold, the assertion holds, and both classifications are those of exact arithmetic. -/
theorem C146_margin (u mu s thr : K) (ys : List K) (M : K) (hMax : Tools.maxOf ys = some M) (hF : ∀ y ∈ ys, y ∈ R.F) (hs : 0 < s) (hu : 0 ≤ u) (hu1 : u ≤ 1) (ht : 0 ≤ thr)
    (hn : ∀ y ∈ ys, Normal R u M mu s thr y) (hM : Normal R u M mu s thr M)
    (hd : ∀ y ∈ ys, 8 * u * (|y - mu| + |M - mu| + thr) + u * |M - thr| < |y - (M - thr)|) :
    asserts R mu s thr ys ∧ classify R thr ys = classify (exact K) thr ys := by
  have hmap := maxOf_map (f := trY R mu s) (fun x y h => trY_mono R mu s hs h) ys
  rw [hMax, Option.map_some] at hmap
  unfold asserts classify
  rw [hmap, hMax]
  dsimp only
  rw [List.map_map]
  constructor
  · apply List.map_congr_left
    intro y hy
    obtain ⟨a, b⟩ := agree R u M mu s thr y (hF y hy) hs hu hu1 ht (hn y hy) hM (hd y hy)
    simp only [Function.comp_def, decide_eq_decide]
    rw [a, b]
  · apply List.map_congr_left
    intro y hy
    obtain ⟨a, -⟩ := agree R u M mu s thr y (hF y hy) hs hu hu1 ht (hn y hy) hM (hd y hy)
    simp only [decide_eq_decide, a]
    show _ ↔ M - thr ≤ y
    refine ⟨le_of_lt, fun h => lt_of_le_of_ne h ?_⟩
    intro e
    have := hd y hy
    rw [← e, sub_self, abs_zero] at this
    have := mul_nonneg hu (abs_nonneg (M - thr))
    have := mul_nonneg hu (abs_nonneg (M - thr - mu))
    have := mul_nonneg hu (abs_nonneg (M - mu))
    have := mul_nonneg hu ht
    linarith

/-! ## The values to be kept -/

theorem foldl_max_spec : ∀ (l : List K) (x : K), (l.foldl max x ∈ x :: l) ∧ ∀ y ∈ x :: l, y ≤ l.foldl max x
  | [], x => by simp
  | z :: l, x => by
    obtain ⟨h1, h2⟩ := foldl_max_spec l (max x z)
    rw [List.foldl_cons]
    refine ⟨?_, fun y hy => ?_⟩
    · rcases List.mem_cons.1 h1 with h | h
      · rw [h]; rcases max_choice x z with h | h <;> rw [h] <;> simp
      · simp [h]
    · rcases List.mem_cons.1 hy with rfl | hy
      · exact (le_max_left y z).trans (h2 _ (by simp))
      · rcases List.mem_cons.1 hy with rfl | hy
        · exact (le_max_right x y).trans (h2 _ (by simp))
        · exact h2 _ (by simp [hy])

theorem maxOf_spec {ys : List K} {M : K} (h : Tools.maxOf ys = some M) : M ∈ ys ∧ ∀ y ∈ ys, y ≤ M := by
  cases ys with
  | nil => simp [Tools.maxOf] at h
  | cons y l =>
    simp only [Tools.maxOf, Option.some.injEq] at h
    exact h ▸ foldl_max_spec l y

/-- **C146**: at least `n` values are finite (or all of them), if the two roundings are together not larger than the margin `eps`. -/
theorem C146_keep (eps ref thr : K) (n : ℕ) (href : 0 ≤ ref) (ys : List K) (ht : keepThr R eps n ref ys = some thr) (hF : ∀ y ∈ ys, y ∈ R.F)
    (hr : ∀ a ∈ ys, ∀ b ∈ ys, b ≤ a → |R.sub a b - (a - b)| + |R.add (R.sub a b) eps - (R.sub a b + eps)| ≤ eps) :
    min n ys.length ≤ (classify R thr ys).count true := by
  unfold classify
  cases hM : Tools.maxOf ys with
  | none =>
    cases ys with
    | nil => simp
    | cons y l => simp [Tools.maxOf] at hM
  | some M =>
    obtain ⟨m1, m2⟩ := maxOf_spec hM
    dsimp only
    have hcount : ((ys.map fun y => decide (R.sub M thr ≤ y)).count true) = (ys.insertionSort (· ≤ ·)).countP (fun y => decide (R.sub M thr ≤ y)) := by
      rw [(List.perm_insertionSort (· ≤ ·) ys).countP_eq, List.count, List.countP_map]
      congr 1
      funext y
      simp
    rw [hcount]
    set s := ys.insertionSort (· ≤ ·) with hs
    have hlen : s.length = ys.length := List.length_insertionSort _ _
    have hsort : s.Pairwise (· ≤ ·) := List.pairwise_insertionSort _ _
    have hmem : ∀ y, y ∈ s ↔ y ∈ ys := fun y => List.mem_insertionSort _
    unfold keepThr at ht
    split_ifs at ht with hn
    · -- the largest one
      simp only [Option.some.injEq] at ht
      refine le_trans ?_ (List.one_le_countP_iff.2 ⟨M, (hmem M).2 m1, ?_⟩)
      · omega
      · rw [decide_eq_true_eq]
        exact R.fl_le (hF M m1) (by linarith)
    · dsimp only at ht
      rw [← hs] at ht
      have hpos : 0 < s.length := by rw [hlen]; exact List.length_pos_of_mem m1
      have hk : s.length - min n s.length < s.length := by omega
      have hl : s.getLast? = some M := by
        have hne : s ≠ [] := List.length_pos_iff.1 hpos
        rw [List.getLast?_eq_some_getLast hne]
        congr 1
        apply le_antisymm
        · exact m2 _ ((hmem _).1 (List.getLast_mem hne))
        · exact hsort.rel_getLast ((hmem M).2 m1)
      rw [hl, List.getElem?_eq_getElem hk] at ht
      simp only [Option.some.injEq] at ht
      set yn := s[s.length - min n s.length] with hyn
      have hyn' : yn ∈ ys := (hmem _).1 (List.getElem_mem hk)
      have hle : R.sub M thr ≤ yn := by
        refine R.fl_le (hF _ hyn') ?_
        have h1 : R.add (R.sub M yn) eps ≤ thr := ht ▸ le_max_right _ _
        have h2 := (abs_le.1 (le_refl |R.sub M yn - (M - yn)|)).1
        have h3 := (abs_le.1 (le_refl |R.add (R.sub M yn) eps - (R.sub M yn + eps)|)).1
        have := hr M m1 yn hyn' (m2 _ hyn')
        linarith
      have hdrop : ∀ y ∈ s.drop (s.length - min n s.length), R.sub M thr ≤ y := by
        intro y hy
        rw [List.drop_eq_getElem_cons hk] at hy
        rcases List.mem_cons.1 hy with rfl | hy'
        · exact hle
        · have := (List.pairwise_cons.1 (List.drop_eq_getElem_cons hk ▸ hsort.drop)).1 y hy'
          exact hle.trans this
      calc min n ys.length = (s.drop (s.length - min n s.length)).length := by rw [List.length_drop]; omega
        _ = (s.drop (s.length - min n s.length)).countP (fun y => decide (R.sub M thr ≤ y)) := by
          symm
          rw [List.countP_eq_length]
          intro y hy
          rw [decide_eq_true_eq]
          exact hdrop y hy
        _ ≤ _ := (List.drop_sublist _ _).countP_le

section
variable [FloorRing K]

/-- Absolute error of a rounding. -/
theorem binary_err (p : ℕ) (hp : 0 < p) (emin k : ℤ) (hk : emin ≤ k - p) (x : K) (hx : |x| < (2 : K) ^ k) : |(binary K p hp emin).fl x - x| ≤ (2 : K) ^ (k - p) / 2 := by
  by_cases h0 : x = 0
  · subst h0
    have := (binary K p hp emin).near 0 0 (zero_mem p hp emin)
    rw [sub_self, abs_zero] at this
    exact this.trans (by positivity)
  show |flBin p emin x - x| ≤ _
  have hexp : lastExp p emin x ≤ k - p := by
    unfold lastExp
    refine max_le hk ?_
    have := (Int.lt_zpow_iff_log_lt (b := 2) (by norm_num) (abs_pos.2 h0)).1 (by rwa [Nat.cast_ofNat])
    omega
  unfold flBin
  have h2 : (0 : K) < (2 : K) ^ lastExp p emin x := by positivity
  have e1 : |(rne (x / (2 : K) ^ lastExp p emin x) : K) * (2 : K) ^ lastExp p emin x - x| = |(rne (x / (2 : K) ^ lastExp p emin x) : K) - x / (2 : K) ^ lastExp p emin x| * (2 : K) ^ lastExp p emin x := by
    rw [← abs_of_pos h2, ← abs_mul, abs_of_pos h2]
    congr 1
    field_simp
  rw [e1]
  calc _ ≤ 1 / 2 * (2 : K) ^ lastExp p emin x := mul_le_mul_of_nonneg_right (rne_err _) h2.le
    _ ≤ 1 / 2 * (2 : K) ^ (k - p) := mul_le_mul_of_nonneg_left (zpow_le_zpow_right₀ (by norm_num) hexp) (by norm_num)
    _ = _ := by ring

end

/-- `epsilon=1e-6`, gpr.py:1476 -/
def eps64 : ℚ := binary64.fl (1 / 1000000)

/-- **C146** in double precision: at least `n` values are finite, if they differ by less than `2 ^ 33 - 1`. -/
theorem C146_keep64 (ref thr : ℚ) (n : ℕ) (href : 0 ≤ ref) (ys : List ℚ) (ht : keepThr binary64 eps64 n ref ys = some thr) (hF : ∀ y ∈ ys, y ∈ binary64.F)
    (hd : ∀ a ∈ ys, ∀ b ∈ ys, a - b < 2 ^ 33 - 1) : min n ys.length ≤ (classify binary64 thr ys).count true := by
  refine C146_keep binary64 eps64 ref thr n href ys ht hF fun a ha b hb hab => ?_
  have he : (2 : ℚ) ^ (-20 : ℤ) ≤ eps64 ∧ eps64 ≤ 1 / 2 := by decide +kernel
  have h1 := binary_err (K := ℚ) 53 (by norm_num) (-1074) 33 (by norm_num) (a - b) (by
    rw [abs_of_nonneg (by linarith)]; have := hd a ha b hb; norm_num at this ⊢; linarith)
  have h1' : |binary64.sub a b - (a - b)| ≤ (2 : ℚ) ^ (-20 : ℤ) / 2 := h1
  obtain ⟨l1, l2⟩ := abs_le.1 h1'
  have h2 := binary_err (K := ℚ) 53 (by norm_num) (-1074) 33 (by norm_num) (binary64.sub a b + eps64) (by
    have := hd a ha b hb
    rw [abs_lt]
    norm_num at *
    constructor <;> linarith)
  have h2' : |binary64.add (binary64.sub a b) eps64 - (binary64.sub a b + eps64)| ≤ (2 : ℚ) ^ (-20 : ℤ) / 2 := h2
  exact (add_le_add h1' h2').trans (by rw [add_halves]; exact he.1)

/-! ## What is lost -/

/-- **C146** is false: three values are to be kept, the last of which is far away. `Normalize_y` (the default, run.py:319) is fitted to them with `np.mean` and `np.std`
(preprocessing.py:561, 586), and `mu`, `v` are what these compute (numpy/core/_methods.py: mean, mean of squared deviations); `s` is the square root, correctly rounded.
All the values are finite before the transformation, but the last one is not afterwards: the assertion fails. -/
theorem C146_counterexample :
    let R := binary64
    let ys : List ℚ := [-1, -2, -24000000000]
    let mu := R.div (R.add (-1) (R.add (-2) (-24000000000))) 3
    let sq := fun y => R.mul (R.sub y mu) (R.sub y mu)
    let v := R.div (R.add (sq (-1)) (R.add (sq (-2)) (sq (-24000000000)))) 3
    let s : ℚ := 2965820800572497 / 2 ^ 18
    (∀ y ∈ ys, y ∈ R.F) ∧ s ∈ R.F ∧ (s - 1 / 2 ^ 20) ^ 2 < v ∧ v < (s + 1 / 2 ^ 20) ^ 2 ∧
      ∃ thr, keepThr R eps64 3 20 ys = some thr ∧ classify R thr ys = [true, true, true] ∧
        classify R (R.div thr s) (ys.map (trY R mu s)) = [true, true, false] ∧ ¬ asserts R mu s thr ys := by
  refine ⟨?_, ⟨2965820800572497, -18, by norm_num, by norm_num, by norm_num⟩, by decide +kernel, by decide +kernel, (keepThr binary64 eps64 3 20 [-1, -2, -24000000000]).getD 0, by decide +kernel, by decide +kernel, by decide +kernel, by decide +kernel⟩
  intro y hy
  simp only [List.mem_cons, List.not_mem_nil, or_false] at hy
  rcases hy with rfl | rfl | rfl
  · exact_mod_cast int_mem64 (-1) (by norm_num)
  · exact_mod_cast int_mem64 (-2) (by norm_num)
  · exact_mod_cast int_mem64 (-24000000000) (by norm_num)

/-- **C146**: the bound of `C146_keep64` is needed: of these two values, only one is kept although two should be. -/
theorem C146_keep_counterexample : ∃ thr, keepThr binary64 eps64 2 20 [2 ^ 53, binary64.fl (6 / 10)] = some thr ∧
    classify binary64 thr [2 ^ 53, binary64.fl (6 / 10)] = [true, false] :=
  ⟨(keepThr binary64 eps64 2 20 [2 ^ 53, binary64.fl (6 / 10)]).getD 0, by decide +kernel, by decide +kernel⟩

/-- **C146**: in exact arithmetic the assertion always holds. -/
theorem C146_exact (mu s thr : K) (hs : 0 < s) (ys : List K) : asserts (exact K) mu s thr ys := by
  have hmap := maxOf_map (f := trY (exact K) mu s) (fun x y h => trY_mono _ mu s hs h) ys
  unfold asserts classify
  rw [hmap]
  cases Tools.maxOf ys with
  | none => rfl
  | some M =>
    dsimp only [Option.map_some]
    rw [List.map_map]
    apply List.map_congr_left
    intro y _
    simp only [Function.comp_def, decide_eq_decide]
    show M - thr ≤ y ↔ (M - mu) / s - thr / s ≤ (y - mu) / s
    rw [← sub_div, div_le_div_iff_of_pos_right hs]
    constructor <;> intro h <;> linarith

/-- Relative error of a rounding, above the underflow. -/
theorem binary_rel {K : Type*} [Field K] [LinearOrder K] [IsStrictOrderedRing K] [FloorRing K] (p : ℕ) (hp : 0 < p) (emin : ℤ) (x : K) (hx : x = 0 ∨ (2 : K) ^ (emin + p - 1) ≤ |x|) :
    Rel (binary K p hp emin) ((2 : K) ^ (-p : ℤ)) x := by
  unfold Rel
  by_cases h0 : x = 0
  · subst h0
    have := (binary K p hp emin).near 0 0 (zero_mem p hp emin)
    rw [sub_self, abs_zero] at this
    rw [abs_zero, mul_zero, sub_zero]
    simpa using this
  have hx := hx.resolve_left h0
  have hpos := abs_pos.2 h0
  have hlog : emin + p - 1 ≤ Int.log 2 |x| := by
    have := (Int.zpow_le_iff_le_log (b := 2) (by norm_num) hpos).1 (by rwa [Nat.cast_ofNat])
    exact this
  have h1 : |x| < (2 : K) ^ (Int.log 2 |x| + 1) := by
    have := Int.lt_zpow_succ_log_self (b := 2) (by norm_num) |x|
    rwa [Nat.cast_ofNat] at this
  have h2 : (2 : K) ^ Int.log 2 |x| ≤ |x| := by
    have := Int.zpow_log_le_self (b := 2) (by norm_num) hpos
    rwa [Nat.cast_ofNat] at this
  refine (binary_err p hp emin (Int.log 2 |x| + 1) (by omega) x h1).trans ?_
  have e : (2 : K) ^ (Int.log 2 |x| + 1 - p) / 2 = 2 ^ (-p : ℤ) * 2 ^ Int.log 2 |x| := by
    rw [show Int.log 2 |x| + 1 - (p : ℤ) = -p + Int.log 2 |x| + 1 by ring, zpow_add₀ (by norm_num), zpow_add₀ (by norm_num)]
    ring
  rw [e]
  exact mul_le_mul_of_nonneg_left h2 (by positivity)

/-! ## Each theorem applied to concrete data -/

/-- Far from the threshold: the first two values are finite, the third is not. -/
example : asserts binary64 (-35) (binary64.fl (33 / 10)) 20 [-1, -3 / 2, -100] ∧ classify binary64 20 [-1, -3 / 2, -100] = classify (exact ℚ) 20 [-1, -3 / 2, -100] := by
  have hn : ∀ y ∈ ([-1, -3 / 2, -100] : List ℚ), Normal binary64 (1 / 2 ^ 53) (-1) (-35) (binary64.fl (33 / 10)) 20 y := by
    intro y hy
    simp only [List.mem_cons, List.not_mem_nil, or_false] at hy
    rcases hy with rfl | rfl | rfl <;> exact ⟨by unfold Rel; decide +kernel, by unfold Rel; decide +kernel, by unfold Rel; decide +kernel, by unfold Rel; decide +kernel, by unfold Rel; decide +kernel⟩
  refine C146_margin binary64 (1 / 2 ^ 53) _ _ _ _ (-1) (by decide +kernel) ?_ (by decide +kernel) (by norm_num) (by norm_num) (by norm_num) hn (hn _ (by simp)) (by decide +kernel)
  intro y hy
  simp only [List.mem_cons, List.not_mem_nil, or_false] at hy
  rcases hy with rfl | rfl | rfl
  · exact_mod_cast int_mem64 (-1) (by norm_num)
  · exact ⟨-3, -1, by norm_num, by norm_num, by norm_num⟩
  · exact_mod_cast int_mem64 (-100) (by norm_num)

/-- Two values that differ by a million are kept. -/
example (thr : ℚ) (ht : keepThr binary64 eps64 2 20 [-1, -1000000] = some thr) : 2 ≤ (classify binary64 thr [-1, -1000000]).count true := by
  refine C146_keep64 20 thr 2 (by norm_num) [-1, -1000000] ht ?_ (by decide +kernel)
  intro y hy
  simp only [List.mem_cons, List.not_mem_nil, or_false] at hy
  rcases hy with rfl | rfl
  · exact_mod_cast int_mem64 (-1) (by norm_num)
  · exact_mod_cast int_mem64 (-1000000) (by norm_num)

example : ∃ thr, keepThr binary64 eps64 2 20 [-1, -1000000] = some thr ∧ (classify binary64 thr [-1, -1000000]) = [true, true] :=
  ⟨(keepThr binary64 eps64 2 20 [-1, -1000000]).getD 0, by decide +kernel, by decide +kernel⟩

example : asserts (exact ℚ) (-8000000001) 11313708498 (24000000000 - 1 + 1 / 1000000) [-1, -2, -24000000000] := C146_exact _ _ _ (by norm_num) _

/-- `0.1 + 0.2` -/
example : Rel binary64 (2 ^ (-53 : ℤ)) (3 / 10) := binary_rel 53 (by norm_num) (-1074) (3 / 10) (Or.inr (by decide +kernel))

end GPry.Round
