import Verif.AcqExt
import Verif.AcqProps

set_option linter.all false

/-!
# Gradients of composed acquisition functions with NaN and infinities: C52
-/

namespace GPry.AcqExt

open GPry Acq Kernels Filter Topology

variable {d : ℕ} {ι : Type}

/-- What a gradient component `g` at `x` says about a function `v` whose values may be NaN or infinite: if it is a number, it is the partial derivative of a real function
that is `v` at `x`, and near `x` along the coordinate axis wherever `v` is not NaN. -/
def GradOk (v : (Fin d → ℝ) → Ext ℝ) (x : Fin d → ℝ) (j : Fin d) (g : Ext ℝ) : Prop :=
  ∀ r, g = .fin r → ∃ h : ℝ → ℝ, HasDerivAt h r (x j) ∧ v x = .fin (h (x j)) ∧
    ∀ᶠ t in 𝓝 (x j), v (Function.update x j t) = .fin (h t) ∨ v (Function.update x j t) = .nan

theorem add_fin {a b : Ext ℝ} {r : ℝ} (h : AcqPts.add a b = .fin r) : ∃ u v, a = .fin u ∧ b = .fin v ∧ u + v = r := by
  cases a <;> cases b <;> simp_all [AcqPts.add, Ext.sub, Ext.neg]

theorem mul_fin {a b : Ext ℝ} {r : ℝ} (h : AcqPts.mul a b = .fin r) : ∃ u v, a = .fin u ∧ b = .fin v ∧ u * v = r := by
  cases a <;> cases b <;> simp_all [AcqPts.mul, AcqPts.mulR]
  all_goals first
    | (split_ifs at h <;> simp_all)
    | (rw [← h]; ring)

theorem add_ff (u v : ℝ) : AcqPts.add (.fin u) (.fin v) = .fin (u + v) := by simp [AcqPts.add, Ext.sub, Ext.neg]
theorem mul_ff (u v : ℝ) : AcqPts.mul (.fin u) (.fin v) = .fin (u * v) := rfl

theorem add_nan {a b : Ext ℝ} (h : a = .nan ∨ b = .nan) : AcqPts.add a b = .nan := by
  rcases h with rfl | rfl
  · cases b <;> rfl
  · cases a <;> rfl

theorem mul_nan {a b : Ext ℝ} (h : a = .nan ∨ b = .nan) : AcqPts.mul a b = .nan := by
  rcases h with rfl | rfl
  · cases b <;> rfl
  · cases a <;> rfl

/-- Two functions combined by an operation which is that of the real numbers on numbers, and NaN if one side is NaN. -/
theorem comb {va vb : (Fin d → ℝ) → Ext ℝ} {x : Fin d → ℝ} {j : Fin d} {ha hb : ℝ → ℝ} {op : Ext ℝ → Ext ℝ → Ext ℝ} {o : ℝ → ℝ → ℝ}
    (h1 : ∀ u v, op (.fin u) (.fin v) = .fin (o u v)) (h2 : ∀ a b, a = .nan ∨ b = .nan → op a b = .nan)
    (ea : ∀ᶠ t in 𝓝 (x j), va (Function.update x j t) = .fin (ha t) ∨ va (Function.update x j t) = .nan)
    (eb : ∀ᶠ t in 𝓝 (x j), vb (Function.update x j t) = .fin (hb t) ∨ vb (Function.update x j t) = .nan) :
    ∀ᶠ t in 𝓝 (x j), op (va (Function.update x j t)) (vb (Function.update x j t)) = .fin (o (ha t) (hb t)) ∨
      op (va (Function.update x j t)) (vb (Function.update x j t)) = .nan := by
  filter_upwards [ea, eb] with t hta htb
  rcases hta with hta | hta
  · rcases htb with htb | htb
    · left; rw [hta, htb, h1]
    · right; exact h2 _ _ (Or.inr htb)
  · right; exact h2 _ _ (Or.inl hta)

theorem powR_fin {k p : ℝ} (h : (0 < k ∨ ∃ m : ℤ, p = m) ∧ (k ≠ 0 ∨ 0 ≤ p)) : powR k p = .fin (k ^ p) := by
  unfold powR
  rcases lt_trichotomy k 0 with hk | hk | hk
  · have : ∃ m : ℤ, p = m := h.1.resolve_left (not_lt.mpr hk.le)
    rw [if_neg (not_lt.mpr hk.le), if_pos hk, if_pos this]
  · have hp : 0 ≤ p := h.2.resolve_left (fun hh => hh hk)
    rw [if_neg (by rw [hk]; exact lt_irrefl _), if_neg (by rw [hk]; exact lt_irrefl _), if_neg (not_lt.mpr hp)]
  · rw [if_pos hk]

/-- Whatever the base: a number is the power. -/
theorem powR_cases (k p : ℝ) (h : k ≠ 0 ∨ 0 ≤ p) : powR k p = .fin (k ^ p) ∨ powR k p = .nan := by
  unfold powR
  split_ifs with h1 h2 h3 h4
  · left; rfl
  · left; rfl
  · right; rfl
  · rcases h with h | h
    · exact absurd (le_antisymm (not_lt.mp h1) (not_lt.mp h2)) h
    · exact absurd h4 (not_lt.mpr h)
  · left; rfl

/-- **C52** with NaN and infinities: if the finite gradient components of the operands are derivatives, so are those of every expression, without any condition on bases and exponents. -/
theorem C52_nonfinite_partial (f : ι → (Fin d → ℝ) → Ext ℝ × (Fin d → Ext ℝ)) (x : Fin d → ℝ)
    (hf : ∀ i j, GradOk (fun z => (f i z).1) x j ((f i x).2 j)) (e : Expr ι) :
    (∀ z, (call f e z).1 = value (fun i z => (f i z).1) e z) ∧
    ∀ j, GradOk (value (fun i z => (f i z).1) e) x j ((call f e x).2 j) := by
  have hval : ∀ (e : Expr ι) z, (call f e z).1 = value (fun i z => (f i z).1) e z := by
    intro e
    induction e with
    | leaf i => intro z; rfl
    | const c => intro z; rfl
    | sum a b iha ihb => intro z; simp only [call, value, iha, ihb]
    | prod a b iha ihb => intro z; simp only [call, value, iha, ihb]
    | pow a p iha => intro z; simp only [call, value, iha]
  refine ⟨hval e, ?_⟩
  induction e with
  | leaf i => intro j; exact hf i j
  | const c =>
    intro j r hr
    have : r = 0 := by simp only [call, Ext.fin.injEq] at hr; exact hr.symm
    subst this
    exact ⟨fun _ => c, hasDerivAt_const _ _, rfl, Eventually.of_forall fun t => Or.inl rfl⟩
  | sum a b iha ihb =>
    intro j r hr
    obtain ⟨u, v, h1, h2, h3⟩ := add_fin hr
    obtain ⟨ha, da, ea, na⟩ := iha j u h1
    obtain ⟨hb, db, eb, nb⟩ := ihb j v h2
    refine ⟨fun t => ha t + hb t, h3 ▸ da.add db, ?_, comb add_ff (fun _ _ => add_nan) na nb⟩
    simp only [value, ea, eb, add_ff]
  | prod a b iha ihb =>
    intro j r hr
    obtain ⟨u, v, h1, h2, h3⟩ := add_fin hr
    obtain ⟨u1, u2, h4, h5, h6⟩ := mul_fin h1
    obtain ⟨v1, v2, h7, h8, h9⟩ := mul_fin h2
    obtain ⟨ha, da, ea, na⟩ := iha j u1 h4
    obtain ⟨hb, db, eb, nb⟩ := ihb j v1 h7
    rw [hval, eb] at h5
    rw [hval, ea] at h8
    injection h5 with h5
    injection h8 with h8
    refine ⟨fun t => ha t * hb t, ?_, ?_, comb mul_ff (fun _ _ => mul_nan) na nb⟩
    · refine (da.mul db).congr_deriv ?_
      rw [← h3, ← h6, ← h9, ← h5, ← h8]; ring
    · simp only [value, ea, eb, mul_ff]
  | pow a p iha =>
    intro j r hr
    obtain ⟨u, w, h1, h2, h3⟩ := mul_fin hr
    obtain ⟨g, q, h4, h5, h6⟩ := mul_fin h1
    injection h5 with h5
    subst h5
    obtain ⟨ha, da, ea, na⟩ := iha j g h4
    rw [hval, ea] at h2
    have hbase : (0 < ha (x j) ∨ ∃ m : ℤ, p = m) ∨ (ha (x j) = 0) := by
      simp only [npPow, powR] at h2
      split_ifs at h2 with c1 c2 c3 c4
      · exact Or.inl (Or.inl c1)
      · obtain ⟨m, hm⟩ := c3
        exact Or.inl (Or.inr ⟨m + 1, by push_cast; linarith⟩)
      · exact Or.inr (le_antisymm (not_lt.mp c1) (not_lt.mp c2))
    have hexp : ha (x j) ≠ 0 ∨ 1 ≤ p := by
      by_contra hc
      push Not at hc
      rw [hc.1] at h2
      simp only [npPow, powR] at h2
      rw [if_neg (lt_irrefl _), if_neg (lt_irrefl _), if_pos (by linarith [hc.2])] at h2
      cases h2
    have hw : w = ha (x j) ^ (p - 1) := by
      rcases powR_cases (ha (x j)) (p - 1) (hexp.imp_right (by intro h; linarith)) with h | h
      · simp only [npPow] at h2
        rw [h] at h2
        injection h2 with h2
        exact h2.symm
      · simp only [npPow] at h2
        rw [h] at h2
        cases h2
    refine ⟨fun t => ha t ^ p, ?_, ?_, ?_⟩
    · refine (da.rpow_const hexp).congr_deriv ?_
      rw [← h3, ← h6, hw]
    · simp only [value, ea, npPow]
      rcases hbase with h | h
      · exact powR_fin ⟨h, hexp.imp_right (by intro h; linarith)⟩
      · have hp : 1 ≤ p := hexp.resolve_left (fun hh => hh h)
        unfold powR
        rw [h, if_neg (lt_irrefl _), if_neg (lt_irrefl _), if_neg (by linarith)]
    · have hnear : ∀ᶠ t in 𝓝 (x j), ha t ≠ 0 ∨ 0 ≤ p := by
        rcases hexp with h | h
        · exact (da.continuousAt.eventually_ne h).mono fun t ht => Or.inl ht
        · exact Eventually.of_forall fun t => Or.inr (by linarith)
      filter_upwards [na, hnear] with t ht hn
      rcases ht with ht | ht
      · simp only [value, ht, npPow]
        exact powR_cases _ _ hn
      · simp only [value, ht, npPow]
        by_cases hp : p = 0
        · left; rw [if_pos hp, hp, Real.rpow_zero]
        · right; rw [if_neg hp]

/-- **C52**: a gradient component which is a number is the partial derivative of the value, wherever the value is a number near the point. If the value at the point is not a number, no component of the gradient is. -/
theorem C52_finite_partial (f : ι → (Fin d → ℝ) → Ext ℝ × (Fin d → Ext ℝ)) (x : Fin d → ℝ)
    (hf : ∀ i j, GradOk (fun z => (f i z).1) x j ((f i x).2 j)) (e : Expr ι) (j : Fin d) (r : ℝ) (hr : (call f e x).2 j = .fin r) :
    (∃ k, (call f e x).1 = .fin k) ∧
    ∀ F : (Fin d → ℝ) → ℝ, (∀ᶠ t in 𝓝 (x j), (call f e (Function.update x j t)).1 = .fin (F (Function.update x j t))) → HasPartial F x j r := by
  obtain ⟨hv, hg⟩ := C52_nonfinite_partial f x hf e
  obtain ⟨h, hd, h0, hn⟩ := hg j r hr
  refine ⟨⟨h (x j), by rw [hv, h0]⟩, fun F hF => ?_⟩
  refine hd.congr_of_eventuallyEq ?_
  filter_upwards [hn, hF] with t h1 h2
  rw [hv] at h2
  rcases h1 with h1 | h1
  · rw [h1] at h2; injection h2 with h2; exact h2.symm
  · rw [h1] at h2; cases h2

/-- The coordinate, with its gradient. -/
noncomputable def coordLeaf : Unit → (Fin 1 → ℝ) → Ext ℝ × (Fin 1 → Ext ℝ) := fun _ z => (.fin (z 0), fun _ => .fin 1)

theorem coordLeaf_ok (x : Fin 1 → ℝ) (i : Unit) (j : Fin 1) : GradOk (fun z => (coordLeaf i z).1) x j ((coordLeaf i x).2 j) := by
  intro r hr
  injection hr with hr
  subst hr
  obtain rfl : j = 0 := Subsingleton.elim _ _
  exact ⟨id, hasDerivAt_id _, rfl, Eventually.of_forall fun t => Or.inl (by simp [coordLeaf])⟩

/-- **C52** is false of the code where the base of a power is zero: the square root of the fourth power of the coordinate has derivative zero at zero, the gradient that is returned is NaN. The same for
the coordinate to the power zero, which is 1 everywhere. -/
theorem C52_zero_base_counterexample :
    (∀ z, (call coordLeaf (.pow (.pow (.leaf ()) 4) (1 / 2)) z).1 = .fin (z 0 ^ 2)) ∧
    HasPartial (fun z : Fin 1 → ℝ => z 0 ^ 2) (fun _ => 0) 0 0 ∧ (call coordLeaf (.pow (.pow (.leaf ()) 4) (1 / 2)) (fun _ => 0)).2 0 = .nan ∧
    (∀ z, (call coordLeaf (.pow (.leaf ()) 0) z).1 = .fin 1) ∧
    HasPartial (fun z : Fin 1 → ℝ => (1 : ℝ)) (fun _ => 0) 0 0 ∧ (call coordLeaf (.pow (.leaf ()) 0) (fun _ => 0)).2 0 = .nan := by
  have e4 : ∀ k : ℝ, powR k 4 = .fin (k ^ 4) := fun k => by
    rw [powR_fin ⟨Or.inr ⟨4, by norm_num⟩, Or.inr (by norm_num)⟩]
    congr 1
    exact_mod_cast Real.rpow_natCast k 4
  refine ⟨fun z => ?_, ?_, ?_, fun z => ?_, ?_, ?_⟩
  · simp only [call, coordLeaf, npPow, e4]
    have h0 : (0 : ℝ) ≤ z 0 ^ 4 := by positivity
    have : (z 0 ^ 4 : ℝ) ^ (1 / 2 : ℝ) = z 0 ^ 2 := by
      rw [← Real.sqrt_eq_rpow, show (z 0 : ℝ) ^ 4 = (z 0 ^ 2) ^ 2 by ring, Real.sqrt_sq (by positivity)]
    unfold powR
    rw [this, if_neg (not_lt.mpr h0)]
    split_ifs <;> first | rfl | (exfalso; norm_num at *)
  · show HasDerivAt _ _ _
    simpa using (hasDerivAt_pow 2 (0 : ℝ))
  · simp only [call, coordLeaf, npPow, e4]
    norm_num [powR, AcqPts.mul, AcqPts.mulR]
  · simp only [call, coordLeaf, npPow]
    unfold powR
    split_ifs with h1 h2 h3 h4
    · simp
    · simp
    · exact absurd ⟨0, by norm_num⟩ h3
    · exact absurd h4 (lt_irrefl _)
    · simp
  · exact hasDerivAt_const _ _
  · simp only [call, coordLeaf, npPow]
    norm_num [powR, AcqPts.mul, AcqPts.mulR]

/-- C52: the coordinate to the power 5/2 at zero, NaN on the left: the gradient is zero. -/
example : (call coordLeaf (.pow (.leaf ()) (5 / 2)) (fun _ => 0)).2 0 = .fin 0 ∧ value (fun i z => (coordLeaf i z).1) (.pow (.leaf ()) (5 / 2)) (fun _ => -1) = .nan ∧
    GradOk (value (fun i z => (coordLeaf i z).1) (.pow (.leaf ()) (5 / 2))) (fun _ => 0) 0 ((call coordLeaf (.pow (.leaf ()) (5 / 2)) (fun _ => 0)).2 0) := by
  refine ⟨?_, ?_, (C52_nonfinite_partial coordLeaf _ (coordLeaf_ok _) _).2 0⟩
  · simp only [call, coordLeaf, npPow]
    norm_num [powR, AcqPts.mul, AcqPts.mulR]
  · simp only [value, coordLeaf, npPow, powR]
    rw [if_neg (by norm_num), if_pos (by norm_num), if_neg]
    rintro ⟨m, hm⟩
    have : (5 : ℝ) = 2 * m := by linarith
    have : (5 : ℤ) = 2 * m := by exact_mod_cast this
    omega

/-- C52: the reciprocal of the coordinate at 2. -/
example : HasPartial (fun z : Fin 1 → ℝ => (z 0)⁻¹) (fun _ => 2) 0 (-(1 / 4)) := by
  refine (C52_finite_partial coordLeaf (fun _ => 2) (coordLeaf_ok _) (.pow (.leaf ()) (-1)) 0 (-(1 / 4)) ?_).2 _ ?_
  · simp only [call, coordLeaf, npPow]
    rw [powR_fin ⟨Or.inl (by norm_num), Or.inl (by norm_num)⟩]
    simp only [AcqPts.mul, AcqPts.mulR]
    congr 1
    rw [show (-1 - 1 : ℝ) = ((-2 : ℤ) : ℝ) by norm_num, Real.rpow_intCast]
    norm_num
  · filter_upwards [eventually_gt_nhds (show (0 : ℝ) < 2 by norm_num)] with t ht
    simp only [call, coordLeaf, npPow, Function.update_self]
    rw [powR_fin ⟨Or.inl ht, Or.inl ht.ne'⟩, Real.rpow_neg_one]

/-! ## Powers of infinities -/

/-- **C52**: to the power zero every acquisition function is 1, also where it is infinite or NaN. -/
theorem C52_power_zero {ι P : Type} (f : ι → P → Ext ℝ) (a : Expr ι) (x : P) : value f (.pow a 0) x = .fin 1 := by
  show npPow (value f a x) 0 = _
  unfold npPow
  cases value f a x with
  | fin k =>
    dsimp only
    rw [powR_fin ⟨Or.inr ⟨0, by norm_num⟩, Or.inr le_rfl⟩]
    simp
  | nan => simp
  | posInf => simp
  | negInf => norm_num

/-- Limit of a function: a number or an infinity. -/
def LimitAt (h : ℝ → ℝ) (l : Filter ℝ) : Ext ℝ → Prop
  | .fin c => Tendsto h l (nhds c)
  | .posInf => Tendsto h l atTop
  | .negInf => Tendsto h l atBot
  | .nan => False

/-- **C52**: where an acquisition function is infinite its power is the limit of the powers of large numbers. -/
theorem C52_power_infinite {ι P : Type} (f : ι → P → Ext ℝ) (a : Expr ι) (x : P) (p : ℝ) (h : value f a x = .posInf) :
    LimitAt (fun t => t ^ p) atTop (value f (.pow a p) x) := by
  show LimitAt _ _ (npPow (value f a x) p)
  rw [h]
  unfold npPow
  dsimp only
  split_ifs with h1 h2
  · exact tendsto_rpow_atTop h1
  · subst h2
    simp only [LimitAt, Real.rpow_zero]
    exact tendsto_const_nhds
  · have hp : 0 < -p := by
      rcases lt_trichotomy p 0 with h | h | h
      · linarith
      · exact absurd h h2
      · exact absurd h h1
    have := tendsto_rpow_neg_atTop hp
    simpa [LimitAt] using this

/-- **C52**: where an acquisition function is zero its power is the limit of the powers of small positive numbers. -/
theorem C52_power_of_zero {ι P : Type} (f : ι → P → Ext ℝ) (a : Expr ι) (x : P) (p : ℝ) (h : value f a x = .fin 0) :
    LimitAt (fun t => t ^ p) (nhdsWithin 0 (Set.Ioi 0)) (value f (.pow a p) x) := by
  show LimitAt _ _ (npPow (value f a x) p)
  rw [h]
  unfold npPow powR
  dsimp only
  rw [if_neg (lt_irrefl _), if_neg (lt_irrefl _)]
  split_ifs with h1
  · exact tendsto_rpow_neg_nhdsGT_zero h1
  · have : ContinuousAt (fun t : ℝ => t ^ p) 0 := Real.continuousAt_rpow_const 0 p (Or.inr (not_lt.1 h1))
    exact this.tendsto.mono_left nhdsWithin_le_nhds

/-- **C52**: where the terms of a sum are infinite (or one is) the sum is the limit of the sums, whatever numbers tend to them; it is NaN only for infinities of different
signs. -/
theorem C52_sum_infinite {ι P : Type} (f : ι → P → Ext ℝ) (a b : Expr ι) (x : P) {l : Filter ℝ} {u v : ℝ → ℝ} (hu : LimitAt u l (value f a x))
    (hv : LimitAt v l (value f b x)) :
    LimitAt (fun t => u t + v t) l (value f (.sum a b) x) ∨ value f (.sum a b) x = .nan ∧
      (value f a x = .posInf ∧ value f b x = .negInf ∨ value f a x = .negInf ∧ value f b x = .posInf) := by
  have e : value f (.sum a b) x = AcqPts.add (value f a x) (value f b x) := rfl
  rw [e]
  generalize value f a x = p at hu ⊢
  generalize value f b x = q at hv ⊢
  cases p <;> cases q <;> simp only [LimitAt] at hu hv
  case fin.fin =>
    left
    simp only [AcqPts.add, Ext.sub, Ext.neg, LimitAt, sub_neg_eq_add]
    exact hu.add hv
  case fin.negInf => exact .inl (hu.add_atBot hv)
  case fin.posInf => exact .inl (hu.add_atTop hv)
  case negInf.fin => exact .inl (hu.atBot_add hv)
  case posInf.fin => exact .inl (hu.atTop_add hv)
  case negInf.negInf => exact .inl (hu.atBot_add_atBot hv)
  case posInf.posInf => exact .inl (hu.atTop_add_atTop hv)
  case negInf.posInf => exact .inr ⟨rfl, .inr ⟨rfl, rfl⟩⟩
  case posInf.negInf => exact .inr ⟨rfl, .inl ⟨rfl, rfl⟩⟩

/-- **C52**: the same of products, which are NaN only for zero times an infinity. -/
theorem C52_product_infinite {ι P : Type} (f : ι → P → Ext ℝ) (a b : Expr ι) (x : P) {l : Filter ℝ} {u v : ℝ → ℝ} (hu : LimitAt u l (value f a x))
    (hv : LimitAt v l (value f b x)) :
    LimitAt (fun t => u t * v t) l (value f (.prod a b) x) ∨ value f (.prod a b) x = .nan ∧
      (value f a x = .fin 0 ∧ (value f b x = .posInf ∨ value f b x = .negInf) ∨ value f b x = .fin 0 ∧ (value f a x = .posInf ∨ value f a x = .negInf)) := by
  have e : value f (.prod a b) x = AcqPts.mul (value f a x) (value f b x) := rfl
  rw [e]
  generalize value f a x = p at hu ⊢
  generalize value f b x = q at hv ⊢
  cases p <;> cases q <;> simp only [LimitAt] at hu hv <;> simp only [AcqPts.mul, AcqPts.mulR]
  case fin.fin => exact .inl (hu.mul hv)
  case negInf.negInf => exact .inl (hu.atBot_mul_atBot₀ hv)
  case posInf.posInf => exact .inl (hu.atTop_mul_atTop₀ hv)
  case negInf.posInf => exact .inl (hu.atBot_mul_atTop₀ hv)
  case posInf.negInf => exact .inl (hu.atTop_mul_atBot₀ hv)
  all_goals
    rename_i c
    rcases lt_trichotomy c 0 with hc | hc | hc
    · rw [if_neg hc.ne, if_neg (not_lt.2 hc.le)]
      left
      first
      | exact hu.neg_mul_atBot hc hv
      | exact hu.neg_mul_atTop hc hv
      | exact hu.atBot_mul_neg hc hv
      | exact hu.atTop_mul_neg hc hv
    · subst hc
      simp
    · rw [if_neg hc.ne', if_pos hc]
      left
      first
      | exact hu.pos_mul_atBot hc hv
      | exact hu.pos_mul_atTop hc hv
      | exact hu.atBot_mul_pos hc hv
      | exact hu.atTop_mul_pos hc hv

/-- Minus infinity, in a sum with 3 and squared as a product. -/
example : LimitAt (fun t => t + 3) atBot (value (fun (_ : Unit) (_ : ℝ) => (.negInf : Ext ℝ)) (.sum (.leaf ()) (.const 3)) 0) ∧
    LimitAt (fun t => t * t) atBot (value (fun (_ : Unit) (_ : ℝ) => (.negInf : Ext ℝ)) (.prod (.leaf ()) (.leaf ())) 0) :=
  ⟨(C52_sum_infinite (fun (_ : Unit) (_ : ℝ) => (.negInf : Ext ℝ)) (.leaf ()) (.const 3) 0 (l := atBot) (u := fun t => t) (v := fun _ => 3) tendsto_id tendsto_const_nhds).resolve_right (fun h => by cases h.1),
    (C52_product_infinite (fun (_ : Unit) (_ : ℝ) => (.negInf : Ext ℝ)) (.leaf ()) (.leaf ()) 0 (l := atBot) (u := fun t => t) (v := fun t => t) tendsto_id tendsto_id).resolve_right (fun h => by cases h.1)⟩

/-- The powers -2, 0 and 3 of an infinite value. -/
example : value (fun (_ : Unit) (_ : ℝ) => (.posInf : Ext ℝ)) (.pow (.leaf ()) (-2)) 0 = .fin 0 ∧ value (fun (_ : Unit) (_ : ℝ) => (.posInf : Ext ℝ)) (.pow (.leaf ()) 0) 0 = .fin 1 ∧
    value (fun (_ : Unit) (_ : ℝ) => (.posInf : Ext ℝ)) (.pow (.leaf ()) 3) 0 = .posInf := by
  refine ⟨?_, C52_power_zero _ _ _, ?_⟩ <;> norm_num [value, npPow]

/-- The powers -2 of an infinite value and of zero are limits. -/
example : LimitAt (fun t => t ^ (-2 : ℝ)) atTop (value (fun (_ : Unit) (_ : ℝ) => (.posInf : Ext ℝ)) (.pow (.leaf ()) (-2)) 0) ∧
    LimitAt (fun t => t ^ (-2 : ℝ)) (nhdsWithin 0 (Set.Ioi 0)) (value (fun (_ : Unit) (x : ℝ) => .fin x) (.pow (.leaf ()) (-2)) 0) :=
  ⟨C52_power_infinite _ _ _ _ rfl, C52_power_of_zero _ _ _ _ rfl⟩

end GPry.AcqExt
