import Mathlib.Algebra.Order.Field.Basic
import Mathlib.Algebra.BigOperators.Group.List.Basic
import Mathlib.Algebra.Order.BigOperators.Group.List
import Mathlib.Algebra.BigOperators.Ring.List
import Mathlib.Algebra.BigOperators.Ring.Finset
import Mathlib.Algebra.BigOperators.Field
import Mathlib.Algebra.Order.BigOperators.Ring.Finset
import Mathlib.Tactic.Linarith
import Mathlib.Tactic.FieldSimp
import Mathlib.Tactic.Ring
import Mathlib.Tactic.Positivity
import Verif.Cov

set_option linter.all false

namespace GPry.Cov

variable {K : Type*} [Field K] [LinearOrder K] [IsStrictOrderedRing K] {d : ℕ}

/-! ## Sums -/

theorem sum_nonneg' {A : Type*} (l : List A) (f : A → K) (h : ∀ a ∈ l, 0 ≤ f a) : 0 ≤ (l.map f).sum :=
  List.sum_nonneg (by intro x hx; obtain ⟨a, ha, rfl⟩ := List.mem_map.mp hx; exact h a ha)

theorem sum_le' {A : Type*} (l : List A) (f g : A → K) (h : ∀ a ∈ l, f a ≤ g a) : (l.map f).sum ≤ (l.map g).sum := by
  induction l with
  | nil => simp
  | cons a l ih =>
    simp only [List.map_cons, List.sum_cons]
    exact add_le_add (h a (by simp)) (ih fun b hb => h b (by simp [hb]))

theorem sum_mul_left' {A : Type*} (l : List A) (f : A → K) (c : K) : (l.map fun a => c * f a).sum = c * (l.map f).sum := by
  induction l with
  | nil => simp
  | cons a l ih => simp [ih, mul_add]

theorem sum_add' {A : Type*} (l : List A) (f g : A → K) :
    (l.map fun a => f a + g a).sum = (l.map f).sum + (l.map g).sum := by
  induction l with
  | nil => simp
  | cons a l ih => simp [ih]; ring

theorem sum_sub' {A : Type*} (l : List A) (f g : A → K) :
    (l.map fun a => f a - g a).sum = (l.map f).sum - (l.map g).sum := by
  induction l with
  | nil => simp
  | cons a l ih => simp [ih]; ring

theorem sum_filter' {A : Type*} (l : List A) (f : A → K) (p : A → Bool) (h : ∀ a ∈ l, p a = false → f a = 0) :
    ((l.filter p).map f).sum = (l.map f).sum := by
  induction l with
  | nil => simp
  | cons a l ih =>
    have ih := ih fun b hb => h b (by simp [hb])
    by_cases hp : p a = true
    · simp [hp, ih]
    · simp [hp, ih, h a (by simp) (by simpa using hp)]

theorem sum_const' {A : Type*} (l : List A) (c : K) : (l.map fun _ => c).sum = (l.length : K) * c := by
  induction l with
  | nil => simp
  | cons a l ih => simp [ih]; ring

theorem zip_fst {A : Type*} (w : List K) (X : List A) (h : w.length = X.length) : (w.zip X).map Prod.fst = w :=
  List.map_fst_zip (by omega)

theorem zip_snd {A : Type*} (w : List K) (X : List A) (h : w.length = X.length) : (w.zip X).map Prod.snd = X :=
  List.map_snd_zip (by omega)

theorem zip_sum {A : Type*} (w : List K) (X : List A) (h : w.length = X.length) :
    ((w.zip X).map Prod.fst).sum = w.sum := by rw [zip_fst w X h]

theorem zip_sum2 {A : Type*} (w : List K) (X : List A) (h : w.length = X.length) :
    ((w.zip X).map fun q => q.1 * q.1).sum = (w.map fun a => a * a).sum := by
  have : (w.zip X).map (fun q => q.1 * q.1) = ((w.zip X).map Prod.fst).map fun a => a * a := by simp [Function.comp_def]
  rw [this, zip_fst w X h]

theorem any_neg (w : List K) : (w.any fun a => decide (a < 0)) = false ↔ ∀ a ∈ w, 0 ≤ a := by
  simp

/-! ## Outcome of the functions -/

theorem fromSamples_some (X : List (Fin d → K)) (w : List K) (hl : w.length = X.length) (h0 : w.sum ≠ 0)
    (hp : ∀ a ∈ w, 0 ≤ a) : fromSamples X (some w) = .ok ⟨fun i => .fin (wmean (w.zip X) i),
      covOf (w.zip X) (wsum (w.zip X) - wsum2 (w.zip X) / wsum (w.zip X))⟩ := by
  have h1 : (w.any fun a => decide (a < 0)) = false := (any_neg w).2 hp
  simp only [fromSamples, average, npCov, hl, h0, h1, ne_eq, not_true_eq_false, if_false, Bool.false_eq_true]
  simp [wsum, wsum2, zip_sum w X hl, zip_sum2 w X hl]

theorem fromSamples_none (X : List (Fin d → K)) (hX : X ≠ []) :
    fromSamples X none = .ok ⟨fun i => .fin (wmean (X.map fun x => (1, x)) i),
      covOf (X.map fun x => (1, x)) ((X.length : K) - 1)⟩ := by
  have h : (X.length : K) ≠ 0 := by
    simpa using hX
  have h2 : wsum (X.map fun x => ((1 : K), x)) = X.length := by
    simp [wsum, Function.comp_def]
  simp [fromSamples, average, npCov, Ext.divFin, h, wmean, h2, Function.comp_def]

/-- C104: with weights, mean and covariance are returned exactly if there are as many weights as points, none of them
is negative, and not all of them are zero. -/
theorem C104_ok_iff (X : List (Fin d → K)) (w : List K) :
    (∃ r, fromSamples X (some w) = .ok r) ↔ w.length = X.length ∧ (∀ a ∈ w, 0 ≤ a) ∧ ∃ a ∈ w, a ≠ 0 := by
  constructor
  · rintro ⟨r, h⟩
    by_cases hl : w.length = X.length
    · by_cases h0 : w.sum = 0
      · simp [fromSamples, average, hl, h0] at h
      · by_cases hp : (w.any fun a => decide (a < 0)) = false
        · refine ⟨hl, (any_neg w).1 hp, ?_⟩
          by_contra hc
          push Not at hc
          exact h0 (List.sum_eq_zero hc)
        · rw [Bool.not_eq_false] at hp
          simp only [fromSamples, average, npCov, hl, h0, hp, ne_eq, not_true_eq_false, if_false, if_true] at h
          cases h
    · simp [fromSamples, average, hl] at h
  · rintro ⟨hl, hp, a, ha, h0⟩
    refine ⟨_, fromSamples_some X w hl ?_ hp⟩
    intro hs
    have := List.single_le_sum hp a ha
    exact h0 (le_antisymm (hs ▸ this) (hp a ha))

/-! ## Weighted sums with non-negative weights -/

/-- non-negative weights, one of them positive -/
def Ok (p : List (K × (Fin d → K))) : Prop := (∀ q ∈ p, 0 ≤ q.1) ∧ 0 < wsum p

theorem wmean_mul (p : List (K × (Fin d → K))) (h : wsum p ≠ 0) (i : Fin d) :
    wmean p i * wsum p = (p.map fun q => q.1 * q.2 i).sum := by
  rw [wmean, div_mul_cancel₀ _ h]

theorem wmean_bounds (p : List (K × (Fin d → K))) (h : Ok p) (i : Fin d) (a b : K)
    (hb : ∀ q ∈ p, 0 < q.1 → a ≤ q.2 i ∧ q.2 i ≤ b) : a ≤ wmean p i ∧ wmean p i ≤ b := by
  have key : ∀ q ∈ p, a * q.1 ≤ q.1 * q.2 i ∧ q.1 * q.2 i ≤ b * q.1 := by
    intro q hq
    rcases (h.1 q hq).eq_or_lt with h0 | h0
    · simp [← h0]
    · have := hb q hq h0
      constructor <;> nlinarith
  constructor
  · rw [wmean, le_div_iff₀ h.2, wsum]
    rw [← sum_mul_left']
    exact sum_le' _ _ _ fun q hq => (key q hq).1
  · rw [wmean, div_le_iff₀ h.2, wsum, ← sum_mul_left']
    exact sum_le' _ _ _ fun q hq => (key q hq).2

theorem scatter_symm (p : List (K × (Fin d → K))) (i j : Fin d) : scatter p i j = scatter p j i := by
  unfold scatter
  congr 1
  apply List.map_congr_left
  intros
  ring

theorem scatter_quad (p : List (K × (Fin d → K))) (a : Fin d → K) :
    ∑ i, ∑ j, a i * scatter p i j * a j = (p.map fun q => q.1 * (∑ i, a i * (q.2 i - wmean p i)) ^ 2).sum := by
  have gen : ∀ l : List (K × (Fin d → K)), ∑ i, ∑ j, a i * (l.map fun q => q.1 * (q.2 i - wmean p i) *
      (q.2 j - wmean p j)).sum * a j = (l.map fun q => q.1 * (∑ i, a i * (q.2 i - wmean p i)) ^ 2).sum := by
    intro l
    induction l with
    | nil => simp
    | cons q l ih =>
      simp only [List.map_cons, List.sum_cons]
      rw [← ih, sq, Finset.sum_mul_sum, Finset.mul_sum, ← Finset.sum_add_distrib]
      refine Finset.sum_congr rfl fun i _ => ?_
      rw [Finset.mul_sum, ← Finset.sum_add_distrib]
      refine Finset.sum_congr rfl fun j _ => ?_
      ring
  exact gen p

theorem scatter_psd (p : List (K × (Fin d → K))) (h : ∀ q ∈ p, 0 ≤ q.1) (a : Fin d → K) :
    0 ≤ ∑ i, ∑ j, a i * scatter p i j * a j := by
  rw [scatter_quad]
  exact sum_nonneg' _ _ fun q hq => mul_nonneg (h q hq) (sq_nonneg _)

theorem clip_pos {f : K} (h : 0 < f) : clipFact f = f := by simp [clipFact, not_le.2 h]

/-- Square of the sum of the weights and sum of the squares. -/
theorem wsum_sq (p : List (K × (Fin d → K))) (h : ∀ q ∈ p, 0 ≤ q.1) : wsum2 p ≤ wsum p * wsum p := by
  induction p with
  | nil => simp [wsum, wsum2]
  | cons q p ih =>
    have ih := ih fun r hr => h r (by simp [hr])
    have h1 := h q (by simp)
    have h2 : 0 ≤ wsum p := sum_nonneg' _ _ fun r hr => h r (by simp [hr])
    simp only [wsum, wsum2, List.map_cons, List.sum_cons] at *
    nlinarith [mul_nonneg h1 h2]

/-- The number of degrees of freedom is positive if there are two positive weights. -/
theorem fact_pos (p : List (K × (Fin d → K))) (h : ∀ q ∈ p, 0 ≤ q.1)
    (h2 : 2 ≤ (p.filter fun q => decide (0 < q.1)).length) : 0 < wsum p ∧ 0 < wsum p - wsum2 p / wsum p := by
  have gen : ∀ l : List (K × (Fin d → K)), (∀ q ∈ l, 0 ≤ q.1) → 1 ≤ (l.filter fun q => decide (0 < q.1)).length →
      0 < wsum l := by
    intro l hl h1
    obtain ⟨q, hq⟩ := List.exists_mem_of_length_pos (by omega : 0 < (l.filter fun q => decide (0 < q.1)).length)
    rw [List.mem_filter] at hq
    have : q.1 ≤ wsum l := List.single_le_sum (by
      intro x hx; obtain ⟨a, ha, rfl⟩ := List.mem_map.mp hx; exact hl a ha) q.1 (List.mem_map.2 ⟨q, hq.1, rfl⟩)
    have h0 : 0 < q.1 := by simpa using hq.2
    linarith
  have hs : 0 < wsum p := gen p h (by omega)
  refine ⟨hs, ?_⟩
  have key : ∀ l : List (K × (Fin d → K)), (∀ q ∈ l, 0 ≤ q.1) → 2 ≤ (l.filter fun q => decide (0 < q.1)).length →
      wsum2 l < wsum l * wsum l := by
    intro l
    induction l with
    | nil => simp
    | cons q l ih =>
      intro hl h2
      have hl' : ∀ r ∈ l, 0 ≤ r.1 := fun r hr => hl r (by simp [hr])
      have h1 := hl q (by simp)
      have h3 : 0 ≤ wsum l := sum_nonneg' _ _ hl'
      have h4 := wsum_sq l hl'
      by_cases hq : 0 < q.1
      · have : 0 < wsum l := gen l hl' (by simp [hq] at h2; omega)
        simp only [wsum, wsum2, List.map_cons, List.sum_cons] at *
        nlinarith [mul_pos hq this]
      · have hq0 : q.1 = 0 := le_antisymm (not_lt.1 hq) h1
        have := ih hl' (by simpa [hq] using h2)
        simp only [wsum, wsum2, List.map_cons, List.sum_cons, hq0] at *
        simpa using this
  have := key p h h2
  rw [sub_pos, div_lt_iff₀ hs]
  exact this

/-- What a covariance matrix must be. -/
def IsCov (c : Fin d → Fin d → Ext K) : Prop :=
  ∃ C : Fin d → Fin d → K, (∀ i j, c i j = .fin (C i j)) ∧ (∀ i j, C i j = C j i) ∧
    ∀ a : Fin d → K, 0 ≤ ∑ i, ∑ j, a i * C i j * a j

theorem covOf_isCov (p : List (K × (Fin d → K))) (h : ∀ q ∈ p, 0 ≤ q.1) {f : K} (hf : 0 < f) :
    IsCov (covOf p f).val := by
  refine ⟨fun i j => scatter p i j / f, ?_, ?_, ?_⟩
  · intro i j
    simp [covOf, clip_pos hf, Ext.divFin, hf.ne']
  · intro i j
    simp only [scatter_symm p i j]
  · intro a
    have : ∑ i, ∑ j, a i * (scatter p i j / f) * a j = (∑ i, ∑ j, a i * scatter p i j * a j) / f := by
      rw [Finset.sum_div]
      refine Finset.sum_congr rfl fun i _ => ?_
      rw [Finset.sum_div]
      refine Finset.sum_congr rfl fun j _ => ?_
      ring
    rw [this]
    exact div_nonneg (scatter_psd p h a) hf.le

theorem zip_nonneg {A : Type*} (w : List K) (X : List A) (h : ∀ a ∈ w, 0 ≤ a) : ∀ q ∈ w.zip X, 0 ≤ q.1 :=
  fun q hq => h q.1 (List.of_mem_zip hq).1

theorem ok_zip (X : List (Fin d → K)) (w : List K) (hl : w.length = X.length) (h0 : w.sum ≠ 0) (hp : ∀ a ∈ w, 0 ≤ a) :
    Ok (w.zip X) := by
  refine ⟨zip_nonneg w X hp, ?_⟩
  rw [wsum, zip_sum w X hl]
  exact lt_of_le_of_ne (List.sum_nonneg hp) (Ne.symm h0)

/-- Which weights `mean_covmat_from_samples` was given. -/
theorem ok_data {X : List (Fin d → K)} {w : List K} {r : MeanCov d K} (h : fromSamples X (some w) = .ok r) :
    w.length = X.length ∧ w.sum ≠ 0 ∧ (∀ a ∈ w, 0 ≤ a) := by
  obtain ⟨hl, hp, a, ha, h0⟩ := (C104_ok_iff X w).1 ⟨r, h⟩
  refine ⟨hl, fun hs => ?_, hp⟩
  have := List.single_le_sum hp a ha
  exact h0 (le_antisymm (hs ▸ this) (hp a ha))

/-- C104: each component of the mean is between the bounds of that component in the points with weight. -/
theorem C104_mean_bounds {X : List (Fin d → K)} {w : List K} {r : MeanCov d K} (h : fromSamples X (some w) = .ok r)
    (i : Fin d) (a b : K) (hb : ∀ (k : ℕ) (x : Fin d → K) (v : K), X[k]? = some x → w[k]? = some v → 0 < v → a ≤ x i ∧ x i ≤ b) :
    ∃ m, r.mean i = .fin m ∧ a ≤ m ∧ m ≤ b := by
  obtain ⟨hl, h0, hp⟩ := ok_data h
  rw [fromSamples_some X w hl h0 hp] at h
  cases h
  refine ⟨_, rfl, wmean_bounds _ (ok_zip X w hl h0 hp) i a b ?_⟩
  intro q hq hq0
  obtain ⟨k, hk⟩ := List.mem_iff_getElem?.1 hq
  rw [List.getElem?_zip_eq_some] at hk
  exact hb k q.2 q.1 hk.2 hk.1 hq0

/-- C104: without weights. -/
theorem C104_mean_bounds_unweighted {X : List (Fin d → K)} (hX : X ≠ []) (i : Fin d) (a b : K)
    (hb : ∀ x ∈ X, a ≤ x i ∧ x i ≤ b) : ∃ r, fromSamples X none = .ok r ∧ ∃ m, r.mean i = .fin m ∧ a ≤ m ∧ m ≤ b := by
  refine ⟨_, fromSamples_none X hX, _, rfl, wmean_bounds _ ⟨?_, ?_⟩ i a b ?_⟩
  · intro q hq; obtain ⟨x, _, rfl⟩ := List.mem_map.1 hq; simp
  · have : 0 < X.length := List.length_pos_iff.2 hX
    simpa [wsum, Function.comp_def] using this
  · intro q hq _; obtain ⟨x, hx, rfl⟩ := List.mem_map.1 hq; exact hb x hx

/-- C104: with at least two points with weight, the covariance is finite, symmetric and positive semidefinite. -/
theorem C104_cov_partial {X : List (Fin d → K)} {w : List K} {r : MeanCov d K} (h : fromSamples X (some w) = .ok r)
    (h2 : 2 ≤ (w.filter fun a => decide (0 < a)).length) : IsCov r.cov.val := by
  obtain ⟨hl, h0, hp⟩ := ok_data h
  rw [fromSamples_some X w hl h0 hp] at h
  cases h
  refine covOf_isCov _ (zip_nonneg w X hp) (fact_pos _ (zip_nonneg w X hp) ?_).2
  have : ((w.zip X).filter fun q => decide (0 < q.1)).length = (w.filter fun a => decide (0 < a)).length := by
    conv_rhs => rw [← zip_fst w X hl, List.filter_map, List.length_map]
    rfl
  omega

/-- C104: without weights, two points are enough. -/
theorem C104_cov_unweighted_partial {X : List (Fin d → K)} (h2 : 2 ≤ X.length) :
    ∃ r, fromSamples X none = .ok r ∧ IsCov r.cov.val := by
  refine ⟨_, fromSamples_none X (by rintro rfl; simp at h2), covOf_isCov _ ?_ ?_⟩
  · intro q hq; obtain ⟨x, _, rfl⟩ := List.mem_map.1 hq; simp
  · have : (2 : K) ≤ X.length := by exact_mod_cast h2
    linarith

/-- C104: if a single point has weight, every entry of the covariance is NaN. -/
theorem C104_single_counterexample {X : List (Fin d → K)} {w : List K} {r : MeanCov d K}
    (h : fromSamples X (some w) = .ok r) (h1 : (w.filter fun a => decide (0 < a)).length = 1) (i j : Fin d) :
    r.cov.val i j = .nan := by
  obtain ⟨hl, h0, hp⟩ := ok_data h
  rw [fromSamples_some X w hl h0 hp] at h
  cases h
  have hl1 : ((w.zip X).filter fun q => decide (0 < q.1)).length = 1 := by
    rw [← h1]
    conv_rhs => rw [← zip_fst w X hl, List.filter_map, List.length_map]
    rfl
  obtain ⟨q, hq⟩ := List.length_eq_one_iff.1 hl1
  have hn := zip_nonneg w X hp
  have hq0 : 0 < q.1 := by
    have : q ∈ (w.zip X).filter fun q => decide (0 < q.1) := by rw [hq]; simp
    simpa using (List.mem_filter.1 this).2
  have z : ∀ p ∈ w.zip X, decide (0 < p.1) = false → p.1 = 0 := fun p hp' h' =>
    le_antisymm (by simpa using h') (hn p hp')
  have hs : wsum (w.zip X) = q.1 := by
    rw [wsum, ← sum_filter' _ _ _ z, hq]; simp
  have hs2 : wsum2 (w.zip X) = q.1 * q.1 := by
    rw [wsum2, ← sum_filter' _ _ (fun q => decide (0 < q.1)) (fun p a b => by simp [z p a b]), hq]; simp
  have hm : ∀ i, wmean (w.zip X) i = q.2 i := by
    intro i
    rw [wmean, hs, ← sum_filter' _ _ (fun q => decide (0 < q.1)) (fun p a b => by simp [z p a b]), hq]
    simp [hq0.ne']
  have hsc : scatter (w.zip X) i j = 0 := by
    rw [scatter, ← sum_filter' _ _ (fun q => decide (0 < q.1)) (fun p a b => by simp [z p a b]), hq]
    simp [hm]
  simp [covOf, hs, hs2, hsc, clipFact, Ext.divFin, hq0.ne']

/-! ## Invariances -/

theorem divFin_scale (x f c : K) (hc : 0 < c) : Ext.divFin (.fin (c * x)) (c * f) = Ext.divFin (.fin x) f := by
  by_cases hf : f = 0
  · have h1 : (0 < c * x) ↔ 0 < x := by simp [mul_pos_iff_of_pos_left hc]
    have h2 : (c * x < 0) ↔ x < 0 := by simp [mul_neg_iff, hc, hc.le, not_lt.2 hc.le]
    simp [Ext.divFin, hf, h1, h2]
  · simp [Ext.divFin, hf, hc.ne']
    rw [mul_div_mul_left _ _ hc.ne']

theorem clip_scale (f c : K) (hc : 0 < c) : clipFact (c * f) = c * clipFact f := by
  unfold clipFact
  have : c * f ≤ 0 ↔ f ≤ 0 := by
    constructor
    · intro h; by_contra h'; push Not at h'; nlinarith [mul_pos hc h']
    · intro h; nlinarith
  by_cases h : f ≤ 0 <;> simp [h, this]

def scaleW (c : K) (p : List (K × (Fin d → K))) : List (K × (Fin d → K)) := p.map fun q => (c * q.1, q.2)

theorem wsum_scale (c : K) (p : List (K × (Fin d → K))) : wsum (scaleW c p) = c * wsum p := by
  simp only [wsum, scaleW, List.map_map, Function.comp_def, ← sum_mul_left']

theorem wsum2_scale (c : K) (p : List (K × (Fin d → K))) : wsum2 (scaleW c p) = c * (c * wsum2 p) := by
  simp only [wsum2, scaleW, List.map_map, Function.comp_def]
  rw [← sum_mul_left', ← sum_mul_left']
  congr 1
  apply List.map_congr_left
  intros; ring

theorem wmean_scale (c : K) (hc : c ≠ 0) (p : List (K × (Fin d → K))) (i : Fin d) : wmean (scaleW c p) i = wmean p i := by
  rw [wmean, wmean, wsum_scale, ← mul_div_mul_left (p.map fun q => q.1 * q.2 i).sum (wsum p) hc, ← sum_mul_left']
  congr 2
  simp only [scaleW, List.map_map, Function.comp_def]
  apply List.map_congr_left
  intros; ring

theorem scatter_scale (c : K) (hc : c ≠ 0) (p : List (K × (Fin d → K))) (i j : Fin d) :
    scatter (scaleW c p) i j = c * scatter p i j := by
  rw [scatter, scatter, ← sum_mul_left']
  simp only [wmean_scale c hc]
  congr 1
  simp only [scaleW, List.map_map, Function.comp_def]
  apply List.map_congr_left
  intros; ring

theorem zip_scale (c : K) (w : List K) (X : List (Fin d → K)) : (w.map (c * ·)).zip X = scaleW c (w.zip X) := by
  rw [scaleW, List.zip_map_left]
  rfl

theorem covOf_scale (c : K) (hc : 0 < c) (p : List (K × (Fin d → K))) (f : K) :
    covOf (scaleW c p) (c * f) = covOf p f := by
  simp only [covOf, scatter_scale c hc.ne', clip_scale f c hc, divFin_scale _ _ c hc]

/-- C104: a common positive factor in the weights changes nothing (errors included). -/
theorem C104_scale (X : List (Fin d → K)) (w : List K) (c : K) (hc : 0 < c) :
    fromSamples X (some (w.map (c * ·))) = fromSamples X (some w) := by
  by_cases hl : w.length = X.length
  swap
  · simp [fromSamples, average, hl]
  have hsum : (w.map (c * ·)).sum = c * w.sum := by
    have := sum_mul_left' w id c
    simpa using this
  by_cases h0 : w.sum = 0
  · have : (w.map (c * ·)).sum = 0 := by rw [hsum, h0, mul_zero]
    simp only [fromSamples, average, List.length_map, hl, h0, this]
    simp
  have h0' : (w.map (c * ·)).sum ≠ 0 := by rw [hsum]; exact mul_ne_zero hc.ne' h0
  by_cases hp : ∀ a ∈ w, 0 ≤ a
  · rw [fromSamples_some X w hl h0 hp, fromSamples_some X _ (by simpa using hl) h0' (by
      intro a ha; obtain ⟨b, hb, rfl⟩ := List.mem_map.1 ha; exact mul_nonneg hc.le (hp b hb))]
    rw [zip_scale, wsum_scale, wsum2_scale]
    congr 2
    · funext i; rw [wmean_scale c hc.ne']
    · rw [← covOf_scale c hc (w.zip X)]
      congr 1
      rw [mul_div_mul_left _ _ hc.ne', mul_sub, mul_div_assoc]
  · have e1 : (w.any fun a => decide (a < 0)) = true := by
      rw [← Bool.not_eq_false, any_neg]; exact hp
    have e2 : ((w.map (c * ·)).any fun a => decide (a < 0)) = true := by
      rw [← Bool.not_eq_false, any_neg]
      intro h'
      apply hp
      intro a ha
      have := h' _ (List.mem_map.2 ⟨a, ha, rfl⟩)
      exact le_of_mul_le_mul_left (by simpa using this) hc
    simp only [fromSamples, average, npCov, List.length_map, hl, h0, h0', e1, e2]
    simp

theorem wsum_filter (p : List (K × (Fin d → K))) : wsum (p.filter fun q => decide (q.1 ≠ 0)) = wsum p :=
  sum_filter' _ _ _ fun q _ h => by simpa using h

theorem wsum2_filter (p : List (K × (Fin d → K))) : wsum2 (p.filter fun q => decide (q.1 ≠ 0)) = wsum2 p :=
  sum_filter' _ _ _ fun q _ h => by simp at h; simp [h]

theorem wmean_filter (p : List (K × (Fin d → K))) (i : Fin d) : wmean (p.filter fun q => decide (q.1 ≠ 0)) i = wmean p i := by
  rw [wmean, wmean, wsum_filter]
  congr 1
  exact sum_filter' _ _ _ fun q _ h => by simp at h; simp [h]

theorem scatter_filter (p : List (K × (Fin d → K))) (i j : Fin d) :
    scatter (p.filter fun q => decide (q.1 ≠ 0)) i j = scatter p i j := by
  rw [scatter, scatter]
  simp only [wmean_filter]
  exact sum_filter' _ _ _ fun q _ h => by simp at h; simp [h]

theorem filter_zip {A : Type*} (w : List K) (X : List A) (hl : w.length = X.length) :
    (w.filter fun a => decide (a ≠ 0)).zip (deleteZero w X) = (w.zip X).filter fun q => decide (q.1 ≠ 0) := by
  have : w.filter (fun a => decide (a ≠ 0)) = ((w.zip X).filter fun q => decide (q.1 ≠ 0)).map Prod.fst := by
    conv_lhs => rw [← zip_fst w X hl, List.filter_map]
    rfl
  rw [this, deleteZero, List.zip_map', List.map_id']

theorem filter_len {A : Type*} (w : List K) (X : List A) (hl : w.length = X.length) :
    (w.filter fun a => decide (a ≠ 0)).length = (deleteZero w X).length := by
  rw [deleteZero, List.length_map]
  conv_lhs => rw [← zip_fst w X hl, List.filter_map, List.length_map]
  rfl

theorem filter_sum (w : List K) : (w.filter fun a => decide (a ≠ 0)).sum = w.sum := by
  have := sum_filter' w id (fun a => decide (a ≠ 0)) (fun a _ h => by simpa using h)
  simpa using this

/-- C104: removing the points without weight (`remove_0_weight_samples`) does not change mean and covariance. -/
theorem C104_zero_weights {X X' : List (Fin d → K)} {w w' : List K}
    (h : removeZero w [some X] = .ok (w', [some X'])) : fromSamples X' (some w') = fromSamples X (some w) := by
  by_cases hl : w.length = X.length
  swap
  · simp [removeZero, deleteAll, Ne.symm hl] at h
  simp only [removeZero, deleteAll, hl, ne_eq, not_true_eq_false, if_false, Except.ok.injEq, Prod.mk.injEq,
    List.cons.injEq, Option.some.injEq, and_true] at h
  obtain ⟨rfl, rfl⟩ := h
  have hl' := filter_len w X hl
  simp only [ne_eq] at hl'
  by_cases h0 : w.sum = 0
  · have := filter_sum w
    simp only [ne_eq] at this
    simp only [fromSamples, average, hl', hl, this, h0]
    simp
  by_cases hp : ∀ a ∈ w, 0 ≤ a
  · rw [fromSamples_some X w hl h0 hp, fromSamples_some _ _ hl' (by have := filter_sum w; simp only [ne_eq] at this; rwa [this])
      (fun a ha => hp a (List.mem_filter.1 ha).1)]
    have := filter_zip w X hl
    simp only [ne_eq] at this
    rw [this]
    have a1 := wsum_filter (w.zip X)
    have a2 := wsum2_filter (w.zip X)
    have a3 := wmean_filter (w.zip X)
    have a4 := scatter_filter (w.zip X)
    simp only [ne_eq] at a1 a2 a3 a4
    simp only [a1, a2, a3, covOf, a4]
  · have e1 : (w.any fun a => decide (a < 0)) = true := by
      rw [← Bool.not_eq_false, any_neg]; exact hp
    have e2 : ((w.filter fun a => decide (¬ a = 0)).any fun a => decide (a < 0)) = true := by
      rw [← Bool.not_eq_false, any_neg]
      intro h'
      apply hp
      intro a ha
      by_cases ha0 : a = 0
      · simp [ha0]
      · exact h' a (List.mem_filter.2 ⟨ha, by simpa using ha0⟩)
    have := filter_sum w
    simp only [ne_eq] at this
    simp only [fromSamples, average, npCov, hl', hl, h0, this, e1, e2]
    simp

theorem zip_replicate {A : Type*} (X : List A) (c : K) : (List.replicate X.length c).zip X = X.map fun x => (c, x) := by
  induction X with
  | nil => rfl
  | cons x X ih => simp [List.replicate_succ, ih]

/-- C104: equal weights are as good as no weights. -/
theorem C104_equal_weights {X : List (Fin d → K)} (hX : X ≠ []) (c : K) (hc : 0 < c) :
    fromSamples X (some (List.replicate X.length c)) = fromSamples X none := by
  have hn : (X.length : K) ≠ 0 := by simpa using hX
  have e : List.replicate X.length c = (List.replicate X.length (1 : K)).map (c * ·) := by simp
  rw [e, C104_scale X _ c hc, fromSamples_none X hX, fromSamples_some X _ (by simp) (by simpa using hX)
    (by intro a ha; simp [List.mem_replicate] at ha; simp [ha])]
  rw [zip_replicate]
  have h1 : wsum (X.map fun x => ((1 : K), x)) = X.length := by simp [wsum, Function.comp_def]
  have h2 : wsum2 (X.map fun x => ((1 : K), x)) = X.length := by simp [wsum2, Function.comp_def]
  rw [h1, h2, div_self hn]

/-- C104: the order of the points (with their weights) is irrelevant. -/
theorem C104_perm (X X' : List (Fin d → K)) (w w' : List K) (hl : w.length = X.length) (hl' : w'.length = X'.length)
    (hp : (w.zip X).Perm (w'.zip X')) : fromSamples X (some w) = fromSamples X' (some w') := by
  have hw : w.Perm w' := by
    have := hp.map Prod.fst
    rwa [zip_fst w X hl, zip_fst w' X' hl'] at this
  have hs := hw.sum_eq
  by_cases h0 : w.sum = 0
  · have : w'.sum = 0 := hs ▸ h0
    simp [fromSamples, average, hl, hl', h0, this]
  by_cases hn : ∀ a ∈ w, 0 ≤ a
  · rw [fromSamples_some X w hl h0 hn, fromSamples_some X' w' hl' (hs ▸ h0) (fun a ha => hn a (hw.mem_iff.2 ha))]
    have a1 : wsum (w.zip X) = wsum (w'.zip X') := (hp.map _).sum_eq
    have a2 : wsum2 (w.zip X) = wsum2 (w'.zip X') := (hp.map _).sum_eq
    have a3 : wmean (w.zip X) = wmean (w'.zip X') := by
      funext i; rw [wmean, wmean, a1, (hp.map _).sum_eq]
    have a4 : scatter (w.zip X) = scatter (w'.zip X') := by
      funext i j; rw [scatter, scatter, a3, (hp.map _).sum_eq]
    simp only [covOf, a1, a2, a3, a4]
  · have e1 : (w.any fun a => decide (a < 0)) = true := by
      rw [← Bool.not_eq_false, any_neg]; exact hn
    have e2 : (w'.any fun a => decide (a < 0)) = true := by
      rw [← Bool.not_eq_false, any_neg]
      exact fun h' => hn fun a ha => h' a (hw.mem_iff.1 ha)
    have h0' : w'.sum ≠ 0 := hs ▸ h0
    simp only [fromSamples, average, npCov, hl, hl', h0, h0', e1, e2]
    simp

/-! ## Each theorem applied to concrete data -/

def exPts : List (Fin 2 → ℚ) := [![0, 0], ![1, 2], ![2, 1], ![5, 5]]

def exWt : List ℚ := [1, 2, 1, 0]

theorem exFrom : ∃ r, fromSamples exPts (some exWt) = .ok r :=
  (C104_ok_iff exPts exWt).2 ⟨rfl, by intro a h; simp [exWt] at h; rcases h with rfl | rfl | rfl | rfl <;> norm_num, 1, by simp [exWt], by norm_num⟩

/-- Negative weights are refused. -/
example : ¬ ∃ r, fromSamples exPts (some [1, -1, 1, 0]) = .ok r := fun h => by
  have := ((C104_ok_iff _ _).1 h).2.1 (-1) (by simp)
  norm_num at this

/-- The last point has no weight, hence does not count. -/
example : ∃ r, fromSamples exPts (some exWt) = .ok r ∧ ∃ m, r.mean 0 = .fin m ∧ 0 ≤ m ∧ m ≤ 2 := by
  obtain ⟨r, h⟩ := exFrom
  refine ⟨r, h, C104_mean_bounds h 0 0 2 ?_⟩
  intro k x v hx hv hpos
  match k with
  | 0 => simp [exPts] at hx; subst hx; norm_num
  | 1 => simp [exPts] at hx; subst hx; norm_num
  | 2 => simp [exPts] at hx; subst hx; norm_num
  | 3 => simp [exWt] at hv; subst hv; norm_num at hpos
  | k + 4 => simp [exWt] at hv

example : ∃ r, fromSamples exPts none = .ok r ∧ ∃ m, r.mean 0 = .fin m ∧ 0 ≤ m ∧ m ≤ 5 :=
  C104_mean_bounds_unweighted (by simp [exPts]) 0 0 5 (by simp [exPts]; norm_num)

example : ∃ r, fromSamples exPts (some exWt) = .ok r ∧ IsCov r.cov.val := by
  obtain ⟨r, h⟩ := exFrom
  exact ⟨r, h, C104_cov_partial h (by simp [exWt])⟩

example : ∃ r, fromSamples exPts none = .ok r ∧ IsCov r.cov.val := C104_cov_unweighted_partial (by simp [exPts])

example : fromSamples exPts (some [10, 20, 10, 0]) = fromSamples exPts (some exWt) := by
  have := C104_scale exPts exWt 10 (by norm_num)
  norm_num [exWt] at this ⊢
  exact this

example : fromSamples [![0, 0], ![1, 2], ![2, 1]] (some [1, 2, 1]) = fromSamples exPts (some exWt) :=
  C104_zero_weights (by decide +kernel)

example : fromSamples exPts (some [3, 3, 3, 3]) = fromSamples exPts none := C104_equal_weights (X := exPts) (by simp [exPts]) 3 (by norm_num)

example : fromSamples exPts (some exWt) = fromSamples [![1, 2], ![0, 0], ![2, 1], ![5, 5]] (some [2, 1, 1, 0]) :=
  C104_perm _ _ _ _ rfl rfl (List.Perm.swap _ _ _)

end GPry.Cov
