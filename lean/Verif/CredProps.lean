import Mathlib.Probability.Distributions.Gaussian.Multivariate
import Mathlib.Probability.CDF
import Mathlib.MeasureTheory.Measure.Lebesgue.VolumeOfBalls
import Mathlib.MeasureTheory.Measure.OpenPos
import Mathlib.Topology.Order.IntermediateValue
import Verif.Cred

set_option linter.all false

/-! # Properties of the numbers of standard deviations (C123) -/

namespace GPry.Cred

open GPry MeasureTheory ProbabilityTheory Real
open scoped Matrix MatrixOrder

/-! ## The distribution of a sum of squares -/

instance : IsProbabilityMeasure (stdNormal d) := by unfold stdNormal; infer_instance

instance openPos_gauss : (gaussianReal 0 1).IsOpenPosMeasure :=
  (gaussianReal_absolutelyContinuous' 0 one_ne_zero).isOpenPosMeasure

instance openPos_stdNormal : (stdNormal d).IsOpenPosMeasure := by unfold stdNormal; infer_instance

instance noAtoms_gauss : NullSingletonClass (gaussianReal 0 1) := nullSingletonClass_gaussianReal one_ne_zero

theorem measurable_ss (d : ℕ) : Measurable fun z : Fin d → ℝ => ∑ i, z i ^ 2 := by fun_prop

theorem continuous_ss (d : ℕ) : Continuous fun z : Fin d → ℝ => ∑ i, z i ^ 2 := by fun_prop

/-- The law of the sum of squares. -/
noncomputable def chi2 (d : ℕ) : Measure ℝ := (stdNormal d).map fun z => ∑ i, z i ^ 2

instance : IsProbabilityMeasure (chi2 d) := Measure.isProbabilityMeasure_map (measurable_ss d).aemeasurable

theorem chi2cdf_eq (x : ℝ) (d : ℕ) : chi2cdf x d = cdf (chi2 d) x := by
  rw [cdf_eq_real, chi2, measureReal_def, Measure.map_apply (measurable_ss d) measurableSet_Iic]
  rfl

/-- Spheres have no mass. -/
theorem sphere_null (d : ℕ) (x : ℝ) : stdNormal (d + 1) {z | ∑ i, z i ^ 2 = x} = 0 := by
  have hm := (measurePreserving_piFinSuccAbove (fun _ : Fin (d + 1) => gaussianReal 0 1) 0)
  have hs : MeasurableSet {q : ℝ × (Fin d → ℝ) | q.1 ^ 2 + ∑ i, q.2 i ^ 2 = x} := by
    apply measurableSet_eq_fun <;> fun_prop
  have h1 : {z : Fin (d + 1) → ℝ | ∑ i, z i ^ 2 = x} =
      (MeasurableEquiv.piFinSuccAbove (fun _ => ℝ) 0) ⁻¹' {q : ℝ × (Fin d → ℝ) | q.1 ^ 2 + ∑ i, q.2 i ^ 2 = x} := by
    ext z
    simp [Fin.sum_univ_succ, MeasurableEquiv.piFinSuccAbove, Fin.insertNthEquiv]
    rfl
  rw [stdNormal, h1, hm.measure_preimage hs.nullMeasurableSet, Measure.prod_apply_symm hs]
  have h2 : ∀ w : Fin d → ℝ, gaussianReal 0 1 ((fun a => (a, w)) ⁻¹' {q : ℝ × (Fin d → ℝ) | q.1 ^ 2 + ∑ i, q.2 i ^ 2 = x}) = 0 := by
    intro w
    refine measure_mono_null (t := {√(x - ∑ i, w i ^ 2), -√(x - ∑ i, w i ^ 2)}) ?_ ((Set.toFinite _).measure_zero _)
    intro a ha
    have ha' : a ^ 2 = x - ∑ i, w i ^ 2 := by
      have : a ^ 2 + ∑ i, w i ^ 2 = x := ha
      linarith
    rw [← ha', Real.sqrt_sq_eq_abs]
    rcases abs_choice a with h | h <;> simp [h]
  exact (lintegral_congr fun w => h2 w).trans lintegral_zero

theorem chi2_noAtoms (d : ℕ) (x : ℝ) : chi2 (d + 1) {x} = 0 := by
  rw [chi2, Measure.map_apply (measurable_ss _) (measurableSet_singleton x)]
  exact sphere_null d x

theorem chi2cdf_continuous (d : ℕ) : Continuous fun x => chi2cdf x (d + 1) := by
  have e : (fun x => chi2cdf x (d + 1)) = cdf (chi2 (d + 1)) := funext fun x => chi2cdf_eq x _
  rw [e, continuous_iff_continuousAt]
  intro x
  rw [(monotone_cdf _).continuousAt_iff_leftLim_eq_rightLim, (cdf (chi2 (d + 1))).rightLim_eq]
  have h := (cdf (chi2 (d + 1))).measure_singleton x
  rw [measure_cdf, chi2_noAtoms, eq_comm, ENNReal.ofReal_eq_zero, sub_nonpos] at h
  exact le_antisymm ((monotone_cdf _).leftLim_le le_rfl) h

theorem chi2cdf_zero (d : ℕ) : chi2cdf 0 (d + 1) = 0 := by
  have h : {z : Fin (d + 1) → ℝ | ∑ i, z i ^ 2 ≤ 0} = {z | ∑ i, z i ^ 2 = 0} := by
    ext z
    exact ⟨fun h => le_antisymm h (Finset.sum_nonneg fun i _ => sq_nonneg _), fun h => le_of_eq h⟩
  rw [chi2cdf, h, measureReal_def, sphere_null]
  rfl

theorem chi2cdf_lt (d : ℕ) {x y : ℝ} (hx : 0 ≤ x) (hxy : x < y) : chi2cdf x (d + 1) < chi2cdf y (d + 1) := by
  have hU : IsOpen {z : Fin (d + 1) → ℝ | x < ∑ i, z i ^ 2 ∧ ∑ i, z i ^ 2 < y} :=
    (isOpen_lt continuous_const (continuous_ss _)).inter (isOpen_lt (continuous_ss _) continuous_const)
  have hne : {z : Fin (d + 1) → ℝ | x < ∑ i, z i ^ 2 ∧ ∑ i, z i ^ 2 < y}.Nonempty := by
    refine ⟨fun i => if i = 0 then √((x + y) / 2) else 0, ?_⟩
    have : ∑ i : Fin (d + 1), (if i = 0 then √((x + y) / 2) else 0) ^ 2 = (x + y) / 2 := by
      simp only [ite_pow, Real.sq_sqrt (by linarith : (0 : ℝ) ≤ (x + y) / 2)]
      simp
    constructor <;> (dsimp only; rw [this]; linarith)
  have hpos : 0 < (stdNormal (d + 1)).real {z | x < ∑ i, z i ^ 2 ∧ ∑ i, z i ^ 2 < y} :=
    ENNReal.toReal_pos (hU.measure_pos _ hne).ne' (measure_ne_top _ _)
  have hsub : {z : Fin (d + 1) → ℝ | ∑ i, z i ^ 2 ≤ x} ∪ {z | x < ∑ i, z i ^ 2 ∧ ∑ i, z i ^ 2 < y} ⊆ {z | ∑ i, z i ^ 2 ≤ y} := by
    rintro z (h | h)
    · exact le_trans h hxy.le
    · exact h.2.le
  have hdis : Disjoint {z : Fin (d + 1) → ℝ | ∑ i, z i ^ 2 ≤ x} {z | x < ∑ i, z i ^ 2 ∧ ∑ i, z i ^ 2 < y} := by
    rw [Set.disjoint_left]
    intro z h h'
    exact absurd h'.1 (not_lt.mpr h)
  have := measureReal_mono (μ := stdNormal (d + 1)) hsub
  rw [measureReal_union hdis hU.measurableSet] at this
  unfold chi2cdf
  linarith

/-- The probability of a value `m` of the distribution function is reached at one point. -/
theorem chi2cdf_surj (d : ℕ) {m : ℝ} (h0 : 0 ≤ m) (h1 : m < 1) : ∃ x, 0 ≤ x ∧ chi2cdf x (d + 1) = m := by
  have ht : Filter.Tendsto (fun x => chi2cdf x (d + 1)) Filter.atTop (nhds 1) := by
    have e : (fun x => chi2cdf x (d + 1)) = cdf (chi2 (d + 1)) := funext fun x => chi2cdf_eq x _
    rw [e]
    exact tendsto_cdf_atTop _
  obtain ⟨M, hM, hM0⟩ := ((ht.eventually (lt_mem_nhds h1)).and (Filter.eventually_ge_atTop 0)).exists
  have := intermediate_value_Icc hM0 (chi2cdf_continuous d).continuousOn
  obtain ⟨x, hx, hx'⟩ := this ⟨by rw [chi2cdf_zero]; exact h0, hM.le⟩
  exact ⟨x, hx.1, hx'⟩

theorem chi2isf_eq (d : ℕ) {q : ℝ} (h0 : 0 < q) (h1 : q ≤ 1) : ∃ x, 0 ≤ x ∧ chi2isf q (d + 1) = .fin x ∧ chi2cdf x (d + 1) = 1 - q := by
  obtain ⟨x, hx, hm⟩ := chi2cdf_surj d (m := 1 - q) (by linarith) (by linarith)
  refine ⟨x, hx, ?_, hm⟩
  have hset : {y | 0 ≤ y ∧ 1 - chi2cdf y (d + 1) ≤ q} = Set.Ici x := by
    ext y
    constructor
    · rintro ⟨hy, h⟩
      by_contra hlt
      have := chi2cdf_lt d hy (not_le.mp hlt)
      linarith
    · intro hy
      refine ⟨le_trans hx hy, ?_⟩
      rcases eq_or_lt_of_le (show x ≤ y from hy) with rfl | hlt
      · linarith
      · have := chi2cdf_lt d hx hlt
        linarith
  unfold chi2isf
  rw [if_neg (by push Not; exact ⟨Nat.succ_ne_zero d, h0.le, h1⟩), if_neg h0.ne', hset, csInf_Ici]

/-! ## One dimension -/

/-- Mass of an interval of `n1` standard deviations. -/
noncomputable def mass1 (n1 : ℝ) : ℝ := (gaussianReal 0 1).real (Set.Icc (-n1) n1)

theorem erfc_eq (n1 : ℝ) : erfc (n1 / √2) = 2 * (gaussianReal 0 1).real (Set.Ioi n1) := by
  have h2 : (0 : ℝ) < √2 := by positivity
  rw [measureReal_def, gaussianReal_apply_eq_integral 0 one_ne_zero, ENNReal.toReal_ofReal (setIntegral_nonneg measurableSet_Ioi fun x _ => gaussianPDFReal_nonneg _ _ _)]
  have h := integral_comp_mul_left_Ioi (fun x => gaussianPDFReal 0 1 x) (n1 / √2) h2
  rw [mul_div_cancel₀ _ h2.ne'] at h
  have h' : ∫ x in Set.Ioi n1, gaussianPDFReal 0 1 x = √2 * ∫ x in Set.Ioi (n1 / √2), gaussianPDFReal 0 1 (√2 * x) := by
    rw [h, smul_eq_mul]
    field_simp
  have hp : ∀ x : ℝ, gaussianPDFReal 0 1 (√2 * x) = (√2)⁻¹ * (√π)⁻¹ * exp (-x ^ 2) := by
    intro x
    rw [gaussianPDFReal_def]
    have : -(√2 * x - 0) ^ 2 / (2 * ((1 : NNReal) : ℝ)) = -x ^ 2 := by
      rw [sub_zero, mul_pow, Real.sq_sqrt (by norm_num)]
      simp
      ring
    simp only [this]
    rw [NNReal.coe_one, mul_one, Real.sqrt_mul (by norm_num), mul_inv]
  rw [h', erfc]
  simp only [hp, integral_const_mul]
  field_simp

theorem mass1_compl {n1 : ℝ} (h : 0 ≤ n1) : mass1 n1 = 1 - 2 * (gaussianReal 0 1).real (Set.Ioi n1) := by
  have hs : (gaussianReal 0 1).real (Set.Iio (-n1)) = (gaussianReal 0 1).real (Set.Ioi n1) := by
    have hm := gaussianReal_map_neg (μ := 0) (v := 1)
    rw [neg_zero] at hm
    rw [measureReal_def, measureReal_def]
    congr 1
    conv_rhs => rw [← hm]
    rw [Measure.map_apply measurable_neg measurableSet_Ioi]
    congr 1
    ext x
    simp [lt_neg]
  have hc : (Set.Icc (-n1) n1)ᶜ = Set.Iio (-n1) ∪ Set.Ioi n1 := by
    ext x
    simp only [Set.mem_compl_iff, Set.mem_Icc, not_and_or, not_le, Set.mem_union, Set.mem_Iio, Set.mem_Ioi]
  have hd : Disjoint (Set.Iio (-n1)) (Set.Ioi n1) := by
    rw [Set.disjoint_left]
    intro x hx hx'
    have h1 : x < -n1 := hx
    have h2 : n1 < x := hx'
    linarith
  have := probReal_compl_eq_one_sub (μ := gaussianReal 0 1) (s := Set.Icc (-n1) n1) measurableSet_Icc
  rw [hc, measureReal_union hd measurableSet_Ioi, hs] at this
  unfold mass1
  linarith

theorem credibility_one {n1 : ℝ} (h : 0 ≤ n1) : credibility n1 1 = mass1 n1 := by
  have hm := measurePreserving_piUnique (fun _ : Fin 1 => gaussianReal 0 1)
  unfold credibility chi2cdf mass1
  rw [measureReal_def, measureReal_def]
  congr 1
  rw [← hm.measure_preimage measurableSet_Icc.nullMeasurableSet]
  unfold stdNormal
  congr 1
  ext z
  simp only [Finset.univ_unique, Finset.sum_singleton, Set.mem_setOf_eq, Set.mem_preimage, Set.mem_Icc]
  rw [sq_le_sq, abs_of_nonneg h, abs_le]
  rfl

theorem erfc_pos (n1 : ℝ) : 0 < erfc (n1 / √2) := by
  rw [erfc_eq]
  have : 0 < (gaussianReal 0 1).real (Set.Ioi n1) := ENNReal.toReal_pos (isOpen_Ioi.measure_pos _ Set.nonempty_Ioi).ne' (measure_ne_top _ _)
  linarith

/-- **C123** (meaning). For any number of dimensions and any non-negative `n1`, `nstd_of_1d_nstd(n1, d)` is a number of standard deviations `R ≥ 0`,
the only one such that a `d`-dimensional standard normal variable lies within a distance `R` with the probability that a one-dimensional one
lies within `n1`; and `credibility_of_nstd` gives back this probability. -/
theorem C123_radius (n1 : ℝ) (h : 0 ≤ n1) (d : ℕ) (hd : 1 ≤ d) :
    ∃ R, 0 ≤ R ∧ nstd n1 d = .fin R ∧ (stdNormal d).real {z | √(∑ i, z i ^ 2) ≤ R} = (gaussianReal 0 1).real (Set.Icc (-n1) n1) ∧
      credibility R d = credibility n1 1 ∧ ∀ R', 0 ≤ R' → (stdNormal d).real {z | √(∑ i, z i ^ 2) ≤ R'} = (gaussianReal 0 1).real (Set.Icc (-n1) n1) → R' = R := by
  obtain ⟨k, rfl⟩ : ∃ k, d = k + 1 := ⟨d - 1, by omega⟩
  have hle : erfc (n1 / √2) ≤ 1 := by
    rw [erfc_eq]
    have := mass1_compl h
    have h0 : 0 ≤ mass1 n1 := measureReal_nonneg
    linarith
  obtain ⟨x, hx, hi, hc⟩ := chi2isf_eq k (erfc_pos n1) hle
  have hset : ∀ R : ℝ, 0 ≤ R → {z : Fin (k + 1) → ℝ | √(∑ i, z i ^ 2) ≤ R} = {z | ∑ i, z i ^ 2 ≤ R ^ 2} := by
    intro R hR
    ext z
    exact Real.sqrt_le_left hR
  have hm : chi2cdf x (k + 1) = mass1 n1 := by
    rw [hc, erfc_eq, mass1_compl h]
  have hsq : √x ^ 2 = x := Real.sq_sqrt hx
  refine ⟨√x, Real.sqrt_nonneg x, ?_, ?_, ?_, ?_⟩
  · rw [nstd, hi, sqrtE, if_neg (not_lt.mpr hx)]
  · rw [hset _ (Real.sqrt_nonneg x), hsq]
    exact hm
  · rw [credibility_one h, credibility, hsq, hm]
  · intro R' hR' he
    rw [hset _ hR'] at he
    have he' : chi2cdf (R' ^ 2) (k + 1) = chi2cdf x (k + 1) := he.trans hm.symm
    have : R' ^ 2 = x := by
      rcases lt_trichotomy (R' ^ 2) x with hlt | heq | hlt
      · exact absurd he' (chi2cdf_lt k (sq_nonneg _) hlt).ne
      · exact heq
      · exact absurd he' (chi2cdf_lt k hx hlt).ne'
    rw [← this, Real.sqrt_sq hR']

/-- Three sigmas in five dimensions are some finite number of standard deviations. -/
example : ∃ R, 0 ≤ R ∧ nstd 3 5 = .fin R := by
  obtain ⟨R, h, h', -⟩ := C123_radius 3 (by norm_num) 5 (by norm_num)
  exact ⟨R, h, h'⟩

theorem mass1_lt {a b : ℝ} (h : 0 ≤ a) (hab : a < b) : mass1 a < mass1 b := by
  rw [← credibility_one h, ← credibility_one (h.trans hab.le)]
  exact chi2cdf_lt 0 (sq_nonneg a) (by nlinarith)

/-- **C123** (one dimension). In one dimension the number of standard deviations is the given one. -/
theorem C123_one_dim (n1 : ℝ) (h : 0 ≤ n1) : nstd n1 1 = .fin n1 ∧ deltaLogp n1 1 = .fin (n1 ^ 2 / 2) := by
  obtain ⟨R, hR, hf, -, -, hu⟩ := C123_radius n1 h 1 le_rfl
  have : n1 = R := hu n1 h (by
    have := credibility_one h
    unfold credibility chi2cdf mass1 at this
    rw [← this]
    congr 1
    ext z
    exact Real.sqrt_le_left h)
  subst this
  refine ⟨hf, ?_⟩
  rw [deltaLogp, hf]
  simp only [Ext.fin.injEq]
  ring

example : nstd 2 1 = .fin 2 ∧ deltaLogp 2 1 = .fin 2 := by
  have := C123_one_dim 2 (by norm_num)
  norm_num at this ⊢
  exact this

/-- **C123** (order). More sigmas give a larger radius and a larger difference of log-posteriors. -/
theorem C123_mono (a b : ℝ) (h : 0 ≤ a) (hab : a < b) (d : ℕ) (hd : 1 ≤ d) :
    ∃ R R', 0 ≤ R ∧ nstd a d = .fin R ∧ nstd b d = .fin R' ∧ R < R' ∧ deltaLogp a d = .fin (R ^ 2 / 2) ∧ deltaLogp b d = .fin (R' ^ 2 / 2) ∧
      R ^ 2 / 2 < R' ^ 2 / 2 := by
  obtain ⟨R, hR, hf, hm, -, -⟩ := C123_radius a h d hd
  obtain ⟨R', hR', hf', hm', -, -⟩ := C123_radius b (h.trans hab.le) d hd
  have hlt : R < R' := by
    by_contra hge
    have hsub : {z : Fin d → ℝ | √(∑ i, z i ^ 2) ≤ R'} ⊆ {z | √(∑ i, z i ^ 2) ≤ R} := fun z hz => le_trans hz (not_lt.mp hge)
    have := measureReal_mono (μ := stdNormal d) hsub
    rw [hm, hm'] at this
    exact absurd (mass1_lt h hab) (not_lt.mpr this)
  refine ⟨R, R', hR, hf, hf', hlt, ?_, ?_, by nlinarith⟩
  · rw [deltaLogp, hf]; simp only [Ext.fin.injEq]; ring
  · rw [deltaLogp, hf']; simp only [Ext.fin.injEq]; ring

example : ∃ R R', nstd 1 7 = .fin R ∧ nstd 2 7 = .fin R' ∧ R < R' := by
  obtain ⟨R, R', -, h1, h2, h3, -⟩ := C123_mono 1 2 (by norm_num) (by norm_num) 7 (by norm_num)
  exact ⟨R, R', h1, h2, h3⟩

theorem nstd_zero (d : ℕ) (hd : 1 ≤ d) : nstd 0 d = .fin 0 := by
  obtain ⟨R, hR, hf, hm, -, hu⟩ := C123_radius 0 le_rfl d hd
  obtain ⟨k, rfl⟩ : ∃ k, d = k + 1 := ⟨d - 1, by omega⟩
  have : (0 : ℝ) = R := hu 0 le_rfl (by
    have h1 : {z : Fin (k + 1) → ℝ | √(∑ i, z i ^ 2) ≤ 0} = {z | ∑ i, z i ^ 2 ≤ 0} := by
      ext z
      have := Real.sqrt_le_left (x := ∑ i, z i ^ 2) (le_refl (0 : ℝ))
      simpa using this
    have h2 := chi2cdf_zero k
    unfold chi2cdf at h2
    rw [h1, h2, neg_zero, Set.Icc_self, measureReal_def, measure_singleton]
    rfl)
  rw [hf, this]

theorem chi2cdf_succ_le (d : ℕ) (x : ℝ) : chi2cdf x (d + 1) ≤ chi2cdf x d := by
  have hm := (measurePreserving_piFinSuccAbove (fun _ : Fin (d + 1) => gaussianReal 0 1) 0)
  have hsnd : MeasurePreserving (Prod.snd : ℝ × (Fin d → ℝ) → _) ((gaussianReal 0 1).prod (stdNormal d)) (stdNormal d) := measurePreserving_snd
  have hc := hsnd.comp hm
  have hs : MeasurableSet {z : Fin d → ℝ | ∑ i, z i ^ 2 ≤ x} := measurableSet_le (measurable_ss d) measurable_const
  unfold chi2cdf
  rw [measureReal_def, measureReal_def, ← hc.measure_preimage hs.nullMeasurableSet]
  refine ENNReal.toReal_mono (measure_ne_top (stdNormal (d + 1)) _) (measure_mono fun z hz => ?_)
  have hz' : ∑ i, z i ^ 2 ≤ x := hz
  rw [Fin.sum_univ_succ] at hz'
  have : ∑ i : Fin d, z i.succ ^ 2 ≤ x := by nlinarith [sq_nonneg (z 0)]
  exact this

/-- **C123** (dimensions). In more dimensions the radius and the difference of log-posteriors are not smaller. -/
theorem C123_dim (n1 : ℝ) (h : 0 ≤ n1) (d e : ℕ) (hd : 1 ≤ d) (hde : d ≤ e) :
    ∃ R R', nstd n1 d = .fin R ∧ nstd n1 e = .fin R' ∧ 0 ≤ R ∧ R ≤ R' ∧ n1 ≤ R := by
  have key : ∀ d e, 1 ≤ d → d ≤ e → ∃ R R', nstd n1 d = .fin R ∧ nstd n1 e = .fin R' ∧ 0 ≤ R ∧ R ≤ R' := by
    intro d e hd hde
    obtain ⟨R, hR, hf, hm, hc, -⟩ := C123_radius n1 h d hd
    obtain ⟨R', hR', hf', hm', hc', -⟩ := C123_radius n1 h e (hd.trans hde)
    refine ⟨R, R', hf, hf', hR, ?_⟩
    by_contra hlt
    have hanti : ∀ x, Antitone (chi2cdf x) := fun x => antitone_nat_of_succ_le fun d => chi2cdf_succ_le d x
    have h1 : credibility R' e ≤ credibility R' d := hanti _ hde
    obtain ⟨k, rfl⟩ : ∃ k, d = k + 1 := ⟨d - 1, by omega⟩
    have h2 : credibility R' (k + 1) < credibility R (k + 1) := chi2cdf_lt k (sq_nonneg _) (by nlinarith [not_le.mp hlt])
    rw [hc'] at h1
    rw [hc] at h2
    linarith
  obtain ⟨R, R', h1, h2, h3, h4⟩ := key d e hd hde
  obtain ⟨S, S', g1, g2, g3, g4⟩ := key 1 d le_rfl hd
  rw [(C123_one_dim n1 h).1] at g1
  rw [h1] at g2
  cases g1
  cases g2
  exact ⟨R, R', h1, h2, h3, h4, g4⟩

example : ∃ R, nstd 2 10 = .fin R ∧ 2 ≤ R := by
  obtain ⟨R, R', h, -, -, -, h'⟩ := C123_dim 2 (by norm_num) 10 10 (by norm_num) le_rfl
  exact ⟨R, h, h'⟩

/-- **C123** (negative arguments). A negative number of sigmas, or no dimensions, give NaN. -/
theorem C123_nan (n1 : ℝ) (d : ℕ) : (n1 < 0 ∨ d = 0 ↔ nstd n1 d = .nan) ∧ (n1 < 0 ∨ d = 0 ↔ deltaLogp n1 d = .nan) := by
  have hn : (n1 < 0 ∨ d = 0) → nstd n1 d = .nan := by
    rintro (h | rfl)
    · have h1 : 1 < erfc (n1 / √2) := by
        have h0 := mass1_compl (n1 := -n1) (by linarith)
        have hp : 0 < mass1 (-n1) := by
          have h00 : mass1 0 = 0 := by
            rw [mass1, neg_zero, Set.Icc_self, measureReal_def, measure_singleton]; rfl
          have := mass1_lt le_rfl (show (0 : ℝ) < -n1 by linarith)
          rw [h00] at this
          exact this
        have hsym : (gaussianReal 0 1).real (Set.Ioi (-n1)) = (gaussianReal 0 1).real (Set.Iio n1) := by
          have hm := gaussianReal_map_neg (μ := 0) (v := 1)
          rw [neg_zero] at hm
          rw [measureReal_def, measureReal_def]
          congr 1
          conv_lhs => rw [← hm]
          rw [Measure.map_apply measurable_neg measurableSet_Ioi]
          congr 1
          ext x
          simp
        have hc := probReal_compl_eq_one_sub (μ := gaussianReal 0 1) (s := Set.Iic n1) measurableSet_Iic
        have hiic : (gaussianReal 0 1).real (Set.Iic n1) = (gaussianReal 0 1).real (Set.Iio n1) := by
          rw [measureReal_def, measureReal_def, measure_congr Iio_ae_eq_Iic]
        rw [Set.compl_Iic, hiic, ← hsym] at hc
        rw [erfc_eq, hc]
        linarith
      rw [nstd, chi2isf, if_pos (Or.inr (Or.inr h1))]
      rfl
    · rw [nstd, chi2isf, if_pos (Or.inl rfl)]
      rfl
  have hf : ¬ (n1 < 0 ∨ d = 0) → ∃ R, nstd n1 d = .fin R := by
    intro h
    push Not at h
    obtain ⟨R, -, hf, -⟩ := C123_radius n1 h.1 d (Nat.one_le_iff_ne_zero.mpr h.2)
    exact ⟨R, hf⟩
  constructor
  · refine ⟨hn, fun h => ?_⟩
    by_contra hc
    obtain ⟨R, hR⟩ := hf hc
    rw [hR] at h
    cases h
  · refine ⟨fun h => by rw [deltaLogp, hn h], fun h => ?_⟩
    by_contra hc
    obtain ⟨R, hR⟩ := hf hc
    rw [deltaLogp, hR] at h
    cases h

example : nstd (-1) 3 = .nan ∧ deltaLogp 2 0 = .nan :=
  ⟨(C123_nan (-1) 3).1.mp (Or.inl (by norm_num)), (C123_nan 2 0).2.mp (Or.inr rfl)⟩

/-! ## Gaussian posteriors -/

/-- **C123** (difference of log-posteriors). Of a Gaussian posterior with any mean and covariance matrix, the points whose log-posterior is at most
`delta_logp_of_1d_nstd(n1, d)` below the one of the mean have the probability of the `n1`-sigma interval in one dimension. -/
theorem C123_delta_logp (n1 : ℝ) (h : 0 ≤ n1) (d : ℕ) (hd : 1 ≤ d) (μ : EuclideanSpace ℝ (Fin d)) (S : Matrix (Fin d) (Fin d) ℝ) (hS : S.PosDef)
    (logp : EuclideanSpace ℝ (Fin d) → ℝ) (c : ℝ) (hp : ∀ x, logp x = c - (x - μ).ofLp ⬝ᵥ S⁻¹.mulVec (x - μ).ofLp / 2) :
    ∃ Δ, deltaLogp n1 d = .fin Δ ∧ 0 ≤ Δ ∧
      (multivariateGaussian μ S).real {x | logp μ - logp x ≤ Δ} = (gaussianReal 0 1).real (Set.Icc (-n1) n1) := by
  obtain ⟨R, hR, hf, hm, -, -⟩ := C123_radius n1 h d hd
  refine ⟨R ^ 2 / 2, by rw [deltaLogp, hf]; simp only [Ext.fin.injEq]; ring, by positivity, ?_⟩
  rw [← hm]
  have hmeas : Measurable fun x : EuclideanSpace ℝ (Fin d) => μ + Matrix.toEuclideanCLM (𝕜 := ℝ) (CFC.sqrt S) x := by fun_prop
  have hlp : Measurable logp := by
    have : logp = fun x => c - (x - μ).ofLp ⬝ᵥ S⁻¹.mulVec (x - μ).ofLp / 2 := funext hp
    rw [this]
    simp only [dotProduct, Matrix.mulVec]
    fun_prop
  have hset : MeasurableSet {x | logp μ - logp x ≤ R ^ 2 / 2} := measurableSet_le (measurable_const.sub hlp) measurable_const
  rw [measureReal_def, measureReal_def, multivariateGaussian, Measure.map_apply hmeas hset, ← map_pi_eq_stdGaussian,
    Measure.map_apply (by fun_prop) (hmeas hset)]
  unfold stdNormal
  congr 2
  ext z
  have hB : CFC.sqrt S * CFC.sqrt S = S := CFC.sqrt_mul_sqrt_self _ hS.posSemidef.nonneg
  have hsym : (CFC.sqrt S).transpose = CFC.sqrt S := by
    have := (CFC.sqrt_nonneg S).isSelfAdjoint
    exact this
  have hdet : IsUnit (CFC.sqrt S).det := by
    have : IsUnit S.det := (Matrix.isUnit_iff_isUnit_det S).mp hS.isUnit
    rw [← hB, Matrix.det_mul] at this
    exact isUnit_of_mul_isUnit_left this
  have hq : (CFC.sqrt S).mulVec z ⬝ᵥ S⁻¹.mulVec ((CFC.sqrt S).mulVec z) = ∑ i, z i ^ 2 := by
    have hi : S⁻¹ = (CFC.sqrt S)⁻¹ * (CFC.sqrt S)⁻¹ := by rw [← Matrix.mul_inv_rev, hB]
    rw [hi, ← Matrix.mulVec_mulVec, Matrix.mulVec_mulVec (M := (CFC.sqrt S)⁻¹) (N := CFC.sqrt S), Matrix.nonsing_inv_mul _ hdet, Matrix.one_mulVec, Matrix.dotProduct_mulVec,
      ← Matrix.mulVec_transpose, Matrix.transpose_nonsing_inv, hsym, Matrix.mulVec_mulVec, Matrix.nonsing_inv_mul _ hdet, Matrix.one_mulVec]
    simp only [dotProduct, sq]
  have e : logp μ - logp (μ + Matrix.toEuclideanCLM (𝕜 := ℝ) (CFC.sqrt S) (WithLp.toLp 2 z)) = (∑ i, z i ^ 2) / 2 := by
    rw [hp, hp, add_sub_cancel_left, ← hq]
    simp
  show logp μ - logp (μ + Matrix.toEuclideanCLM (𝕜 := ℝ) (CFC.sqrt S) (WithLp.toLp 2 z)) ≤ R ^ 2 / 2 ↔ √(∑ i, z i ^ 2) ≤ R
  rw [e, Real.sqrt_le_left hR]
  constructor <;> intro h <;> linarith

/-- The posterior of two correlated parameters. -/
example : ∃ Δ, deltaLogp 2 2 = .fin Δ ∧ (multivariateGaussian (WithLp.toLp 2 ![1, -3]) !![2, 1; 1, 2]).real
    {x | (x - WithLp.toLp 2 ![1, -3]).ofLp ⬝ᵥ (!![2, 1; 1, 2] : Matrix (Fin 2) (Fin 2) ℝ)⁻¹ *ᵥ (x - WithLp.toLp 2 ![1, -3]).ofLp / 2 ≤ Δ} =
      (gaussianReal 0 1).real (Set.Icc (-2) 2) := by
  have hS : (!![2, 1; 1, 2] : Matrix (Fin 2) (Fin 2) ℝ).PosDef := by
    refine Matrix.PosDef.of_dotProduct_mulVec_pos ?_ ?_
    · ext i j
      fin_cases i <;> fin_cases j <;> simp
    · intro x hx
      have : x 0 ≠ 0 ∨ x 1 ≠ 0 := by
        by_contra hc
        push Not at hc
        exact hx (funext fun i => by fin_cases i; exacts [hc.1, hc.2])
      simp [Matrix.mulVec, dotProduct, Fin.sum_univ_two]
      rcases this with h | h
      · nlinarith [sq_nonneg (x 0 + x 1), sq_nonneg (x 1), mul_self_pos.mpr h]
      · nlinarith [sq_nonneg (x 0 + x 1), sq_nonneg (x 0), mul_self_pos.mpr h]
  obtain ⟨Δ, h1, -, h2⟩ := C123_delta_logp 2 (by norm_num) 2 (by norm_num) (WithLp.toLp 2 ![1, -3]) _ hS
    (fun x => 0 - (x - WithLp.toLp 2 ![1, -3]).ofLp ⬝ᵥ (!![2, 1; 1, 2] : Matrix (Fin 2) (Fin 2) ℝ)⁻¹ *ᵥ (x - WithLp.toLp 2 ![1, -3]).ofLp / 2) 0 (fun x => rfl)
  refine ⟨Δ, h1, ?_⟩
  rw [← h2]
  congr 1
  ext x
  simp

/-- **C123** (volumes). `volume_sphere` is the volume of a ball in any number of dimensions. -/
theorem C123_volume (r : ℝ) (h : 0 ≤ r) (d : ℕ) (hd : 1 ≤ d) (x : EuclideanSpace ℝ (Fin d)) :
    volumeSphere r d = volume.real (Metric.closedBall x r) := by
  have : Nonempty (Fin d) := ⟨⟨0, hd⟩⟩
  rw [measureReal_def, EuclideanSpace.volume_closedBall, ENNReal.toReal_mul, ENNReal.toReal_pow, ENNReal.toReal_ofReal h, ENNReal.toReal_ofReal, Fintype.card_fin, volumeSphere]
  · rw [Real.sqrt_eq_rpow, ← Real.rpow_natCast (π ^ (1 / 2 : ℝ)), ← Real.rpow_mul pi_pos.le, mul_comm, one_div_mul_eq_div]
  · positivity

example : volumeSphere 2 3 = volume.real (Metric.closedBall (0 : EuclideanSpace ℝ (Fin 3)) 2) := C123_volume 2 (by norm_num) 3 (by norm_num) 0

end GPry.Cred
