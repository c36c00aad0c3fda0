import Verif.Prior
import Verif.TruthProps
import Mathlib.MeasureTheory.Constructions.Pi
import Mathlib.MeasureTheory.Measure.Lebesgue.Basic
import Mathlib.MeasureTheory.Measure.WithDensity

set_option linter.all false

/-!
# C114: the prior is a probability distribution, and its samples follow it
-/

namespace GPry.Prior

open GPry GPry.Truth MeasureTheory Set

variable {d : ℕ}

/-- Density of a log-density. -/
noncomputable def dens : Ext ℝ → ENNReal
  | .fin v => ENNReal.ofReal (Real.exp v)
  | .negInf => 0
  | _ => ⊤

/-- A point as an argument of `logprior`. -/
def pt (x : Fin d → ℝ) : List (Ext ℝ) := List.ofFn fun i => .fin (x i)

/-- Prior bounds of each parameter. -/
def box (a b : Fin d → ℝ) : List (Ext ℝ × Ext ℝ) := List.ofFn fun i => (.fin (a i), .fin (b i))

theorem logprior_eq (t : Truth) (a b : Fin d → ℝ) (ht : t.bounds = box a b) (hab : ∀ i, a i < b i) (x : Fin d → ℝ) :
    ((∀ i, a i ≤ x i ∧ x i ≤ b i) → logprior t (pt x) = .fin (-∑ i, Real.log (b i - a i))) ∧
    ((¬ ∀ i, a i ≤ x i ∧ x i ≤ b i) → logprior t (pt x) = .negInf) := by
  have hb : t.bounds = (List.ofFn fun i => (a i, b i)).map fun q => ((.fin q.1, .fin q.2) : Ext ℝ × Ext ℝ) := by
    rw [ht, box, List.map_ofFn]; rfl
  have hvol : logPriorVolume t = .fin (∑ i, Real.log (b i - a i)) := by
    unfold logPriorVolume
    rw [hb, volume_fin]
    · rw [List.map_ofFn, List.sum_ofFn]; rfl
    · intro q hq
      obtain ⟨i, rfl⟩ := (List.mem_ofFn' _ _).1 hq
      exact hab i
  have hin : Tools.isInBounds t.bounds (pt x) = true ↔ ∀ i, a i ≤ x i ∧ x i ≤ b i := by
    rw [hb, Tools.C46_closed_box _ _ (by rw [pt, List.length_ofFn, List.length_ofFn])]
    constructor
    · rintro ⟨v, hv, hf⟩ i
      have hl : v.length = d := by
        have := congrArg List.length hv
        rw [pt, List.length_ofFn, List.length_map] at this
        exact this.symm
      rw [List.forall₂_iff_get] at hf
      have h1 := hf.2 i.1 (by rw [hl]; exact i.2) (by rw [List.length_ofFn]; exact i.2)
      have h2 : v.get ⟨i.1, by rw [hl]; exact i.2⟩ = x i := by
        have h3 : (pt x)[i.1]? = (v.map Ext.fin)[i.1]? := by rw [hv]
        rw [pt, List.getElem?_ofFn, dif_pos i.2, List.getElem?_map, List.getElem?_eq_getElem (by rw [hl]; exact i.2)] at h3
        simpa using h3.symm
      rw [h2, List.get_ofFn] at h1
      exact h1
    · intro h
      refine ⟨List.ofFn x, by rw [pt, List.map_ofFn]; rfl, ?_⟩
      rw [List.forall₂_iff_get]
      refine ⟨by rw [List.length_ofFn, List.length_ofFn], fun i h1 h2 => ?_⟩
      rw [List.get_ofFn, List.get_ofFn]
      exact h _
  unfold logprior
  refine ⟨fun h => ?_, fun h => ?_⟩
  · rw [if_pos (hin.2 h), hvol]; rfl
  · rw [if_neg fun hc => h (hin.1 hc)]

theorem map_affine (a b : ℝ) (h : a < b) :
    Measure.map (fun u : ℝ => a + (b - a) * u) (volume.restrict (Ico 0 1)) = ENNReal.ofReal (b - a)⁻¹ • volume.restrict (Icc a b) := by
  have hm : Measurable fun u : ℝ => a + (b - a) * u := by fun_prop
  have hc : 0 < b - a := sub_pos.2 h
  ext s hs
  rw [Measure.map_apply hm hs, Measure.restrict_apply (hm hs), Measure.smul_apply, smul_eq_mul,
    ← Measure.restrict_congr_set (Ico_ae_eq_Icc : Ico a b =ᵐ[volume] Icc a b), Measure.restrict_apply hs]
  have e : (fun u : ℝ => a + (b - a) * u) ⁻¹' s ∩ Ico 0 1 = (fun u => (b - a) * u) ⁻¹' ((fun u => a + u) ⁻¹' (s ∩ Ico a b)) := by
    ext u
    simp only [mem_inter_iff, mem_preimage, mem_Ico]
    constructor
    · rintro ⟨h1, h2, h3⟩
      exact ⟨h1, by nlinarith, by nlinarith⟩
    · rintro ⟨h1, h2, h3⟩
      exact ⟨h1, by nlinarith, by nlinarith⟩
  rw [e, Real.volume_preimage_mul_left hc.ne', measure_preimage_add, abs_of_pos (inv_pos.2 hc)]

theorem dens_eq (t : Truth) (a b : Fin d → ℝ) (ht : t.bounds = box a b) (hab : ∀ i, a i < b i) :
    (fun x => dens (logprior t (pt x))) = indicator (univ.pi fun i => Icc (a i) (b i)) fun _ => ∏ i, ENNReal.ofReal (b i - a i)⁻¹ := by
  funext x
  by_cases hx : ∀ i, a i ≤ x i ∧ x i ≤ b i
  · rw [(logprior_eq t a b ht hab x).1 hx, indicator_of_mem (show x ∈ univ.pi fun i => Icc (a i) (b i) from fun i _ => hx i)]
    have hp : ∀ i, 0 < b i - a i := fun i => sub_pos.2 (hab i)
    show ENNReal.ofReal (Real.exp _) = _
    rw [← Finset.sum_neg_distrib, Real.exp_sum, ENNReal.ofReal_prod_of_nonneg fun i _ => (Real.exp_pos _).le]
    refine Finset.prod_congr rfl fun i _ => ?_
    rw [Real.exp_neg, Real.exp_log (hp i)]
  · rw [(logprior_eq t a b ht hab x).2 hx, indicator_of_notMem (show x ∉ univ.pi fun i => Icc (a i) (b i) from fun hc => hx fun i => hc i (mem_univ i))]
    rfl

theorem widths_box (a b : Fin d → ℝ) : widths (box a b) = some (List.ofFn fun i => (a i, b i)) := by
  induction d with
  | zero => rfl
  | succ n ih =>
    have : box a b = (.fin (a 0), .fin (b 0)) :: box (fun i => a i.succ) fun i => b i.succ := by
      rw [box, List.ofFn_succ]; rfl
    rw [this, widths, ih, List.ofFn_succ]
    rfl

theorem uniform_box (a b : Fin d → ℝ) (hab : ∀ i, a i ≤ b i) (u : Fin d → ℝ) :
    uniform (box a b) (List.ofFn u) = .ok (List.ofFn fun i => a i + (b i - a i) * u i) := by
  unfold uniform
  rw [widths_box]
  dsimp only
  rw [if_neg]
  · congr 1
    refine List.ext_getElem (by simp) fun i h1 h2 => ?_
    simp
  · rintro ⟨q, hq, hlt⟩
    obtain ⟨i, rfl⟩ := (List.mem_ofFn' _ _).1 hq
    exact absurd hlt (not_lt.2 (hab i))

/-- **C114** (law). With finite prior bounds, `prior_sample` is defined, and if the numbers drawn by the generator are independent and uniform
in [0, 1) the points it returns follow the distribution whose density is the exponential of `logprior`. -/
theorem C114_law (t : Truth) (a b : Fin d → ℝ) (ht : t.bounds = box a b) (hab : ∀ i, a i < b i) :
    ∃ S : (Fin d → ℝ) → Fin d → ℝ, (∀ u, priorSample t (List.ofFn u) = .ok (List.ofFn (S u))) ∧
      Measure.map S (volume.restrict (univ.pi fun _ : Fin d => Ico (0 : ℝ) 1)) = volume.withDensity fun x => dens (logprior t (pt x)) := by
  refine ⟨fun u i => a i + (b i - a i) * u i, fun u => ?_, ?_⟩
  · unfold priorSample
    rw [ht]
    exact uniform_box a b (fun i => (hab i).le) u
  · have hv : (volume : Measure (Fin d → ℝ)) = Measure.pi fun _ => volume := volume_pi
    have hfin : ∀ i, SigmaFinite ((volume.restrict (Ico (0 : ℝ) 1)).map fun u => a i + (b i - a i) * u) := fun i => inferInstance
    rw [hv, Measure.restrict_pi_pi]
    rw [Measure.pi_map_pi (μ := fun _ : Fin d => volume.restrict (Ico (0 : ℝ) 1)) (f := fun i u => a i + (b i - a i) * u)
      (fun i => (by fun_prop : Measurable fun u : ℝ => a i + (b i - a i) * u).aemeasurable)]
    refine Measure.pi_eq fun s hs => ?_
    rw [dens_eq t a b ht hab, withDensity_apply _ (MeasurableSet.univ_pi hs),
      lintegral_indicator (MeasurableSet.univ_pi fun i => measurableSet_Icc), lintegral_const, Measure.restrict_restrict
      (MeasurableSet.univ_pi fun i => measurableSet_Icc), Measure.restrict_apply_univ, ← Set.pi_inter_distrib, Measure.pi_pi,
      ← Finset.prod_mul_distrib]
    refine Finset.prod_congr rfl fun i _ => ?_
    rw [map_affine _ _ (hab i), Measure.smul_apply, smul_eq_mul, Measure.restrict_apply (hs i), inter_comm]

/-- **C114** (normalisation). The integral of the exponential of `logprior` is one. -/
theorem C114_normalised (t : Truth) (a b : Fin d → ℝ) (ht : t.bounds = box a b) (hab : ∀ i, a i < b i) :
    ∫⁻ x : Fin d → ℝ, dens (logprior t (pt x)) = 1 := by
  obtain ⟨S, _, h⟩ := C114_law t a b ht hab
  rw [dens_eq t a b ht hab, lintegral_indicator (MeasurableSet.univ_pi fun i => measurableSet_Icc), setLIntegral_const, volume_pi_pi,
    ← Finset.prod_mul_distrib]
  refine Finset.prod_eq_one fun i _ => ?_
  have hp : 0 < b i - a i := sub_pos.2 (hab i)
  rw [Real.volume_Icc, ← ENNReal.ofReal_mul (inv_pos.2 hp).le, inv_mul_cancel₀ hp.ne', ENNReal.ofReal_one]

/-- **C114** (inside). The likelihood is called at every point drawn from the prior, with the constant prior density. -/
theorem C114_inside (t : Truth) (a b : Fin d → ℝ) (ht : t.bounds = box a b) (hab : ∀ i, a i < b i) (u : Fin d → ℝ) (hu : ∀ i, 0 ≤ u i ∧ u i < 1) :
    ∃ x : Fin d → ℝ, priorSample t (List.ofFn u) = .ok (List.ofFn x) ∧ logprior t (pt x) = .fin (-∑ i, Real.log (b i - a i)) ∧
      (logp t (pt x)).1 = [pt x] := by
  refine ⟨fun i => a i + (b i - a i) * u i, ?_, ?_⟩
  · unfold priorSample
    rw [ht]
    exact uniform_box a b (fun i => (hab i).le) u
  · have hl := (logprior_eq t a b ht hab fun i => a i + (b i - a i) * u i).1 fun i => by
      have := hab i
      have := hu i
      constructor <;> nlinarith
    refine ⟨hl, ?_⟩
    unfold logp
    dsimp only
    rw [hl, if_neg (by simp)]
    split <;> rfl

/-- **C114** (reference). A reference sample is between the reference bounds. -/
theorem C114_reference (a b : Fin d → ℝ) (hab : ∀ i, a i ≤ b i) (u : Fin d → ℝ) (hu : ∀ i, 0 ≤ u i ∧ u i < 1) :
    ∃ x : Fin d → ℝ, refSample (box a b) (List.ofFn u) = .ok (List.ofFn x) ∧ ∀ i, a i ≤ x i ∧ x i ≤ b i := by
  refine ⟨fun i => a i + (b i - a i) * u i, uniform_box a b hab u, fun i => ?_⟩
  have := hab i
  have := hu i
  constructor <;> nlinarith

/-- **C114** is false of reference bounds ("points drawn from the reference distribution are in the prior"): they are not
compared with the prior bounds, and if those of one parameter are outside none of the reference samples is in the prior; the likelihood is
called at none of them. -/
theorem C114_reference_counterexample (t : Truth) (a b a' b' : Fin d → ℝ) (ht : t.bounds = box a b) (hab : ∀ i, a i < b i)
    (hab' : ∀ i, a' i ≤ b' i) (i : Fin d) (hi : b i < a' i) (u : Fin d → ℝ) (hu : ∀ i, 0 ≤ u i ∧ u i < 1) :
    ∃ x : Fin d → ℝ, refSample (box a' b') (List.ofFn u) = .ok (List.ofFn x) ∧ logp t (pt x) = ([], .ok .negInf) := by
  obtain ⟨x, hx, hin⟩ := C114_reference a' b' hab' u hu
  refine ⟨x, hx, ?_⟩
  have hl := (logprior_eq t a b ht hab x).2 fun h => absurd (h i).2 (not_le.2 (hi.trans_le (hin i).1))
  unfold logp
  dsimp only
  rw [hl, if_pos rfl]

/-- The setting of the previous theorem is accepted: `Truth(..., bounds, ref_bounds)`. -/
theorem C114_reference_accepted (a b a' b' : Fin d → ℝ) :
    setRef (box a b) (some ((box a' b').map fun q => some [q.1, q.2])) = .ok ((box a' b').map fun q => some [q.1, q.2], (box a' b').map fun q => [q.1, q.2]) := by
  unfold setRef
  dsimp only
  rw [if_neg (by simp [box]), if_neg (by simp)]
  congr 2
  refine List.ext_getElem (by simp [box]) fun i h1 h2 => ?_
  simp [box]

/-- **C114** is false of bounds that are not finite: no sample can be drawn, though `logprior` has a value. -/
theorem C114_infinite_counterexample (t : Truth) (h : ∃ q ∈ t.bounds, width q = none) (u : List ℝ) : priorSample t u = .error .overflowError := by
  have : ∀ l : List (Ext ℝ × Ext ℝ), (∃ q ∈ l, width q = none) → widths l = none := by
    intro l
    induction l with
    | nil => rintro ⟨q, hq, _⟩; cases hq
    | cons b bs ih =>
      rintro ⟨q, hq, hw⟩
      rw [widths]
      rcases List.mem_cons.1 hq with rfl | hq
      · rw [hw]
      · rw [ih ⟨q, hq, hw⟩]
        cases width b <;> rfl
  unfold priorSample uniform
  rw [this _ h]

/-! ## Examples -/

example : ∃ t : Truth, t.bounds = box ![0, -1] ![(2 : ℝ), 3] ∧ (∀ i, ![(0 : ℝ), -1] i < ![(2 : ℝ), 3] i) ∧ ∀ i, (0 : ℝ) ≤ ![(1 / 2 : ℝ), 0] i ∧ ![(1 / 2 : ℝ), 0] i < 1 := by
  refine ⟨⟨box ![0, -1] ![2, 3], ⟨[], fun _ => .ok (.fin 0)⟩⟩, rfl, fun i => ?_, fun i => ?_⟩ <;> fin_cases i <;> norm_num

/-- Reference bounds of the first parameter above its prior bounds. -/
example : (![(2 : ℝ), 3] 0 < ![(5 : ℝ), 0] 0) ∧ ∀ i, ![(5 : ℝ), 0] i ≤ ![(6 : ℝ), 1] i := by
  refine ⟨by norm_num, fun i => ?_⟩
  fin_cases i <;> norm_num

example : width (.fin 0, .posInf) = none := rfl

/-- A truth whose prior is the box `[0,2] × [-1,3]`. -/
noncomputable def exTruth : Truth := ⟨box ![0, -1] ![2, 3], ⟨[], fun _ => .ok (.fin 0)⟩⟩

theorem exTruth_lt : ∀ i, ![(0 : ℝ), -1] i < ![(2 : ℝ), 3] i := fun i => by fin_cases i <;> norm_num

example : ∃ S : (Fin 2 → ℝ) → Fin 2 → ℝ, (∀ u, priorSample exTruth (List.ofFn u) = .ok (List.ofFn (S u))) ∧
    Measure.map S (volume.restrict (univ.pi fun _ : Fin 2 => Ico (0 : ℝ) 1)) = volume.withDensity fun x => dens (logprior exTruth (pt x)) :=
  C114_law exTruth _ _ rfl exTruth_lt

example : ∫⁻ x : Fin 2 → ℝ, dens (logprior exTruth (pt x)) = 1 := C114_normalised exTruth _ _ rfl exTruth_lt

example : ∃ x : Fin 2 → ℝ, priorSample exTruth (List.ofFn ![1 / 2, 0]) = .ok (List.ofFn x) ∧
    logprior exTruth (pt x) = .fin (-(Real.log 2 + Real.log 4)) := by
  obtain ⟨x, h, hp, -⟩ := C114_inside exTruth _ _ rfl exTruth_lt ![1 / 2, 0] (fun i => by fin_cases i <;> norm_num)
  refine ⟨x, h, ?_⟩
  rw [hp, Fin.sum_univ_two]
  norm_num

/-- A reference box, one side of which has no width. -/
example : ∃ x : Fin 2 → ℝ, refSample (box ![1, 2] ![1, 3]) (List.ofFn ![1 / 2, 0]) = .ok (List.ofFn x) ∧ x 0 = 1 := by
  obtain ⟨x, h, hb⟩ := C114_reference ![1, 2] ![(1 : ℝ), 3] (fun i => by fin_cases i <;> norm_num) ![1 / 2, 0] (fun i => by fin_cases i <;> norm_num)
  exact ⟨x, h, le_antisymm (hb 0).2 (hb 0).1⟩

/-- The method that fixes the reference takes a box that lies outside the prior. -/
example : ∃ r, setRef (box ![0, -1] ![2, 3]) (some ((box ![(5 : ℝ), 0] ![6, 1]).map fun q => some [q.1, q.2])) = .ok r :=
  ⟨_, C114_reference_accepted _ _ _ _⟩

end GPry.Prior
