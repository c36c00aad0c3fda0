import Verif.RoundPre
import Verif.ToolsProps

set_option linter.all false

/-!
# Repeated candidates and the units of the parameters (C144)

tools.py:246-252: without preprocessing of the points, candidates are compared after rounding to eight decimals in the units of the
parameters.
-/

namespace GPry.Round

open GPry

variable {K : Type*} [Field K] [LinearOrder K] [IsStrictOrderedRing K] [FloorRing K]

theorem rne_small {x : K} (h : |x| < 1 / 2) : rne x = 0 := by
  have h1 := rne_near x 0
  rw [Int.cast_zero, zero_sub, abs_neg] at h1
  have h2 : |(rne x : K)| < 1 := by
    calc |(rne x : K)| = |((rne x : K) - x) + x| := by rw [sub_add_cancel]
      _ ≤ |(rne x : K) - x| + |x| := abs_add_le _ _
      _ < 1 := by linarith
  have h3 : |rne x| < 1 := by exact_mod_cast h2
  exact Int.abs_lt_one_iff.1 h3

theorem round8_small {x : K} (h : |x| < 1 / 2 / 100000000) : round8 (exact K) x = 0 := by
  show (rne (x * 100000000) : K) / 100000000 = 0
  rw [rne_small, Int.cast_zero, zero_div]
  rw [abs_mul, abs_of_pos (by norm_num : (0 : K) < 100000000)]
  rwa [lt_div_iff₀ (by norm_num)] at h

/-- Numbers below a bound, all of them. -/
theorem exists_bound : ∀ l : List K, ∃ B, 0 < B ∧ ∀ x ∈ l, |x| ≤ B
  | [] => ⟨1, one_pos, by simp⟩
  | a :: l => by
    obtain ⟨B, hB, h⟩ := exists_bound l
    refine ⟨max B |a|, lt_max_of_lt_left hB, ?_⟩
    intro x hx
    rcases List.mem_cons.1 hx with rfl | hx
    · exact le_max_right _ _
    · exact (h x hx).trans (le_max_left _ _)

/-- **C144** is false without preprocessing of the points: in small enough units every candidate is taken for one of the training points, so
that none of them is kept, whatever the points. -/
theorem C144_candidates_counterexample (d : ℕ) (train cands : List (List K)) (ht : train ≠ []) (hd : ∀ t ∈ train, t.length = d)
    (hc : ∀ c ∈ cands, c.length = d) :
    ∃ s : K, 0 < s ∧ ∀ s', 0 < s' → s' ≤ s →
      Tools.keep (round8 (exact K)) (train.map (List.map (s' * ·))) (cands.map (List.map (s' * ·))) = [] := by
  obtain ⟨B, hB, hb⟩ := exists_bound (train.flatten ++ cands.flatten)
  refine ⟨1 / 4 / 100000000 / B, by positivity, fun s' h0 hs => ?_⟩
  have hz : ∀ l : List K, (∀ x ∈ l, |x| ≤ B) → (l.map (s' * ·)).map (round8 (exact K)) = List.replicate l.length 0 := by
    intro l hl
    rw [List.map_map, List.eq_replicate_iff]
    refine ⟨by simp, ?_⟩
    intro y hy
    obtain ⟨x, hx, rfl⟩ := List.mem_map.1 hy
    apply round8_small
    show |s' * x| < _
    rw [abs_mul, abs_of_pos h0]
    calc s' * |x| ≤ 1 / 4 / 100000000 / B * B := mul_le_mul hs (hl x hx) (abs_nonneg _) (by positivity)
      _ = 1 / 4 / 100000000 := by field_simp
      _ < 1 / 2 / 100000000 := by norm_num
  obtain ⟨t, htm⟩ := List.exists_mem_of_ne_nil _ ht
  have hflag : ∀ c ∈ cands, Tools.inTraining (round8 (exact K)) (train.map (List.map (s' * ·))) (c.map (s' * ·)) = true := by
    intro c hcm
    have h1 := hz c fun x hx => hb x (by simp; exact .inr ⟨c, hcm, hx⟩)
    have h2 := hz t fun x hx => hb x (by simp; exact .inl ⟨t, htm, hx⟩)
    unfold Tools.inTraining
    rw [List.any_eq_true]
    refine ⟨(t.map (s' * ·)).map (round8 (exact K)), ?_, ?_⟩
    · exact List.mem_map.2 ⟨_, List.mem_map.2 ⟨t, htm, rfl⟩, rfl⟩
    · rw [h1, h2, hd t htm, hc c hcm]
      simp
  unfold Tools.keep
  rw [List.map_eq_nil_iff, List.filter_eq_nil_iff]
  intro q hq
  have hq1 := List.of_mem_zip hq
  obtain ⟨i, hi, hqi⟩ := List.mem_iff_getElem.1 hq
  rw [List.getElem_zip, List.getElem_zip] at hqi
  rw [← hqi]
  simp only [Tools.checkCandidates, List.getElem_map]
  rw [hflag _ (List.getElem_mem _)]
  simp

example : ∃ s : ℚ, 0 < s ∧ Tools.keep (round8 (exact ℚ)) [[s * 1, s * 2], [s * 3, s * 4]] [[s * 5, s * 6], [s * 7, s * 8]] = [] := by
  obtain ⟨s, h0, h⟩ := C144_candidates_counterexample (K := ℚ) 2 [[1, 2], [3, 4]] [[5, 6], [7, 8]] (by simp) (by simp) (by simp)
  exact ⟨s, h0, h s h0 le_rfl⟩

/-- In units in which the points differ by more than 1e-8 the candidates are kept. -/
example : Tools.keep (round8 (exact ℚ)) [[1, 2], [3, 4]] [[5, 6], [7, 8]] = [[5, 6], [7, 8]] := by decide +kernel

/-- Parameters of order 1e-9. -/
example : Tools.keep (round8 (exact ℚ)) [[1 / 10 ^ 9, 2 / 10 ^ 9]] [[3 / 10 ^ 9, 4 / 10 ^ 9]] = [] := by decide +kernel

end GPry.Round
