import Verif.Figures
import Verif.CredProps

set_option linter.all false

/-!
# Theorems about figures (C130, C131, C132)
-/

namespace GPry.Fig

open GPry.Slices (Slices)
open GPry.Progress (Table Row Col)

/-! ## C130: slices -/

/-- **C130**, labels of slices: the four documented cases; any other number of labels is refused. -/
theorem C130_labels (params : List String) (hp : params ≠ []) :
    (labelsOf params none = .ok (params, none) ∧ labelsOf params (some []) = .ok (params, none)) ∧
    (∀ y, labelsOf params (some [y]) = .ok (params, some y)) ∧
    (∀ ls : List String, ls.length = params.length → 1 < ls.length → labelsOf params (some ls) = .ok (ls, none)) ∧
    (∀ (ls : List String) (y : String), ls.length = params.length → labelsOf params (some (ls ++ [y])) = .ok (ls, some y)) ∧
    (∀ ls : List String, 1 < ls.length → ls.length ≠ params.length → ls.length ≠ params.length + 1 → labelsOf params (some ls) = .error .valueError) := by
  have hlen : 0 < params.length := List.length_pos_of_ne_nil hp
  refine ⟨⟨rfl, rfl⟩, fun _ => rfl, ?_, ?_, ?_⟩
  · intro ls h h1
    match ls, h1 with
    | a :: b :: l, _ => rw [labelsOf, if_pos h] <;> simp
  · intro ls y h
    match ls, h with
    | [], h => simp at h; omega
    | a :: l, h =>
      match l, h with
      | [], h =>
        show labelsOf params (some [a, y]) = _
        rw [labelsOf, if_neg (by simp at h ⊢; omega), if_pos (by simp at h ⊢; omega)]
        · rfl
        · simp
        · simp
      | b :: l, h =>
        show labelsOf params (some (a :: b :: (l ++ [y]))) = _
        rw [labelsOf, if_neg (by simp at h ⊢; omega), if_pos (by simp at h ⊢; omega)]
        · congr 1
          have : a :: b :: (l ++ [y]) = (a :: b :: l) ++ [y] := rfl
          rw [this, List.dropLast_concat, List.getLast?_concat]
        · simp
        · simp
  · intro ls h1 h2 h3
    match ls, h1 with
    | a :: b :: l, _ => rw [labelsOf, if_neg h2, if_neg h3] <;> simp

/-- **C130**, one slice of a function is drawn, with its labels. -/
theorem C130_func_partial {K Y : Type} (i : ℤ) (name : String) (xs : List (List K)) (ys : List (Option Y)) (labels : Option (List String)) (xl : String) (yl : Option String)
    (hl : labelsOf [name] labels = .ok ([xl], yl)) :
    plotFunc ⟨[i], [name], [xs], [ys]⟩ labels =
      .ok [⟨0, xs.filterMap (fun x => (Slices.pyPos x.length i).bind fun k => x[k]?), ys, xl, yl⟩] := by
  unfold plotFunc
  simp only
  rw [hl]
  rfl

/-- **C130**, false of the code: two slices or more are not drawn (`AttributeError`): an array of axes is not a `Sequence`. -/
theorem C130_func_counterexample {K Y : Type} (s : Slices K Y) (labels : Option (List String)) (xl : List String) (yl : Option String)
    (hl : labelsOf s.params labels = .ok (xl, yl)) (h2 : 2 ≤ s.indices.length) (hX : s.Xs.length = s.indices.length)
    (hY : s.ys.length = s.indices.length) (hx : xl.length = s.indices.length) : plotFunc s labels = .error .attributeError := by
  unfold plotFunc
  rw [hl]
  have hsub : subplots 1 s.indices.length = .ok (.arr1 s.indices.length) := by
    rw [subplots, if_neg (by omega), if_neg (by omega), if_pos rfl]
  simp only [bind, Except.bind]
  rw [hsub]
  simp only
  obtain ⟨indices, params, Xs, ys⟩ := s
  simp only at h2 hX hY hx ⊢
  match indices, Xs, ys, xl with
  | [], _, _, _ => simp at h2
  | _ :: _, [], _, _ => simp at hX
  | _ :: _, _ :: _, [], _ => simp at hY
  | _ :: _, _ :: _, _ :: _, [] => simp at hx
  | _ :: _, _ :: _, _ :: _, _ :: _ => rfl

example : plotFunc (K := ℚ) (Y := ℚ) ⟨[0, 1], ["x_1", "x_2"], [[[0, 5], [1, 5]], [[0, 5], [0, 6]]], [[some 1, none], [some 2, some 3]]⟩ none = .error .attributeError :=
  C130_func_counterexample _ _ ["x_1", "x_2"] none rfl (by decide) rfl rfl rfl

section many

variable {K : Type} [Field K] [LinearOrder K] [IsStrictOrderedRing K]

omit [Field K] [IsStrictOrderedRing K] in
theorem foldl_min_spec (l : List K) : ∀ a : K, (∀ x ∈ a :: l, l.foldl min a ≤ x) ∧ l.foldl min a ∈ a :: l := by
  induction l with
  | nil => intro a; simp
  | cons b l ih =>
    intro a
    obtain ⟨h1, h2⟩ := ih (min a b)
    rw [List.foldl_cons]
    constructor
    · intro x hx
      rcases List.mem_cons.mp hx with rfl | hx
      · exact le_trans (h1 _ List.mem_cons_self) (min_le_left _ b)
      · rcases List.mem_cons.mp hx with rfl | hx
        · exact le_trans (h1 _ List.mem_cons_self) (min_le_right a _)
        · exact h1 x (List.mem_cons_of_mem _ hx)
    · rcases List.mem_cons.mp h2 with h | h
      · rw [h]; rcases min_choice a b with e | e <;> simp [e]
      · simp [h]

omit [Field K] [IsStrictOrderedRing K] in
theorem foldl_max_spec (l : List K) : ∀ a : K, (∀ x ∈ a :: l, x ≤ l.foldl max a) ∧ l.foldl max a ∈ a :: l := by
  induction l with
  | nil => intro a; simp
  | cons b l ih =>
    intro a
    obtain ⟨h1, h2⟩ := ih (max a b)
    rw [List.foldl_cons]
    constructor
    · intro x hx
      rcases List.mem_cons.mp hx with rfl | hx
      · exact le_trans (le_max_left _ b) (h1 _ List.mem_cons_self)
      · rcases List.mem_cons.mp hx with rfl | hx
        · exact le_trans (le_max_right a _) (h1 _ List.mem_cons_self)
        · exact h1 x (List.mem_cons_of_mem _ hx)
    · rcases List.mem_cons.mp h2 with h | h
      · rw [h]; rcases max_choice a b with e | e <;> simp [e]
      · simp [h]

omit [LinearOrder K] [IsStrictOrderedRing K] in
theorem manyLoop_ok (d : ℕ) (hd : 2 ≤ d) (col : K → Option K) : ∀ l : List (ℕ × ℕ × K), (∀ q ∈ l, q.1 < d) →
    manyLoop (.arr2 2 d) col l = .ok (l.map fun q => (q.1, q.2.1, (0, q.1), (1, q.1), col q.2.2))
  | [], _ => rfl
  | (i, j, y) :: l, h => by
    have hi : i < d := h (i, j, y) List.mem_cons_self
    rw [manyLoop, Axes.at2, if_pos ⟨by omega, hi⟩, Axes.at2, if_pos ⟨by omega, hi⟩, manyLoop_ok d hd col l fun q hq => h q (List.mem_cons_of_mem _ hq)]
    rfl

/-- **C130**, slices at the training points, for two parameters or more: for each parameter and each point there is a line in the upper and one in
the lower panel of that parameter; the colour is a number from 0 to 1 that orders the points by their value, except that it is NaN if
all values are the same. -/
theorem C130_slices_partial (d : ℕ) (hd : 2 ≤ d) (ys : List K) (hy : ys ≠ []) :
    ∃ col : K → Option K, plotSlices d ys =
        .ok ((List.range d).flatMap fun i => ys.zipIdx.map fun q => (i, q.2, (0, i), (1, i), col q.1)) ∧
      ((∀ a ∈ ys, ∀ b ∈ ys, a = b) → ∀ a ∈ ys, col a = none) ∧
      ((∃ a ∈ ys, ∃ b ∈ ys, a ≠ b) → ∀ a ∈ ys, ∃ v, col a = some v ∧ 0 ≤ v ∧ v ≤ 1 ∧ ∀ b ∈ ys, ∀ w, col b = some w → (a ≤ b ↔ v ≤ w)) := by
  match ys, hy with
  | y :: l, _ =>
    obtain ⟨hmin, hmin'⟩ := foldl_min_spec l y
    obtain ⟨hmax, hmax'⟩ := foldl_max_spec l y
    refine ⟨normY (l.foldl min y) (l.foldl max y), ?_, ?_, ?_⟩
    · unfold plotSlices
      rw [subplots, if_neg (by omega), if_neg (by omega), if_neg (by omega), if_neg (by omega)]
      simp only [bind, Except.bind, minOf, maxOf]
      rw [manyLoop_ok d hd]
      · congr 1
        rw [List.map_flatMap]
        simp [List.map_map, Function.comp_def]
      · intro q hq
        obtain ⟨i, hi, hq⟩ := List.mem_flatMap.mp hq
        obtain ⟨r, _, rfl⟩ := List.mem_map.mp hq
        exact List.mem_range.mp hi
    · intro heq a ha
      rw [normY, if_pos]
      rw [heq _ hmax' _ hmin', sub_self]
    · rintro ⟨a, ha, b, hb, hab⟩ x hx
      have hlt : l.foldl min y < l.foldl max y := by
        rcases lt_or_gt_of_ne hab with h | h
        · exact lt_of_le_of_lt (hmin a ha) (lt_of_lt_of_le h (hmax b hb))
        · exact lt_of_le_of_lt (hmin b hb) (lt_of_lt_of_le h (hmax a ha))
      have hp : 0 < l.foldl max y - l.foldl min y := sub_pos.mpr hlt
      refine ⟨(x - l.foldl min y) / (l.foldl max y - l.foldl min y), by rw [normY, if_neg hp.ne'], ?_, ?_, ?_⟩
      · exact div_nonneg (sub_nonneg.mpr (hmin x hx)) hp.le
      · rw [div_le_one hp]
        exact sub_le_sub_right (hmax x hx) _
      · intro b hb w hw
        rw [normY, if_neg hp.ne'] at hw
        injection hw with hw
        subst hw
        rw [div_le_div_iff_of_pos_right hp]
        exact (sub_le_sub_iff_right _).symm

/-- **C130**, false of the code: with one parameter there are no slices (`IndexError`): the two panels are in an array with one index. -/
theorem C130_slices_counterexample (ys : List K) (hy : ys ≠ []) : plotSlices 1 ys = .error .indexError := by
  match ys, hy with
  | y :: l, _ => rfl

/-- **C130**: without training points there are no slices either (`ValueError`). -/
theorem C130_no_points (d : ℕ) : plotSlices d ([] : List K) = .error .valueError := by
  unfold plotSlices subplots
  split_ifs <;> first | omega | rfl

example : ∃ l, plotSlices 2 [(3 : ℚ), 5] = .ok l ∧ l.length = 4 := by
  obtain ⟨col, h, _⟩ := C130_slices_partial 2 (le_refl 2) [(3 : ℚ), 5] (by simp)
  exact ⟨_, h, by simp [List.range_succ]⟩

end many

section reference

variable {d : ℕ}

/-- The distance of `plots.py` as a number. -/
noncomputable def relDist (i : Fin d) (x t : Fin d → ℝ) : ℝ := Real.sqrt (∑ k ∈ Finset.univ.filter (· ≠ i), ((t k - x k) / x k) ^ 2)

theorem sumE_fin (f : Fin d → ℝ) : ∀ l : List (Fin d), sumE (l.map fun k => Ext.fin (f k)) = .fin (l.map f).sum
  | [] => rfl
  | k :: l => by
    have := sumE_fin f l
    rw [sumE] at this ⊢
    rw [List.map_cons, List.foldr_cons, this, addE, List.map_cons, List.sum_cons]

theorem dist_fin (i : Fin d) (x t : Fin d → ℝ) (hx : ∀ k, k ≠ i → x k ≠ 0) : dist i x t = .fin (relDist i x t) := by
  have e : (((List.finRange d).filter fun k => decide (k ≠ i)).map fun k => relSq (t k) (x k)) =
      (((List.finRange d).filter fun k => decide (k ≠ i)).map fun k => Ext.fin (((t k - x k) / x k) ^ 2)) := by
    refine List.map_congr_left fun k hk => ?_
    rw [relSq, if_neg (hx k (by simpa using (List.mem_filter.mp hk).2))]
  rw [dist, e, sumE_fin]
  have hs : (((List.finRange d).filter fun k => decide (k ≠ i)).map fun k => ((t k - x k) / x k) ^ 2).sum = ∑ k ∈ Finset.univ.filter (· ≠ i), ((t k - x k) / x k) ^ 2 := by
    rw [← List.sum_toFinset]
    · congr 1
      ext k; simp
    · exact (List.nodup_finRange d).filter _
  rw [hs, Cred.sqrtE, if_neg (not_lt.mpr (Finset.sum_nonneg fun k _ => sq_nonneg _)), relDist]

theorem pyMax_fin (f : (Fin d → ℝ) → ℝ) : ∀ (l : List (Fin d → ℝ)) (t : Fin d → ℝ), ∃ m, Ext.pyMax ((t :: l).map fun t => Ext.fin (f t)) = some (.fin m) ∧
    (∀ s ∈ t :: l, f s ≤ m) ∧ ∃ s ∈ t :: l, f s = m := by
  have key : ∀ (l : List (Fin d → ℝ)) (a : ℝ), ∃ m, (l.map fun t => Ext.fin (f t)).foldl Ext.pyMax2 (.fin a) = .fin m ∧ a ≤ m ∧ (∀ s ∈ l, f s ≤ m) ∧ (m = a ∨ ∃ s ∈ l, f s = m) := by
    intro l
    induction l with
    | nil => intro a; exact ⟨a, rfl, le_refl _, by simp, Or.inl rfl⟩
    | cons t l ih =>
      intro a
      by_cases h : a < f t
      · obtain ⟨m, h1, h2, h3, h4⟩ := ih (f t)
        refine ⟨m, ?_, h.le.trans h2, ?_, ?_⟩
        · rw [List.map_cons, List.foldl_cons]
          have : Ext.pyMax2 (Ext.fin a) (Ext.fin (f t)) = Ext.fin (f t) := by simp [Ext.pyMax2, Ext.gt, Ext.lt, h]
          rw [this, h1]
        · intro s hs
          rcases List.mem_cons.mp hs with rfl | hs
          · exact h2
          · exact h3 s hs
        · right
          rcases h4 with h4 | ⟨s, hs, h4⟩
          · exact ⟨t, List.mem_cons_self, h4.symm⟩
          · exact ⟨s, List.mem_cons_of_mem _ hs, h4⟩
      · obtain ⟨m, h1, h2, h3, h4⟩ := ih a
        refine ⟨m, ?_, h2, ?_, ?_⟩
        · rw [List.map_cons, List.foldl_cons]
          have : Ext.pyMax2 (Ext.fin a) (Ext.fin (f t)) = Ext.fin a := by simp [Ext.pyMax2, Ext.gt, Ext.lt, h]
          rw [this, h1]
        · intro s hs
          rcases List.mem_cons.mp hs with rfl | hs
          · exact (not_lt.mp h).trans h2
          · exact h3 s hs
        · rcases h4 with h4 | ⟨s, hs, h4⟩
          · exact Or.inl h4
          · exact Or.inr ⟨s, List.mem_cons_of_mem _ hs, h4⟩
  intro l t
  obtain ⟨m, h1, h2, h3, h4⟩ := key l (f t)
  refine ⟨m, by rw [List.map_cons, Ext.pyMax, h1], ?_, ?_⟩
  · intro s hs
    rcases List.mem_cons.mp hs with rfl | hs
    · exact h2
    · exact h3 s hs
  · rcases h4 with h4 | ⟨s, hs, h4⟩
    · exact ⟨t, List.mem_cons_self, h4.symm⟩
    · exact ⟨s, List.mem_cons_of_mem _ hs, h4⟩

/-- **C130**, transparency of the training points around a reference point without zero coordinates: from 0 to 1, one minus the relative distance
divided by the largest one; if the points differ from the reference point in some other coordinate. -/
theorem C130_alpha_partial (i : Fin d) (x : Fin d → ℝ) (train : List (Fin d → ℝ)) (hx : ∀ k, k ≠ i → x k ≠ 0)
    (hne : ∃ t ∈ train, ∃ k, k ≠ i ∧ t k ≠ x k) :
    ∃ m, 0 < m ∧ IsGreatest {v | ∃ t ∈ train, v = Real.sqrt (∑ k ∈ Finset.univ.filter (· ≠ i), ((t k - x k) / x k) ^ 2)} m ∧
      alphas i x train = some (train.map fun t => .fin (1 - Real.sqrt (∑ k ∈ Finset.univ.filter (· ≠ i), ((t k - x k) / x k) ^ 2) / m)) ∧
      alphaOk (train.map fun t => .fin (1 - Real.sqrt (∑ k ∈ Finset.univ.filter (· ≠ i), ((t k - x k) / x k) ^ 2) / m)) = true := by
  have hd : ∀ t, dist i x t = .fin (relDist i x t) := fun t => dist_fin i x t hx
  obtain ⟨t0, ht0, k, hk, hk'⟩ := hne
  obtain ⟨t1, l, rfl⟩ : ∃ t1 l, train = t1 :: l := by
    cases train with
    | nil => cases ht0
    | cons a l => exact ⟨a, l, rfl⟩
  obtain ⟨m, h1, h2, s, hs, h3⟩ := pyMax_fin (relDist i x) l t1
  have hpos : 0 < relDist i x t0 := by
    rw [relDist, Real.sqrt_pos]
    refine lt_of_lt_of_le ?_ (Finset.single_le_sum (fun k _ => sq_nonneg ((t0 k - x k) / x k)) (Finset.mem_filter.mpr ⟨Finset.mem_univ k, hk⟩))
    have : (t0 k - x k) / x k ≠ 0 := div_ne_zero (sub_ne_zero.mpr hk') (hx k hk)
    positivity
  have hm : 0 < m := lt_of_lt_of_le hpos (h2 t0 ht0)
  have hmap : (t1 :: l).map (dist i x) = (t1 :: l).map fun t => Ext.fin (relDist i x t) := List.map_congr_left fun t _ => hd t
  refine ⟨m, hm, ⟨⟨s, hs, h3.symm⟩, ?_⟩, ?_, ?_⟩
  · rintro v ⟨t, ht, rfl⟩
    exact h2 t ht
  · rw [alphas, hmap, h1]
    simp only [Option.map_some, List.map_map]
    congr 1
    refine List.map_congr_left fun t _ => ?_
    simp only [Function.comp, divE, if_neg hm.ne', Ext.sub]
    rfl
  · rw [alphaOk, List.all_eq_true]
    intro a ha
    obtain ⟨t, ht, rfl⟩ := List.mem_map.mp ha
    have hle : relDist i x t / m ≤ 1 := by rw [div_le_one hm]; exact h2 t ht
    have hge : 0 ≤ relDist i x t / m := div_nonneg (Real.sqrt_nonneg _) hm.le
    rw [relDist] at hle hge
    simp only [Ext.le, Bool.and_eq_true, decide_eq_true_eq]
    constructor <;> linarith

theorem relSq_cases (t x : ℝ) : (∃ v, 0 ≤ v ∧ relSq t x = .fin v) ∨ relSq t x = .posInf ∨ relSq t x = .nan := by
  rw [relSq]
  split
  · split
    · exact Or.inr (Or.inr rfl)
    · exact Or.inr (Or.inl rfl)
  · exact Or.inl ⟨_, sq_nonneg _, rfl⟩

theorem sumE_bad (l : List (Ext ℝ)) (h : ∀ e ∈ l, (∃ v, 0 ≤ v ∧ e = Ext.fin v) ∨ e = .posInf ∨ e = .nan) :
    ((∃ v, 0 ≤ v ∧ sumE l = .fin v) ∨ sumE l = .posInf ∨ sumE l = .nan) ∧ ((∃ e ∈ l, e = .posInf ∨ e = .nan) → sumE l = .posInf ∨ sumE l = .nan) := by
  induction l with
  | nil => exact ⟨Or.inl ⟨0, le_refl _, rfl⟩, by simp⟩
  | cons e l ih =>
    obtain ⟨h1, h2⟩ := ih fun e he => h e (List.mem_cons_of_mem _ he)
    have es : sumE (e :: l) = addE e (sumE l) := rfl
    rw [es]
    rcases h e List.mem_cons_self with ⟨v, hv, rfl⟩ | rfl | rfl
    · rcases h1 with ⟨w, hw, h1⟩ | h1 | h1
      · refine ⟨Or.inl ⟨v + w, by linarith, by rw [h1]; rfl⟩, ?_⟩
        rintro ⟨e', he', h'⟩
        rcases List.mem_cons.mp he' with rfl | he'
        · rcases h' with h' | h' <;> cases h'
        · rcases h2 ⟨e', he', h'⟩ with h2 | h2 <;> rw [h1] at h2 <;> cases h2
      · rw [h1]; exact ⟨Or.inr (Or.inl rfl), fun _ => Or.inl rfl⟩
      · rw [h1]; exact ⟨Or.inr (Or.inr rfl), fun _ => Or.inr rfl⟩
    · rcases h1 with ⟨w, hw, h1⟩ | h1 | h1
      · rw [h1]; exact ⟨Or.inr (Or.inl rfl), fun _ => Or.inl rfl⟩
      · rw [h1]; exact ⟨Or.inr (Or.inl rfl), fun _ => Or.inl rfl⟩
      · rw [h1]; exact ⟨Or.inr (Or.inr rfl), fun _ => Or.inr rfl⟩
    · exact ⟨Or.inr (Or.inr rfl), fun _ => Or.inr rfl⟩

theorem dist_bad (i k : Fin d) (hk : k ≠ i) (x t : Fin d → ℝ) (hx : x k = 0) : dist i x t = .posInf ∨ dist i x t = .nan := by
  have hb := (sumE_bad (((List.finRange d).filter fun k => decide (k ≠ i)).map fun k => relSq (t k) (x k)) (by
    intro e he
    obtain ⟨j, _, rfl⟩ := List.mem_map.mp he
    exact relSq_cases _ _)).2 ⟨relSq (t k) (x k), List.mem_map.mpr ⟨k, List.mem_filter.mpr ⟨List.mem_finRange k, by simpa using hk⟩, rfl⟩, by
      rw [relSq, if_pos hx]
      split
      · exact Or.inr rfl
      · exact Or.inl rfl⟩
  rw [dist]
  rcases hb with hb | hb <;> rw [hb]
  · exact Or.inl rfl
  · exact Or.inr rfl

/-- **C130**, false of the code: around a reference point with a zero coordinate all the transparencies of the panels of the other parameters are NaN,
which is refused. -/
theorem C130_alpha_zero (i k : Fin d) (hk : k ≠ i) (x : Fin d → ℝ) (hx : x k = 0) (train : List (Fin d → ℝ)) (hne : train ≠ []) :
    alphas i x train = some (train.map fun _ => .nan) ∧ alphaOk (train.map fun _ => (.nan : Ext ℝ)) = false := by
  constructor
  · match train, hne with
    | t :: l, _ =>
      have hb : ∀ s, dist i x s = .posInf ∨ dist i x s = .nan := fun s => dist_bad i k hk x s hx
      have hm : ∀ (l : List (Fin d → ℝ)) (a : Ext ℝ), (a = .posInf ∨ a = .nan) → ((l.map (dist i x)).foldl Ext.pyMax2 a = .posInf ∨ (l.map (dist i x)).foldl Ext.pyMax2 a = .nan) := by
        intro l
        induction l with
        | nil => intro a ha; exact ha
        | cons s l ih =>
          intro a ha
          rw [List.map_cons, List.foldl_cons]
          apply ih
          rw [Ext.pyMax2]
          split
          · exact hb s
          · exact ha
      rw [alphas, List.map_cons, Ext.pyMax]
      simp only [Option.map_some]
      congr 1
      rw [← List.map_cons, List.map_map]
      refine List.map_congr_left fun s _ => ?_
      simp only [Function.comp]
      rcases hm l (dist i x t) (hb t) with h | h <;> rw [h] <;> rcases hb s with h' | h' <;> rw [h'] <;> rfl
  · cases train with
    | nil => exact absurd rfl hne
    | cons t l => simp [alphaOk, Ext.le]

/-- **C130**, slices at a reference point with two parameters or more: one panel for each parameter. -/
theorem C130_reference_partial (hd : 2 ≤ d) (x : Fin d → ℝ) (hx : ∀ k, x k ≠ 0) (hasRef : Bool) (train : List (Fin d → ℝ))
    (hne : ∀ i, ∃ t ∈ train, ∃ k, k ≠ i ∧ t k ≠ x k) :
    ∃ l, plotRef (some x) hasRef train = .ok l ∧ l.map Prod.fst = List.range d ∧ ∀ q ∈ l, q.2.length = train.length ∧ alphaOk q.2 = true := by
  have hl : ∀ is : List (Fin d), ∃ l, refLoop (.arr1 d) x train is = .ok l ∧ l.map Prod.fst = is.map (fun i : Fin d => (i : ℕ)) ∧ ∀ q ∈ l, q.2.length = train.length ∧ alphaOk q.2 = true := by
    intro is
    induction is with
    | nil => exact ⟨[], rfl, rfl, by simp⟩
    | cons i is ih =>
      obtain ⟨l, h1, h2, h3⟩ := ih
      obtain ⟨m, _, _, ha, hok⟩ := C130_alpha_partial i x train (fun k _ => hx k) (hne i)
      refine ⟨((i : ℕ), _) :: l, by
        rw [refLoop, Axes.at1, if_pos i.isLt]
        simp only [bind, Except.bind]
        rw [ha]
        simp only
        rw [if_pos hok, h1]
        rfl, by rw [List.map_cons, List.map_cons, h2], ?_⟩
      intro q hq
      rcases List.mem_cons.mp hq with rfl | hq
      · exact ⟨by simp, hok⟩
      · exact h3 q hq
  obtain ⟨l, h1, h2, h3⟩ := hl (List.finRange d)
  refine ⟨l, ?_, by rw [h2, List.map_coe_finRange_eq_range], h3⟩
  unfold plotRef
  rw [subplots, if_neg (by omega), if_neg (by omega), if_pos rfl]
  simp only [bind, Except.bind]
  exact h1

/-- **C130**, false of the code: with one parameter the slices at a reference point raise `TypeError`, and with a zero coordinate `ValueError`; without a
point `TypeError`, if there is a reference sample. -/
theorem C130_reference_counterexample :
    (∀ (x : Fin 1 → ℝ) (hasRef : Bool) (train : List (Fin 1 → ℝ)), plotRef (some x) hasRef train = .error .typeError) ∧
    (∀ (d : ℕ) (hd : 2 ≤ d) (x : Fin d → ℝ) (k : Fin d) (hk : 0 < (k : ℕ)) (hx : x k = 0) (hasRef : Bool) (train : List (Fin d → ℝ)), train ≠ [] →
      plotRef (some x) hasRef train = .error .valueError) ∧
    (∀ (d : ℕ) (hd : 1 ≤ d) (train : List (Fin d → ℝ)), plotRef none true train = .error .typeError ∧ plotRef none false train = .error .valueError) := by
  refine ⟨?_, ?_, ?_⟩
  · intro x hasRef train
    rfl
  · intro d hd x k hk hx hasRef train hne
    unfold plotRef
    rw [subplots, if_neg (by omega), if_neg (by omega), if_pos rfl]
    simp only [bind, Except.bind]
    obtain ⟨n, rfl⟩ : ∃ n, d = n + 1 := ⟨d - 1, by omega⟩
    rw [List.finRange_succ, refLoop, Axes.at1, if_pos (by simp)]
    have hk0 : k ≠ 0 := by rintro rfl; simp at hk
    obtain ⟨h1, h2⟩ := C130_alpha_zero 0 k hk0 x hx train hne
    simp only [bind, Except.bind]
    rw [h1]
    simp only
    rw [if_neg (by simpa using h2)]
  · intro d hd train
    have : ∃ a, subplots 1 d = .ok a := by
      rw [subplots, if_neg (by omega)]
      by_cases h : d = 1
      · exact ⟨_, if_pos ⟨rfl, h⟩⟩
      · exact ⟨_, by rw [if_neg (by simpa using h), if_pos rfl]⟩
    obtain ⟨a, ha⟩ := this
    unfold plotRef
    rw [ha]
    exact ⟨rfl, rfl⟩

/-- The hypotheses of `C130_reference_partial` hold of two training points around `(1, 2)`. -/
example : ∃ l, plotRef (d := 2) (some ![1, 2]) false [![3, 3], ![1, 2]] = .ok l ∧ l.map Prod.fst = [0, 1] := by
  obtain ⟨l, h1, h2, _⟩ := C130_reference_partial (d := 2) (le_refl 2) ![1, 2] (by intro k; fin_cases k <;> simp) false [![3, 3], ![1, 2]] (by
    intro i
    refine ⟨![3, 3], by simp, ?_⟩
    fin_cases i
    · exact ⟨1, by simp, by simp⟩
    · exact ⟨0, by simp, by simp⟩)
  exact ⟨l, h1, by rw [h2]; rfl⟩

end reference

/-- **C130**, history of convergence criteria: the values against the numbers asked for. -/
theorem C130_convergence {K : Type} (values : List K) (total accepted : List ℕ) :
    convergencePoints "total" (some (values, total, accepted)) = .ok (total.zip values) ∧
    convergencePoints "accepted" (some (values, total, accepted)) = .ok (accepted.zip values) := ⟨rfl, rfl⟩

/-- **C130**, false of the code: another value of `evaluations` raises `KeyError`, not `ValueError`: it is looked up before the `try`. -/
theorem C130_convergence_counterexample {K : Type} (e : String) (h1 : e ≠ "total") (h2 : e ≠ "accepted") (values : List K) (total accepted : List ℕ) :
    convergencePoints e (some (values, total, accepted)) = .error .keyError := by
  rw [convergencePoints, if_neg h1, if_neg h2]

example : labelsOf ["a", "b"] (some ["A", "B", "y"]) = .ok (["A", "B"], some "y") ∧ labelsOf ["a", "b"] (some ["A", "B", "y", "z"]) = .error .valueError := by
  obtain ⟨-, -, -, h, h'⟩ := C130_labels ["a", "b"] (by simp)
  exact ⟨h ["A", "B"] "y" rfl, h' _ (by simp) (by simp) (by simp)⟩

/-- One slice, along the second of two parameters. -/
example : plotFunc (K := ℚ) (Y := ℚ) ⟨[1], ["x_2"], [[[0, 5], [0, 6]]], [[some 1, none]]⟩ none = .ok [⟨0, [5, 6], [some 1, none], "x_2", none⟩] := by
  rw [C130_func_partial 1 "x_2" [[0, 5], [0, 6]] [some 1, none] none "x_2" none rfl]
  rfl

/-- The farthest training point has opacity 0. -/
example : ∃ l, alphas (d := 2) 0 ![1, 2] [![3, 3], ![1, 2]] = some l ∧ alphaOk l = true := by
  obtain ⟨m, -, -, h, h'⟩ := C130_alpha_partial (d := 2) 0 ![1, 2] [![3, 3], ![1, 2]] (by intro k hk; fin_cases k <;> simp at hk ⊢)
    ⟨![3, 3], by simp, 1, by simp, by simp⟩
  exact ⟨_, h, h'⟩

/-- A reference point with a zero coordinate. -/
example : alphas (d := 2) 0 ![1, 0] [![3, 3], ![1, 0]] = some [.nan, .nan] ∧ alphaOk [(.nan : Ext ℝ), .nan] = false :=
  C130_alpha_zero (d := 2) 0 1 (by decide) ![1, 0] rfl [![3, 3], ![1, 0]] (by simp)

example : convergencePoints "accepted" (some ([(1 : ℚ) / 2, 1 / 3], [4, 8], [3, 5])) = .ok [(3, 1 / 2), (5, 1 / 3)] :=
  (C130_convergence [(1 : ℚ) / 2, 1 / 3] [4, 8] [3, 5]).2

end GPry.Fig
