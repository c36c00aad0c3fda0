import Verif.Tools
import Verif.GprEx
import Mathlib.Tactic.Linarith
import Mathlib.Tactic.NormNum
import Mathlib.Tactic.Ring
import Mathlib.Tactic.Positivity
import Mathlib.Data.List.Nodup
import Mathlib.Data.List.Forall2
import Mathlib.Algebra.Order.Field.Rat

set_option linter.all false

namespace GPry.Tools

/-! ## C46 -/

section Bounds
variable {K : Type*} [Field K] [LinearOrder K]

theorem inBox_iff (b : Ext K × Ext K) (v : Ext K) : (v.ge b.1 && v.le b.2) = true ↔
    b.1.le v = true ∧ v.le b.2 = true := by
  rw [Bool.and_eq_true]; rfl

theorem isInBounds_cons (b : Ext K × Ext K) (bs : List (Ext K × Ext K)) (v : Ext K) (x : List (Ext K)) :
    isInBounds (b :: bs) (v :: x) = true ↔ (b.1.le v = true ∧ v.le b.2 = true) ∧ isInBounds bs x = true := by
  unfold isInBounds
  rw [List.zipWith_cons_cons, List.all_cons, Bool.and_eq_true, id, inBox_iff]

/-- **C46**: with finite bounds, the function is true exactly for the points all of whose coordinates are numbers
(neither NaN nor infinite) in the closed intervals. -/
theorem C46_closed_box : ∀ (bounds : List (K × K)) (x : List (Ext K)), x.length = bounds.length →
    (isInBounds (bounds.map fun b => (.fin b.1, .fin b.2)) x = true ↔
      ∃ v : List K, x = v.map .fin ∧ List.Forall₂ (fun v b => b.1 ≤ v ∧ v ≤ b.2) v bounds)
  | [], [], _ => by
    constructor
    · intro _; exact ⟨[], rfl, .nil⟩
    · intro _; rfl
  | b :: bs, a :: x, h => by
    have ih := C46_closed_box bs x (by simpa using h)
    rw [List.map_cons, isInBounds_cons, ih]
    constructor
    · rintro ⟨⟨h1, h2⟩, v, rfl, hv⟩
      cases a with
      | fin a => exact ⟨a :: v, rfl, .cons ⟨by simpa [Ext.le] using h1, by simpa [Ext.le] using h2⟩ hv⟩
      | negInf => simp [Ext.le] at h1
      | posInf => simp [Ext.le] at h2
      | nan => simp [Ext.le] at h1
    · rintro ⟨v, hx, hv⟩
      cases hv with
      | cons h1 h2 =>
        rw [List.map_cons, List.cons.injEq] at hx
        obtain ⟨rfl, rfl⟩ := hx
        exact ⟨by simpa [Ext.le] using h1, _, rfl, h2⟩

example : isInBounds (K := ℚ) [(.fin 0, .fin 1), (.fin (-1), .fin 2)] [.fin 1, .fin (-1)] = true :=
  (C46_closed_box [(0, 1), (-1, 2)] [.fin 1, .fin (-1)] rfl).2 ⟨[1, -1], rfl, by norm_num⟩

/-- **C46** for any bounds (infinite ones too): the comparisons hold for every coordinate; in particular no coordinate,
and no bound, is NaN. -/
theorem C46_coordinates (bounds : List (Ext K × Ext K)) (x : List (Ext K)) (hl : x.length = bounds.length) :
    (isInBounds bounds x = true ↔ ∀ i (h : i < x.length), (bounds[i]'(hl ▸ h)).1.le x[i] = true ∧
      x[i].le (bounds[i]'(hl ▸ h)).2 = true) ∧
    (isInBounds bounds x = true → Ext.nan ∉ x) := by
  have h1 : isInBounds bounds x = true ↔ ∀ i (h : i < x.length), (bounds[i]'(hl ▸ h)).1.le x[i] = true ∧
      x[i].le (bounds[i]'(hl ▸ h)).2 = true := by
    unfold isInBounds
    rw [List.all_eq_true]
    constructor
    · intro h i hi
      rw [← inBox_iff]
      refine h _ ?_
      rw [List.mem_iff_getElem]
      exact ⟨i, by simp [hl ▸ hi, hi], by rw [List.getElem_zipWith]; rfl⟩
    · intro h b hb
      obtain ⟨i, hi, rfl⟩ := List.getElem_of_mem hb
      have hi' : i < x.length := by simp at hi; omega
      rw [List.getElem_zipWith, id, inBox_iff]
      exact h i hi'
  refine ⟨h1, fun h hn => ?_⟩
  obtain ⟨i, hi, he⟩ := List.getElem_of_mem hn
  have := ((h1.1 h) i hi).1
  rw [he] at this
  cases hb : (bounds[i]'(hl ▸ hi)).1 <;> rw [hb] at this <;> simp [Ext.le] at this

/-- C46: a point on the boundary, one outside, one with NaN. -/
example : isInBounds (K := ℚ) [(.fin 0, .fin 1), (.negInf, .fin 2)] [.fin 1, .fin (-100)] = true ∧
    isInBounds (K := ℚ) [(.fin 0, .fin 1), (.negInf, .fin 2)] [.fin 1, .fin 3] = false ∧
    isInBounds (K := ℚ) [(.fin 0, .fin 1), (.negInf, .fin 2)] [.nan, .fin 0] = false := by decide +kernel

/-! ## C45 -/

variable [IsStrictOrderedRing K]

theorem foldl_min_spec : ∀ (l : List K) (a : K), (∀ v ∈ a :: l, l.foldl min a ≤ v) ∧ l.foldl min a ∈ a :: l
  | [], a => by simp
  | b :: l, a => by
    obtain ⟨h1, h2⟩ := foldl_min_spec l (min a b)
    rw [List.foldl_cons]
    constructor
    · intro v hv
      rcases List.mem_cons.1 hv with rfl | hv
      · exact (h1 _ (by simp)).trans (min_le_left _ b)
      · rcases List.mem_cons.1 hv with rfl | hv
        · exact (h1 _ (by simp)).trans (min_le_right a _)
        · exact h1 _ (by simp [hv])
    · rcases List.mem_cons.1 h2 with h | h
      · rw [h]
        rcases min_choice a b with h' | h' <;> rw [h'] <;> simp
      · simp [h]

theorem foldl_max_spec : ∀ (l : List K) (a : K), (∀ v ∈ a :: l, v ≤ l.foldl max a) ∧ l.foldl max a ∈ a :: l
  | [], a => by simp
  | b :: l, a => by
    obtain ⟨h1, h2⟩ := foldl_max_spec l (max a b)
    rw [List.foldl_cons]
    constructor
    · intro v hv
      rcases List.mem_cons.1 hv with rfl | hv
      · exact (le_max_left _ b).trans (h1 _ (by simp))
      · rcases List.mem_cons.1 hv with rfl | hv
        · exact (le_max_right a _).trans (h1 _ (by simp))
        · exact h1 _ (by simp [hv])
    · rcases List.mem_cons.1 h2 with h | h
      · rw [h]
        rcases max_choice a b with h' | h' <;> rw [h'] <;> simp
      · simp [h]

theorem shrink_eq (factor : K) (b : K × K) {xs : List K} (hne : xs ≠ []) : ∃ lo hi, lo ∈ xs ∧ hi ∈ xs ∧
    (∀ x ∈ xs, lo ≤ x ∧ x ≤ hi) ∧ ∀ f, shrinkBounds f b xs =
      .ok (max (lo - (f - 1) / 2 * (hi - lo)) b.1, min (hi + (f - 1) / 2 * (hi - lo)) b.2) := by
  cases xs with
  | nil => exact absurd rfl hne
  | cons a l =>
    obtain ⟨h1, h2⟩ := foldl_min_spec l a
    obtain ⟨h3, h4⟩ := foldl_max_spec l a
    exact ⟨_, _, h2, h4, fun x hx => ⟨h1 x hx, h3 x hx⟩, fun f => rfl⟩

/-- **C45** (one coordinate), partial: for at least one sample and factor at least 1 the result lies inside the original
bounds, contains every sample that is within them, and is non-empty if there is one. A larger factor gives an interval at
least as large; with factor 1 and samples inside the bounds the result is spanned by two of them. (Not covered: samples
all outside of the bounds, see `C45_inverted_counterexample`.) -/
theorem C45_shrink_partial (b : K × K) {xs : List K} (hne : xs ≠ []) (f : K) (hf : 1 ≤ f) :
    ∃ lo hi, shrinkBounds f b xs = .ok (lo, hi) ∧ b.1 ≤ lo ∧ hi ≤ b.2 ∧
      (∀ x ∈ xs, b.1 ≤ x → x ≤ b.2 → lo ≤ x ∧ x ≤ hi) ∧
      ((∃ x ∈ xs, b.1 ≤ x ∧ x ≤ b.2) → lo ≤ hi) ∧
      (∀ f', f ≤ f' → ∃ lo' hi', shrinkBounds f' b xs = .ok (lo', hi') ∧ lo' ≤ lo ∧ hi ≤ hi') ∧
      (f = 1 → (∀ x ∈ xs, b.1 ≤ x ∧ x ≤ b.2) → lo ∈ xs ∧ hi ∈ xs) := by
  obtain ⟨m, M, hm, hM, hall, heq⟩ := shrink_eq f b hne
  have hw : 0 ≤ M - m := sub_nonneg.2 ((hall m hm).2)
  have hd : 0 ≤ (f - 1) / 2 * (M - m) := mul_nonneg (by linarith) hw
  have hin : ∀ x ∈ xs, b.1 ≤ x → x ≤ b.2 →
      max (m - (f - 1) / 2 * (M - m)) b.1 ≤ x ∧ x ≤ min (M + (f - 1) / 2 * (M - m)) b.2 := by
    intro x hx h1 h2
    obtain ⟨h3, h4⟩ := hall x hx
    exact ⟨max_le (by linarith) h1, le_min (by linarith) h2⟩
  refine ⟨_, _, heq f, le_max_right _ _, min_le_right _ _, hin, ?_, ?_, ?_⟩
  · rintro ⟨x, hx, h1, h2⟩
    exact (hin x hx h1 h2).1.trans (hin x hx h1 h2).2
  · intro f' hff
    have : (f - 1) / 2 * (M - m) ≤ (f' - 1) / 2 * (M - m) := mul_le_mul_of_nonneg_right (by linarith) hw
    exact ⟨_, _, heq f', max_le_max (by linarith) le_rfl, min_le_min (by linarith) le_rfl⟩
  · rintro rfl hx
    simp only [sub_self, zero_div, zero_mul, sub_zero, add_zero]
    rw [max_eq_left (hx m hm).1, min_eq_left (hx M hM).2]
    exact ⟨hm, hM⟩

example : ∃ lo hi, shrinkBounds (K := ℚ) 2 (0, 10) [3, 4, 1] = .ok (lo, hi) ∧ 0 ≤ lo ∧ hi ≤ 10 ∧ lo ≤ hi := by
  obtain ⟨lo, hi, h1, h2, h3, -, h5, -⟩ := C45_shrink_partial (K := ℚ) (0, 10) (xs := [3, 4, 1]) (by decide) 2 (by norm_num)
  exact ⟨lo, hi, h1, h2, h3, h5 ⟨3, by decide, by norm_num, by norm_num⟩⟩

/-- **C45** is false if the samples are all outside of the bounds on the same side: the lower bound returned is larger
than the upper one. -/
theorem C45_inverted_counterexample (b : K × K) {xs : List K} (hne : xs ≠ []) (f : K) (hout : ∀ x ∈ xs, b.2 < x)
    (hf : f ≤ 1) (hf0 : 0 ≤ f) :
    ∃ lo hi, shrinkBounds f b xs = .ok (lo, hi) ∧ hi < lo := by
  obtain ⟨m, M, hm, hM, hall, heq⟩ := shrink_eq f b hne
  have hw : 0 ≤ M - m := sub_nonneg.2 ((hall m hm).2)
  have hd : (f - 1) / 2 * (M - m) ≤ 0 := mul_nonpos_of_nonpos_of_nonneg (by linarith) hw
  refine ⟨_, _, heq f, ?_⟩
  refine lt_of_le_of_lt (min_le_right _ _) (lt_of_lt_of_le (hout m hm) (le_trans ?_ (le_max_left _ _)))
  linarith

/-- C45: without samples there is an exception (not the documented `TypeError`). -/
theorem C45_empty (b : K × K) (f : K) : shrinkBounds f b [] = .error .valueError := rfl

example : shrinkBounds (K := ℚ) 2 (0, 10) [3, 4, 1] = .ok (0, 11 / 2) ∧
    shrinkBounds (K := ℚ) 1 (0, 10) [12, 11] = .ok (11, 10) := by decide +kernel

end Bounds

/-! ## C49 -/

section Weights
variable {K A : Type*} [Zero K] [DecidableEq K]

theorem zip_dropZero (w : List K) (xs : List A) (h : xs.length = w.length) :
    (w.filter (· ≠ 0)).zip (dropZero w xs) = (w.zip xs).filter fun q => q.1 ≠ 0 := by
  unfold dropZero
  induction w generalizing xs with
  | nil => simp
  | cons a w ih =>
    cases xs with
    | nil => simp at h
    | cons x xs =>
      have := ih xs (by simpa using h)
      by_cases ha : a = 0 <;> simp_all

/-- **C49**: if the lengths agree, the samples (weight, value) that are returned are, in order, those with weight not
zero, in every one of the arrays; `None` is passed through. -/
theorem C49_remove (w : List K) (arrays : List (Option (List A)))
    (h : ∀ xs, some xs ∈ arrays → xs.length = w.length) :
    ∃ w' arrays', remove0 w arrays = .ok (w', arrays') ∧ (∀ a ∈ w', a ≠ 0) ∧ w'.Sublist w ∧
      arrays'.length = arrays.length ∧
      ∀ i (hi : i < arrays.length) (hi' : i < arrays'.length), match arrays[i], arrays'[i] with
        | none, none => True
        | some xs, some xs' => xs'.length = w'.length ∧ w'.zip xs' = (w.zip xs).filter fun q => q.1 ≠ 0
        | _, _ => False := by
  refine ⟨w.filter (· ≠ 0), arrays.map fun a => a.map (dropZero w), ?_, ?_, List.filter_sublist, by simp, ?_⟩
  · unfold remove0
    rw [if_neg]
    rw [Bool.not_eq_true, List.any_eq_false]
    intro a ha
    cases a with
    | none => simp
    | some xs => simp [h xs ha]
  · intro a ha
    simpa using (List.mem_filter.1 ha).2
  · intro i hi hi'
    rw [List.getElem_map]
    cases ha : arrays[i] with
    | none => simp
    | some xs =>
      have hlen := h xs (ha ▸ List.getElem_mem hi)
      have hz := zip_dropZero w xs hlen
      simp only [Option.map_some]
      refine ⟨?_, hz⟩
      unfold dropZero
      have : ∀ (w : List K) (xs : List A), xs.length = w.length →
          ((w.zip xs).filter fun q => q.1 ≠ 0).length = (w.filter (· ≠ 0)).length := by
        intro w
        induction w with
        | nil => simp
        | cons a w ih =>
          intro xs h
          cases xs with
          | nil => simp at h
          | cons x xs =>
            have := ih xs (by simpa using h)
            by_cases ha : a = 0 <;> simp_all
      simpa using this w xs hlen

example : ∃ w' arrays', remove0 [2, 0, (1 : ℤ)] [some ['a', 'b', 'c'], none] = .ok (w', arrays') ∧ (∀ a ∈ w', a ≠ 0) ∧ w'.Sublist [2, 0, 1] := by
  obtain ⟨w', a', h1, h2, h3, -⟩ := C49_remove [2, 0, (1 : ℤ)] [some ['a', 'b', 'c'], none] (by simp)
  exact ⟨w', a', h1, h2, h3⟩

/-- **C49**: otherwise, `ValueError`. -/
theorem C49_length_mismatch (w : List K) (arrays : List (Option (List A))) {xs : List A} (hx : some xs ∈ arrays)
    (h : xs.length ≠ w.length) : remove0 w arrays = .error .valueError := by
  unfold remove0
  rw [if_pos]
  rw [List.any_eq_true]
  exact ⟨_, hx, by simpa using h⟩

example : remove0 [2, (0 : ℤ)] [none, some ['a', 'b', 'c']] = .error .valueError :=
  C49_length_mismatch [2, (0 : ℤ)] [none, some ['a', 'b', 'c']] (xs := ['a', 'b', 'c']) (by simp) (by decide)

/-- **C49**: weighted sums are unchanged. -/
theorem C49_weighted_sum {R : Type*} [Semiring R] [DecidableEq R] (w : List R) (xs : List A) (h : xs.length = w.length)
    (f : A → R) :
    (((w.filter (· ≠ 0)).zip (dropZero w xs)).map fun q => q.1 * f q.2).sum = ((w.zip xs).map fun q => q.1 * f q.2).sum := by
  rw [zip_dropZero w xs h]
  induction w generalizing xs with
  | nil => simp
  | cons a w ih =>
    cases xs with
    | nil => simp at h
    | cons x xs =>
      have := ih xs (by simpa using h)
      by_cases ha : a = 0
      · simp only [List.zip_cons_cons, ha, List.map_cons, List.sum_cons, zero_mul, zero_add]
        rw [List.filter_cons_of_neg (by simp), this]
      · simp only [List.zip_cons_cons, List.map_cons, List.sum_cons]
        rw [List.filter_cons_of_pos (by simpa using ha), List.map_cons, List.sum_cons, this]

example : remove0 [2, 0, 1, 0] [some ['a', 'b', 'c', 'd'], none] = .ok ([2, 1], [some ['a', 'c'], none]) := by decide

end Weights

/-! ## C47 -/

section Candidates
variable {K : Type*} [DecidableEq K]

/-- **C47**: the first flag says whether the rounded candidate is one of the rounded training points. -/
theorem C47_in_training (rnd : K → K) (train cands : List (List K)) (j : ℕ) (hj : j < cands.length) :
    (checkCandidates rnd train cands).1[j]? = some true ↔ ∃ t ∈ train, t.map rnd = cands[j].map rnd := by
  unfold checkCandidates inTraining
  simp [hj]

example : (checkCandidates (fun x : ℕ => x / 10) [[11, 20]] [[30, 40], [12, 25]]).1[1]? = some true :=
  (C47_in_training (fun x : ℕ => x / 10) [[11, 20]] [[30, 40], [12, 25]] 1 (by decide)).2 ⟨[11, 20], by simp, by decide⟩

theorem dupFlag_of_earlier {rows : List (List K)} {i j : ℕ} (hij : i < j) (hj : j < rows.length) (he : rows[i] = rows[j]) :
    dupFlag rows j = true := by
  have hg : rows.getD j [] = rows[j] := by simp [hj]
  have hc : 1 < rows.count rows[j] := by
    have : rows[j] ∈ rows.drop (i + 1) := by
      rw [List.mem_iff_getElem]
      exact ⟨j - (i + 1), by simp; omega, by simp; congr 1; omega⟩
    have h1 : rows.count rows[j] = (rows.take (i + 1)).count rows[j] + (rows.drop (i + 1)).count rows[j] := by
      rw [← List.count_append, List.take_append_drop]
    have h2 : 0 < (rows.drop (i + 1)).count rows[j] := List.count_pos_iff.2 this
    have h3 : 0 < (rows.take (i + 1)).count rows[j] := by
      apply List.count_pos_iff.2
      rw [List.mem_iff_getElem]
      exact ⟨i, by simp; omega, by simp [he]⟩
    omega
  have hi : rows.idxOf rows[j] ≠ j := by
    intro h
    have : rows.idxOf rows[j] ≤ i := by
      by_contra hlt
      push Not at hlt
      have := List.not_of_lt_findIdx (p := (· == rows[j])) (xs := rows) (i := i) hlt
      simp [he] at this
    omega
  unfold dupFlag
  dsimp only
  rw [hg, Bool.and_eq_true]
  constructor
  · rw [List.all_eq_true]
    intro c hcm
    rw [List.any_eq_true]
    exact ⟨rows[j], List.mem_filter.2 ⟨List.getElem_mem hj, by simpa using hc⟩, by simpa using hcm⟩
  · simp [hi]

/-- The second flag of the first of some equal candidates, if there are several. -/
theorem dupFlag_first {rows : List (List K)} {j : ℕ} (hj : j < rows.length) (hc : 1 < rows.count rows[j])
    (hf : ∀ i (h : i < j), rows[i] ≠ rows[j]) : dupFlag rows j = false := by
  have hg : rows.getD j [] = rows[j] := by simp [hj]
  have hi : rows.idxOf rows[j] = j := by
    apply le_antisymm
    · by_contra h
      push Not at h
      have := List.not_of_lt_findIdx (p := (· == rows[j])) (xs := rows) (i := j) h
      simp at this
    · by_contra h
      push Not at h
      have := List.findIdx_getElem (p := (· == rows[j])) (xs := rows) (w := by
        change rows.idxOf rows[j] < _; omega)
      exact hf _ h (by simpa using this)
  unfold dupFlag
  dsimp only
  rw [hg, hi]
  simp [hc]

/-- The candidates that are kept, by position. -/
def keptAt (rnd : K → K) (train cands : List (List K)) (j : ℕ) : Bool :=
  !(inTraining rnd train (cands.getD j []) || dupFlag (cands.map (List.map rnd)) j)

theorem keep_eq (rnd : K → K) (train cands : List (List K)) :
    keep rnd train cands = ((List.range cands.length).filter (keptAt rnd train cands)).map fun j => cands.getD j [] := by
  have hz : cands.zip ((checkCandidates rnd train cands).1.zip (checkCandidates rnd train cands).2) =
      (List.range cands.length).map fun j => (cands.getD j [], inTraining rnd train (cands.getD j []),
        dupFlag (cands.map (List.map rnd)) j) := by
    apply List.ext_getElem
    · simp [checkCandidates]
    · intro i h1 h2
      have hi : i < cands.length := by simpa using h2
      simp [checkCandidates, hi]
  unfold keep
  dsimp only
  rw [hz, List.filter_map, List.map_map]
  rfl

/-- **C47**, partial: after filtering, the points left are candidates, in order, none of them is (up to rounding) a
training point, and no two of them are equal (up to rounding); a repeated candidate that is not a training point is kept
once. (False: points found infinite, fresh points flagged by mistake; see the counterexamples.) -/
theorem C47_filter_partial (rnd : K → K) (train cands : List (List K)) :
    (keep rnd train cands).Sublist cands ∧
    (∀ x ∈ keep rnd train cands, ∀ t ∈ train, t.map rnd ≠ x.map rnd) ∧
    ((keep rnd train cands).map (List.map rnd)).Nodup ∧
    (∀ x ∈ cands, 1 < (cands.map (List.map rnd)).count (x.map rnd) → (∀ t ∈ train, t.map rnd ≠ x.map rnd) →
      ∃ y ∈ keep rnd train cands, y.map rnd = x.map rnd) := by
  have hrange : cands = (List.range cands.length).map fun j => cands.getD j [] := by
    apply List.ext_getElem
    · simp
    · intro i h1 h2; simp [h1]
  rw [keep_eq]
  refine ⟨?_, ?_, ?_, ?_⟩
  · conv_rhs => rw [hrange]
    exact List.filter_sublist.map _
  · intro x hx t ht he
    obtain ⟨j, hj, rfl⟩ := List.mem_map.1 hx
    have := (List.mem_filter.1 hj).2
    unfold keptAt inTraining at this
    simp only [Bool.not_or, Bool.and_eq_true, Bool.not_eq_true'] at this
    have h1 := this.1
    rw [List.any_eq_false] at h1
    exact h1 _ (List.mem_map.2 ⟨t, ht, rfl⟩) (by simpa using he)
  · rw [List.map_map]
    rw [List.nodup_map_iff_inj_on ((List.nodup_range).filter _)]
    intro a ha b hb hab
    have key : ∀ a b, a ∈ (List.range cands.length).filter (keptAt rnd train cands) →
        b ∈ (List.range cands.length).filter (keptAt rnd train cands) →
        (cands.getD a []).map rnd = (cands.getD b []).map rnd → ¬ a < b := by
      intro a b ha hb hab hlt
      obtain ⟨ha1, ha2⟩ := List.mem_filter.1 ha
      obtain ⟨hb1, hb2⟩ := List.mem_filter.1 hb
      have hbl : b < cands.length := by simpa using hb1
      have hal : a < cands.length := by simpa using ha1
      have := dupFlag_of_earlier (rows := cands.map (List.map rnd)) (i := a) (j := b) hlt (by simpa using hbl) (by
        simp only [List.getElem_map]
        simpa [hal, hbl] using hab)
      unfold keptAt at hb2
      rw [this] at hb2
      simp at hb2
    have h1 := key a b ha hb hab
    have h2 := key b a hb ha hab.symm
    omega
  · intro x hx hc ht
    -- first position with the same rounded coordinates
    have hmem : x.map rnd ∈ cands.map (List.map rnd) := List.mem_map.2 ⟨x, hx, rfl⟩
    obtain ⟨j, hj⟩ : ∃ j, j = (cands.map (List.map rnd)).idxOf (x.map rnd) := ⟨_, rfl⟩
    have hjl : j < (cands.map (List.map rnd)).length := hj ▸ List.idxOf_lt_length_of_mem hmem
    have hje : (cands.map (List.map rnd))[j] = x.map rnd := by
      subst hj; exact List.getElem_idxOf hjl
    have hjl' : j < cands.length := by simpa using hjl
    have hjx : (cands.getD j []).map rnd = x.map rnd := by
      rw [← hje]; simp [hjl']
    refine ⟨cands.getD j [], List.mem_map.2 ⟨j, List.mem_filter.2 ⟨by simpa using hjl', ?_⟩, rfl⟩, hjx⟩
    unfold keptAt
    have h1 : dupFlag (cands.map (List.map rnd)) j = false := by
      refine dupFlag_first hjl (by rw [hje]; exact hc) ?_
      intro i hi he
      have := List.not_of_lt_findIdx (p := (· == x.map rnd)) (xs := cands.map (List.map rnd)) (i := i) (by
        change i < (cands.map (List.map rnd)).idxOf (x.map rnd); omega)
      rw [hje] at he
      rw [beq_eq_false_iff_ne] at this
      exact this he
    have h2 : inTraining rnd train (cands.getD j []) = false := by
      unfold inTraining
      rw [List.any_eq_false]
      intro t ht'
      obtain ⟨u, hu, rfl⟩ := List.mem_map.1 ht'
      rw [hjx]
      simpa using ht u hu
    rw [h1, h2]; rfl

example : ∃ y ∈ keep (fun x : ℕ => x / 10) [[11, 20]] [[12, 25], [30, 40], [33, 44], [50, 60]], y.map (· / 10) = [3, 4] :=
  (C47_filter_partial (fun x : ℕ => x / 10) [[11, 20]] [[12, 25], [30, 40], [33, 44], [50, 60]]).2.2.2 [33, 44] (by simp) (by decide) (by decide)

/-- **C47**: in one dimension the second flag is right: the candidate repeats an earlier one. -/
theorem C47_one_dimension (rows : List (List K)) (h1 : ∀ r ∈ rows, r.length = 1) (j : ℕ) (hj : j < rows.length) :
    dupFlag rows j = true ↔ ∃ i, ∃ h : i < j, rows[i] = rows[j] := by
  constructor
  · intro h
    by_contra hne
    push Not at hne
    by_cases hc : 1 < rows.count rows[j]
    · rw [dupFlag_first hj hc (fun i hi => hne i hi)] at h
      simp at h
    · unfold dupFlag at h
      dsimp only at h
      have hg : rows.getD j [] = rows[j] := by simp [hj]
      rw [hg, Bool.and_eq_true] at h
      obtain ⟨c, hcj⟩ := List.length_eq_one_iff.1 (h1 _ (List.getElem_mem hj))
      have h2 := h.1
      rw [hcj] at h2
      simp only [List.all_cons, List.all_nil, Bool.and_true] at h2
      rw [List.any_eq_true] at h2
      obtain ⟨r, hr, hcr⟩ := h2
      obtain ⟨hr1, hr2⟩ := List.mem_filter.1 hr
      obtain ⟨c', rfl⟩ := List.length_eq_one_iff.1 (h1 _ hr1)
      simp only [List.contains_cons, List.contains_nil, Bool.or_false, beq_iff_eq] at hcr
      subst hcr
      rw [hcj] at hc
      simp at hr2
      omega
  · rintro ⟨i, hi, he⟩
    exact dupFlag_of_earlier hi hj he

example : dupFlag [[3], [5], [3]] 2 = true := (C47_one_dimension [[3], [5], [3]] (by simp) 2 (by decide)).2 ⟨0, by decide, rfl⟩

/-- **C47** is false in two dimensions: the third candidate is new, but its coordinates appear in the repeated one. It is
thrown away. -/
theorem C47_fresh_dropped_counterexample :
    checkCandidates (id : ℕ → ℕ) [] [[1, 2], [1, 2], [2, 1]] = ([false, false, false], [false, true, true]) ∧
    keep (id : ℕ → ℕ) [] [[1, 2], [1, 2], [2, 1]] = [[1, 2]] := by decide

/-- A surrogate with one finite point, 1, and one infinite one, 2 (`append_to_data`). -/
def exInf : Gpr.State ℕ Unit ℕ ℚ := (Gpr.append (Gpr.exCfg true) Gpr.ex0 { batch := some ([1, 2], [.fin 1, .negInf]) }).1

/-- **C47** is false for points already evaluated and found to be infinite: they are not in `X_train_`, so they are
proposed, and evaluated, again. -/
theorem C47_infinite_counterexample : 2 ∈ exInf.xAll ∧
    keep (id : ℕ → ℕ) (exInf.xTrain'.map fun x => [x]) [[2]] = [[2]] := by decide +kernel

/-- C47: a training point, a repeated candidate and a new one. -/
example : keep (fun x : ℕ => x / 10) [[11, 20]] [[12, 25], [30, 40], [33, 44], [50, 60]] = [[30, 40], [50, 60]] := by decide

end Candidates

/-! ## C48 -/

section XNumber
variable {K : Type*} [Field K] [LinearOrder K]

theorem split_none {letter : Char} : ∀ {s : List Char}, letter ∉ s → split letter s = [s]
  | [], _ => rfl
  | c :: s, h => by
    have hc : c ≠ letter := by rintro rfl; simp at h
    unfold split
    rw [if_neg hc, split_none (s := s) (by simp at h; tauto)]

theorem split_one {letter : Char} : ∀ {a p : List Char}, letter ∉ a → letter ∉ p → split letter (a ++ letter :: p) = [a, p]
  | [], p, _, hp => by
    show split letter (letter :: p) = _
    unfold split
    rw [if_pos rfl, split_none hp]
  | c :: a, p, ha, hp => by
    have hc : c ≠ letter := by rintro rfl; simp at ha
    show split letter (c :: (a ++ letter :: p)) = _
    unfold split
    rw [if_neg hc, split_one (a := a) (by simp at ha; tauto) hp]

theorem split_length {letter : Char} : ∀ s : List Char, (split letter s).length = s.count letter + 1
  | [] => rfl
  | c :: s => by
    unfold split
    have ih := split_length (letter := letter) s
    by_cases hc : c = letter
    · rw [if_pos hc]; simp [hc, ih]
    · rw [if_neg hc]
      cases hs : split letter s with
      | nil => rw [hs] at ih; simp at ih
      | cons t ts => rw [hs] at ih; simp [hc] at ih ⊢; exact ih

variable {parse : List Char → Option (Ext K)} {pow : Ext K → Ext K} {letter : Char} {X : Ext K} {asInt : Bool} {trunc : K → K}

/-- Examples: numbers of digits only. -/
def exParse (s : List Char) : Option (Ext ℚ) :=
  if s ≠ [] ∧ s.all Char.isDigit then some (.fin (s.foldl (fun n c => 10 * n + (c.toNat - 48 : ℕ)) 0)) else none

/-- Powers of 4. -/
def exPow : Ext ℚ → Ext ℚ
  | .fin v => .fin (4 ^ v.num.toNat)
  | _ => .nan

/-- **C48**: `aXp` is `a * X**p`, with `a` and `p` 1 if they are left out (and `X` alone is the value of `X`), if both can
be read as numbers; converted to the type asked for. -/
theorem C48_value {a p : List Char} (ha : letter ∉ a) (hp : letter ∉ p) {n q : Ext K}
    (hn : if a = [] then n = .fin 1 else parse a = some n) (hq : p ≠ [] → parse p = some q)
    (h1 : parse ['1'] = some (.fin 1)) (hl : letter ≠ '1') :
    getXnumber parse pow letter X asInt trunc (.str (a ++ letter :: p)) =
      toDtype asInt trunc (mulE n (if p = [] then X else pow q)) := by
  have hsp : (if a ++ letter :: p = [letter] then ['1', letter] else a ++ letter :: p) =
      (if a = [] ∧ p = [] then ['1'] else a) ++ letter :: p := by
    by_cases h : a = [] ∧ p = []
    · rw [h.1, h.2]; simp
    · rw [if_neg h, if_neg]
      intro he
      apply h
      cases a with
      | nil => simpa using he
      | cons c a => simp at he
  have hno : letter ∉ (if a = [] ∧ p = [] then ['1'] else a) := by
    split_ifs
    · simpa using hl
    · exact ha
  have hpar : (if (if a = [] ∧ p = [] then ['1'] else a) = [] then some (.fin 1) else
      parse (if a = [] ∧ p = [] then ['1'] else a)) = some n := by
    by_cases h : a = [] ∧ p = []
    · rw [if_pos h]
      rw [if_pos h.1] at hn
      simp [h1, hn]
    · rw [if_neg h]
      by_cases h' : a = []
      · rw [if_pos h'] at hn ⊢; rw [hn]
      · rw [if_neg h'] at hn ⊢; exact hn
  unfold getXnumber
  dsimp only
  rw [hsp, if_pos (by simp), split_one hno hp]
  dsimp only
  rw [hpar]
  dsimp only
  by_cases hpn : p = []
  · rw [if_pos hpn, if_pos hpn]
  · rw [if_neg hpn, if_neg hpn, hq hpn]

example : getXnumber exParse exPow 'd' (.fin 4) true id (.str ['2', 'd', '3']) = toDtype true id (mulE (.fin 2) (exPow (.fin 3))) :=
  C48_value (parse := exParse) (letter := 'd') (a := ['2']) (p := ['3']) (n := .fin 2) (q := .fin 3) (by decide) (by decide) (by decide +kernel) (fun _ => by decide +kernel) (by decide +kernel) (by decide)

theorem mulE_one [IsStrictOrderedRing K] (v : Ext K) : mulE v (.fin 1) = v := by
  cases v <;> simp [mulE]

/-- **C48**: plain numbers, and strings without the letter, are taken as they are. -/
theorem C48_plain [IsStrictOrderedRing K] (v : Ext K) {s : List Char} (hs : letter ∉ s) (hv : parse s = some v) :
    getXnumber parse pow letter X asInt trunc (.num v) = toDtype asInt trunc v ∧
    getXnumber parse pow letter X asInt trunc (.str s) = toDtype asInt trunc v := by
  constructor
  · unfold getXnumber; dsimp only; rw [mulE_one]
  · unfold getXnumber
    dsimp only
    have : s ≠ [letter] := by rintro rfl; simp at hs
    rw [if_neg this, if_neg hs, hv]
    dsimp only
    rw [mulE_one]

example : getXnumber exParse exPow 'd' (.fin 4) false id (.str ['1', '2']) = toDtype false id (.fin 12) :=
  (C48_plain (.fin 12) (s := ['1', '2']) (by decide) (by decide +kernel)).2

/-- **C48**: `ValueError` for strings with the letter twice, with a part that is not a number, and for other types.
-/
theorem C48_errors :
    (∀ s, 1 < s.count letter → getXnumber parse pow letter X asInt trunc (.str s) = .error .valueError) ∧
    (∀ a p, letter ∉ a → letter ∉ p → a ≠ [] → parse a = none →
      getXnumber parse pow letter X asInt trunc (.str (a ++ letter :: p)) = .error .valueError) ∧
    (∀ a p, letter ∉ a → letter ∉ p → p ≠ [] → parse p = none →
      getXnumber parse pow letter X asInt trunc (.str (a ++ letter :: p)) = .error .valueError) ∧
    (∀ s, letter ∉ s → parse s = none → getXnumber parse pow letter X asInt trunc (.str s) = .error .valueError) ∧
    getXnumber parse pow letter X asInt trunc .other = .error .valueError := by
  refine ⟨?_, ?_, ?_, ?_, rfl⟩
  · intro s hs
    have hne : s ≠ [letter] := by rintro rfl; simp at hs
    have hmem : letter ∈ s := List.count_pos_iff.1 (by omega)
    unfold getXnumber
    dsimp only
    rw [if_neg hne, if_pos hmem]
    have hlen := split_length (letter := letter) s
    split
    · rename_i h; rw [h] at hlen; simp at hlen; omega
    · rfl
  · intro a p ha hp hne hpa
    unfold getXnumber
    dsimp only
    have hnl : a ++ letter :: p ≠ [letter] := by
      intro he
      cases a with
      | nil => exact hne rfl
      | cons c a => simp at he
    rw [if_neg hnl, if_pos (by simp), split_one ha hp]
    dsimp only
    rw [if_neg hne, hpa]
  · intro a p ha hp hne hpp
    unfold getXnumber
    dsimp only
    have hnl : a ++ letter :: p ≠ [letter] := by
      intro he
      cases a with
      | nil => simp at he; exact hne he
      | cons c a => simp at he
    rw [if_neg hnl, if_pos (by simp), split_one ha hp]
    dsimp only
    split
    · rfl
    · rw [if_neg hne, hpp]
  · intro s hs hp
    have hne : s ≠ [letter] := by rintro rfl; simp at hs
    unfold getXnumber
    dsimp only
    rw [if_neg hne, if_neg hs, hp]

example : getXnumber exParse exPow 'd' (.fin 4) true id (.str ['d', '2', 'd']) = .error .valueError ∧
    getXnumber exParse exPow 'd' (.fin 4) true id (.str ['x', 'd']) = .error .valueError :=
  ⟨C48_errors.1 _ (by decide), C48_errors.2.1 ['x'] [] (by decide) (by decide) (by decide) (by decide +kernel)⟩

/-- **C48** is false for infinite values when an integer is asked for: `OverflowError` is not caught. -/
theorem C48_overflow_counterexample [IsStrictOrderedRing K] : getXnumber (K := K) parse pow letter X true trunc (.num .posInf) = .error .overflowError := by
  unfold getXnumber
  dsimp only
  rw [mulE_one]; rfl


/-- C48: `5d`, `d`, `2d3`, `7`, `d2`, and two mistakes. -/
example : getXnumber exParse exPow 'd' (.fin 4) true id (.str ['5', 'd']) = .ok (.fin 20) ∧
    getXnumber exParse exPow 'd' (.fin 4) true id (.str ['d']) = .ok (.fin 4) ∧
    getXnumber exParse exPow 'd' (.fin 4) true id (.str ['2', 'd', '3']) = .ok (.fin 128) ∧
    getXnumber exParse exPow 'd' (.fin 4) true id (.str ['7']) = .ok (.fin 7) ∧
    getXnumber exParse exPow 'd' (.fin 4) true id (.str ['d', '2']) = .ok (.fin 16) ∧
    getXnumber exParse exPow 'd' (.fin 4) true id (.str ['d', 'd']) = .error .valueError ∧
    getXnumber exParse exPow 'd' (.fin 4) true id (.str ['x', 'd']) = .error .valueError := by decide +kernel

end XNumber

/-! ## C56 -/

/-- **C56**: a `with` block leaves the error state as it was, whatever is done in it, also if an exception comes out of it,
which is then passed on; inside of it, the state is the one asked for. -/
theorem C56_with (m : Mode) (body : Code) (s : ErrState) :
    (Code.withErr m body).run s = (s, (body.run ⟨m, m, m, m⟩).2) := by
  rw [Code.run]
  cases s; rfl

example : (Code.withErr 1 (.seq (.seterr 5) .raise)).run ⟨0, 3, 0, 0⟩ = (⟨0, 3, 0, 0⟩, true) := C56_with 1 _ _

/-- **C56**: by induction, all programs that change the state only inside of `with` blocks, nested in any way, with
exceptions raised and caught anywhere. -/
theorem C56_nested (c : Code) (h : c.scoped) (s : ErrState) : (c.run s).1 = s := by
  induction c generalizing s with
  | skip => rfl
  | raise => rfl
  | seterr m => exact absurd h (by simp [Code.scoped])
  | work f => rfl
  | withErr m body _ => rw [C56_with]
  | seq a b iha ihb =>
    unfold Code.run
    dsimp only
    split_ifs
    · exact iha h.1 s
    · rw [iha h.1 s]; exact ihb h.2 s
  | tryExcept a b iha ihb =>
    unfold Code.run
    dsimp only
    split_ifs
    · rw [iha h.1 s]; exact ihb h.2 s
    · exact iha h.1 s

example : ((Code.tryExcept (.withErr 1 (.seq (.seterr 5) .raise)) (.work fun s => s.over = 3)).run ⟨0, 3, 0, 0⟩).1 = ⟨0, 3, 0, 0⟩ :=
  C56_nested _ (by simp [Code.scoped]) _

/-- **C56** is false if the state changes between making the handler and entering the block: the state at the time of
making it is restored. -/
theorem C56_early_handler_counterexample :
    let s0 : ErrState := ⟨0, 0, 0, 0⟩
    let h := Handler.init 1 s0
    let s1 := seterrAll 2 s0
    (h.exit false (h.enter s1)).1 ≠ s1 := by decide

example : (Code.seq (.withErr 1 (.seq (.seterr 5) (.withErr 2 .raise))) (.seterr 9)).run ⟨0, 3, 0, 0⟩ = (⟨0, 3, 0, 0⟩, true) := rfl

/-! ## C57 -/

section OutDir

theorem osSplit_join {head tail : List Char} (ht : '/' ∉ tail) : osSplit (head ++ '/' :: tail) =
    (if head.all (· = '/') then head ++ ['/'] else rstrip (head ++ ['/']), tail) := by
  unfold osSplit
  have h1 : (head ++ '/' :: tail).reverse = tail.reverse ++ '/' :: head.reverse := by simp
  have h2 : (tail.reverse ++ '/' :: head.reverse).takeWhile (· ≠ '/') = tail.reverse := by
    rw [List.takeWhile_append_of_pos]
    · simp
    · intro c hc
      simp only [ne_eq, decide_eq_true_eq]
      rintro rfl
      exact ht (by simpa using hc)
  have h3 : (tail.reverse ++ '/' :: head.reverse).dropWhile (· ≠ '/') = '/' :: head.reverse := by
    rw [List.dropWhile_append_of_pos]
    · simp
    · intro c hc
      simp only [ne_eq, decide_eq_true_eq]
      rintro rfl
      exact ht (by simpa using hc)
  rw [h1, h2, h3]
  simp only [List.reverse_cons, List.reverse_reverse, List.all_append]
  by_cases h : head.all (· = '/') = true
  · simp [h]
  · simp [h]

theorem rstrip_slash {s : List Char} : rstrip (s ++ ['/']) = rstrip s := by
  unfold rstrip; simp

theorem rstrip_id {s : List Char} (h : s.getLast? ≠ some '/') : rstrip s = s := by
  unfold rstrip
  rcases List.eq_nil_or_concat s with rfl | ⟨t, c, rfl⟩
  · rfl
  · have : c ≠ '/' := by simpa using h
    simp [this]

theorem osSplit_plain {s : List Char} (h : '/' ∉ s) : osSplit s = ([], s) := by
  unfold osSplit
  have hall : ∀ c ∈ s.reverse, decide (c ≠ '/') = true := by
    intro c hc
    simp only [ne_eq, decide_eq_true_eq]
    rintro rfl
    exact h (by simpa using hc)
  have h1 : s.reverse.takeWhile (· ≠ '/') = s.reverse := by
    have := List.takeWhile_append_of_pos (l₁ := s.reverse) (l₂ := []) hall
    simpa using this
  have h2 : s.reverse.dropWhile (· ≠ '/') = [] := by
    have := List.dropWhile_append_of_pos (l₁ := s.reverse) (l₂ := []) hall
    simpa using this
  rw [h1, h2]; simp

/-- **C57**, partial: a path `folder/prefix` is split there (at its last slash); `folder/` and, if it has no slash,
`folder` have the default prefix. -/
theorem C57_split_partial (abs : List Char → List Char) (dflt : List Char) {folder prefix_ : List Char} (hp : '/' ∉ prefix_)
    (hf : folder ≠ []) (hl : folder.getLast? ≠ some '/') :
    processOutDir abs dflt (folder ++ '/' :: prefix_) = (abs folder, if prefix_ = [] then dflt else prefix_) ∧
    ('/' ∉ folder → processOutDir abs dflt folder = (abs folder, dflt)) := by
  have hall : folder.all (· = '/') = false := by
    rcases List.eq_nil_or_concat folder with rfl | ⟨t, c, rfl⟩
    · exact absurd rfl hf
    · have : c ≠ '/' := by simpa using hl
      simp [this]
  constructor
  · unfold processOutDir
    dsimp only
    rw [osSplit_join hp, hall]
    simp only [Bool.false_eq_true, if_false, rstrip_slash, rstrip_id hl, if_neg hf]
  · intro hs
    unfold processOutDir
    dsimp only
    rw [osSplit_plain hs]
    simp

example : processOutDir id ['n', 's'] ['a', '/', 'b', '/', 'c'] = (['a', '/', 'b'], ['c']) :=
  (C57_split_partial id ['n', 's'] (folder := ['a', '/', 'b']) (prefix_ := ['c']) (by decide) (by decide) (by decide)).1

/-- **C57**: different folders or prefixes give different locations, if the prefixes given are not the default one, and
`abspath` tells the folders apart. -/
theorem C57_injective_partial (abs : List Char → List Char) (dflt : List Char) {f1 p1 f2 p2 : List Char} (hp1 : '/' ∉ p1)
    (hp2 : '/' ∉ p2) (h1 : p1 ≠ []) (h2 : p2 ≠ []) (hf1 : f1 ≠ []) (hf2 : f2 ≠ []) (hl1 : f1.getLast? ≠ some '/')
    (hl2 : f2.getLast? ≠ some '/') (habs : abs f1 = abs f2 → f1 = f2)
    (h : processOutDir abs dflt (f1 ++ '/' :: p1) = processOutDir abs dflt (f2 ++ '/' :: p2)) :
    f1 ++ '/' :: p1 = f2 ++ '/' :: p2 := by
  rw [(C57_split_partial abs dflt hp1 hf1 hl1).1, (C57_split_partial abs dflt hp2 hf2 hl2).1, if_neg h1, if_neg h2,
    Prod.mk.injEq] at h
  rw [habs h.1, h.2]

example : processOutDir id ['n', 's'] ['a', '/', 'c'] ≠ processOutDir id ['n', 's'] ['b', '/', 'c'] := fun h =>
  absurd (C57_injective_partial id ['n', 's'] (f1 := ['a']) (p1 := ['c']) (f2 := ['b']) (p2 := ['c']) (by decide) (by decide) (by decide) (by decide)
    (by decide) (by decide) (by decide) (by decide) id h) (by decide)

/-- **C57** is false in general: a folder, the folder with a slash, and the folder with the default prefix are the same
location. -/
theorem C57_collision_counterexample (abs : List Char → List Char) :
    processOutDir abs ['n', 's'] ['f'] = (abs ['f'], ['n', 's']) ∧
    processOutDir abs ['n', 's'] ['f', '/'] = (abs ['f'], ['n', 's']) ∧
    processOutDir abs ['n', 's'] ['f', '/', 'n', 's'] = (abs ['f'], ['n', 's']) := by
  refine ⟨?_, ?_, ?_⟩ <;> simp [processOutDir, osSplit, rstrip]

example : processOutDir id ['n', 's'] ['/', 'a', '/', '/', 'b'] = (['/', 'a'], ['b']) := by decide

end OutDir

end GPry.Tools
