import Verif.Predict
import Verif.GpProps
import Verif.KernelsProps
import Verif.ToolsProps

set_option linter.all false

namespace GPry.Predict

open Gp

variable {d n : ℕ}

/-! ## Lists and masks -/

theorem maskSet_map {A B : Type*} (v : B) (p : A → Bool) (h : A → B) : ∀ X : List A,
    maskSet v (X.map p) (X.map h) = X.map fun x => if p x then v else h x
  | [] => rfl
  | x :: X => by
    rw [List.map_cons, List.map_cons, List.map_cons, maskSet, maskSet_map v p h X]

theorem scatter_maskGet {A B : Type*} (f : A → Bool) (g h : A → B) : ∀ X : List A,
    scatter (X.map f) ((maskGet (X.map f) X).map g) (X.map h) = X.map fun x => if f x then g x else h x
  | [] => rfl
  | x :: X => by
    simp only [List.map_cons]
    cases hx : f x with
    | true =>
      rw [maskGet, List.map_cons, scatter, scatter_maskGet f g h X]; simp
    | false =>
      rw [maskGet, scatter, scatter_maskGet f g h X]; simp

/-- Whether the classifier says finite. -/
def Svm.flag {P : Type*} (c : Svm P) (x : P) : Bool := c.allFinite || (c.atLeastOneFinite && c.decide x)

theorem Svm.predict_eq {P : Type*} {c : Svm P} {X : List P} {l : List Bool} (h : c.predict X = .ok l) :
    c.trained = true ∧ l = X.map c.flag := by
  unfold Svm.predict at h
  split_ifs at h with h1 h2 h3
  · cases h
    exact ⟨by simpa using h1, List.map_congr_left fun x _ => by simp [Svm.flag, h2]⟩
  · cases h
    exact ⟨by simpa using h1, List.map_congr_left fun x _ => by simp at h3; simp [Svm.flag, h2, h3]⟩
  · cases h
    refine ⟨by simpa using h1, ?_⟩
    apply List.map_congr_left
    intro x _
    simp at h3
    simp [Svm.flag, h2, h3]

theorem Svm.predict_trained {P : Type*} {c : Svm P} (h : c.trained = true) (X : List P) : c.predict X = .ok (X.map c.flag) := by
  have : ∃ l, c.predict X = .ok l := by
    unfold Svm.predict
    simp only [h, Bool.not_true, Bool.false_eq_true, if_false]
    split_ifs <;> exact ⟨_, rfl⟩
  obtain ⟨l, hl⟩ := this
  rw [hl, (Svm.predict_eq hl).2]

/-! ## Extrema -/

theorem foldl_max_spec : ∀ (l : List ℝ) (a : ℝ), (l.foldl max a = a ∨ l.foldl max a ∈ l) ∧ a ≤ l.foldl max a ∧ ∀ v ∈ l, v ≤ l.foldl max a
  | [], a => by simp
  | b :: l, a => by
    obtain ⟨h1, h2, h3⟩ := foldl_max_spec l (max a b)
    rw [List.foldl_cons]
    refine ⟨?_, (le_max_left a b).trans h2, ?_⟩
    · rcases h1 with h1 | h1
      · rcases max_choice a b with hm | hm
        · left; rw [h1, hm]
        · right; rw [h1, hm]; exact List.mem_cons_self
      · right; exact List.mem_cons_of_mem _ h1
    · intro v hv
      rcases List.mem_cons.1 hv with rfl | hv
      · exact (le_max_right a v).trans h2
      · exact h3 v hv

theorem foldl_min_spec : ∀ (l : List ℝ) (a : ℝ), (l.foldl min a = a ∨ l.foldl min a ∈ l) ∧ l.foldl min a ≤ a ∧ ∀ v ∈ l, l.foldl min a ≤ v
  | [], a => by simp
  | b :: l, a => by
    obtain ⟨h1, h2, h3⟩ := foldl_min_spec l (min a b)
    rw [List.foldl_cons]
    refine ⟨?_, h2.trans (min_le_left a b), ?_⟩
    · rcases h1 with h1 | h1
      · rcases min_choice a b with hm | hm
        · left; rw [h1, hm]
        · right; rw [h1, hm]; exact List.mem_cons_self
      · right; exact List.mem_cons_of_mem _ h1
    · intro v hv
      rcases List.mem_cons.1 hv with rfl | hv
      · exact h2.trans (min_le_right a v)
      · exact h3 v hv

theorem maxOf_spec {l : List ℝ} {m : ℝ} (h : Tools.maxOf l = some m) : m ∈ l ∧ ∀ v ∈ l, v ≤ m := by
  cases l with
  | nil => simp [Tools.maxOf] at h
  | cons a l =>
    simp only [Tools.maxOf, Option.some.injEq] at h
    subst h
    obtain ⟨h1, h2, h3⟩ := foldl_max_spec l a
    refine ⟨?_, ?_⟩
    · rcases h1 with h1 | h1
      · rw [h1]; exact List.mem_cons_self
      · exact List.mem_cons_of_mem _ h1
    · intro v hv
      rcases List.mem_cons.1 hv with rfl | hv
      · exact h2
      · exact h3 v hv

theorem minOf_spec {l : List ℝ} {m : ℝ} (h : Tools.minOf l = some m) : m ∈ l ∧ ∀ v ∈ l, m ≤ v := by
  cases l with
  | nil => simp [Tools.minOf] at h
  | cons a l =>
    simp only [Tools.minOf, Option.some.injEq] at h
    subst h
    obtain ⟨h1, h2, h3⟩ := foldl_min_spec l a
    refine ⟨?_, ?_⟩
    · rcases h1 with h1 | h1
      · rw [h1]; exact List.mem_cons_self
      · exact List.mem_cons_of_mem _ h1
    · intro v hv
      rcases List.mem_cons.1 hv with rfl | hv
      · exact h2
      · exact h3 v hv

/-- What the ceiling is, in terms of the training values. -/
structure IsCeiling (R : Raw (Fin n) (Fin d → ℝ)) (c t : ℝ) : Prop where
  eq : ∃ i j, (∀ l, R.y l ≤ R.y i) ∧ (∀ l, R.y j ≤ R.y l) ∧ t = R.y i + (c - 1) * (R.y i - R.y j)

theorem ceiling_spec {R : Raw (Fin n) (Fin d → ℝ)} {c t : ℝ} (h : ceiling c (List.ofFn R.y) = .ok t) : IsCeiling R c t := by
  unfold ceiling at h
  split at h
  · rename_i hi lo h1 h2
    cases h
    obtain ⟨ha, hb⟩ := maxOf_spec h1
    obtain ⟨hc, hd⟩ := minOf_spec h2
    rw [List.mem_ofFn] at ha hc
    obtain ⟨i, rfl⟩ := ha
    obtain ⟨j, rfl⟩ := hc
    exact ⟨i, j, fun l => hb _ (List.mem_ofFn.2 ⟨l, rfl⟩), fun l => hd _ (List.mem_ofFn.2 ⟨l, rfl⟩), by ring⟩
  · simp at h

theorem ceiling_ok (R : Raw (Fin (n + 1)) (Fin d → ℝ)) (c : ℝ) : ∃ t, ceiling c (List.ofFn R.y) = .ok t := by
  rw [List.ofFn_succ]
  exact ⟨_, rfl⟩

/-- The value of the mean of a point that is not masked, after clipping. -/
structure IsCapped (st : St d n) (φ : ℝ → ℝ) : Prop where
  none : st.clip = none → ∀ v, φ v = v
  some : ∀ c, st.clip = some c → ∃ t, IsCeiling st.R c t ∧ ∀ v, φ v = min v t

theorem means_eq {st : St d n} {X : List (Fin d → ℝ)} {y : List ℝ} (h : st.means X = .ok y) :
    ∃ φ, IsCapped st φ ∧ y = X.map fun x => φ (st.M.mean st.chol st.R x) := by
  unfold St.means at h
  dsimp only at h
  split at h
  · rename_i hc
    cases h
    exact ⟨id, ⟨fun _ _ => rfl, fun c hc' => by rw [hc] at hc'; cases hc'⟩, rfl⟩
  · rename_i c hc
    split at h
    · rename_i t ht
      cases h
      refine ⟨fun v => min v t, ⟨fun hn => ?_, fun c' hc' => ?_⟩, ?_⟩
      · rw [hc] at hn; cases hn
      · rw [hc] at hc'; cases hc'
        exact ⟨t, ceiling_spec ht, fun _ => rfl⟩
      · rw [List.map_map]; rfl
    · simp at h

/-! ## Specification -/

/-- The classifier says infinite. -/
def St.Infinite (st : St d n) (x : Fin d → ℝ) : Prop :=
  ∃ c, st.svm = some c ∧ c.allFinite = false ∧ (c.atLeastOneFinite = false ∨ c.decide (st.M.trX x) = false)

/-- The trust region is imposed and the point is outside of it. -/
def St.Outside (st : St d n) (ign : Bool) (x : Fin d → ℝ) : Prop :=
  ign = false ∧ ∃ b, st.trust = some b ∧ ∃ j, x j < (b j).1 ∨ (b j).2 < x j

theorem outside_iff (b : Fin d → ℝ × ℝ) (x : Fin d → ℝ) : outside b x = true ↔ ∃ j, x j < (b j).1 ∨ (b j).2 < x j := by
  unfold outside Tools.isInBounds
  rw [Bool.not_eq_true', ← Bool.not_eq_true, List.all_eq_true]
  push Not
  constructor
  · rintro ⟨v, hv, h⟩
    rw [List.mem_iff_getElem] at hv
    obtain ⟨j, hj, rfl⟩ := hv
    simp only [List.length_zipWith, List.length_ofFn, min_self] at hj
    refine ⟨⟨j, hj⟩, ?_⟩
    simp only [List.getElem_zipWith, List.getElem_ofFn, id, Ext.ge, Ext.le, ne_eq, Bool.and_eq_true, decide_eq_true_eq] at h
    by_contra hcon
    push Not at hcon
    exact h hcon
  · rintro ⟨j, hj⟩
    refine ⟨_, List.mem_iff_getElem.2 ⟨j, by simp, rfl⟩, ?_⟩
    simp only [List.getElem_zipWith, List.getElem_ofFn, id, Ext.ge, Ext.le, ne_eq, Bool.and_eq_true, decide_eq_true_eq]
    rintro ⟨h1, h2⟩
    rcases hj with hj | hj
    · exact absurd h1 (not_le.2 hj)
    · exact absurd h2 (not_le.2 hj)

theorem infinite_iff {st : St d n} {c : Svm (Fin d → ℝ)} (h : st.svm = some c) (x : Fin d → ℝ) :
    st.Infinite x ↔ c.flag (st.M.trX x) = false := by
  unfold St.Infinite Svm.flag
  rw [Bool.or_eq_false_iff, Bool.and_eq_false_iff]
  constructor
  · rintro ⟨c', hc', h1⟩
    rw [h] at hc'; cases hc'; exact h1
  · intro h1; exact ⟨c, h, h1⟩

open Classical in
/-- Every point on its own. -/
theorem predict_eq {st : St d n} (hfit : st.fitted = true) {X : List (Fin d → ℝ)} {ign : Bool} {ms : List (Ext ℝ)} {ss : List ℝ}
    (h : st.predict X ign = .ok (ms, ss)) :
    (ss = X.map fun x => if st.Infinite x then 0 else st.M.std st.chol st.R x) ∧
    ((∀ x ∈ X, st.Infinite x) ∧ ms = X.map (fun _ => st.minf) ∨
      ∃ φ, IsCapped st φ ∧ ms = X.map fun x => if st.Infinite x ∨ st.Outside ign x then st.minf
        else .fin (φ (st.M.mean st.chol st.R x))) := by
  have htm : ∀ g : (Fin d → ℝ) → Ext ℝ, st.trustMask X ign (X.map g) = X.map fun x => if st.Outside ign x then st.minf else g x := by
    intro g
    unfold St.trustMask
    cases ign with
    | true =>
      simp only [if_true]
      apply List.map_congr_left
      intro x _
      rw [if_neg]
      rintro ⟨hh, _⟩; cases hh
    | false =>
      simp only [Bool.false_eq_true, if_false]
      cases ht : st.trust with
      | none =>
        apply List.map_congr_left
        intro x _
        rw [if_neg]
        rintro ⟨_, b, hb, _⟩; rw [ht] at hb; cases hb
      | some b =>
        simp only
        rw [maskSet_map]
        apply List.map_congr_left
        intro x _
        have : outside b x = true ↔ st.Outside false x := by
          rw [outside_iff]
          constructor
          · intro hj; exact ⟨rfl, b, ht, hj⟩
          · rintro ⟨_, b', hb', hj⟩; rw [ht] at hb'; cases hb'; exact hj
        by_cases ho : st.Outside false x
        · rw [if_pos ho, if_pos (this.2 ho)]
        · rw [if_neg ho, if_neg (fun hh => ho (this.1 hh))]
  unfold St.predict at h
  dsimp only at h
  rw [hfit] at h
  simp only [Bool.not_true, Bool.false_eq_true, if_false] at h
  cases hsvm : st.svm with
  | none =>
    rw [hsvm] at h
    have hni : ∀ x, ¬ st.Infinite x := by rintro x ⟨c, hc, _⟩; rw [hsvm] at hc; cases hc
    simp only at h
    split at h
    · simp at h
    · rename_i y hy
      obtain ⟨φ, hφ, rfl⟩ := means_eq hy
      rw [Except.ok.injEq, Prod.mk.injEq] at h
      obtain ⟨h1, h2⟩ := h
      rw [List.map_map] at h1
      have h3 := htm (Ext.fin ∘ fun x => φ (st.M.mean st.chol st.R x))
      refine ⟨?_, Or.inr ⟨φ, hφ, ?_⟩⟩
      · rw [← h2]; apply List.map_congr_left; intro x _; rw [if_neg (hni x)]
      · rw [← h1, h3]
        apply List.map_congr_left
        intro x _
        by_cases ho : st.Outside ign x
        · rw [if_pos ho, if_pos (Or.inr ho)]
        · rw [if_neg ho, if_neg (by rintro (hh | hh); exacts [hni x hh, ho hh])]; rfl
  | some c =>
    rw [hsvm] at h
    simp only at h
    cases hp : c.predict (X.map st.M.trX) with
    | error e => rw [hp] at h; simp at h
    | ok finite =>
      rw [hp] at h
      simp only at h
      obtain ⟨_, hfin⟩ := Svm.predict_eq hp
      rw [List.map_map] at hfin
      have hinf : ∀ x, st.Infinite x ↔ (c.flag ∘ st.M.trX) x = false := fun x => infinite_iff hsvm x
      by_cases hall : finite.all not = true
      · rw [if_pos hall, Except.ok.injEq, Prod.mk.injEq] at h
        obtain ⟨h1, h2⟩ := h
        have hx : ∀ x ∈ X, st.Infinite x := by
          intro x hx
          rw [hinf]
          rw [List.all_eq_true] at hall
          have := hall ((c.flag ∘ st.M.trX) x) (by rw [hfin]; exact List.mem_map_of_mem hx)
          simpa using this
        refine ⟨?_, Or.inl ⟨hx, h1.symm⟩⟩
        rw [← h2]; apply List.map_congr_left; intro x hx'; rw [if_pos (hx x hx')]
      · rw [if_neg hall] at h
        split at h
        · simp at h
        · rename_i y hy
          obtain ⟨φ, hφ, rfl⟩ := means_eq hy
          rw [Except.ok.injEq, Prod.mk.injEq] at h
          obtain ⟨h1, h2⟩ := h
          rw [hfin, scatter_maskGet] at h2
          rw [hfin, List.map_map, List.map_map, maskSet_map, scatter_maskGet] at h1
          have h3 := htm (fun x => if (c.flag ∘ st.M.trX) x then (Ext.fin ∘ fun x => φ (st.M.mean st.chol st.R x)) x
            else if (not ∘ (c.flag ∘ st.M.trX)) x then st.minf else Ext.fin 1)
          refine ⟨?_, Or.inr ⟨φ, hφ, ?_⟩⟩
          · rw [← h2]; apply List.map_congr_left; intro x _
            cases hf : (c.flag ∘ st.M.trX) x with
            | true => rw [if_neg (c := st.Infinite x) (by rw [hinf, hf]; simp), if_pos rfl]
            | false => rw [if_pos (c := st.Infinite x) ((hinf x).2 hf), if_neg (by simp)]
          · rw [← h1, h3]
            apply List.map_congr_left
            intro x _
            by_cases ho : st.Outside ign x
            · rw [if_pos ho, if_pos (Or.inr ho)]
            · rw [if_neg ho]
              cases hf : (c.flag ∘ st.M.trX) x with
              | true =>
                rw [if_neg (c := st.Infinite x ∨ st.Outside ign x) (by
                  rintro (hh | hh)
                  · rw [hinf, hf] at hh; cases hh
                  · exact ho hh), if_pos rfl]; rfl
              | false =>
                rw [if_pos (c := st.Infinite x ∨ st.Outside ign x) (Or.inl ((hinf x).2 hf)), if_neg (by simp),
                  if_pos (by rw [Function.comp_apply, hf]; rfl)]

/-! ## C14 -/

/-- **C14**: for each of the points, the mean is minus infinity exactly if the classifier says infinite, or the trust region
is imposed and the point is outside of it. Otherwise it is the mean of the Gaussian process, or the ceiling
`ymax + (clip_factor - 1) * (ymax - ymin)` if that is lower. Standard deviations are not negative, zero where the classifier
says infinite, and those of the Gaussian process elsewhere. -/
theorem C14_predict (st : St d n) (hfit : st.fitted = true) (hminf : st.minf = .negInf) (hs : 0 ≤ st.M.s)
    (X : List (Fin d → ℝ)) (ign : Bool) (ms : List (Ext ℝ)) (ss : List ℝ) (h : st.predict X ign = .ok (ms, ss)) :
    ms.length = X.length ∧ ss.length = X.length ∧
    ∀ (i : ℕ) (hi : i < X.length) (him : i < ms.length) (his : i < ss.length),
      (ms[i] = .negInf ↔ st.Infinite X[i] ∨ st.Outside ign X[i]) ∧
      (ms[i] ≠ .negInf → ∃ v, ms[i] = .fin v ∧
        (st.clip = none → v = st.M.mean st.chol st.R X[i]) ∧
        ∀ c, st.clip = some c → ∃ t, IsCeiling st.R c t ∧ v = min (st.M.mean st.chol st.R X[i]) t) ∧
      0 ≤ ss[i] ∧ (st.Infinite X[i] → ss[i] = 0) ∧ (¬ st.Infinite X[i] → ss[i] = st.M.std st.chol st.R X[i]) := by
  classical
  obtain ⟨hss, hms⟩ := predict_eq hfit h
  refine ⟨?_, by rw [hss, List.length_map], ?_⟩
  · rcases hms with ⟨_, hms⟩ | ⟨φ, _, hms⟩ <;> rw [hms, List.length_map]
  intro i hi him his
  have hsi : ss[i] = if st.Infinite X[i] then 0 else st.M.std st.chol st.R X[i] := by
    simp only [hss, List.getElem_map]
  have hstd : 0 ≤ st.M.std st.chol st.R X[i] := by
    unfold Model.std Data.std
    exact mul_nonneg (Real.sqrt_nonneg _) hs
  refine ⟨?_, ?_, ?_, fun hI => by rw [hsi, if_pos hI], fun hI => by rw [hsi, if_neg hI]⟩
  · rcases hms with ⟨hall, hms⟩ | ⟨φ, hφ, hms⟩
    · simp only [hms, List.getElem_map, hminf, true_iff]
      exact Or.inl (hall _ (List.getElem_mem hi))
    · simp only [hms, List.getElem_map, hminf]
      split_ifs with hc <;> simp [hc]
  · intro hne
    rcases hms with ⟨hall, hms⟩ | ⟨φ, hφ, hms⟩
    · simp only [hms, List.getElem_map, hminf] at hne
      exact absurd rfl hne
    · simp only [hms, List.getElem_map, hminf] at hne ⊢
      split_ifs at hne ⊢ with hc
      · exact absurd rfl hne
      · refine ⟨_, rfl, fun hn => hφ.none hn _, fun c hc => ?_⟩
        obtain ⟨t, ht, hv⟩ := hφ.some c hc
        exact ⟨t, ht, hv _⟩
  · rw [hsi]
    split_ifs
    · exact le_rfl
    · exact hstd

/-- **C14**: the ceiling is not below any of the training values if the clip factor is at least one. -/
theorem C14_ceiling {R : Raw (Fin n) (Fin d → ℝ)} {c t : ℝ} (h : IsCeiling R c t) (hc : 1 ≤ c) (l : Fin n) : R.y l ≤ t := by
  obtain ⟨i, j, h1, h2, rfl⟩ := h.eq
  have := mul_nonneg (sub_nonneg.2 hc) (sub_nonneg.2 (h1 j))
  linarith [h1 l]

/-- **C14**: no exception, with at least one training point and a trained classifier (or none). -/
theorem C14_returns (st : St d (n + 1)) (hc : ∀ c, st.svm = some c → c.trained = true) (X : List (Fin d → ℝ)) (ign : Bool) :
    ∃ ms ss, st.predict X ign = .ok (ms, ss) := by
  have hm : ∀ X, ∃ y, st.means X = .ok y := by
    intro X
    unfold St.means
    dsimp only
    split
    · exact ⟨_, rfl⟩
    · rename_i c _
      obtain ⟨t, ht⟩ := ceiling_ok st.R c
      rw [ht]; exact ⟨_, rfl⟩
  unfold St.predict
  dsimp only
  cases hf : st.fitted with
  | false => exact ⟨_, _, rfl⟩
  | true =>
    simp only [Bool.not_true, Bool.false_eq_true, if_false]
    cases hsvm : st.svm with
    | none =>
      obtain ⟨y, hy⟩ := hm X
      simp only [hy]; exact ⟨_, _, rfl⟩
    | some c =>
      simp only [Svm.predict_trained (hc c hsvm)]
      split_ifs
      · exact ⟨_, _, rfl⟩
      · obtain ⟨y, hy⟩ := hm (maskGet ((X.map st.M.trX).map c.flag) X)
        simp only [hy]; exact ⟨_, _, rfl⟩

/-- **C14**: points do not influence each other's predictions: predicting some points together is the same as predicting
each of them on its own. -/
theorem C14_batch (st : St d (n + 1)) (hfit : st.fitted = true) (hc : ∀ c, st.svm = some c → c.trained = true)
    (X : List (Fin d → ℝ)) (ign : Bool) (ms : List (Ext ℝ)) (ss : List ℝ) (h : st.predict X ign = .ok (ms, ss)) (i : ℕ)
    (hi : i < X.length) : ∃ (him : i < ms.length) (his : i < ss.length), st.predict [X[i]] ign = .ok ([ms[i]], [ss[i]]) := by
  classical
  obtain ⟨ms', ss', h'⟩ := C14_returns st hc [X[i]] ign
  obtain ⟨a, b⟩ := predict_eq hfit h
  obtain ⟨a', b'⟩ := predict_eq hfit h'
  have hφ : ∀ φ φ', IsCapped st φ → IsCapped st φ' → φ = φ' := by
    intro φ φ' h1 h2
    funext v
    cases hcl : st.clip with
    | none => rw [h1.none hcl, h2.none hcl]
    | some c =>
      obtain ⟨t, ht, e⟩ := h1.some c hcl
      obtain ⟨t', ht', e'⟩ := h2.some c hcl
      obtain ⟨i, j, hi, hj, rfl⟩ := ht.eq
      obtain ⟨i', j', hi', hj', rfl⟩ := ht'.eq
      have e1 : st.R.y i = st.R.y i' := le_antisymm (hi' i) (hi i')
      have e2 : st.R.y j = st.R.y j' := le_antisymm (hj j') (hj' j)
      rw [e, e', e1, e2]
  have hlm : i < ms.length := by
    rcases b with ⟨_, b⟩ | ⟨φ, _, b⟩ <;> rw [b, List.length_map] <;> exact hi
  have hls : i < ss.length := by rw [a, List.length_map]; exact hi
  refine ⟨hlm, hls, ?_⟩
  rw [h']
  congr 1
  rw [Prod.mk.injEq]
  constructor
  · rcases b with ⟨hall, b⟩ | ⟨φ, h1, b⟩
    · rcases b' with ⟨hall', b'⟩ | ⟨φ', h1', b'⟩
      · simp [b, b']
      · have := hall _ (List.getElem_mem hi)
        simp [b, b', this]
    · rcases b' with ⟨hall', b'⟩ | ⟨φ', h1', b'⟩
      · have := hall' X[i] (by simp)
        simp [b, b', this]
      · rw [hφ φ' φ h1' h1] at b'
        simp [b, b']
  · simp [a, a']

/-! ## C15 -/

/-- **C15**: `predict_std` returns the standard deviations that `predict` returns, fitted or not, with or without classifier,
whatever the trust region. -/
theorem C15_predict_std (st : St d n) (X : List (Fin d → ℝ)) (ign : Bool) (ms : List (Ext ℝ)) (ss : List ℝ)
    (h : st.predict X ign = .ok (ms, ss)) : st.predictStd X = .ok ss := by
  unfold St.predict at h
  unfold St.predictStd
  dsimp only at h
  cases hf : st.fitted with
  | false =>
    rw [hf] at h
    simp only [Bool.not_false, if_true, Except.ok.injEq, Prod.mk.injEq] at h ⊢
    exact h.2
  | true =>
    rw [hf] at h
    simp only [Bool.not_true, Bool.false_eq_true, if_false] at h ⊢
    cases hsvm : st.svm with
    | none =>
      rw [hsvm] at h
      simp only at h ⊢
      split at h
      · simp at h
      · rw [Except.ok.injEq, Prod.mk.injEq] at h
        rw [h.2]
    | some c =>
      rw [hsvm] at h
      simp only at h ⊢
      cases hp : c.predict (X.map st.M.trX) with
      | error e => rw [hp] at h; simp at h
      | ok finite =>
        rw [hp] at h
        simp only at h ⊢
        split_ifs at h ⊢
        · rw [Except.ok.injEq, Prod.mk.injEq] at h
          rw [h.2]
        · split at h
          · simp at h
          · rw [Except.ok.injEq, Prod.mk.injEq] at h
            rw [h.2]

/-- **C15**: both raise the same exception if the classifier is not trained. -/
theorem C15_untrained (st : St d n) (hfit : st.fitted = true) (c : Svm (Fin d → ℝ)) (hc : st.svm = some c)
    (ht : c.trained = false) (X : List (Fin d → ℝ)) (ign : Bool) :
    st.predict X ign = .error .valueError ∧ st.predictStd X = .error .valueError := by
  constructor <;> simp [St.predict, St.predictStd, hfit, hc, Svm.predict, ht]

end GPry.Predict
