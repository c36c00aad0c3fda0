import Verif.GprEx
import Verif.ShiftProps

set_option linter.all false

/-!
# The order of the training points (gpry/gpr.py:577-753): C157

Two regressors that were given the same points, with their values and noise levels, in another order within each call of `append_to_data`.
-/

namespace GPry.DataOrder

open GPry Gpr

variable {K : Type*} [Field K] [LinearOrder K] [IsStrictOrderedRing K]
variable {P PX Θ : Type*}

/-! ## Maxima, order statistics, masks -/

theorem pyMax2_negInf (x : Ext K) (h : x ≠ .nan) : Ext.pyMax2 .negInf x = x := by
  cases x <;> simp_all [Ext.pyMax2, Ext.gt, Ext.lt]

theorem npMax2_negInf (x : Ext K) : Ext.npMax2 .negInf x = x := by
  cases x <;> simp [Ext.npMax2, Ext.lt, Ext.isNan]

theorem pyMax2_comm (x y z : Ext K) (hx : x ≠ .nan) (hy : y ≠ .nan) : Ext.pyMax2 (Ext.pyMax2 z x) y = Ext.pyMax2 (Ext.pyMax2 z y) x := by
  unfold Ext.pyMax2 Ext.gt
  cases x <;> cases y <;> cases z <;> simp_all [Ext.lt]
  all_goals split_ifs <;> simp_all [Ext.lt]
  all_goals first | done | order | (split_ifs <;> simp_all <;> order)

theorem pyMax_perm {l l' : List (Ext K)} (h : l.Perm l') (hn : ∀ y ∈ l, y ≠ .nan) : Ext.pyMax l = Ext.pyMax l' := by
  have key : ∀ l : List (Ext K), (∀ y ∈ l, y ≠ .nan) → l ≠ [] → Ext.pyMax l = some (l.foldl Ext.pyMax2 .negInf) := by
    intro l hl hne
    cases l with
    | nil => exact absurd rfl hne
    | cons a l => rw [List.foldl_cons, pyMax2_negInf a (hl a (by simp))]; rfl
  by_cases hl : l = []
  · subst hl; rw [List.nil_perm.1 h]
  · have hl' : l' ≠ [] := fun e => hl (by subst e; exact List.perm_nil.1 h)
    rw [key l hn hl, key l' (fun y hy => hn y (h.mem_iff.2 hy)) hl']
    rw [h.foldl_eq' (fun x hx y hy z => pyMax2_comm x y z (hn x hx) (hn y hy))]

theorem npMax_perm {l l' : List (Ext K)} (h : l.Perm l') (hn : ∀ y ∈ l, y ≠ .nan) : Ext.npMax l = Ext.npMax l' := by
  have e : ∀ l : List (Ext K), (∀ y ∈ l, y ≠ .nan) → Ext.npMax l = Ext.pyMax l := by
    intro l hl
    cases l with
    | nil => rfl
    | cons a l =>
      simp only [Ext.npMax, Ext.pyMax, Option.some.injEq]
      induction l generalizing a with
      | nil => rfl
      | cons b l ih =>
        have ha := hl a (by simp)
        have hb := hl b (by simp)
        have he : Ext.npMax2 a b = Ext.pyMax2 a b := by
          cases a <;> cases b <;> simp_all [Ext.npMax2, Ext.pyMax2, Ext.isNan, Ext.gt, Ext.lt]
        rw [List.foldl_cons, List.foldl_cons, he]
        refine ih _ (fun y hy => ?_)
        rcases List.mem_cons.1 hy with rfl | hy
        · unfold Ext.pyMax2; split_ifs <;> assumption
        · exact hl y (by simp [hy])
  rw [e l hn, e l' (fun y hy => hn y (h.mem_iff.2 hy)), pyMax_perm h hn]

theorem sort_eq {l l' : List (Ext K)} (h : l.Perm l') : Ext.sort l = Ext.sort l' := by
  refine List.Perm.eq_of_pairwise (le := fun a b : Ext K => Ext.sortLe a b = true) ?_ (sort_sorted l) (sort_sorted l') (((sort_perm l).trans h).trans (sort_perm l').symm)
  intro a b _ _ h1 h2
  cases a <;> cases b <;> simp_all [Ext.sortLe, Ext.le]
  exact le_antisymm h1 h2

theorem diffThresholdKeepN_perm (eps : K) {l l' : List (Ext K)} (h : l.Perm l') (n : ℕ) (ref : Ext K) :
    diffThresholdKeepN eps l n ref = diffThresholdKeepN eps l' n ref := by
  unfold diffThresholdKeepN
  rw [sort_eq h]

theorem maskL_map {α β : Type*} (f : α → Bool) (g : α → β) : ∀ A : List α, maskL (A.map f) (A.map g) = (A.filter f).map g
  | [] => rfl
  | a :: A => by
    have ih := maskL_map f g A
    cases h : f a <;> simp [maskL, h, ih, List.filter]

theorem mapE_ok {α β : Type*} {f : α → Except Err β} {t : α → β} (h : ∀ a, f a = .ok (t a)) : ∀ l, mapE f l = .ok (l.map t)
  | [] => rfl
  | a :: l => by simp [mapE, h, mapE_ok h l]

theorem mapE_error {α β : Type*} {f : α → Except Err β} {e : Err} (h : ∀ a, f a = .error e) : ∀ l, mapE f l = if l = [] then .ok [] else .error e
  | [] => rfl
  | a :: l => by simp [mapE, h]

/-- Element-wise functions of a preprocessor: either all succeed or all raise the same. -/
def Uniform {α β : Type*} (f : α → Except Err β) : Prop := (∃ t : α → β, ∀ a, f a = .ok (t a)) ∨ ∃ e, ∀ a, f a = .error e

theorem uniform_transform (py : PreY K) : Uniform py.transform := by
  cases py
  · exact .inr ⟨_, fun _ => rfl⟩
  · exact .inl ⟨_, fun _ => rfl⟩
  · exact .inl ⟨_, fun _ => rfl⟩

theorem uniform_scale (py : PreY K) : Uniform py.transformScale := by
  cases py
  · exact .inr ⟨_, fun _ => rfl⟩
  · exact .inl ⟨_, fun _ => rfl⟩
  · exact .inl ⟨_, fun _ => rfl⟩

/-- On the same rows in another order: the same exception, or the same values in the other order. -/
theorem mapE_rows {α β γ : Type*} [Inhabited γ] {f : β → Except Err γ} (hf : Uniform f) (g : α → β) {A A' : List α} (h : A.Perm A') :
    (∃ e, mapE f (A.map g) = .error e ∧ mapE f (A'.map g) = .error e) ∨
      ∃ t : α → γ, mapE f (A.map g) = .ok (A.map t) ∧ mapE f (A'.map g) = .ok (A'.map t) ∧ ∀ a ∈ A, f (g a) = .ok (t a) := by
  rcases hf with ⟨t, ht⟩ | ⟨e, he⟩
  · exact .inr ⟨t ∘ g, by simp [mapE_ok ht], by simp [mapE_ok ht], fun a _ => ht _⟩
  · by_cases hA : A = []
    · subst hA
      have := List.nil_perm.1 h
      subst this
      exact .inr ⟨fun _ => default, rfl, rfl, by simp⟩
    · have hA' : A' ≠ [] := fun e => hA (by subst e; exact List.perm_nil.1 h)
      exact .inl ⟨e, by rw [mapE_error he]; simp [hA], by rw [mapE_error he]; simp [hA']⟩

instance : Inhabited (Ext K) := ⟨.nan⟩

/-! ## Regressors with the same data in another order -/

/-- A point, its value and its noise level. -/
abbrev Row (P K : Type*) := P × Ext K × K

/-- Noise levels of two regressors whose data are the rows `A`, `A'`: one number, or one for each row. -/
def NoiseRel (A A' : List (Row P K)) : Bool → Noise K → Noise K → Prop
  | false, .scalar s, .scalar s' => s = s'
  | true, .array l, .array l' => l = A.map (·.2.2) ∧ l' = A'.map (·.2.2)
  | _, _, _ => False

/-- Classifiers fitted to the same values in another order. -/
structure SvmRel (s s' : Svm K) : Prop where
  rows : ∃ S S' : List (Ext K × Bool), S.Perm S' ∧ s.yTrain = S.map Prod.fst ∧ s.yFinite = S.map Prod.snd ∧ s'.yTrain = S'.map Prod.fst ∧
    s'.yFinite = S'.map Prod.snd
  one : s.atLeastOneFinite = s'.atLeastOneFinite
  all : s.allFinite = s'.allFinite
  thr : s.diffThreshold = s'.diffThreshold
  max : s.maxY = s'.maxY

/-- Factors computed from the same rows in another order. -/
def FacRel : Option (Factors P Θ K) → Option (Factors P Θ K) → Prop
  | none, none => True
  | some f, some f' => f.theta = f'.theta ∧ ∃ T T' : List (P × Ext K × Ext K), T.Perm T' ∧ f.xs = T.map (·.1) ∧ f.ys = T.map (·.2.1) ∧
      f.noiseVar = T.map (·.2.2) ∧ f'.xs = T'.map (·.1) ∧ f'.ys = T'.map (·.2.1) ∧ f'.noiseVar = T'.map (·.2.2)
  | _, _ => False

/-- Two regressors in the same state but for the order of the points: the same points with the same values and noise levels, the same training set, flags of
the classifier and transformed training set, and equal preprocessors, hyperparameters and counters. -/
structure Same (arr : Bool) (st st' : State P PX Θ K) : Prop where
  data : ∃ A A' : List (Row P K), A.Perm A' ∧ st.xAll = A.map (·.1) ∧ st.yAll = A.map (·.2.1) ∧ st'.xAll = A'.map (·.1) ∧ st'.yAll = A'.map (·.2.1) ∧
    NoiseRel A A' arr st.noise st'.noise
  train : ∃ T T' : List (P × Ext K), T.Perm T' ∧ st.xTrain = T.map (·.1) ∧ st.yTrain = T.map (·.2) ∧ st'.xTrain = T'.map (·.1) ∧ st'.yTrain = T'.map (·.2)
  train' : ∃ T T' : List (P × Ext K × Ext K), T.Perm T' ∧ st.xTrain' = T.map (·.1) ∧ st.yTrain' = T.map (·.2.1) ∧ st.noiseVar = T.map (·.2.2) ∧
    st'.xTrain' = T'.map (·.1) ∧ st'.yTrain' = T'.map (·.2.1) ∧ st'.noiseVar = T'.map (·.2.2)
  svm : SvmRel st.svm st'.svm
  factors : FacRel st.factors st'.factors
  px : st.px = st'.px
  py : st.py = st'.py
  theta : st.theta = st'.theta
  fitted : st.fitted = st'.fitted
  nLast : st.nLast = st'.nLast
  nLastFinite : st.nLastFinite = st'.nLastFinite
  newly : st.newly = st'.newly

/-- What is asked of the preprocessors, of the optimiser of the hyperparameters and of the Cholesky decomposition: their result does not depend on the order
of the rows that they are given (with a classifier, the targets given to the preprocessor contain no NaN). -/
structure Symm (cfg : Cfg P PX Θ K) : Prop where
  fitX : ∀ px (T T' : List (P × Ext K)), T.Perm T' → cfg.fitX px (T.map (·.1)) (T.map (·.2)) = cfg.fitX px (T'.map (·.1)) (T'.map (·.2))
  fitY : ∀ py (T T' : List (P × Ext K)), T.Perm T' → (cfg.useSvm = true → ∀ q ∈ T, q.2 ≠ .nan) →
    cfg.fitY py (T.map (·.1)) (T.map (·.2)) = cfg.fitY py (T'.map (·.1)) (T'.map (·.2))
  optimise : ∀ (T T' : List (P × Ext K × Ext K)) th n, T.Perm T' →
    cfg.optimise (T.map (·.1)) (T.map (·.2.1)) (T.map (·.2.2)) th n = cfg.optimise (T'.map (·.1)) (T'.map (·.2.1)) (T'.map (·.2.2)) th n
  cholOk : ∀ (T T' : List (P × Ext K × Ext K)) th, T.Perm T' → cfg.cholOk (T.map (·.1)) (T.map (·.2.2)) th = cfg.cholOk (T'.map (·.1)) (T'.map (·.2.2)) th

/-- The same exception, or results that agree but for the order. -/
def Out (arr : Bool) (r r' : State P PX Θ K × Option Err) : Prop := r.2 = r'.2 ∧ (r.2 = none → Same arr r.1 r'.1)

theorem all_perm {α : Type*} {A A' : List α} (h : A.Perm A') (f : α → Bool) : A.all f = A'.all f := h.all_eq

theorem updateModel_same {cfg : Cfg P PX Θ K} (hc : Symm cfg) {arr : Bool} {st st' : State P PX Θ K} (h : Same arr st st') :
    Out arr (updateModel cfg st) (updateModel cfg st') := by
  obtain ⟨T, T', hT, h1, h2, h3, h4, h5, h6⟩ := h.train'
  unfold updateModel
  rw [← h.newly, ← h.theta]
  by_cases hn : st.newly < 1
  · rw [if_pos hn, if_pos hn]; exact ⟨rfl, fun _ => h⟩
  · rw [if_neg hn, if_neg hn]
    cases hth : st.theta with
    | none => exact ⟨rfl, by simp⟩
    | some th =>
      have e1 : (st.noiseVar.all Ext.isFinite && st.yTrain'.all Ext.isFinite) = (st'.noiseVar.all Ext.isFinite && st'.yTrain'.all Ext.isFinite) := by
        rw [h2, h3, h5, h6, (hT.map _).all_eq, (hT.map (fun q : P × Ext K × Ext K => q.2.1)).all_eq]
      have e2 : cfg.cholOk st.xTrain' st.noiseVar th = cfg.cholOk st'.xTrain' st'.noiseVar th := by
        rw [h1, h3, h4, h6]; exact hc.cholOk T T' th hT
      dsimp only
      rw [← e1, ← e2]
      split_ifs
      · exact ⟨rfl, by simp⟩
      · exact ⟨rfl, by simp⟩
      · refine ⟨rfl, fun _ => ⟨h.data, h.train, h.train', h.svm, ⟨rfl, T, T', hT, h1, h2, h3, h4, h5, h6⟩, h.px, h.py, ?_, h.fitted, h.nLast, h.nLastFinite, rfl⟩⟩
        rfl

theorem fitHyper_same {cfg : Cfg P PX Θ K} (hc : Symm cfg) {arr : Bool} {st st' : State P PX Θ K} (n : Option ℕ) (h : Same arr st st') :
    Out arr (fitHyper cfg n st) (fitHyper cfg n st') := by
  obtain ⟨T, T', hT, h1, h2, h3, h4, h5, h6⟩ := h.train'
  unfold fitHyper
  dsimp only
  split_ifs with hk hx hx' hx'
  · rw [← h.theta]
    cases st.theta with
    | none => exact ⟨rfl, by simp⟩
    | some th => exact updateModel_same hc h
  · exact ⟨rfl, by simp⟩
  · exfalso
    rw [h1, List.isEmpty_iff, List.map_eq_nil_iff] at hx
    subst hx
    rw [h4, List.nil_perm.1 hT] at hx'
    simp at hx'
  · exfalso
    rw [h4, List.isEmpty_iff, List.map_eq_nil_iff] at hx'
    subst hx'
    rw [h1, List.perm_nil.1 hT] at hx
    simp at hx
  · have e : cfg.optimise st.xTrain' st.yTrain' st.noiseVar st.theta (n.getD cfg.nRestarts) = cfg.optimise st'.xTrain' st'.yTrain' st'.noiseVar st'.theta (n.getD cfg.nRestarts) := by
      rw [h1, h2, h3, h4, h5, h6, ← h.theta]; exact hc.optimise T T' _ _ hT
    rw [← e]
    generalize cfg.optimise st.xTrain' st.yTrain' st.noiseVar st.theta (n.getD cfg.nRestarts) = th
    have hu := updateModel_same hc (st := { st with theta := some th }) (st' := { st' with theta := some th })
      ⟨h.data, h.train, h.train', h.svm, h.factors, h.px, h.py, rfl, h.fitted, h.nLast, h.nLastFinite, h.newly⟩
    revert hu
    rcases updateModel cfg { st with theta := some th } with ⟨a, e⟩
    rcases updateModel cfg { st' with theta := some th } with ⟨a', e'⟩
    rintro ⟨h1, h2⟩
    dsimp only at h1 h2
    subst h1
    cases e with
    | some e => exact ⟨rfl, by simp⟩
    | none =>
      have h := h2 rfl
      exact ⟨rfl, fun _ => ⟨h.data, h.train, h.train', h.svm, h.factors, h.px, h.py, h.theta, rfl, h.nLast, h.nLastFinite, h.newly⟩⟩

/-- svm.py:227-271 on the same rows in another order. The values have no NaN, or none of them is a number (a preprocessor of spread zero). -/
theorem svmFit_rows {α : Type*} {s s' : Svm K} (hs : SvmRel s s') {A A' : List α} (hA : A.Perm A') (t : α → Ext K) (thr : Ext K)
    (ht : (∀ a ∈ A, t a ≠ .nan) ∨ ∀ a ∈ A, (t a).isFinite = false) :
    (∃ e, (s.fit (A.map t) thr).2 = .error e ∧ (s'.fit (A'.map t) thr).2 = .error e) ∨
      ∃ φ sv sv', s.fit (A.map t) thr = (sv, .ok (A.map φ)) ∧ s'.fit (A'.map t) thr = (sv', .ok (A'.map φ)) ∧ SvmRel sv sv' := by
  have rel : ∀ (φ : α → Bool), ∃ S S' : List (Ext K × Bool), S.Perm S' ∧ A.map t = S.map Prod.fst ∧ A.map φ = S.map Prod.snd ∧ A'.map t = S'.map Prod.fst ∧
      A'.map φ = S'.map Prod.snd := fun φ =>
    ⟨A.map fun a => (t a, φ a), A'.map fun a => (t a, φ a), hA.map _, by simp [Function.comp_def], by simp [Function.comp_def], by simp [Function.comp_def],
      by simp [Function.comp_def]⟩
  unfold Svm.fit
  rw [← (hA.map t).all_eq]
  by_cases h0 : (A.map t).all (fun v => v.eqv .negInf) = true
  · rw [if_pos h0, if_pos h0]
    refine .inr ⟨fun _ => false, _, _, by simp only [List.map_map]; rfl, by simp only [List.map_map]; rfl, ?_⟩
    have := rel fun _ => false
    exact ⟨by simpa [Function.comp_def] using this, rfl, hs.all, hs.thr, hs.max⟩
  · rw [if_neg h0, if_neg h0]
    have hne : A ≠ [] := by rintro rfl; exact h0 rfl
    have hne' : A' ≠ [] := fun e => hne (by subst e; exact List.perm_nil.1 hA)
    rcases ht with ht | ht
    · have hm : Ext.pyMax (A.map t) = Ext.pyMax (A'.map t) := pyMax_perm (hA.map t) (by
        intro y hy
        obtain ⟨a, ha, rfl⟩ := List.mem_map.1 hy
        exact ht a ha)
      rw [← hm]
      cases Ext.pyMax (A.map t) with
      | none => exact .inl ⟨_, rfl, rfl⟩
      | some m =>
        dsimp only
        have e1 : ((A'.map t).map (isFiniteRaw thr m)).all id = ((A.map t).map (isFiniteRaw thr m)).all id := (((hA.map t).map _).all_eq).symm
        have e2 : ((A'.map t).map (isFiniteRaw thr m)).any id = ((A.map t).map (isFiniteRaw thr m)).any id := (((hA.map t).map _).any_eq).symm
        rw [e1, e2]
        have r := rel (fun a => isFiniteRaw thr m (t a))
        split_ifs
        · refine .inr ⟨fun a => isFiniteRaw thr m (t a), _, _, by simp only [List.map_map]; rfl, by simp only [List.map_map]; rfl, ?_⟩
          exact ⟨by simpa [Function.comp_def] using r, rfl, rfl, rfl, rfl⟩
        · refine .inr ⟨fun a => isFiniteRaw thr m (t a), _, _, by simp only [List.map_map]; rfl, by simp only [List.map_map]; rfl, ?_⟩
          exact ⟨by simpa [Function.comp_def] using r, rfl, rfl, rfl, rfl⟩
        · exact .inl ⟨_, rfl, rfl⟩
    · -- no value is a number
      have key : ∀ (s : Svm K) (B : List α), B ≠ [] → (∀ a ∈ B, (t a).isFinite = false) →
          (match Ext.pyMax (B.map t) with
            | none => (s, .error .valueError)
            | some m =>
              let f := (B.map t).map (isFiniteRaw thr m)
              let s' := { s with yTrain := B.map t, atLeastOneFinite := true, diffThreshold := some thr, maxY := some m, yFinite := f }
              if f.all id then ({ s' with allFinite := true }, .ok f)
              else
                let s'' := { s' with allFinite := false }
                if f.any id then (s'', .ok f) else (s'', .error .valueError) : Svm K × Except Err (List Bool)).2 = .error .valueError := by
        intro s B hB hf
        cases Ext.pyMax (B.map t) with
        | none => rfl
        | some m =>
          have hff : ∀ b ∈ (B.map t).map (isFiniteRaw thr m), b = false := by
            intro b hb
            simp only [List.mem_map] at hb
            obtain ⟨y, ⟨a, ha, rfl⟩, rfl⟩ := hb
            simp [isFiniteRaw, hf a ha]
          have hl : (B.map t).map (isFiniteRaw thr m) ≠ [] := by simpa using hB
          have e2 : ((B.map t).map (isFiniteRaw thr m)).any id = false := by
            rw [List.any_eq_false]; intro b hb; simp [hff b hb]
          have e1 : ((B.map t).map (isFiniteRaw thr m)).all id = false := by
            rw [List.all_eq_false]
            obtain ⟨b, hb⟩ := List.exists_mem_of_ne_nil _ hl
            exact ⟨b, hb, by simp [hff b hb]⟩
          dsimp only
          rw [e1, e2]
          rfl
      exact .inl ⟨.valueError, key s A hne ht, key s' A' hne' fun a ha => ht a (hA.mem_iff.2 ha)⟩

/-- The rows of two regressors. -/
structure Rows (A A' : List (Row P K)) (st st' : State P PX Θ K) : Prop where
  perm : A.Perm A'
  x : st.xAll = A.map (·.1)
  y : st.yAll = A.map (·.2.1)
  x' : st'.xAll = A'.map (·.1)
  y' : st'.yAll = A'.map (·.2.1)

theorem appendFit_same {cfg : Cfg P PX Θ K} (hc : Symm cfg) {arr : Bool} {st st' : State P PX Θ K} (h : Same arr st st') {A A' : List (Row P K)}
    (r : Rows A A' st st') {c c' : Call P K} (hf : c.fit = c'.fit) (φ : Row P K → Bool) (ν : Row P K → Ext K) :
    Out arr (appendFit cfg st c (A.map φ) (A.map ν)) (appendFit cfg st' c' (A'.map φ) (A'.map ν)) := by
  have hF := r.perm.filter φ
  have hck : ∀ A : List (Row P K), maskChecked (A.map φ) (A.map ν) = .ok ((A.filter φ).map ν) := by
    intro A
    unfold maskChecked
    rw [if_pos (by simp), maskL_map]
  unfold appendFit
  dsimp only
  rw [r.x, r.y, r.x', r.y', maskL_map, maskL_map, maskL_map, maskL_map, hck, hck, ← h.py, ← h.px, ← h.nLastFinite, ← hf]
  rcases mapE_rows (uniform_transform st.py) (fun q : Row P K => q.2.1) hF with ⟨e, e1, e2⟩ | ⟨t, e1, e2, -⟩
  · simp only [e1, e2]
    exact ⟨rfl, by simp⟩
  · simp only [e1, e2]
    have hs : ∀ {s s' : State P PX Θ K}, s = { st with
          xAll := A.map (·.1), yAll := A.map (·.2.1), xTrain := (A.filter φ).map (·.1), yTrain := (A.filter φ).map (·.2.1),
          xTrain' := ((A.filter φ).map (·.1)).map (cfg.trX st.px), yTrain' := (A.filter φ).map t,
          noiseVar := ((A.filter φ).map ν).map Ext.sq, newly := st.nLastFinite } →
        s' = { st' with
          xAll := A'.map (·.1), yAll := A'.map (·.2.1), xTrain := (A'.filter φ).map (·.1), yTrain := (A'.filter φ).map (·.2.1),
          xTrain' := ((A'.filter φ).map (·.1)).map (cfg.trX st.px), yTrain' := (A'.filter φ).map t,
          noiseVar := ((A'.filter φ).map ν).map Ext.sq, newly := st.nLastFinite } → Same arr s s' := by
      rintro s s' rfl rfl
      refine ⟨?_, ⟨(A.filter φ).map fun q => (q.1, q.2.1), (A'.filter φ).map fun q => (q.1, q.2.1), hF.map _, ?_, ?_, ?_, ?_⟩,
        ⟨(A.filter φ).map fun q => (cfg.trX st.px q.1, t q, (ν q).sq), (A'.filter φ).map fun q => (cfg.trX st.px q.1, t q, (ν q).sq), hF.map _, ?_, ?_, ?_, ?_, ?_, ?_⟩,
        h.svm, h.factors, h.px, h.py, h.theta, h.fitted, h.nLast, h.nLastFinite, rfl⟩
      · have := h.data
        rwa [r.x, r.y, r.x', r.y'] at this
      all_goals simp [Function.comp_def]
    cases hfit : c.fit with
    | no => exact updateModel_same hc (hs (by rw [← r.x, ← r.y]) (by rw [← r.x', ← r.y', h.px, h.py, h.nLastFinite]))
    | invalid => exact updateModel_same hc (hs (by rw [← r.x, ← r.y]) (by rw [← r.x', ← r.y', h.px, h.py, h.nLastFinite]))
    | yes n => exact fitHyper_same hc n (hs (by rw [← r.x, ← r.y]) (by rw [← r.x', ← r.y', h.px, h.py, h.nLastFinite]))

theorem map_eq_iff_perm {α β : Type*} {A A' : List α} (h : A.Perm A') (f g : α → β) : A.map f = A.map g ↔ A'.map f = A'.map g := by
  rw [List.map_inj_left, List.map_inj_left]
  exact ⟨fun H a ha => H a (h.mem_iff.2 ha), fun H a ha => H a (h.mem_iff.1 ha)⟩

theorem lastSlice_count {α : Type*} {A B A' B' : List α} (hA : A.Perm A') (hB : B.Perm B') (φ : α → Bool) :
    (lastSlice B.length ((A ++ B).map φ)).count true = (lastSlice B'.length ((A' ++ B').map φ)).count true := by
  have key : ∀ A B : List α, (lastSlice B.length ((A ++ B).map φ)).count true = if B.length = 0 then (A.map φ).count true else (B.map φ).count true := by
    intro A B
    unfold lastSlice
    split_ifs with h
    · rw [List.length_eq_zero_iff.1 h]; simp
    · simp
  rw [key, key, hB.length_eq, (hA.map φ).count_eq, (hB.map φ).count_eq]

/-- gpr.py:709-715: the noise levels of `n` points. -/
def noiseList (n : ℕ) : Noise K → List (Ext K)
  | .scalar s => List.replicate n (.fin s)
  | .array ks => ks.map .fin

theorem noise_rows {A A' : List (Row P K)} (hA : A.Perm A') {arr : Bool} {n n' : Noise K} (h : NoiseRel A A' arr n n') :
    ∃ ν : Row P K → Ext K, noiseList A.length n = A.map ν ∧ noiseList A'.length n' = A'.map ν := by
  cases arr <;> cases n <;> cases n' <;> simp only [NoiseRel] at h
  · subst h
    rename_i k
    exact ⟨fun _ => .fin k, by simp [noiseList, List.map_const'], by simp [noiseList, List.map_const']⟩
  · obtain ⟨rfl, rfl⟩ := h
    exact ⟨fun q => .fin q.2.2, by simp [noiseList, Function.comp_def], by simp [noiseList, Function.comp_def]⟩

theorem appendMid_same {cfg : Cfg P PX Θ K} (hc : Symm cfg) {arr : Bool} {st st' : State P PX Θ K} (h : Same arr st st') {A A' B B' : List (Row P K)}
    (hA : A.Perm A') (hB : B.Perm B') (r : Rows (A ++ B) (A' ++ B') st st') (hz : NoiseRel (A ++ B) (A' ++ B') arr st.noise st'.noise)
    (hl : st.nLast = B.length) (hnan : cfg.useSvm = true → ∀ q ∈ A ++ B, q.2.1 ≠ .nan) {c c' : Call P K} (hf : c.fit = c'.fit)
    (hb : c.batch.isNone = c'.batch.isNone) (clf : Bool) (thr : Ext K) (φ : Row P K → Bool) :
    Out arr (appendMid cfg st c clf thr ((A ++ B).map φ)) (appendMid cfg st' c' clf thr ((A' ++ B').map φ)) := by
  have hl' : st'.nLast = B'.length := by rw [← h.nLast, hl, hB.length_eq]
  have hp := r.perm
  have hF := hp.filter φ
  unfold appendMid
  rw [if_neg (by rw [r.x]; simp), if_neg (by rw [r.x']; simp)]
  dsimp only
  have ex : maskL ((A ++ B).map φ) st.xAll = (((A ++ B).filter φ).map fun q => (q.1, q.2.1)).map (·.1) := by rw [r.x, maskL_map]; simp [Function.comp_def]
  have ey : maskL ((A ++ B).map φ) st.yAll = (((A ++ B).filter φ).map fun q => (q.1, q.2.1)).map (·.2) := by rw [r.y, maskL_map]; simp [Function.comp_def]
  have ex' : maskL ((A' ++ B').map φ) st'.xAll = (((A' ++ B').filter φ).map fun q => (q.1, q.2.1)).map (·.1) := by rw [r.x', maskL_map]; simp [Function.comp_def]
  have ey' : maskL ((A' ++ B').map φ) st'.yAll = (((A' ++ B').filter φ).map fun q => (q.1, q.2.1)).map (·.2) := by rw [r.y', maskL_map]; simp [Function.comp_def]
  -- the states after fitting the preprocessor of the points
  obtain ⟨s1, s1', hs1, e1, e1', r1, hz1, hl1, hl1'⟩ : ∃ s1 s1' : State P PX Θ K, Same arr s1 s1' ∧
      (if clf = true then { st with px := cfg.fitX st.px (maskL ((A ++ B).map φ) st.xAll) (maskL ((A ++ B).map φ) st.yAll) } else st) = s1 ∧
      (if clf = true then { st' with px := cfg.fitX st'.px (maskL ((A' ++ B').map φ) st'.xAll) (maskL ((A' ++ B').map φ) st'.yAll) } else st') = s1' ∧
      Rows (A ++ B) (A' ++ B') s1 s1' ∧ NoiseRel (A ++ B) (A' ++ B') arr s1.noise s1'.noise ∧ s1.nLast = B.length ∧ s1'.nLast = B'.length := by
    refine ⟨_, _, ?_, rfl, rfl, ?_⟩
    · split_ifs
      · refine ⟨h.data, h.train, h.train', h.svm, h.factors, ?_, h.py, h.theta, h.fitted, h.nLast, h.nLastFinite, h.newly⟩
        dsimp only
        rw [ex, ey, ex', ey', h.px]
        exact hc.fitX _ _ _ (hF.map _)
      · exact h
    · split_ifs
      · exact ⟨⟨r.perm, r.x, r.y, r.x', r.y'⟩, hz, hl, hl'⟩
      · exact ⟨r, hz, hl, hl'⟩
  have epy : (if clf = true then cfg.fitY s1.py (maskL ((A ++ B).map φ) st.xAll) (maskL ((A ++ B).map φ) st.yAll) else .ok s1.py) =
      (if clf = true then cfg.fitY s1'.py (maskL ((A' ++ B').map φ) st'.xAll) (maskL ((A' ++ B').map φ) st'.yAll) else .ok s1'.py) := by
    rw [ex, ey, ex', ey', hs1.py]
    split_ifs
    · refine hc.fitY _ _ _ (hF.map _) fun hu q hq => ?_
      obtain ⟨q', hq', rfl⟩ := List.mem_map.1 hq
      exact hnan hu q' (List.mem_of_mem_filter hq')
    · rfl
  rw [e1, e1', ← epy]
  clear e1 e1' epy ex ey ex' ey' hz hl hl' h
  generalize (if clf = true then cfg.fitY s1.py (maskL ((A ++ B).map φ) st.xAll) (maskL ((A ++ B).map φ) st.yAll) else .ok s1.py) = R
  clear r
  cases R with
  | error e => exact ⟨rfl, by simp⟩
  | ok py =>
    dsimp only
    rw [r1.y, r1.y']
    rcases mapE_rows (uniform_transform py) (fun q : Row P K => q.2.1) hp with ⟨e, e1, e2⟩ | ⟨t, e1, e2, ht⟩
    · simp only [e1, e2]
      exact ⟨rfl, by simp⟩
    · simp only [e1, e2]
      obtain ⟨ν, n1, n2⟩ := noise_rows hp hz1
      have n1' : noiseList ((A ++ B).map t).length s1.noise = (A ++ B).map ν := by rw [List.length_map]; exact n1
      have n2' : noiseList ((A' ++ B').map t).length s1'.noise = (A' ++ B').map ν := by rw [List.length_map]; exact n2
      conv in (occs := 1) mapE py.transformScale _ => arg 2; equals (A ++ B).map ν => exact n1'
      conv in (occs := 2) mapE py.transformScale _ => arg 2; equals (A' ++ B').map ν => exact n2'
      rcases mapE_rows (uniform_scale py) ν hp with ⟨e, m1, m2⟩ | ⟨ν', m1, m2, -⟩
      · simp only [m1, m2]
        exact ⟨rfl, by simp⟩
      · simp only [m1, m2]
        -- the end of the call
        have tail : ∀ {s2 s2' : State P PX Θ K} (l l' : List Bool), Same arr s2 s2' → Rows (A ++ B) (A' ++ B') s2 s2' → l.count true = l'.count true →
            Out arr
              (if l.count true = 0 ∧ (c.batch.isNone && c.fit != .no) = false then ({ s2 with nLastFinite := l.count true }, none)
                else appendFit cfg { s2 with nLastFinite := l.count true } c ((A ++ B).map φ) ((A ++ B).map ν'))
              (if l'.count true = 0 ∧ (c'.batch.isNone && c'.fit != .no) = false then ({ s2' with nLastFinite := l'.count true }, none)
                else appendFit cfg { s2' with nLastFinite := l'.count true } c' ((A' ++ B').map φ) ((A' ++ B').map ν')) := by
          intro s2 s2' l l' hs hr hcount
          rw [← hcount, ← hb, ← hf]
          have hs3 : Same arr { s2 with nLastFinite := l.count true } { s2' with nLastFinite := l.count true } :=
            ⟨hs.data, hs.train, hs.train', hs.svm, hs.factors, hs.px, hs.py, hs.theta, hs.fitted, hs.nLast, rfl, hs.newly⟩
          split_ifs
          · exact ⟨rfl, fun _ => hs3⟩
          · exact appendFit_same hc hs3 ⟨hr.perm, hr.x, hr.y, hr.x', hr.y'⟩ hf φ ν'
        have hd : ∃ C C' : List (Row P K), C.Perm C' ∧ s1.xAll = C.map (·.1) ∧ (A ++ B).map (·.2.1) = C.map (·.2.1) ∧ s1'.xAll = C'.map (·.1) ∧
            (A' ++ B').map (·.2.1) = C'.map (·.2.1) ∧ NoiseRel C C' arr s1.noise s1'.noise := by
          have := hs1.data
          rwa [r1.y, r1.y'] at this
        have hs2 : Same arr { s1 with py := py, yAll := (A ++ B).map (·.2.1), nLast := B.length } { s1' with py := py, yAll := (A' ++ B').map (·.2.1), nLast := B'.length } :=
          ⟨hd, hs1.train, hs1.train', hs1.svm, hs1.factors, hs1.px, rfl, hs1.theta, hs1.fitted, hB.length_eq, hs1.nLastFinite, hs1.newly⟩
        have hr2 : Rows (A ++ B) (A' ++ B') ({ s1 with py := py, yAll := (A ++ B).map (·.2.1), nLast := B.length } : State P PX Θ K)
          { s1' with py := py, yAll := (A' ++ B').map (·.2.1), nLast := B'.length } := ⟨r1.perm, r1.x, rfl, r1.x', rfl⟩
        have hcnt := lastSlice_count hA hB φ
        rw [hl1, hl1']
        by_cases hsvm : cfg.useSvm = true
        · rw [if_pos hsvm, if_pos hsvm]
          by_cases hclf : clf = true
          · rw [if_pos hclf, if_pos hclf]
            cases hthr : py.transformScale thr with
            | error e => exact ⟨rfl, by simp⟩
            | ok thr' =>
              dsimp only
              have htn : (∀ q ∈ A ++ B, t q ≠ .nan) ∨ ∀ q ∈ A ++ B, (t q).isFinite = false := by
                cases py with
                | unfitted => left; intro q hq; have := ht q hq; simp [PreY.transform] at this
                | nanAff => right; intro q hq; have := ht q hq; simp only [PreY.transform, Except.ok.injEq] at this; rw [← this]; rfl
                | aff m s =>
                  by_cases h0 : s = 0
                  · right
                    intro q hq
                    have := ht q hq
                    simp only [PreY.transform, Except.ok.injEq] at this
                    rw [← this, h0]
                    cases q.2.1 <;> simp [Ext.subFin, Ext.divFin, Ext.isFinite]
                    rename_i x
                    by_cases h1 : m < x
                    · simp [h1]
                    · by_cases h2 : x < m <;> simp [h1, h2]
                  · left
                    intro q hq
                    have hn := hnan hsvm q hq
                    have := ht q hq
                    simp only [PreY.transform, Except.ok.injEq] at this
                    rw [← this]
                    revert hn
                    cases q.2.1 <;> simp [Ext.subFin, Ext.divFin, h0]
                    all_goals split_ifs <;> simp
              rcases svmFit_rows hs1.svm hp t thr' htn with ⟨e, f1, f2⟩ | ⟨ψ, sv, sv', f1, f2, hsv⟩
              · revert f1 f2
                rcases s1.svm.fit ((A ++ B).map t) thr' with ⟨w, f⟩
                rcases s1'.svm.fit ((A' ++ B').map t) thr' with ⟨w', f'⟩
                rintro f1 f2
                dsimp only at f1 f2
                subst f1; subst f2
                exact ⟨rfl, by simp⟩
              · simp only [f1, f2]
                by_cases heq : (A ++ B).map ψ = (A ++ B).map φ
                · rw [if_pos heq, if_pos ((map_eq_iff_perm hp ψ φ).1 heq)]
                  refine tail (s2 := { s1 with py := py, svm := sv, yAll := (A ++ B).map (·.2.1), nLast := B.length })
                    (s2' := { s1' with py := py, svm := sv', yAll := (A' ++ B').map (·.2.1), nLast := B'.length }) _ _ ?_ ⟨r1.perm, r1.x, rfl, r1.x', rfl⟩ hcnt
                  exact ⟨hd, hs2.train, hs2.train', hsv, hs2.factors, hs2.px, rfl, hs2.theta, hs2.fitted, hB.length_eq, hs2.nLastFinite, hs2.newly⟩
                · rw [if_neg heq, if_neg (fun e => heq ((map_eq_iff_perm hp ψ φ).2 e))]
                  exact ⟨rfl, by simp⟩
          · rw [if_neg hclf, if_neg hclf]
            exact tail _ _ hs2 hr2 hcnt
        · rw [if_neg hsvm, if_neg hsvm]
          exact tail _ _ hs2 hr2 (by rw [hB.length_eq])

/-- Two calls with the same arguments but for the order of the points. With `arr` the regressors have one noise level for each point, and a call may have
one as well. -/
def SameCall (arr : Bool) (c c' : Call P K) : Prop :=
  c.fit = c'.fit ∧ c.fitClf = c'.fitClf ∧
    ((c.batch = none ∧ c'.batch = none ∧ c.noise = c'.noise) ∨
      ∃ B B' : List (Row P K), B.Perm B' ∧ c.batch = some (B.map (·.1), B.map (·.2.1)) ∧ c'.batch = some (B'.map (·.1), B'.map (·.2.1)) ∧
        ((∃ k, c.noise = some (.scalar k) ∧ c'.noise = some (.scalar k)) ∨ (c.noise = none ∧ c'.noise = none) ∨
          (arr = true ∧ c.noise = some (.array (B.map (·.2.2))) ∧ c'.noise = some (.array (B'.map (·.2.2))))))

/-- gpr.py:677, 685: the noise levels of the rows after the call. The third entries of `B1`, `B1'` are the noise levels of the new points. -/
theorem noise_step {A A' B B' : List (Row P K)} (hB : B.Perm B') {arr : Bool} {n n' : Noise K} (h : NoiseRel A A' arr n n') {z z' : Option (Noise K)}
    (hz : (∃ k, z = some (.scalar k) ∧ z' = some (.scalar k)) ∨ (z = none ∧ z' = none) ∨
      (arr = true ∧ z = some (.array (B.map (·.2.2))) ∧ z' = some (.array (B'.map (·.2.2))))) (k k' : ℕ) :
    (∃ e, validateNoise n z (B.map (·.2.1)).length = .error e ∧ validateNoise n' z' (B'.map (·.2.1)).length = .error e) ∨
      ∃ w w' N N', ∃ B1 B1' : List (Row P K), B1.Perm B1' ∧ B1.map (·.1) = B.map (·.1) ∧ B1.map (·.2.1) = B.map (·.2.1) ∧ B1'.map (·.1) = B'.map (·.1) ∧
        B1'.map (·.2.1) = B'.map (·.2.1) ∧ validateNoise n z (B.map (·.2.1)).length = .ok w ∧ validateNoise n' z' (B'.map (·.2.1)).length = .ok w' ∧
        updateNoise n w k = .ok N ∧ updateNoise n' w' k' = .ok N' ∧ NoiseRel (A ++ B1) (A' ++ B1') arr N N' := by
  have hlen : (B'.map fun q : Row P K => q.2.1).length = (B.map fun q : Row P K => q.2.1).length := by simp [hB.length_eq]
  have hlen1 : (B.map fun q : Row P K => q.2.1).length = B.length := by simp
  cases arr <;> cases n <;> cases n' <;> simp only [NoiseRel] at h
  · -- one noise level
    subst h
    rename_i s
    rcases hz with ⟨c, rfl, rfl⟩ | ⟨rfl, rfl⟩ | ⟨h, -⟩
    · by_cases h0 : B.length = 0
      · left
        exact ⟨.valueError, by simp [validateNoise, h0], by simp [validateNoise, ← hB.length_eq, h0]⟩
      · right
        refine ⟨some (.scalar c), some (.scalar c), (if isClose c s then .scalar s else .scalar c), (if isClose c s then .scalar s else .scalar c), B, B', hB, rfl, rfl, rfl, rfl,
          by simp [validateNoise, h0], by simp [validateNoise, ← hB.length_eq, h0], rfl, rfl, ?_⟩
        split_ifs <;> rfl
    · right
      exact ⟨none, none, .scalar s, .scalar s, B, B', hB, rfl, rfl, rfl, rfl, by simp [validateNoise], by simp [validateNoise], rfl, rfl, rfl⟩
    · simp at h
  · -- one for each point
    obtain ⟨rfl, rfl⟩ := h
    rcases hz with ⟨c, rfl, rfl⟩ | ⟨rfl, rfl⟩ | ⟨-, rfl, rfl⟩
    · by_cases h0 : B.length = 0
      · left
        exact ⟨.valueError, by simp [validateNoise, h0], by simp [validateNoise, ← hB.length_eq, h0]⟩
      · right
        refine ⟨some (.array (List.replicate B.length c)), some (.array (List.replicate B'.length c)), _, _, B.map fun q => (q.1, q.2.1, c), B'.map fun q => (q.1, q.2.1, c),
          hB.map _, by simp [Function.comp_def], by simp [Function.comp_def], by simp [Function.comp_def], by simp [Function.comp_def],
          by simp [validateNoise, h0], by simp [validateNoise, ← hB.length_eq, h0], rfl, rfl, ?_⟩
        simp only [NoiseRel]
        exact ⟨by simp [Function.comp_def, List.map_const'], by simp [Function.comp_def, List.map_const']⟩
    · left
      exact ⟨.valueError, by simp [validateNoise], by simp [validateNoise]⟩
    · by_cases h0 : B.length = 0
      · left
        exact ⟨.valueError, by simp [validateNoise, h0], by simp [validateNoise, ← hB.length_eq, h0]⟩
      · right
        refine ⟨_, _, _, _, B, B', hB, rfl, rfl, rfl, rfl, by simp [validateNoise, h0]; rfl, by simp [validateNoise, ← hB.length_eq, h0]; rfl, rfl, rfl, ?_⟩
        simp only [NoiseRel]
        exact ⟨by simp, by simp⟩

/-- **C157**, gpr.py:577-753: `append_to_data` with the same points in another order (and the data of the regressor in another order): the same exception, or
regressors in the same state but for the order. -/
theorem C157_append {cfg : Cfg P PX Θ K} (hc : Symm cfg) {arr : Bool} {st st' : State P PX Θ K} (h : Same arr st st') {c c' : Call P K} (hcc : SameCall arr c c')
    (hnan : cfg.useSvm = true → (∀ y ∈ st.yAll, y ≠ .nan) ∧ ∀ y ∈ c.ys, y ≠ .nan) : Out arr (append cfg st c) (append cfg st' c') := by
  obtain ⟨hf, hclf, hb⟩ := hcc
  obtain ⟨A, A', hA, x1, y1, x2, y2, hz⟩ := h.data
  by_cases hinv : c.fit = .invalid
  · unfold append
    rw [← hf, hinv]
    exact ⟨rfl, by simp⟩
  -- no points, or rows
  obtain ⟨B, B', hB, bx, byy, bx', by', hbn, hno⟩ : ∃ B B' : List (Row P K), B.Perm B' ∧ c.xs = B.map (·.1) ∧ c.ys = B.map (·.2.1) ∧ c'.xs = B'.map (·.1) ∧
      c'.ys = B'.map (·.2.1) ∧ c.batch.isNone = c'.batch.isNone ∧
      ((c.batch.isNone = true ∧ c.noise = c'.noise) ∨ ((∃ k, c.noise = some (.scalar k) ∧ c'.noise = some (.scalar k)) ∨ (c.noise = none ∧ c'.noise = none) ∨
          (arr = true ∧ c.noise = some (.array (B.map (·.2.2))) ∧ c'.noise = some (.array (B'.map (·.2.2)))))) := by
    rcases hb with ⟨b1, b2, b3⟩ | ⟨B, B', hB, b1, b2, b3⟩
    · exact ⟨[], [], .refl _, by simp [Call.xs, b1], by simp [Call.ys, b1], by simp [Call.xs, b2], by simp [Call.ys, b2], by rw [b1, b2], .inl ⟨by simp [b1], b3⟩⟩
    · exact ⟨B, B', hB, by simp [Call.xs, b1], by simp [Call.ys, b1], by simp [Call.xs, b2], by simp [Call.ys, b2], by rw [b1, b2]; rfl, .inr b3⟩
  have hsome : (c.batch.isNone && c.noise.isSome) = (c'.batch.isNone && c'.noise.isSome) := by
    rw [← hbn]
    rcases hno with ⟨-, e⟩ | ⟨k, e1, e2⟩ | ⟨e1, e2⟩ | ⟨-, e1, e2⟩
    · rw [e]
    · rw [e1, e2]
    · rw [e1, e2]
    · rw [e1, e2]; rfl
  have unf : ∀ (st : State P PX Θ K) (c : Call P K), c.fit ≠ .invalid → append cfg st c =
      (if c.batch.isNone && c.noise.isSome then (st, some .valueError)
      else
        match validateNoise st.noise c.noise c.ys.length with
        | .error e => (st, some e)
        | .ok nz =>
          match updateNoise st.noise nz (st.yAll ++ c.ys).length with
          | .error e => ({ st with nLast := c.ys.length, xAll := st.xAll ++ c.xs, yAll := st.yAll ++ c.ys }, some e)
          | .ok noise =>
            if cfg.useSvm then
              match diffThresholdKeepN cfg.eps (st.yAll ++ c.ys) cfg.keepMin cfg.thr with
              | .error e => ({ st with nLast := c.ys.length, xAll := st.xAll ++ c.xs, yAll := st.yAll ++ c.ys, noise := noise }, some e)
              | .ok thrKeep =>
                match isFiniteAll thrKeep (st.yAll ++ c.ys) with
                | .error e => ({ st with nLast := c.ys.length, xAll := st.xAll ++ c.xs, yAll := st.yAll ++ c.ys, noise := noise }, some e)
                | .ok mask => appendMid cfg { st with nLast := c.ys.length, xAll := st.xAll ++ c.xs, yAll := st.yAll ++ c.ys, noise := noise } c
                    (c.fitClf || c.fit != .no) thrKeep mask
            else appendMid cfg { st with nLast := c.ys.length, xAll := st.xAll ++ c.xs, yAll := st.yAll ++ c.ys, noise := noise } c (c.fitClf || c.fit != .no) cfg.thr
              ((st.yAll ++ c.ys).map fun _ => true)) := by
    intro st c hc
    unfold append
    cases hfit : c.fit with
    | invalid => exact absurd hfit hc
    | no => rfl
    | yes n => rfl
  rw [unf st c hinv, unf st' c' (by rw [← hf]; exact hinv), ← hsome]
  by_cases hbs : (c.batch.isNone && c.noise.isSome) = true
  · rw [if_pos hbs, if_pos hbs]; exact ⟨rfl, by simp⟩
  rw [if_neg hbs, if_neg hbs]
  have hno' : (∃ k, c.noise = some (.scalar k) ∧ c'.noise = some (.scalar k)) ∨ (c.noise = none ∧ c'.noise = none) ∨
      (arr = true ∧ c.noise = some (.array (B.map (·.2.2))) ∧ c'.noise = some (.array (B'.map (·.2.2)))) := by
    rcases hno with ⟨e0, e⟩ | e
    · have : c.noise = none := by
        simpa [e0] using hbs
      exact .inr (.inl ⟨this, by rw [← e, this]⟩)
    · exact e
  rw [← hclf, ← hf, byy, by', bx, bx', x1, x2, y1, y2]
  rcases noise_step hB hz hno' ((A.map fun q : Row P K => q.2.1) ++ B.map fun q : Row P K => q.2.1).length
      ((A'.map fun q : Row P K => q.2.1) ++ B'.map fun q : Row P K => q.2.1).length with ⟨e, e1, e2⟩ | ⟨w, w', N, N', B1, B1', hB1, k1, k2, k3, k4, e1, e2, e3, e4, hN⟩
  · simp only [e1, e2]
    exact ⟨rfl, by simp⟩
  simp only [e1, e2, e3, e4]
  clear e1 e2 e3 e4 hno hno' hsome hbs unf
  rw [← k1, ← k2, ← k3, ← k4]
  have hp : (A ++ B1).Perm (A' ++ B1') := hA.append hB1
  have hl : (B1.map fun q : Row P K => q.2.1).length = B1.length := by simp
  have hl' : (B1'.map fun q : Row P K => q.2.1).length = B1'.length := by simp
  have hsm : Same arr { st with nLast := (B1.map fun q : Row P K => q.2.1).length, xAll := (A.map fun q : Row P K => q.1) ++ B1.map fun q : Row P K => q.1, yAll := (A.map fun q : Row P K => q.2.1) ++ B1.map fun q : Row P K => q.2.1, noise := N }
      { st' with nLast := (B1'.map fun q : Row P K => q.2.1).length, xAll := (A'.map fun q : Row P K => q.1) ++ B1'.map fun q : Row P K => q.1, yAll := (A'.map fun q : Row P K => q.2.1) ++ B1'.map fun q : Row P K => q.2.1, noise := N' } := by
    refine ⟨⟨A ++ B1, A' ++ B1', hp, by simp, by simp, by simp, by simp, hN⟩, h.train, h.train', h.svm, h.factors, h.px, h.py, h.theta, h.fitted, ?_, h.nLastFinite, h.newly⟩
    simp [hB1.length_eq]
  have hrw : Rows (A ++ B1) (A' ++ B1') ({ st with nLast := (B1.map fun q : Row P K => q.2.1).length, xAll := (A.map fun q : Row P K => q.1) ++ B1.map fun q : Row P K => q.1, yAll := (A.map fun q : Row P K => q.2.1) ++ B1.map fun q : Row P K => q.2.1, noise := N } : State P PX Θ K)
      { st' with nLast := (B1'.map fun q : Row P K => q.2.1).length, xAll := (A'.map fun q : Row P K => q.1) ++ B1'.map fun q : Row P K => q.1, yAll := (A'.map fun q : Row P K => q.2.1) ++ B1'.map fun q : Row P K => q.2.1, noise := N' } :=
    ⟨hp, by simp, by simp, by simp, by simp⟩
  have hnn : cfg.useSvm = true → ∀ q ∈ A ++ B1, q.2.1 ≠ .nan := by
    intro hu q hq
    obtain ⟨n1, n2⟩ := hnan hu
    rw [y1] at n1
    rw [byy, ← k2] at n2
    rcases List.mem_append.1 hq with hq | hq
    · exact n1 _ (List.mem_map_of_mem hq)
    · exact n2 _ (List.mem_map_of_mem hq)
  have hpy : ((A.map fun q : Row P K => q.2.1) ++ B1.map fun q : Row P K => q.2.1).Perm ((A'.map fun q : Row P K => q.2.1) ++ B1'.map fun q : Row P K => q.2.1) := by
    rw [← List.map_append, ← List.map_append]; exact hp.map _
  by_cases hu : cfg.useSvm = true
  · rw [if_pos hu, if_pos hu, ← diffThresholdKeepN_perm cfg.eps hpy]
    cases diffThresholdKeepN cfg.eps ((A.map fun q : Row P K => q.2.1) ++ B1.map fun q : Row P K => q.2.1) cfg.keepMin cfg.thr with
    | error e => exact ⟨rfl, by simp⟩
    | ok T =>
      dsimp only
      unfold isFiniteAll
      rw [← npMax_perm hpy (by
        rw [← List.map_append]
        intro y hy
        obtain ⟨q, hq, rfl⟩ := List.mem_map.1 hy
        exact hnn hu q hq)]
      cases Ext.npMax ((A.map fun q : Row P K => q.2.1) ++ B1.map fun q : Row P K => q.2.1) with
      | none => exact ⟨rfl, by simp⟩
      | some m =>
        have := appendMid_same hc hsm hA hB1 hrw hN hl hnn hf hbn (c.fitClf || c.fit != .no) T (fun q => isFiniteRaw T m q.2.1)
        simpa [Function.comp_def] using this
  · rw [if_neg hu, if_neg hu]
    have := appendMid_same hc hsm hA hB1 hrw hN hl hnn hf hbn (c.fitClf || c.fit != .no) cfg.thr (fun _ => true)
    simpa [Function.comp_def] using this

end GPry.DataOrder
