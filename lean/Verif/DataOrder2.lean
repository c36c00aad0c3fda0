import Verif.DataOrder
import Verif.GpLml
import Verif.Predict
import Verif.TrustProps
import Mathlib.Logic.Equiv.Fin.Basic
import Mathlib.Logic.Equiv.Option

set_option linter.all false

/-!
# The order of the training points: predictions, trust region, mean and covariance (C157)
-/

namespace GPry.DataOrder

open GPry

/-- Lists that agree up to the order are reorderings of each other. -/
theorem perm_equiv {α : Type*} {l l' : List α} (h : l.Perm l') : ∃ e : Fin l'.length ≃ Fin l.length, ∀ i, l[(e i : Fin l.length)] = l'[i] := by
  induction h with
  | nil => exact ⟨Equiv.refl _, fun i => i.elim0⟩
  | cons a h ih =>
    obtain ⟨e, he⟩ := ih
    refine ⟨((finSuccEquiv _).trans (Equiv.optionCongr e)).trans (finSuccEquiv _).symm, fun i => ?_⟩
    refine Fin.cases ?_ (fun j => ?_) i
    · simp [finSuccEquiv_zero]
    · have := he j
      simpa [finSuccEquiv_succ] using this
  | swap a b l =>
    refine ⟨Equiv.swap (0 : Fin (l.length + 2)) 1, fun i => ?_⟩
    refine Fin.cases ?_ (fun j => Fin.cases ?_ (fun k => ?_) j) i
    · simp
    · simp
    · have : Equiv.swap (0 : Fin (l.length + 2)) 1 k.succ.succ = k.succ.succ := Equiv.swap_apply_of_ne_of_ne (by simp) (by simp [Fin.ext_iff])
      simp [this]
  | trans h1 h2 ih1 ih2 =>
    obtain ⟨e1, he1⟩ := ih1
    obtain ⟨e2, he2⟩ := ih2
    exact ⟨e2.trans e1, fun i => (he1 _).trans (he2 i)⟩

/-! ## Predictions -/

section
open Gp Matrix
variable {P : Type*}

/-- The training set of a list of points, values and noise levels. -/
def rawOf (T : List (P × ℝ × ℝ)) : Raw (Fin T.length) P := ⟨fun i => T[i].1, fun i => T[i].2.1, fun i => T[i].2.2⟩

theorem rawOf_reorder {T T' : List (P × ℝ × ℝ)} (h : T.Perm T') : ∃ f : Fin T'.length ≃ Fin T.length, rawOf T' = (rawOf T).reorder f := by
  obtain ⟨e, he⟩ := perm_equiv h
  refine ⟨e, ?_⟩
  simp only [rawOf, Raw.reorder, Function.comp_def, he]

/-- **C157**: training sets that agree up to the order have the same predictions and the same likelihood of the hyperparameters. -/
theorem C157_linear_algebra (M : Model P) {T T' : List (P × ℝ × ℝ)} (h : T.Perm T')
    (chol : Matrix (Fin T.length) (Fin T.length) ℝ → Matrix (Fin T.length) (Fin T.length) ℝ) (chol' : Matrix (Fin T'.length) (Fin T'.length) ℝ → Matrix (Fin T'.length) (Fin T'.length) ℝ)
    (hc : IsChol ((M.data (rawOf T)).kmat M.k) (chol ((M.data (rawOf T)).kmat M.k)))
    (hc' : IsChol ((M.data (rawOf T')).kmat M.k) (chol' ((M.data (rawOf T')).kmat M.k))) :
    (∀ x, M.mean chol' (rawOf T') x = M.mean chol (rawOf T) x ∧ M.std chol' (rawOf T') x = M.std chol (rawOf T) x) ∧
      M.lml chol' (rawOf T') = M.lml chol (rawOf T) := by
  obtain ⟨f, hf⟩ := rawOf_reorder h
  rw [hf] at hc' ⊢
  exact ⟨fun x => C142_order chol chol' M (rawOf T) f hc.isFactor hc'.isFactor x, C154_order chol chol' M (rawOf T) f hc hc'⟩

end

theorem maxOf_perm {K : Type*} [LinearOrder K] {l l' : List K} (h : l.Perm l') : Tools.maxOf l = Tools.maxOf l' := by
  have key : ∀ (l : List K) (a : K), l.foldl max a ∈ a :: l ∧ ∀ x ∈ a :: l, x ≤ l.foldl max a := by
    intro l
    induction l with
    | nil => intro a; simp
    | cons b l ih =>
      intro a
      obtain ⟨h1, h2⟩ := ih (max a b)
      rw [List.foldl_cons]
      refine ⟨?_, fun x hx => ?_⟩
      · rcases List.mem_cons.1 h1 with h | h
        · rw [h]; rcases max_choice a b with e | e <;> simp [e]
        · simp [h]
      · have hm := h2 _ List.mem_cons_self
        rcases List.mem_cons.1 hx with rfl | hx
        · exact (le_max_left _ _).trans hm
        · rcases List.mem_cons.1 hx with rfl | hx
          · exact (le_max_right _ _).trans hm
          · exact h2 x (by simp [hx])
  cases l with
  | nil => rw [List.nil_perm.1 h]
  | cons a l =>
    cases l' with
    | nil => exact absurd (List.perm_nil.1 h) (by simp)
    | cons b l' =>
      obtain ⟨m1, u1⟩ := key l a
      obtain ⟨m2, u2⟩ := key l' b
      simp only [Tools.maxOf]
      rw [le_antisymm (u2 _ (h.mem_iff.1 m1)) (u1 _ (h.mem_iff.2 m2))]

theorem minOf_perm {K : Type*} [LinearOrder K] {l l' : List K} (h : l.Perm l') : Tools.minOf l = Tools.minOf l' :=
  maxOf_perm (K := Kᵒᵈ) h

section
open Predict Gp
variable {d n m : ℕ}

/-- **C157**, gpr.py:1030-1352: `predict` and `predict_std` with classifier, trust region and ceiling, for two surrogates that differ in the order of the training
points. -/
theorem C157_predict (st : St d n) (R' : Raw (Fin m) (Fin d → ℝ)) (chol' : Matrix (Fin m) (Fin m) ℝ → Matrix (Fin m) (Fin m) ℝ) (f : Fin m ≃ Fin n) (hR : R' = st.R.reorder f)
    (hc : IsFactor ((st.M.data st.R).kmat st.M.k) (st.chol ((st.M.data st.R).kmat st.M.k)))
    (hc' : IsFactor ((st.M.data R').kmat st.M.k) (chol' ((st.M.data R').kmat st.M.k))) (X : List (Fin d → ℝ)) (ign : Bool) :
    (⟨st.fitted, st.prior, st.M, chol', R', st.svm, st.trust, st.clip, st.minf⟩ : St d m).predict X ign = st.predict X ign ∧
    (⟨st.fitted, st.prior, st.M, chol', R', st.svm, st.trust, st.clip, st.minf⟩ : St d m).predictStd X = st.predictStd X := by
  subst hR
  have ho := fun x => C142_order st.chol chol' st.M st.R f hc hc' x
  have hm : ∀ x, st.M.mean chol' (st.R.reorder f) x = st.M.mean st.chol st.R x := fun x => (ho x).1
  have hs : ∀ x, st.M.std chol' (st.R.reorder f) x = st.M.std st.chol st.R x := fun x => (ho x).2
  have hp : (List.ofFn (st.R.reorder f).y).Perm (List.ofFn st.R.y) := by
    have hmn : m = n := by simpa using Fintype.card_congr f
    subst hmn
    exact Equiv.Perm.ofFn_comp_perm f st.R.y
  have hcl : ∀ c, ceiling c (List.ofFn (st.R.reorder f).y) = ceiling c (List.ofFn st.R.y) := by
    intro c
    unfold ceiling
    rw [maxOf_perm hp, minOf_perm hp]
  have hme : ∀ Y, (⟨st.fitted, st.prior, st.M, chol', st.R.reorder f, st.svm, st.trust, st.clip, st.minf⟩ : St d m).means Y = st.means Y := by
    intro Y
    unfold St.means
    simp only [hm, hcl]
  constructor
  · unfold St.predict
    simp only [hme, hs]
    rfl
  · unfold St.predictStd
    simp only [hs]

end

/-! ## Trust region -/

section
open Trust
variable {K : Type*} [Field K] [LinearOrder K] [IsStrictOrderedRing K] {d : ℕ}

theorem select_perm (delta : K → K) {tr tr' : List ((Fin d → K) × K)} (h : tr.Perm tr') (s : K) : (select delta tr s).Perm (select delta tr' s) := by
  unfold select
  rw [← maxOf_perm (h.map Prod.snd)]
  cases Tools.maxOf (tr.map Prod.snd) with
  | none => exact .refl _
  | some top => exact h.filter _

theorem loop_perm (delta : K → K) {tr tr' : List ((Fin d → K) × K)} (h : tr.Perm tr') : ∀ (fuel : ℕ) (s : K) {u u' : List ((Fin d → K) × K)}, u.Perm u' →
    (loop delta tr fuel s u = none ∧ loop delta tr' fuel s u' = none) ∨ ∃ v v', loop delta tr fuel s u = some v ∧ loop delta tr' fuel s u' = some v' ∧ v.Perm v'
  | 0, s, u, u', hu => .inl ⟨rfl, rfl⟩
  | fuel + 1, s, u, u', hu => by
    unfold loop
    rw [← hu.length_eq, ← h.length_eq]
    split_ifs
    · exact loop_perm delta h fuel _ (select_perm delta h s)
    · exact .inr ⟨u, u', rfl, rfl, hu⟩

theorem shrinkBounds_perm (factor : K) (b : K × K) {l l' : List K} (h : l.Perm l') : Tools.shrinkBounds factor b l = Tools.shrinkBounds factor b l' := by
  unfold Tools.shrinkBounds
  rw [maxOf_perm h, minOf_perm h]

/-- **C157**, gpr.py:554-575: the trust region. -/
theorem C157_trust (delta : K → K) (bounds : Fin d → K × K) (factor nstd : Option K) {tr tr' : List ((Fin d → K) × K)} (h : tr.Perm tr')
    (old : Option (Fin d → K × K)) (fuel : ℕ) : updateTrust delta bounds factor nstd tr old fuel = updateTrust delta bounds factor nstd tr' old fuel := by
  unfold updateTrust
  cases factor with
  | none => rfl
  | some f =>
    have hu : (used delta nstd tr fuel = none ∧ used delta nstd tr' fuel = none) ∨
        ∃ v v', used delta nstd tr fuel = some v ∧ used delta nstd tr' fuel = some v' ∧ v.Perm v' := by
      unfold used
      cases nstd with
      | none => exact .inr ⟨tr, tr', rfl, rfl, h⟩
      | some s => exact loop_perm delta h fuel s (.refl _)
    dsimp only
    rcases hu with ⟨h1, h2⟩ | ⟨v, v', h1, h2, hv⟩
    · rw [h1, h2]
    · rw [h1, h2]
      have hs : shrink f bounds (v.map Prod.fst) = shrink f bounds (v'.map Prod.fst) := by
        unfold shrink
        have e : (v.map Prod.fst = []) = (v'.map Prod.fst = []) := by
          rw [List.map_eq_nil_iff, List.map_eq_nil_iff, ← List.length_eq_zero_iff, ← List.length_eq_zero_iff, hv.length_eq]
        have : ∀ j, Tools.shrinkBounds f (bounds j) ((v.map Prod.fst).map (· j)) = Tools.shrinkBounds f (bounds j) ((v'.map Prod.fst).map (· j)) :=
          fun j => shrinkBounds_perm _ _ ((hv.map _).map _)
        simp only [this, e]
      simp only [hs]

end

end GPry.DataOrder
