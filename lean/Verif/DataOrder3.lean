import Verif.DataOrder2
import Verif.Cov
import Verif.Preproc
import Verif.GprProps2

set_option linter.all false

/-!
# The order of the training points: histories, preprocessors, mean and covariance (C157)
-/

namespace GPry.DataOrder

open GPry Gpr

variable {K : Type*} [Field K] [LinearOrder K] [IsStrictOrderedRing K]
variable {P PX Θ : Type*}

theorem zip_map2 {α β γ : Type*} (f : α → β) (g : α → γ) (l : List α) : (l.map f).zip (l.map g) = l.map fun q => (f q, g q) := by
  induction l with
  | nil => rfl
  | cons a l ih => simp [ih]

theorem zip_fst_snd {α β : Type*} (p : List (α × β)) : (p.map Prod.fst).zip (p.map Prod.snd) = p := by
  induction p with
  | nil => rfl
  | cons a l ih => simp [ih]

/-! ## Histories of calls -/

theorem same_init (px : PX) (py : PreY K) (s : K) : Same false (State.init px py (.scalar s) : State P PX Θ K) (State.init px py (.scalar s)) :=
  ⟨⟨[], [], .refl _, rfl, rfl, rfl, rfl, rfl⟩, ⟨[], [], .refl _, rfl, rfl, rfl, rfl⟩, ⟨[], [], .refl _, rfl, rfl, rfl, rfl, rfl, rfl⟩,
    ⟨⟨[], [], .refl _, rfl, rfl, rfl, rfl⟩, rfl, rfl, rfl, rfl⟩, trivial, rfl, rfl, rfl, rfl, rfl, rfl, rfl⟩

theorem same_init_array (px : PX) (py : PreY K) : Same true (State.init px py (.array []) : State P PX Θ K) (State.init px py (.array [])) :=
  ⟨⟨[], [], .refl _, rfl, rfl, rfl, rfl, rfl, rfl⟩, ⟨[], [], .refl _, rfl, rfl, rfl, rfl⟩, ⟨[], [], .refl _, rfl, rfl, rfl, rfl, rfl, rfl⟩,
    ⟨⟨[], [], .refl _, rfl, rfl, rfl, rfl⟩, rfl, rfl, rfl, rfl⟩, trivial, rfl, rfl, rfl, rfl, rfl, rfl, rfl⟩

/-- **C157**: two histories of calls with the same points in another order within each call, from regressors that agree up to the order: either both end with an
exception, or the regressors agree up to the order. -/
theorem C157_history_partial {cfg : Cfg P PX Θ K} (hc : Symm cfg) {arr : Bool} : ∀ {cs cs' : List (Call P K)}, List.Forall₂ (SameCall arr) cs cs' →
    ∀ {st st' : State P PX Θ K}, Same arr st st' → (cfg.useSvm = true → (∀ y ∈ st.yAll, y ≠ .nan) ∧ ∀ c ∈ cs, ∀ y ∈ c.ys, y ≠ .nan) →
    (run cfg st cs = none ∧ run cfg st' cs' = none) ∨ ∃ s s', run cfg st cs = some s ∧ run cfg st' cs' = some s' ∧ Same arr s s' := by
  intro cs cs' h
  induction h with
  | nil => intro st st' hs _; exact .inr ⟨st, st', rfl, rfl, hs⟩
  | @cons c c' cs cs' h0 _ ih =>
    intro st st' hs hn
    obtain ⟨he, ho⟩ := C157_append hc hs h0 fun hu => ⟨(hn hu).1, (hn hu).2 c (by simp)⟩
    have hy := append_yAll (cfg := cfg) st c
    unfold run
    rcases hA : append cfg st c with ⟨s, e⟩
    rcases hA' : append cfg st' c' with ⟨s', e'⟩
    rw [hA, hA'] at he ho
    rw [hA] at hy
    dsimp only at he ho hy
    subst he
    cases e with
    | some e => exact .inl ⟨rfl, rfl⟩
    | none =>
      refine ih (ho rfl) fun hu => ⟨?_, fun d hd => (hn hu).2 d (by simp [hd])⟩
      intro y hmem
      rcases hy with ⟨h1, -⟩ | ⟨h1, -⟩
      · rw [h1] at hmem; exact (hn hu).1 y hmem
      · rw [h1] at hmem
        rcases List.mem_append.1 hmem with h | h
        · exact (hn hu).1 y h
        · exact (hn hu).2 c (by simp) y h

/-- **C157**: what can be seen of two regressors that agree up to the order. -/
theorem C157_observed {cfg : Cfg P PX Θ K} {arr : Bool} {st st' : State P PX Θ K} (h : Same arr st st') :
    (st.xTrain.zip st.yTrain).Perm (st'.xTrain.zip st'.yTrain) ∧ (st.xAll.zip st.yAll).Perm (st'.xAll.zip st'.yAll) ∧
      (st.xTrain'.zip (st.yTrain'.zip st.noiseVar)).Perm (st'.xTrain'.zip (st'.yTrain'.zip st'.noiseVar)) ∧
      nTotal cfg st = nTotal cfg st' ∧ st.px = st'.px ∧ st.py = st'.py ∧ st.theta = st'.theta ∧ st.nLast = st'.nLast ∧ st.nLastFinite = st'.nLastFinite := by
  obtain ⟨A, A', hA, a1, a2, a3, a4, -⟩ := h.data
  obtain ⟨T, T', hT, t1, t2, t3, t4⟩ := h.train
  obtain ⟨U, U', hU, u1, u2, u3, u4, u5, u6⟩ := h.train'
  obtain ⟨S, S', hS, s1, -, s3, -⟩ := h.svm.rows
  refine ⟨?_, ?_, ?_, ?_, h.px, h.py, h.theta, h.nLast, h.nLastFinite⟩
  · rw [t1, t2, t3, t4, zip_map2, zip_map2]; exact hT.map _
  · rw [a1, a2, a3, a4, zip_map2, zip_map2]; exact hA.map _
  · rw [u1, u2, u3, u4, u5, u6, zip_map2, zip_map2, zip_map2, zip_map2]; exact hU.map _
  · unfold nTotal
    rw [s1, s3, t2, t4]
    simp only [List.length_map, hS.length_eq, hT.length_eq]

/-! ## However the points are divided into calls -/

/-- **C157**: however the points are ordered and divided into calls, the same points end up in the training set. -/
theorem C157_training_set {cfg : Cfg P PX Θ K} (hc : CfgOk cfg) (px px' : PX) (py py' : PreY K) (s s' : Noise K) (calls calls' : List (Call P K))
    (hg : cfg.useSvm = true → ∀ c ∈ calls, ∀ y ∈ c.ys, Good y) {st st' : State P PX Θ K}
    (h : run cfg (State.init px py s) calls = some st) (h' : run cfg (State.init px' py' s') calls' = some st')
    (hp : (((calls.map Call.xs).flatten).zip ((calls.map Call.ys).flatten)).Perm (((calls'.map Call.xs).flatten).zip ((calls'.map Call.ys).flatten)))
    (hg' : cfg.useSvm = true → ∀ c ∈ calls', ∀ y ∈ c.ys, Good y) : (st.xTrain.zip st.yTrain).Perm (st'.xTrain.zip st'.yTrain) := by
  classical
  obtain ⟨a1, a2, a3, a4, a5⟩ := C10_training_partition hc px py s calls hg h
  obtain ⟨b1, b2, b3, b4, b5⟩ := C10_training_partition hc px' py' s' calls' hg' h'
  rw [a4, a5, b4, b5, zip_fst_snd, zip_fst_snd]
  rw [← a1, ← a2, ← b1, ← b2] at hp
  unfold specTrain
  have hy : st.yAll.Perm st'.yAll := by
    have := hp.map Prod.snd
    rwa [List.map_snd_zip (by omega), List.map_snd_zip (by omega)] at this
  have hk : ∀ y, KeptBy cfg st.yAll y ↔ KeptBy cfg st'.yAll y := by
    intro y
    unfold KeptBy Kept numAbove
    simp only [hy.countP_eq, hy.mem_iff]
  rw [List.filter_congr (q := fun p => decide (KeptBy cfg st'.yAll p.2)) (fun p _ => by simp only [hk])]
  exact hp.filter _

/-- **C157**: if moreover every call refits the classifier (and so the preprocessors), what the preprocessors learn does not depend on what they learnt before nor on the order,
and the training set is not empty, then the preprocessors and the transformed training set are the same as well. -/
theorem C157_regroup_partial {cfg : Cfg P PX Θ K} (hc : CfgOk cfg) (hs : Symm cfg) (hX : ∀ p p' xs ys, cfg.fitX p xs ys = cfg.fitX p' xs ys)
    (hY : ∀ q q' xs ys, cfg.fitY q xs ys = cfg.fitY q' xs ys) (px px' : PX) (py py' : PreY K) (s s' : Noise K) (calls calls' : List (Call P K))
    (hg : cfg.useSvm = true → ∀ c ∈ calls, ∀ y ∈ c.ys, Good y) {st st' : State P PX Θ K}
    (h : run cfg (State.init px py s) calls = some st) (h' : run cfg (State.init px' py' s') calls' = some st')
    (hp : (((calls.map Call.xs).flatten).zip ((calls.map Call.ys).flatten)).Perm (((calls'.map Call.xs).flatten).zip ((calls'.map Call.ys).flatten)))
    (hg' : cfg.useSvm = true → ∀ c ∈ calls', ∀ y ∈ c.ys, Good y) (hfc : ∀ c ∈ calls, c.fitClf = true ∨ c.fit ≠ .no)
    (hfc' : ∀ c ∈ calls', c.fitClf = true ∨ c.fit ≠ .no) (hne : st.yTrain ≠ []) :
    st.px = st'.px ∧ st.py = st'.py ∧ (st.xTrain'.zip st.yTrain').Perm (st'.xTrain'.zip st'.yTrain') := by
  have ht := C157_training_set hc px px' py py' s s' calls calls' hg h h' hp hg'
  obtain ⟨-, -, -, a4, a5⟩ := C10_training_partition hc px py s calls hg h
  obtain ⟨-, -, -, b4, b5⟩ := C10_training_partition hc px' py' s' calls' hg' h'
  obtain ⟨⟨c1, c2⟩, c3⟩ := consistent_fitted hc hX hY px py s calls hg hfc h
  obtain ⟨⟨d1, d2⟩, d3⟩ := consistent_fitted hc hX hY px' py' s' calls' hg' hfc' h'
  have hgood : cfg.useSvm = true → ∀ q ∈ specTrain cfg st.xAll st.yAll, q.2 ≠ .nan := by
    classical
    intro hu q hq
    unfold specTrain at hq
    obtain ⟨v, hv, -⟩ := of_decide_eq_true (List.mem_filter.1 hq).2 hu
    rw [hv]; simp
  generalize specTrain cfg st.xAll st.yAll = T at a4 a5 hgood
  generalize specTrain cfg st'.xAll st'.yAll = T' at b4 b5
  rw [a4, a5, b4, b5, zip_fst_snd, zip_fst_snd] at ht
  have hne' : st'.yTrain ≠ [] := by
    rw [b5, ne_eq, List.map_eq_nil_iff, ← List.length_eq_zero_iff, ← ht.length_eq]
    rw [a5, ne_eq, List.map_eq_nil_iff, ← List.length_eq_zero_iff] at hne
    exact hne
  obtain ⟨c4, c5⟩ := c3.resolve_left hne
  obtain ⟨d4, d5⟩ := d3.resolve_left hne'
  have e1 : st.px = st'.px := by
    rw [← c4 st.px, ← d4 st.px, a4, a5, b4, b5]
    exact hs.fitX _ _ _ ht
  have e2 : st.py = st'.py := by
    have := hs.fitY st.py _ _ ht hgood
    rw [← a4, ← a5, ← b4, ← b5, c5, d5] at this
    exact Except.ok.inj this
  refine ⟨e1, e2, ?_⟩
  rw [a5, e2] at c2
  rw [b5] at d2
  rcases mapE_rows (uniform_transform st'.py) (fun q : P × Ext K => q.2) ht with ⟨e, m1, m2⟩ | ⟨t, m1, m2, -⟩
  · rw [m1] at c2; simp at c2
  · have c2' := c2.symm.trans m1
    have d2' := d2.symm.trans m2
    rw [Except.ok.injEq] at c2' d2'
    rw [c1, d1, a4, b4, c2', d2', e1, List.map_map, List.map_map, zip_map2, zip_map2]
    exact ht.map _

/-! ## Preprocessors of the targets -/

theorem finPart_perm {ys ys' : List (Ext K)} (h : ys.Perm ys') : (Pre.finPart ys).Perm (Pre.finPart ys') := h.filterMap _

/-- **C157**, preprocessing.py:546-586, 667-683: the preprocessors of the targets. -/
theorem C157_fit_y (sqrt : K → K) (delta : K) {ys ys' : List (Ext K)} (h : ys.Perm ys') :
    Pre.normFit sqrt ys = Pre.normFit sqrt ys' ∧ Pre.normFitMedian ys = Pre.normFitMedian ys' ∧
      ((∀ y ∈ ys, y ≠ .nan) → Pre.chi2Fit delta ys = Pre.chi2Fit delta ys') := by
  have hf := finPart_perm h
  have hm : ∀ {l l' : List K}, l.Perm l' → Pre.mean l = Pre.mean l' := by
    intro l l' h; unfold Pre.mean; rw [h.sum_eq, h.length_eq]
  have hv : ∀ {l l' : List K}, l.Perm l' → Pre.variance l = Pre.variance l' := by
    intro l l' h; unfold Pre.variance; rw [hm h, (h.map _).sum_eq, h.length_eq]
  have hs : ∀ {l l' : List K}, l.Perm l' → l.insertionSort (· ≤ ·) = l'.insertionSort (· ≤ ·) := by
    intro l l' h
    exact List.Perm.eq_of_pairwise (le := (· ≤ ·)) (fun a b _ _ => le_antisymm) (List.pairwise_insertionSort _ _) (List.pairwise_insertionSort _ _)
      ((List.perm_insertionSort _ _).trans (h.trans (List.perm_insertionSort _ _).symm))
  refine ⟨?_, ?_, fun hn => ?_⟩
  · unfold Pre.normFit
    generalize Pre.finPart ys = l at hf
    generalize Pre.finPart ys' = l' at hf
    cases l with
    | nil => rw [List.nil_perm.1 hf]
    | cons a l =>
      cases l' with
      | nil => exact absurd (List.perm_nil.1 hf) (by simp)
      | cons b l' => dsimp only; rw [hm hf, hv hf]
  · unfold Pre.normFitMedian
    generalize Pre.finPart ys = l at hf
    generalize Pre.finPart ys' = l' at hf
    cases l with
    | nil => rw [List.nil_perm.1 hf]
    | cons a l =>
      cases l' with
      | nil => exact absurd (List.perm_nil.1 hf) (by simp)
      | cons b l' => dsimp only; rw [hs hf]
  · unfold Pre.chi2Fit
    rw [pyMax_perm h hn]

/-! ## Mean and covariance -/

section
open Cov
variable {d : ℕ}

theorem scatter_perm {p p' : List (K × (Fin d → K))} (h : p.Perm p') : wmean p = wmean p' ∧ scatter p = scatter p' := by
  have hs : wsum p = wsum p' := by unfold wsum; rw [(h.map _).sum_eq]
  have hm : wmean p = wmean p' := by
    funext i; unfold wmean; rw [hs, (h.map _).sum_eq]
  exact ⟨hm, by funext i j; unfold scatter; rw [hm, (h.map _).sum_eq]⟩

theorem covOf_perm {p p' : List (K × (Fin d → K))} (h : p.Perm p') (f : K) : covOf p f = covOf p' f := by
  unfold covOf; rw [(scatter_perm h).2]

theorem average_perm {p p' : List (K × (Fin d → K))} (h : p.Perm p') :
    average (p.map Prod.snd) (some (p.map Prod.fst)) = average (p'.map Prod.snd) (some (p'.map Prod.fst)) := by
  unfold average
  dsimp only
  rw [zip_fst_snd, zip_fst_snd, (h.map Prod.fst).sum_eq, (scatter_perm h).1]
  simp

theorem npCov_perm {p p' : List (K × (Fin d → K))} (h : p.Perm p') (ddof : ℕ) :
    npCov (p.map Prod.snd) ddof (some (p.map Prod.fst)) = npCov (p'.map Prod.snd) ddof (some (p'.map Prod.fst)) := by
  unfold npCov
  dsimp only
  rw [zip_fst_snd, zip_fst_snd, (h.map Prod.fst).sum_eq, (h.map Prod.fst).any_eq, ((h.map Prod.fst).map _).sum_eq]
  rw [covOf_perm h]
  simp

/-- **C157**, tools.py:421-428: mean and covariance of weighted samples, in another order. -/
theorem C157_samples {p p' : List (K × (Fin d → K))} (h : p.Perm p') :
    fromSamples (p.map Prod.snd) (some (p.map Prod.fst)) = fromSamples (p'.map Prod.snd) (some (p'.map Prod.fst)) := by
  unfold fromSamples
  rw [average_perm h, npCov_perm h]

/-- The number of a finite value. -/
def toK : Ext K → K
  | .fin x => x
  | _ => 0

theorem finites_map {α : Type*} (W : α → Ext K) (F : List α) : finites (F.map W) = if F.all (fun q => (W q).isFinite) then some (F.map fun q => toK (W q)) else none := by
  induction F with
  | nil => rfl
  | cons a F ih =>
    rw [List.map_cons]
    cases hW : W a with
    | fin x =>
      rw [finites, ih]
      have : ((a :: F).all fun q => (W q).isFinite) = F.all fun q => (W q).isFinite := by simp [hW, Ext.isFinite]
      rw [this]
      by_cases hF : (F.all fun q => (W q).isFinite) = true
      · rw [if_pos hF, if_pos hF]; simp [toK, hW]
      · rw [if_neg hF, if_neg hF]; rfl
    | negInf => simp [finites, hW, Ext.isFinite]
    | posInf => simp [finites, hW, Ext.isFinite]
    | nan => simp [finites, hW, Ext.isFinite]

theorem fromWeights_perm {α : Type*} (W : α → Ext K) (x : α → Fin d → K) {F F' : List α} (h : F.Perm F') :
    fromWeights (F.map x) (F.map W) = fromWeights (F'.map x) (F'.map W) := by
  unfold fromWeights
  rw [finites_map, finites_map, h.all_eq]
  split_ifs
  · dsimp only
    have e1 : ∀ F : List α, F.map x = (F.map fun q => (toK (W q), x q)).map Prod.snd := by intro F; simp [Function.comp_def]
    have e2 : ∀ F : List α, (F.map fun q => toK (W q)) = (F.map fun q => (toK (W q), x q)).map Prod.fst := by intro F; simp [Function.comp_def]
    rw [e1 F, e1 F', e2 F, e2 F', average_perm (h.map _), npCov_perm (h.map _)]
  · rfl

/-- **C157**, tools.py:431-440: mean and covariance from the training set, in another order. -/
theorem C157_evals (ex : K → K) {p p' : List ((Fin d → K) × Ext K)} (h : p.Perm p') (hn : ∀ q ∈ p, q.2 ≠ .nan) :
    fromEvals ex (p.map Prod.fst) (p.map Prod.snd) = fromEvals ex (p'.map Prod.fst) (p'.map Prod.snd) := by
  unfold fromEvals
  rw [pyMax_perm (h.map Prod.snd) (by
    intro y hy; obtain ⟨q, hq, rfl⟩ := List.mem_map.1 hy; exact hn q hq)]
  cases Ext.pyMax (p'.map Prod.snd) with
  | none => rfl
  | some m =>
    have key : ∀ p : List ((Fin d → K) × Ext K), removeZero ((p.map Prod.snd).map fun l => expE ex (Ext.sub l m)) [some (p.map Prod.fst)] =
        .ok ((p.filter fun q => decide (expE ex (Ext.sub q.2 m) ≠ 0)).map fun q => expE ex (Ext.sub q.2 m),
          [some ((p.filter fun q => decide (expE ex (Ext.sub q.2 m) ≠ 0)).map Prod.fst)]) := by
      intro p
      unfold removeZero deleteAll deleteAll
      rw [if_neg (by simp)]
      dsimp only
      congr 1
      rw [Prod.mk.injEq]
      constructor
      · rw [List.map_map, List.filter_map]; rfl
      · have : ((p.map Prod.snd).map fun l => expE ex (Ext.sub l m)).zip (p.map Prod.fst) = p.map fun q => (expE ex (Ext.sub q.2 m), q.1) := by
          rw [List.map_map, zip_map2]; rfl
        unfold deleteZero
        rw [this, List.filter_map, List.map_map]
        rfl
    dsimp only
    rw [key, key]
    exact fromWeights_perm _ _ (h.filter _)

end

end GPry.DataOrder
