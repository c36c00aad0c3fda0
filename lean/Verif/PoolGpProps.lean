import Verif.PoolGp
import Verif.Again
import Verif.GpUpdate
import Verif.KernelPos

set_option linter.all false

namespace GPry.PoolGp

open GPry Acq AcqPts Predict Proposed Gp NoraSpmd Nora Ranked Spmd Matrix

variable {d : ℕ}

/-- What is assumed of the surrogate: a kernel, a positive scale and noise level, a Cholesky decomposition. -/
structure Ok (g : Surr d) : Prop where
  kernel : IsKernel g.M.k
  scale : 0 < g.M.s
  noise : 0 < g.noise
  chol : ∀ m A, A.PosDef → IsFactor A (g.chol m A)
  trained : ∀ c, g.clf = some c → c.1.trained = true

theorem posDef {g : Surr d} (hg : Ok g) {n : Type*} [Fintype n] [DecidableEq n] (R : Raw n (Fin d → ℝ)) (h : ∀ i, R.noise i = g.noise) :
    ((g.M.data R).kmat g.M.k).PosDef := by
  apply hg.kernel.kmat_posDef
  intro i
  show 0 < (R.noise i / g.M.s) ^ 2
  rw [h i]
  have := hg.scale
  have := hg.noise
  positivity

theorem rawOf_append (noise : ℝ) (A B : List ((Fin d → ℝ) × Ext ℝ)) :
    ∃ f : Fin (A ++ B).length ≃ Fin A.length ⊕ Fin B.length, rawOf noise (A ++ B) = ((rawOf noise A).append (rawOf noise B)).reorder f := by
  let f : Fin (A ++ B).length ≃ Fin A.length ⊕ Fin B.length := (finCongr (by simp)).trans finSumFinEquiv.symm
  refine ⟨f, ?_⟩
  unfold Raw.reorder Raw.append rawOf
  congr 1
  · funext i
    obtain ⟨j, rfl⟩ := f.symm.surjective i
    cases j <;> simp [f]
  · funext i
    obtain ⟨j, rfl⟩ := f.symm.surjective i
    cases j <;> simp [f]
  · funext i
    obtain ⟨j, rfl⟩ := f.symm.surjective i
    cases j <;> simp [f]

/-- More points, less standard deviation. -/
theorem std_append {g : Surr d} (hg : Ok g) (A B : List ((Fin d → ℝ) × Ext ℝ)) (x : Fin d → ℝ) :
    g.M.std (g.chol _) (rawOf g.noise (A ++ B)) x ≤ g.M.std (g.chol _) (rawOf g.noise A) x := by
  obtain ⟨f, e⟩ := rawOf_append g.noise A B
  have hAB : ((g.M.data ((rawOf g.noise A).append (rawOf g.noise B))).kmat g.M.k).PosDef :=
    posDef hg _ (by rintro (i | i) <;> rfl)
  have h1 := (C142_order exChol (g.chol _) g.M _ f (exChol_isFactor hAB)
    (hg.chol _ _ (posDef hg _ (by intro i; rw [← e]; rfl))) x).2
  rw [e, h1]
  exact (C17_variance_antitone (g.chol _) exChol g.M hg.kernel.symm hg.scale.le _ _ (hg.chol _ _ (posDef hg _ fun _ => rfl)) hAB
    (exChol_isFactor hAB) x).2.1

/-- `predict_std` at one point. -/
theorem predictStd_one {g : Surr d} (hg : Ok g) (lies : List ((Fin d → ℝ) × Ext ℝ)) (x : Fin d → ℝ) :
    ∃ s, (g.st lies).predictStd [x] = .ok [s] ∧
      s = (if (g.clf.any fun c => !c.1.allFinite && (!c.1.atLeastOneFinite || !c.1.decide (g.M.trX x))) then 0
        else g.M.std (g.chol _) (rawOf g.noise (g.train lies)) x) := by
  unfold St.predictStd Surr.st
  dsimp only
  cases hc : g.clf with
  | none => exact ⟨_, rfl, by simp⟩
  | some c =>
    have ht := hg.trained c hc
    simp only [Option.map_some, Svm.predict, ht, Bool.not_true, Bool.false_eq_true, if_false, List.map_cons, List.map_nil, Option.any_some]
    by_cases h1 : c.1.allFinite = true
    · simp [h1, maskGet, scatter]
    · by_cases h2 : c.1.atLeastOneFinite = true
      · by_cases h3 : c.1.decide (g.M.trX x) = true <;> simp [h1, h2, h3, maskGet, scatter]
      · simp [h1, h2]

theorem sigmaEff_mono (noise : ℝ) {s t : ℝ} (h0 : 0 ≤ s) (h : s ≤ t) : sigmaEff noise s ≤ sigmaEff noise t := by
  unfold sigmaEff
  apply Real.sqrt_le_sqrt
  apply max_le_max _ le_rfl
  have : s ^ 2 ≤ t ^ 2 := by nlinarith
  linarith

theorem safe_eq {x : ℝ} (hx : 0 < x) : safeLogExpm1 x = Real.log (Real.exp x - 1) := by
  have h := C81_nonlinear 0 x 0 0 0 (by have := pow_pos hx 2; linarith)
  unfold nonlinearF at h
  simpa [Real.sqrt_sq hx.le, max_eq_left (sq_nonneg x)] using h

theorem sigmaEff_nonneg (noise s : ℝ) : 0 ≤ sigmaEff noise s := Real.sqrt_nonneg _

/-- The acquisition function increases with the standard deviation. -/
theorem f_mono (k : Proposed.Kind) {zeta : ℝ} (hz : 0 < zeta) (noise baseline : ℝ) (mu : Ext ℝ) (hmu : mu = .negInf ∨ ∃ m, mu = .fin m) {s t : ℝ}
    (h0 : 0 ≤ s) (h : s ≤ t) : leV (toV (k.f zeta noise baseline mu s)) (toV (k.f zeta noise baseline mu t)) = true := by
  rcases hmu with rfl | ⟨m, rfl⟩
  · rw [f_negInf k hz, f_negInf k hz]; simp [toV, leV, geV]
  · have hm := sigmaEff_mono noise h0 h
    unfold Proposed.Kind.f Proposed.Kind.logSigma
    by_cases hs : sigmaEff noise s = 0
    · rw [if_pos hs]
      split_ifs
      · simp [toV, leV, geV, Ext.subFin, mulR, AcqPts.add, Ext.sub, Ext.neg]
      · cases k <;> simp [toV, leV, geV, Ext.subFin, mulR, AcqPts.add, Ext.sub, Ext.neg]
    · have hs' : 0 < sigmaEff noise s := lt_of_le_of_ne (sigmaEff_nonneg _ _) (Ne.symm hs)
      have ht : 0 < sigmaEff noise t := lt_of_lt_of_le hs' hm
      rw [if_neg hs, if_neg ht.ne']
      have hl : Real.log (sigmaEff noise s) ≤ Real.log (sigmaEff noise t) := Real.log_le_log hs' hm
      have hn : safeLogExpm1 (sigmaEff noise s) ≤ safeLogExpm1 (sigmaEff noise t) := by
        rw [safe_eq hs', safe_eq ht]
        have h1 : 1 < Real.exp (sigmaEff noise s) := Real.one_lt_exp_iff.2 hs'
        exact Real.log_le_log (by linarith) (by have := Real.exp_le_exp.2 hm; linarith)
      have hadd : ∀ a b c : ℝ, b ≤ c → leV (toV (AcqPts.add (.fin a) (.fin b))) (toV (AcqPts.add (.fin a) (.fin c))) = true := by
        intro a b c hbc
        simp only [toV, leV, geV, AcqPts.add, Ext.sub, Ext.neg, decide_eq_true_eq]
        exact EReal.coe_le_coe_iff.2 (by linarith)
      cases k
      · exact hadd _ _ _ hl
      · exact hadd _ _ _ hn

theorem std_nonneg {g : Surr d} (hg : Ok g) (l : List ((Fin d → ℝ) × Ext ℝ)) (x : Fin d → ℝ) : 0 ≤ g.M.std (g.chol _) (rawOf g.noise l) x :=
  mul_nonneg (Real.sqrt_nonneg _) hg.scale.le

theorem cond_fin {g : Surr d} (k : Proposed.Kind) (zeta baseline : ℝ) {lies : List (List ℝ × Ext ℝ)} {x : List ℝ} {s : ℝ}
    (h : (g.st (lies.map fun q => (pt d q.1, q.2))).predictStd [pt d x] = .ok [s]) {y : Ext ℝ} (hy : y = .negInf ∨ ∃ m, y = .fin m) :
    g.cond k zeta baseline lies x y = toV (k.f zeta g.noise baseline y s) := by
  unfold Surr.cond
  rcases hy with rfl | ⟨m, rfl⟩ <;> rw [h]

theorem cond_other (g : Surr d) (k : Proposed.Kind) (zeta baseline : ℝ) (lies : List (List ℝ × Ext ℝ)) (x : List ℝ) {y : Ext ℝ}
    (hy : ¬ (y = .negInf ∨ ∃ m, y = .fin m)) : g.cond k zeta baseline lies x y = some ⊥ := by
  unfold Surr.cond
  cases y <;> simp at hy <;> (split <;> first | rfl | simp_all)

/-- Conditioned acquisition values are neither NaN nor `+inf`. -/
theorem cond_ne {g : Surr d} (hg : Ok g) (k : Proposed.Kind) {zeta : ℝ} (hz : 0 < zeta) (baseline : ℝ) (lies : List (List ℝ × Ext ℝ)) (x : List ℝ) (y : Ext ℝ) :
    g.cond k zeta baseline lies x y ≠ none ∧ g.cond k zeta baseline lies x y ≠ some ⊤ := by
  by_cases hy : y = .negInf ∨ ∃ m, y = .fin m
  · obtain ⟨s, h, -⟩ := predictStd_one hg (lies.map fun q => (pt d q.1, q.2)) (pt d x)
    rw [cond_fin k zeta baseline h hy]
    exact (f_above k hz _ _ _ _ hy).1
  · rw [cond_other g k zeta baseline lies x hy]
    simp

/-- The points of the training set stay in it when lies are appended. -/
def Grows (g : Surr d) : Prop := ∀ lies q, ∃ e, g.train (lies ++ [q]) = g.train lies ++ e

/-- Without a classifier every lie enters the training set. -/
theorem train_none {g : Surr d} (h : g.clf = none) (lies : List ((Fin d → ℝ) × Ext ℝ)) : g.train lies = g.all ++ lies := by
  unfold Surr.train Surr.isFin
  rw [h]
  cases lies <;> simp

theorem grows_none {g : Surr d} (h : g.clf = none) : Grows g := by
  intro lies q
  exact ⟨[q], by rw [train_none h, train_none h, List.append_assoc]⟩

/-- **C167**: one more lie does not increase the acquisition function anywhere, if the points of the training set stay in it. -/
theorem C167_shrinks {g : Surr d} (hg : Ok g) (hgr : Grows g) (k : Proposed.Kind) {zeta : ℝ} (hz : 0 < zeta) (baseline : ℝ) :
    Shrinks (g.cond k zeta baseline) := by
  intro pre q x y
  by_cases hy : y = .negInf ∨ ∃ m, y = .fin m
  · obtain ⟨s, h, hs⟩ := predictStd_one hg (pre.map fun q => (pt d q.1, q.2)) (pt d x)
    obtain ⟨s', h', hs'⟩ := predictStd_one hg ((pre ++ [q]).map fun q => (pt d q.1, q.2)) (pt d x)
    rw [cond_fin k zeta baseline h hy, cond_fin k zeta baseline h' hy]
    obtain ⟨e, he⟩ := hgr (pre.map fun q => (pt d q.1, q.2)) (pt d q.1, q.2)
    rw [List.map_append, List.map_cons, List.map_nil] at hs'
    have h0 : 0 ≤ s' := by
      rw [hs']; split_ifs
      · exact le_rfl
      · exact std_nonneg hg _ _
    refine f_mono k hz _ _ _ hy h0 ?_
    rw [hs, hs']
    split_ifs
    · exact le_rfl
    · rw [he]; exact std_append hg _ _ _
  · rw [cond_other g k zeta baseline _ x hy, cond_other g k zeta baseline _ x hy]
    simp [leV, geV]

/-- **C167**: at a point of the training set, or at one that has been appended as a lie and has entered it, the acquisition function is minus infinity. -/
theorem C167_lie {g : Surr d} (hg : Ok g) (k : Proposed.Kind) {zeta : ℝ} (hz : 0 < zeta) (baseline : ℝ) (lies : List (List ℝ × Ext ℝ)) (x : List ℝ)
    (hx : pt d x ∈ (g.train (lies.map fun q => (pt d q.1, q.2))).map Prod.fst) (y : Ext ℝ) : g.cond k zeta baseline lies x y = some ⊥ := by
  by_cases hy : y = .negInf ∨ ∃ m, y = .fin m
  · obtain ⟨s, h, hs⟩ := predictStd_one hg (lies.map fun q => (pt d q.1, q.2)) (pt d x)
    rw [cond_fin k zeta baseline h hy]
    have h0 : 0 ≤ s ∧ s ≤ g.noise := by
      rw [hs]
      split_ifs
      · exact ⟨le_rfl, hg.noise.le⟩
      · refine ⟨std_nonneg hg _ _, ?_⟩
        obtain ⟨i, hi, hix⟩ := List.mem_iff_getElem.1 hx
        rw [List.length_map] at hi
        have := (C18_std (g.chol _) g.M (rawOf g.noise (g.train (lies.map fun q => (pt d q.1, q.2)))) hg.scale hg.kernel.symm
          (posDef hg _ fun _ => rfl) (hg.chol _ _ (posDef hg _ fun _ => rfl)) ⟨i, hi⟩).1
        have hX : (rawOf g.noise (g.train (lies.map fun q => (pt d q.1, q.2)))).X ⟨i, hi⟩ = pt d x := by
          rw [← hix]; simp [rawOf]
        rw [hX] at this
        exact this.trans (by rw [show (rawOf g.noise (g.train (lies.map fun q => (pt d q.1, q.2)))).noise ⟨i, hi⟩ = g.noise from rfl, abs_of_pos hg.noise])
    have hsq : s ^ 2 ≤ g.noise ^ 2 := by nlinarith [h0.1, h0.2]
    rcases hy with rfl | ⟨m, rfl⟩
    · rw [f_negInf k hz]; rfl
    · rw [(f_fin k zeta g.noise baseline m s).1 hsq]; rfl
  · exact cond_other g k zeta baseline _ x hy

/-- **C167** for NORA without a classifier, whatever the number of processes: `multi_add` returns a Kriging-believer ranking -- given the points
before it, appended with their predicted values, each has a value above `-inf`, and none after it has a larger one --, and therefore neither
points of the training set nor a point twice. -/
theorem C167_nora {p : ℕ} (hp : 0 < p) (k : Proposed.Kind) {zeta : ℝ} (hz : 0 < zeta) (baseline : ℝ) (g : Surr d) (hg : Ok g) (hclf : g.clf = none)
    (q : Par ℝ EReal) (hpred : ∀ x, (g.st []).predict [pt d x] false = .ok ([(q.pred x).1], [(q.pred x).2]))
    (hacq : ∀ mu std, q.acq mu std = toV (k.f zeta g.noise baseline mu std))
    (hcond : q.cfg.cond = g.cond k zeta baseline) (hsort : SortsDesc q.cfg.argsortDesc)
    (horder : ∀ l, (q.order l).Perm l) (hn : q.n ≠ 0) (hm : q.m ≠ 0)
    (draw : Fin p → Prog AErr (Option (List (List ℝ) × Option (List ℝ)))) (D : List (List ℝ) × Option (List ℝ))
    (hd : Runs draw fun r => .ok (if r.val = 0 then some D else none)) (s : Fin p → PState ℝ) (i : ℕ) (hi : ∀ r, (s r).i = i)
    (X proposed : List (List ℝ))
    (hX : (sampleNow q.m i q.force = true ∧ X = D.1 ∧ proposed = []) ∨
      (sampleNow q.m i q.force = false ∧ proposed = (s ⟨0, hp⟩).proposed ∧
        ∃ o w, (s ⟨0, hp⟩).mc.orig = some o ∧ Nora.reweight q.pred q.inB o = .ok w ∧ X = w.X)) :
    ∃ (out : List (List ℝ)) (s' : Fin p → PState ℝ),
      Runs (fun r : Fin p => multiAdd p r q (draw r) (s r)) (fun r => .ok (s' r, out, out.map fun x => (q.pred x).1)) ∧
      out.Subperm (candidates X proposed X) ∧
      Believed (g.cond k zeta baseline) (out.map fun x => (x, (q.pred x).1)) ∧
      (out.map (pt d)).Nodup ∧ ∀ x ∈ out, pt d x ∉ g.all.map Prod.fst := by
  have hmu : ∀ x, ((q.pred x).1 = .negInf ∨ ∃ m, (q.pred x).1 = .fin m) :=
    fun x => (pred_spec (g.st []) rfl rfl hg.scale.le _ _ _ (hpred x)).2.1
  have hne := cond_ne hg k hz baseline
  obtain ⟨out, s', h1, _, _, _, _, h6, _, _, _, _, h11⟩ := C121_multi_add_partial hp q (fun a b c => by rw [hcond]; exact (hne a b c).1)
    (fun a b c => by rw [hcond]; exact (hne a b c).2) hsort horder
    (fun x => by rw [hacq]; exact (f_above k hz g.noise baseline _ _ (hmu x)).1) hn hm draw D hd s i hi X proposed hX
  have hb : Believed (g.cond k zeta baseline) (out.map fun x => (x, (q.pred x).1)) := by
    rw [← hcond]
    refine h11 (by rw [hcond]; exact C167_shrinks hg (grows_none hclf) k hz baseline) fun x => ?_
    have h := C15_predict_std (g.st []) _ false _ _ (hpred x)
    rw [← List.map_nil (f := fun q : List ℝ × Ext ℝ => (pt d q.1, q.2))] at h
    rw [hcond, hacq, cond_fin k zeta baseline h (hmu x)]
  -- what is at a point of the batch
  have hat : ∀ (j : ℕ) (hj : j < out.length), pt d out[j] ∉ (g.all ++ (out.take j).map fun x => (pt d x, (q.pred x).1)).map Prod.fst := by
    intro j hj hmem
    obtain ⟨h2, -⟩ := hb j (out[j], (q.pred out[j]).1) (by simp [hj])
    apply h2
    apply C167_lie hg k hz
    rw [train_none hclf, ← List.map_take, List.map_map]
    exact hmem
  refine ⟨out, s', h1, h6, hb, ?_, ?_⟩
  · rw [List.nodup_iff_getElem?_ne_getElem?]
    intro a b hab hbl heq
    rw [List.length_map] at hbl
    apply hat b hbl
    have ha : a < out.length := hab.trans hbl
    simp only [List.getElem?_map, List.getElem?_eq_getElem ha, List.getElem?_eq_getElem hbl, Option.map_some, Option.some.injEq] at heq
    simp only [List.map_append, List.map_map, List.mem_append, List.mem_map]
    right
    exact ⟨out[a], List.mem_take_iff_getElem.2 ⟨a, by omega, rfl⟩, heq⟩
  · intro x hx hmem
    obtain ⟨j, hj, rfl⟩ := List.mem_iff_getElem.1 hx
    apply hat j hj
    rw [List.map_append, List.mem_append]
    exact .inl hmem

/-! ## C16: what the surrogate with lies predicts -/

/-- Each value is the mean, before clipping, that the surrogate with the points before it predicts. -/
def Lies (g : Surr d) (l : List ((Fin d → ℝ) × Ext ℝ)) : Prop :=
  ∀ (j : ℕ) (q : (Fin d → ℝ) × Ext ℝ), l[j]? = some q → q.2 = .fin (g.M.mean (g.chol _) (rawOf g.noise (g.train (l.take j))) q.1)

theorem mean_append {g : Surr d} (hg : Ok g) (A B : List ((Fin d → ℝ) × Ext ℝ))
    (hB : ∀ q ∈ B, q.2 = .fin (g.M.mean (g.chol _) (rawOf g.noise A) q.1)) (x : Fin d → ℝ) :
    g.M.mean (g.chol _) (rawOf g.noise (A ++ B)) x = g.M.mean (g.chol _) (rawOf g.noise A) x := by
  obtain ⟨f, e⟩ := rawOf_append g.noise A B
  have hAB : ((g.M.data ((rawOf g.noise A).append (rawOf g.noise B))).kmat g.M.k).PosDef :=
    posDef hg _ (by rintro (i | i) <;> rfl)
  have h1 := (C142_order exChol (g.chol _) g.M _ f (exChol_isFactor hAB)
    (hg.chol _ _ (posDef hg _ (by intro i; rw [← e]; rfl))) x).1
  rw [e, h1]
  refine C16_kriging_believer_partial (g.chol _) exChol g.M hg.kernel.symm hg.scale.ne' _ _ (hg.chol _ _ (posDef hg _ fun _ => rfl))
    (exChol_isFactor hAB) (fun j => ?_) x
  show num (B.get j).2 = _
  rw [hB _ (List.get_mem B j)]
  rfl

theorem lies_mean {g : Surr d} (hg : Ok g) (hclf : g.clf = none) (l : List ((Fin d → ℝ) × Ext ℝ)) (hl : Lies g l) (x : Fin d → ℝ) :
    g.M.mean (g.chol _) (rawOf g.noise (g.train l)) x = g.M.mean (g.chol _) (rawOf g.noise (g.train [])) x := by
  induction l using List.reverseRecOn generalizing x with
  | nil => rfl
  | append_singleton l q ih =>
    have hl' : Lies g l := by
      intro j r hj
      have hj' : j < l.length := (List.getElem?_eq_some_iff.1 hj).1
      have := hl j r (by rw [List.getElem?_append_left hj']; exact hj)
      rwa [List.take_append_of_le_length hj'.le] at this
    rw [← ih hl' x]
    have hq := hl l.length q (by simp)
    rw [List.take_left] at hq
    have e : g.train (l ++ [q]) = g.train l ++ [q] := by rw [train_none hclf, train_none hclf, List.append_assoc]
    rw [e]
    apply mean_append hg
    intro r hr
    rw [List.mem_singleton] at hr
    rw [hr]; exact hq

theorem ceiling_mono {noise c t t' : ℝ} {A B : List ((Fin d → ℝ) × Ext ℝ)} (hc : 1 ≤ c) (h : IsCeiling (rawOf noise A) c t)
    (h' : IsCeiling (rawOf noise (A ++ B)) c t') : t ≤ t' := by
  obtain ⟨f, e⟩ := rawOf_append noise A B
  have hy : ∀ i, (rawOf noise (A ++ B)).y (f.symm (.inl i)) = (rawOf noise A).y i := by
    intro i
    rw [e]
    simp [Raw.reorder, Raw.append]
  obtain ⟨i, j, h1, h2, rfl⟩ := h.eq
  obtain ⟨i', j', h1', h2', rfl⟩ := h'.eq
  have a := h1' (f.symm (.inl i))
  have b := h2' (f.symm (.inl j))
  rw [hy] at a b
  nlinarith

/-- **C16**: without a classifier, if the lies are what the surrogate predicts at their points, each with the ones before it appended, and
none of these has been clipped: the copy of the surrogate with the lies predicts means not lower than those of the surrogate, the same mean
wherever that has not been clipped, and standard deviations not larger. Missing: the trust region, which is fitted again. -/
theorem C16_predict_partial {g : Surr d} (hg : Ok g) (hclf : g.clf = none) (hfin : ∀ q ∈ g.all, ∃ v, q.2 = .fin v)
    (hclip : ∀ c, g.clip = some c → 1 ≤ c) (ign : Bool) (hign : ign = true ∨ g.trust = none)
    (l : List ((Fin d → ℝ) × Ext ℝ)) (hl : Lies g l) (x : Fin d → ℝ) (m m' : Ext ℝ) (s s' : ℝ)
    (h : (g.st []).predict [x] ign = .ok ([m], [s])) (h' : (g.st l).predict [x] ign = .ok ([m'], [s'])) :
    ∃ v v', m = .fin v ∧ m' = .fin v' ∧ v ≤ v' ∧ s' ≤ s ∧
      (v = g.M.mean (g.chol _) (rawOf g.noise (g.train [])) x → v' = v) := by
  have hI : ∀ l', ¬ (g.st l').Infinite x := by
    intro l'
    simp [St.Infinite, Surr.st, hclf]
  have hO : ∀ l', ¬ (g.st l').Outside ign x := by
    intro l'
    rcases hign with rfl | ht
    · simp [St.Outside]
    · simp [St.Outside, Surr.st, ht]
  obtain ⟨-, -, p⟩ := C14_predict (g.st []) rfl rfl hg.scale.le [x] ign _ _ h
  obtain ⟨-, -, p'⟩ := C14_predict (g.st l) rfl rfl hg.scale.le [x] ign _ _ h'
  obtain ⟨a, b, -, -, e⟩ := p 0 (by simp) (by simp) (by simp)
  obtain ⟨a', b', -, -, e'⟩ := p' 0 (by simp) (by simp) (by simp)
  simp only [List.getElem_cons_zero] at a b e a' b' e'
  obtain ⟨v, hv, n, c⟩ := b (fun q => (a.1 q).elim (hI _) (hO _))
  obtain ⟨v', hv', n', c'⟩ := b' (fun q => (a'.1 q).elim (hI _) (hO _))
  have hm : (g.st l).M.mean (g.st l).chol (g.st l).R x = (g.st []).M.mean (g.st []).chol (g.st []).R x := lies_mean hg hclf l hl x
  have hs : s' ≤ s := by
    rw [e (hI _), e' (hI _)]
    have := std_append hg (g.train []) l x
    have et : g.train l = g.train [] ++ l := by rw [train_none hclf, train_none hclf, List.append_nil]
    rw [← et] at this
    exact this
  refine ⟨v, v', hv, hv', ?_, hs, ?_⟩
  all_goals
    rcases hcl : g.clip with _ | k
    · have h1 := n hcl
      have h2 := n' hcl
      rw [hm] at h2
      first | exact (h1.trans h2.symm).le | exact fun _ => h2.trans h1.symm
    · obtain ⟨t, ht, h1⟩ := c k hcl
      obtain ⟨t', ht', h2⟩ := c' k hcl
      have htt : t ≤ t' := by
        have et : g.train l = g.train [] ++ l := by rw [train_none hclf, train_none hclf, List.append_nil]
        have hq : IsCeiling (rawOf g.noise (g.train l)) k t' := ht'
        rw [et] at hq
        exact ceiling_mono (hclip k hcl) ht hq
      rw [hm] at h2
      first
        | rw [h1, h2]; exact min_le_min le_rfl htt
        | intro hvm
          have hle : (g.st []).M.mean (g.st []).chol (g.st []).R x ≤ t := by
            have : v ≤ t := by rw [h1]; exact min_le_right _ _
            exact le_trans (le_of_eq hvm.symm) this
          rw [h1, h2, min_eq_left hle, min_eq_left (hle.trans htt)]

/-! ## With a classifier -/

/-- Two training points, (0, 2) with value 0 and (1, 0) with value 1, noise level 1, and values further than 5 below the best one are not in the training set. -/
noncomputable def cxG : Surr 2 :=
  { M := ⟨fun x y => ∑ i, (1 : ℝ) * (x i * y i), id, 0, 1⟩, chol := fun _ => exChol, all := [(pt 2 [0, 2], .fin 0), (pt 2 [1, 0], .fin 1)], noise := 1,
    clf := some (⟨true, true, true, fun _ => true⟩, .fin 5), prior := fun _ => 1, trust := none, clip := none }

theorem cxG_ok : Ok cxG where
  kernel := Kernels.isKernel_dot (fun _ => 1) (fun _ => zero_le_one)
  scale := one_pos
  noise := one_pos
  chol := fun _ _ h => exChol_isFactor h
  trained := by rintro c hc; cases hc; rfl

theorem cxG_train : cxG.train [] = [(pt 2 [0, 2], .fin 0), (pt 2 [1, 0], .fin 1)] := by
  simp [Surr.train, Surr.isFin, cxG, Gpr.isFiniteRaw, Ext.npMax, Ext.npMax2, Ext.lt, Ext.ge, Ext.le, Ext.sub, Ext.isFinite, Ext.isNan]

theorem cxG_train_high : cxG.train [(pt 2 [20, 0], .fin 10)] = [(pt 2 [20, 0], .fin 10)] := by
  have h1 : Ext.npMax [Ext.fin (0 : ℝ), .fin 1, .fin 10] = some (.fin 10) := by
    norm_num [Ext.npMax, Ext.npMax2, Ext.lt, Ext.isNan]
  simp [Surr.train, Surr.isFin, cxG, Gpr.isFiniteRaw, h1, Ext.ge, Ext.le, Ext.sub, Ext.isFinite]
  norm_num

theorem cxG_train_low : cxG.train [(pt 2 [-20, 0], .fin (-10))] = [(pt 2 [0, 2], .fin 0), (pt 2 [1, 0], .fin 1)] := by
  have h1 : Ext.npMax [Ext.fin (0 : ℝ), .fin 1, .fin (-10)] = some (.fin 1) := by
    norm_num [Ext.npMax, Ext.npMax2, Ext.lt, Ext.isNan]
  have h2 : Ext.npMax [Ext.fin (0 : ℝ), .fin 1] = some (.fin 1) := by
    norm_num [Ext.npMax, Ext.npMax2, Ext.lt, Ext.isNan]
  simp [Surr.train, Surr.isFin, cxG, Gpr.isFiniteRaw, h1, h2, Ext.ge, Ext.le, Ext.sub, Ext.isFinite]
  norm_num

/-- The training set of `cxG`. -/
noncomputable def cxL : List ((Fin 2 → ℝ) × Ext ℝ) := [(pt 2 [0, 2], .fin 0), (pt 2 [1, 0], .fin 1)]

theorem cxG_kmat : (cxG.M.data (rawOf cxG.noise cxL)).kmat cxG.M.k = diagonal ![5, 2] := by
  ext i j
  change Fin 2 at i j
  fin_cases i <;> fin_cases j
  · show cxG.M.k (pt 2 [0, 2]) (pt 2 [0, 2]) + (1 / 1 : ℝ) ^ 2 = 5
    norm_num [cxG, pt]
  · show cxG.M.k (pt 2 [0, 2]) (pt 2 [1, 0]) + 0 = (0 : ℝ)
    norm_num [cxG, pt]
  · show cxG.M.k (pt 2 [1, 0]) (pt 2 [0, 2]) + 0 = (0 : ℝ)
    norm_num [cxG, pt]
  · show cxG.M.k (pt 2 [1, 0]) (pt 2 [1, 0]) + (1 / 1 : ℝ) ^ 2 = 2
    norm_num [cxG, pt]

theorem cxG_factor : IsFactor ((cxG.M.data (rawOf cxG.noise cxL)).kmat cxG.M.k) (cxG.chol _ ((cxG.M.data (rawOf cxG.noise cxL)).kmat cxG.M.k)) :=
  cxG_ok.chol _ _ (posDef cxG_ok _ fun _ => rfl)

theorem cxG_kTrans (x : Fin 2 → ℝ) : (cxG.M.data (rawOf cxG.noise cxL)).kTrans cxG.M.k x = ![2 * x 1, x 0] := by
  funext i
  change Fin 2 at i
  fin_cases i <;> simp [Data.kTrans, Model.data, cxG, rawOf, pt, cxL]
  ring

theorem cxG_inv : (diagonal ![5, 2] : Matrix (Fin 2) (Fin 2) ℝ)⁻¹ = diagonal ![1 / 5, 1 / 2] := by
  apply inv_eq_left_inv
  ext i j
  fin_cases i <;> fin_cases j <;> simp [Matrix.mul_apply, Fin.sum_univ_two]

theorem cxG_mean (x : Fin 2 → ℝ) : cxG.M.mean (cxG.chol _) (rawOf cxG.noise cxL) x = x 0 / 2 := by
  unfold Model.mean Data.mean
  rw [update_alpha cxG_factor, cxG_kmat]
  erw [cxG_inv, cxG_kTrans]
  have hy : (cxG.M.data (rawOf cxG.noise cxL)).y = ![0, 1] := by
    funext i
    change Fin 2 at i
    fin_cases i <;> simp [Model.data, cxG, rawOf, cxL, num]
  erw [hy]
  show (∑ i : Fin 2, ![2 * x 1, x 0] i * ((diagonal ![1 / 5, 1 / 2] : Matrix (Fin 2) (Fin 2) ℝ) *ᵥ ![0, 1]) i) * 1 + 0 = _
  simp [Fin.sum_univ_two, mulVec_diagonal]
  ring

theorem cxG_var (x : Fin 2 → ℝ) : (cxG.M.data (rawOf cxG.noise cxL)).rawVar (cxG.chol _) cxG.M.k x = x 0 ^ 2 / 2 + x 1 ^ 2 / 5 := by
  rw [rawVar_eq cxG_factor, cxG_kmat]
  erw [cxG_inv, cxG_kTrans]
  show (∑ i : Fin 2, (1 : ℝ) * (x i * x i)) - (∑ i : Fin 2, ![2 * x 1, x 0] i * ((diagonal ![1 / 5, 1 / 2] : Matrix (Fin 2) (Fin 2) ℝ) *ᵥ ![2 * x 1, x 0]) i) = _
  simp [Fin.sum_univ_two, mulVec_diagonal]
  ring

theorem cxG_var_high : (cxG.M.data (rawOf cxG.noise [(pt 2 [20, 0], .fin 10)])).rawVar (cxG.chol _) cxG.M.k (pt 2 [0, 2]) = 4 := by
  rw [rawVar_eq (cxG_ok.chol _ _ (posDef cxG_ok _ fun _ => rfl))]
  have h : (cxG.M.data (rawOf cxG.noise [(pt 2 [20, 0], .fin 10)])).kTrans cxG.M.k (pt 2 [0, 2]) = 0 := by
    funext i
    change Fin 1 at i
    fin_cases i
    simp [Data.kTrans, Model.data, cxG, rawOf, pt]
  rw [h]
  simp [cxG, pt]
  norm_num

theorem cxG_predict (x : Fin 2 → ℝ) : ∃ s, (cxG.st []).predict [x] false = .ok ([.fin (x 0 / 2)], [s]) := by
  have h := cxG_mean x
  refine ⟨cxG.M.std (cxG.chol _) (rawOf cxG.noise (cxG.train [])) x, ?_⟩
  rw [← cxG_mean x]
  have e : cxG.M.mean (cxG.chol _) (rawOf cxG.noise cxL) x = cxG.M.mean (cxG.chol _) (rawOf cxG.noise (cxG.train [])) x := by
    rw [cxG_train]; rfl
  rw [e]
  simp [St.predict, Surr.st, St.means, St.trustMask, Svm.predict, maskGet, maskSet, scatter, cxG]

/-- A value above `-inf`. -/
theorem cxG_above (k : Proposed.Kind) (lies : List (List ℝ × Ext ℝ)) (x : List ℝ) (m : ℝ)
    (h : 1 < (cxG.M.data (rawOf cxG.noise (cxG.train (lies.map fun q => (pt 2 q.1, q.2))))).rawVar (cxG.chol _) cxG.M.k (pt 2 x)) :
    cxG.cond k 1 1 lies x (.fin m) ≠ some ⊥ := by
  obtain ⟨s, hs, he⟩ := predictStd_one cxG_ok (lies.map fun q => (pt 2 q.1, q.2)) (pt 2 x)
  rw [cond_fin k 1 1 hs (.inr ⟨m, rfl⟩), (f_above k one_pos _ _ _ _ (.inr ⟨m, rfl⟩)).2]
  refine ⟨by simp, ?_⟩
  have hn : cxG.noise = 1 := rfl
  have h2 : s = cxG.M.std (cxG.chol _) (rawOf cxG.noise (cxG.train (lies.map fun q => (pt 2 q.1, q.2)))) (pt 2 x) := by
    rw [he]; simp [cxG]
  have h3 : s ^ 2 = (cxG.M.data (rawOf cxG.noise (cxG.train (lies.map fun q => (pt 2 q.1, q.2))))).rawVar (cxG.chol _) cxG.M.k (pt 2 x) := by
    rw [h2]
    show (Real.sqrt (if (cxG.M.data (rawOf cxG.noise (cxG.train (lies.map fun q => (pt 2 q.1, q.2))))).rawVar (cxG.chol _) cxG.M.k (pt 2 x) < 0 then 0
      else (cxG.M.data (rawOf cxG.noise (cxG.train (lies.map fun q => (pt 2 q.1, q.2))))).rawVar (cxG.chol _) cxG.M.k (pt 2 x)) * 1) ^ 2 = _
    rw [if_neg (by linarith), mul_one, Real.sq_sqrt (by linarith)]
  have hn2 : cxG.noise ^ 2 = 1 := by rw [hn]; norm_num
  rw [h3, hn2]
  exact h

/-- **C167** is false with a classifier. (1) A lie above the best value of the training set takes points out of it, and then the acquisition function increases
at them: from minus infinity at (0, 2), to a number. (2) A lie further than the threshold below the best value does not enter the training set: given (-20, 0),
the acquisition function at (-20, 0) is what it was without it. -/
theorem C167_classifier_counterexample (k : Proposed.Kind) :
    (∃ s, (cxG.st []).predict [pt 2 [20, 0]] false = .ok ([.fin 10], [s])) ∧
    (∃ s, (cxG.st []).predict [pt 2 [0, 2]] false = .ok ([.fin 0], [s])) ∧
    cxG.cond k 1 1 [] [0, 2] (.fin 0) = some ⊥ ∧ cxG.cond k 1 1 [([20, 0], .fin 10)] [0, 2] (.fin 0) ≠ some ⊥ ∧ ¬ Shrinks (cxG.cond k 1 1) ∧
    (∃ s, (cxG.st []).predict [pt 2 [-20, 0]] false = .ok ([.fin (-10)], [s])) ∧
    cxG.cond k 1 1 [] [-20, 0] (.fin (-10)) ≠ some ⊥ ∧
    cxG.cond k 1 1 [([-20, 0], .fin (-10))] [-20, 0] (.fin (-10)) = cxG.cond k 1 1 [] [-20, 0] (.fin (-10)) := by
  have h1 : cxG.cond k 1 1 [] [0, 2] (.fin 0) = some ⊥ := by
    apply C167_lie cxG_ok k one_pos
    rw [List.map_nil, cxG_train]
    simp
  have h2 : cxG.cond k 1 1 [([20, 0], .fin 10)] [0, 2] (.fin 0) ≠ some ⊥ := by
    apply cxG_above
    rw [List.map_cons, List.map_nil, cxG_train_high, cxG_var_high]
    norm_num
  refine ⟨?_, ?_, h1, h2, fun h => ?_, ?_, ?_, ?_⟩
  · obtain ⟨s, h⟩ := cxG_predict (pt 2 [20, 0])
    exact ⟨s, by rw [h]; norm_num [pt]⟩
  · obtain ⟨s, h⟩ := cxG_predict (pt 2 [0, 2])
    exact ⟨s, by rw [h]; norm_num [pt]⟩
  · have h3 := h [] ([20, 0], .fin 10) [0, 2] (.fin 0)
    rw [List.nil_append, h1] at h3
    have h4 := (cond_ne cxG_ok k one_pos 1 [([20, 0], .fin 10)] [0, 2] (.fin 0)).1
    revert h3 h2 h4
    cases cxG.cond k 1 1 [([20, 0], .fin 10)] [0, 2] (.fin 0) <;> simp [leV, geV]
  · obtain ⟨s, h⟩ := cxG_predict (pt 2 [-20, 0])
    exact ⟨s, by rw [h]; norm_num [pt]⟩
  · apply cxG_above
    rw [List.map_nil, cxG_train]
    erw [cxG_var]
    norm_num [pt]
  · unfold Surr.cond
    obtain ⟨s, hs, he⟩ := predictStd_one cxG_ok [] (pt 2 [-20, 0])
    obtain ⟨s', hs', he'⟩ := predictStd_one cxG_ok [(pt 2 [-20, 0], .fin (-10))] (pt 2 [-20, 0])
    rw [List.map_cons, List.map_nil, hs, hs', he, he', cxG_train, cxG_train_low]

/-! ## Without one -/

noncomputable def exG : Surr 2 := { cxG with clf := none }

theorem exG_ok : Ok exG := { cxG_ok with trained := by rintro c hc; cases hc }

/-- The same lie, without the classifier. -/
example : leV (exG.cond .nonlinear 1 1 [([20, 0], .fin 10)] [0, 2] (.fin 0)) (exG.cond .nonlinear 1 1 [] [0, 2] (.fin 0)) = true :=
  C167_shrinks exG_ok (grows_none rfl) .nonlinear one_pos 1 [] _ _ _

example : exG.cond .linear 1 1 [([20, 0], .fin 10), ([3, 4], .fin 2)] [3, 4] (.fin 7) = some ⊥ :=
  C167_lie exG_ok .linear one_pos 1 _ _ (by rw [train_none rfl]; simp) _

/-- Two lies, each the mean predicted with the ones before it. -/
noncomputable def exLies : List ((Fin 2 → ℝ) × Ext ℝ) :=
  let q := (pt 2 [20, 0], Ext.fin (exG.M.mean (exG.chol _) (rawOf exG.noise (exG.train [])) (pt 2 [20, 0])))
  [q, (pt 2 [3, 4], Ext.fin (exG.M.mean (exG.chol _) (rawOf exG.noise (exG.train [q])) (pt 2 [3, 4])))]

theorem exLies_lies : Lies exG exLies := by
  intro j q h
  rcases j with _ | _ | j
  · obtain rfl : _ = q := by simpa [exLies] using h
    rfl
  · obtain rfl : _ = q := by simpa [exLies] using h
    rfl
  · simp [exLies] at h

theorem exG_predict (l : List ((Fin 2 → ℝ) × Ext ℝ)) (x : Fin 2 → ℝ) : ∃ m s, (exG.st l).predict [x] true = .ok ([m], [s]) := by
  refine ⟨.fin (exG.M.mean (exG.chol _) (rawOf exG.noise (exG.train l)) x), exG.M.std (exG.chol _) (rawOf exG.noise (exG.train l)) x, ?_⟩
  rfl

example (x : Fin 2 → ℝ) : ∃ v s s', (exG.st []).predict [x] true = .ok ([.fin v], [s]) ∧ (exG.st exLies).predict [x] true = .ok ([.fin v], [s']) ∧
    s' ≤ s := by
  obtain ⟨m, s, h⟩ := exG_predict [] x
  obtain ⟨m', s', h'⟩ := exG_predict exLies x
  obtain ⟨v, v', rfl, rfl, -, h2, h3⟩ := C16_predict_partial exG_ok rfl (by simp [exG, cxG]) (by simp [exG, cxG]) true (.inl rfl) exLies exLies_lies x _ _ _ _ h h'
  have hv : v = exG.M.mean (exG.chol _) (rawOf exG.noise (exG.train [])) x := by
    have := h
    obtain ⟨-, -, p⟩ := C14_predict (exG.st []) rfl rfl exG_ok.scale.le [x] true _ _ h
    obtain ⟨-, b, -⟩ := p 0 (by simp) (by simp) (by simp)
    obtain ⟨w, hw, n, -⟩ := b (by simp)
    simp only [List.getElem_cons_zero, Ext.fin.injEq] at hw
    rw [hw]
    exact n rfl
  rw [h3 hv] at h'
  exact ⟨v, s, s', h, h', h2⟩

noncomputable def exNora : Par ℝ EReal where
  n := 3
  m := 3
  force := false
  pred x := (.fin (exG.M.mean (exG.chol _) (rawOf exG.noise (exG.train [])) (pt 2 x)), exG.M.std (exG.chol _) (rawOf exG.noise (exG.train [])) (pt 2 x))
  inB := none
  acq mu std := toV (Proposed.Kind.linear.f 1 1 1 mu std)
  cfg := { cond := exG.cond .linear 1 1, argsortDesc := exSort }
  order := List.reverse
  x0 := [0, 0]
  a0 := 1

theorem exNora_pred (x : List ℝ) : (exG.st []).predict [pt 2 x] false = .ok ([(exNora.pred x).1], [(exNora.pred x).2]) := by
  simp [St.predict, Surr.st, St.means, St.trustMask, exG, exNora, cxG]

/-- The point (-20, 0) is twice in the sample, with a point of the training set. -/
example : ∃ (out : List (List ℝ)) (s' : Fin 2 → PState ℝ),
    Runs (fun r : Fin 2 => multiAdd 2 r exNora (.ret (if r.val = 0 then some ([[-20, 0], [0, 2], [3, 4], [-20, 0]], none) else none))
      { i := 0, mc := { orig := none, re := none, isRe := false }, proposed := [] })
      (fun r => .ok (s' r, out, out.map fun x => (exNora.pred x).1)) ∧ out.Nodup ∧ [0, 2] ∉ out := by
  obtain ⟨out, s', h1, -, -, h4, h5⟩ := C167_nora (p := 2) (by norm_num) .linear (zeta := 1) one_pos 1 exG exG_ok rfl exNora exNora_pred (fun _ _ => rfl) rfl exSort_sorts
    (fun l => List.reverse_perm l) (by decide) (by decide)
    (fun r => .ret (if r.val = 0 then some ([[-20, 0], [0, 2], [3, 4], [-20, 0]], none) else none)) ([[-20, 0], [0, 2], [3, 4], [-20, 0]], none) (Runs.ret _)
    (fun _ => { i := 0, mc := { orig := none, re := none, isRe := false }, proposed := [] }) 0 (fun _ => rfl) [[-20, 0], [0, 2], [3, 4], [-20, 0]] []
    (.inl ⟨rfl, rfl, rfl⟩)
  exact ⟨out, s', h1, List.Nodup.of_map _ h4, fun h => h5 _ h (by simp [exG, cxG])⟩

end GPry.PoolGp
