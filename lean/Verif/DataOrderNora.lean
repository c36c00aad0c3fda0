import Verif.DataOrder2
import Verif.NoraMapProps

set_option linter.all false

/-!
# The order of the training points in NORA (C157)

`Surr` is the surrogate as the ranked pool of NORA uses it. Two surrogates that hold the same training points in another order give the same
predictions, the same acquisition values conditioned to the points of a pool, and hence the same batch.
-/

namespace GPry.PoolGp

open GPry Acq AcqPts Predict Proposed Gp NoraSpmd Nora Ranked Spmd Matrix

variable {d : ℕ}

theorem npMax_nan {l : List (Ext ℝ)} (h : .nan ∈ l) : Ext.npMax l = some .nan := by
  have key : ∀ (l : List (Ext ℝ)) (a : Ext ℝ), .nan ∈ a :: l → l.foldl Ext.npMax2 a = .nan := by
    intro l
    induction l with
    | nil => intro a h; simpa using Eq.symm (List.mem_singleton.1 h)
    | cons b l ih =>
      intro a h
      rw [List.foldl_cons]
      apply ih
      rcases List.mem_cons.1 h with h | h
      · subst h; simp [Ext.npMax2, Ext.isNan]
      · rcases List.mem_cons.1 h with h | h
        · subst h; cases a <;> simp [Ext.npMax2, Ext.isNan]
        · exact List.mem_cons_of_mem _ h
  cases l with
  | nil => simp at h
  | cons a l => exact congrArg some (key l a h)

/-- `np.max` does not depend on the order, NaN included. -/
theorem npMax_perm' {l l' : List (Ext ℝ)} (h : l.Perm l') : Ext.npMax l = Ext.npMax l' := by
  by_cases hn : Ext.nan ∈ l
  · rw [npMax_nan hn, npMax_nan (h.mem_iff.1 hn)]
  · exact DataOrder.npMax_perm h fun y hy e => hn (e ▸ hy)

/-- The same surrogate with its training points in another order, and a Cholesky decomposition of the reordered matrices. -/
structure Reordered (g g' : Surr d) : Prop where
  all : g'.all.Perm g.all
  M : g'.M = g.M
  noise : g'.noise = g.noise
  clf : g'.clf = g.clf
  prior : g'.prior = g.prior
  trust : g'.trust = g.trust
  clip : g'.clip = g.clip

theorem train_perm {g g' : Surr d} (h : Reordered g g') {lies lies' : List ((Fin d → ℝ) × Ext ℝ)} (hl : lies'.Perm lies) :
    (g'.train lies').Perm (g.train lies) := by
  have hi : ∀ {a a' : List ((Fin d → ℝ) × Ext ℝ)}, a'.Perm a → (fun q : (Fin d → ℝ) × Ext ℝ => g'.isFin (a'.map Prod.snd) q.2) = fun q => g.isFin (a.map Prod.snd) q.2 := by
    intro a a' ha
    funext q
    unfold Surr.isFin
    rw [h.clf, npMax_perm' (ha.map Prod.snd)]
  have hall := h.all.append hl
  unfold Surr.train
  rw [hi hall, hi h.all, hl.any_eq]
  split
  · exact hall.filter _
  · exact h.all.filter _

theorem rawOf_perm (noise : ℝ) {A A' : List ((Fin d → ℝ) × Ext ℝ)} (h : A'.Perm A) :
    ∃ f : Fin A'.length ≃ Fin A.length, rawOf noise A' = (rawOf noise A).reorder f := by
  obtain ⟨e, he⟩ := DataOrder.perm_equiv h.symm
  refine ⟨e, ?_⟩
  have he' : ∀ i : Fin A'.length, A'[i.val] = A[(e i).val] := fun i => (he i).symm
  unfold rawOf Raw.reorder
  simp [Function.comp_def, he']

/-- **C157**, gpr.py:577-753 and 1030-1352, gp_acquisition.py:1481-1488: what the pool asks of the surrogate -- predictions, predicted standard
deviations and conditioned acquisition values, with the points of the pool appended -- depends neither on the order of the training points nor on
that of the points of the pool. -/
theorem C157_surrogate {g g' : Surr d} (hg : Ok g) (hg' : Ok g') (h : Reordered g g') {lies lies' : List ((Fin d → ℝ) × Ext ℝ)} (hl : lies'.Perm lies)
    (X : List (Fin d → ℝ)) (ign : Bool) :
    (g'.st lies').predict X ign = (g.st lies).predict X ign ∧ (g'.st lies').predictStd X = (g.st lies).predictStd X := by
  obtain ⟨f, hf⟩ := rawOf_perm g.noise (train_perm h hl)
  have hc' : IsFactor ((g.M.data (rawOf g.noise (g'.train lies'))).kmat g.M.k) (g'.chol _ ((g.M.data (rawOf g.noise (g'.train lies'))).kmat g.M.k)) :=
    hg'.chol _ _ (posDef hg _ fun _ => rfl)
  have key := DataOrder.C157_predict (g.st lies) (rawOf g.noise (g'.train lies')) (g'.chol _) f hf (hg.chol _ _ (posDef hg _ fun _ => rfl)) hc' X ign
  have e : g'.st lies' = ⟨(g.st lies).fitted, (g.st lies).prior, (g.st lies).M, g'.chol _, rawOf g.noise (g'.train lies'), (g.st lies).svm, (g.st lies).trust,
      (g.st lies).clip, (g.st lies).minf⟩ := by
    unfold Surr.st
    rw [h.M, h.noise, h.clf, h.prior, h.trust, h.clip]
  rw [e]
  exact key

theorem C157_cond {g g' : Surr d} (hg : Ok g) (hg' : Ok g') (h : Reordered g g') {lies lies' : List (List ℝ × Ext ℝ)} (hl : lies'.Perm lies)
    (k : Proposed.Kind) (zeta baseline : ℝ) (x : List ℝ) (y : Ext ℝ) : g'.cond k zeta baseline lies' x y = g.cond k zeta baseline lies x y := by
  unfold Surr.cond
  rw [(C157_surrogate hg hg' h (hl.map _) [pt d x] false).2, h.noise]

/-- What `multi_add` uses is the Gaussian process `g`, and an acquisition function relative to `baseline`. -/
structure Of (k : Proposed.Kind) (zeta baseline : ℝ) (g : Surr d) (q : Par ℝ EReal) : Prop where
  pred : ∀ x, (g.st []).predict [pt d x] false = .ok ([(q.pred x).1], [(q.pred x).2])
  acq : ∀ mu std, q.acq mu std = toV (k.f zeta g.noise baseline mu std)
  cond : q.cfg.cond = g.cond k zeta baseline

/-- **C157** for NORA, gp_acquisition.py:978-1137, whatever the number of processes: with the training points in another order each process does the
same, exchange of messages included: the same points are proposed with the same predictions, or the same exception is raised. -/
theorem C157_nora {g g' : Surr d} (hg : Ok g) (hg' : Ok g') (h : Reordered g g') (k : Proposed.Kind) (zeta baseline : ℝ) (q q' : Par ℝ EReal)
    (hq : Of k zeta baseline g q) (hq' : Of k zeta baseline g' q')
    (same : q'.n = q.n ∧ q'.m = q.m ∧ q'.force = q.force ∧ q'.inB = q.inB ∧ q'.cfg.argsortDesc = q.cfg.argsortDesc ∧ q'.order = q.order ∧ q'.x0 = q.x0 ∧ q'.a0 = q.a0)
    (p r : ℕ) (draw : Prog AErr (Option (List (List ℝ) × Option (List ℝ)))) (s : PState ℝ) :
    multiAdd p r q' draw s = multiAdd p r q draw s := by
  obtain ⟨s1, s2, s3, s4, s5, s6, s7, s8⟩ := same
  have hp : q'.pred = q.pred := by
    funext x
    have h1 := hq'.pred x
    rw [(C157_surrogate hg hg' h (List.Perm.refl []) [pt d x] false).1, hq.pred x] at h1
    simp only [Except.ok.injEq, Prod.mk.injEq, List.cons.injEq, and_true] at h1
    exact Prod.ext h1.1.symm h1.2.symm
  have ha : q'.acq = q.acq := by
    funext mu std
    rw [hq'.acq, hq.acq, h.noise]
  have hc : q'.cfg.cond = q.cfg.cond := by
    rw [hq'.cond, hq.cond]
    funext l x y
    exact C157_cond hg hg' h (List.Perm.refl l) k zeta baseline x y
  have e : q' = q := by
    obtain ⟨n, m, fo, pr, inB, ac, ⟨co, ar⟩, o, x0, a0⟩ := q
    obtain ⟨n', m', fo', pr', inB', ac', ⟨co', ar'⟩, o', x0', a0'⟩ := q'
    simp only at s1 s2 s3 s4 s5 s6 s7 s8 hp ha hc
    subst s1 s2 s3 s4 s5 s6 s7 s8 hp ha hc
    rfl
  rw [e]

/-! ## Examples -/

/-- `exG` with its two training points in the other order. -/
noncomputable def revG : Surr 2 := { exG with all := exG.all.reverse }

theorem revG_ok : Ok revG := ⟨cxG_ok.kernel, cxG_ok.scale, cxG_ok.noise, cxG_ok.chol, by rintro c hc; cases hc⟩

theorem revG_reordered : Reordered exG revG := ⟨List.reverse_perm _, rfl, rfl, rfl, rfl, rfl, rfl⟩

theorem exUse_of (g : Surr 2) (h : g.clf = none ∧ g.trust = none ∧ g.clip = none) : Of .linear 1 1 g (exUse g 1) :=
  ⟨exUse_pred g h.1 h.2.1 h.2.2 1, fun _ _ => rfl, rfl⟩

example : revG.all ≠ exG.all := by
  intro h
  have := congrArg (fun l => l.map Prod.snd) h
  simp [revG, exG, cxG] at this

example (r : Fin 2) : multiAdd 2 r (exUse revG 1) (exDrawn id r) (exAgain r) = multiAdd 2 r (exUse exG 1) (exDrawn id r) (exAgain r) :=
  C157_nora exG_ok revG_ok revG_reordered .linear 1 1 (exUse exG 1) (exUse revG 1) (exUse_of exG exG_plain) (exUse_of revG exG_plain)
    ⟨rfl, rfl, rfl, rfl, rfl, rfl, rfl, rfl⟩ 2 r (exDrawn id r) (exAgain r)

example (k : Proposed.Kind) (x : List ℝ) : revG.cond k 1 1 [([3, 0], .fin 1), ([0, 3], .fin 2)] x (.fin 0) = exG.cond k 1 1 [([0, 3], .fin 2), ([3, 0], .fin 1)] x (.fin 0) :=
  C157_cond exG_ok revG_ok revG_reordered (List.Perm.swap _ _ _) k 1 1 x (.fin 0)

/-- With a classifier. -/
example (X : List (Fin 2 → ℝ)) : ((⟨cxG.M, cxG.chol, cxG.all.reverse, cxG.noise, cxG.clf, cxG.prior, cxG.trust, cxG.clip⟩ : Surr 2).st []).predict X false = (cxG.st []).predict X false :=
  (C157_surrogate cxG_ok (g' := ⟨cxG.M, cxG.chol, cxG.all.reverse, cxG.noise, cxG.clf, cxG.prior, cxG.trust, cxG.clip⟩)
    ⟨cxG_ok.kernel, cxG_ok.scale, cxG_ok.noise, cxG_ok.chol, cxG_ok.trained⟩ ⟨List.reverse_perm _, rfl, rfl, rfl, rfl, rfl, rfl⟩ (List.Perm.refl []) X false).1

end GPry.PoolGp
