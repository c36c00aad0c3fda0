import Verif.DataOrderNora
import Verif.DataOrderBatch

set_option linter.all false

/-!
# The order of the training points in `BatchOptimizer`, with the Gaussian process (C157)

The engine of `Verif.Batch` with the surrogate `Surr` of `Verif.PoolGp`: the copy `gpr_` is the surrogate and the lies appended so far. Neither
hyperparameters, preprocessors nor classifier are fitted when lies are appended (gp_acquisition.py:489-494); the trust region is.
-/

namespace GPry.PoolGp

open GPry Gp Predict Batch Spmd

variable {d : ℕ}

/-- `gpr_`: the surrogate, and the points appended to it with the values predicted. -/
abbrev Lied (d : ℕ) := Surr d × List ((Fin d → ℝ) × Ext ℝ)

/-- What `BatchOptimizer` uses besides the surrogate. `region`: the trust region of a training set (gpr.py:1011-1028). `f`: the acquisition
function, of `y_max`, mean and standard deviation. `opt`: the local optimiser (of minus the function given), which calls the function and nothing else. -/
structure Use (d : ℕ) where
  region : Multiset ((Fin d → ℝ) × Ext ℝ) → Option (Fin d → ℝ × ℝ)
  f : Ext ℝ → Ext ℝ → ℝ → Ext ℝ
  opt : ((Fin d → ℝ) → Ext ℝ) → (Fin d → ℝ) → (Fin d → ℝ × ℝ) → (Fin d → ℝ) × Ext ℝ
  isIn : (Fin d → ℝ × ℝ) → (Fin d → ℝ) → Bool
  prior : Fin d → ℝ × ℝ
  nRep : ℕ
  nRestarts : ℕ
  props : ℕ → ℕ → List (Fin d → ℝ)

/-- gpr.py:750-752, 1011-1028: the surrogate with the trust region of its training set. -/
noncomputable def Use.cur (u : Use d) (s : Lied d) : Surr d := { s.1 with trust := u.region ↑(s.1.train s.2) }

/-- gpr.py:1030-1352 `predict(x, return_std=True)` for one point (`NaN` and 0 stand for an exception). -/
noncomputable def Use.pred (u : Use d) (s : Lied d) (x : Fin d → ℝ) : Ext ℝ × ℝ :=
  match ((u.cur s).st s.2).predict [x] false with
  | .ok ([m], [v]) => (m, v)
  | _ => (.nan, 0)

/-- acquisition_functions.py: the acquisition function at a point; `y_max` is the largest value of the training set. -/
noncomputable def Use.acq (u : Use d) (s : Lied d) (x : Fin d → ℝ) : Ext ℝ :=
  u.f ((Ext.npMax ((s.1.train s.2).map Prod.snd)).getD .negInf) (u.pred s x).1 (u.pred s x).2

/-- gp_acquisition.py:270-500 with the Gaussian process. -/
noncomputable def Use.cfg (u : Use d) : Cfg (Lied d) (Fin d → ℝ) (Fin d → ℝ × ℝ) ℝ where
  env :=
    { isIn := u.isIn
      train := fun s => (s.1.train s.2).map Prod.fst
      acq := u.acq
      loc := fun s x b => u.opt (u.acq s) x b
      prior := u.prior
      nRep := u.nRep }
  nRestarts := u.nRestarts
  props := u.props
  predict := fun s x => (u.pred s x).1
  append := fun s x y => .ok (s.1, s.2 ++ [(x, y)])

/-- The last training point within the bounds is the same: among all the training points, and, with a classifier, whatever values it excludes. -/
def SameStart (isIn : (Fin d → ℝ) → Bool) (g g' : Surr d) : Prop :=
  ∀ f : Ext ℝ → Bool, (g.clf = none → ∀ y, f y = true) →
    ((g'.all.filter fun q => f q.2).map Prod.fst).reverse.find? isIn = ((g.all.filter fun q => f q.2).map Prod.fst).reverse.find? isIn

theorem start_append (isIn : (Fin d → ℝ) → Bool) {g g' : Surr d} (h : Reordered g g') (hs : SameStart isIn g g') (lies : List ((Fin d → ℝ) × Ext ℝ)) :
    ((g'.train lies).map Prod.fst).reverse.find? isIn = ((g.train lies).map Prod.fst).reverse.find? isIn := by
  have hi : ∀ {a a' : List ((Fin d → ℝ) × Ext ℝ)}, a'.Perm a → (fun q : (Fin d → ℝ) × Ext ℝ => g'.isFin (a'.map Prod.snd) q.2) = fun q => g.isFin (a.map Prod.snd) q.2 := by
    intro a a' ha
    funext q
    unfold Surr.isFin
    rw [h.clf, npMax_perm' (ha.map Prod.snd)]
  have hall := h.all.append (List.Perm.refl lies)
  have key : ∀ a : List ((Fin d → ℝ) × Ext ℝ), ((g'.all.filter fun q => g.isFin (a.map Prod.snd) q.2).map Prod.fst).reverse.find? isIn =
      ((g.all.filter fun q => g.isFin (a.map Prod.snd) q.2).map Prod.fst).reverse.find? isIn := by
    intro a
    refine hs (fun y => g.isFin (a.map Prod.snd) y) fun hc y => ?_
    unfold Surr.isFin
    rw [hc]
  unfold Surr.train
  rw [hi hall, hi h.all]
  split
  · have k2 := key (g.all ++ lies)
    revert k2
    generalize (fun q : (Fin d → ℝ) × Ext ℝ => g.isFin ((g.all ++ lies).map Prod.snd) q.2) = F
    intro k2
    simp only [List.filter_append, List.map_append, List.reverse_append, List.find?_append, k2]
  · exact key _

theorem cur_reordered (u : Use d) {g g' : Surr d} (h : Reordered g g') (lies : List ((Fin d → ℝ) × Ext ℝ)) :
    Reordered (u.cur (g, lies)) (u.cur (g', lies)) := by
  refine ⟨h.all, h.M, h.noise, h.clf, h.prior, ?_, h.clip⟩
  show u.region _ = u.region _
  rw [Multiset.coe_eq_coe.2 (train_perm h (List.Perm.refl lies))]

theorem cur_ok (u : Use d) {g : Surr d} (h : Ok g) (lies : List ((Fin d → ℝ) × Ext ℝ)) : Ok (u.cur (g, lies)) :=
  ⟨h.kernel, h.scale, h.noise, h.chol, h.trained⟩

theorem pred_reordered (u : Use d) {g g' : Surr d} (hg : Ok g) (hg' : Ok g') (h : Reordered g g') (lies : List ((Fin d → ℝ) × Ext ℝ)) (x : Fin d → ℝ) :
    u.pred (g', lies) x = u.pred (g, lies) x := by
  unfold Use.pred
  rw [(C157_surrogate (cur_ok u hg lies) (cur_ok u hg' lies) (cur_reordered u h lies) (List.Perm.refl lies) [x] false).1]

theorem acq_reordered (u : Use d) {g g' : Surr d} (hg : Ok g) (hg' : Ok g') (h : Reordered g g') (lies : List ((Fin d → ℝ) × Ext ℝ)) (x : Fin d → ℝ) :
    u.acq (g', lies) x = u.acq (g, lies) x := by
  unfold Use.acq
  rw [pred_reordered u hg hg' h, npMax_perm' ((train_perm h (List.Perm.refl lies)).map Prod.snd)]

/-- **C157** for `BatchOptimizer` and the Gaussian process, gp_acquisition.py:270-500: with the training points in another order, in which the last one
within the bounds is the same, each number of processes proposes the same batch, with the same lies and the same values. (Nothing else of the order
matters; that this point does is `C157_batch_counterexample`.) -/
theorem C157_batch_gp_partial (u : Use d) (bounds : Option (Fin d → ℝ × ℝ)) {g g' : Surr d} (hg : Ok g) (hg' : Ok g') (h : Reordered g g')
    (hs : SameStart (u.isIn (bounds.getD u.prior)) g g') (n : ℤ) :
    (∀ e, multiAdd u.cfg bounds n (g, []) = .error e → multiAdd u.cfg bounds n (g', []) = .error e) ∧
    ∀ w outs, multiAdd u.cfg bounds n (g, []) = .ok (w, outs) → (∃ w', multiAdd u.cfg bounds n (g', []) = .ok (w', outs)) ∧
      ∀ p, 0 < p → Runs (fun r : Fin p => multiAddPar u.cfg bounds n (g', []) p r.val) fun _ => .ok outs := by
  have ha : Alike u.cfg (bounds.getD u.cfg.env.prior) (fun s s' : Lied d => s.1 = g ∧ s'.1 = g' ∧ s'.2 = s.2) := by
    refine ⟨?_, ?_, ?_, ?_, ?_⟩ <;> rintro ⟨a, l⟩ ⟨a', l'⟩ ⟨h1, h2, h3⟩ <;> (dsimp only at h1 h2 h3; subst h1 h2 h3)
    · exact fun x => acq_reordered u hg hg' h l' x
    · intro x
      show u.opt (u.acq _) x _ = u.opt (u.acq _) x _
      rw [funext (acq_reordered u hg hg' h l')]
    · exact start_append _ h hs l'
    · exact fun x => congrArg Prod.fst (pred_reordered u hg hg' h l' x)
    · exact fun x => ⟨rfl, rfl, rfl⟩
  obtain ⟨h0, h1⟩ := C157_batch_partial u.cfg bounds _ ha n (s := (g, [])) (s' := (g', [])) ⟨rfl, rfl, rfl⟩
  constructor
  · intro e he
    rw [he] at h0
    cases hq : multiAdd u.cfg bounds n (g', []) with
    | error e' => rw [hq] at h0; exact congrArg _ h0
    | ok r => rw [hq] at h0; exact h0.elim
  · intro w outs hw
    refine ⟨?_, fun p hp => (h1 p hp w outs hw).2⟩
    rw [hw] at h0
    cases hq : multiAdd u.cfg bounds n (g', []) with
    | error e' => rw [hq] at h0; exact h0.elim
    | ok r =>
      rw [hq] at h0
      exact ⟨r.1, congrArg Except.ok (Prod.ext rfl h0.2)⟩

/-! ## Examples -/

/-- Three training points; the first two in another order. -/
noncomputable def triG (swap : Bool) : Surr 2 :=
  { exG with all := (if swap then exG.all.reverse else exG.all) ++ [(fun _ => 1, .fin 0)] }

theorem triG_ok (b : Bool) : Ok (triG b) := ⟨cxG_ok.kernel, cxG_ok.scale, cxG_ok.noise, cxG_ok.chol, by rintro c hc; cases hc⟩

theorem triG_reordered : Reordered (triG false) (triG true) := ⟨(List.reverse_perm _).append_right _, rfl, rfl, rfl, rfl, rfl, rfl⟩

/-- Bounds of 0 and 5 for the first coordinate; the optimiser takes the better of the starting point and a step further. -/
noncomputable def triUse : Use 2 :=
  { region := fun _ => none
    f := fun _ m v => match m with | .fin m => .fin (m + v) | _ => .negInf
    opt := fun a x _ => if Ext.lt (a x) (a (x + 1)) then (x + 1, (a (x + 1)).neg) else (x, (a x).neg)
    isIn := fun _ x => decide (0 ≤ x 0 ∧ x 0 ≤ 5)
    prior := fun _ => (0, 5)
    nRep := 1
    nRestarts := 1
    props := fun _ _ => [] }

theorem triStart : SameStart (triUse.isIn triUse.prior) (triG false) (triG true) := by
  intro f hf
  have hf' : ∀ y, f y = true := hf rfl
  have e : ∀ l : List ((Fin 2 → ℝ) × Ext ℝ), l.filter (fun q => f q.2) = l := fun l => List.filter_eq_self.2 fun q _ => hf' q.2
  rw [e, e]
  simp [triG, triUse]

theorem triAdds : ∃ w outs, multiAdd triUse.cfg none 1 (triG false, []) = .ok (w, outs) := by
  have ht : ((triUse.cfg.env.train (triG false, [])).reverse.find? (triUse.cfg.env.isIn triUse.prior)) = some fun _ => 1 := by
    show (((triG false).train []).map Prod.fst).reverse.find? _ = _
    have : (triG false).train [] = (triG false).all := by
      unfold Surr.train
      simp only [List.any_nil, Bool.false_eq_true, if_false]
      exact List.filter_eq_self.2 fun q _ => rfl
    rw [this]
    simp [triG, triUse, Use.cfg]
  unfold multiAdd
  rw [if_neg (by norm_num)]
  show ∃ w outs, serial triUse.cfg triUse.prior 1 1 (triG false, []) = _
  have hr : (rankLoop triUse.cfg.env (triG false, []) triUse.prior (triUse.cfg.props (1 - (0 + 1))) none (List.range triUse.cfg.nRestarts)).2 =
      .ok [triUse.cfg.env.loc (triG false, []) (fun _ => 1) triUse.prior] := by
    show (rankLoop _ _ _ _ _ [0]).2 = _
    simp only [rankLoop, optimise, if_true, ht]
    rfl
  simp only [serial, hr]
  generalize triUse.cfg.env.loc (triG false, []) (fun _ => 1) triUse.prior = q
  obtain ⟨x, v⟩ := q
  have hp : pick [v] = some 0 := by
    unfold pick
    cases v <;> simp [Ext.isFinite, argmin, argminGo, Ext.isNan]
  refine ⟨(triG false, []), [(x, triUse.cfg.predict (triG false, []) x, v.neg)], ?_⟩
  simp [choose, hp]

/-- The batch of one point of the first order is the one of the other, in any number of processes. -/
example (p : ℕ) (hp : 0 < p) : ∃ w outs, multiAdd triUse.cfg none 1 (triG false, []) = .ok (w, outs) ∧
    Runs (fun r : Fin p => multiAddPar triUse.cfg none 1 (triG true, []) p r.val) fun _ => .ok outs := by
  obtain ⟨w, outs, h⟩ := triAdds
  exact ⟨w, outs, h, ((C157_batch_gp_partial triUse none (triG_ok false) (triG_ok true) triG_reordered triStart 1).2 w outs h).2 p hp⟩

end GPry.PoolGp
