import Verif.Proposed
import Verif.Predict
import Verif.Gpr

set_option linter.all false

/-!
# What the pool of NORA asks of the surrogate

`RankedPool` conditions the acquisition function to the points that it holds with copies of the surrogate to which these points have been
appended with the values predicted at them. Real numbers, exact arithmetic, a single noise level; `keep_min_finite` is at most 1.
-/

namespace GPry.PoolGp

open GPry Acq Predict Proposed Gp

/-- The surrogate: `X_train_all` with `y_train_all`, the classifier with its threshold (`None`: no classifier), and what it predicts with. -/
structure Surr (d : ℕ) where
  M : Model (Fin d → ℝ)
  chol : ∀ m, Matrix (Fin m) (Fin m) ℝ → Matrix (Fin m) (Fin m) ℝ
  all : List ((Fin d → ℝ) × Ext ℝ)
  noise : ℝ
  clf : Option (Svm (Fin d → ℝ) × Ext ℝ)
  prior : (Fin d → ℝ) → ℝ
  trust : Option (Fin d → ℝ × ℝ)
  clip : Option ℝ

variable {d : ℕ}

/-- gpr.py:687-702: whether the value `y` is one of the training set, among `ys`. (`np.max` of no values raises.) -/
noncomputable def Surr.isFin (g : Surr d) (ys : List (Ext ℝ)) (y : Ext ℝ) : Bool :=
  match g.clf with
  | none => true
  | some (_, T) => Gpr.isFiniteRaw T ((Ext.npMax ys).getD .nan) y

/-- gp_acquisition.py:1549-1555 `cache_model` with gpr.py:683-743, `fit_gpr=False, fit_classifier=False`: the training set of the surrogate with
`lies` appended. If none of them is finite, the training set stays as it was (737-738). -/
noncomputable def Surr.train (g : Surr d) (lies : List ((Fin d → ℝ) × Ext ℝ)) : List ((Fin d → ℝ) × Ext ℝ) :=
  if lies.any fun q => g.isFin ((g.all ++ lies).map Prod.snd) q.2 then
    (g.all ++ lies).filter fun q => g.isFin ((g.all ++ lies).map Prod.snd) q.2
  else g.all.filter fun q => g.isFin (g.all.map Prod.snd) q.2

/-- A value of the training set. (Without a classifier it may be infinite; values do not enter the standard deviation.) -/
def num : Ext ℝ → ℝ
  | .fin v => v
  | _ => 0

/-- gpr.py:740-747, 715-719: with the same noise level for the new points. -/
def rawOf (noise : ℝ) (l : List ((Fin d → ℝ) × Ext ℝ)) : Raw (Fin l.length) (Fin d → ℝ) :=
  ⟨fun i => (l.get i).1, fun i => num (l.get i).2, fun _ => noise⟩

/-- The surrogate with `lies` appended. Neither the preprocessors nor the classifier are fitted again. (The trust region is: `predict_std` does
not use it.) -/
noncomputable def Surr.st (g : Surr d) (lies : List ((Fin d → ℝ) × Ext ℝ)) : St d (g.train lies).length :=
  { fitted := true, prior := g.prior, M := g.M, chol := g.chol _, R := rawOf g.noise (g.train lies), svm := g.clf.map Prod.fst,
    trust := g.trust, clip := g.clip, minf := .negInf }

/-- gp_acquisition.py:1356-1357, 1481-1488, 1631-1637: the acquisition function at `x`, of predicted mean `y`, given the points `lies` of the
pool. The `baseline` is the one of the surrogate without lies (1049-1050). Means are numbers or `-inf` (C14). -/
noncomputable def Surr.cond (g : Surr d) (k : Kind) (zeta baseline : ℝ) (lies : List (List ℝ × Ext ℝ)) (x : List ℝ) (y : Ext ℝ) : Option EReal :=
  match (g.st (lies.map fun q => (pt d q.1, q.2))).predictStd [pt d x], y with
  | .ok [s], .fin m => toV (k.f zeta g.noise baseline (.fin m) s)
  | .ok [s], .negInf => toV (k.f zeta g.noise baseline .negInf s)
  | _, _ => some ⊥

end GPry.PoolGp
