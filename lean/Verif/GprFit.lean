import Verif.Gpr
import Verif.Batch
import Verif.KernelHyp
import Mathlib.Analysis.SpecialFunctions.Pow.Real

set_option linter.all false

/-!
# Construction of the regressor, fit of its hyperparameters, and questions asked to it (gpry/gpr.py)
-/

namespace GPry.GprFit

open GPry.Gpr (Err PreY Svm isFiniteRaw mapE)

/-! ## Fit of the hyperparameters -/

section Fit
variable {K : Type} [Field K] [LinearOrder K]

/-- Bounds of the hyperparameters; they may be infinite. -/
abbrev Bounds (K : Type) := List (Ext K × Ext K)

/-- What the fit depends on. -/
structure Cfg (K : Type) where
  /-- `optimizer is not None` -/
  optimizer : Bool
  /-- `n_restarts_optimizer` -/
  nRestarts : ℕ
  /-- `kernel.theta`; `n_dims` is its length -/
  theta0 : List K
  /-- `kernel_.bounds` -/
  bounds : Bounds K
  /-- numbers in [0, 1): run and component -/
  unif : ℕ → ℕ → K
  /-- `_constrained_optimization` (gpr.py:1435-1451): hyperparameters and value of the objective, minus the log-marginal likelihood -/
  opt : List K → Bounds K → List K × Ext K
  /-- log-marginal likelihood -/
  lml : List K → Ext K

structure St (K : Type) where
  /-- `theta` of `kernel_`, or `kernel_ is None` -/
  theta : Option (List K)
  fitted : Bool
  /-- `log_marginal_likelihood_value_` -/
  lmlValue : Option (Ext K)
deriving DecidableEq

/-- `Ext` as a number; only used for finite values. -/
def val (e : Ext K) : K := match e with
  | .fin x => x
  | _ => 0

/-- gpr.py:976-978 `rng.uniform(lower, upper)` in run `i`; only called for finite bounds. -/
def draw (unif : ℕ → ℕ → K) (i : ℕ) (b : Bounds K) : List K :=
  b.zipIdx.map fun q => val q.1.1 + (val q.1.2 - val q.1.1) * unif i q.2

/-- gpr.py:971-978: initial values of run `i`. -/
def startOf (c : Cfg K) (cur : List K) (start : Bool) (b : Bounds K) (i : ℕ) : List K :=
  if i = 0 ∧ start = true then cur else draw c.unif i b

/-- gpr.py:883-994 `fit_gpr_hyperparameters(simple, start_from_current, n_restarts, hyperparameter_bounds)` without the final
`_update_model` (in `Verif/Gpr.lean`). Returns the state, and the initial values of the runs of the optimiser. -/
def fit (c : Cfg K) (simple startArg : Bool) (nArg : Option ℕ) (bArg : Option (Bounds K)) (s : St K) : Except Err (St K × List (List K)) :=
  let start := (simple || startArg) && s.fitted
  let n := if simple then 1 else nArg.getD c.nRestarts
  if c.optimizer = false ∨ c.theta0.length = 0 ∨ n = 0 then
    match s.theta with
    | none => .error .attributeError
    | some th => .ok ({ s with lmlValue := some (c.lml th) }, [])
  else
    let cur := s.theta.getD c.theta0
    let b := bArg.getD c.bounds
    if n - (if start then 1 else 0) ≠ 0 ∧ ¬ (b.all fun q => q.1.isFinite && q.2.isFinite) = true then .error .valueError
    else
      let starts := (List.range n).map (startOf c cur start b)
      let optima := starts.map fun t => c.opt t b
      match Batch.argmin (optima.map Prod.snd) with
      | none => .error .valueError
      | some k => match optima[k]? with
        | none => .error .indexError
        | some o => .ok (⟨some o.1, true, some o.2.neg⟩, starts)

end Fit

/-! ## Constructor -/

section Init
variable {K : Type} [Field K] [LinearOrder K]

/-- `account_for_inf` -/
inductive Inf
  /-- "SVM", in any case -/
  | svm
  /-- `False` or `None` -/
  | no
  /-- another classifier -/
  | object
deriving DecidableEq

/-- `kernel` -/
inductive KernArg
  | object
  | name (s : String)
  /-- a dictionary -/
  | dict (keys : List String)
deriving DecidableEq

/-- Arguments of the constructor. `thr`: what `get_Xnumber(inf_threshold, "s", None, dtype=float)` returns: value, whether in units of
sigma, power; or `ValueError`. -/
structure Args (K : Type) where
  /-- `len(bounds)` -/
  dim : Option ℕ
  clip : Option K
  inf : Inf
  thr : Option (Except Err (K × Bool × Option K))
  keepMin : Option ℕ
  kernel : KernArg

/-- What the constructor sets. -/
structure Made (K : Type) where
  dim : ℕ
  keepMin : ℕ
  /-- `_diff_threshold` (only set with a classifier) -/
  diffThr : Option K
  /-- name of the standard kernel, if one is built -/
  auto : Option String
deriving DecidableEq

/-- gpr.py:391-396, property `d`. `X_train` is not yet set during the construction. -/
def Args.d (a : Args K) : Except Err ℕ := match a.dim with
  | none => .error .attributeError
  | some n => .ok n

/-- gpr.py:295-297 -/
def Args.keep (a : Args K) : Except Err ℕ := match a.keepMin with
  | some m => .ok m
  | none => match a.d with
    | .error e => .error e
    | .ok n => .ok (max 2 n)

/-- gpr.py:298-327; `deltaLogp` is `compute_threshold_given_sigma`. -/
def Args.threshold (deltaLogp : K → ℕ → K) (a : Args K) : Except Err (Option K) :=
  match a.inf with
  | .no => .ok none
  | _ => match a.thr with
    | none => .error .valueError
    | some (.error e) => .error e
    | some (.ok (v, sigma, power)) =>
      match power with
      | some _ => .error .valueError
      | none =>
        if sigma then match a.d with
          | .error e => .error e
          | .ok n => .ok (some (deltaLogp v n))
        else .ok (some v)

/-- gpr.py:329-349 (`lower` is `str.lower`): the name of the standard kernel. -/
def Args.kern (lower : String → String) (a : Args K) : Except Err (Option String) :=
  match a.kernel with
  | .object => .ok none
  | .name s =>
    match a.dim with
    | none => .error .valueError
    | some _ => if lower s = "rbf" ∨ lower s = "matern" then .ok (some (lower s)) else .error .valueError
  | .dict keys =>
    match keys with
    | [s] =>
      match a.dim with
      | none => .error .valueError
      | some _ => if lower s = "rbf" ∨ lower s = "matern" then .ok (some (lower s)) else .error .valueError
    | _ => .error .valueError

/-- gpr.py:265-375 `__init__`: what is checked and set. Not modelled: warnings, the arguments of the standard kernel (see
`KernelHyp.defaultKernel`). -/
def init (deltaLogp : K → ℕ → K) (lower : String → String) (a : Args K) : Except Err (Made K) :=
  -- gpr.py:280-282
  match a.clip with
  | none => .error .typeError
  | some f =>
    if f < 1 then .error .valueError
    else match a.keep with
      | .error e => .error e
      | .ok m => match a.threshold deltaLogp with
        | .error e => .error e
        | .ok t => match a.kern lower with
          | .error e => .error e
          | .ok k => match a.d with -- gpr.py:370
            | .error e => .error e
            | .ok n => .ok ⟨n, m, t, k⟩

end Init

/-! ## Classification of values -/

section Classify
variable {K : Type} [Field K] [LinearOrder K]

/-- svm.py:297-306 `SVM.is_finite`; `trained` says that `y_train is not None`. -/
def svmIsFinite (s : Svm K) (trained : Bool) (ys : List (Ext K)) : Except Err (List Bool) :=
  if !trained then .error .valueError
  else match s.diffThreshold, s.maxY with
    | some t, some m => .ok (ys.map (isFiniteRaw t m))
    | _, _ => .error .typeError

/-- gpr.py:509-524 `is_finite`. -/
def isFinite (useSvm : Bool) (py : PreY K) (s : Svm K) (trained : Bool) (ys : List (Ext K)) : Except Err (List Bool) :=
  if !useSvm then .ok (ys.map fun _ => true)
  else match mapE py.transform ys with
    | .error e => .error e
    | .ok ys' => svmIsFinite s trained ys'

/-- preprocessing.py:627-630 `inverse_transform_scale`. -/
def invScale : PreY K → Ext K → Except Err (Ext K)
  | .unfitted, _ => .error .typeError
  | .aff _ s, y => .ok (match y with
    | .fin v => .fin (v * s)
    | i => if s = 0 then .nan else if s < 0 then i.neg else i)
  | .nanAff, _ => .ok .nan

/-- gpr.py:499-507 `abs_finite_threshold` with svm.py:213-218. -/
def absThreshold (useSvm : Bool) (py : PreY K) (s : Svm K) : Except Err (Ext K) :=
  if !useSvm then .error .attributeError
  else match s.diffThreshold, s.maxY with
    | some t, some m => invScale py (m.sub t)
    | _, _ => .error .typeError

/-- gpr.py:526-540 `predict_is_finite` with svm.py:308-348. `nAll` is `len(y_train_all)`, `decision` the support vector machine. -/
def predictIsFinite {P : Type*} (useSvm : Bool) (nAll : ℕ) (s : Svm K) (trained : Bool) (decision : P → Bool) (xs : List P) : Except Err (List Bool) :=
  if !useSvm then .ok (List.replicate nAll true)
  else if !trained then .error .valueError
  else if s.allFinite then .ok (xs.map fun _ => true)
  else if !s.atLeastOneFinite then .ok (xs.map fun _ => false)
  else .ok (xs.map decision)

end Classify

/-! ## Scales -/

/-- X-preprocessor as far as scales matter. -/
inductive PreX
  | dummy
  /-- `Normalize_bounds`, with the widths of the bounds -/
  | normalize (width : List ℝ)
  /-- no method `inverse_transform_scale` -/
  | whitening

/-- preprocessing.py:397-412 and 53-55: `inverse_transform_scale` of the length scale. -/
noncomputable def PreX.invScale : PreX → KernelHyp.Val ℝ → Except Err (KernelHyp.Val ℝ)
  | .dummy, v => .ok v
  | .normalize w, .scalar l => .ok (.vec (w.map (l * ·)))
  | .normalize w, .vec ls => if ls.length = w.length then .ok (.vec (List.zipWith (· * ·) ls w)) else .error .valueError
  | .whitening, _ => .error .attributeError

/-- gpr.py:477-488 `scales`, for `kernel_` the product of a constant and a kernel with length scale; `std` is the scale of the
y-preprocessor. `tuple` of a number raises. -/
noncomputable def scales (px : PreX) (std : ℝ) (const : ℝ) (len : KernelHyp.Val ℝ) : Except Err (ℝ × List ℝ) :=
  match px.invScale len with
  | .error e => .error e
  | .ok (.scalar _) => .error .typeError
  | .ok (.vec ls) => .ok (√const * std, ls)

end GPry.GprFit
