import Verif.Ext

/-!
# Model of the data handling of `gpry/gpr.py` (`GaussianProcessRegressor`) and of `gpry/svm.py`

Numbers are `Ext K` where special values matter.  Points are an arbitrary type `P`.  The preprocessors,
the hyperparameter optimiser and the success of the Cholesky decomposition are arbitrary functions
collected in `Cfg`.  Warnings, timers, and the numerical content of the fit are left out; instead of
the matrices `L_`, `V_`, `alpha_`, the model records *from which data* they were computed (`Factors`).
-/

namespace GPry.Gpr

variable {K : Type*} [Field K] [LinearOrder K]

/-- Python exceptions of the modelled code. -/
inductive Err
  | typeError | valueError | indexError | attributeError | assertionError | linAlgError
deriving DecidableEq, Repr

/-! ## Target preprocessing (affine), preprocessing.py:29-55, 528-684 -/

/-- State of a y-preprocessor: not fitted yet, `y ↦ (y - m)/s`, or fitted on an empty array, in which
case numpy yields `mean_ = std_ = nan`. `DummyPreprocessor` is `aff 0 1`. -/
inductive PreY (K : Type*)
  | unfitted
  | aff (m s : K)
  | nanAff
deriving DecidableEq, Repr

/-- preprocessing.py:588-603 `transform`, element-wise. -/
def PreY.transform : PreY K → Ext K → Except Err (Ext K)
  | .unfitted, _ => .error .typeError
  | .aff m s, y => .ok ((y.subFin m).divFin s)
  | .nanAff, _ => .ok .nan

/-- preprocessing.py:622-625 `transform_scale`, element-wise. -/
def PreY.transformScale : PreY K → Ext K → Except Err (Ext K)
  | .unfitted, _ => .error .typeError
  | .aff _ s, y => .ok (y.divFin s)
  | .nanAff, _ => .ok .nan

/-! ## SVM, svm.py:204-306 -/

/-- svm.py:273-295 `_is_finite_raw`, for one value and an explicit maximum. -/
def isFiniteRaw (thr maxY y : Ext K) : Bool := y.ge (maxY.sub thr) && y.isFinite

/-- What the SVM remembers (svm.py:175-181); the decision function is not modelled here. -/
structure Svm (K : Type*) where
  yTrain : List (Ext K)
  yFinite : List Bool
  atLeastOneFinite : Bool
  allFinite : Bool
  diffThreshold : Option (Ext K)
  maxY : Option (Ext K)
deriving DecidableEq

/-- Untrained SVM (svm.py:175-181). -/
def Svm.init : Svm K := ⟨[], [], false, false, none, none⟩

/-- svm.py:227-271 `fit`. `super().fit` of scikit-learn raises `ValueError` if there is a single class;
that can only be the class `False` at that point. -/
def Svm.fit (s : Svm K) (y : List (Ext K)) (thr : Ext K) : Svm K × Except Err (List Bool) :=
  if y.all (fun v => v.eqv .negInf) then
    -- svm.py:253-256 (also for no points at all)
    let f := y.map fun _ => false
    ({ s with yTrain := y, atLeastOneFinite := false, yFinite := f }, .ok f)
  else
    match Ext.pyMax y with
    | none => (s, .error .valueError)  -- unreachable: `y` is not empty here
    | some m =>
      let f := y.map (isFiniteRaw thr m)
      let s' := { s with yTrain := y, atLeastOneFinite := true, diffThreshold := some thr,
                         maxY := some m, yFinite := f }
      if f.all id then ({ s' with allFinite := true }, .ok f)
      else
        let s'' := { s' with allFinite := false }
        if f.any id then (s'', .ok f) else (s'', .error .valueError)

/-! ## Threshold, gpr.py:1475-1488 -/

/-- gpr.py:1475-1488 `_diff_threshold_if_keep_n_finite`. An empty `y` makes `y_sorted[-1]` raise. -/
def diffThresholdKeepN (eps : K) (y : List (Ext K)) (n : ℕ) (ref : Ext K) : Except Err (Ext K) :=
  if n ≤ 1 then .ok ref
  else
    let ys := Ext.sort y
    match ys.getLast?, ys[ys.length - min n ys.length]? with
    | some top, some nth => .ok (Ext.pyMax2 ref ((top.sub nth).addFin eps))
    | _, _ => .error .indexError

/-- gpr.py:700-702 with svm.py:290-295: classification with `max_y = np.max(y)`. -/
def isFiniteAll (thr : Ext K) (y : List (Ext K)) : Except Err (List Bool) :=
  match Ext.npMax y with
  | none => .error .valueError
  | some m => .ok (y.map (isFiniteRaw thr m))

/-! ## Noise levels -/

/-- `noise_level` attribute or argument: a scalar or an array. -/
inductive Noise (K : Type*)
  | scalar (k : K)
  | array (ks : List K)
deriving DecidableEq, Repr

/-- gpr.py:755-785 `_validate_noise_level`. -/
def validateNoise (self : Noise K) (arg : Option (Noise K)) (n : ℕ) :
    Except Err (Option (Noise K)) :=
  if n = 0 ∧ arg.isSome then .error .valueError
  else match arg with
  | some (.array ks) => if ks.length ≠ n then .error .valueError else .ok (some (.array ks))
  | some (.scalar k) =>
    match self with
    | .array _ => .ok (some (.array (List.replicate n k)))
    | .scalar _ => .ok (some (.scalar k))
  | none =>
    match self with
    | .array _ => .error .valueError
    | .scalar _ => .ok none

/-- `np.isclose(a, b)` with default tolerances. -/
def isClose (a b : K) : Bool := decide (|a - b| ≤ 1 / 100000000 + 1 / 100000 * |b|)

/-- gpr.py:787-817 `_update_noise_level`; `nAll` is `len(self.y_train_all)`, which at this point already
counts the new points (gpr.py:683-684). -/
def updateNoise (self : Noise K) (arg : Option (Noise K)) (nAll : ℕ) : Except Err (Noise K) :=
  match arg with
  | some (.array ks) =>
    match self with
    | .scalar s => .ok (.array (List.replicate nAll s ++ ks))
    | .array old => .ok (.array (old ++ ks))
  | some (.scalar k) =>
    match self with
    | .array _ => .error .assertionError
    | .scalar s => .ok (if isClose k s then .scalar s else .scalar k)
  | none => .ok self

/-! ## State and configuration -/

/-- The data from which `L_`, `V_`, `alpha_` were last computed (gpr.py:1015-1017, 1453-1465). -/
structure Factors (P Θ K : Type*) where
  xs : List P
  ys : List (Ext K)
  noiseVar : List (Ext K)
  theta : Θ

/-- Configuration and oracles. -/
structure Cfg (P PX Θ K : Type*) where
  /-- `infinities_classifier is not None` -/
  useSvm : Bool
  /-- `keep_min_finite` (gpr.py:295-297) -/
  keepMin : ℕ
  /-- `_diff_threshold` (gpr.py:319-327) -/
  thr : Ext K
  /-- the constant `1e-6` of gpr.py:1476 -/
  eps : K
  /-- `preprocessing_X.fit` -/
  fitX : PX → List P → List (Ext K) → PX
  /-- `preprocessing_X.transform` -/
  trX : PX → P → P
  /-- `preprocessing_y.fit` -/
  fitY : PreY K → List P → List (Ext K) → Except Err (PreY K)
  /-- `n_restarts_optimizer` -/
  nRestarts : ℕ
  /-- an optimizer and at least one free hyperparameter exist (gpr.py:921-922) -/
  canOptimise : Bool
  /-- result of the hyperparameter optimisation (gpr.py:968-989) -/
  optimise : List P → List (Ext K) → List (Ext K) → Option Θ → ℕ → Θ
  /-- whether the Cholesky decomposition succeeds (gpr.py:1455-1464) -/
  cholOk : List P → List (Ext K) → Θ → Bool

/-- Attributes of the regressor (gpr.py:272-375). -/
structure State (P PX Θ K : Type*) where
  xAll : List P
  yAll : List (Ext K)
  xTrain : List P
  yTrain : List (Ext K)
  px : PX
  py : PreY K
  /-- `X_train_`, `y_train_` (`[]` stands for the initial `None`) -/
  xTrain' : List P
  yTrain' : List (Ext K)
  noise : Noise K
  /-- `alpha` (noise variances of the training set, transformed) -/
  noiseVar : List (Ext K)
  svm : Svm K
  theta : Option Θ
  fitted : Bool
  factors : Option (Factors P Θ K)
  nLast : ℕ
  nLastFinite : ℕ
  newly : ℕ

variable {P PX Θ : Type*}

/-- gpr.py:265-375: freshly constructed regressor. -/
def State.init (px : PX) (py : PreY K) (noise : Noise K) : State P PX Θ K :=
  ⟨[], [], [], [], px, py, [], [], noise, [], Svm.init, none, false, none, 0, 0, 0⟩

/-! ## Helpers for numpy indexing -/

/-- Boolean mask indexing `xs[mask]` for equal lengths. -/
def maskL {α : Type*} : List Bool → List α → List α
  | true :: bs, x :: xs => x :: maskL bs xs
  | false :: bs, _ :: xs => maskL bs xs
  | _, _ => []

/-- Boolean mask indexing with numpy's length check. -/
def maskChecked {α : Type*} (m : List Bool) (xs : List α) : Except Err (List α) :=
  if m.length = xs.length then .ok (maskL m xs) else .error .indexError

/-- Python slice `xs[-n:]` for `n ≥ 0`; for `n = 0` it is the whole list. -/
def lastSlice {α : Type*} (n : ℕ) (xs : List α) : List α :=
  if n = 0 then xs else xs.drop (xs.length - n)

/-- Element-wise application that may raise. -/
def mapE {α β : Type*} (f : α → Except Err β) : List α → Except Err (List β)
  | [] => .ok []
  | a :: l => match f a with
    | .error e => .error e
    | .ok b => match mapE f l with
      | .error e => .error e
      | .ok bs => .ok (b :: bs)

/-! ## Fitting -/

/-- gpr.py:996-1020 `_update_model` and 1453-1465 `_kernel_inverse`.  Non-finite entries make scipy's
Cholesky/solve raise `ValueError`. -/
def updateModel (cfg : Cfg P PX Θ K) (st : State P PX Θ K) : State P PX Θ K × Option Err :=
  if st.newly < 1 then (st, none)
  else match st.theta with
  | none => (st, some .typeError)
  | some th =>
    if !(st.noiseVar.all Ext.isFinite && st.yTrain'.all Ext.isFinite) then (st, some .valueError)
    else if !cfg.cholOk st.xTrain' st.noiseVar th then (st, some .linAlgError)
    else ({ st with factors := some ⟨st.xTrain', st.yTrain', st.noiseVar, th⟩, newly := 0 }, none)

/-- gpr.py:883-994 `fit_gpr_hyperparameters(n_restarts=...)`. Calling it without any training data
fails inside the marginal likelihood. -/
def fitHyper (cfg : Cfg P PX Θ K) (nRestarts : Option ℕ) (st : State P PX Θ K) :
    State P PX Θ K × Option Err :=
  let n := nRestarts.getD cfg.nRestarts
  if n = 0 ∨ cfg.canOptimise = false then
    -- gpr.py:924-938
    match st.theta with
    | none => (st, some .attributeError)
    | some _ => updateModel cfg st
  else if st.xTrain'.isEmpty then (st, some .valueError)
  else
    let th := cfg.optimise st.xTrain' st.yTrain' st.noiseVar st.theta n
    match updateModel cfg { st with theta := some th } with
    | (st', some e) => (st', some e)
    | (st', none) => ({ st' with fitted := true }, none)

/-- Argument `fit_gpr` of `append_to_data` (gpr.py:648-666). -/
inductive FitArg
  /-- `False` -/
  | no
  /-- `True` (no arguments), `'simple'` (`n_restarts = 1`) or a dict with `n_restarts` -/
  | yes (nRestarts : Option ℕ)
  /-- anything else -/
  | invalid
deriving DecidableEq, Repr

/-- A call of `append_to_data`. `batch = none` is `X = y = None`. -/
structure Call (P K : Type*) where
  batch : Option (List P × List (Ext K))
  noise : Option (Noise K) := none
  fit : FitArg := .yes none
  fitClf : Bool := true

/-- The points of a call (gpr.py:670-671). -/
def Call.xs (c : Call P K) : List P := (c.batch.map Prod.fst).getD []
/-- The targets of a call (gpr.py:670-671). -/
def Call.ys (c : Call P K) : List (Ext K) := (c.batch.map Prod.snd).getD []

/-- gpr.py:743-752: store the training set, fit or update (trust region: separate module). -/
def appendFit (cfg : Cfg P PX Θ K) (st : State P PX Θ K) (c : Call P K) (mask : List Bool)
    (noise' : List (Ext K)) : State P PX Θ K × Option Err :=
  let xTrain := maskL mask st.xAll
  let yTrain := maskL mask st.yAll
  let st := { st with xTrain := xTrain, yTrain := yTrain, xTrain' := xTrain.map (cfg.trX st.px) }
  match mapE st.py.transform yTrain with
  | .error e => (st, some e)
  | .ok yTrain' =>
    let st := { st with yTrain' := yTrain' }
    match maskChecked mask noise' with
    | .error e => (st, some e)
    | .ok nv =>
      let st := { st with noiseVar := nv.map Ext.sq, newly := st.nLastFinite }
      match c.fit with
      | .yes n => fitHyper cfg n st
      | _ => updateModel cfg st

/-- gpr.py:703-741: preprocessors, SVM, early return.  If `X` and `y` have different lengths, the mask
indexing of gpr.py:703 raises (without classifier, something raises later; simplified to here). -/
def appendMid (cfg : Cfg P PX Θ K) (st : State P PX Θ K) (c : Call P K) (fitClf : Bool)
    (thrKeep : Ext K) (mask : List Bool) : State P PX Θ K × Option Err :=
  if mask.length ≠ st.xAll.length then (st, some .indexError) else
  let xF := maskL mask st.xAll
  let yF := maskL mask st.yAll
  -- gpr.py:705-707
  let st := if fitClf then { st with px := cfg.fitX st.px xF yF } else st
  match (if fitClf then cfg.fitY st.py xF yF else .ok st.py) with
  | .error e => (st, some e)
  | .ok py =>
    let st := { st with py := py }
    -- gpr.py:708-715
    match mapE py.transform st.yAll with
    | .error e => (st, some e)
    | .ok yAll' =>
      let noiseArr : List (Ext K) := match st.noise with
        | .scalar s => List.replicate yAll'.length (.fin s)
        | .array ks => ks.map .fin
      match mapE py.transformScale noiseArr with
      | .error e => (st, some e)
      | .ok noise' =>
        -- gpr.py:717-735
        let afterSvm : State P PX Θ K × Except Err (List Bool) :=
          if cfg.useSvm then
            if fitClf then
              match py.transformScale thrKeep with
              | .error e => (st, .error e)
              | .ok thr' =>
                match st.svm.fit yAll' thr' with
                | (svm, .error e) => ({ st with svm := svm }, .error e)
                | (svm, .ok f) =>
                  if f = mask then ({ st with svm := svm }, .ok (lastSlice st.nLast mask))
                  else ({ st with svm := svm }, .error .assertionError)
            else (st, .ok (lastSlice st.nLast mask))
          else (st, .ok (List.replicate st.nLast true))
        match afterSvm with
        | (st, .error e) => (st, some e)
        | (st, .ok lastMask) =>
          -- gpr.py:737-741
          let st := { st with nLastFinite := lastMask.count true }
          let force := c.batch.isNone && c.fit != .no
          if st.nLastFinite = 0 ∧ force = false then (st, none)
          else appendFit cfg st c mask noise'

/-- gpr.py:577-753 `append_to_data`. Returns the (possibly modified) object and the exception raised. -/
def append (cfg : Cfg P PX Θ K) (st : State P PX Θ K) (c : Call P K) :
    State P PX Θ K × Option Err :=
  -- gpr.py:648-668
  match c.fit with
  | .invalid => (st, some .valueError)
  | _ =>
    let fitClf := c.fitClf || c.fit != .no
    -- gpr.py:669-676
    if c.batch.isNone && c.noise.isSome then (st, some .valueError)
    else
      let xs := c.xs
      let ys := c.ys
      -- gpr.py:677
      match validateNoise st.noise c.noise ys.length with
      | .error e => (st, some e)
      | .ok nz =>
        -- gpr.py:681-684
        let st := { st with nLast := ys.length, xAll := st.xAll ++ xs, yAll := st.yAll ++ ys }
        match updateNoise st.noise nz st.yAll.length with
        | .error e => (st, some e)
        | .ok noise =>
          let st := { st with noise := noise }
          -- gpr.py:689-704
          if cfg.useSvm then
            match diffThresholdKeepN cfg.eps st.yAll cfg.keepMin cfg.thr with
            | .error e => (st, some e)
            | .ok thrKeep =>
              match isFiniteAll thrKeep st.yAll with
              | .error e => (st, some e)
              | .ok mask => appendMid cfg st c fitClf thrKeep mask
          else appendMid cfg st c fitClf cfg.thr (st.yAll.map fun _ => true)

/-- A history of calls, stopping at the first exception (`none`). -/
def run (cfg : Cfg P PX Θ K) : State P PX Θ K → List (Call P K) → Option (State P PX Θ K)
  | st, [] => some st
  | st, c :: cs => match append cfg st c with
    | (st', none) => run cfg st' cs
    | (_, some _) => none

/-! ## Observers -/

/-- gpr.py:423-435 `n_total`. -/
def nTotal (cfg : Cfg P PX Θ K) (st : State P PX Θ K) : ℕ :=
  if cfg.useSvm then (if st.svm.yTrain.length ≠ 0 then st.svm.yTrain.length else st.yTrain.length)
  else st.yTrain.length

/-- gpr.py:437-453 `X_train_infinite`, `y_train_infinite` (an untrained SVM has `y_finite = None`, whose
negation raises `TypeError`; a stale mask makes numpy raise `IndexError`). -/
def trainInfinite (cfg : Cfg P PX Θ K) (st : State P PX Θ K) :
    Except Err (List P × List (Ext K)) :=
  if cfg.useSvm then
    if st.svm.yTrain.isEmpty ∧ st.svm.yFinite.isEmpty ∧ st.xAll ≠ [] then .error .typeError
    else
      match maskChecked (st.svm.yFinite.map (!·)) st.xAll, maskChecked (st.svm.yFinite.map (!·)) st.yAll with
      | .ok x, .ok y => .ok (x, y)
      | _, _ => .error .indexError
  else .ok ([], [])

/-- gpr.py:471-475 `last_appended_finite`. -/
def lastAppendedFinite (st : State P PX Θ K) : List P × List (Ext K) :=
  (lastSlice st.nLastFinite st.xTrain, lastSlice st.nLastFinite st.yTrain)

/-- gpr.py:460-469 `last_appended`. -/
def lastAppended (cfg : Cfg P PX Θ K) (st : State P PX Θ K) : List P × List (Ext K) :=
  if cfg.useSvm then (lastSlice st.nLast st.xAll, lastSlice st.nLast st.yAll)
  else lastAppendedFinite st

end GPry.Gpr
