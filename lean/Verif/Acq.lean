import Verif.Predict
import Mathlib.Analysis.SpecialFunctions.Log.Basic
import Mathlib.Analysis.SpecialFunctions.Pow.Real

set_option linter.all false

/-!
# Acquisition functions (gpry/acquisition_functions.py)

Real numbers, exact arithmetic. What `gp.predict` returns is an argument. `check_X` and warnings are left out.
-/

namespace GPry.Acq

open Predict (maskGet maskSet scatter)

inductive Err
  | typeError | valueError | unboundLocal | indexError
deriving DecidableEq, Repr

/-! ## LogExp -/

/-- `gp.noise_level` -/
inductive Noise
  | scalar (n : ℝ)
  | array (l : List ℝ)

/-- acquisition_functions.py:974-981 `noise_var` (the mean of an array). -/
noncomputable def noiseVar (sigmaN : Option ℝ) : Noise → ℝ :=
  match sigmaN with
  | some s => fun _ => s
  | none => fun
    | .scalar n => n
    | .array l => l.sum / l.length

/-- acquisition_functions.py:1069-1074 `LogExp.f`; `np.clip(v, 0, None)` is `max v 0`. -/
noncomputable def logExpF (mu std baseline noise zeta : ℝ) : ℝ :=
  2 * zeta * (mu - baseline) + Real.log (Real.sqrt (max (std ^ 2 - noise ^ 2) 0))

/-- `f` of one point in the mask, whose mean is finite. -/
noncomputable def logExpEntry (zeta noise baseline : ℝ) (mu : Ext ℝ) (std : ℝ) : Ext ℝ :=
  match mu with
  | .fin m => .fin (logExpF m std baseline noise zeta)
  | other => other

/-- acquisition_functions.py:982-992, values at several points. The training set is not empty (`gp.y_max` is finite). -/
noncomputable def logExpValues (zeta noise baseline : ℝ) (mus : List (Ext ℝ)) (stds : List ℝ) : List (Ext ℝ) :=
  let mask := List.zipWith (fun (mu : Ext ℝ) (std : ℝ) => decide (0 < std ^ 2 - noise ^ 2) && mu.isFinite) mus stds
  let values := stds.map fun _ => Ext.fin 0
  let values := if mask.any id then scatter mask (List.zipWith (logExpEntry zeta noise baseline) (maskGet mask mus) (maskGet mask stds)) values else values
  if (mask.map not).any id then maskSet .negInf (mask.map not) values else values

/-- acquisition_functions.py:993-1007, gradient at one point; `twoDim` tells whether the gradients of `predict` have two
dimensions (with a classifier, gpr.py:1239-1241). `sigma_n` is not assigned if the argument is given. With an array of noise
levels the comparison of line 1003 is ambiguous (unless it has one element), and the division of line 998 broadcasts. -/
noncomputable def logExpGrad {d : ℕ} (twoDim : Bool) (zeta : ℝ) (sigmaN : Option ℝ) (noise : Noise) (mu : Ext ℝ) (std : ℝ)
    (muGrad : Fin d → ℝ) (stdGrad : Fin d → ℝ) : Except Err (Fin d → Ext ℝ) :=
  let nv := noiseVar sigmaN noise
  let mask := decide (0 < std ^ 2 - nv ^ 2) && mu.isFinite
  let formula := fun (n : ℝ) (j : Fin d) => Ext.fin (stdGrad j / (std - n) + 2 * zeta * muGrad j)
  if twoDim then
    if !mask then .ok fun _ => .posInf
    else match sigmaN, noise with
      | some _, _ => .error .unboundLocal
      | none, .scalar n => .ok (formula n)
      | none, .array [n] => .ok (formula n)
      | none, .array l => if h : l.length = d then .ok fun j => formula (l.get (j.cast h.symm)) j else .error .valueError
  else match sigmaN, noise with
    | some _, _ => .error .unboundLocal
    | none, .scalar n => if n < std then .ok (formula n) else .ok fun _ => .posInf
    | none, .array [n] => if n < std then .ok (formula n) else .ok fun _ => .posInf
    | none, .array _ => .error .valueError

/-- acquisition_functions.py:67-75 `_safe_log_expm1`, one value. -/
noncomputable def safeLogExpm1 (x : ℝ) : ℝ :=
  if x < 1 then Real.log (Real.exp x - 1) else x + Real.log (1 + -Real.exp (-x))

/-- acquisition_functions.py:1126-1128 `NonlinearLogExp.f`. -/
noncomputable def nonlinearF (mu std baseline noise zeta : ℝ) : ℝ :=
  2 * zeta * (mu - baseline) + safeLogExpm1 (Real.sqrt (max (std ^ 2 - noise ^ 2) 0))

/-! ## Expected improvement and building blocks -/

/-- acquisition_functions.py:837-845, value at one point; `cdf`, `pdf` are those of the normal distribution. -/
noncomputable def eiValue (cdf pdf : ℝ → ℝ) (yOpt xi mu std : ℝ) : ℝ :=
  if 0 < std then
    let improve := mu - yOpt - xi
    let scaled := improve / std
    improve * cdf scaled + std * pdf scaled
  else 0

/-- acquisition_functions.py:847-861, gradient at one point. -/
noncomputable def eiGrad {d : ℕ} (cdf pdf : ℝ → ℝ) (yOpt xi mu std : ℝ) (muGrad stdGrad : Fin d → ℝ) : Fin d → ℝ :=
  if 0 < std then
    let improve := mu - yOpt - xi
    let scaled := improve / std
    fun j =>
      let improveGrad := (-muGrad j * std - stdGrad j * improve) / std ^ 2
      let cdfGrad := improveGrad * pdf scaled
      let pdfGrad := -improve * cdfGrad
      let exploitGrad := -muGrad j * cdf scaled - pdfGrad
      let exploreGrad := stdGrad j * pdf scaled + pdfGrad
      exploitGrad + exploreGrad
  else fun _ => 0

/-- acquisition_functions.py:529-541 `Mu`: the value does not depend on `a`. -/
def muValue (_a mu : ℝ) : ℝ := mu
/-- acquisition_functions.py:671-684 `Std`. -/
def stdValue (_a std : ℝ) : ℝ := std
/-- acquisition_functions.py:600-610 `ExponentialMu` for `n` points: the gradient is asked for in any case, and raises for
more than one point (gpr.py:1094-1096). -/
noncomputable def expMuValue (a : ℝ) (mus : List ℝ) : Except Err (List ℝ) :=
  if mus.length = 1 then .ok (mus.map fun mu => Real.exp (a * mu)) else .error .valueError

/-! ## Composition: acquisition_functions.py:406-468, 1287-1446 -/

/-- Expressions over acquisition functions that are given (`leaf`), `ConstantAcqFunc`, and the operators. -/
inductive Expr (ι : Type)
  | leaf (i : ι)
  | const (c : ℝ)
  | sum (a b : Expr ι)
  | prod (a b : Expr ι)
  | pow (a : Expr ι) (p : ℝ)

/-- Value without gradient: 1302, 1323, 1445-1446, ConstantAcqFunc 464. -/
noncomputable def Expr.value {ι P : Type} (f : ι → P → ℝ) : Expr ι → P → ℝ
  | leaf i, x => f i x
  | const c, _ => c
  | sum a b, x => a.value f x + b.value f x
  | prod a b, x => a.value f x * b.value f x
  | pow a p, x => a.value f x ^ p

/-- Value and gradient (`eval_gradient=True`): 1297-1300, 1318-1321, 1440-1443, ConstantAcqFunc 464-466. -/
noncomputable def Expr.call {ι P : Type} {d : ℕ} (f : ι → P → ℝ × (Fin d → ℝ)) : Expr ι → P → ℝ × (Fin d → ℝ)
  | leaf i, x => f i x
  | const c, _ => (c, fun _ => 0)
  | sum a b, x =>
    let (k1, g1) := a.call f x
    let (k2, g2) := b.call f x
    (k1 + k2, fun j => g1 j + g2 j)
  | prod a b, x =>
    let (k1, g1) := a.call f x
    let (k2, g2) := b.call f x
    (k1 * k2, fun j => g1 j * k2 + g2 j * k1)
  | pow a p, x =>
    let (k, g) := a.call f x
    (k ^ p, fun j => g j * p * k ^ (p - 1))

/-! ## Hyperparameters: acquisition_functions.py:282-347, 1205-1285, 1342-1406 -/

/-- A hyperparameter (numeric, one element): its value, `none` stands for `None`, and whether it is fixed. -/
structure Hp where
  value : Option ℝ
  fixed : Bool

/-- Expressions of objects: a leaf is a reference to an object in a heap. -/
inductive TExpr
  | leaf (i : ℕ)
  | op (a b : TExpr)
  | pow (a : TExpr)

/-- Hyperparameters of each object, in the order of `dir`. -/
abbrev Heap := ℕ → List Hp

def freeValues (l : List Hp) : List (Option ℝ) := (l.filter fun h => !h.fixed).map Hp.value

/-- acquisition_functions.py:295-317 (leaf), 1251-1264 (operators), 1381-1394 (power). `np.log` of `None` raises; the logarithm
of a value that is not positive is some number here (nan in numpy). -/
noncomputable def TExpr.theta (h : Heap) : TExpr → Except Err (List ℝ)
  | leaf i => if (freeValues (h i)).any Option.isNone then .error .typeError
    else .ok ((freeValues (h i)).map fun v => Real.log (v.getD 0))
  | op a b => match a.theta h, b.theta h with
    | .ok t, .ok u => .ok (t ++ u)
    | .error e, _ => .error e
    | _, .error e => .error e
  | pow a => a.theta h

/-- acquisition_functions.py:329-341: the loop over the hyperparameters of a leaf; returns what remains of `theta`. -/
noncomputable def setLeaf : List Hp → List ℝ → Except Err (List Hp × List ℝ)
  | [], t => .ok ([], t)
  | ⟨v, true⟩ :: l, t => match setLeaf l t with
    | .ok (l', r) => .ok (⟨v, true⟩ :: l', r)
    | .error e => .error e
  | ⟨_, false⟩ :: _, [] => .error .indexError
  | ⟨_, false⟩ :: l, x :: t => match setLeaf l t with
    | .ok (l', r) => .ok (⟨some (Real.exp x), false⟩ :: l', r)
    | .error e => .error e

/-- The setter: 320-347 (leaf), 1267-1278 (operators), 1397-1406 (power). The heap afterwards, and the exception if there is one. -/
noncomputable def TExpr.setTheta (h : Heap) : TExpr → List ℝ → Heap × Option Err
  | leaf i, t => match setLeaf (h i) t with
    | .ok (l, []) => (fun j => if j = i then l else h j, none)
    | .ok (_, _ :: _) => (h, some .valueError)
    | .error e => (h, some e)
  | op a b, t => match a.theta h with
    | .error e => (h, some e)
    | .ok t1 => match a.setTheta h (t.take t1.length) with
      | (h', some e) => (h', some e)
      | (h', none) => b.setTheta h' (t.drop t1.length)
  | pow a, t => a.setTheta h t

end GPry.Acq
