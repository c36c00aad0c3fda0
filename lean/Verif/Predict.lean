import Verif.Gp
import Verif.Kernels
import Verif.Tools

set_option linter.all false

/-!
# `predict` and `predict_std` (gpry/gpr.py:1030-1352), `SVM.predict` (gpry/svm.py:308-347)

On top of `Gp.lean`: lists of query points, classifier, trust region, ceiling, gradients. Points are `Fin d → ℝ`. The
decision function of a trained SVM is any function of the transformed point (one point at a time). `n_eval`, the checks of
the input (`validate`) and warnings are left out. `minus_inf_value` is a value of the state: it is minus infinity except in
one place (gp_acquisition.py:789-792).
-/

namespace GPry.Predict

open Gp

variable {d n : ℕ}

inductive Err
  | valueError
  | kernel (e : Kernels.KErr)
deriving DecidableEq

/-- What `SVM.predict` needs. -/
structure Svm (P : Type*) where
  trained : Bool
  allFinite : Bool
  atLeastOneFinite : Bool
  decide : P → Bool

/-- svm.py:331-347 -/
def Svm.predict {P : Type*} (c : Svm P) (X : List P) : Except Err (List Bool) :=
  if !c.trained then .error .valueError
  else if c.allFinite then .ok (X.map fun _ => true)
  else if !c.atLeastOneFinite then .ok (X.map fun _ => false)
  else .ok (X.map c.decide)

/-- The surrogate. `fitted` is `hasattr(self, "X_train_")` (always true: `__init__` sets it to `None`, gpr.py:371), `prior` is `kernel.diag` of the kernel before the fit. -/
structure St (d n : ℕ) where
  fitted : Bool
  prior : (Fin d → ℝ) → ℝ
  M : Model (Fin d → ℝ)
  chol : Matrix (Fin n) (Fin n) ℝ → Matrix (Fin n) (Fin n) ℝ
  R : Raw (Fin n) (Fin d → ℝ)
  svm : Option (Svm (Fin d → ℝ))
  trust : Option (Fin d → ℝ × ℝ)
  clip : Option ℝ
  minf : Ext ℝ

/-- `a[mask]` -/
def maskGet {A : Type*} : List Bool → List A → List A
  | true :: m, a :: l => a :: maskGet m l
  | false :: m, _ :: l => maskGet m l
  | _, _ => []

/-- `a[mask] = v` for one value `v` -/
def maskSet {A : Type*} (v : A) : List Bool → List A → List A
  | b :: m, a :: l => (if b then v else a) :: maskSet v m l
  | _, l => l

/-- `a[mask] = vals` -/
def scatter {A : Type*} : List Bool → List A → List A → List A
  | true :: m, v :: vals, _ :: l => v :: scatter m vals l
  | false :: m, vals, a :: l => a :: scatter m vals l
  | _, _, l => l

/-- gpr.py:1107-1109, one point -/
noncomputable def outside (b : Fin d → ℝ × ℝ) (x : Fin d → ℝ) : Bool :=
  !Tools.isInBounds (List.ofFn fun j => (Ext.fin (b j).1, Ext.fin (b j).2)) (List.ofFn fun j => Ext.fin (x j))

/-- gpr.py:1188-1195: `clip_factor * max(y_train) - (clip_factor - 1) * min(y_train)` -/
noncomputable def ceiling (c : ℝ) (y : List ℝ) : Except Err ℝ :=
  match Tools.maxOf y, Tools.minOf y with
  | some hi, some lo => .ok (c * hi - (c - 1) * lo)
  | _, _ => .error .valueError

/-- gpr.py:1176-1196: means of the points that are not masked. -/
noncomputable def St.means (st : St d n) (X : List (Fin d → ℝ)) : Except Err (List ℝ) :=
  let y := X.map fun x => st.M.mean st.chol st.R x
  match st.clip with
  | none => .ok y
  | some c =>
    match ceiling c (List.ofFn st.R.y) with
    | .ok t => .ok (y.map fun v => min v t)
    | .error e => .error e

/-- gpr.py:1104-1110, 1115-1116, 1200-1201: the trust region. -/
noncomputable def St.trustMask (st : St d n) (X : List (Fin d → ℝ)) (ign : Bool) (m : List (Ext ℝ)) : List (Ext ℝ) :=
  match if ign then none else st.trust with
  | some b => maskSet st.minf (X.map (outside b)) m
  | none => m

/-- gpr.py:1104-1229, return values `y_mean`, `y_std` of `predict(X, return_std=True, ignore_trust_region=ign)`. -/
noncomputable def St.predict (st : St d n) (X : List (Fin d → ℝ)) (ign : Bool) : Except Err (List (Ext ℝ) × List ℝ) :=
  if !st.fitted then .ok (st.trustMask X ign (X.map fun _ => .fin 0), X.map fun x => Real.sqrt (st.prior x))
  else
    match st.svm with
    | none =>
      match st.means X with
      | .error e => .error e
      | .ok y => .ok (st.trustMask X ign (y.map .fin), X.map fun x => st.M.std st.chol st.R x)
    | some c =>
      match c.predict (X.map st.M.trX) with
      | .error e => .error e
      | .ok finite =>
        if finite.all not then .ok (X.map fun _ => st.minf, X.map fun _ => 0)
        else
          let meanFull := maskSet st.minf (finite.map not) (X.map fun _ => .fin 1)
          let Xf := maskGet finite X
          match st.means Xf with
          | .error e => .error e
          | .ok y =>
            .ok (st.trustMask X ign (scatter finite (y.map .fin) meanFull),
              scatter finite (Xf.map fun x => st.M.std st.chol st.R x) (X.map fun _ => 0))

/-- gpr.py:1302-1352 `predict_std`. -/
noncomputable def St.predictStd (st : St d n) (X : List (Fin d → ℝ)) : Except Err (List ℝ) :=
  if !st.fitted then .ok (X.map fun x => Real.sqrt (st.prior x))
  else
    match st.svm with
    | none => .ok (X.map fun x => st.M.std st.chol st.R x)
    | some c =>
      match c.predict (X.map st.M.trX) with
      | .error e => .error e
      | .ok finite =>
        if finite.all not then .ok (X.map fun _ => 0)
        else .ok (scatter finite ((maskGet finite X).map fun x => st.M.std st.chol st.R x) (X.map fun _ => 0))

/-! ## Gradients -/

/-- gpr.py:1232-1237: gradient of the mean at a (transformed) point; `g` is `kernel_.gradient_x` for each training point. -/
noncomputable def meanGrad (chol : Matrix (Fin n) (Fin n) ℝ → Matrix (Fin n) (Fin n) ℝ) (k : (Fin d → ℝ) → (Fin d → ℝ) → ℝ)
    (s : ℝ) (D : Data (Fin n) (Fin d → ℝ)) (g : Fin n → Fin d → ℝ) : Fin d → ℝ :=
  fun j => (∑ i, g i j * (D.update chol k).alpha i) * s

/-- gpr.py:1242-1257: gradient of the standard deviation. `np.allclose(y_std, 0)` is `|y_std| <= 1e-8`. -/
noncomputable def stdGrad (chol : Matrix (Fin n) (Fin n) ℝ → Matrix (Fin n) (Fin n) ℝ) (k : (Fin d → ℝ) → (Fin d → ℝ) → ℝ)
    (s : ℝ) (D : Data (Fin n) (Fin d → ℝ)) (g : Fin n → Fin d → ℝ) (x : Fin d → ℝ) : Fin d → ℝ :=
  let V := (D.update chol k).V
  let std := D.std chol k x
  fun j =>
    if |std * s| ≤ 1e-8 then 0
    else -(dotProduct (D.kTrans k x) ((V.transpose * V).mulVec fun i => g i j)) / std * s * s

/-- gpr.py:1155-1170, 1231-1267: the two gradients that `predict` returns at one point, for a surrogate that has been fitted,
with a kernel given by an expression. -/
noncomputable def St.predictGrad (st : St d n) (general : ℕ → ℝ → ℝ) (e : Kernels.KExpr d) (x : Fin d → ℝ) :
    Except Err ((Fin d → Ext ℝ) × (Fin d → ℝ)) :=
  let x_ := st.M.trX x
  let D := st.M.data st.R
  let gp : Except Err ((Fin d → Ext ℝ) × (Fin d → ℝ)) :=
    -- `gradient_x` fails for all the training points or for none
    match (List.finRange n).find? fun i => match e.gradX general 1 x_ (D.X i) with | .error _ => true | .ok _ => false with
    | some i => match e.gradX general 1 x_ (D.X i) with
      | .error err => .error (.kernel err)
      | .ok _ => .error .valueError -- unreachable
    | none =>
      let g := fun i => match e.gradX general 1 x_ (D.X i) with | .ok v => v | .error _ => 0
      .ok (fun j => .fin (meanGrad st.chol st.M.k st.M.s D g j), stdGrad st.chol st.M.k st.M.s D g x_)
  match st.svm with
  | none => gp
  | some c =>
    match c.predict [x_] with
    | .error e => .error e
    | .ok finite => if finite.all not then .ok (fun _ => .posInf, fun _ => 0) else gp

end GPry.Predict
