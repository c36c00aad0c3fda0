import Verif.Acq

set_option linter.all false

/-!
# Acquisition functions called with several points (gpry/acquisition_functions.py:67-75, 404-865, 936-1010, 1126-1128, 1287-1446)

Calls without gradient. IEEE arithmetic of infinities, exact arithmetic of numbers. The training set is not empty, so that `gp.y_max` is a number.
`ConstantAcqFunc` does not look at the surrogate. `pw` is the power of one number (`K ** exponent`), `cdf` and `pdf` are those of
`scipy.stats.norm`.
-/

namespace GPry.AcqPts

open GPry Acq Predict

variable {d n : ℕ}

/-- IEEE addition. -/
def add (a b : Ext ℝ) : Ext ℝ := a.sub b.neg

/-- IEEE multiplication by a number. -/
noncomputable def mulR (a : ℝ) : Ext ℝ → Ext ℝ
  | .fin x => .fin (a * x)
  | .negInf => if a = 0 then .nan else if 0 < a then .negInf else .posInf
  | .posInf => if a = 0 then .nan else if 0 < a then .posInf else .negInf
  | .nan => .nan

/-- IEEE multiplication. -/
noncomputable def mul : Ext ℝ → Ext ℝ → Ext ℝ
  | .fin a, y => mulR a y
  | x, .fin b => mulR b x
  | .nan, _ => .nan
  | _, .nan => .nan
  | .negInf, .negInf => .posInf
  | .posInf, .posInf => .posInf
  | .negInf, .posInf => .negInf
  | .posInf, .negInf => .negInf

/-- `np.exp` -/
noncomputable def exp : Ext ℝ → Ext ℝ
  | .fin x => .fin (Real.exp x)
  | .negInf => .fin 0
  | .posInf => .posInf
  | .nan => .nan

/-- The surrogate. `gradOk`: the gradient of the mean (and of the standard deviation) at a point does not raise (C53, C67). -/
structure Surrogate (d n : ℕ) where
  st : St d n
  noise : Noise
  yMax : ℝ
  gradOk : (Fin d → ℝ) → Bool

/-- acquisition_functions.py:838-845 at a point with positive standard deviation. `norm.cdf(-inf)` and `norm.pdf(±inf)` are 0, `norm.cdf(inf)` is 1. -/
noncomputable def eiEntry (cdf pdf : ℝ → ℝ) (yOpt xi : ℝ) (mu : Ext ℝ) (std : ℝ) : Ext ℝ :=
  let improve := (mu.subFin yOpt).subFin xi
  let scaled := improve.divFin std
  let cdfV : Ext ℝ := match scaled with
    | .fin t => .fin (cdf t)
    | .negInf => .fin 0
    | .posInf => .fin 1
    | .nan => .nan
  let pdfV : Ext ℝ := match scaled with
    | .fin t => .fin (pdf t)
    | .nan => .nan
    | _ => .fin 0
  add (mul improve cdfV) (mulR std pdfV)

/-- acquisition_functions.py:836-845 -/
noncomputable def eiValues (cdf pdf : ℝ → ℝ) (yOpt xi : ℝ) (mus : List (Ext ℝ)) (stds : List ℝ) : List (Ext ℝ) :=
  let mask := stds.map fun s => decide (0 < s)
  scatter mask (List.zipWith (eiEntry cdf pdf yOpt xi) (maskGet mask mus) (maskGet mask stds)) (mus.map fun _ => .fin 0)

/-- acquisition_functions.py:67-75 `_safe_log_expm1` of an array; `junk` is what `np.empty_like` contains. -/
noncomputable def safeLogExpm1V (junk : ℝ) (xs : List ℝ) : List ℝ :=
  let mask := xs.map fun x => decide (x < 1)
  let ret := xs.map fun _ => junk
  let ret := scatter mask ((maskGet mask xs).map fun x => Real.log (Real.exp x - 1)) ret
  scatter (mask.map not) ((maskGet (mask.map not) xs).map fun x => x + Real.log (1 + -Real.exp (-x))) ret

/-- acquisition_functions.py:1126-1128 at the points of the mask. -/
noncomputable def nonlinearV (zeta noise baseline : ℝ) (mus : List (Ext ℝ)) (stds : List ℝ) : List (Ext ℝ) :=
  List.zipWith (fun mu t => add (mulR (2 * zeta) (mu.subFin baseline)) (.fin t)) mus
    (safeLogExpm1V 0 (stds.map fun std => Real.sqrt (max (std ^ 2 - noise ^ 2) 0)))

/-- acquisition_functions.py:982-992 for `NonlinearLogExp`. -/
noncomputable def nonlinearValues (zeta noise baseline : ℝ) (mus : List (Ext ℝ)) (stds : List ℝ) : List (Ext ℝ) :=
  let mask := List.zipWith (fun (mu : Ext ℝ) (std : ℝ) => decide (0 < std ^ 2 - noise ^ 2) && mu.isFinite) mus stds
  let values := stds.map fun _ => Ext.fin 0
  let values := if mask.any id then scatter mask (nonlinearV zeta noise baseline (maskGet mask mus) (maskGet mask stds)) values else values
  if (mask.map not).any id then maskSet .negInf (mask.map not) values else values

inductive Leaf
  /-- 404-470 -/
  | const (c : ℝ)
  /-- 474-545 -/
  | mu (a : ℝ)
  /-- 618-687 -/
  | std (a : ℝ)
  /-- 549-614 -/
  | expMu (a : ℝ)
  /-- 691-759 -/
  | expStd (a : ℝ)
  /-- 763-865 -/
  | ei (xi : ℝ)
  /-- 868-1074 `LogExp` -/
  | logExp (zeta : ℝ) (sigmaN : Option ℝ)
  /-- 1077-1128 `NonlinearLogExp` -/
  | nonlinear (zeta : ℝ) (sigmaN : Option ℝ)

def toErr : Predict.Err → Acq.Err
  | .valueError => .valueError
  | .kernel _ => .typeError

/-- `predict` with gradient, means and standard deviations: gpr.py:1094-1096 -/
noncomputable def withGrad (g : Surrogate d n) (X : List (Fin d → ℝ)) : Except Acq.Err (List (Ext ℝ) × List ℝ) :=
  if X.length ≠ 1 then .error .valueError
  else match g.st.predict X false with
    | .error e => .error (toErr e)
    | .ok r => if X.all g.gradOk then .ok r else .error .typeError

noncomputable def noGrad (g : Surrogate d n) (X : List (Fin d → ℝ)) : Except Acq.Err (List (Ext ℝ) × List ℝ) :=
  match g.st.predict X false with
  | .error e => .error (toErr e)
  | .ok r => .ok r

/-- Value, and by how much `gpr.n_eval` increases (gpr.py:1087). -/
noncomputable def Leaf.eval (cdf pdf : ℝ → ℝ) (g : Surrogate d n) (X : List (Fin d → ℝ)) : Leaf → ℕ × Except Acq.Err (List (Ext ℝ))
  | const c => (0, .ok (X.map fun _ => .fin c))
  | mu _ => (X.length, (noGrad g X).map fun r => r.1)
  | std _ => (X.length, (noGrad g X).map fun r => r.2.map .fin)
  | expMu a => (X.length, (withGrad g X).map fun r => r.1.map fun m => exp (mulR a m))
  | expStd a => (X.length, (withGrad g X).map fun r => r.2.map fun s => exp (mulR a (.fin s)))
  | ei xi => (X.length, (noGrad g X).map fun r => eiValues cdf pdf g.yMax xi r.1 r.2)
  | logExp zeta sigmaN => (X.length, (noGrad g X).map fun r => logExpValues zeta (noiseVar sigmaN g.noise) g.yMax r.1 r.2)
  | nonlinear zeta sigmaN => (X.length, (noGrad g X).map fun r => nonlinearValues zeta (noiseVar sigmaN g.noise) g.yMax r.1 r.2)

inductive Af
  | leaf (l : Leaf)
  | sum (a b : Af)
  | prod (a b : Af)
  | pow (a : Af) (p : ℝ)

/-- acquisition_functions.py:1302, 1323, 1445-1446 -/
noncomputable def Af.eval (cdf pdf : ℝ → ℝ) (pw : ℝ → Ext ℝ → Ext ℝ) (g : Surrogate d n) (X : List (Fin d → ℝ)) : Af → ℕ × Except Acq.Err (List (Ext ℝ))
  | leaf l => l.eval cdf pdf g X
  | sum a b => match a.eval cdf pdf pw g X with
    | (k, .error e) => (k, .error e)
    | (k, .ok u) => match b.eval cdf pdf pw g X with
      | (k', .error e) => (k + k', .error e)
      | (k', .ok v) => (k + k', .ok (List.zipWith add u v))
  | prod a b => match a.eval cdf pdf pw g X with
    | (k, .error e) => (k, .error e)
    | (k, .ok u) => match b.eval cdf pdf pw g X with
      | (k', .error e) => (k + k', .error e)
      | (k', .ok v) => (k + k', .ok (List.zipWith mul u v))
  | pow a p => match a.eval cdf pdf pw g X with
    | (k, .error e) => (k, .error e)
    | (k, .ok u) => (k, .ok (u.map (pw p)))

end GPry.AcqPts
