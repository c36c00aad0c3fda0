import Mathlib.Analysis.SpecialFunctions.Pow.Real
import Mathlib.Analysis.SpecialFunctions.Trigonometric.Basic

set_option linter.all false

/-!
# Kernels (gpry/kernels.py)

Kernel expressions and their position gradients, in exact real arithmetic. The values of the kernels are those of
scikit-learn (for two different arrays `X`, `Y`). The gradient code works row by row on the training points; one row is
modelled. Numpy arrays have a number of dimensions, and `Product.gradient_x` and `Exponentiation.gradient_x` add one to
`x`; where this makes an operation fail there is an exception. It is modelled by the argument `ndim` of `gradX` (1 for the
point as given by `predict`). With 3 dimensions, values of kernels based on distances raise `ValueError` (`cdist`); for
`DotProduct` the shapes do not fit either, this is taken as `ValueError` too.

Simplification: for `Matern(nu=0.5)` with a 2-dimensional `x` the exception is not raised if all the training points are equal
to `x`.
-/

namespace GPry.Kernels

open Real

variable {d : ℕ}

inductive KErr
  | valueError | typeError
deriving DecidableEq, Repr

/-- Kernel expressions. Length scales may be different for each dimension (equal ones stand for a scalar one). Matern: twice
`nu` (1, 3, 5), any other number stands for other values of `nu`, with `gradient_x` returning `None`. -/
inductive KExpr (d : ℕ)
  | rbf (ls : Fin d → ℝ)
  | matern (nu2 : ℕ) (ls : Fin d → ℝ)
  | rq (ls alpha : ℝ)
  | expSine (ls period : ℝ)
  | const (c : ℝ)
  | white
  | dot (sigma0 : ℝ)
  | sum (a b : KExpr d)
  | prod (a b : KExpr d)
  | pow (a : KExpr d) (p : ℝ)

/-- `np.sum(((x - y) / length_scale)**2)` -/
noncomputable def sqDist (ls x y : Fin d → ℝ) : ℝ := ∑ i, ((x i - y i) / ls i) ^ 2

/-- Values of Matern kernels as functions of the scaled distance; other values of `nu` are not modelled (arbitrary `general`). -/
noncomputable def maternVal (general : ℕ → ℝ → ℝ) (nu2 : ℕ) (r : ℝ) : ℝ :=
  match nu2 with
  | 1 => exp (-r)
  | 3 => (1 + √3 * r) * exp (-(√3 * r))
  | 5 => (1 + √5 * r + 5 / 3 * r ^ 2) * exp (-(√5 * r))
  | _ => general nu2 r

/-- Value of a kernel (scikit-learn). `X` and `Y` are different arrays: `WhiteKernel` is zero. -/
noncomputable def KExpr.eval (general : ℕ → ℝ → ℝ) : KExpr d → (Fin d → ℝ) → (Fin d → ℝ) → ℝ
  | rbf ls, x, y => exp (-0.5 * sqDist ls x y)
  | matern nu2 ls, x, y => maternVal general nu2 √(sqDist ls x y)
  | rq ls alpha, x, y => (1 + sqDist (fun _ => ls) x y / (2 * alpha)) ^ (-alpha)
  | expSine ls period, x, y => exp (-2 * (sin (π / period * √(sqDist (fun _ => 1) x y)) / ls) ^ 2)
  | const c, _, _ => c
  | white, _, _ => 0
  | dot s, x, y => ∑ i, x i * y i + s ^ 2
  | sum a b, x, y => a.eval general x y + b.eval general x y
  | prod a b, x, y => a.eval general x y * b.eval general x y
  | pow a p, x, y => a.eval general x y ^ p

/-- Whether the value can be computed if `x` has `ndim` dimensions. -/
def KExpr.evalOk : KExpr d → ℕ → Bool
  | const _, _ | white, _ => true
  | sum a b, k | prod a b, k => a.evalOk k && b.evalOk k
  | pow a _, k => a.evalOk k
  | _, k => decide (k ≤ 2)

/-- Value, or `ValueError`. -/
noncomputable def KExpr.evalE (general : ℕ → ℝ → ℝ) (e : KExpr d) (ndim : ℕ) (x y : Fin d → ℝ) : Except KErr ℝ :=
  if e.evalOk ndim then .ok (e.eval general x y) else .error .valueError

/-- kernels.py:338-361 (nu = 1/2, `ndim` as above), 363-393 (3/2), 395-432 (5/2). -/
noncomputable def maternGrad (nu2 ndim : ℕ) (ls x y : Fin d → ℝ) : Except KErr (Fin d → ℝ) :=
  let diff := fun i => (x i - y i) / ls i
  let distSq := sqDist ls x y
  let dist := √distSq
  match nu2 with
  | 1 =>
    if ndim = 2 ∧ d ≠ 1 then .error .valueError
    else .ok fun i => (if dist = 0 then -1 else -exp (-dist) / dist * diff i) / ls i
  | 3 =>
    let f := 1 + √3 * dist
    let byDist := if dist = 0 then 0 else √3 / dist
    let fGrad := fun i => diff i / ls i * byDist
    let g := exp (-(√3 * dist))
    .ok fun i => g * fGrad i * (-f + 1)
  | 5 =>
    let f := 5 / 3 * distSq + √5 * dist + 1
    let inv := if dist = 0 then 0 else 1 / dist
    let f1Grad := fun i => inv * √5 * (diff i / ls i)
    let f2Grad := fun i => 10 / 3 * (diff i / ls i)
    let g := exp (-(√5 * dist))
    .ok fun i => f * (-g * f1Grad i) + g * (f1Grad i + f2Grad i)
  | _ => .error .typeError -- `None`, an exception where it is used

/-- `gradient_x`: RBF kernels.py:257-278, Matern 326-432, RationalQuadratic 491-512, ExpSineSquared 572-599, ConstantKernel
608-609, WhiteKernel 619-620, Exponentiation 660-668, Sum 677-678, Product 687-699, DotProduct 708-709. -/
noncomputable def KExpr.gradX (general : ℕ → ℝ → ℝ) : KExpr d → ℕ → (Fin d → ℝ) → (Fin d → ℝ) → Except KErr (Fin d → ℝ)
  | rbf ls, _, x, y => .ok fun i => exp (-0.5 * sqDist ls x y) * -1 * ((x i - y i) / ls i) / ls i
  | matern nu2 ls, ndim, x, y => maternGrad nu2 ndim ls x y
  | rq ls alpha, _, x, y => .ok fun i =>
      (sqDist (fun _ => ls) x y / (2 * alpha) + 1) ^ (-alpha - 1) * -1 * ((x i - y i) / ls / ls)
  | expSine ls period, _, x, y =>
    let dist := √(sqDist (fun _ => 1) x y)
    let byPeriod := dist * (π / period)
    let sine := sin byPeriod / ls
    let gradExp := -2 * sin (2 * byPeriod) / ls ^ 2
    let gradTheta := if dist = 0 then 0 else π / (period * dist)
    .ok fun i => gradTheta * exp (-2 * sine ^ 2) * gradExp * (x i - y i)
  | const _, _, _, _ => .ok fun _ => 0
  | white, _, _, _ => .ok fun _ => 0
  | dot _, _, _, y => .ok y
  | sum a b, ndim, x, y =>
    match a.gradX general ndim x y, b.gradX general ndim x y with
    | .ok u, .ok v => .ok fun i => u i + v i
    | .error e, _ => .error e
    | _, .error e => .error e
  | prod a b, ndim, x, y =>
    match a.evalE general (ndim + 1) x y, b.gradX general (ndim + 1) x y, b.evalE general (ndim + 1) x y, a.gradX general (ndim + 1) x y with
    | .ok f, .ok gb, .ok g, .ok ga => .ok fun i => f * gb i + g * ga i
    | .error e, _, _, _ => .error e
    | _, .error e, _, _ => .error e
    | _, _, .error e, _ => .error e
    | _, _, _, .error e => .error e
  | pow a p, ndim, x, y =>
    match a.evalE general (ndim + 1) x y, a.gradX general ndim x y with
    | .ok f, .ok g => .ok fun i => p * f ^ (p - 1) * g i
    | .error e, _ => .error e
    | _, .error e => .error e

end GPry.Kernels
