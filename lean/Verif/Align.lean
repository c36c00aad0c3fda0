import Verif.Cred
import Mathlib.LinearAlgebra.Matrix.NonsingularInverse
import Mathlib.Algebra.Order.Floor.Ring

set_option linter.all false

/-!
# The criterion `TrainAlignment` (gpry/convergence.py:703-752)

In exact arithmetic; SciPy's `chi2.cdf` as in `Verif.Cred`.
-/

namespace GPry.Align

open GPry GPry.Cred Matrix

inductive AErr
  | linAlgError
  | valueError
deriving DecidableEq

/-- `credibility_of_nstd(np.sqrt(v), d)`; the square root of a negative number is NaN. -/
noncomputable def credOfChi2 (v : ℝ) (d : ℕ) : Ext ℝ :=
  if v < 0 then .nan else .fin (credibility √v d)

/-- convergence.py:703-707 `criterion_value_from_means_cov`; `np.linalg.inv` raises for singular matrices. -/
noncomputable def align {d : ℕ} (mean1 mean2 : Fin d → ℝ) (cov : Matrix (Fin d) (Fin d) ℝ) : Except AErr (Ext ℝ) :=
  if cov.det = 0 then .error .linAlgError
  else .ok (credOfChi2 ((mean1 - mean2) ⬝ᵥ cov⁻¹ *ᵥ (mean1 - mean2)) d)

/-- Python's `max(eps, 1e-3)` -/
noncomputable def cap : Ext ℝ → Ext ℝ
  | .fin v => if v < 1e-3 then .fin 1e-3 else .fin v
  | .negInf => .fin 1e-3
  | .posInf => .posInf
  | .nan => .nan

/-- convergence.py:731-752 once both means are known: the value appended to `values`, and what is returned or raised (`none`:
`ConvergenceCheckError`). The value of `credibility_of_nstd` is never negative. -/
noncomputable def value {d : ℕ} (meanNew meanTraining : Fin d → ℝ) (cov : Matrix (Fin d) (Fin d) ℝ) : Ext ℝ × Option (Ext ℝ) :=
  match align meanNew meanTraining cov with
  | .error _ => (.nan, none)
  | .ok eps => if Ext.lt eps (.fin 0) then (.nan, none) else (cap eps, some (cap eps))

/-- Python's `int` of a number: towards zero. -/
def toInt {K : Type*} [Field K] [LinearOrder K] [FloorRing K] (v : K) : ℤ := if v < 0 then ⌈v⌉ else ⌊v⌋

/-- Python's `xs[-k:]`. -/
def lastSlice {α : Type*} (xs : List α) (k : ℤ) : List α :=
  if 0 < k then xs.drop (xs.length - k.toNat) else xs.drop (-k).toNat

/-- convergence.py:699-701: the training points whose mean is computed (`mean_covmat_from_evals`, tools.py, is applied to this list). -/
def window {α K : Type*} [Field K] [LinearOrder K] [FloorRing K] (train : List α) (frac : K) : List α :=
  lastSlice train (toInt ((train.length : K) * frac))

end GPry.Align
