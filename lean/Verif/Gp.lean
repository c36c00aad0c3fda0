import Mathlib.Analysis.Matrix.PosDef
import Mathlib.Analysis.SpecialFunctions.Pow.Real
import Mathlib.Algebra.Order.Star.Real

set_option linter.all false

/-!
# The linear algebra of the Gaussian process (gpry/gpr.py:996-1020, 1104-1273, 1303-1352, 1453-1465)

Real numbers, exact arithmetic. A training set is a family indexed by a finite type `n`. `scipy.linalg.cholesky` is any
function `chol`; the theorems assume that `chol K` is invertible and a factor of `K` (`L Lᵀ = K`), that it is triangular is
not needed (`solve_triangular` with the identity is the inverse, `cho_solve` the solution of `L Lᵀ α = y`, `tri_mul` the
product). `LinAlgError` for matrices that are not positive definite is not modelled: the theorems ask for positive definite
ones. Points before and after `preprocessing_X` have the same type `P`.
-/

namespace GPry.Gp

open Matrix

variable {P : Type*} {n m : Type*} [Fintype n] [DecidableEq n] [Fintype m] [DecidableEq m]

/-- `X_train_`, `y_train_`, `alpha` (noise variances) in the transformed space, gpr.py:743-747. -/
structure Data (n P : Type*) where
  X : n → P
  y : n → ℝ
  var : n → ℝ

/-- gpr.py:1015-1016: kernel matrix with the noise variances added to the diagonal. -/
def Data.kmat (k : P → P → ℝ) (D : Data n P) : Matrix n n ℝ :=
  Matrix.of (fun i j => k (D.X i) (D.X j)) + diagonal D.var

/-- `V_`, `alpha_` -/
structure Factors (n : Type*) where
  V : Matrix n n ℝ
  alpha : n → ℝ

/-- gpr.py:1453-1465 `_kernel_inverse`. -/
noncomputable def kernelInverse (chol : Matrix n n ℝ → Matrix n n ℝ) (K : Matrix n n ℝ) (y : n → ℝ) : Factors n :=
  let L := chol K
  ⟨L⁻¹, (L * Lᵀ)⁻¹ *ᵥ y⟩

/-- gpr.py:1015-1017 `_update_model`. -/
noncomputable def Data.update (chol : Matrix n n ℝ → Matrix n n ℝ) (k : P → P → ℝ) (D : Data n P) : Factors n :=
  kernelInverse chol (D.kmat k) D.y

/-- gpr.py:1179, 1328 `K_trans` (one row) -/
def Data.kTrans (k : P → P → ℝ) (D : Data n P) (x : P) : n → ℝ := fun i => k x (D.X i)

/-- gpr.py:1180 `y_mean_` -/
noncomputable def Data.mean (chol : Matrix n n ℝ → Matrix n n ℝ) (k : P → P → ℝ) (D : Data n P) (x : P) : ℝ :=
  D.kTrans k x ⬝ᵥ (D.update chol k).alpha

/-- gpr.py:1204-1208, 1329-1332 `y_var` before negative values are removed -/
noncomputable def Data.rawVar (chol : Matrix n n ℝ → Matrix n n ℝ) (k : P → P → ℝ) (D : Data n P) (x : P) : ℝ :=
  let M := (D.update chol k).V *ᵥ D.kTrans k x
  k x x - M ⬝ᵥ M

/-- gpr.py:1214-1220, 1337-1343 `y_std` before undoing the normalisation -/
noncomputable def Data.std (chol : Matrix n n ℝ → Matrix n n ℝ) (k : P → P → ℝ) (D : Data n P) (x : P) : ℝ :=
  let v := D.rawVar chol k x
  Real.sqrt (if v < 0 then 0 else v)

/-- A training set as it was given: positions, values, noise levels. -/
structure Raw (n P : Type*) where
  X : n → P
  y : n → ℝ
  noise : n → ℝ

/-- Kernel with its hyperparameters, and the preprocessors: `preprocessing_X.transform`, and the mean and standard
deviation of the (affine) `preprocessing_y`. -/
structure Model (P : Type*) where
  k : P → P → ℝ
  trX : P → P
  mu : ℝ
  s : ℝ

/-- gpr.py:709-717, 743-747: transformed training set. -/
noncomputable def Model.data (M : Model P) (R : Raw n P) : Data n P :=
  ⟨fun i => M.trX (R.X i), fun i => (R.y i - M.mu) / M.s, fun i => (R.noise i / M.s) ^ 2⟩

/-- gpr.py:1176-1186: `y_mean` before clipping. -/
noncomputable def Model.mean (chol : Matrix n n ℝ → Matrix n n ℝ) (M : Model P) (R : Raw n P) (x : P) : ℝ :=
  (M.data R).mean chol M.k (M.trX x) * M.s + M.mu

/-- gpr.py:1220-1227, 1343-1347: `y_std`. -/
noncomputable def Model.std (chol : Matrix n n ℝ → Matrix n n ℝ) (M : Model P) (R : Raw n P) (x : P) : ℝ :=
  (M.data R).std chol M.k (M.trX x) * M.s

/-- gpr.py:683-685 with no preprocessor refitted (`fit_gpr=False, fit_classifier=False`), all the points finite: the training
set after appending. -/
def Raw.append (R : Raw n P) (E : Raw m P) : Raw (n ⊕ m) P :=
  ⟨Sum.elim R.X E.X, Sum.elim R.y E.y, Sum.elim R.noise E.noise⟩

/-- What is assumed of the Cholesky decomposition. -/
structure IsFactor (K L : Matrix n n ℝ) : Prop where
  isUnit : IsUnit L
  eq : L * Lᵀ = K

end GPry.Gp
