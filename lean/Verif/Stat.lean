import Mathlib.Analysis.SpecialFunctions.Log.Basic
import Mathlib.Analysis.SpecialFunctions.Pow.Real
import Mathlib.Analysis.Matrix.PosDef
import Mathlib.LinearAlgebra.Matrix.Block

set_option linter.all false

/-!
# Gaussian statistics (gpry/tools.py)

Real numbers. A point, a mean: `n → ℝ`; a covariance matrix: `Matrix n n ℝ`.
`np.linalg.inv` is the inverse of a non-singular matrix (`LinAlgError` for singular ones is not modelled here: the
theorems ask for positive definite matrices). `np.linalg.cholesky` is any function that returns a Cholesky factor.
-/

namespace GPry.Stat

open Matrix

section KL
variable {n : Type*} [Fintype n] [DecidableEq n]

/-- tools.py:20-36 `kl_norm`. -/
noncomputable def klNorm (mean0 : n → ℝ) (cov0 : Matrix n n ℝ) (mean1 : n → ℝ) (cov1 : Matrix n n ℝ) : ℝ :=
  0.5 * (Real.log cov1.det - Real.log cov0.det - (Fintype.card n : ℝ) + (cov1⁻¹ * cov0).trace
    + (mean1 - mean0) ⬝ᵥ (cov1⁻¹ *ᵥ (mean1 - mean0)))

/-- tools.py:39-62 `kl_mc`, with the samples in a list of (log p, log q, weight); `none` is a log p that is not finite
(the points for which it is not are masked away). -/
noncomputable def klMc (samples : List (Option ℝ × ℝ × ℝ)) : ℝ :=
  let kept := samples.filterMap fun s => s.1.map fun p => (p, s.2.1, s.2.2)
  (kept.map fun s => s.2.2 * (s.1 - s.2.1)).sum / (kept.map fun s => s.2.2).sum

end KL

section Chol
variable {d : ℕ}

/-- What `np.linalg.cholesky` returns: lower triangular, positive diagonal, `L Lᵀ` is the matrix. -/
structure IsChol (S L : Matrix (Fin d) (Fin d) ℝ) : Prop where
  lower : ∀ i j, i < j → L i j = 0
  diag : ∀ i, 0 < L i i
  eq : L * Lᵀ = S

/-- tools.py:90 `std_diag`. -/
noncomputable def stdDiag (S : Matrix (Fin d) (Fin d) ℝ) : Matrix (Fin d) (Fin d) ℝ := diagonal fun i => Real.sqrt (S i i)

/-- tools.py:91-92 `corrmat`. -/
noncomputable def corrmat (S : Matrix (Fin d) (Fin d) ℝ) : Matrix (Fin d) (Fin d) ℝ := (stdDiag S)⁻¹ * S * (stdDiag S)⁻¹

/-- tools.py:93-97 `gaussian_distance` for one point, `chol` is `np.linalg.cholesky`. -/
noncomputable def gaussianDistance (chol : Matrix (Fin d) (Fin d) ℝ → Matrix (Fin d) (Fin d) ℝ) (point mean : Fin d → ℝ)
    (S : Matrix (Fin d) (Fin d) ℝ) : ℝ :=
  let L := (stdDiag S)⁻¹ * chol (corrmat S)
  let transf := L *ᵥ (point - mean)
  Real.sqrt (∑ i, transf i ^ 2)

end Chol

end GPry.Stat
