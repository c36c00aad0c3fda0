import Mathlib.Probability.Distributions.Gaussian.Real
import Mathlib.MeasureTheory.Constructions.Pi
import Mathlib.Analysis.SpecialFunctions.Gamma.Basic
import Verif.Ext

set_option linter.all false

/-!
# Numbers of standard deviations in several dimensions (gpry/tools.py:100-131; gpry/gpr.py:1468-1473)

In exact arithmetic. The functions of SciPy are given by their definitions: `erfc` by its integral, `chi2` as the law of a sum of squares of
independent standard normal variables.
-/

namespace GPry.Cred

open GPry MeasureTheory ProbabilityTheory Real

/-- Independent standard normal variables. -/
noncomputable def stdNormal (d : ℕ) : Measure (Fin d → ℝ) := Measure.pi fun _ => gaussianReal 0 1

/-- `scipy.stats.chi2.cdf(x, d)` for a positive number of dimensions -/
noncomputable def chi2cdf (x : ℝ) (d : ℕ) : ℝ := (stdNormal d).real {z | ∑ i, z i ^ 2 ≤ x}

/-- `scipy.special.erfc` -/
noncomputable def erfc (x : ℝ) : ℝ := 2 / √π * ∫ t in Set.Ioi x, exp (-t ^ 2)

/-- `scipy.stats.chi2.isf(q, d)`: inverse of the survival function; NaN for arguments out of range. -/
noncomputable def chi2isf (q : ℝ) (d : ℕ) : Ext ℝ :=
  if d = 0 ∨ q < 0 ∨ 1 < q then .nan
  else if q = 0 then .posInf
  else .fin (sInf {x | 0 ≤ x ∧ 1 - chi2cdf x d ≤ q})

/-- `np.sqrt` -/
noncomputable def sqrtE : Ext ℝ → Ext ℝ
  | .fin v => if v < 0 then .nan else .fin √v
  | .posInf => .posInf
  | .negInf => .nan
  | .nan => .nan

/-- tools.py:100-109 `nstd_of_1d_nstd` (the warning is left out) -/
noncomputable def nstd (n1 : ℝ) (d : ℕ) : Ext ℝ := sqrtE (chi2isf (erfc (n1 / √2)) d)

/-- tools.py:112-118 `delta_logp_of_1d_nstd`; gpr.py:1468-1473 `compute_threshold_given_sigma` is the same. -/
noncomputable def deltaLogp (n1 : ℝ) (d : ℕ) : Ext ℝ :=
  match nstd n1 d with
  | .fin v => .fin (0.5 * v ^ 2)
  | .posInf => .posInf
  | .negInf => .posInf
  | .nan => .nan

/-- tools.py:121-126 `credibility_of_nstd` -/
noncomputable def credibility (n : ℝ) (d : ℕ) : ℝ := chi2cdf (n ^ 2) d

/-- tools.py:129-131 `volume_sphere` -/
noncomputable def volumeSphere (r : ℝ) (dim : ℕ) : ℝ := π ^ ((dim : ℝ) / 2) / Gamma ((dim : ℝ) / 2 + 1) * r ^ dim

end GPry.Cred
