import Verif.NoraSpmd
import Verif.AcqPts
import Mathlib.Data.EReal.Basic

set_option linter.all false

/-!
# The acquisition function as NORA calls it

NORA does not call the acquisition function object, but its method `f` (gp_acquisition.py:1048-1050, 1121-1123), with the means and standard
deviations predicted at the points of the sample, the noise level of the surrogate and the `zeta` of the acquisition function. The
training set is not empty, so that `gpr.y_max` is a number. Values are numbers, `-inf`, `+inf` or NaN; in the model of the pool `some ⊥` is
`-inf`, `some ⊤` is `+inf` and `none` is NaN. Divisions by zero do not raise (1122).
-/

namespace GPry.Proposed

open GPry Acq

/-- The two classes that have a method `f`. -/
inductive Kind
  | linear
  | nonlinear

/-- `np.sqrt(np.clip(std**2 - noise_level**2, 0, None))` -/
noncomputable def sigmaEff (noise std : ℝ) : ℝ := Real.sqrt (max (std ^ 2 - noise ^ 2) 0)

/-- acquisition_functions.py:1073 `np.log`, 1128 `_safe_log_expm1`: both are `log(0) = -inf` at 0. -/
noncomputable def Kind.logSigma (k : Kind) (t : ℝ) : Ext ℝ :=
  if t = 0 then .negInf
  else match k with
    | linear => .fin (Real.log t)
    | nonlinear => .fin (safeLogExpm1 t)

/-- acquisition_functions.py:1069-1074, 1126-1128 `f` at one point, for any mean. -/
noncomputable def Kind.f (k : Kind) (zeta noise baseline : ℝ) (mu : Ext ℝ) (std : ℝ) : Ext ℝ :=
  AcqPts.add (AcqPts.mulR (2 * zeta) (mu.subFin baseline)) (k.logSigma (sigmaEff noise std))

/-- gp_acquisition.py:1123 `acq_func_y_sigma(this_y, this_sigma_y)`. With one noise level per training point, `std**2 - noise_level**2` is
an operation between an array with one entry per point of the sample and another one with one entry per training point. (One point and
several noise levels: the result has as many entries as noise levels.) -/
noncomputable def noraValues (k : Kind) (zeta baseline : ℝ) (noise : Noise) (mus : List (Ext ℝ)) (stds : List ℝ) : Except Acq.Err (List (Ext ℝ)) :=
  match noise with
  | .scalar n => .ok (List.zipWith (k.f zeta n baseline) mus stds)
  | .array ns =>
    if ns.length = stds.length then .ok (List.zipWith (fun n (q : Ext ℝ × ℝ) => k.f zeta n baseline q.1 q.2) ns (mus.zip stds))
    else match ns, mus, stds with
      | [n], _, _ => .ok (List.zipWith (k.f zeta n baseline) mus stds)
      | _, [mu], [std] => .ok (ns.map fun n => k.f zeta n baseline mu std)
      | _, _, _ => .error .valueError

/-- The same acquisition function, called: acquisition_functions.py:936-992. -/
def Kind.leaf (k : Kind) (zeta : ℝ) (sigmaN : Option ℝ) : AcqPts.Leaf :=
  match k with
  | linear => .logExp zeta sigmaN
  | nonlinear => .nonlinear zeta sigmaN

/-- A number of numpy as acquisition value of the model of the pool. -/
noncomputable def toV : Ext ℝ → Option EReal
  | .fin x => some (x : EReal)
  | .negInf => some ⊥
  | .posInf => some ⊤
  | .nan => none

/-- A row of the sample as a point. -/
def pt (d : ℕ) (x : List ℝ) : Fin d → ℝ := fun j => x.getD j 0

end GPry.Proposed
