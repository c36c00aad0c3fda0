import Mathlib.Algebra.Order.Field.Basic
import Mathlib.Algebra.BigOperators.Group.List.Basic
import Mathlib.Algebra.BigOperators.Fin
import Verif.Ext
import Verif.Conv

set_option linter.all false

/-!
# Mean and covariance of samples and of the training set (gpry/tools.py:400-440) and the diagnosis of a sample

A set of points is a list of rows `Fin d → K`; `K` is a linearly ordered field (no rounding). `np.average` and `np.cov`
are written out: which exceptions they raise, the normalisation of the covariance with `aweights` and `ddof`, the
division by zero degrees of freedom, and the `squeeze` that turns the covariance of a single parameter into an array
without dimensions. `d ≥ 1` (for `d = 0` numpy returns an empty array before checking anything).
-/

namespace GPry.Cov

/-- Exceptions. -/
inductive Err
  | value
  | type_
  | runtime
  | zeroDiv
  | linAlg
deriving DecidableEq, Repr

/-- A covariance array: number of dimensions of the array, and entries. -/
structure CovMat (d : ℕ) (K : Type*) where
  ndim : ℕ
  val : Fin d → Fin d → Ext K

/-- Mean and covariance. -/
structure MeanCov (d : ℕ) (K : Type*) where
  mean : Fin d → Ext K
  cov : CovMat d K

section
variable {K : Type*} [Field K] [LinearOrder K] {d : ℕ}

/-- Sum of the weights. -/
def wsum (p : List (K × (Fin d → K))) : K := (p.map Prod.fst).sum

/-- Sum of the squares of the weights. -/
def wsum2 (p : List (K × (Fin d → K))) : K := (p.map fun q => q.1 * q.1).sum

/-- Weighted mean. -/
def wmean (p : List (K × (Fin d → K))) (i : Fin d) : K := (p.map fun q => q.1 * q.2 i).sum / wsum p

/-- Weighted products of the deviations: `dot(X, (X*w).T)` of `np.cov`. -/
def scatter (p : List (K × (Fin d → K))) (i j : Fin d) : K :=
  (p.map fun q => q.1 * (q.2 i - wmean p i) * (q.2 j - wmean p j)).sum

/-- `np.cov`: `if fact <= 0: warnings.warn(...); fact = 0.0`. -/
def clipFact (f : K) : K := if f ≤ 0 then 0 else f

/-- `np.average(X, weights=w, axis=0)` (without weights, `X.mean(axis=0)`). -/
def average (X : List (Fin d → K)) : Option (List K) → Except Err (Fin d → Ext K)
  | none => .ok fun i => Ext.divFin (.fin (X.map fun x => x i).sum) (X.length : K)
  | some w =>
    if w.length ≠ X.length then .error .value
    else if w.sum = 0 then .error .zeroDiv
    else .ok fun i => .fin (wmean (w.zip X) i)

/-- The end of `np.cov`: `c *= np.true_divide(1, fact); return c.squeeze()`. -/
def covOf (p : List (K × (Fin d → K))) (fact : K) : CovMat d K :=
  ⟨if d = 1 then 0 else 2, fun i j => Ext.divFin (.fin (scatter p i j)) (clipFact fact)⟩

/-- `np.cov(X.T, aweights=w, ddof=ddof)`. -/
def npCov (X : List (Fin d → K)) (ddof : ℕ) : Option (List K) → Except Err (CovMat d K)
  | none => .ok (covOf (X.map fun x => (1, x)) ((X.length : K) - ddof))
  | some w =>
    if w.length ≠ X.length then .error .runtime
    else if w.any (fun a => decide (a < 0)) then .error .value
    else if w.sum = 0 then .error .zeroDiv
    else .ok (covOf (w.zip X) (if ddof = 0 then w.sum else w.sum - ddof * (w.map fun a => a * a).sum / w.sum))

/-- tools.py:421-428 `mean_covmat_from_samples`. -/
def fromSamples (X : List (Fin d → K)) (w : Option (List K)) : Except Err (MeanCov d K) :=
  match average X w with
  | .error e => .error e
  | .ok m => match npCov X 1 w with
    | .error e => .error e
    | .ok c => .ok ⟨m, c⟩

/-- tools.py:400-418 `remove_0_weight_samples`, one of the arrays (`np.delete(array, i_zero_w, axis=0)`). -/
def deleteZero {A W : Type*} [DecidableEq W] [Zero W] (w : List W) (a : List A) : List A :=
  ((w.zip a).filter fun q => decide (q.1 ≠ 0)).map Prod.snd

/-- tools.py:400-418 `remove_0_weight_samples`: the arrays after the first. -/
def deleteAll {A W : Type*} [DecidableEq W] [Zero W] (w : List W) : List (Option (List A)) → Except Err (List (Option (List A)))
  | [] => .ok []
  | none :: as => match deleteAll w as with
    | .error e => .error e
    | .ok r => .ok (none :: r)
  | some a :: as =>
    if a.length ≠ w.length then .error .value
    else match deleteAll w as with
      | .error e => .error e
      | .ok r => .ok (some (deleteZero w a) :: r)

/-- tools.py:400-418 `remove_0_weight_samples`. -/
def removeZero {A W : Type*} [DecidableEq W] [Zero W] (w : List W) (as : List (Option (List A))) :
    Except Err (List W × List (Option (List A))) :=
  match deleteAll w as with
  | .error e => .error e
  | .ok r => .ok (w.filter fun a => decide (a ≠ 0), r)

instance : Zero (Ext K) := ⟨.fin 0⟩

/-- `np.exp`, with `ex` on finite numbers. -/
def expE (ex : K → K) : Ext K → Ext K
  | .negInf => .fin 0
  | .fin x => .fin (ex x)
  | .posInf => .posInf
  | .nan => .nan

/-- The finite numbers of a list, if all are. -/
def finites : List (Ext K) → Option (List K)
  | [] => some []
  | .fin x :: l => (finites l).map (x :: ·)
  | _ :: _ => none

/-- Result if there are weights that are not numbers. -/
def allNan : MeanCov d K := ⟨fun _ => .nan, ⟨if d = 1 then 0 else 2, fun _ _ => .nan⟩⟩

/-- tools.py:437-440: weighted mean and covariance (`ddof=0`) of the remaining points. If one of the weights is not
finite, every entry is NaN (an infinite weight cannot happen: no value is larger than the maximum). -/
def fromWeights (X : List (Fin d → K)) (w : List (Ext K)) : Except Err (MeanCov d K) :=
  match finites w with
  | none => .ok allNan
  | some w => match average X (some w) with
    | .error e => .error e
    | .ok m => match npCov X 0 (some w) with
      | .error e => .error e
      | .ok c => .ok ⟨m, c⟩

/-- tools.py:431-440 `mean_covmat_from_evals`. -/
def fromEvals (ex : K → K) (X : List (Fin d → K)) (logp : List (Ext K)) : Except Err (MeanCov d K) :=
  match Ext.pyMax logp with
  | none => .error .value
  | some m =>
    match removeZero (logp.map fun l => expE ex (Ext.sub l m)) [some X] with
    | .ok (w, [some X']) => fromWeights X' w
    | .ok _ => .error .type_
    | .error e => .error e

/-! ## Use of the covariance -/

/-- `np.linalg.inv`, `np.linalg.det` need at least two dimensions: `LinAlgError` otherwise. -/
def square (c : CovMat d K) : Except Err (Fin d → Fin d → Ext K) := if c.ndim < 2 then .error .linAlg else .ok c.val

/-- `np.atleast_2d`. -/
def atleast2d (c : CovMat d K) : CovMat d K := { c with ndim := 2 }

/-- tools.py:20-36 `kl_norm`, with `kl` what it computes for square arrays (or `LinAlgError`, singular matrix). -/
def klNorm (kl : (Fin d → Ext K) → (Fin d → Fin d → Ext K) → (Fin d → Ext K) → (Fin d → Fin d → Ext K) → Except Err (Ext K))
    (m0 : Fin d → Ext K) (c0 : CovMat d K) (m1 : Fin d → Ext K) (c1 : CovMat d K) : Except Err (Ext K) :=
  match square c1 with
  | .error e => .error e
  | .ok s1 => match square c0 with
    | .error e => .error e
    | .ok s0 => kl m0 s0 m1 s1

/-- convergence.py:703-707 `TrainAlignment.criterion_value_from_means_cov`, `cred` for a square array. -/
def alignment (cred : (Fin d → Ext K) → (Fin d → Ext K) → (Fin d → Fin d → Ext K) → Except Err (Ext K))
    (m1 m2 : Fin d → Ext K) (c : CovMat d K) : Except Err (Ext K) :=
  match square c with
  | .error e => .error e
  | .ok s => cred m1 m2 s

/-- Mean and covariance of the last sample of the acquisition, convergence.py:357-362 and run.py:1777-1778. -/
def fromAcquisition (X : List (Fin d → K)) (w : List K) : Except Err (MeanCov d K) :=
  match average X (some w) with
  | .error e => .error e
  | .ok m => match npCov X 0 (some w) with
    | .error e => .error e
    | .ok c => .ok ⟨m, atleast2d c⟩

/-- run.py:1770 `success = 0 < cred < 0.5`. -/
def credOk (c : Ext K) : Bool := Ext.lt (.fin 0) c && Ext.lt c (.fin (1 / 2))

/-- What is needed to diagnose a sample. -/
structure Diag (d : ℕ) (K : Type*) where
  ex : K → K
  kl : (Fin d → Ext K) → (Fin d → Fin d → Ext K) → (Fin d → Ext K) → (Fin d → Fin d → Ext K) → Except Err (Ext K)
  cred : (Fin d → Ext K) → (Fin d → Ext K) → (Fin d → Fin d → Ext K) → Except Err (Ext K)

/-- run.py:1758-1770, the first test of `diagnose_last_mc_sample`: the sample and its weights, the training set. -/
def diagnose1 (D : Diag d K) (X : List (Fin d → K)) (w : Option (List K)) (Xt : List (Fin d → K)) (yt : List (Ext K)) :
    Except Err (MeanCov d K × Bool) :=
  match fromSamples X w with
  | .error e => .error e
  | .ok mc => match fromEvals D.ex Xt yt with
    | .error e => .error e
    | .ok tr => match alignment D.cred mc.mean tr.mean mc.cov with
      | .error e => .error e
      | .ok c => .ok (mc, credOk c)

/-- run.py:1773-1782, the second test; `d` is the dimension. -/
def diagnose2 (D : Diag d K) (mc : MeanCov d K) (success : Bool) (Xa : List (Fin d → K)) (wa : List K) : Except Err Bool :=
  match fromAcquisition Xa wa with
  | .error .value => .ok success
  | .error .type_ => .ok success
  | .error e => .error e
  | .ok acq => match klNorm D.kl mc.mean mc.cov acq.mean acq.cov with
    | .error e => .error e
    | .ok k => .ok (success && Ext.lt k (.fin (d : K)))

/-- run.py:1747-1784 `diagnose_last_mc_sample` in a single process; `acq` the last sample of the acquisition, if any. -/
def diagnose (D : Diag d K) (X : List (Fin d → K)) (w : Option (List K)) (Xt : List (Fin d → K)) (yt : List (Ext K))
    (acq : Option (List (Fin d → K) × List K)) : Except Err Bool :=
  match diagnose1 D X w Xt yt with
  | .error e => .error e
  | .ok (mc, s) => match acq with
    | none => .ok s
    | some (Xa, wa) => diagnose2 D mc s Xa wa

end

end GPry.Cov
