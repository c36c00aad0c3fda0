import Verif.Conv
import Verif.Cov

set_option linter.all false

/-!
# The criterion GaussianKL with its own samples (gpry/convergence.py:330-541)

Where mean and covariance come from: the last sample of the acquisition if there is one, otherwise the last MCMC sample
of the criterion itself, reweighted, or a new one. A single process (for several ones, see `meanCovFromMC` in
`Verif.SpmdRun`). Each call gets as input the sample of the acquisition, the predictions of the surrogate (finite or minus
infinity), and what MCMC would return with a given covariance of the proposal. Means and covariances of reweighted samples are
computed as numpy does (`Verif.Cov`).
-/

namespace GPry.ConvMc

open Cov

/-- Exceptions: `ConvergenceCheckError`, or another one (not caught by the runner). -/
inductive Exc
  | check
  | other (e : Cov.Err)
deriving DecidableEq, Repr

/-- An MCMC sample: points, log-posterior under which it was obtained (`-chi2/2`), weights; mean and covariance as given by
Cobaya. -/
structure Coll (d : ℕ) (K : Type*) where
  rows : List ((Fin d → K) × K × K)
  stat : MeanCov d K

/-- Parameters: `limit`, `limit_times`, `max_reused`; `np.exp`; divergence for square arrays; `is_valid_covmat`. -/
structure Par (d : ℕ) (K : Type*) where
  limit : K
  limitTimes : ℕ
  maxReused : ℕ
  ex : K → K
  kl : (Fin d → Ext K) → (Fin d → Fin d → Ext K) → (Fin d → Ext K) → (Fin d → Fin d → Ext K) → Except Cov.Err (Ext K)
  valid : CovMat d K → Bool

/-- A call of `is_converged`: the last sample of the acquisition (`none`: `AttributeError`), the predictions, MCMC (`none`:
`LoggedError`), numbers of evaluations. -/
structure Call (d : ℕ) (K : Type*) where
  acq : Option (List (Fin d → K) × List K)
  predict : (Fin d → K) → Ext K
  mcmc : Option (CovMat d K) → Option (Coll d K)
  nTotal : ℕ
  n : ℕ

/-- The criterion: mean, covariance and values; thresholds; numbers of evaluations; `n_reused`; `_last_collection`. -/
structure State (d : ℕ) (K : Type*) where
  kl : Conv.KL (MeanCov d K) K
  thres : List K
  evals : List (ℕ × ℕ)
  nReused : ℕ
  coll : Option (Coll d K)

section
variable {K : Type*} [Field K] [LinearOrder K] {d : ℕ}

/-- convergence.py:295-328, what is set at the beginning. -/
def State.init : State d K := ⟨Conv.KL.init, [], [], 0, none⟩

/-- convergence.py:381-385 for one point: kept with its new weight if this is larger than 1e-8. -/
def keep (ex : K → K) (logratio : Ext K) (q : (Fin d → K) × K × K) : Option (K × (Fin d → K)) :=
  match expE ex logratio with
  | .fin e => if 1 / 10 ^ 8 < q.2.2 * e then some (q.2.2 * e, q.1) else none
  | _ => none

/-- convergence.py:379 -/
def logratios (predict : (Fin d → K) → Ext K) (coll : Coll d K) : List (Ext K) :=
  coll.rows.map fun q => Ext.subFin (predict q.1) q.2.1

/-- convergence.py:375-385: the points that are kept and their weights; `max` of an empty array raises `ValueError`. -/
def reweights (ex : K → K) (predict : (Fin d → K) → Ext K) (coll : Coll d K) : Except Cov.Err (List (K × (Fin d → K))) :=
  match Ext.pyMax (logratios predict coll) with
  | none => .error .value
  | some m => .ok (((logratios predict coll).zip coll.rows).filterMap fun q => keep ex (Ext.sub q.1 m) q.2)

/-- convergence.py:386-387 -/
def reweighted (ex : K → K) (predict : (Fin d → K) → Ext K) (coll : Coll d K) : Except Cov.Err (MeanCov d K) :=
  match reweights ex predict coll with
  | .error e => .error e
  | .ok p => fromSamples (p.map Prod.snd) (some (p.map Prod.fst))

/-- convergence.py:391-394; without a mean, `np.linalg.inv(None)` raises `LinAlgError`. -/
def reuseKl (P : Par d K) (m : MeanCov d K) : Option (MeanCov d K) → Except Cov.Err (Ext K)
  | none => .error .linAlg
  | some o => match klNorm P.kl m.mean m.cov o.mean o.cov with
    | .error e => .error e
    | .ok a => match klNorm P.kl o.mean o.cov m.mean m.cov with
      | .error e => .error e
      | .ok b => .ok (Ext.pyMax2 a b)

/-- convergence.py:401; `max` of an empty list raises `ValueError`. -/
def minKl (limit : K) (values : List (Ext K)) : Except Cov.Err K :=
  match Ext.pyMax values with
  | none => .error .value
  | some m => .ok (if Ext.lt m (.fin (10 * limit)) then limit * (1 / 100) else 0)

/-- convergence.py:403-404 -/
def isReused (lo : K) (kl : Ext K) (values : List (Ext K)) (nReused maxReused : ℕ) : Bool :=
  Ext.lt (.fin lo) kl && Ext.lt kl (values.getLastD .nan) && decide (nReused < maxReused)

/-- convergence.py:374-406: whether the last sample can be used again, and its mean and covariance. -/
def tryReuse (P : Par d K) (s : State d K) (c : Call d K) (coll : Coll d K) : Except Exc (Bool × MeanCov d K) :=
  match reweighted P.ex c.predict coll with
  | .error e => .error (.other e)
  | .ok m => match reuseKl P m s.kl.last with
    | .error .linAlg => .error .check
    | .error e => .error (.other e)
    | .ok k => match minKl P.limit s.kl.values with
      | .error e => .error (.other e)
      | .ok lo => .ok (isReused lo k s.kl.values s.nReused P.maxReused, m)

/-- convergence.py:444-447: covariance for the proposal of MCMC. -/
def proposal (P : Par d K) (s : State d K) : Option (CovMat d K) → Option (CovMat d K)
  | some v => if P.valid v then some v else s.kl.last.map MeanCov.cov
  | none => s.kl.last.map MeanCov.cov

/-- convergence.py:415-427, 430-472: a new sample. -/
def sampleMc (P : Par d K) (s : State d K) (c : Call d K) (cov : Option (CovMat d K)) : State d K × Except Exc (Bool × MeanCov d K) :=
  match c.mcmc (proposal P s cov) with
  | none => (s, .error .check)
  | some coll => ({ s with coll := some coll }, .ok (false, coll.stat))

/-- convergence.py:369-427 `_get_new_mean_and_cov_from_mc`; the boolean says if the last sample was used again. -/
def fromMc (P : Par d K) (s0 : State d K) (c : Call d K) : State d K × Except Exc (Bool × MeanCov d K) :=
  let s := { s0 with thres := s0.thres ++ [P.limit] }
  match s.coll with
  | none => sampleMc P s c none
  | some coll => match tryReuse P s c coll with
    | .error e => (s, .error e)
    | .ok (true, m) => ({ s with nReused := s.nReused + 1 }, .ok (true, m))
    | .ok (false, m) => sampleMc P s c (some m.cov)

/-- convergence.py:354-366: with a sample of the acquisition. -/
def acqOutcome : Except Cov.Err (MeanCov d K) → Except Exc (Bool × MeanCov d K)
  | .ok m => .ok (false, m)
  | .error .value => .error .check
  | .error .type_ => .error .check
  | .error e => .error (.other e)

/-- convergence.py:330-367 `_get_new_mean_and_cov`. -/
def getNew (P : Par d K) (s : State d K) (c : Call d K) : State d K × Except Exc (Bool × MeanCov d K) :=
  match c.acq with
  | none => fromMc P s c
  | some (X, w) => (s, acqOutcome (fromAcquisition X w))

/-- The divergence used by `criterion_value`, `none` for an exception (of any kind). -/
def klOpt (P : Par d K) (m o : MeanCov d K) : Option (Ext K) :=
  match klNorm P.kl m.mean m.cov o.mean o.cov with
  | .ok v => some v
  | .error _ => none

/-- Outcome of `is_converged` as an exception of this module (`check` is the only one of `Conv.KL.gaussian`). -/
def outcome : Except Conv.Err Bool → Except Exc Bool
  | .ok b => .ok b
  | .error _ => .error .check

/-- convergence.py:474-514, 516-525, once it is known if there is a new mean and covariance. -/
def finish (P : Par d K) (s : State d K) (c : Call d K) (m : Option (MeanCov d K)) : State d K × Except Exc Bool :=
  let r := Conv.KL.converged P.limit P.limitTimes (Conv.KL.gaussian (klOpt P) s.kl m)
  ({ s with kl := r.1, evals := s.evals ++ [(c.nTotal, c.n)] }, outcome r.2)

/-- convergence.py:516-525 `GaussianKL.is_converged`. -/
def step (P : Par d K) (s : State d K) (c : Call d K) : State d K × Except Exc Bool :=
  match getNew P s c with
  | (s', .error (.other e)) => (s', .error (.other e))
  | (s', .error .check) => finish P s' c none
  | (s', .ok (_, m)) => finish P s' c (some m)

/-- State after some calls. -/
def after (P : Par d K) (s : State d K) (h : List (Call d K)) : State d K := (Conv.runCalls (step P) s h).1

/-- The boolean of an outcome. -/
def flag : Except Exc (Bool × MeanCov d K) → Bool
  | .ok (b, _) => b
  | .error _ => false

/-- Whether a call uses the last sample again. -/
def reusing (P : Par d K) (s : State d K) (c : Call d K) : Bool := flag (getNew P s c).2

/-- How many calls used the last sample again. -/
def reuses (P : Par d K) (s : State d K) : List (Call d K) → ℕ
  | [] => 0
  | c :: h => (if reusing P s c then 1 else 0) + reuses P (step P s c).1 h

end

end GPry.ConvMc
