import Verif.Ext

set_option linter.all false

/-!
# Convergence criteria (gpry/convergence.py)

`GaussianKL`, `GaussianKLTrain`, `TrainAlignment` and `CorrectCounter` as state machines: one step per call of `is_converged`.
The samples (mean and covariance), the training set and the divergences are inputs. What `criterion_value` and `thres`
record besides `values` is left out.
-/

namespace GPry.Conv

variable {K : Type*} [Field K] [LinearOrder K]

/-- Python slice `values[-n:]`; for `n = 0` it is the whole list. -/
def lastN {A : Type*} (n : ℕ) (l : List A) : List A := if n = 0 then l else l.drop (l.length - n)

/-- `np.abs(v) < limit` -/
def absLt (limit : K) : Ext K → Bool
  | .fin v => decide (|v| < limit)
  | _ => false

inductive Err
  /-- `ConvergenceCheckError` -/
  | check
  | assertionError | indexError
deriving DecidableEq, Repr

/-- `mean`, `cov` (one object `M`) and `values`. -/
structure KL (M K : Type*) where
  last : Option M
  values : List (Ext K)

def KL.init {M : Type*} : KL M K := ⟨none, []⟩

/-- convergence.py:466-514 `GaussianKL.criterion_value`; `sample` is the new mean and covariance (`none`: could not be
obtained), `kl new old` the divergence (`none`: exception). -/
def KL.gaussian {M : Type*} (kl : M → M → Option (Ext K)) (s : KL M K) (sample : Option M) : KL M K × Except Err (Ext K) :=
  match sample with
  | none => ({ s with values := s.values ++ [.nan] }, .error .check)
  | some m =>
    match s.last with
    | none => (⟨some m, s.values ++ [.nan]⟩, .error .check)
    | some m0 =>
      match kl m m0 with
      | none => (⟨some m, s.values ++ [.nan]⟩, .error .check)
      | some v =>
        if v.lt (.fin 0) then (⟨some m, s.values ++ [.nan]⟩, .error .check)
        else (⟨some m, s.values ++ [v]⟩, .ok v)

/-- convergence.py:597-637 `GaussianKLTrain.criterion_value` (`floor = none`) and 704-751 `TrainAlignment.criterion_value`
(`floor = some 1e-3`); the second input is what is computed from the training set (`none`: exception). -/
def KL.train {M T : Type*} (kl : M → T → Option (Ext K)) (floor : Option K) (s : KL M K) (sample : Option M) (training : Option T) :
    KL M K × Except Err (Ext K) :=
  match sample, training with
  | none, _ => ({ s with values := s.values ++ [.nan] }, .error .check)
  | some _, none => ({ s with values := s.values ++ [.nan] }, .error .check)
  | some m, some t =>
    match kl m t with
    | none => (⟨some m, s.values ++ [.nan]⟩, .error .check)
    | some v =>
      if v.lt (.fin 0) then (⟨some m, s.values ++ [.nan]⟩, .error .check)
      else
        let v := match floor with
          | none => v
          | some f => Ext.pyMax2 v (.fin f)
        (⟨some m, s.values ++ [v]⟩, .ok v)

/-- convergence.py:516-525 `is_converged` after `criterion_value`. -/
def KL.converged {M : Type*} (limit : K) (limitTimes : ℕ) (r : KL M K × Except Err (Ext K)) : KL M K × Except Err Bool :=
  match r with
  | (s, .error e) => (s, .error e)
  | (s, .ok _) => (s, .ok ((lastN limitTimes s.values).all (absLt limit)))

/-- A history of calls of `is_converged`: the final state and the outcome of every call. -/
def runCalls {S I O : Type*} (step : S → I → S × O) : S → List I → S × List O
  | s, [] => (s, [])
  | s, i :: l =>
    let (s', o) := step s i
    let (s'', os) := runCalls step s' l
    (s'', o :: os)

/-! ## CorrectCounter -/

structure Counter (K : Type*) where
  nPred : ℕ
  /-- number of elements of `values` -/
  nValues : ℕ

/-- convergence.py:852-863, the condition `diff < thres`; with a value that is not finite the comparison is false. -/
def correct (reltol abstol ymax : K) : Ext K → Ext K → Bool
  | .fin yn, .fin yl => decide (|yl - yn| < |yn - ymax| * reltol + abstol)
  | _, _ => false

/-- convergence.py:848-869, the loop. -/
def countLoop (reltol abstol ymax : K) : ℕ → List (Ext K × Ext K) → ℕ
  | n, [] => n
  | n, (yn, yl) :: l =>
    if yn.eqv .negInf then countLoop reltol abstol ymax n l
    else if correct reltol abstol ymax yn yl then countLoop reltol abstol ymax (n + 1) l
    else countLoop reltol abstol ymax 0 l

/-- A call of `is_converged`: `new_y`, `pred_y`, `gp.y_max`. -/
structure Batch (K : Type*) where
  newY : List (Ext K)
  predY : List (Ext K)
  ymax : K

/-- convergence.py:836-874 `is_converged` (with `criterion_value`). -/
def Counter.step (reltol abstol nCorrect : K) (s : Counter K) (b : Batch K) : Counter K × Except Err Bool :=
  if b.newY.length ≠ b.predY.length then (s, .error .assertionError)
  else
    let n := countLoop reltol abstol b.ymax s.nPred (b.newY.zip b.predY)
    if b.newY.length = 0 ∧ s.nValues = 0 then (⟨n, s.nValues⟩, .error .indexError)
    else (⟨n, s.nValues + 1⟩, .ok (decide (nCorrect < (n : K))))

end GPry.Conv
