import Verif.Run
import Verif.Mpi

set_option linter.all false

/-!
# What a run reports while it runs

The numbers in the messages of run.py, for `verbose >= 3` (the wording, the timings and the values printed for
`level=4` are left out): banner of each iteration (run.py:806-825), number of proposed points (run.py:882-883),
re-sampling and giving up (run.py:894-910), final banner (run.py:1020-1040), messages of `_eval_truth_parallel`
(run.py:1228-1235), `_fit_gpr_parallel` (run.py:1294-1300) and `do_initial_training` (run.py:1172-1194).
-/

namespace GPry.Run

/-- A message of the main process. -/
inductive Msg
  /-- run.py:817-825: "Iteration `it` (at most? `left` left); Total truth evals: `total` (`finite` finite) …" -/
  | iteration (it : ℕ) (atMost : Bool) (left : ℤ) (total finite : ℕ)
  /-- run.py:882-883: "Proposed `n` point(s) for truth evaluation" -/
  | proposed (n : ℕ)
  /-- run.py:896-900: "Acquisition returning no values after `retries` re-tries. Giving up." -/
  | givingUp (retries : ℤ)
  /-- run.py:906-910: "Acquisition returned less than half of the requested points. Re-sampling (`remaining` tries
  remaining)" -/
  | resampling (remaining : ℤ)
  /-- run.py:921, 1230: "Evaluated the true log-posterior at `n` location(s)" -/
  | evaluated (n : ℕ)
  /-- run.py:1020-1040: "Finished!", followed by up to four lines: the run has converged; the maximum number of truth
  evaluations has been reached; the maximum number of finite ones; gave up -/
  | finished (converged total finite gaveUp : Bool)
deriving DecidableEq, Repr

/-- `np.ceil(a / b)` of integers, `b` positive (exact division). -/
def ceilQ (a b : ℤ) : ℤ := -((-a) / b)

variable {G X : Type*}

/-- run.py:806-811 `at_most_str`: `dont` says whether there is a criterion `DontConverge`. -/
def atMost (o : Opts) (dont : Bool) : Bool := o.maxFinite < o.maxTotal || !dont

/-- run.py:816-825. -/
def banner (o : Opts) (dont : Bool) (nT nF : G → ℕ) (st : St G X) : Msg :=
  .iteration (st.iter + 1) (atMost o dont) (ceilQ (o.maxTotal - nT st.gpr) o.nAcq) (nT st.gpr) (nF st.gpr)

/-- run.py:880-921: the other messages of an iteration that starts in state `st`. -/
def iterMsgs (o : Opts) (s : Step G X) (st : St G X) : List Msg :=
  .proposed s.cands.length ::
    if (s.cands.length : ℤ) < max 1 (o.nAcq / 2) then
      if o.nResamples < (st.resamples + 1 : ℕ) then [.givingUp ((st.resamples + 1 : ℕ) - 1)]
      else [.resampling (o.nResamples - (st.resamples + 1 : ℕ))]
    else [.evaluated s.cands.length]

/-- run.py:1020-1040: it is in the `else` clause of the loop. -/
def finalMsg (o : Opts) (nT nF : G → ℕ) (st : St G X) : Msg :=
  .finished st.hasConverged (o.maxTotal - nT st.gpr ≤ 0)
    (o.maxFinite < o.maxTotal && o.maxFinite - nF st.gpr ≤ 0) (o.nResamples < st.resamples)

/-- Messages of the loop (same recursion as `loop`). -/
def loopMsgs (o : Opts) (mcOpts dont : Bool) (nT nF : G → ℕ) (steps : ℕ → G → Step G X) : ℕ → St G X → List Msg
  | 0, _ => []
  | fuel + 1, st =>
    if 0 < o.maxTotal - nT st.gpr ∧ 0 < o.maxFinite - nF st.gpr ∧ st.hasConverged = false then
      banner o dont nT nF st :: (iterMsgs o (steps st.iter st.gpr) st ++
        match iterate o mcOpts (steps st.iter st.gpr) st with
        | (st', .next) => loopMsgs o mcOpts dont nT nF steps fuel st'
        | _ => [])
    else [finalMsg o nT nF st]

section Eval
variable {P PX Θ K : Type*} [Field K] [LinearOrder K]

/-- run.py:1229-1234, in a run with `p` processes: number of points, points of the main process (only mentioned with
several processes), and number of finite values. -/
def evalMsg (p : ℕ) (ys : List (Ext K)) : ℕ × Option ℕ × ℕ :=
  (ys.length, if 1 < p then some ((Mpi.splitNumber ys.length p).getD 0 0) else none, ys.countP Ext.isFinite)

/-- run.py:1296-1298: "Fitted log(p) surrogate model with … new points, of which … were added to the GPR". -/
def fitMsg (g : Gpr.State P PX Θ K) : ℕ × ℕ := (g.nLast, g.nLast)

/-- run.py:1173-1175: "Evaluated the true log-posterior at … location(s), of which … returned a finite value", for
the points gathered in `do_initial_training` (with those that the surrogate had before). -/
def initMsg (cfg : Gpr.Cfg P PX Θ K) (acc : List (P × Ext K)) : ℕ × ℕ :=
  (acc.length, nFiniteNew cfg (acc.map Prod.snd))

/-- run.py:1190-1193: "… finite points were added to the GPR", after the initial training. -/
def initFitMsg (g : Gpr.State P PX Θ K) : ℕ := g.nLastFinite

end Eval

end GPry.Run
