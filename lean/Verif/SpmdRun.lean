import Verif.SpmdLemmas
import Verif.Run

set_option linter.all false

/-!
# What the processes do in a run, collective call by collective call

The functions of `gpry/run.py` and `gpry/convergence.py` that communicate, as programs (`Verif/Spmd.lean`) of the
process of rank `r`.  What a process does between two collective calls is a function or a value (black box).
-/

namespace GPry.Spmd
open Prog

/-- Exceptions: `ConvergenceCheckError` with its message, or any other one. -/
inductive Exc
  | conv (msg : String)
  | attr
  | other (name : String)
deriving DecidableEq

/-! ## Convergence -/

/-- convergence.py:193-197: what is remembered of the check. -/
def caught : Except Exc Bool → Prog Exc (Bool × Option Bool × Option String)
  | .ok b => ret (false, some b, none)
  | .error (.conv m) => ret (true, none, some m)
  | .error e => raise e

/-- convergence.py:188-197: run the check, catching `ConvergenceCheckError` only:
`(failed, has_converged, err_msg)`. -/
def guarded (check : Prog Exc Bool) : Prog Exc (Bool × Option Bool × Option String) :=
  check.cont caught

/-- convergence.py:180-202 `is_converged_MPIwrapped`, as run by the process of rank `r`. -/
def isConvergedMPI (aware : Bool) (r : ℕ) (check : Prog Exc Bool) : Prog Exc (Option Bool) := do
  sync
  let q ← (if aware = true ∨ r = 0 then guarded check else ret (false, none, none))
  let fs ← collectAll q.1
  if fs.any id then
    let msgs ← collectAll q.2.2
    match msgs.filterMap id with
    | m :: _ => raise (.conv m)
    | [] => raise (.other "IndexError")
  else share 0 q.2.1

/-- A convergence criterion in the process of rank `r`: whether it is MPI-aware, policy, and check. -/
structure Crit where
  aware : Bool
  policy : Run.Policy
  check : ℕ → Prog Exc Bool

/-- run.py:1315-1328 (body of the loop): outcome of one criterion, `None` as `false` (`&=` with `None` cannot happen),
and policy (`convergence_policy_MPI`, convergence.py:169-178). -/
def critMPI (r : ℕ) (c : Crit) : Prog Exc (Run.Policy × Option Bool) := do
  let o ← (isConvergedMPI c.aware r (c.check r)).cont fun
    | .ok b => ret b
    | .error (.conv _) => ret none
    | .error e => raise e
  let pol ← share 0 (if c.aware = true ∨ r = 0 then some c.policy else none)
  match pol with
  | some q => pure (q, o)
  | none => raise .attr

/-- run.py:1303-1333 `_check_convergence_parallel`. -/
def checkConvergenceMPI (r : ℕ) : List Crit → List (Run.Policy × Option Bool) → Prog Exc Bool
  | [], acc => pure (Run.checkConvergence acc.reverse)
  | c :: cs, acc => do
    let o ← critMPI r c
    checkConvergenceMPI r cs (o :: acc)

/-- convergence.py:343-367 `_get_new_mean_and_cov_from_acquisition`; in the main process, `sample` is the error when
getting the sample (`AttributeError`), or the error computing mean and covariance, or their value. -/
def meanCovFromAcquisition {M : Type} (r : ℕ) (sample : Unit ⊕ (String ⊕ M)) : Prog Exc M := do
  let attrError ← share 0 (if r = 0 then (match sample with | .inl _ => true | _ => false) else false)
  if attrError then raise .attr
  else
    let numError ← share 0 (if r = 0 then (match sample with | .inr (.inl e) => some e | _ => none) else none)
    match numError with
    | some e => raise (.conv e)
    | none =>
      let mc ← share 0 (if r = 0 then (match sample with | .inr (.inr m) => some m | _ => none) else none)
      match mc with
      | some m => pure m
      | none => raise (.other "TypeError")

/-- convergence.py:369-428 `_get_new_mean_and_cov_from_mc`; `reuse` is what the main process finds when it tries to
reweight the last sample (`none`: not to be reused), `sampler r` whether the MCMC of process `r` succeeds, `new` mean
and covariance of the new sample (only in the main process). The sampler's own communication is left out. -/
def meanCovFromMC {M : Type} (r : ℕ) (reuse : Except Exc (Option M)) (success : Bool) (new : M) : Prog Exc M := do
  let reuse ← (if r = 0 then Prog.fin reuse else ret none)
  let reused ← share 0 reuse.isSome
  if reused then
    let mc ← share 0 (if r = 0 then reuse else none)
    match mc with
    | some m => pure m
    | none => raise (.other "TypeError")
  else
    let oks ← collectAll success
    if oks.all id then
      let mc ← share 0 (if r = 0 then some new else none)
      match mc with
      | some m => pure m
      | none => raise (.other "TypeError")
    else raise (.conv "")

/-! ## Evaluation of the truth and fit -/

/-- Evaluation of a list, stopping at the first exception. -/
def evalAll {X Y : Type} (truth : X → Except Exc Y) : List X → Except Exc (List Y)
  | [] => .ok []
  | x :: xs => match truth x, evalAll truth xs with
    | .error e, _ => .error e
    | .ok _, .error e => .error e
    | .ok y, .ok ys => .ok (y :: ys)

/-- run.py:1200-1236 `_eval_truth_parallel` (returns `new_y`). -/
def evalTruthMPI {X Y : Type} (truth : X → Except Exc Y) (p r : ℕ) (newX : List X) : Prog Exc (List Y) := do
  let xs := Mpi.evalChunk p r newX
  let ys ← Prog.fin (evalAll truth xs)
  let allX ← collect xs
  let allY ← collect ys
  let both ← share 0 (match allX, allY with
    | some X, some Y => some (X.flatten, Y.flatten)
    | _, _ => none)
  match both with
  | some (_, Y) => pure Y
  | none => raise (.other "TypeError")

/-- run.py:1238-1301 `_fit_gpr_parallel`: process `r` appends the points (`app`) if it has restarts assigned or is the
main one; then the likelihoods are compared and the best surrogate is shared. -/
def fitMPI {G V : Type} [LinearOrder V] [OrderBot V] (r nRestarts : ℕ) (app : Except Exc G) (lml : G → Option V) (g : G) :
    Prog Exc G := do
  share 0 ()
  let g' ← (if nRestarts ≠ 0 ∨ r = 0 then Prog.fin app else ret g)
  let l := if nRestarts ≠ 0 ∨ r = 0 then lml g' else some ⊥
  let ls ← collectAll l
  share (Run.npArgmax ls) g'

/-! ## Main loop -/

/-- What the processes do between the collective calls of the loop; first argument iteration, second rank. -/
structure World (G X Y V : Type) where
  /-- `multi_add` and filtering of the candidates, run.py:836-880 -/
  acquire : ℕ → ℕ → G → Prog Exc (List X)
  truth : X → Except Exc Y
  nRestarts : ℕ → ℕ → ℕ
  append : ℕ → ℕ → G → List X → List Y → Except Exc G
  lml : G → Option V
  /-- whether there is a callback function (`if self.callback`), and what it does -/
  hasCallback : Bool
  callback : ℕ → ℕ → G → Prog Exc Unit
  /-- `callback_is_MPI_aware` -/
  callbackAware : Bool
  crits : ℕ → G → List Crit
  /-- `generate_mc_sample` up to the sharing of the sample, run.py:1640-1711 -/
  sample : ℕ → ℕ → G → Prog Exc Unit
  /-- in the main process: outcome of the two tests of `diagnose_last_mc_sample`, run.py:1757-1784; the second is
  `none` if the acquisition object has no sample -/
  diag1 : ℕ → G → Bool
  diag2 : ℕ → G → Option Bool

section Loop
variable {G X Y V : Type} [LinearOrder V] [OrderBot V]

/-- run.py:1335-1353 `update_mean_cov`: two attributes shared (their values have no influence on what follows). -/
def updateMeanCov : Prog Exc Unit := do
  share 0 ()
  share 0 ()

/-- run.py:1640-1714 `generate_mc_sample`. -/
def generateMC (w : World G X Y V) (i r : ℕ) (g : G) : Prog Exc Unit := do
  w.sample i r g
  share 0 ()
  updateMeanCov

/-- run.py:1746-1784 `diagnose_last_mc_sample`. -/
def diagnose (w : World G X Y V) (i r : ℕ) (g : G) : Prog Exc Bool := do
  let s ← share 0 (if r = 0 then w.diag1 i g else false)
  match w.diag2 i g with
  | none => pure s
  | some b => share 0 (if r = 0 then s && b else false)

/-- progress.py:102-126: nine columns, each gathered in the main process and shared, and a barrier. -/
def progressSync : ℕ → Prog Exc Unit
  | 0 => sync
  | n + 1 => do
    let _ ← collect ()
    share 0 ()
    progressSync n

/-- run.py:942-951: the callback function. -/
def callbackMPI (w : World G X Y V) (i r : ℕ) (g : G) : Prog Exc Unit :=
  if w.hasCallback = true then do
    (if w.callbackAware = true ∨ r = 0 then w.callback i r g else pure ())
    sync
  else pure ()

/-- run.py:814-1010: one iteration in the process of rank `r` of `p`. -/
def iterateMPI (w : World G X Y V) (o : Run.Opts) (p r : ℕ) (st : Run.St G X) : Prog Exc (Run.St G X × Run.Ctl) := do
  let i := st.iter
  let st := { st with iter := st.iter + 1 }
  sync
  let cands ← w.acquire i r st.gpr
  if (cands.length : ℤ) < max 1 (o.nAcq / 2) then
    let st := { st with resamples := st.resamples + 1, trace := .insufficient :: st.trace }
    let noMore ← share 0 (if o.nResamples < st.resamples then (if r = 0 then true else false) else false)
    if noMore then pure (st, .break_) else pure (st, .next)
  else
    let st := { st with resamples := 0, evals := st.evals ++ cands }
    sync
    let ys ← evalTruthMPI w.truth p r cands
    sync
    let g ← fitMPI r (w.nRestarts i r) (w.append i r st.gpr cands ys) w.lml st.gpr
    sync
    share 0 ()
    callbackMPI w i r g
    sync
    let conv ← checkConvergenceMPI r (w.crits i g) []
    sync
    let conv ← share 0 conv
    sync
    updateMeanCov
    let st := { st with gpr := g, hasConverged := conv }
    if conv then
      generateMC w i r g
      let d ← diagnose w i r g
      sync
      progressSync 9
      pure ({ st with hasConverged := d, trace := .evaluated st.iter cands.length true d :: st.trace }, .next)
    else
      progressSync 9
      pure ({ st with trace := .evaluated st.iter cands.length false false :: st.trace }, .next)

/-- run.py:812-1018: the loop, with a maximum number of iterations. -/
def loopMPI (w : World G X Y V) (o : Run.Opts) (nT nF : G → ℕ) (p r : ℕ) :
    ℕ → Run.St G X → Prog Exc (Option (Run.St G X × Run.Exit))
  | 0, _ => pure none
  | fuel + 1, st =>
    if 0 < o.maxTotal - nT st.gpr ∧ 0 < o.maxFinite - nF st.gpr ∧ st.hasConverged = false then do
      let c ← iterateMPI w o p r st
      match c with
      | (st', .next) => loopMPI w o nT nF p r fuel st'
      | (st', .break_) => pure (some (st', .gaveUp))
      | (st', .raise _) => raise (.other "")
    else pure (some (st, .finished))

/-- run.py:812-1061: loop and its `else` clause: after a barrier, and only in the main process, a final sample is
generated and diagnosed if the run has not converged (with a barrier at the end). -/
def runMPI (w : World G X Y V) (o : Run.Opts) (nT nF : G → ℕ) (p fuel : ℕ) (g : G) (r : ℕ) :
    Prog Exc (Option (Run.St G X × Run.Exit)) := do
  let res ← loopMPI w o nT nF p r fuel (.start g)
  match res with
  | some (st, .finished) =>
    sync
    if r = 0 ∧ st.hasConverged = false then
      generateMC w st.iter r st.gpr
      let _ ← diagnose w st.iter r st.gpr
      sync
      pure res
    else pure res
  | _ => pure res

end Loop

end GPry.Spmd
