import Verif.Progress
import Verif.RunProps2

set_option linter.all false

/-!
# The progress table of a run (gpry/run.py:812-1010, 1071-1198 with progress.py)

The loop of `Run.lean` (the same in all the processes, C54) together with the table of each process. What is measured (times and numbers of evaluations) is
arbitrary. One number for the criterion, as in `Progress.lean`.
-/

namespace GPry.ProgRun

open GPry Spmd Spmd.Prog Progress

/-- What a process measures in an iteration. -/
structure Meas (K : Type) where
  timeAcquire : K
  evalsAcquire : K
  timeTruth : K
  timeFit : K
  evalsFit : K
  timeConvergence : K
  evalsConvergence : K
  crit : Ext K

/-- How far an iteration gets. -/
inductive Until
  /-- too few candidates: `continue` or `break`, run.py:891-910 -/
  | acquired
  /-- the fit raises -/
  | evaluated
  /-- the final sample raises (run.py:996) -/
  | checked
  | synced
deriving DecidableEq

section
variable {K : Type} [Field K] [LinearOrder K]

/-- run.py:815, 827, 880: the row of an iteration after the acquisition. -/
def acquired (m : Meas K) (nT nF : ℕ) (t : Table K) : Except PErr (Table K) :=
  fill [(.nTotal, .fin nT), (.nFinite, .fin nF), (.timeAcquire, .fin m.timeAcquire), (.evalsAcquire, .fin m.evalsAcquire)] (addIteration t)

/-- run.py:815-1009, process `r`: what happens to the table. `n` points were evaluated. Evaluations of the truth and the fit are recorded by the main process
only (run.py:922-923, 931-932). -/
def iterTable (p r : ℕ) (m : Meas K) (nT nF n : ℕ) (u : Until) (t : Table K) : Prog PErr (Table K) := do
  let t ← Prog.fin (acquired m nT nF t)
  if u = .acquired then pure t
  else
    let t ← Prog.fin (if r = 0 then fill [(.timeTruth, .fin m.timeTruth), (.evalsTruth, .fin n)] t else .ok t)
    if u = .evaluated then pure t
    else
      let t ← Prog.fin (if r = 0 then fill [(.timeFit, .fin m.timeFit), (.evalsFit, .fin m.evalsFit)] t else .ok t)
      let t ← Prog.fin (fill [(.timeConvergence, .fin m.timeConvergence), (.evalsConvergence, .fin m.evalsConvergence), (.critValue, m.crit)] t)
      if u = .checked then pure t else mpiSync p t

variable {G X : Type}

/-- How far the iteration of `Run.iterate` gets. -/
def reached (o : Run.Opts) (mcOpts : Bool) (s : Run.Step G X) (g : G) : Until :=
  if (s.cands.length : ℤ) < max 1 (o.nAcq / 2) then .acquired
  else match s.fit g with
    | .error _ => .evaluated
    | .ok _ => if s.conv ∧ mcOpts = false then .checked else .synced

/-- run.py:812-1018 in process `r` of `p`, as `Run.loop`, with the table. -/
def loopTable (o : Run.Opts) (mcOpts : Bool) (nT nF : G → ℕ) (steps : ℕ → G → Run.Step G X) (meas : ℕ → ℕ → Meas K) (p r : ℕ) :
    ℕ → Run.St G X → Table K → Prog PErr (Option (Run.St G X × Run.Exit) × Table K)
  | 0, _, t => pure (none, t)
  | fuel + 1, st, t =>
    if 0 < o.maxTotal - nT st.gpr ∧ 0 < o.maxFinite - nF st.gpr ∧ st.hasConverged = false then do
      let s := steps st.iter st.gpr
      let t ← iterTable p r (meas st.iter r) (nT st.gpr) (nF st.gpr) s.cands.length (reached o mcOpts s st.gpr) t
      match Run.iterate o mcOpts s st with
      | (st', .next) => loopTable o mcOpts nT nF steps meas p r fuel st' t
      | (st', .break_) => pure (some (st', .gaveUp), t)
      | (st', .raise e) => pure (some (st', .raised e), t)
    else pure (some (st, .finished), t)

/-- run.py:1071-1198: the first row. `n = none`: enough points from the beginning, `return` at run.py:1107; otherwise `n` is the length of `X_init`. -/
def initTable (p r : ℕ) (m : Meas K) (n : Option ℕ) (t : Table K) : Prog PErr (Table K) := do
  let t ← Prog.fin (fill [(.nTotal, .fin 0), (.nFinite, .fin 0), (.timeAcquire, .fin 0), (.evalsAcquire, .fin 0), (.timeConvergence, .fin 0),
    (.evalsConvergence, .fin 0), (.critValue, .nan)] (addIteration t))
  match n with
  | none => pure t
  | some n =>
    let t ← Prog.fin (if r = 0 then fill [(.timeTruth, .fin m.timeTruth), (.evalsTruth, .fin n)] t else .ok t)
    let t ← Prog.fin (if r = 0 then fill [(.timeFit, .fin m.timeFit), (.evalsFit, .fin m.evalsFit)] t else .ok t)
    mpiSync p t

/-- run.py:784-1018 in process `r`: initial training (`n` as in `initTable`) of a new run, then the loop, starting with the surrogate `g`. -/
def runTable (o : Run.Opts) (mcOpts : Bool) (nT nF : G → ℕ) (steps : ℕ → G → Run.Step G X) (m0 : ℕ → Meas K) (meas : ℕ → ℕ → Meas K) (n : Option ℕ) (g : G)
    (fuel p r : ℕ) : Prog PErr (Option (Run.St G X × Run.Exit) × Table K) := do
  let t ← initTable p r (m0 r) n []
  loopTable o mcOpts nT nF steps meas p r fuel (.start g) t

/-- `n` of `initTable`: run.py:1090-1107, 1171. `g` is the surrogate before the initial training, `acc` the points passed to `append_to_data`. -/
def firstRow {P PX Θ : Type} (p nInitial : ℕ) (g : Gpr.State P PX Θ K) (acc : List (P × Ext K)) : Option ℕ :=
  if Mpi.ceilDiv (nInitial - g.yTrain.length) p = 0 then none else some acc.length

/-- The number in column `evals_truth`, 0 if there is none. -/
def evals (row : Row K) : K := match row .evalsTruth with
  | .fin v => v
  | _ => 0

end

end GPry.ProgRun
