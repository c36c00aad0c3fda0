import Verif.Progress

set_option linter.all false

/-!
# Numbers of evaluations of the surrogate (progress.py:243-284, gpr.py:283-284, 876-881, 1088, 1296, 1371-1374,
gp_acquisition.py:436-500, run.py:836-933)

The surrogates are objects with two counters each. A block of code is the list of what it does to the counters of the objects. Left out:
times, and exceptions inside of the blocks.
-/

namespace GPry.Cost

open GPry Spmd Prog

/-- `n_eval`, `n_eval_loglike` -/
structure Cnt where
  evals : ℤ
  logl : ℤ

/-- Counters of the objects. -/
abbrev Heap := ℕ → Cnt

inductive Ev
  /-- gpr.py:1088, 1296: `predict` or `predict_std` of object `o` at `n` points -/
  | predict (o n : ℕ)
  /-- gpr.py:876-881 `log_marginal_likelihood` -/
  | loglike (o : ℕ)
  /-- gpr.py:1371-1374 `deepcopy`: the copy starts with the counters of the original -/
  | copy (src dst : ℕ)
  /-- gp_acquisition.py:498 `dst.n_eval = src.n_eval` -/
  | assign (dst src : ℕ)

def Ev.run (h : Heap) : Ev → Heap
  | .predict o n => Function.update h o { h o with evals := (h o).evals + n }
  | .loglike o => Function.update h o { h o with logl := (h o).logl + 1 }
  | .copy src dst => Function.update h dst (h src)
  | .assign dst src => Function.update h dst { h dst with evals := (h src).evals }

/-- A block of code. -/
def block (evs : List Ev) (h : Heap) : Heap := evs.foldl Ev.run h

/-- progress.py:257-284 `TimerCounter(*gps)` around a block: `evals` and `evals_loglike` -/
def timer (gps : List ℕ) (evs : List Ev) (h : Heap) : ℤ × ℤ :=
  ((gps.map fun o => (block evs h o).evals - (h o).evals).sum, (gps.map fun o => (block evs h o).logl - (h o).logl).sum)

/-! ## Acquisition in several processes -/

/-- gp_acquisition.py:453-497: the counter of the copy `gpr_` in one process, `k` points left, point number `i`; `e i` is the number of evaluations
made by this process for point `i` (its restarts). The main process makes one more, the lie. The copy of the main process is broadcast
after each point. -/
def rounds (main : Bool) (e : ℕ → ℕ) : ℕ → ℕ → ℤ → Prog Progress.PErr ℤ
  | 0, _, c => ret c
  | k + 1, i, c => do
    let c' ← share 0 (c + e i + if main then 1 else 0)
    rounds main e k (i + 1) c'

/-- gp_acquisition.py:446-498 inside `TimerCounter` (run.py:836-843): `c0` is `gpr.n_eval` before; the value is `timer_acq.evals`. -/
def acquire (main : Bool) (c0 : ℤ) (e : ℕ → ℕ) (n : ℕ) : Prog Progress.PErr ℤ := do
  let c ← share 0 c0
  let c' ← rounds main e n 0 c
  ret (c' - c0)

section
variable {K : Type} [Field K] [LinearOrder K]

/-- run.py:836-843, 880 (`add_acquisition`) and the sum over the processes of `progress.mpi_sync` (run.py:1018) -/
def monitored (p : ℕ) (main : Bool) (c0 : ℤ) (e : ℕ → ℕ) (n : ℕ) (t : Progress.Table K) : Prog Progress.PErr (Progress.Table K) := do
  let v ← acquire main c0 e n
  let t' ← Prog.fin (Progress.fill [(.evalsAcquire, .fin (v : K))] t)
  Progress.mpiSync p t'

/-- run.py:929-932 and the same sum: only the main process records its evaluations of the likelihood. -/
def monitoredFit (p : ℕ) (main : Bool) (v : ℤ) (t : Progress.Table K) : Prog Progress.PErr (Progress.Table K) := do
  let t' ← Prog.fin (if main then Progress.fill [(.evalsFit, .fin (v : K))] t else .ok t)
  Progress.mpiSync p t'

end

end GPry.Cost
