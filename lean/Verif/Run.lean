import Verif.Mpi
import Verif.Gpr
import Mathlib.Data.Nat.Sqrt
import Mathlib.Data.Int.Order.Basic

/-!
# The runner: options, initial training, active learning loop (run.py)

Models run.py:521-592 (`_construct_options`), 764-1061 (`run`), 1071-1198 (`do_initial_training`),
1238-1301 (`_fit_gpr_parallel`, schedule and choice of the best process) and 1303-1333
(`_check_convergence_parallel`).

Simplifications: printing, plotting, timing and the callback are left out; acquisition engine, true posterior,
convergence criteria and diagnosis are arbitrary (oracles).
-/

namespace GPry.Run

/-- Python exceptions raised by the modelled code. -/
inductive RErr
  | valueError | zeroDivision | runtimeError | attributeError
  /-- an exception raised inside of `append_to_data`/the fit -/
  | fit (e : Gpr.Err)
deriving DecidableEq

/-! ## Options, run.py:521-592 -/

/-- Options given by the user, after parsing with `get_Xnumber` (tools.py:185-234, modelled elsewhere): `none` for an
option that is absent or `None` (run.py:524-527). -/
structure UserOpts where
  nInitial : Option ℤ := none
  maxInitial : Option ℤ := none
  maxTotal : Option ℤ := none
  maxFinite : Option ℤ := none
  nAcq : Option ℤ := none
  fitFull : Option ℤ := none
  fitSimple : Option ℤ := none
  nResamples : Option ℤ := none

/-- The corresponding attributes of the runner. -/
structure Opts where
  nInitial : ℤ
  maxInitial : ℤ
  maxTotal : ℤ
  maxFinite : ℤ
  nAcq : ℤ
  fitFull : ℤ
  fitSimple : ℤ
  nResamples : ℤ
deriving DecidableEq, Repr

/-- `int(c * d**1.5)` (exact arithmetic). -/
def timesD15 (c d : ℕ) : ℤ := (Nat.sqrt (c * c * (d * d * d)) : ℕ)

/-- run.py:545-547. -/
def cap (v : ℤ) : ℤ := min 1000000000 v

/-- run.py:581-592: round down to a multiple of the number of processes if the rest is at most 20 per cent. -/
def roundAcq (n : ℤ) (size : ℕ) : ℤ :=
  let rest := n % (size : ℤ)
  if 5 * rest ≤ n ∧ rest ≠ 0 then n - rest else n

/-- run.py:521-592 `_construct_options`. -/
def construct (d size : ℕ) (u : UserOpts) : Except RErr Opts :=
  let nInitial := cap (max (u.nInitial.getD (3 * d)) 2)
  let maxInitial0 := u.maxInitial.getD (timesD15 30 d)
  let maxInitial := cap maxInitial0
  let maxTotal0 := u.maxTotal.getD (max maxInitial0 (timesD15 70 d))
  let maxTotal := cap maxTotal0
  let maxFinite := cap (u.maxFinite.getD maxTotal0)
  let nAcq := cap (u.nAcq.getD d)
  let fitFull := cap (max (u.fitFull.getD (Nat.sqrt (4 * d) : ℕ)) 1)
  let fitSimple := cap (max (u.fitSimple.getD 1) 1)
  let nResamples := u.nResamples.getD 2
  if nInitial ≤ 0 ∨ maxInitial ≤ 0 ∨ maxFinite ≤ 0 ∨ maxTotal ≤ 0 ∨ nAcq ≤ 0 ∨ fitFull ≤ 0 ∨ fitSimple ≤ 0 then
    .error .valueError
  else if maxInitial < nInitial then .error .valueError
  else if maxFinite < nInitial then .error .valueError
  else if maxTotal < maxInitial then .error .valueError
  else if maxTotal < maxFinite then .error .valueError
  else .ok ⟨nInitial, maxInitial, maxTotal, maxFinite, roundAcq nAcq size, fitFull, fitSimple, nResamples⟩

/-! ## Main loop, run.py:764-1061 -/

variable {G X : Type*}

/-- What happens in one iteration: results of the external components. -/
structure Step (G X : Type*) where
  /-- candidates left after run.py:838-879 (acquisition, then removal of repeated points) -/
  cands : List X
  /-- surrogate after evaluating the truth and `_fit_gpr_parallel` (run.py:917-933), or an exception -/
  fit : G → Except Gpr.Err G
  /-- result of `_check_convergence_parallel` (run.py:960-965) -/
  conv : Bool
  /-- result of the diagnosis (run.py:991-1008), if it is run -/
  diag : Bool

/-- What an observer sees of an iteration. -/
inductive Event
  /-- fewer candidates than needed, nothing evaluated (run.py:891-910) -/
  | insufficient
  /-- iteration number `it`, `n` points evaluated, result of the convergence check, and of the diagnosis -/
  | evaluated (it n : ℕ) (conv diag : Bool)
deriving DecidableEq, Repr

/-- State of the runner in the loop. -/
structure St (G X : Type*) where
  gpr : G
  hasConverged : Bool
  resamples : ℕ
  iter : ℕ
  /-- events, newest first -/
  trace : List Event
  /-- points at which the true posterior was evaluated in the loop -/
  evals : List X

/-- How the loop ends. -/
inductive Exit
  /-- the condition of the `while` loop is false -/
  | finished
  /-- `break` (run.py:904-905) -/
  | gaveUp
  | raised (e : RErr)
deriving DecidableEq

/-- How an iteration ends. -/
inductive Ctl
  | next
  | break_
  | raise (e : RErr)

/-- run.py:814-1008: one iteration. `mcOpts` says whether the attribute `_mc_options` exists (run.py:275; it is not
set when resuming from a checkpoint, run.py:262-264). -/
def iterate (o : Opts) (mcOpts : Bool) (s : Step G X) (st : St G X) : St G X × Ctl :=
  let st := { st with iter := st.iter + 1 }
  if (s.cands.length : ℤ) < max 1 (o.nAcq / 2) then
    let st := { st with resamples := st.resamples + 1, trace := .insufficient :: st.trace }
    if o.nResamples < st.resamples then (st, .break_) else (st, .next)
  else
    let st := { st with resamples := 0, evals := st.evals ++ s.cands }
    match s.fit st.gpr with
    | .error e => (st, .raise (.fit e))
    | .ok g =>
      let st := { st with gpr := g, hasConverged := s.conv }
      if s.conv then
        if mcOpts then
          ({ st with hasConverged := s.diag, trace := .evaluated st.iter s.cands.length true s.diag :: st.trace }, .next)
        else (st, .raise .attributeError)
      else ({ st with trace := .evaluated st.iter s.cands.length false false :: st.trace }, .next)

/-- run.py:812-1018: the loop, with a maximum number of iterations (`none` if it is not enough). -/
def loop (o : Opts) (mcOpts : Bool) (nT nF : G → ℕ) (steps : ℕ → G → Step G X) : ℕ → St G X → Option (St G X × Exit)
  | 0, _ => none
  | fuel + 1, st =>
    if 0 < o.maxTotal - nT st.gpr ∧ 0 < o.maxFinite - nF st.gpr ∧ st.hasConverged = false then
      match iterate o mcOpts (steps st.iter st.gpr) st with
      | (st', .next) => loop o mcOpts nT nF steps fuel st'
      | (st', .break_) => some (st', .gaveUp)
      | (st', .raise e) => some (st', .raised e)
    else some (st, .finished)

/-- run.py:805, 283, 540: state at the beginning of the loop. -/
def St.start (g : G) : St G X := ⟨g, false, 0, 0, [], []⟩

/-- run.py:804-1061: loop and `else` clause (in the main process): a final MC sample if it did not converge, which
reads `_mc_options` too (run.py:1039-1047). -/
def runLoop (o : Opts) (mcOpts : Bool) (nT nF : G → ℕ) (steps : ℕ → G → Step G X) (fuel : ℕ) (g : G) :
    Option (St G X × Exit) :=
  match loop o mcOpts nT nF steps fuel (.start g) with
  | some (st, .finished) =>
    if st.hasConverged = false ∧ mcOpts = false then some (st, .raised .attributeError) else some (st, .finished)
  | r => r

/-! ## Refit schedule, run.py:1238-1301 -/

/-- What kind of hyperparameter fit is done. -/
inductive FitKind
  | full | simple | none
deriving DecidableEq, Repr

/-- run.py:1252-1260 (both periods are at least 1 by run.py:535-536). -/
def fitKind (full simple iter : ℕ) : FitKind :=
  if full ≠ 0 ∧ iter % full = full - 1 then .full
  else if simple ≠ 0 ∧ iter % simple = simple - 1 then .simple
  else .none

/-- run.py:1252-1260: `n_restarts` of process `r` of `p`. -/
def restarts (full simple iter nOpt p r : ℕ) : ℕ :=
  match fitKind full simple iter with
  | .full => (Mpi.splitNumber nOpt p).getD r 0
  | .simple => 1
  | .none => 0

/-- run.py:1261-1286: the value that process `r` contributes; `lml r` is its log-marginal-likelihood after
`append_to_data` (`none` for NaN, `⊥` for `-inf`). -/
def contribution {V : Type*} [LinearOrder V] [OrderBot V] (nRestarts : ℕ → ℕ) (lml : ℕ → Option V) (r : ℕ) : Option V :=
  if nRestarts r ≠ 0 ∨ r = 0 then lml r else some ⊥

/-- `b <= a` for numbers that are not NaN. -/
def geNum {V : Type*} [LinearOrder V] : Option V → Option V → Bool
  | some a, some b => decide (b ≤ a)
  | _, _ => false

/-- `np.argmax` of a non-empty array (run.py:1288): first NaN if there is one, otherwise first maximum. -/
def npArgmax {V : Type*} [LinearOrder V] (l : List (Option V)) : ℕ :=
  if l.any Option.isNone then l.findIdx Option.isNone else l.findIdx fun v => l.all fun w => geNum v w

/-- run.py:1286-1288: `best_i`. -/
def bestRank {V : Type*} [LinearOrder V] [OrderBot V] (p : ℕ) (nRestarts : ℕ → ℕ) (lml : ℕ → Option V) : ℕ :=
  npArgmax ((List.range p).map (contribution nRestarts lml))

/-! ## Convergence policies, run.py:1303-1333, convergence.py:18-25, 128-141 -/

/-- `_all_convergence_policies_dict`. -/
inductive Policy
  | n | s | ns | m
deriving DecidableEq, Repr

/-- `"n" in this_policy`. -/
def Policy.hasN : Policy → Bool
  | .n | .ns => true
  | _ => false

/-- `"s" in this_policy`. -/
def Policy.hasS : Policy → Bool
  | .s | .ns => true
  | _ => false

/-- The variables of run.py:1311-1314. -/
structure Acc where
  allNec : Bool := true
  nNec : ℕ := 0
  anySuf : Bool := false
  nSuf : ℕ := 0

/-- run.py:1315-1328; the outcome of a criterion is `none` if it raises `ConvergenceCheckError`. -/
def accStep (a : Acc) (c : Policy × Option Bool) : Acc :=
  let r := c.2.getD false
  let a := if c.1.hasN then { a with allNec := a.allNec && r, nNec := a.nNec + 1 } else a
  if c.1.hasS then { a with anySuf := a.anySuf || r, nSuf := a.nSuf + 1 } else a

/-- run.py:1303-1333 `_check_convergence_parallel`. -/
def checkConvergence (cs : List (Policy × Option Bool)) : Bool :=
  let a := cs.foldl accStep {}
  if a.nNec = 0 ∧ a.nSuf = 0 then false else a.allNec && (a.anySuf || a.nSuf == 0)

/-! ## Initial training, run.py:1071-1198 -/

section Init
variable {P PX Θ K : Type*} [Field K] [LinearOrder K]

/-- run.py:1085-1094: the function `is_finite`, applied to `max(y_init) - y_init` (run.py:1153). -/
def initIsFinite (cfg : Gpr.Cfg P PX Θ K) (top y : Ext K) : Bool :=
  if cfg.useSvm then Gpr.isFiniteRaw cfg.thr (.fin 0) (top.sub y).neg else (top.sub y).isFinite

/-- run.py:1153: number of finite points so far (Python's `max`; a non-empty array here). -/
def nFiniteNew (cfg : Gpr.Cfg P PX Θ K) (ys : List (Ext K)) : ℕ :=
  match Ext.pyMax ys with
  | none => 0
  | some top => ys.countP (initIsFinite cfg top)

/-- run.py:1117-1150: the points evaluated in round `i` by `p` processes, `k` each; `draw i r j` is the `j`-th point
drawn by process `r`, with its log-posterior. (That the proposer finds a point within the bounds is assumed.) -/
def roundPts (p k : ℕ) (draw : ℕ → ℕ → ℕ → P × Ext K) (i : ℕ) : List (P × Ext K) :=
  (List.range p).flatMap fun r => (List.range k).map (draw i r)

/-- run.py:1117-1166: the loop over rounds (`n` left). -/
def initRounds (cfg : Gpr.Cfg P PX Θ K) (p k needed : ℕ) (draw : ℕ → ℕ → ℕ → P × Ext K) :
    ℕ → ℕ → List (P × Ext K) → List (P × Ext K) × Bool
  | 0, _, acc => (acc, false)
  | n + 1, i, acc =>
    let acc := acc ++ roundPts p k draw i
    if needed ≤ nFiniteNew cfg (acc.map Prod.snd) then (acc, true)
    else initRounds cfg p k needed draw n (i + 1) acc

/-- run.py:1071-1198 `do_initial_training` in the main process of `p`. Returns the points passed to `append_to_data`
and the new surrogate. The points of `gpr` itself are reused (run.py:1101-1106), i.e. passed again. -/
def initialTraining (cfg : Gpr.Cfg P PX Θ K) (p nInitial maxInitial : ℕ) (verbose : ℤ)
    (draw : ℕ → ℕ → ℕ → P × Ext K) (g : Gpr.State P PX Θ K) :
    Except RErr (List (P × Ext K) × Gpr.State P PX Θ K) :=
  let needed := nInitial - g.yTrain.length
  let k := Mpi.ceilDiv needed p
  if k = 0 then
    if 1 < verbose then .ok ([], g) else .error .zeroDivision
  else
    match initRounds cfg p k needed draw (Mpi.ceilDiv maxInitial k) 0 (g.xTrain.zip g.yTrain) with
    | (_, false) => .error .runtimeError
    | (acc, true) =>
      match Gpr.append cfg g { batch := some (acc.map Prod.fst, acc.map Prod.snd) } with
      | (_, some e) => .error (.fit e)
      | (g', none) => .ok (acc, g')

end Init

end GPry.Run
