import Verif.McSamp
import Verif.NoraSpmd

set_option linter.all false

/-!
# Runs of the nested samplers in several processes (gpry/ns_interfaces.py:137-239, 311-405, 478-521; gpry/gp_acquisition.py:728-855)

Programs of `Spmd`. The external samplers are arbitrary functions: PolyChord and UltraNest run in all processes together, and what they
write depends on what each process passes to them; nessai runs in one process. The functions handed to them, `set_prior`,
`set_precision` (see `McSamp.lean`) and the removal of files (`McSamp.deleteOutput`, in the main process only) are left out.
-/

namespace GPry.NsRun

open Cobaya McSamp Spmd Prog
open GPry.NoraSpmd (AErr)

/-! ## Settings -/

/-- The attributes of `PolyChordSettings` that are written to: `feedback`, `base_dir` and `file_root`, `seed`, and the precision settings. -/
structure Settings where
  feedback : ℤ
  dir : Option (Str × Str)
  seed : Option ℕ
  prec : List (String × ℤ)
  deriving DecidableEq

/-- ns_interfaces.py:149-154 `InterfacePolyChord.set_verbosity` -/
def setVerbosity (verbose : ℤ) (s : Settings) : Settings :=
  let f := verbose - 3
  { s with feedback := if f = 0 then -1 else f }

/-- ns_interfaces.py:311-313 `InterfaceNessai.set_verbosity`: `log_on_iteration`. -/
def nessaiLogs (verbose : ℤ) : Bool := decide (verbose > 3)

/-! ## Results -/

/-- The arrays made from the table written by PolyChord: of dimension 2, 1 and 1; or, if the table has one row only, `numpy.loadtxt` returns
an array of dimension 1, and they are of dimension 1, 0 and 0. -/
inductive Parsed
  | rows (X : List (List ℝ)) (y w : List ℝ)
  | flat (x : List ℝ) (y w : ℝ)

/-- ns_interfaces.py:233-237: the table has rows of equal length (weight, -2 log-likelihood, point). An empty one has no row `1`. -/
noncomputable def parseTable : List (List ℝ) → Except AErr Parsed
  | [] => .error .indexError
  | [row] => match row with
    | w :: c :: x => .ok (.flat x (-0.5 * c) w)
    | _ => .error .indexError
  | rows => if rows.any (fun r => decide (r.length < 2)) then .error .indexError
    else .ok (.rows (rows.map (·.drop 2)) (rows.map fun r => -0.5 * r.getD 1 0) (rows.map fun r => r.getD 0 0))

/-- ns_interfaces.py:402-404: rows (point, logP, logL, it), with at least two columns. -/
def nessaiX (rows : List (List ℝ)) : List (List ℝ) := rows.map fun r => r.take (r.length - 3)

def nessaiY (rows : List (List ℝ)) : List ℝ := rows.map fun r => r.getD (r.length - 2) 0

/-- What PolyChord does: the points evaluated in each process, with their values, and the table that it writes. -/
structure PcOut where
  evs : List (List (List ℝ × ℝ))
  table : List (List ℝ)

/-- `np.concatenate` of lists of points, one for each process: an empty list has dimension 1, and those of dimension 2 do not match it. -/
def concatX (l : List (List (List ℝ))) : Except AErr (List (List ℝ)) :=
  if l.any (·.isEmpty) && !l.all (·.isEmpty) then .error .valueError else .ok l.flatten

structure Result where
  all : Option (List (List ℝ) × List ℝ)
  mc : Option Parsed

/-- ns_interfaces.py:209-212: the folder and prefix; `tmp` is a new temporary folder, `abs` is `os.path.abspath`. -/
def folder (abs : Str → Str) (tmp : Str) : Option Str → Str × Str
  | none => (tmp, str "ns_samples")
  | some d => Tools.processOutDir abs (str "ns_samples") d

/-- ns_interfaces.py:208-217: settings of this process before they are shared. -/
def configure (r : ℕ) (abs : Str → Str) (tmp : Str) (outDir : Option Str) (seed : Option ℕ) (st : Settings) : Settings :=
  let st := if r = 0 then { st with dir := some (folder abs tmp outDir) } else st
  match seed with
  | some s => { st with seed := some s }
  | none => st

/-- ns_interfaces.py:223-230: with `keep_all`, the evaluations of all the processes. -/
def gatherAll (mine : List (List ℝ × ℝ)) : Prog AErr (Option (List (List ℝ) × List ℝ)) := do
  let gX ← collect (mine.map Prod.fst)
  let gy ← collect (mine.map Prod.snd)
  match gX, gy with
  | some X, some y => match concatX X with
    | .error e => .raise e
    | .ok X => .ret (some (X, y.flatten))
  | _, _ => .ret none

/-- ns_interfaces.py:178-239 `InterfacePolyChord.run` in process `r`: the settings afterwards and the results. -/
noncomputable def runPolychord (r : ℕ) (pc : List Settings → PcOut) (abs : Str → Str) (tmp : Str) (outDir : Option Str) (keepAll : Bool)
    (seed : Option ℕ) (st : Settings) : Prog AErr (Settings × Result) := do
  let st ← share 0 (configure r abs tmp outDir seed st)
  let out := pc (← collectAll st)
  let all ← if keepAll then gatherAll (out.evs.getD r []) else .ret none
  if r = 0 then
    match parseTable out.table with
    | .error e => .raise e
    | .ok q => .ret (st, { all := all, mc := some q })
  else .ret (st, { all := all, mc := none })

/-- ns_interfaces.py:335-405 `InterfaceNessai.run`, with the posterior samples `rows` of the run in this process: points and values, no
weights. -/
def runNessai (keepAll : Bool) (rows : List (List ℝ)) : Prog AErr (List (List ℝ) × List ℝ) :=
  if keepAll then .raise .notImplemented else .ret (nessaiX rows, nessaiY rows)

/-- ns_interfaces.py:478-521 `InterfaceUltraNest.run` in process `r`: `self.output` afterwards, and points, values and weights (those of the
last run elsewhere: never set). `un` gives weights, points and values from the folders passed by all processes. -/
noncomputable def runUltranest (r : ℕ) (un : List (Option Str) → List ℝ × List (List ℝ) × List ℝ) (abs : Str → Str) (tmp : Str) (outDir : Option Str)
    (keepAll : Bool) (output : Option Str) : Prog AErr (Option Str × Option (List (List ℝ) × List ℝ × List ℝ)) :=
  if keepAll then .raise .notImplemented
  else do
    let output := if r = 0 then some (folder abs tmp outDir).1 else output
    let (w, X, y) := un (← collectAll output)
    if r = 0 then
      if X.length ≠ w.length ∨ y.length ≠ w.length then .raise .valueError
      else .ret (output, some (Tools.dropZero w X, Tools.dropZero w y, w.filter (· ≠ 0)))
    else .ret (output, none)

/-! ## `do_MC_sample` -/

/-- What a call depends on in one process: the dimension, the points of the uniform proposer, the external samplers, the new
folders, the seed drawn from the random generator (if there is one), and the attributes of the interface. -/
structure Env where
  dim : ℕ
  unif : ℕ → List ℝ
  pc : List Settings → PcOut
  nessai : List (List ℝ)
  un : List (Option Str) → List ℝ × List (List ℝ) × List ℝ
  abs : Str → Str
  tmp : Str
  outDir : Option Str
  seed : Option ℕ
  settings : Settings
  output : Option Str

/-- The points and weights returned; `None` for both if there are no points. -/
abbrev Drawn := Option (List (List ℝ) × Option (List ℝ))

/-- `self.sampler_interface.run(…)`, of whichever class the interface is; a table with one row only is not followed further. -/
noncomputable def runInterface (r : ℕ) (e : Env) : Option Sampler → Prog AErr Drawn
  | none => .raise .attributeError
  | some .polychord => do
    let q ← runPolychord r e.pc e.abs e.tmp e.outDir false e.seed e.settings
    match q.2.mc with
    | none => .ret none
    | some (.rows X _ w) => .ret (some (X, some w))
    | some (.flat _ _ _) => .raise .indexError
  | some .nessai => do
    let q ← runNessai false e.nessai
    .ret (some (q.1, none))
  | some .ultranest => do
    let q ← runUltranest r e.un e.abs e.tmp e.outDir false e.output
    .ret (q.2.map fun a => (a.1, some a.2.2))

/-- gp_acquisition.py:728-855 `do_MC_sample` in process `r`, for an object with interface `iface` and `sampler = name`, called with the
argument `sampler=arg`. Only the method is chosen by the argument; the interface is that of the object. -/
noncomputable def doMC (r : ℕ) (e : Env) (iface : Option Sampler) (name : Str) (arg : Option Str) : Prog AErr Drawn :=
  let s := lower (arg.getD name)
  if s = str "uniform" then
    if r ≠ 0 then .ret none else .ret (some ((List.range (1000 * e.dim)).map e.unif, none))
  else if s = str "polychord" then runInterface r e iface
  else if s = str "ultranest" then runInterface r e iface
  else if s = str "nessai" then
    if r ≠ 0 then .ret none else runInterface r e iface
  else .raise .valueError

end GPry.NsRun
