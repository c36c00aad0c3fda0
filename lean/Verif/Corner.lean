import Verif.Cobaya

set_option linter.all false

/-!
# Corner plots (gpry/plots.py 412-676; gpry/run.py 1786-1864)

What is drawn, not the drawing. A sample is given by the names it holds, in the way of GetDist: those ending in a star are derived, the rest
are running ones. Arrays of points are lists of tuples with as many coordinates as there are names of parameters, at least two (that of
plots.py:546 for the calls from `plot_corner_getdist`), for which `np.squeeze` and `np.atleast_2d` in plots.py:617-630 do nothing.
-/

namespace GPry.Corner

open GPry.Cobaya (Dict Str str put update)

inductive Err
  | typeError | valueError | indexError
deriving DecidableEq, Repr

/-! ## The training points (plots.py:555-676) -/

section training

variable {K : Type*} [LinearOrder K] {Y : Type*} {d : ℕ}

/-- Limits of an axis: its two ends. -/
abbrev Lim (K : Type*) := K × K

/-- plots.py:596-605: limits per parameter. `axes i j` are the limits along x and y of the panel of the parameters `i` and `j`, if there is one. -/
def limits (axes : Fin d → Fin d → Option (Lim K × Lim K)) : Fin d → Option (Lim K) :=
  ((List.finRange d).flatMap fun i => (List.finRange d).map fun j => (i, j)).foldl
    (fun b q => match axes q.1 q.2 with
      | none => b
      | some l => Function.update (Function.update b q.1 (some l.1)) q.2 (some l.2))
    fun _ => none

/-- plots.py:612-630 `np.logical_or(mini < x, x < maxi)` -/
def within (l : Lim K) (x : K) : Bool := decide (l.1 < x) || decide (x < l.2)

/-- What goes to every panel. -/
structure Marks (K Y : Type*) (d : ℕ) where
  infinite : List (Fin d → K)
  finite : List ((Fin d → K) × Y)
  last : List (Fin d → K)

/-- plots.py:611-630: the loop over the parameters. The last points are taken again from the surrogate for each parameter. -/
def reduce (lim : Fin d → Option (Lim K)) (last : List (Fin d → K)) : List (Fin d) → Marks K Y d → Except Err (Marks K Y d)
  | [], m => .ok m
  | i :: is, m =>
    match lim i with
    | none => .error .typeError
    | some l => reduce lim last is
        ⟨m.infinite.filter fun x => within l (x i), m.finite.filter fun q => within l (q.1 i), last.filter fun x => within l (x i)⟩

/-- plots.py:555-662 `getdist_add_training`: nothing (`none`) or what is drawn at the panels. `last` is empty without `highlight_last`. -/
def addTraining (axes : Fin d → Fin d → Option (Lim K × Lim K)) (finite : List ((Fin d → K) × Y)) (infinite last : List (Fin d → K)) :
    Except Err (Option (Marks K Y d)) :=
  match reduce (limits axes) last (List.finRange d) ⟨infinite, finite, last⟩ with
  | .error e => .error e
  | .ok m => if m.finite.isEmpty && m.infinite.isEmpty then .ok none else .ok (some m)

end training

/-! ## The options (plots.py:481-553) -/

section options

variable {B : Type}

/-- A sample of GetDist: the names of its columns, where a final star denotes a derived one. -/
abbrev Names := List Str

/-- `getParamNames().getRunningNames()` -/
def running (n : Names) : List Str := n.filter fun s => decide (s.getLast? ≠ some '*')

inductive BoundsArg (B : Type*)
  | none
  | map (m : Dict Str B)
  | seq (l : List B)

inductive FilledArg
  | none
  | map (m : Dict Str Bool)
  | seq (l : List Bool)

inductive Key
  | label (s : Str)
  | tuple (l : List Str)

inductive TrainArg
  | none
  | gpr
  | map (keys : List Key)
  | other

/-- plots.py:488-508: the parameters assumed for the surrogate. -/
def trainParams (samples : Dict Str Names) : TrainArg → Except Err (Option (List Str))
  | .none => .ok Option.none
  | .gpr =>
    match samples with
    | [] => .error .indexError
    | q :: _ => .ok (some (running q.2))
  | .map [] => .error .indexError
  | .map (.tuple l :: _) => .ok (some l)
  | .map (.label s :: _) =>
    match Cobaya.get samples s with
    | Option.none => .error .valueError
    | some n => .ok (some (running n))
  | .other => .error .typeError

/-- plots.py:514-519 -/
def shownParams (samples : Dict Str Names) : Option (List Str) → Except Err (Option (List Str))
  | Option.none => .ok Option.none
  | some ps =>
    match samples.getLast? with
    | Option.none => .error .indexError
    | some q => .ok (some (ps.filter fun p => decide (p ∈ running q.2)))

/-- plots.py:520-525, 536 -/
def paramLimits (params : Option (List Str)) : BoundsArg B → Except Err (Dict Str (Option B))
  | .none => .ok []
  | .map m =>
    match params with
    | Option.none => .error .typeError
    | some ps => .ok (update [] (ps.map fun p => (p, Cobaya.get m p)))
  | .seq l =>
    match params with
    | Option.none => .error .typeError
    | some ps =>
      if l.length ≠ ps.length then .error .valueError
      else .ok (update [] (ps.zip (l.map some)))

/-- plots.py:526-531 -/
def filledMap (samples : Dict Str Names) : FilledArg → Dict Str Bool
  | .none => []
  | .map m => m
  | .seq l => update [] (samples.zipIdx.map fun q => (q.1.1, (l[q.2]?).getD true))

/-- plots.py:535 -/
def filledList (samples : Dict Str Names) (f : FilledArg) : List Bool := samples.map fun q => (Cobaya.get (filledMap samples f) q.1).getD true

/-- The arguments of `triangle_plot`, and the parameters assumed for the training points. -/
structure Plot (B : Type*) where
  labels : List Str
  params : Option (List Str)
  limits : Dict Str (Option B)
  filled : List Bool
  training : Option (List Str)
deriving DecidableEq

/-- plots.py:412-553 `plot_corner_getdist`, up to `triangle_plot`. -/
def corner (samples : Dict Str Names) (params : Option (List Str)) (b : BoundsArg B) (f : FilledArg) (t : TrainArg) : Except Err (Plot B) := do
  let tp ← trainParams samples t
  let ps ← shownParams samples params
  let lim ← paramLimits ps b
  pure ⟨samples.map Prod.fst, ps, lim, filledList samples f, tp⟩

end options

/-! ## The plot of the samples of the surrogate (run.py:1786-1864) -/

/-- run.py:1858 and mc.py:22 -/
def nameLogp : Str := str "logpost"

inductive AddArg
  | none
  | map (m : Dict Str Names)
  | one (n : Names)

/-- run.py:1824-1843: `label` is the one for the samples of the surrogate, `fid` the fiducial sample, `last` the last one generated. -/
def mcSamples (label : Str) (fid given last : Option Names) (add : AddArg) : Except Err (Dict Str Names) :=
  let d : Dict Str Names := match fid with | Option.none => [] | some n => [(str "Fiducial", n)]
  match given.or last with
  | Option.none => .error .valueError
  | some n =>
    .ok (update (put d (label, n)) (match add with | .none => [] | .map m => m | .one n => [(str "Add. samples", n)]))

/-- run.py:1786-1864 `Runner.plot_mc` at the main process. -/
def plotMc {B : Type} (params : List Str) (label : Str) (fid given last : Option Names) (add : AddArg) (training : Bool) : Except Err (Plot B) := do
  let s ← mcSamples label fid given last add
  corner s (some (params ++ [nameLogp])) .none .none (if training then .map [.label label] else .none)

end GPry.Corner
