import Verif.Figures
import Verif.RunnerOut
import Verif.Corner

set_option linter.all false

/-!
# Plots of the progress of a run (gpry/run.py 1470-1592 `Runner.plot_progress`, and its call in run.py:1011-1020)

Which figures are drawn, with which samples, and which files are written, in order.  The drawing functions are given from
outside: each of them returns or raises (a file is written at the end of a call that returns).  Samples are of any type `S`.
The state is the list of files written, warnings issued, the backend of matplotlib and whether figures remain open.
Exceptions are those derived from `Exception`.
-/

namespace GPry.PlotProg

open GPry.Cobaya (Str Dict str put)
open GPry.Fig (Err)

/-- `f"{n:03d}"` -/
def pad3 (n : ℕ) : Str := List.replicate (3 - (Nat.toDigits 10 n).length) '0' ++ Nat.toDigits 10 n

/-- run.py:1513, 1517, 1525, 1528: the names of the figures without iteration. -/
def fileOf (path : Str) (ext : Str) (name : Str) : Str := RunnerOut.join path (name ++ '.' :: ext)

/-- run.py:1560-1562 -/
def cornerFile (path ext : Str) (it : ℕ) : Str := fileOf path ext (str "corner_it_" ++ pad3 it)

/-- Arguments of `plot_progress`. -/
structure Switches where
  timing : Bool := true
  convergence : Bool := true
  trace : Bool := true
  slices : Bool := false
  corner : Bool := false

/-- The outcome of a call for its effects: `none` if it returns. -/
abbrev Call := Option Err

structure World (S M : Type) where
  isMain : Bool
  /-- attribute `plots_path` -/
  path : Str
  ext : Str
  /-- `progress.plot_timing` -/
  timing : Call
  /-- `plot_convergence` -/
  convergence : Call
  /-- `plot_trace`, given the reference -/
  trace : Option S → Call
  /-- `plot_slices` -/
  slices : Call
  /-- `fiducial_MC_X` is `None`, or the sample converted -/
  fid : Option (Except Err S)
  /-- the acquisition has no `last_MC_sample`, or what `last_MC_sample_getdist` gives -/
  acq : Option (Except Err S)
  /-- `acquisition.is_last_MC_reweighted` -/
  reweighted : Bool
  /-- `len(gpr.X_train_all)` -/
  nEvals : ℕ
  /-- `params` -/
  params : List Str
  /-- `fiducial_X`, `fiducial_logpost` -/
  fidX : Option (List M)
  fidLogp : Option M
  /-- `current_iteration` -/
  it : ℕ
  hasConverged : Bool
  /-- `plot_corner_getdist`, given samples and markers -/
  corner : Dict Str S → Option (Dict Str M) → Call
  /-- `plot_mc` -/
  mc : Call

inductive Warn
  | acqSample | noSample | cornerFailed
deriving DecidableEq, Repr

structure St (B : Type) where
  files : List Str
  warns : List Warn
  backend : B
  /-- figures open -/
  openFigs : Bool

variable {S M B : Type}

/-- run.py:1518-1520 and 1459-1461: `trace or corner and fiducial_MC_X is not None`. -/
def fidMC (w : World S M) (sw : Switches) : Except Err (Option S) :=
  if sw.trace || (sw.corner && w.fid.isSome) then
    match w.fid with
    | none => .ok none
    | some (.ok s) => .ok (some s)
    | some (.error e) => .error e
  else .ok none

/-- run.py:1546-1547: the label of the sample of the acquisition. -/
def acqKey (w : World S M) : Str :=
  str "Acq. sample " ++ (if w.reweighted then str "-- reweighted " else []) ++ '(' :: (Nat.toDigits 10 w.nEvals ++ str " evals.)")

/-- run.py:1531-1553: the samples, and whether there is a warning. -/
def cornerSamples (w : World S M) (fid : Option S) : Except Err (Dict Str S × List Warn) :=
  let d : Dict Str S := match fid with
    | none => []
    | some s => [(str "Fiducial", s)]
  match w.acq with
  | none => .ok (d, [])
  | some (.ok s) => .ok (put d (acqKey w, s), [])
  | some (.error .valueError) => .ok (d, [.acqSample])
  | some (.error e) => .error e

/-- run.py:1554-1560 -/
def markers (w : World S M) : Option (Dict Str M) :=
  match w.fidX with
  | none => none
  | some x =>
    let d : Dict Str M := w.params.zip x
    match w.fidLogp with
    | none => some d
    | some v => some (put d (Corner.nameLogp, v))

/-- A step: draws, and writes a file if this did not raise. -/
def draw (c : Call) (f : Str) (s : St B) : St B × Call :=
  match c with
  | none => ({ s with files := s.files ++ [f], openFigs := true }, none)
  | some e => ({ s with openFigs := true }, some e)

/-- One step after another, if the first one did not raise. -/
def andThen (p q : St B → St B × Call) (s : St B) : St B × Call :=
  match p s with
  | (s', none) => q s'
  | r => r

/-- `if flag: …` -/
def when (b : Bool) (p : St B → St B × Call) (s : St B) : St B × Call := if b then p s else (s, none)

/-- run.py:1564-1590: the `try` block; the state is the one with the other backend. -/
def cornerBody (w : World S M) (d : Dict Str S) (s : St B) : St B × Call :=
  andThen
    (fun s => if 0 < d.length then draw (w.corner d (markers w)) (cornerFile w.path w.ext w.it) s
      else ({ s with warns := s.warns ++ [.noSample] }, none))
    (when w.hasConverged (draw w.mc (fileOf w.path w.ext (str "Surrogate_triangle")))) s

/-- run.py:1529-1591; `agg` is the backend used for this figure. -/
def cornerStep (agg : B) (w : World S M) (fid : Option S) (s : St B) : St B × Call :=
  match cornerSamples w fid with
  | .error e => (s, some e)
  | .ok (d, ws) =>
    let s := { s with warns := s.warns ++ ws }
    let prev := s.backend
    let r := cornerBody w d { s with backend := agg }
    let s := match r.2 with
      | none => r.1
      | some _ => { r.1 with warns := r.1.warns ++ [Warn.cornerFailed] }
    ({ s with backend := prev }, none)

/-- run.py:1592 -/
def closeAll (s : St B) : St B × Call := ({ s with openFigs := false }, none)

/-- run.py:1470-1592 `plot_progress`. -/
def plotProgress (agg : B) (w : World S M) (sw : Switches) (s : St B) : St B × Call :=
  if w.isMain then
    andThen (when sw.timing (draw w.timing (fileOf w.path w.ext (str "timing"))))
      (andThen (when sw.convergence (draw w.convergence (fileOf w.path w.ext (str "convergence"))))
        (fun s => match fidMC w sw with
          | .error e => (s, some e)
          | .ok fid =>
            andThen (when sw.trace (draw (w.trace fid) (fileOf w.path w.ext (str "trace"))))
              (andThen (when sw.slices (draw w.slices (fileOf w.path w.ext (str "slices"))))
                (andThen (when sw.corner (cornerStep agg w fid)) closeAll)) s)) s
  else (s, none)

/-- run.py:1011-1020: `plots` is `None` (or false), or the switches; exceptions are logged (the list of them). -/
def loopPlots (agg : B) (plots : Option Switches) (w : World S M) (s : St B × List Err) : St B × List Err :=
  match plots with
  | none => s
  | some sw =>
    if w.isMain then
      match plotProgress agg w sw s.1 with
      | (s', none) => (s', s.2)
      | (s', some e) => (s', s.2 ++ [e])
    else s

end GPry.PlotProg
