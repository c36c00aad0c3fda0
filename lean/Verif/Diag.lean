import Verif.CobayaRun
import Mathlib.Data.List.Basic
import Mathlib.Tactic.Linarith

set_option linter.all false

/-!
# The diagnosis callback (gpry/diag.py 26-222)

`diagnosis(runner)`, to be used as `callback` of a run. Whether `model` is an attribute of a `Runner`, whether `is_finite` can be called without
argument and whether `plot_slices_reference` has a keyword `truth` that is not its first parameter are read from `Sig`; `real` has those of the
code (run.py, gpr.py:509, plots.py:309). What the libraries for figures do is a value (returns or raises).

Simplified: printed text is reduced to the verdicts; tables of `pandas` are lists.
-/

namespace GPry.Diag

/-- Exceptions. -/
inductive Exc
  | attributeError
  | typeError
  | valueError
  /-- `IndexError`, `LinAlgError`, `MCSamplesError`, `DensitiesError` -/
  | drawing
  | other
deriving DecidableEq, Repr

/-- Names and signatures. -/
structure Sig where
  attrs : List String
  /-- `gpr.is_finite()` accepts to be called without values -/
  isFiniteNoArg : Bool
  /-- parameters of `plot_slices_reference`, in order -/
  slicesRef : List String

def real : Sig := ⟨CobayaRun.runnerAttrs, false, ["truth", "gpr", "X", "plot_truth", "reference"]⟩

/-- numpy: `point in X`, whether any entry of `X == point` is true. -/
def npIn {K : Type} [DecidableEq K] (X : List (List K)) (p : List K) : Bool :=
  X.any fun r => (List.zipWith (fun a b => decide (a = b)) r p).any id

/-- The data of a regressor with a classifier. -/
structure Data (K : Type) where
  XAll : List (List K)
  yAll : List K
  X : List (List K)
  y : List K
  /-- `infinities_classifier.y_finite` -/
  yFinite : List Bool
  /-- `gpr.is_finite(y_train_all)` -/
  isFinite : List Bool
  /-- `gpr.predict_is_finite(X_train_all)` -/
  predicted : List Bool
  /-- `gpr.abs_finite_threshold` -/
  threshold : K

section
variable {K : Type} [DecidableEq K] [LinearOrder K]

/-- diag.py:38 the column `GP` -/
def inGP (d : Data K) : List Bool := d.XAll.map (npIn d.X)

/-- The rows of a list with a flag. -/
def select {α : Type} (l : List α) (f : List Bool) : List α := ((l.zip f).filter Prod.snd).map Prod.fst

/-- diag.py:44-58: the verdict on the classifier; `min` of nothing raises ValueError. -/
def selfConsistent (d : Data K) : Except Exc Bool :=
  match (select d.yAll (inGP d)).min? with
  | none => .error .valueError
  | some m => .ok (decide (d.yFinite = d.isFinite) && decide (d.yFinite = d.predicted) && decide (d.threshold < m))

/-- diag.py:81-87: the verdict on the training sets. -/
def trainConsistent (d : Data K) : Bool :=
  (select d.XAll d.isFinite).all (npIn d.X) && decide ((inGP d).count true = d.y.length)

/-- The runner, the libraries and the options of the module. -/
structure World (K : Type) where
  isMain : Bool
  checkClassifier : Bool
  plotMc : Bool
  plotSlices : Bool
  /-- the data, if there is a classifier -/
  classifier : Option (Data K)
  createPath : Option Exc
  /-- `hasattr(acquisition, "is_last_MC_reweighted")` and its truth value -/
  reweighted : Option Bool
  isNora : Bool
  plotTrace : Option Exc
  plotTiming : Option Exc
  plotSlicesCall : Option Exc
  plotSlicesRef : Option Exc
  /-- `last_MC_sample_getdist` -/
  mcSamples : Option Exc
  triangle : Option Exc
  dim : ℕ
  contours : Option Exc

/-- What is left behind: backend of `matplotlib`, whether the folder for plots exists, verdicts printed, files written. -/
structure St (B : Type) where
  backend : B
  folder : Bool
  verdicts : List (String × Bool)
  files : List String
deriving DecidableEq

/-- `runner.name` -/
def attr (s : Sig) (name : String) : Option Exc := if name ∈ s.attrs then none else some .attributeError

/-- One after the other: the first exception ends it. -/
def orElse (a b : Option Exc) : Option Exc := match a with
  | some e => some e
  | none => b

/-- diag.py:29-90 -/
def checkData {B : Type} (g : Sig) (d : Data K) (s : St B) : St B × Option Exc :=
  match attr g "model" with
  | some e => (s, some e)
  | none => match selfConsistent d with
    | .error e => (s, some e)
    | .ok b =>
      let s := { s with verdicts := s.verdicts ++ [("classifier", b)] }
      if g.isFiniteNoArg then ({ s with verdicts := s.verdicts ++ [("sets", trainConsistent d)] }, none)
      else (s, some .typeError)

/-- diag.py:111-128 -/
def tracePart {B : Type} (g : Sig) (w : World K) (s : St B) : St B × Option Exc :=
  if w.reweighted = some true then (s, none)
  else match orElse (attr g "model") w.plotTrace with
    | some .valueError => match w.plotTiming with
      | some e => (s, some e)
      | none => ({ s with files := s.files ++ ["timing"] }, none)
    | some e => (s, some e)
    | none => match w.plotTiming with
      | some e => ({ s with files := s.files ++ ["trace"] }, some e)
      | none => ({ s with files := s.files ++ ["trace", "timing"] }, none)

/-- A keyword that names the parameter already given by position. -/
def slicesRefCall (g : Sig) (body : Option Exc) : Option Exc :=
  if "truth" ∈ g.slicesRef.take 3 ∨ "truth" ∉ g.slicesRef then some .typeError else body

/-- diag.py:131-151 -/
def slicesPart {B : Type} (g : Sig) (w : World K) (s : St B) : St B × Option Exc :=
  if w.plotSlices then
    match orElse (attr g "model") w.plotSlicesCall with
    | some e => (s, some e)
    | none =>
      let s := { s with files := s.files ++ ["slices"] }
      match slicesRefCall g w.plotSlicesRef with
      | some e => (s, some e)
      | none => ({ s with files := s.files ++ ["comparison"] }, none)
  else (s, none)

/-- Exceptions of the triangle plot that are printed (diag.py:203). -/
def caught : Exc → Bool
  | .attributeError => true
  | .valueError => true
  | .drawing => true
  | _ => false

/-- diag.py:154-217 -/
def mcPart {B : Type} (g : Sig) (w : World K) (s : St B) : St B × Option Exc :=
  if w.plotMc && w.isNora && decide (w.reweighted ≠ some true) then
    match orElse (attr g "model") w.mcSamples with
    | some e => (s, some e)
    | none =>
      let last (s : St B) : St B × Option Exc :=
        if w.dim = 2 then match w.contours with
          | some .valueError => (s, none)
          | some e => (s, some e)
          | none => ({ s with files := s.files ++ ["contours"] }, none)
        else (s, none)
      match w.triangle with
      | some e => if caught e then last s else (s, some e)
      | none => last { s with files := s.files ++ ["NORA"] }
  else (s, none)

/-- A part and, if it did not raise, the rest. -/
def andThen {B : Type} (a : St B × Option Exc) (f : St B → St B × Option Exc) : St B × Option Exc :=
  match a.2 with
  | some e => (a.1, some e)
  | none => f a.1

/-- diag.py:29 -/
def classifierPart {B : Type} (g : Sig) (w : World K) (s : St B) : St B × Option Exc :=
  if w.checkClassifier then match w.classifier with
    | some d => checkData g d s
    | none => (s, none)
  else (s, none)

/-- diag.py:97 -/
def folderPart {B : Type} (w : World K) (s : St B) : St B × Option Exc :=
  match w.createPath with
  | some e => (s, some e)
  | none => ({ s with folder := true }, none)

/-- diag.py:26-222 `diagnosis` -/
def diagnosis {B : Type} (g : Sig) (agg : B) (w : World K) (s : St B) : St B × Option Exc :=
  if w.isMain then
    andThen (classifierPart g w s) fun s =>
    andThen (folderPart w s) fun s =>
    let prev := s.backend
    andThen (tracePart g w { s with backend := agg }) fun s =>
    andThen (slicesPart g w s) fun s =>
    andThen (mcPart g w s) fun s => ({ s with backend := prev }, none)
  else (s, none)

/-- diag.py:21-23: the options of the module. -/
def Default (w : World K) : Prop := w.checkClassifier = true ∧ w.plotMc = true ∧ w.plotSlices = true

end

end GPry.Diag
