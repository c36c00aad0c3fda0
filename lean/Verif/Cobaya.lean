import Verif.Io
import Verif.Truth

set_option linter.all false

/-!
# The interface to Cobaya (gpry/cobaya.py) and the Cobaya model of the surrogate (gpry/mc.py)

Python dictionaries are lists of pairs in order of insertion. Strings are lists of characters where they are taken apart. The
code of Cobaya itself is not in the repository: what is used of it is stated at the definitions `cobayaFinds` and
`Model.logpost`.
-/

namespace GPry.Cobaya

open GPry

/-! ## Dictionaries -/

section dict

variable {κ V : Type*} [DecidableEq κ]

abbrev Dict (κ V : Type*) := List (κ × V)

def get (d : Dict κ V) (k : κ) : Option V := (d.find? fun q => decide (q.1 = k)).map Prod.snd

/-- `d[k] = v` -/
def put (d : Dict κ V) (q : κ × V) : Dict κ V :=
  if q.1 ∈ d.map Prod.fst then d.map fun r => if r.1 = q.1 then (r.1, q.2) else r else d ++ [q]

/-- `d.update(e)` -/
def update (d e : Dict κ V) : Dict κ V := e.foldl put d

/-- `d.pop(k)`, what remains. -/
def pop (d : Dict κ V) (k : κ) : Dict κ V := d.filter fun q => decide (q.1 ≠ k)

end dict

abbrev Str := List Char

def str (s : String) : Str := s.toList

/-! ## Files (cobaya.py:284-301, io.py:12-19) -/

/-- io.py:12-19: the names of the files. -/
def fileName : Io.File → Str
  | .truth => str "tru.pkl"
  | .gpr => str "gpr.pkl"
  | .acq => str "acq.pkl"
  | .conv => str "con.pkl"
  | .opts => str "opt.pkl"
  | .prog => str "pro.pkl"

/-- cobaya.py:296-299: the names in the patterns (literal, as `re.escape` is used). -/
def patterns : List Str := ["acq", "con", "gpr", "mod", "opt", "pro"].map fun n => str (n ++ ".pkl")

inductive CErr
  | typeError | valueError | keyError | attributeError
  /-- `cobaya.log.LoggedError` -/
  | logged
deriving DecidableEq, Repr

/-- cobaya.py:276-279 and 294-299, the part about the checkpoint: pairs of pattern and folder. `suffix` is
`output.add_suffix("gpry_output", "_")`, or nothing if the output is a dummy: then `os.path.join(None, "images")` raises. -/
def checkpointPatterns (suffix : Option Str) : Except CErr (List (Str × Str)) :=
  match suffix with
  | none => .error .typeError
  | some dir => .ok (patterns.map fun p => (p, dir))

/-- Cobaya selects the files of the folder whose name is matched by the pattern from beginning to end. -/
def cobayaFinds (ps : List (Str × Str)) (dir name : Str) : Bool := ps.any fun q => decide (q.2 = dir) && decide (q.1 = name)

/-- The same if the pattern only had to match at the beginning (`re.match`). -/
def cobayaFindsPrefix (ps : List (Str × Str)) (dir name : Str) : Bool := ps.any fun q => decide (q.2 = dir) && q.1.isPrefixOf name

/-! ## The Cobaya model of the surrogate (mc.py:43-103) -/

abbrev Bounds := List (ℝ × ℝ)

/-- The argument `bounds`, if given: a numpy array, or a list of pairs. -/
inductive BArg
  | array (b : Bounds)
  | list (b : Bounds)

def BArg.rows : BArg → Bounds
  | .array b => b
  | .list b => b

/-- mc.py:93: the logarithm of the volume of the prior; indexing a list with `[:, 1]` raises. -/
noncomputable def logVolume : BArg → Except CErr ℝ
  | .array b => .ok (b.map fun q => Real.log (q.2 - q.1)).sum
  | .list _ => .error .typeError

/-- What the dictionary returned contains: the parameters with their priors, the arguments of the likelihood, and the likelihood
as a function of keyword arguments. -/
structure Model where
  priors : Dict String (ℝ × ℝ)
  inputParams : List String
  lkl : Dict String ℝ → Except CErr (Ext ℝ)

/-- mc.py:95-99 -/
def lkl (mean : List ℝ → Ext ℝ) (params : List String) (vol : ℝ) (kwargs : Dict String ℝ) : Except CErr (Ext ℝ) :=
  match params.mapM (get kwargs) with
  | none => .error .keyError
  | some values => .ok ((mean values).addFin vol)

/-- mc.py:69-83: the bounds used. `gprBounds` has one row per dimension, so shapes differ if the numbers of rows do. -/
def useBounds (gprBounds : Option Bounds) : Option BArg → Except CErr BArg
  | some b => match gprBounds with
    | none => .ok b
    | some g => if b.rows.length ≠ g.length then .error .valueError else .ok b
  | none => match gprBounds with
    | some g => .ok (.array g)
    | none => .error .valueError

/-- mc.py:84-91: the names used. -/
def useParams (d : ℕ) : Option (List String) → Except CErr (List String)
  | some ps => if ps.length ≠ d then .error .valueError else .ok ps
  | none => .ok (Truth.generic "x_" d)

/-- mc.py:43-103 `cobaya_generate_gp_model_input`; `mean` is the first element of `gpr.predict(…, validate=False)`. -/
noncomputable def generateModel (gprBounds : Option Bounds) (d : ℕ) (mean : List ℝ → Ext ℝ) (bounds : Option BArg)
    (params : Option (List String)) : Except CErr Model :=
  match useBounds gprBounds bounds with
  | .error e => .error e
  | .ok b => match useParams d params with
    | .error e => .error e
    | .ok ps => match logVolume b with
      | .error e => .error e
      | .ok vol => .ok { priors := update [] (ps.zip b.rows), inputParams := ps, lkl := lkl mean ps vol }

/-- Cobaya: all the parameters are within the bounds of their (uniform) priors. -/
def Model.inside (m : Model) (x : List ℝ) : Prop := List.Forall₂ (fun (q : String × ℝ × ℝ) v => q.2.1 ≤ v ∧ v ≤ q.2.2) m.priors x

open Classical in
/-- Cobaya: the log-posterior at a point `x`, in the order of the parameters: the logarithm of the uniform densities plus the
log-likelihood, or minus infinity (without evaluating the likelihood) outside. -/
noncomputable def Model.logpost (m : Model) (x : List ℝ) : Except CErr (Ext ℝ) :=
  if m.inside x then
    match m.lkl ((m.priors.map Prod.fst).zip x) with
    | .error e => .error e
    | .ok l => .ok (l.addFin (m.priors.map fun q => - Real.log (q.2.2 - q.2.1)).sum)
  else .ok .negInf

/-! ## Options (cobaya.py:44-106) -/

variable {A : Type*}

/-- Values of the options: strings, dictionaries, anything else. -/
inductive Val (A : Type*)
  | str (s : Str)
  | dict (d : Dict Str A)
  | other (a : A)

/-- cobaya.py:66-76: keys with value `None` are removed (of the outermost dictionary). -/
def clean (d : Option (Dict Str (Option (Val A)))) : Dict Str (Val A) := (d.getD []).filterMap fun q => q.2.map fun v => (q.1, v)

def lower (s : Str) : Str := s.map Char.toLower

def isOptions (k : Str) : Bool := (str "options_").isPrefixOf k

def isFor (engine k : Str) : Bool := (lower engine).isSuffixOf (lower k)

/-- cobaya.py:81-85, the keys being those at the beginning. -/
def mergeLoop (engine : Str) : List Str → Dict Str (Val A) → Except CErr (Dict Str (Val A))
  | [], d => .ok d
  | k :: ks, d =>
    if isOptions k then
      match get d k with
      | none => .error .keyError
      | some v =>
        if isFor engine k then
          match v with
          | .dict o => mergeLoop engine ks (update (pop d k) (o.map fun q => (q.1, .other q.2)))
          | .str [] => mergeLoop engine ks (pop d k)
          | .str _ => .error .valueError
          | .other _ => .error .typeError
        else mergeLoop engine ks (pop d k)
    else mergeLoop engine ks d

/-- cobaya.py:72-86: the engine and its options. An engine that is not a string raises (simplified: at once). -/
def acquisition (d : Option (Dict Str (Option (Val A)))) : Except CErr (Str × Dict Str (Val A)) :=
  let c := clean d
  match get c (str "engine") with
  | none => (mergeLoop (str "BatchOptimizer") ((pop c (str "engine")).map Prod.fst) (pop c (str "engine"))).map fun r => (str "BatchOptimizer", r)
  | some (.str e) => (mergeLoop e ((pop c (str "engine")).map Prod.fst) (pop c (str "engine"))).map fun r => (e, r)
  | some _ => .error .attributeError

/-- cobaya.py:89-103: the names of the arguments in the call of `Runner`. -/
def runnerKeywords : List String := ["model", "gpr", "gp_acquisition", "initial_proposer", "convergence_criterion", "options", "callback",
  "callback_is_MPI_aware", "checkpoint", "load_checkpoint", "seed", "plots", "verbose"]

/-- run.py:197-215: the parameters of `Runner.__init__` (no `**kwargs`). -/
def runnerParams : List String := ["loglike", "bounds", "ref_bounds", "params", "gpr", "gp_acquisition", "initial_proposer", "convergence_criterion",
  "mc", "callback", "callback_is_MPI_aware", "options", "checkpoint", "load_checkpoint", "seed", "plots", "verbose"]

/-- A call with keyword arguments only: Python raises `TypeError` if one of them is not a parameter; otherwise the body. -/
def pyCall {R : Type*} (kws params : List String) (body : Except CErr R) : Except CErr R :=
  if kws.all fun k => decide (k ∈ params) then body else .error .typeError

/-- cobaya.py:44-106 `initialize`, the part about the options. `runner` is the body of `Runner.__init__` given `gpr` and
`gp_acquisition`. -/
def initWrapper {R : Type*} (runner : Dict Str (Val A) → Str × Dict Str (Val A) → Except CErr R) (gpr acq : Option (Dict Str (Option (Val A)))) :
    Except CErr R :=
  match acquisition acq with
  | .error e => .error e
  | .ok a => match pyCall runnerKeywords runnerParams (runner (clean gpr) a) with
    | .error .typeError => .error .logged
    | .error .valueError => .error .logged
    | r => r

/-- cobaya.py:318-326 `is_nora`, of the dictionary `gp_acquisition`. -/
def isNora (d : Option (Dict Str (Option (Val A)))) : Bool :=
  match d.getD [] with
  | [] => false
  | q :: _ => decide (lower q.1 = str "nora")

end GPry.Cobaya
