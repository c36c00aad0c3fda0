import Verif.Cobaya
import Verif.Tools
import Verif.SpmdLemmas

set_option linter.all false

/-! # Nested samplers, MC samples, random generators (ns_interfaces.py, mc.py, mpi.py, gp_acquisition.py)

Paths of files are a folder (list of its components) and a name. Names are lists of characters. -/

namespace GPry.McSamp

open GPry Cobaya

inductive MErr
  | typeError
  | valueError
  | keyError
  | nameError
  | indexError
  | notInstalled
  deriving DecidableEq, Repr

/-! ## Deleting the output of nested samplers (ns_interfaces.py) -/

structure File where
  dir : List Str
  name : Str
  deriving DecidableEq, Repr

/-- `shutil.rmtree` on an existing folder. -/
def rmtree (fs : List File) (d : List Str) : List File := fs.filter fun f => !d.isPrefixOf f.dir

/-- `glob(root + c + "*")` on names: no special characters in `root`, which does not start with a dot. -/
def globbed (root : Str) (c : Char) (name : Str) : Bool := (root ++ [c]).isPrefixOf name

/-- ns_interfaces.py:258-269: what is left (folders are not modelled, only empty ones are removed). -/
def polyDelete (fs : List File) (base : List Str) (root : Str) : List File :=
  if root = [] then rmtree fs base
  else fs.filter fun f => !((decide (f.dir = base) && (globbed root '.' f.name || globbed root '_' f.name)) ||
    (decide (f.dir = base ++ [str "clusters"]) && globbed root '_' f.name))

inductive Sampler
  | polychord
  | nessai
  | ultranest
  deriving DecidableEq, Repr

/-- ns_interfaces.py:241-269, 407-419, 523-535 `delete_output`. `loc` gives the components of the absolute path, `last` the folder and
prefix of the last run, `dflt` the default prefix. -/
def deleteOutput (loc : Str → List Str) (dflt : Str) (s : Sampler) (isMain : Bool) (last : List Str × Str) (outDir : Option Str) (fs : List File) :
    List File :=
  if !isMain then fs
  else match s with
  | .polychord => match outDir with
    | none => polyDelete fs last.1 last.2
    | some o => polyDelete fs (loc (Tools.processOutDir id dflt o).1) (Tools.processOutDir id dflt o).2
  | .nessai => match outDir with
    | none => rmtree fs last.1
    | some o => rmtree fs (loc (Tools.processOutDir id dflt o).1)
  | .ultranest => rmtree fs last.1

/-! ## Precision settings and priors (ns_interfaces.py) -/

/-- ns_interfaces.py:160-170, 324-333, 473-488: parameters of `set_precision`, the setting of the sampler, and whether it is parsed as a number
with units. -/
def precisionNames : Sampler → List (String × String × Bool)
  | .polychord => [("nlive", "nlive", true), ("num_repeats", "num_repeats", true), ("precision_criterion", "precision_criterion", false),
      ("nprior", "nprior", true), ("max_ncalls", "max_ncalls", true)]
  | .nessai => [("nlive", "nlive", true), ("precision_criterion", "stopping", false)]
  | .ultranest => [("nlive", "min_num_live_points", true), ("precision_criterion", "frac_remain", false), ("max_ncalls", "max_ncalls", true)]

/-- One parameter: not given or `None` leaves the setting as it was. -/
def setOne {V : Type} (parse : V → Except MErr V) (kw : Dict String (Option V)) (settings : Dict String V) (q : String × String × Bool) :
    Except MErr (Dict String V) :=
  match get kw q.1 with
  | none => .ok settings
  | some none => .ok settings
  | some (some v) => if q.2.2 then (match parse v with
      | .ok w => .ok (put settings (q.2.1, w))
      | .error e => .error e)
    else .ok (put settings (q.2.1, v))

/-- `set_precision(**kw)`: the rest is ignored with a warning. -/
def setPrecision {V : Type} (parse : V → Except MErr V) (s : Sampler) (kw : Dict String (Option V)) (settings : Dict String V) : Except MErr (Dict String V) :=
  (precisionNames s).foldlM (setOne parse kw) settings

section
variable {K : Type} [Field K] [LinearOrder K]

/-- ns_interfaces.py:466-471: UltraNest's transform of the unit cube, one coordinate. -/
def transform1 (b : K × K) (q : K) : K := q * (b.2 - b.1) + b.1

def priorTransform (bounds : List (K × K)) (q : List K) : List K := List.zipWith transform1 bounds q

/-- ns_interfaces.py:366-370: nessai's `log_prior` for points `X`, given one by one or many at once. -/
def nessaiLogPrior (inBounds : List K → Bool) (X : List (List K)) : Ext K := if !X.any inBounds then .negInf else .fin 0

end

/-! ## Choice of sampler, NORA (gp_acquisition.py:650-726) -/

/-- ns_interfaces.py:539-543 -/
def interfaceOf (lname : Str) : Option Sampler :=
  if lname = str "polychord" then some .polychord
  else if lname = str "ultranest" then some .ultranest
  else if lname = str "nessai" then some .nessai
  else none

/-- gp_acquisition.py:671-682, with a name: the interface (none for `uniform`) and the name kept. -/
def loadSampler (installed : Sampler → Bool) (name : Str) : Except MErr (Option Sampler × Str) :=
  match interfaceOf (lower name) with
  | some s => if installed s then .ok (some s, name) else .error .notInstalled
  | none => if lower name ≠ str "uniform" then .error .valueError else .ok (none, name)

/-- gp_acquisition.py:650-682 `_init_nested_sampler` at initialisation. -/
def initSampler (installed : Sampler → Bool) : Option Str → Except MErr (Option Sampler × Str)
  | none => match loadSampler installed (str "polychord") with
    | .error .notInstalled => loadSampler installed (str "ultranest")
    | r => r
  | some name => loadSampler installed name

/-- mc.py:393-423: choice in `mc_sample_from_gp_ns`. -/
def chooseNs (installed : Sampler → Bool) (name : Option Str) : Except MErr Sampler :=
  let lname := lower (name.getD (str "nested"))
  if lname = str "nested" then
    if installed .polychord then .ok .polychord else if installed .ultranest then .ok .ultranest else .error .notInstalled
  else match interfaceOf lname with
    | none => .error .valueError
    | some s => if installed s then .ok s else .error .notInstalled

/-- gp_acquisition.py:684-699 `update_NS_precision`: live points and prior samples. -/
def nlive (perTraining nMax n : ℕ) : ℕ := min (perTraining * n) nMax

def nprior (perNlive perTraining nMax n : ℕ) : ℕ := perNlive * nlive perTraining nMax n

/-- gp_acquisition.py:709-726 `_get_output_folder` in the main process with a given folder: the result and the next index. `join` is
`abspath(join(tmpdir, ·))`. -/
def outputFolder (join : Str → Str) (i : ℕ) : Str × ℕ :=
  let d := join (Nat.toDigits 10 i)
  (if d.getLast? = some '/' then d else d ++ ['/'], i + 1)

/-- Several calls. -/
def outputFolders (join : Str → Str) : ℕ → ℕ → List Str
  | 0, _ => []
  | k + 1, i => (outputFolder join i).1 :: outputFolders join k (outputFolder join i).2

/-! ## MCMC input (mc.py:106-156) -/

section
variable {K : Type}

/-- `order[-rank - 1]` -/
def pick (order : List ℕ) (rank : ℕ) : Option ℕ := if rank < order.length then order[order.length - 1 - rank]? else none

/-- mc.py:138-145: the reference point of a process, where `none` is for sampling from the prior. -/
def refPoint (X : List (List K)) (d : ℕ) (order : List ℕ) (rank : ℕ) : List (Option K) :=
  match pick order rank with
  | some i => match X[i]? with
    | some x => x.map some
    | none => List.replicate d none
  | none => List.replicate d none

/-- mc.py:147-155: the covariance matrix and its parameters in the input of the sampler, if any. -/
def covBlock {C : Type} (valid : C → Bool) (cov : Option C) (covParams : Option (List String)) (modelParams : List String) (verbose : ℕ) :
    Option (Option C × List String) :=
  if (match cov with | none => true | some c => !valid c) && decide (2 ≤ verbose) then none
  else some (cov, match covParams with
    | some (p :: ps) => p :: ps
    | _ => modelParams)

/-! ## File with the sample (mc.py:432-455) -/

/-- `os.path.splitext`: the extension starts at the last dot, not among the leading ones. -/
def splitExt (s : Str) : Str × Str :=
  let lead := s.takeWhile (· = '.')
  let rest := s.dropWhile (· = '.')
  let ext := (rest.reverse.takeWhile (· ≠ '.')).reverse
  if ext.length = rest.length then (s, []) else (lead ++ rest.take (rest.length - ext.length - 1), '.' :: ext)

/-- mc.py:434-444: folder and name of the file. -/
def samplePath (curdir : Str) (output : Str) : Str × Str :=
  let q := Tools.osSplit output
  let base := if q.1 = [] then curdir else q.1
  let name := if q.2 = [] then str "mc_samples.txt" else q.2
  let e := splitExt name
  (base, e.1 ++ if e.2 = [] then str ".txt" else e.2)

/-- mc.py:446-455: header and rows of the file. -/
def sampleFile [Neg K] [One K] (params : Option (List String)) (X : List (List K)) (y : List K) (w : Option (List K)) : Except MErr (List String × List (List K)) :=
  match params with
  | none => .error .nameError
  | some ps =>
    let w' := w.getD (List.replicate y.length 1)
    .ok ("w" :: "minuslogp" :: ps, List.zipWith (fun a q => a :: (-q.1) :: q.2) w' (y.zip X))

/-! ## GetDist samples (mc.py:459-530) -/

/-- Names of parameters: all plain, or all with labels. -/
inductive PNames
  | plain (l : List String)
  | labelled (l : List (String × String))

/-- mc.py:500-508: names and labels. -/
def PNames.names : PNames → List String
  | .plain l => l
  | .labelled l => l.map Prod.fst

def PNames.labels : PNames → List String
  | .plain l => l
  | .labelled l => l.map Prod.snd

structure GSamples (K : Type) where
  rows : List (List K)
  weights : Option (List K)
  loglikes : Option (List K)
  names : List String
  labels : List String
  ranges : List (String × (K × K))

/-- mc.py:514-520: one column more, if its values are not (close to) constant. -/
def addColumn [Sub K] [LinearOrder K] (tol : K) (s : List (List K) × List String × List String) (c : String × String × Option (List K)) :
    List (List K) × List String × List String :=
  match c.2.2 with
  | none => s
  | some [] => s
  | some (y :: ys) =>
    let hi := ys.foldl max y
    let lo := ys.foldl min y
    if tol < hi - lo then (List.zipWith (fun x v => x ++ [v]) s.1 (y :: ys), s.2.1 ++ [c.1 ++ "*"], s.2.2 ++ [c.2.1]) else s

/-- mc.py:484-530 `samples_dict_to_getdist` with params given and samples not empty; `tol` is that of `isclose` to zero. -/
def toGetdist [Sub K] [Neg K] [LinearOrder K] (tol : K) (params : PNames) (bounds : Option (List (K × K))) (X : List (List K)) (w : Option (List K))
    (logpost logprior loglike : Option (List K)) : Except MErr (GSamples K) :=
  let s := [("logpost", "\\log(p)", logpost), ("logprior", "\\log(\\pi)", logprior), ("loglike", "\\log(\\mathrm{L})", loglike)].foldl (addColumn tol)
    (X, params.names, params.labels)
  match bounds with
  | none => .error .typeError
  | some bs => .ok { rows := s.1, weights := w, loglikes := logpost.map (·.map (-·)), names := s.2.1, labels := s.2.2, ranges := s.2.1.zip bs }

/-- mc.py:459-481: what can be given to `process_gdsamples`. -/
inductive GdSource
  | path
  | getdist
  | cobaya
  | other

/-- mc.py:464-480: `SampleCollection` is not imported; after the conversion the exception is raised anyway. -/
def processGd (cobayaInstalled : Bool) : GdSource → Except MErr Unit
  | .path => .ok ()
  | .getdist => .ok ()
  | .cobaya => if cobayaInstalled then .error .nameError else .error .valueError
  | .other => if cobayaInstalled then .error .nameError else .error .valueError

end

/-! ## Random generators (mpi.py:31-50) -/

/-- A generator: given by the user with its state, or from a child seed (entropy of the main process, number of the child). -/
inductive Rng (E G : Type)
  | given (g : G)
  | child (entropy : E) (i : ℕ)
  deriving DecidableEq

/-- The argument: a generator, or a seed, or nothing (then the main process draws `drawn`). -/
inductive Seed (E G : Type)
  | gen (g : G)
  | int (e : E)
  | none

open Spmd Prog in
/-- mpi.py:31-50 `get_random_generator`. The scatter is modelled as a broadcast of all child seeds, of which each process takes its own. -/
def getRng {E G : Type} (p : ℕ) (drawn : E) (seed : Seed E G) (r : ℕ) : Prog MErr (Rng E G) :=
  match seed with
  | .gen g => ret (.given g)
  | s =>
    let children : List (E × ℕ) := (List.range p).map fun i => ((match s with | .int e => e | _ => drawn), i)
    if p ≤ 1 then (match children[0]? with
      | some c => ret (.child c.1 c.2)
      | none => raise .indexError)
    else do
      let cs ← share 0 (if r = 0 then some children else none)
      (match cs.bind (·[r]?) with
        | some c => ret (.child c.1 c.2)
        | none => raise .valueError)

end GPry.McSamp
