import Mathlib.Data.List.Basic

set_option linter.all false

/-!
# Checkpoints (gpry/io.py, gpry/run.py)

The directory of a checkpoint is a map from the six file names to contents (lists of bytes). A save is a list of elementary
operations; a crash lets only the first ones happen. Buffering is not modelled: every file is closed before the next one is
opened, so that with buffers the possible contents are among those without them. Failures of the disk (data not reaching it after
the file was closed) and other processes writing to the directory are not modelled.
-/

namespace GPry.Io

abbrev Byte := Fin 256

/-- io.py:12-19 `_checkpoint_filenames`, in order. -/
inductive File
  | truth | gpr | acq | conv | opts | prog
deriving DecidableEq, Repr

def File.all : List File := [.truth, .gpr, .acq, .conv, .opts, .prog]

abbrev Dir := File → Option (List Byte)

def Dir.set (d : Dir) (f : File) (c : List Byte) : Dir := fun g => if g = f then some c else d g

/-- What is needed of pickle: reading back what was written, and failing on the beginning of it. -/
structure Codec (V : Type*) where
  dump : V → List Byte
  load : List Byte → Option V
  load_dump : ∀ v, load (dump v) = some v
  load_prefix : ∀ v p, p <+: dump v → p ≠ dump v → load p = none

/-- Elementary operations: `open(f, "wb")` (creates or empties the file) and the write of a byte at the end. -/
inductive Op
  | truncate (f : File)
  | write (f : File) (b : Byte)

def Op.run (d : Dir) : Op → Dir
  | .truncate f => Dir.set d f []
  | .write f b => match d f with
    | some c => Dir.set d f (c ++ [b])
    | none => d

def exec (d : Dir) (ops : List Op) : Dir := ops.foldl Op.run d

/-- The five objects other than the truth. -/
structure Rest (V : Type*) where
  gpr : V
  acq : V
  conv : V
  opts : V
  prog : V

universe u

variable {V : Type u}

/-- `with open(f, "wb") as f: pickle.dump(v, f)` -/
def dumpFile (C : Codec V) (f : File) (v : V) : List Op := .truncate f :: (C.dump v).map (.write f)

/-- io.py:113-156 `save_checkpoint` (with a path); `truth` is the result of `as_dict`. -/
def saveOps (C : Codec V) (truth : Option V) (r : Rest V) : List Op :=
  (match truth with
    | some t => dumpFile C .truth t
    | none => [])
  ++ dumpFile C .gpr r.gpr ++ dumpFile C .acq r.acq ++ dumpFile C .conv r.conv ++ dumpFile C .opts r.opts ++ dumpFile C .prog r.prog

inductive Err
  | fileNotFound | unpickling | typeError | valueError
deriving DecidableEq, Repr

/-- io.py:41-59 `check_checkpoint` -/
def check (d : Dir) : List Bool := File.all.map fun f => (d f).isSome

/-- `with open(...) as i: x = pickle.load(i) if guard else None` -/
def loadFile (C : Codec V) (d : Dir) (f : File) (guard : Bool) : Except Err (Option V) :=
  match d f with
  | none => .error .fileNotFound
  | some b =>
    if guard then
      match C.load b with
      | some v => .ok (some v)
      | none => .error .unpickling
    else .ok none

/-- What `read_checkpoint` returns: the truth (made by `get_truth` from the dictionary, or the one passed), and the others, each
of which could be `None`. -/
structure Loaded (T V : Type*) where
  truth : T
  gpr : Option V
  acq : Option V
  conv : Option V
  opts : Option V
  prog : Option V
deriving DecidableEq

/-- io.py:86-95: the truth. -/
def readTruth {T : Type u} (C : Codec V) (getTruth : V → Except Err T) (d : Dir) (guard : Bool) : Option T → Except Err T
  | some t => .ok t
  | none =>
    match loadFile C d .truth guard with
    | .ok (some v) => getTruth v
    | .ok none => .error .typeError
    | .error e => .error e

/-- io.py:62-110 `read_checkpoint`. `getTruth` is `get_truth(**dict)`; `none` for a truth file that contains nothing of use: then
`get_truth(**None)` raises `TypeError` (the code for backwards compatibility is not modelled: it can only be reached if the truth
file contains `None`). The guards are those of the code, with indices 5 and 4 exchanged. -/
def read {T : Type u} (C : Codec V) (getTruth : V → Except Err T) (d : Dir) (passed : Option T) : Except Err (Loaded T V) := do
  let files := check d
  let truth ← readTruth C getTruth d (files.getD 0 false) passed
  let gpr ← loadFile C d .gpr (files.getD 1 false)
  let acq ← loadFile C d .acq (files.getD 2 false)
  let conv ← loadFile C d .conv (files.getD 3 false)
  let opts ← loadFile C d .opts (files.getD 5 false)
  let prog ← loadFile C d .prog (files.getD 4 false)
  return ⟨truth, gpr, acq, conv, opts, prog⟩

/-- What happens when trying to resume. -/
inductive Resume (T V : Type*)
  /-- not all files found: a new run is started, with a warning if there are some -/
  | notFound
  /-- an exception -/
  | failed (e : Err)
  | loaded (l : Loaded T V)

/-- run.py:233-237, 262-263, with the truth made from the arguments (`passed`). -/
def resume {T : Type u} (C : Codec V) (getTruth : V → Except Err T) (d : Dir) (passed : Option T) : Resume T V :=
  if (check d).all id then
    match read C getTruth d passed with
    | .ok l => .loaded l
    | .error e => .failed e
  else .notFound

/-! ## Runner -/

/-- run.py:736-747 `Runner.save_checkpoint` in the main process: the flag `_is_truth_saved`, the directory. `update` is the argument
`update_truth`. -/
def runnerSave (C : Codec V) (truth : V) (s : Bool × Dir) (update : Bool) (r : Rest V) : Bool × Dir :=
  if update || !s.1 then (true, exec s.2 (saveOps C (some truth) r)) else (s.1, exec s.2 (saveOps C none r))

def runnerSaves (C : Codec V) (truth : V) (s : Bool × Dir) (l : List (Bool × Rest V)) : Bool × Dir :=
  l.foldl (fun s q => runnerSave C truth s q.1 q.2) s

/-- What is passed as `loglike` to the Runner. -/
inductive LogLike (F M : Type*)
  | none
  | callable (f : F)
  | model (m : M)

/-- truth.py:20-47 `get_truth`; neither callable nor a model: `TypeError`, with and without Cobaya. -/
def getTruthArg {F M T : Type*} (mk : F → Except Err T) (mkCobaya : M → Except Err T) : LogLike F M → Except Err T
  | .callable f => mk f
  | .model m => mkCobaya m
  | .none => .error .typeError

/-- run.py:219-264: the part of `Runner.__init__` about checkpoints. `none` for a new run with that truth. -/
def runnerInit {F M T : Type u} (C : Codec V) (getTruth : V → Except Err T) (mk : F → Except Err T) (mkCobaya : M → Except Err T)
    (d : Dir) (tryResuming : Bool) (loglike : LogLike F M) : Except Err (T × Option (Loaded T V)) :=
  let found := tryResuming && (check d).all id
  match loglike, found with
  | .none, false => .error .valueError
  | _, _ =>
    match getTruthArg mk mkCobaya loglike with
    | .error e => .error e
    | .ok t =>
      if found then
        match read C getTruth d (some t) with
        | .ok l => .ok (l.truth, some l)
        | .error e => .error e
      else .ok (t, none)

/-! ## ensure_gpr -/

/-- Python `a or b`, where `None` is false, and objects can be false too (such as the empty dictionary). -/
def pyOr {A : Type*} (truthy : A → Bool) (a b : Option A) : Option A :=
  match a with
  | some x => if truthy x then some x else b
  | none => b

/-- io.py:196-207 `ensure_gpr` with a path: the objects passed and the loaded ones (acquisition, convergence, options, progress). -/
def ensure (truthy : V → Bool) (passed loaded : List (Option V)) : List (Option V) := List.zipWith (pyOr truthy) passed loaded

end GPry.Io
