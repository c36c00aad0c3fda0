import Mathlib.Data.List.Basic
import Mathlib.Data.List.Nodup
import Mathlib.Tactic.Linarith

set_option linter.all false

/-!
# Random states (gpry/tools.py 134-144, gpry/gpr.py 299, 542-552, 969, gpry/svm.py 182-201, gpry/run.py 217, 321, 723-734, 749-756, gpry/mpi.py 30-51)

Who takes random numbers from which stream. A bit generator is a cell of the heap of a process: a stream and how many numbers have been taken
from it. `Generator` and `RandomState` objects are references to a cell (`RandomState(generator.bit_generator)` refers to the same one);
pickling (checkpoints, MPI) makes a new cell with the same contents. Every draw takes one number of the stream.

Simplified: how many numbers of a bit generator a call takes is an argument; when a regressor is pickled, the cells of the regressor and of
its classifier are copied separately.
-/

namespace GPry.Rng

/-- Streams: children of the seed sequence of a run (mpi.py:43-51), those of integer seeds, and the global one of numpy in each process. -/
inductive Stream
  | child (run i : ℕ)
  | ofSeed (n : ℕ)
  | glob (i : ℕ)
deriving DecidableEq, Repr

structure Cell where
  stream : Stream
  pos : ℕ
deriving DecidableEq, Repr

/-- A value of `random_state`. -/
inductive Src
  | gen (r : ℕ)
  | rs (r : ℕ)
  | seed (n : ℕ)
  | none
deriving DecidableEq, Repr

/-- Numbers taken: stream and position. -/
abbrev Used := List (Stream × ℕ)

/-- The state of a process. The cell number 0 is the global one. -/
structure Proc where
  heap : List Cell
  /-- `runner.rng` -/
  rng : ℕ
  /-- `gpr.random_state` -/
  gpr : Src
  /-- `gpr.infinities_classifier.random_state`, if there is a classifier -/
  svm : Option Src
deriving DecidableEq, Repr

/-- tools.py:134-144 `check_random_state`, and that of scikit-learn -/
def check (h : List Cell) (s : Src) (convert : Bool) : List Cell × Src :=
  match s with
  | .gen r => (h, if convert then .rs r else .gen r)
  | .rs r => (h, .rs r)
  | .seed n => (h ++ [⟨.ofSeed n, 0⟩], .rs h.length)
  | .none => (h, .rs 0)

/-- The cell of an object. -/
def ref : Src → Option ℕ
  | .gen r => some r
  | .rs r => some r
  | _ => Option.none

/-- Takes `n` numbers. -/
def draw (h : List Cell) (r n : ℕ) : List Cell × Used :=
  match h[r]? with
  | Option.none => (h, [])
  | some c => (h.set r { c with pos := c.pos + n }, (List.range' c.pos n).map fun i => (c.stream, i))

/-- gpr.py:542-552 `set_random_state` -/
def setState (p : Proc) (s : Src) : Proc :=
  match p.svm with
  | Option.none => { p with gpr := s }
  | some _ => let c := check p.heap s true; { p with heap := c.1, gpr := s, svm := some c.2 }

/-- gpr.py:969-980: takes the numbers for the restarts of the optimiser. -/
def fit (p : Proc) (n : ℕ) : Proc × Used :=
  let c := check p.heap p.gpr false
  match ref c.2 with
  | Option.none => ({ p with heap := c.1 }, [])
  | some r => let d := draw c.1 r n; ({ p with heap := d.1 }, d.2)

/-- scikit-learn, fit of the classifier. -/
def svmFit (p : Proc) (n : ℕ) : Proc × Used :=
  match p.svm with
  | Option.none => (p, [])
  | some s =>
    let c := check p.heap s false
    match ref c.2 with
    | Option.none => ({ p with heap := c.1 }, [])
    | some r => let d := draw c.1 r n; ({ p with heap := d.1 }, d.2)

/-- Proposals and acquisition: `rng=self.rng` (run.py:842, 1128). -/
def own (p : Proc) (n : ℕ) : Proc × Used :=
  let d := draw p.heap p.rng n
  ({ p with heap := d.1 }, d.2)

/-- An object sent from another process. -/
def copySrc (src dst : List Cell) (s : Src) : List Cell × Src :=
  match s with
  | .gen r => (dst ++ (src[r]?).toList, .gen dst.length)
  | .rs r => (dst ++ (src[r]?).toList, .rs dst.length)
  | .seed n => (dst, .seed n)
  | .none => (dst, .none)

/-- mpi.py `share_attr(runner, "gpr", root)` at a process that is not the root. -/
def receive (root p : Proc) : Proc :=
  let a := copySrc root.heap p.heap root.gpr
  match root.svm with
  | Option.none => { p with heap := a.1, gpr := a.2, svm := Option.none }
  | some s => let b := copySrc root.heap a.1 s; { p with heap := b.1, gpr := a.2, svm := some b.2 }

/-- run.py:749-756 `_share_gpr`, all processes. -/
def shareGpr (root : ℕ) (ps : List Proc) : List Proc :=
  if ps.length ≤ 1 then ps
  else match ps[root]? with
    | Option.none => ps
    | some r => ps.mapIdx fun i p => let p' := if i = root then p else receive r p; setState p' (.gen p'.rng)

/-- mpi.py:30-51: process `i` of `size` gets child number `i`; run.py:306-345 and gpr.py:299: a regressor with `random_state`, by default
the generator of the runner, and its classifier. -/
def construct (run i : ℕ) (random_state : Option Src) (svm : Bool) : Proc :=
  let h : List Cell := [⟨.glob i, 0⟩, ⟨.child run i, 0⟩]
  let s := random_state.getD (.gen 1)
  if svm then let c := check h s true; ⟨c.1, 1, s, some c.2⟩ else ⟨h, 1, s, Option.none⟩

/-- run.py:723-734: the regressor in a checkpoint, written by process `saved`. -/
def resume (run i : ℕ) (saved : Proc) : Proc := receive saved ⟨[⟨.glob i, 0⟩, ⟨.child run i, 0⟩], 1, .gen 1, Option.none⟩

/-- What happens in a run. -/
inductive Act
  | own (i n : ℕ)
  | fit (i n : ℕ)
  | svm (i n : ℕ)
  | share (root : ℕ)
deriving DecidableEq, Repr

def onProc (ps : List Proc) (i : ℕ) (f : Proc → Proc × Used) : List Proc × Used :=
  match ps[i]? with
  | Option.none => (ps, [])
  | some p => (ps.set i (f p).1, (f p).2)

def act (ps : List Proc) : Act → List Proc × Used
  | .own i n => onProc ps i fun p => GPry.Rng.own p n
  | .fit i n => onProc ps i fun p => GPry.Rng.fit p n
  | .svm i n => onProc ps i fun p => svmFit p n
  | .share r => (shareGpr r ps, [])

/-- The processes after some actions, and the numbers taken. -/
def acts (ps : List Proc) : List Act → List Proc × Used
  | [] => (ps, [])
  | a :: l => let r := act ps a; let q := acts r.1 l; (q.1, r.2 ++ q.2)

/-- A run on `size` processes with its own streams. -/
def start (run size : ℕ) (random_state : Option Src) (svm : Bool) : List Proc :=
  (List.range size).map fun i => construct run i random_state svm

end GPry.Rng
