import Verif.SpmdLemmas
import Verif.Cobaya

set_option linter.all false

/-!
# Arrays gathered in the main process, and shared attributes (gpry/mpi.py 134-161, 173-179, gpry/run.py 1335-1352)

Programs of `Spmd`. An array is the list of its rows (that the rows of the arrays of all processes have the same shape is not checked).
-/

namespace GPry.Gather

open Spmd Prog
open GPry.Cobaya (Dict Str)

inductive Err
  | indexError
deriving DecidableEq, Repr

/-- mpi.py:151: the argument, an array or a list (or tuple) of arrays. -/
inductive Arg (α : Type)
  | one (a : List α)
  | many (l : List (List α))

/-- mpi.py:148-149 -/
def Arg.list {α : Type} : Arg α → List (List α)
  | .one a => [a]
  | .many l => l

/-- mpi.py:156 `np.concatenate([all_arrs[r][i] for r in range(SIZE)])` -/
def column {α : Type} (all : List (List (List α))) (i : ℕ) : Except Err (List α) :=
  match all with
  | [] => .ok []
  | l :: ls =>
    match l[i]?, column ls i with
    | some a, .ok b => .ok (a ++ b)
    | none, _ => .error .indexError
    | _, .error e => .error e

/-- mpi.py:155-157 `[... for i in range(Nobj)]` -/
def columns {α : Type} (all : List (List (List α))) : List ℕ → Except Err (List (Option (List α)))
  | [] => .ok []
  | i :: is =>
    match column all i, columns all is with
    | .ok a, .ok l => .ok (some a :: l)
    | .error e, _ => .error e
    | _, .error e => .error e

/-- mpi.py:134-161 `multi_gather_array`, in one of `p` processes. The list returned has `None`s in the processes that are not the main one. -/
def multiGather {α : Type} (p : ℕ) (arg : Arg α) : Prog Err (List (Option (List α))) :=
  let arrs := arg.list
  if p ≤ 1 then .ret (arrs.map some)
  else do
    match ← collect arrs with
    | some all => fin (columns all (List.range arrs.length))
    | none => .ret (List.replicate arrs.length none)

/-! ## Attributes -/

/-- An object: its attributes, of which some may be `None`. -/
abbrev Object (V : Type) := Dict Str (Option V)

/-- `getattr(instance, attr_name, None)` -/
def getattr {V : Type} (o : Object V) (a : Str) : Option V := (Cobaya.get o a).getD none

/-- mpi.py:173-179 `share_attr`, in one of `p` processes. -/
def shareAttr {V : Type} (p root : ℕ) (a : Str) (o : Object V) : Prog Err (Object V) :=
  if p ≤ 1 then .ret o
  else do
    let v ← share root (getattr o a)
    .ret (Cobaya.put o (a, v))

/-- `getattr(self.convergence, attr, None)`: `Runner.convergence` is a list of criteria (run.py:450, 474-497), and lists have no such attributes. -/
def getattrList {V : Type} (_ : List (Object V)) (_ : Str) : Option V := none

/-- run.py:1344-1352, the loop over the attributes: `args` are the names with what was computed from the MC sample (`None` if there was none).
The objects of the acquisition and of the convergence criterion are only read. -/
def updateLoop {V : Type} (p r : ℕ) (acq : Object V) (conv : List (Object V)) : List (Str × Option V) → Object V → Prog Err (Object V)
  | [], o => .ret o
  | (a, arg) :: rest, o => do
    let o1 := if r = 0 then
        Cobaya.put o (a, match arg with
          | some v => some v
          | none =>
            match getattr acq a with
            | some v => some v
            | none => getattrList conv a)
      else o
    let o2 ← shareAttr p 0 a o1
    updateLoop p r acq conv rest o2

/-- run.py:1335-1352 `Runner.update_mean_cov`, in process `r` of `p`; `sample` is what `mean_covmat_from_samples` gives. -/
def updateMeanCov {V : Type} (p r : ℕ) (acq : Object V) (conv : List (Object V)) (sample : Option (V × V)) (o : Object V) : Prog Err (Object V) :=
  updateLoop p r acq conv [("mean".toList, sample.map Prod.fst), ("cov".toList, sample.map Prod.snd)] o

end GPry.Gather
