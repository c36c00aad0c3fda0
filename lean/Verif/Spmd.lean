import Mathlib.Logic.Relation
import Mathlib.Data.List.OfFn
import Mathlib.Data.Fintype.Basic

set_option linter.all false

/-!
# Programs run by all the MPI processes at the same time

Model of the collective operations of `gpry/mpi.py` (lines 52–77 `bcast`, `gather`, `allgather`; 164–171
`sync_processes`; 173–179 `share_attr`), and of the whole set of processes.

A *program* is what one process does between collective calls: it ends (returning or raising), or takes part in a
collective call with some data and goes on with what it gets back.  A *step* of the set of processes takes place when
**all** of them take part in the same collective call (same kind, same root, same type of data).  If some of the
processes wait in a call and the others wait in a different one, or have ended, nothing further happens: deadlock.

Simplifications: collectives synchronise (in MPI the root of a broadcast does not need to wait for the others, but it
can get no further than the next call in which it needs them; whether all calls match is not affected); a mismatched
pair of calls counts as a deadlock (the MPI standard calls it erroneous).  With one process the functions of
`gpry/mpi.py` return their argument (a list with it, for the gathers), which is also what the steps below do for
`p = 1`.
-/

namespace GPry.Spmd

/-- A program that can raise `E` and returns `A`. -/
inductive Prog (E : Type) (A : Type) : Type 1 where
  | ret (a : A)
  | raise (e : E)
  /-- `mpi.sync_processes()`, mpi.py 164–171 -/
  | barrier (k : Prog E A)
  /-- `mpi.bcast(m, root)`, mpi.py 52–58; also `share_attr`, 173–179 -/
  | bcast {α : Type} (root : ℕ) (m : α) (k : α → Prog E A)
  /-- `mpi.gather(m)`, mpi.py 61–67: the list in the main process, `None` in the others -/
  | gather {α : Type} (m : α) (k : Option (List α) → Prog E A)
  /-- `mpi.allgather(m)`, mpi.py 70–76 -/
  | allgather {α : Type} (m : α) (k : List α → Prog E A)

namespace Prog
variable {E A B : Type}

/-- What follows after a program has returned or raised. -/
def cont (k : Except E A → Prog E B) : Prog E A → Prog E B
  | ret a => k (.ok a)
  | raise e => k (.error e)
  | barrier q => barrier (cont k q)
  | bcast root m q => bcast root m fun x => cont k (q x)
  | gather m q => gather m fun x => cont k (q x)
  | allgather m q => allgather m fun x => cont k (q x)

/-- End with a result or an exception. -/
def fin : Except E A → Prog E A
  | .ok a => ret a
  | .error e => raise e

/-- Sequencing: an exception skips the rest. -/
def andThen (q : Prog E A) (k : A → Prog E B) : Prog E B :=
  cont (fun | .ok a => k a | .error e => raise e) q

/-- `try: q  except: h` -/
def tryWith (q : Prog E A) (h : E → Prog E A) : Prog E A :=
  cont (fun | .ok a => ret a | .error e => h e) q

instance : Monad (Prog E) where
  pure := ret
  bind := andThen

/-- Collective calls as statements. -/
def sync : Prog E Unit := barrier (ret ())
def share {α : Type} (root : ℕ) (m : α) : Prog E α := bcast root m ret
def collect {α : Type} (m : α) : Prog E (Option (List α)) := gather m ret
def collectAll {α : Type} (m : α) : Prog E (List α) := allgather m ret

end Prog

open Prog

variable {E A B : Type} {p : ℕ}

/-- One step of the `p` processes. -/
inductive Step : (Fin p → Prog E A) → (Fin p → Prog E A) → Prop where
  | barrier (k : Fin p → Prog E A) : Step (fun r => .barrier (k r)) k
  | bcast {α : Type} (root : Fin p) (m : Fin p → α) (k : Fin p → α → Prog E A) :
      Step (fun r => .bcast root.val (m r) (k r)) (fun r => k r (m root))
  | gather {α : Type} (m : Fin p → α) (k : Fin p → Option (List α) → Prog E A) :
      Step (fun r => .gather (m r) (k r)) (fun r => k r (if r.val = 0 then some (List.ofFn m) else none))
  | allgather {α : Type} (m : Fin p → α) (k : Fin p → List α → Prog E A) :
      Step (fun r => .allgather (m r) (k r)) (fun r => k r (List.ofFn m))

/-- All the processes end, process `r` with `res r`. -/
def Runs (f : Fin p → Prog E A) (res : Fin p → Except E A) : Prop :=
  Relation.ReflTransGen Step f (fun r => Prog.fin (res r))

/-- The processes reach a point at which not all have ended, and nothing further happens. -/
def Deadlocks (f : Fin p → Prog E A) : Prop :=
  ∃ g, Relation.ReflTransGen Step f g ∧ (∀ res : Fin p → Except E A, g ≠ fun r => Prog.fin (res r)) ∧ ∀ h, ¬ Step g h

end GPry.Spmd
