import Verif.Run

set_option linter.all false

/-!
# Interrupting and resuming a run (run.py)

A checkpoint is saved at the end of each iteration that evaluated points (run.py:1009-1010). When it is loaded, the counter of iterations starts at 0
(run.py:282), and the flag of convergence is reset at the start of the loop (run.py:805).
-/

namespace GPry.Run

variable {G X : Type*}

/-- run.py:812-1018: at most `n` iterations of the loop, and how it ended, if it did. -/
def iterN (o : Opts) (mcOpts : Bool) (nT nF : G → ℕ) (steps : ℕ → G → Step G X) : ℕ → St G X → St G X × Option Exit
  | 0, st => (st, none)
  | n + 1, st =>
    if 0 < o.maxTotal - nT st.gpr ∧ 0 < o.maxFinite - nF st.gpr ∧ st.hasConverged = false then
      match iterate o mcOpts (steps st.iter st.gpr) st with
      | (st', .next) => iterN o mcOpts nT nF steps n st'
      | (st', .break_) => (st', some .gaveUp)
      | (st', .raise e) => (st', some (.raised e))
    else (st, some .finished)

/-- The number of the iteration moved by `k`. -/
def Event.shift (k : ℕ) : Event → Event
  | .insufficient => .insufficient
  | .evaluated it n c d => .evaluated (k + it) n c d

/-- What an interrupted run looks like after `k` iterations, seen from the start: state `old` at the interruption, `st` that of the resumed run. -/
def St.after (old st : St G X) : St G X :=
  ⟨st.gpr, st.hasConverged, st.resamples, old.iter + st.iter, st.trace.map (Event.shift old.iter) ++ old.trace, old.evals ++ st.evals⟩

/-- The kinds of fits in sessions with the given numbers of iterations (run.py:815, 1252-1260): each session starts counting at 1. -/
def sessionFits (full simple : ℕ) (sessions : List ℕ) : List FitKind :=
  sessions.flatMap fun n => (List.range n).map fun i => fitKind full simple (i + 1)

end GPry.Run
