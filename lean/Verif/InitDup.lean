import Verif.Rng
import Mathlib.Analysis.SpecialFunctions.Pow.Real

set_option linter.all false

/-!
# Initial points that coincide (mpi.py, run.py)
-/

namespace GPry.Rng

/-- mpi.py:42-43: a `Generator` passed as seed is used as it is. Each MPI process has its own copy of it, in the same state `c`. The rest as in
`construct`, with the default random state. -/
def constructGiven (i : ℕ) (c : Cell) (svm : Bool) : Proc :=
  let h : List Cell := [⟨.glob i, 0⟩, c]
  if svm then let q := check h (.gen 1) true; ⟨q.1, 1, .gen 1, some q.2⟩ else ⟨h, 1, .gen 1, Option.none⟩

end GPry.Rng

namespace GPry.Run

/-- `np.linalg.norm(x - y)` -/
noncomputable def norm2 {d : ℕ} (x y : Fin d → ℝ) : ℝ := √(∑ a, (x a - y a) ^ 2)

/-- run.py:791-800: whether the warning about initial points that are very close to each other is issued. The matrix of distances is that of all pairs of
rows. -/
def warnsClose {d : ℕ} (X : List (Fin d → ℝ)) : Prop :=
  1 < X.length ∧ ∃ (i j : Fin X.length), norm2 X[i] X[j] < 1 / 10 ^ 10

end GPry.Run
