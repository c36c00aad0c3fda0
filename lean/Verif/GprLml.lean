import Verif.GprFit

set_option linter.all false

/-!
# The log-marginal likelihood that the regressor reports (gpry/gpr.py)

The attribute `log_marginal_likelihood_value_` is set by the fit of the hyperparameters only. `run.py:1277-1278` prints it after every call of
`append_to_data`, and the method `log_marginal_likelihood()` without arguments, inherited from scikit-learn, returns it.
-/

namespace GPry.GprLml

open GPry.Gpr (Err)
open GPry.GprFit (Cfg St Bounds fit)

variable {D K : Type} [Field K] [LinearOrder K]

/-- The regressor: training set (transformed, with noise levels), and the hyperparameters with the attribute. -/
structure Reg (D K : Type) where
  data : D
  st : St K

/-- Calls of `append_to_data` (gpr.py:577-753); `f` is what the call does to the training set of the GP (gpr.py:743-747). -/
inductive Op (D K : Type)
  /-- no finite point among the new ones: returns before anything happens to the GP (gpr.py:740-741), whether a fit is asked for or not -/
  | noFinite
  /-- `fit_gpr=False`: gpr.py:751-752, `_update_model` -/
  | keep (f : D → D)
  /-- with a fit of the hyperparameters: gpr.py:749-750 -/
  | refit (f : D → D) (simple start : Bool) (n : Option ℕ) (b : Option (Bounds K))

/-- One call. `c` gives the optimiser and the log-marginal likelihood for a training set. -/
def step (c : D → Cfg K) (r : Reg D K) : Op D K → Except Err (Reg D K)
  | .noFinite => .ok r
  | .keep f => .ok ⟨f r.data, r.st⟩
  | .refit f simple start n b => match fit (c (f r.data)) simple start n b r.st with
    | .error e => .error e
    | .ok p => .ok ⟨f r.data, p.1⟩

/-- Several calls. -/
def steps (c : D → Cfg K) : Reg D K → List (Op D K) → Except Err (Reg D K)
  | r, [] => .ok r
  | r, o :: os => match step c r o with
    | .error e => .error e
    | .ok r' => steps c r' os

/-- `log_marginal_likelihood_value_` -/
def Reg.reported (r : Reg D K) : Option (Ext K) := r.st.lmlValue

end GPry.GprLml
