import Verif.Ext
import Verif.Truth
import Mathlib.Analysis.SpecialFunctions.Log.Basic

set_option linter.all false

/-!
# A posterior given as a Cobaya model (gpry/truth.py 20-47, 182-237)

Cobaya is not modelled beyond what is used: independent priors of the sampled parameters with a support (an interval), a log-density, and a
central interval at confidence 0.99995; `prior.bounds(confidence_for_unbounded=0.99995)` gives the support if it is finite and that
interval otherwise; `prior.logp` is the sum of the log-densities; `logpost` does not evaluate the likelihood if the prior is minus infinity.
Points have finite coordinates, one per parameter.
-/

namespace GPry.TruthCob

/-- The prior of a parameter. -/
structure Dist where
  lo : Ext ℝ
  hi : Ext ℝ
  logpdf : ℝ → Ext ℝ
  /-- `interval(0.99995)` -/
  cut : ℝ × ℝ

/-- A Cobaya model. -/
structure Model where
  sampled : List (String × Dist)
  /-- `parameterization.labels()`: of all parameters -/
  labels : List (String × String)
  loglike : List ℝ → Ext ℝ

/-- Cobaya: bounds of one parameter -/
def bounds1 (d : Dist) : ℝ × ℝ := match d.lo, d.hi with
  | .fin a, .fin b => (a, b)
  | _, _ => d.cut

/-- The object. -/
structure Truth where
  model : Model
  priorBounds : List (ℝ × ℝ)
  params : List String
  labels : List String

/-- truth.py:188-198 `__init__`; `none`: KeyError -/
def init (m : Model) : Option Truth :=
  match (m.sampled.map Prod.fst).mapM fun p => m.labels.lookup p with
  | none => none
  | some l => some ⟨m, m.sampled.map fun p => bounds1 p.2, m.sampled.map Prod.fst, l⟩

/-- truth.py:193-195 -/
noncomputable def logPriorVolume (t : Truth) : ℝ := (t.priorBounds.map fun b => Real.log (b.2 - b.1)).sum

/-- truth.py:200-204 `logprior` -/
def logprior (t : Truth) (x : List ℝ) : Ext ℝ :=
  (List.zipWith (fun p v => p.2.logpdf v) t.model.sampled x).foldr GPry.Truth.add (.fin 0)

/-- truth.py:212-216 `logp`: points where the likelihood is evaluated, and the value. -/
noncomputable def logp (t : Truth) (x : List ℝ) : List (List ℝ) × Ext ℝ :=
  if logprior t x = .negInf then ([], .negInf) else ([x], GPry.Truth.add (logprior t x) (t.model.loglike x))

/-- truth.py:232-237 `as_dict` and back with truth.py:20-43 `get_truth(**d)`; `getModel` makes a model of an input (`none`: LoggedError, so
TypeError). -/
def reload {I : Type} (info : Model → I) (getModel : I → Option Model) (t : Truth) : Option Truth :=
  match getModel (info t.model) with
  | none => none
  | some m => init m

/-- Within a list of intervals. -/
def Within : List (ℝ × ℝ) → List ℝ → Prop
  | b :: bs, v :: x => b.1 ≤ v ∧ v ≤ b.2 ∧ Within bs x
  | _, _ => True

/-- In the support. -/
def Dist.Supp (d : Dist) (v : ℝ) : Prop :=
  (match d.lo with
    | .fin a => a ≤ v
    | .negInf => True
    | _ => False) ∧
  match d.hi with
    | .fin b => v ≤ b
    | .posInf => True
    | _ => False

/-- What distributions satisfy. -/
structure Dist.Wf (d : Dist) : Prop where
  low : d.lo = .negInf ∨ ∃ a, d.lo = .fin a
  high : d.hi = .posInf ∨ ∃ b, d.hi = .fin b
  dens : ∀ v, (d.Supp v → ∃ r, d.logpdf v = .fin r) ∧ (¬ d.Supp v → d.logpdf v = .negInf)
  inside : d.Supp d.cut.1 ∧ d.Supp d.cut.2 ∧ d.cut.1 ≤ d.cut.2

/-- Bounded. -/
def Dist.Bounded (d : Dist) : Prop := ∃ a b, d.lo = .fin a ∧ d.hi = .fin b

end GPry.TruthCob
