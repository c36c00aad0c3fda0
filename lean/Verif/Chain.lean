import Mathlib.Data.List.Basic

set_option linter.all false

/-!
# Proposals from short chains (gpry/proposal.py:19-43, 359-443)

The points are of any type `P`, and `inB` says whether a point is within given bounds. The external MCMC sampler is a function of the
random state and the number of the run: `none` if the run raises an exception, otherwise the points of the chain. Simplified: the random
state is given once and the results of the runs depend on their number; `nsteps` is not negative; the warnings are left out.
-/

namespace GPry.Chain

inductive CErr
  | attributeError | valueError | indexError
deriving DecidableEq, Repr

section
variable {P R B : Type}

/-- What is outside the proposer. -/
structure Env (P R B : Type) where
  /-- whether a point is within the bounds -/
  inB : B → P → Bool
  /-- the points of the `k`-th run of the sampler; `none` if it fails -/
  run : R → ℕ → Option (List P)
  /-- the `k`-th proposal of the uniform proposer for bounds and random state (`none` for the global one) -/
  unif : B → Option R → ℕ → P

/-- The attributes (proposal.py:384-393, 430-443); `train` is the size of the training set of `self.gpr`, `none` before `update`;
`runs` and `draws` count the runs of the sampler and the uniform proposals. -/
structure St (P B : Type) where
  samples : List P
  bounds : B
  nsteps : ℕ
  nretries : ℕ
  train : Option ℕ
  runs : ℕ
  draws : ℕ

/-- proposal.py:384-389 `__init__` -/
def St.init (b : B) (nsteps nretries : ℕ) : St P B := ⟨[], b, nsteps, nretries, none, 0, 0⟩

/-- `a[::n]` for positive `n`. -/
def stride (n : ℕ) (l : List P) : List P :=
  match l with
  | [] => []
  | x :: xs => x :: stride n (xs.drop (n - 1))
termination_by l.length
decreasing_by simp; omega

/-- proposal.py:421 `points[:: -self.nsteps]`; a null step raises. -/
def takeSteps (n : ℕ) (pts : List P) : Option (List P) := if n = 0 then none else some (stride n pts.reverse)

/-- proposal.py:407-424: the attempts that are left. The value is whether some run succeeded. -/
def attempts (e : Env P R B) (r : R) : ℕ → St P B → St P B × Except CErr Bool
  | 0, s => (s, .ok false)
  | n + 1, s => match s.train with
    | none => (s, .error .attributeError)
    | some 0 => (s, .error .valueError)
    | some _ =>
      let s' := { s with runs := s.runs + 1 }
      match (e.run r s.runs).bind (takeSteps s.nsteps) with
      | some l => ({ s' with samples := l }, .ok true)
      | none => attempts e r n s'

/-- proposal.py:425-428: uniform points, without the random state. -/
def fallback (e : Env P R B) (s : St P B) : St P B :=
  { s with samples := (List.range s.nsteps).map fun i => e.unif s.bounds none (s.draws + i), draws := s.draws + s.nsteps }

/-- proposal.py:405-428 `resample` -/
def resample (e : Env P R B) (r : R) (s : St P B) : St P B × Option CErr :=
  match attempts e r s.nretries s with
  | (s', .error x) => (s', some x)
  | (s', .ok true) => (s', none)
  | (s', .ok false) => (fallback e s', none)

/-- `last, self.samples = self.samples[-1], self.samples[:-1]` -/
def pop (s : St P B) : St P B × Except CErr P :=
  match s.samples.getLast? with
  | none => (s, .error .indexError)
  | some x => ({ s with samples := s.samples.dropLast }, .ok x)

/-- proposal.py:396-403 `get` under the decorator -/
def getRaw (e : Env P R B) (r : R) (s : St P B) : St P B × Except CErr P :=
  if 0 < s.samples.length then pop s
  else match resample e r s with
    | (s', some x) => (s', .error x)
    | (s', none) => pop s'

/-- proposal.py:19-43 `check_in_bounds`: the loop, with at most `fuel` calls; the value is `none` if it has not ended. -/
def get (e : Env P R B) (r : R) : ℕ → St P B → St P B × Option (Except CErr P)
  | 0, s => (s, none)
  | n + 1, s => match getRaw e r s with
    | (s', .error x) => (s', some (.error x))
    | (s', .ok x) => if e.inB s.bounds x then (s', some (.ok x)) else get e r n s'

/-- proposal.py:430-443 `update` with a surrogate with `n` training points. -/
def update (n : ℕ) (s : St P B) : St P B := { s with samples := [], train := some n }

/-- proposal.py:391-393 `update_bounds` -/
def updateBounds (b : B) (s : St P B) : St P B := { s with bounds := b }

/-- Calls to the proposer. -/
inductive Op (R B : Type)
  | get (r : R) (fuel : ℕ)
  | update (n : ℕ)
  | bounds (b : B)

/-- The effect of a call, and the proposal given by it, if any. -/
def step (e : Env P R B) : Op R B → St P B → St P B × Option P
  | .get r f, s => match get e r f s with
    | (s', some (.ok x)) => (s', some x)
    | (s', _) => (s', none)
  | .update n, s => (update n s, none)
  | .bounds b, s => (updateBounds b s, none)

/-- A history of calls: the final state and the proposals, in order. -/
def history (e : Env P R B) : List (Op R B) → St P B → St P B × List P
  | [], s => (s, [])
  | o :: os, s => ((history e os (step e o s).1).1, (step e o s).2.toList ++ (history e os (step e o s).1).2)

end

end GPry.Chain
