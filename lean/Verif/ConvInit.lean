import Mathlib.Algebra.Order.Floor.Ring
import Mathlib.Algebra.Order.Field.Basic
import Mathlib.Algebra.Group.Int.Even
import Verif.ConvMc
import Verif.Cobaya

set_option linter.all false

/-!
# Options of the convergence criteria (gpry/convergence.py)

Constructors, policies, history. Options are dictionaries from names to Python values; other values than numbers, strings and
`None` are all the same here (`other`).
-/

namespace GPry.ConvInit

open Cobaya

/-- A Python value. -/
inductive PVal (K : Type*)
  | num (x : K)
  | str (s : List Char)
  | none_
  | other
deriving DecidableEq, Repr

inductive IErr
  | value | type_ | attr
deriving DecidableEq, Repr

section
variable {K : Type*} [Field K] [LinearOrder K]

/-- Truth value of a Python value. -/
def PVal.truthy : PVal K → Bool
  | .num x => decide (x ≠ 0)
  | .str s => decide (s ≠ [])
  | .none_ => false
  | .other => true

/-- convergence.py:21-26 -/
def policies : List (List Char) := [['n'], ['s'], ['n', 's'], ['m']]

/-- convergence.py:152-160: `lower` of a string, `AttributeError` (turned into `ValueError`) of anything else. -/
def checkPolicy : PVal K → Except IErr (List Char)
  | .str s => if s.map Char.toLower ∈ policies then .ok (s.map Char.toLower) else .error .value
  | _ => .error .value

/-- convergence.py:147-160 `_set_convergence_policy`; no dictionary is the same as an empty one. -/
def setPolicy (params : Option (Dict String (PVal K))) : Except IErr (List Char) :=
  checkPolicy ((get (params.getD []) "policy").getD (.str ['n']))

/-- `int(np.round(x))`: half-way cases to even numbers. -/
def roundEven [FloorRing K] (x : K) : ℤ :=
  if Int.fract x < 1 / 2 then ⌊x⌋ else if 1 / 2 < Int.fract x then ⌊x⌋ + 1 else if Even ⌊x⌋ then ⌊x⌋ else ⌊x⌋ + 1

/-- `int(x)` of a number: towards zero. -/
def trunc [FloorRing K] (x : K) : ℤ := if 0 ≤ x then ⌊x⌋ else ⌈x⌉

/-- convergence.py:303 -/
def limitTimes [FloorRing K] : PVal K → Except IErr ℤ
  | .num x => .ok (roundEven x)
  | _ => .error .type_

/-- convergence.py:315 `int(...)`, with `intStr` for strings. -/
def toInt [FloorRing K] (intStr : List Char → Option ℤ) : PVal K → Except IErr ℤ
  | .num x => .ok (trunc x)
  | .str s => match intStr s with
    | some n => .ok n
    | none => .error .value
  | _ => .error .type_

/-- What the constructor of `GaussianKL` sets: limit, number of times, policy, number of draws, or draws per dimension
squared, `max_reused`. -/
structure Fields (K : Type*) where
  limit : PVal K
  limitTimes : ℤ
  policy : List Char
  draws : ℤ ⊕ PVal K
  maxReused : PVal K

/-- convergence.py:310-317 -/
def setDraws [FloorRing K] (intStr : List Char → Option ℤ) (p : Dict String (PVal K)) : Except IErr (ℤ ⊕ PVal K) :=
  let n := ((get p "n_draws").getD .none_)
  let m := ((get p "n_draws_per_dimsquared").getD .none_)
  if n.truthy && m.truthy then .error .value
  else if n.truthy then match toInt intStr n with
    | .ok k => .ok (.inl k)
    | .error e => .error e
  else .ok (.inr ((get p "n_draws_per_dimsquared").getD (.num 10)))

/-- convergence.py:295-328 `GaussianKL.__init__` with `d` parameters; `None` has no `get`. -/
def gaussianInit [FloorRing K] (intStr : List Char → Option ℤ) (d : ℕ) : Option (Dict String (PVal K)) → Except IErr (Fields K)
  | none => .error .attr
  | some p => match limitTimes ((get p "limit_times").getD (.num d)) with
    | .error e => .error e
    | .ok t => match setPolicy (some p) with
      | .error e => .error e
      | .ok pol => match setDraws intStr p with
        | .error e => .error e
        | .ok dr => .ok ⟨(get p "limit").getD (.num (2 / 100)), t, pol, dr, (get p "max_reused").getD (.num 4)⟩

/-- `if params.get(name) is None: params[name] = v` -/
def putDefault (p : Dict String (PVal K)) (name : String) (v : PVal K) : Dict String (PVal K) :=
  match get p name with
  | none => put p (name, v)
  | some .none_ => put p (name, v)
  | some _ => p

/-- convergence.py:586-592 `GaussianKLTrain.__init__` (defaults `d`, 2), 690-697 `TrainAlignment.__init__` (1/2, 1): the
criterion, and the dictionary of the caller afterwards (`params or {}`: an empty one is left alone). -/
def trainInit [FloorRing K] (intStr : List Char → Option ℤ) (d : ℕ) (limit times : K) (params : Option (Dict String (PVal K))) :
    Except IErr (Fields K) × Option (Dict String (PVal K)) :=
  let p := putDefault (putDefault (params.getD []) "limit" (.num limit)) "limit_times" (.num times)
  (gaussianInit intStr d (some p), match params with
    | none => none
    | some [] => some []
    | some _ => some p)

/-- convergence.py:800-813, 816-829: tolerances of `CorrectCounter`; `nstd` is `nstd_of_1d_nstd(1, d)`. -/
def tolerance (float : List Char → Option K) (sqrt : K → K) (nstd : K) : PVal K → Except IErr (PVal K)
  | .str s => match s.getLast?, float s.dropLast with
    | some 'l', some x => .ok (.num (x * nstd))
    | some 's', some x => .ok (.num (x * nstd ^ 2))
    | some 'r', some x => .ok (.num (x * sqrt nstd))
    | _, _ => .error .value
  | v => .ok v

/-- convergence.py:699-701: the values of the training set used by `TrainAlignment` (`X_train[-Nfrac:]`), for a
fraction that is not negative. -/
def trainingPart {A : Type*} [FloorRing K] (frac : K) (X : List A) : List A :=
  Conv.lastN (trunc ((X.length : K) * frac)).toNat X

/-- convergence.py:97-115 `get_history`, `none` for an object without lists. -/
def getHistory {V E : Type*} : Option (List V × List E × List E) → Except IErr (List V × List E × List E)
  | none => .error .attr
  | some (v, n, a) => if v.length = 0 ∨ n.length = 0 then .error .value else .ok (v, n, a)

/-- convergence.py:226-255 `DontConverge`: values and numbers of evaluations; a call of `is_converged`. -/
def dontStep (s : List (Ext K) × List (ℕ × ℕ)) (c : ℕ × ℕ) : (List (Ext K) × List (ℕ × ℕ)) × Bool :=
  ((s.1 ++ [.nan], s.2 ++ [c]), false)

end

end GPry.ConvInit
