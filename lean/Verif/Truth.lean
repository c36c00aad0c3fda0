import Verif.Tools
import Mathlib.Analysis.SpecialFunctions.Log.Basic

set_option linter.all false

/-!
# The true posterior (gpry/truth.py) and the wrapping of likelihoods (gpry/tools.py)

Real numbers are exact; `Ext` adds the infinities and NaN. A Python function is a signature and a behaviour on positional
arguments, which are numbers or vectors. The Cobaya variant `TruthCobaya` is not modelled.
-/

namespace GPry.Truth

open GPry

/-! ## Functions and calls -/

/-- `inspect.Parameter.kind`, and whether there is a default. -/
inductive Kind
  | posOnly | posOrKw | varPos | kwOnly | varKw
deriving DecidableEq, Repr

structure Param where
  kind : Kind
  hasDefault : Bool := false
deriving DecidableEq, Repr

/-- An argument: a number or a vector. -/
inductive Arg (V : Type*)
  | num (v : V)
  | vec (x : List V)
deriving DecidableEq, Repr

inductive Err
  | typeError | valueError
  /-- raised by the function of the user -/
  | user
deriving DecidableEq, Repr

/-- A Python function: signature, and what its body does with the positional arguments it is called with. -/
structure Fun (V R : Type*) where
  sig : List Param
  body : List (Arg V) → Except Err R

variable {V R : Type*}

/-- tools.py:372-383 -/
def isPositional (p : Param) : Bool := decide (p.kind = .posOnly) || decide (p.kind = .posOrKw)
def nArgs (s : List Param) : ℕ := (s.filter isPositional).length
def nKeyword (s : List Param) : ℕ := (s.filter fun p => decide (p.kind = .kwOnly)).length
def hasVarPos (s : List Param) : Bool := s.any fun p => decide (p.kind = .varPos)
def hasVarKw (s : List Param) : Bool := s.any fun p => decide (p.kind = .varKw)

/-- Python accepts a call with `n` positional arguments (and no others). -/
def accepts (s : List Param) (n : ℕ) : Bool :=
  (decide (n ≤ nArgs s) || hasVarPos s)
    && decide ((s.filter fun p => isPositional p && !p.hasDefault).length ≤ n)
    && !(s.any fun p => decide (p.kind = .kwOnly) && !p.hasDefault)

/-- `f(*args)` -/
def Fun.call (f : Fun V R) (args : List (Arg V)) : Except Err R :=
  if accepts f.sig args.length then f.body args else .error .typeError

/-- `f(*X)` where `X` is a value; a number cannot be unpacked. -/
def Fun.star (f : Fun V R) : Arg V → Except Err R
  | .num _ => .error .typeError
  | .vec x => f.call (x.map .num)

/-- tools.py:386-390, the function `wrapped`. -/
def wrapped (f : Fun V R) : Fun V R where
  sig := [⟨.posOrKw, false⟩]
  body
    | [X] => f.star X
    | _ => .error .typeError

/-- tools.py:363-397 `wrap_likelihood`. -/
def wrapLikelihood (f : Fun V R) (ndim : ℕ) : Except Err (Fun V R) :=
  if nArgs f.sig = ndim ∨ nArgs f.sig + nKeyword f.sig = ndim then .ok (wrapped f)
  else if nArgs f.sig = 1 ∧ hasVarPos f.sig = false ∧ hasVarKw f.sig = false then .ok f
  else .error .valueError

/-! ## Truth -/

/-- Extended addition. -/
def add {K : Type*} [Add K] : Ext K → Ext K → Ext K
  | .nan, _ => .nan
  | _, .nan => .nan
  | .posInf, .negInf => .nan
  | .negInf, .posInf => .nan
  | .posInf, _ => .posInf
  | _, .posInf => .posInf
  | .negInf, _ => .negInf
  | _, .negInf => .negInf
  | .fin a, .fin b => .fin (a + b)

/-- `np.log` -/
noncomputable def log : Ext ℝ → Ext ℝ
  | .fin v => if 0 < v then .fin (Real.log v) else if v = 0 then .negInf else .nan
  | .posInf => .posInf
  | _ => .nan

/-- truth.py:49-155: the bounds and the wrapped likelihood. Parameter names, reference bounds and sampling are left out here. -/
structure Truth where
  bounds : List (Ext ℝ × Ext ℝ)
  loglike : Fun (Ext ℝ) (Ext ℝ)

/-- truth.py:59-68 `__init__` -/
noncomputable def init (f : Fun (Ext ℝ) (Ext ℝ)) (bounds : List (Ext ℝ × Ext ℝ)) : Except Err Truth :=
  match wrapLikelihood f bounds.length with
  | .ok g => .ok ⟨bounds, g⟩
  | .error e => .error e

/-- truth.py:65-67 -/
noncomputable def logPriorVolume (t : Truth) : Ext ℝ := (t.bounds.map fun b => log (b.2.sub b.1)).foldr add (.fin 0)

/-- truth.py:134-140 `logprior` -/
noncomputable def logprior (t : Truth) (x : List (Ext ℝ)) : Ext ℝ :=
  if Tools.isInBounds t.bounds x then (logPriorVolume t).neg else .negInf

/-- truth.py:148-155 `logp`: the arguments with which the likelihood was called, and the value. -/
noncomputable def logp (t : Truth) (x : List (Ext ℝ)) : List (List (Ext ℝ)) × Except Err (Ext ℝ) :=
  let lp := logprior t x
  if lp = .negInf then ([], .ok lp)
  else
    match t.loglike.call [.vec x] with
    | .ok l => ([x], .ok (add lp l))
    | .error e => ([x], .error e)

/-- truth.py:165-179 `as_dict` and back with truth.py:20-24, `get_truth(**d)`. -/
noncomputable def reload (t : Truth) : Except Err Truth := init t.loglike t.bounds

/-! ## Names and reference bounds -/

/-- The argument `params`: nothing, a sequence of names, or a mapping from names to labels (distinct keys, in order). -/
inductive Params
  | none
  | names (l : List String)
  | labelled (l : List (String × String))

/-- tools.py:147-161 `generic_params_names` -/
def generic (pre : String) (d : ℕ) : List String := (List.range d).map fun i => pre ++ Nat.repr (i + 1)

/-- `d[k] = v` in a Python dictionary (in order of first insertion). -/
def dictSet (l : List (String × String)) (q : String × String) : List (String × String) :=
  if q.1 ∈ l.map Prod.fst then l.map fun r => if r.1 = q.1 then (r.1, q.2) else r else l ++ [q]

/-- `dict(pairs)` -/
def pyDict (l : List (String × String)) : List (String × String) := l.foldl dictSet []

/-- truth.py:92-113: `_params` and `_labels`. -/
def setNames (d : ℕ) : Params → Except Err (List String × List String)
  | .none => .ok (generic "x_" d, (generic "x_{" d).map (· ++ "}"))
  | .names l => if l.length ≠ d then .error .typeError else .ok (l, l)
  | .labelled l => if l.length ≠ d then .error .typeError else .ok (l.map Prod.fst, l.map Prod.snd)

/-- truth.py:70-87: the entries given, and those with the prior bounds as default; an entry is a list of numbers, which must be
of length two. -/
def setRef {B : Type*} (prior : List (B × B)) (ref : Option (List (Option (List B)))) :
    Except Err (List (Option (List B)) × List (List B)) :=
  match ref with
  | none => .ok (List.replicate prior.length none, prior.map fun b => [b.1, b.2])
  | some l =>
    if l.length ≠ prior.length then .error .typeError
    else if (l.any fun v => match v with
      | some v => decide (v.length ≠ 2)
      | none => false) then .error .typeError
    else .ok (l, List.zipWith (fun v b => v.getD [b.1, b.2]) l prior)

/-- truth.py:165-179 `as_dict`, the entry `params`. -/
def namesDict (q : List String × List String) : Params := .labelled (pyDict (q.1.zip q.2))

end GPry.Truth
