import Mathlib.Algebra.Order.Field.Basic

set_option linter.all false

/-!
# Hyperparameters of kernels (gpry/kernels.py)

Specification of hyperparameters, the vector `theta` (scikit-learn's `Kernel.theta`, which relies on the `hyperparameters`
property of this module) and its `bounds`.

Simplifications. The values of `theta` and of the bounds are those before taking the logarithm (which is taken component by
component in kernels.py:189 and in scikit-learn). `get_params` only lists the values of hyperparameters. Bounds which are strings
other than "fixed" and "dynamic" are not modelled. The values of the constant and noise kernels are numbers. `Matern.nu` and the
exponent of `Exponentiation` play no role.
-/

namespace GPry.KernelHyp

variable {K : Type*} [Field K]

inductive Err
  | typeError | valueError | indexError | keyError
deriving DecidableEq, Repr

abbrev Str := List Char

/-- `bounds` of a hyperparameter; numbers are rows as given by `np.atleast_2d` (a pair is one row). -/
inductive Bnd (K : Type*)
  | fixed
  | dynamic
  | rows (l : List (K × K))
deriving DecidableEq

/-- Value of a hyperparameter. -/
inductive Val (K : Type*)
  | scalar (v : K)
  | vec (vs : List K)
deriving DecidableEq

/-- kernels.py:26-29 -/
structure Hyper (K : Type*) where
  name : Str
  bounds : Bnd K
  maxLen : Option (List K)
  nElem : ℕ
  fixed : Bool
  dynamic : Bool
deriving DecidableEq

/-- kernels.py:86-106 `Hyperparameter.__new__`, with `fixed=None`, `dynamic=None`. -/
def mkHyper (name : Str) (bounds : Bnd K) (maxLen : Option (List K)) (nElem : ℕ) : Except Err (Hyper K) :=
  match bounds with
  | .fixed => .ok ⟨name, .fixed, maxLen, nElem, true, false⟩
  | .dynamic => .ok ⟨name, .dynamic, maxLen, nElem, false, true⟩
  | .rows l =>
    if 1 < nElem then
      match l with
      | [r] => .ok ⟨name, .rows (List.replicate nElem r), maxLen, nElem, false, false⟩
      | l => if l.length = nElem then .ok ⟨name, .rows l, maxLen, nElem, false, false⟩ else .error .valueError
    else .ok ⟨name, .rows l, maxLen, nElem, false, false⟩

/-- Kernel objects. -/
inductive Kern (K : Type*)
  /-- `ConstantKernel` -/
  | const (v : Val K) (b : Bnd K)
  /-- `WhiteKernel` -/
  | white (v : Val K) (b : Bnd K)
  /-- `RBF` or `Matern`; `max_length` -/
  | len (v : Val K) (b : Bnd K) (maxLen : Option (List K))
  /-- `RationalQuadratic`, `ExpSineSquared`, `DotProduct` -/
  | other
  | sum (a b : Kern K)
  | prod (a b : Kern K)
  | pow (a : Kern K)

/-- kernels.py:208-237 and 283-313: constructors of `RBF` and `Matern`. -/
def mkLen (v : Val K) (b : Bnd K) (prior : Option (List (K × K))) : Except Err (Kern K) :=
  match b with
  | .dynamic =>
    match prior with
    | none => .error .typeError
    | some p => .ok (.len v .dynamic (some (p.map fun r => r.2 - r.1)))
  | b => .ok (.len v b none)

/-- Number of elements of a length scale: kernels.py:239-248 and 315-324; `anisotropic` of scikit-learn is
`np.iterable(length_scale) and len(length_scale) > 1`. -/
def Val.nElem : Val K → ℕ
  | .vec vs => if 1 < vs.length then vs.length else 1
  | .scalar _ => 1

def nConst : Str := "constant_value".toList
def nNoise : Str := "noise_level".toList
def nLen : Str := "length_scale".toList
def k1 : Str := "k1__".toList
def k2 : Str := "k2__".toList
def kk : Str := "kernel__".toList

/-- kernels.py:629-645 and 650-659: the hyperparameter of a part of a compound kernel. -/
def rename (pre : Str) (h : Hyper K) : Except Err (Hyper K) := mkHyper (pre ++ h.name) h.bounds h.maxLen h.nElem

/-- A list comprehension whose elements may raise. -/
def mapE {α β : Type*} (f : α → Except Err β) : List α → Except Err (List β)
  | [] => .ok []
  | a :: l => match f a with
    | .error e => .error e
    | .ok b => match mapE f l with
      | .error e => .error e
      | .ok bs => .ok (b :: bs)

/-- Two lists one after the other. -/
def both {α : Type*} : Except Err (List α) → Except Err (List α) → Except Err (List α)
  | .ok a, .ok b => .ok (a ++ b)
  | .error e, _ => .error e
  | _, .error e => .error e

/-- The hyperparameters of a part of a compound kernel. -/
def part (pre : Str) : Except Err (List (Hyper K)) → Except Err (List (Hyper K))
  | .ok l => mapE (rename pre) l
  | .error e => .error e

/-- `Kernel.hyperparameters`: kernels.py:148-152 with 604-606, 615-617, 239-248, 315-324; compound kernels 629-645, 650-659. The
hyperparameters of `RationalQuadratic` (488-489), `ExpSineSquared` (567-570) and `DotProduct` (704-706) are created without the
argument `max_length`, which has no default. -/
def Kern.hypers : Kern K → Except Err (List (Hyper K))
  | .const v b => mapE (fun _ => mkHyper nConst b none 1) [()]
  | .white v b => mapE (fun _ => mkHyper nNoise b none 1) [()]
  | .len v b m => mapE (fun _ => mkHyper nLen b m v.nElem) [()]
  | .other => .error .typeError
  | .sum a b => both (part k1 a.hypers) (part k2 b.hypers)
  | .prod a b => both (part k1 a.hypers) (part k2 b.hypers)
  | .pow a => part kk a.hypers

/-- `get_params(deep=True)` of scikit-learn, values of hyperparameters only. -/
def Kern.params : Kern K → List (Str × Val K)
  | .const v _ => [(nConst, v)]
  | .white v _ => [(nNoise, v)]
  | .len v _ _ => [(nLen, v)]
  | .other => []
  | .sum a b => (a.params.map fun q => (k1 ++ q.1, q.2)) ++ b.params.map fun q => (k2 ++ q.1, q.2)
  | .prod a b => (a.params.map fun q => (k1 ++ q.1, q.2)) ++ b.params.map fun q => (k2 ++ q.1, q.2)
  | .pow a => a.params.map fun q => (kk ++ q.1, q.2)

/-- `params[name]` -/
def find (name : Str) : List (Str × Val K) → Option (Val K)
  | [] => none
  | q :: l => if q.1 = name then some q.2 else find name l

/-- kernels.py:173-178 (and 180-184 for a number): limits from element `t` of `max_length`. -/
def dynRow (m : Option (List K)) (t : ℕ) : Except Err (K × K) :=
  match m with
  | none => .error .typeError
  | some m => match m[t]? with
    | none => .error .indexError
    | some w => .ok (w * (1 / 1000), w * 100)

/-- kernels.py:167-186: rows of one hyperparameter. -/
def boundRows (h : Hyper K) (v : Val K) : Except Err (List (K × K)) :=
  if h.fixed then .ok []
  else if h.dynamic then
    match v with
    | .vec vs => mapE (dynRow h.maxLen) (List.range vs.length)
    | .scalar _ => mapE (dynRow h.maxLen) [0]
  else match h.bounds with
    | .rows l => .ok l
    | _ => .error .valueError

/-- kernels.py:165-191 for a list of hyperparameters. -/
def boundsGo (ps : List (Str × Val K)) : List (Hyper K) → Except Err (List (K × K))
  | [] => .ok []
  | h :: l =>
    match find h.name ps with
    | none => .error .keyError
    | some v => both (boundRows h v) (boundsGo ps l)

/-- kernels.py:155-191 `Kernel.bounds` before `np.log` -/
def Kern.bounds (k : Kern K) : Except Err (List (K × K)) :=
  match k.hypers with
  | .error e => .error e
  | .ok hs => boundsGo k.params hs

/-- `np.hstack` of the values -/
def Val.flat : Val K → List K
  | .scalar v => [v]
  | .vec vs => vs

def thetaGo (ps : List (Str × Val K)) : List (Hyper K) → Except Err (List K)
  | [] => .ok []
  | h :: l =>
    if h.fixed then thetaGo ps l
    else match find h.name ps with
    | none => .error .keyError
    | some v => both (.ok v.flat) (thetaGo ps l)

/-- `Kernel.theta` of scikit-learn (before `np.log`); `n_dims` is its length. -/
def Kern.theta (k : Kern K) : Except Err (List K) :=
  match k.hypers with
  | .error e => .error e
  | .ok hs => thetaGo k.params hs

/-- `Kernel.theta` setter of scikit-learn: the values assigned and whether all of `theta` has been used. -/
def assign : List (Hyper K) → List K → Except Err (List (Str × Val K))
  | [], [] => .ok []
  | [], _ :: _ => .error .valueError
  | h :: l, th =>
    if h.fixed then assign l th
    else if 1 < h.nElem then
      if th.length < h.nElem then .error .valueError
      else match assign l (th.drop h.nElem) with
        | .error e => .error e
        | .ok r => .ok ((h.name, .vec (th.take h.nElem)) :: r)
    else match th with
      | [] => .error .indexError
      | t :: th => match assign l th with
        | .error e => .error e
        | .ok r => .ok ((h.name, .scalar t) :: r)

/-- `name[len(pre):]` if it starts with `pre` (`key.split("__", 1)` in scikit-learn's `set_params`) -/
def strip : Str → Str → Option Str
  | [], n => some n
  | c :: p, d :: n => if c = d then strip p n else none
  | _ :: _, [] => none

/-- `set_params(name=value)` for the values of hyperparameters. -/
def Kern.setParam : Kern K → Str × Val K → Kern K
  | .const v b, q => if q.1 = nConst then .const q.2 b else .const v b
  | .white v b, q => if q.1 = nNoise then .white q.2 b else .white v b
  | .len v b m, q => if q.1 = nLen then .len q.2 b m else .len v b m
  | .other, _ => .other
  | .sum a b, q =>
    match strip k1 q.1 with
    | some n => .sum (a.setParam (n, q.2)) b
    | none => match strip k2 q.1 with
      | some n => .sum a (b.setParam (n, q.2))
      | none => .sum a b
  | .prod a b, q =>
    match strip k1 q.1 with
    | some n => .prod (a.setParam (n, q.2)) b
    | none => match strip k2 q.1 with
      | some n => .prod a (b.setParam (n, q.2))
      | none => .prod a b
  | .pow a, q =>
    match strip kk q.1 with
    | some n => .pow (a.setParam (n, q.2))
    | none => .pow a

/-- Setting `theta` (values before `np.log`). -/
def Kern.setTheta (k : Kern K) (th : List K) : Except Err (Kern K) :=
  match k.hypers with
  | .error e => .error e
  | .ok hs => match assign hs th with
    | .error e => .error e
    | .ok ps => .ok (ps.foldl Kern.setParam k)

/-- gpr.py:350-363: the kernel built by `GaussianProcessRegressor.__init__` (for "RBF" or "Matern" without further arguments);
`oInit`, `lInit` are the square roots of gpr.py:351-352 and `bounds` the transformed prior bounds. -/
def defaultKernel (o0 o1 oInit l0 l1 lInit : K) (bounds : List (K × K)) : Except Err (Kern K) :=
  match mkLen (.vec (List.replicate bounds.length lInit)) (.rows [(l0, l1)]) (some bounds) with
  | .error e => .error e
  | .ok k => .ok (.prod (.const (.scalar (oInit ^ 2)) (.rows [(o0 ^ 2, o1 ^ 2)])) k)

end GPry.KernelHyp
