import Verif.Cobaya
import Verif.Ext

set_option linter.all false

/-!
# Acquisition functions as objects: operators, equality, parameters (gpry/acquisition_functions.py:150-403, 1205-1449)

Trees without shared sub-objects.
-/

namespace GPry.AcqObj

open GPry Cobaya

inductive AErr
  | valueError | attributeError | typeError
deriving DecidableEq, Repr

/-- Values of parameters. -/
inductive Pv (K : Type)
  | none
  | bool (b : Bool)
  | num (x : Ext K)
deriving DecidableEq

variable {K : Type} [Field K] [LinearOrder K]

/-- Booleans are numbers. -/
def Pv.norm : Pv K → Pv K
  | .bool b => .num (.fin (if b then 1 else 0))
  | v => v

def Pv.isNan : Pv K → Bool
  | .num .nan => true
  | _ => false

/-- `a == b` for parameters. -/
def Pv.same (a b : Pv K) : Bool := decide (a.norm = b.norm) && !a.isNan

/-- An acquisition function: the class and what `get_params` finds for the arguments of its constructor (attributes that are not set count as
`None`, 186-194), or an operator. -/
inductive Af (K : Type)
  | leaf (cls : String) (ps : Dict (List Char) (Pv K))
  | sum (a b : Af K)
  | prod (a b : Af K)
  | pow (a : Af K) (p : Pv K)

/-! ## Operators -/

/-- What may stand beside an operator. -/
inductive Operand (K : Type)
  | af (a : Af K)
  | num (x : Ext K)

/-- acquisition_functions.py:424-427 `ConstantAcqFunc(b)` -/
def const (x : Ext K) : Af K := .leaf "ConstantAcqFunc" [("constant_value".toList, .num x), ("fixed".toList, .bool false), ("dimension".toList, .none)]

def toAf : Operand K → Af K
  | .af a => a
  | .num x => const x

/-- 368-371 -/
def add (a : Af K) (b : Operand K) : Af K := .sum a (toAf b)
/-- 373-376 -/
def radd (a : Af K) (b : Operand K) : Af K := .sum (toAf b) a
/-- 378-381 -/
def mul (a : Af K) (b : Operand K) : Af K := .prod a (toAf b)
/-- 383-386 -/
def rmul (a : Af K) (b : Operand K) : Af K := .prod (toAf b) a

/-! ## Values -/

/-- Value at a point: `F` gives that of a leaf from its class and parameters, `pw` the power (`none`: the exponent is not a number).
acquisition_functions.py:1302, 1323, 1445-1446 -/
def Af.value {P : Type} (F : String → (List Char → Pv K) → P → K) (pw : Pv K → K → Option K) : Af K → P → Option K
  | .leaf c ps, x => some (F c (fun k => (get ps k).getD .none) x)
  | .sum a b, x => match a.value F pw x, b.value F pw x with
    | some u, some v => some (u + v)
    | _, _ => none
  | .prod a b, x => match a.value F pw x, b.value F pw x with
    | some u, some v => some (u * v)
    | _, _ => none
  | .pow a p, x => match a.value F pw x with
    | some u => pw p u
    | none => none

/-! ## Equality: acquisition_functions.py:391-399, 1280-1284, 1408-1412 -/

/-- 396-398: over all the names of both. -/
def sameParams (p q : Dict (List Char) (Pv K)) : Bool :=
  (p.map Prod.fst ++ q.map Prod.fst).all fun k => ((get p k).getD .none).same ((get q k).getD .none)

def Af.eq : Af K → Af K → Bool
  | .leaf c p, .leaf c' q => decide (c = c') && sameParams p q
  | .sum a b, .sum a' b' => (a.eq a' && b.eq b') || (a.eq b' && b.eq a')
  | .prod a b, .prod a' b' => (a.eq a' && b.eq b') || (a.eq b' && b.eq a')
  | .pow a p, .pow b q => a.eq b && p.same q
  | _, _ => false

/-! ## Parameters: acquisition_functions.py:150-239, 1213-1235, 1347-1370 -/

/-- `key.split('__', 1)` -/
def splitDbl : List Char → Option (List Char × List Char)
  | [] => none
  | [_] => none
  | c :: c' :: s => if c = '_' ∧ c' = '_' then some ([], s) else (splitDbl (c' :: s)).map fun q => (c :: q.1, q.2)

def nested (pre : List Char) (l : List (List Char × (Pv K ⊕ Af K))) : List (List Char × (Pv K ⊕ Af K)) := l.map fun q => (pre ++ q.1, q.2)

/-- `get_params()` -/
def Af.getParams : Af K → List (List Char × (Pv K ⊕ Af K))
  | .leaf _ ps => ps.map fun q => (q.1, .inl q.2)
  | .sum a b => [("k1".toList, .inr a), ("k2".toList, .inr b)] ++ nested "k1__".toList a.getParams ++ nested "k2__".toList b.getParams
  | .prod a b => [("k1".toList, .inr a), ("k2".toList, .inr b)] ++ nested "k1__".toList a.getParams ++ nested "k2__".toList b.getParams
  | .pow a p => [("acquisition_function".toList, .inr a), ("exponent".toList, .inl p)] ++ nested "acquisition_function__".toList a.getParams

/-- `set_params(**{key: value})`. (Objects as parameters of a leaf and numbers as operands, which only fail later, are refused here.) -/
def Af.setOne : Af K → List Char → Pv K ⊕ Af K → Except AErr (Af K)
  | .leaf c ps, k, v => match splitDbl k with
    | some (n, _) => if n ∈ ps.map Prod.fst then .error .attributeError else .error .valueError
    | none => if k ∈ ps.map Prod.fst then
        match v with
        | .inl x => .ok (.leaf c (put ps (k, x)))
        | .inr _ => .error .typeError
      else .error .valueError
  | .sum a b, k, v => match splitDbl k with
    | some (n, s) => if n = "k1".toList then (a.setOne s v).map fun a' => .sum a' b
      else if n = "k2".toList then (b.setOne s v).map fun b' => .sum a b' else .error .valueError
    | none => match v with
      | .inr x => if k = "k1".toList then .ok (.sum x b) else if k = "k2".toList then .ok (.sum a x) else .error .valueError
      | .inl _ => if k = "k1".toList ∨ k = "k2".toList then .error .typeError else .error .valueError
  | .prod a b, k, v => match splitDbl k with
    | some (n, s) => if n = "k1".toList then (a.setOne s v).map fun a' => .prod a' b
      else if n = "k2".toList then (b.setOne s v).map fun b' => .prod a b' else .error .valueError
    | none => match v with
      | .inr x => if k = "k1".toList then .ok (.prod x b) else if k = "k2".toList then .ok (.prod a x) else .error .valueError
      | .inl _ => if k = "k1".toList ∨ k = "k2".toList then .error .typeError else .error .valueError
  | .pow a p, k, v => match splitDbl k with
    | some (n, s) => if n = "acquisition_function".toList then (a.setOne s v).map fun a' => .pow a' p
      else if n = "exponent".toList then .error .attributeError else .error .valueError
    | none => match v with
      | .inr x => if k = "acquisition_function".toList then .ok (.pow x p) else if k = "exponent".toList then .error .typeError else .error .valueError
      | .inl y => if k = "exponent".toList then .ok (.pow a y) else if k = "acquisition_function".toList then .error .typeError else .error .valueError

/-- 217-238: several keywords, one after the other; the objects inside are looked up before (`valid_params`), so that a parameter of an
operand that was replaced in the same call is set in the old operand, which is no longer part of this one. -/
def Af.setParams (a : Af K) : List (List Char) → List (List Char × (Pv K ⊕ Af K)) → Except AErr (Af K)
  | _, [] => .ok a
  | replaced, (k, v) :: l => match splitDbl k with
    | some (n, _) => if n ∈ replaced then a.setParams replaced l
      else match a.setOne k v with
        | .error e => .error e
        | .ok a' => a'.setParams replaced l
    | none => match a.setOne k v with
      | .error e => .error e
      | .ok a' => a'.setParams (k :: replaced) l

end GPry.AcqObj
