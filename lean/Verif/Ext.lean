import Mathlib.Algebra.Order.Field.Basic
import Mathlib.Data.List.Sort

/-!
# Extended numbers with IEEE special values

Exact arithmetic over a linearly ordered field `K`, plus `±inf` and `nan`, with the IEEE/numpy rules
for comparisons, subtraction and division that the modelled code relies on.  Rounding is not modelled.
-/

namespace GPry

/-- A floating point value without rounding. -/
inductive Ext (K : Type*)
  | negInf
  | fin (x : K)
  | posInf
  | nan
deriving DecidableEq, Repr

namespace Ext

variable {K : Type*}

/-- `np.isfinite`. -/
def isFinite : Ext K → Bool
  | fin _ => true
  | _ => false

/-- `np.isnan`. -/
def isNan : Ext K → Bool
  | nan => true
  | _ => false

section Order
variable [LE K] [DecidableLE K] [LT K] [DecidableLT K]

/-- IEEE `a <= b` (false if either is NaN). -/
def le : Ext K → Ext K → Bool
  | nan, _ => false
  | _, nan => false
  | negInf, _ => true
  | _, posInf => true
  | fin a, fin b => decide (a ≤ b)
  | _, _ => false

/-- IEEE `a < b` (false if either is NaN). -/
def lt : Ext K → Ext K → Bool
  | nan, _ => false
  | _, nan => false
  | negInf, negInf => false
  | negInf, _ => true
  | posInf, _ => false
  | fin _, posInf => true
  | fin a, fin b => decide (a < b)
  | fin _, negInf => false

/-- IEEE `a >= b`. -/
def ge (a b : Ext K) : Bool := le b a

/-- IEEE `a > b`. -/
def gt (a b : Ext K) : Bool := lt b a

/-- Ordering used by `np.sort` (NaN last). -/
def sortLe : Ext K → Ext K → Bool
  | _, nan => true
  | nan, _ => false
  | a, b => le a b

/-- IEEE `a == b`. -/
def eqv (a b : Ext K) : Bool := le a b && le b a

/-- Python's builtin `max(a, b)`: `b` only if `b > a`. -/
def pyMax2 (a b : Ext K) : Ext K := if gt b a then b else a

/-- Python's builtin `max(list)` (`none`: raises on an empty list). -/
def pyMax : List (Ext K) → Option (Ext K)
  | [] => none
  | x :: xs => some (xs.foldl pyMax2 x)

/-- numpy's binary maximum: NaN propagates. -/
def npMax2 (a b : Ext K) : Ext K :=
  if a.isNan then a else if b.isNan then b else if lt a b then b else a

/-- `np.max(list)` (`none`: raises on an empty list); NaN propagates. -/
def npMax : List (Ext K) → Option (Ext K)
  | [] => none
  | x :: xs => some (xs.foldl npMax2 x)

/-- `np.sort` (ascending, NaN last). -/
def sort (xs : List (Ext K)) : List (Ext K) := xs.insertionSort fun a b => sortLe a b = true

end Order

section Arith
variable [Sub K] [Add K] [Div K] [Zero K] [LT K] [DecidableLT K] [DecidableEq K] [Mul K]

/-- IEEE subtraction. -/
def sub : Ext K → Ext K → Ext K
  | nan, _ => nan
  | _, nan => nan
  | fin a, fin b => fin (a - b)
  | fin _, negInf => posInf
  | fin _, posInf => negInf
  | negInf, negInf => nan
  | negInf, _ => negInf
  | posInf, posInf => nan
  | posInf, _ => posInf

/-- IEEE addition of a finite number. -/
def addFin : Ext K → K → Ext K
  | fin a, c => fin (a + c)
  | a, _ => a

/-- IEEE subtraction of a finite number. -/
def subFin : Ext K → K → Ext K
  | fin a, c => fin (a - c)
  | a, _ => a

/-- IEEE change of sign. -/
def neg [Neg K] : Ext K → Ext K
  | negInf => posInf
  | fin a => fin (-a)
  | posInf => negInf
  | nan => nan

/-- IEEE division by a finite number (a zero divisor is `+0`). -/
def divFin (a : Ext K) (c : K) : Ext K :=
  match a with
  | nan => nan
  | fin a => if c = 0 then (if 0 < a then posInf else if a < 0 then negInf else nan) else fin (a / c)
  | negInf => if c < 0 then posInf else negInf
  | posInf => if c < 0 then negInf else posInf

/-- Square of a value. -/
def sq : Ext K → Ext K
  | fin a => fin (a * a)
  | nan => nan
  | _ => posInf

end Arith

end Ext
end GPry
