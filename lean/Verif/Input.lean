import Verif.Prior
import Mathlib.Analysis.Matrix.PosDef
import Mathlib.Algebra.Order.Floor.Ring
import Mathlib.Algebra.Order.Star.Real

set_option linter.all false

/-!
# Bounds and covariance matrices given by the user (gpry/tools.py 65-73, 292-305; gpry/truth.py 64, 69-87)

Numbers are Python integers or floating point numbers (exact and finite); nested lists of them become NumPy arrays, of integer type if all
the numbers are integers. Assigning a floating point number to an element of an array of integers drops its fractional part (C conversion;
numbers are assumed to fit in 64 bits). Lists that are not rectangular raise `ValueError` (NumPy 1.24 or later).
-/

namespace GPry.Input

open GPry GPry.Truth Matrix

inductive Num
  | int (z : ℤ)
  | flt (x : ℝ)

noncomputable def Num.val : Num → ℝ
  | .int z => z
  | .flt x => x

def Num.isInt : Num → Bool
  | .int _ => true
  | .flt _ => false

/-- A number, or a list of nested lists of numbers. -/
inductive Nest
  | num (x : Num)
  | seq (l : List Nest)

mutual
/-- Shape of `np.array`; `none` for `ValueError`. -/
def Nest.shape : Nest → Option (List ℕ)
  | .num _ => some []
  | .seq l =>
    match shapes l with
    | none => none
    | some [] => some [0]
    | some (s :: r) => if r.all fun t => decide (t = s) then some ((r.length + 1) :: s) else none
def shapes : List Nest → Option (List (List ℕ))
  | [] => some []
  | a :: l =>
    match a.shape, shapes l with
    | some s, some r => some (s :: r)
    | _, _ => none
end

mutual
/-- Elements of the array, row by row. -/
def Nest.flat : Nest → List Num
  | .num x => [x]
  | .seq l => flats l
def flats : List Nest → List Num
  | [] => []
  | a :: l => a.flat ++ flats l
end

structure Arr where
  shape : List ℕ
  elems : List Num

/-- The type of the array is an integer type. -/
def Arr.isInt (a : Arr) : Bool := !a.elems.isEmpty && a.elems.all Num.isInt

/-- `np.atleast_2d` -/
def atleast2d : List ℕ → List ℕ
  | [] => [1, 1]
  | [n] => [1, n]
  | s => s

/-- tools.py:292-305 `check_and_return_bounds` -/
def checkBounds (b : Nest) : Except Err Arr :=
  match b.shape with
  | none => .error .typeError
  | some s =>
    match atleast2d s with
    | n :: 2 :: r => .ok ⟨n :: 2 :: r, b.flat⟩
    | _ => .error .typeError

/-- Rows of an array of two columns. -/
noncomputable def pairs : List Num → List (ℝ × ℝ)
  | a :: b :: l => (a.val, b.val) :: pairs l
  | _ => []

/-- Conversion of a floating point number to an integer. -/
noncomputable def trunc (x : ℝ) : ℤ := if 0 ≤ x then ⌊x⌋ else ⌈x⌉

/-- `array[i] = x` -/
noncomputable def store (isInt : Bool) (x : ℝ) : ℝ := if isInt then trunc x else x

/-- truth.py:70-83: `_ref_bounds_default_prior` for bounds `prior` in an array of integer type or not. -/
noncomputable def refBounds (isInt : Bool) (prior : List (ℝ × ℝ)) (ref : Option (List (Option (List ℝ)))) : Except Err (List (ℝ × ℝ)) :=
  match setRef prior ref with
  | .error e => .error e
  | .ok (given, _) => .ok (List.zipWith (fun v b =>
      match v with
      | some [x, y] => (store isInt x, store isInt y)
      | _ => b) given prior)

/-- truth.py:64-87 and 161-163: `Truth(..., bounds=b, ref_bounds=ref).ref_sample(rng)`; failures of the sampling (`none`) are those of `Prior.uniform`. -/
noncomputable def refSampleOf (b : Nest) (ref : Option (List (Option (List ℝ)))) (u : List ℝ) : Except Err (Option (List ℝ)) :=
  match checkBounds b with
  | .error e => .error e
  | .ok a =>
    match refBounds a.isInt (pairs a.elems) ref with
    | .error e => .error e
    | .ok r =>
      match Prior.refSample (r.map fun q => (.fin q.1, .fin q.2)) u with
      | .ok x => .ok (some x)
      | .error _ => .ok none

/-! ## Covariance matrices -/

/-- `np.isclose(a, b)` with the default tolerances -/
def isClose (a b : ℝ) : Prop := |a - b| ≤ 1 / 10 ^ 8 + 1 / 10 ^ 5 * |b|

variable {n : ℕ}

/-- The matrix that `scipy.linalg.eigh` decomposes: it only looks at the lower triangle. -/
def lowerSym (C : Matrix (Fin n) (Fin n) ℝ) : Matrix (Fin n) (Fin n) ℝ := Matrix.of fun i j => if j ≤ i then C i j else C j i

theorem lowerSym_isHermitian (C : Matrix (Fin n) (Fin n) ℝ) : (lowerSym C).IsHermitian := by
  ext i j
  simp only [conjTranspose_apply, star_trivial, lowerSym, of_apply]
  rcases lt_trichotomy i j with h | h | h
  · rw [if_pos h.le, if_neg (not_le.2 h)]
  · subst h; rfl
  · rw [if_neg (not_le.2 h), if_pos h.le]

/-- tools.py:65-73 `is_valid_covmat` for square matrices with finite elements. -/
def isValidCovmat (C : Matrix (Fin n) (Fin n) ℝ) : Prop :=
  (∀ i j, isClose (Cᵀ i j) (C i j)) ∧ ∀ i, 0 < (lowerSym_isHermitian C).eigenvalues i

end GPry.Input
