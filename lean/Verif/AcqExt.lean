import Verif.AcqPts

set_option linter.all false

/-!
# Composed acquisition functions and their gradients with NaN and infinities (gpry/acquisition_functions.py:1287-1446)

IEEE arithmetic of infinities and NaN, exact arithmetic of numbers. Zeros have no sign, so that `0. ** p` for negative `p` is `inf` here (numpy: `-inf` for the
negative zero and odd `p`). One point, as `eval_gradient=True` requires of most operands.
-/

namespace GPry.AcqExt

open GPry Acq

/-- `k ** p` for a number `k` of an array of floats. Negative base: a number for integer exponents, NaN otherwise. -/
noncomputable def powR (k p : ℝ) : Ext ℝ :=
  open Classical in
  if 0 < k then .fin (k ^ p)
  else if k < 0 then (if ∃ m : ℤ, p = m then .fin (k ^ p) else .nan)
  else if p < 0 then .posInf else .fin (k ^ p)

/-- `K ** p`. `nan ** 0` is 1. `(-inf) ** 0.5` is NaN, since numpy takes the square root. -/
noncomputable def npPow (x : Ext ℝ) (p : ℝ) : Ext ℝ :=
  open Classical in
  match x with
  | .fin k => powR k p
  | .nan => if p = 0 then .fin 1 else .nan
  | .posInf => if 0 < p then .posInf else if p = 0 then .fin 1 else .fin 0
  | .negInf => if p = 1 / 2 then .nan else if 0 < p then (if ∃ m : ℤ, p = 2 * m + 1 then .negInf else .posInf) else if p = 0 then .fin 1 else .fin 0

/-- Value without gradient: 1302, 1323, 1445-1446, `ConstantAcqFunc` 464. -/
noncomputable def value {ι P : Type} (f : ι → P → Ext ℝ) : Expr ι → P → Ext ℝ
  | .leaf i, x => f i x
  | .const c, _ => .fin c
  | .sum a b, x => AcqPts.add (value f a x) (value f b x)
  | .prod a b, x => AcqPts.mul (value f a x) (value f b x)
  | .pow a p, x => npPow (value f a x) p

/-- Value and gradient (`eval_gradient=True`): 1297-1300, 1318-1321, 1440-1443, `ConstantAcqFunc` 464-466. -/
noncomputable def call {ι P : Type} {d : ℕ} (f : ι → P → Ext ℝ × (Fin d → Ext ℝ)) : Expr ι → P → Ext ℝ × (Fin d → Ext ℝ)
  | .leaf i, x => f i x
  | .const c, _ => (.fin c, fun _ => .fin 0)
  | .sum a b, x =>
    let (k1, g1) := call f a x
    let (k2, g2) := call f b x
    (AcqPts.add k1 k2, fun j => AcqPts.add (g1 j) (g2 j))
  | .prod a b, x =>
    let (k1, g1) := call f a x
    let (k2, g2) := call f b x
    (AcqPts.mul k1 k2, fun j => AcqPts.add (AcqPts.mul (g1 j) k2) (AcqPts.mul (g2 j) k1))
  | .pow a p, x =>
    let (k, g) := call f a x
    (npPow k p, fun j => AcqPts.mul (AcqPts.mul (g j) (.fin p)) (npPow k (p - 1)))

end GPry.AcqExt
