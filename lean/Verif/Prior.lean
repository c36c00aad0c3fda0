import Verif.Truth

set_option linter.all false

/-!
# Samples of the prior and of the reference distribution (gpry/truth.py 157-163)

`rng.uniform(low, high)` is `low + (high - low) * u`, with numbers `u` in [0, 1) drawn by the generator (an argument here); it
raises `OverflowError` if a difference is not finite and `ValueError` if it is negative (NumPy). Exact arithmetic.
-/

namespace GPry.Prior

open GPry GPry.Truth

inductive SErr
  | overflowError | valueError
deriving DecidableEq, Repr

/-- The difference `high - low`, if finite. -/
def width (b : Ext ℝ × Ext ℝ) : Option (ℝ × ℝ) :=
  match b.1, b.2 with
  | .fin lo, .fin hi => some (lo, hi)
  | _, _ => none

def widths : List (Ext ℝ × Ext ℝ) → Option (List (ℝ × ℝ))
  | [] => some []
  | b :: bs =>
    match width b, widths bs with
    | some q, some qs => some (q :: qs)
    | _, _ => none

/-- `rng.uniform(low, high)` for arrays. -/
noncomputable def uniform (bounds : List (Ext ℝ × Ext ℝ)) (u : List ℝ) : Except SErr (List ℝ) :=
  match widths bounds with
  | none => .error .overflowError
  | some qs =>
    open Classical in
    if ∃ q ∈ qs, q.2 < q.1 then .error .valueError
    else .ok (List.zipWith (fun q u => q.1 + (q.2 - q.1) * u) qs u)

/-- truth.py:157-159 `prior_sample` -/
noncomputable def priorSample (t : Truth) (u : List ℝ) : Except SErr (List ℝ) := uniform t.bounds u

/-- truth.py:161-163 `ref_sample`; `ref` is `_ref_bounds_default_prior`, as set by `setRef` (truth.py 69-87): pairs. -/
noncomputable def refSample (ref : List (Ext ℝ × Ext ℝ)) (u : List ℝ) : Except SErr (List ℝ) := uniform ref u

end GPry.Prior
