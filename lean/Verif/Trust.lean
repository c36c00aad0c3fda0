import Verif.Tools

set_option linter.all false

/-!
# Trust region (gpry/gpr.py:554-575)

`delta` is `delta_logp_of_1d_nstd(., d)` (tools.py:112-118), any function. The training set is a list of pairs of point and
(finite) target.
-/

namespace GPry.Trust

variable {K : Type*} [Field K] [LinearOrder K]

/-- gpr.py:568-571: the training points whose target is closer than the threshold to the maximum. -/
def select {d : ℕ} (delta : K → K) (tr : List ((Fin d → K) × K)) (nstd : K) : List ((Fin d → K) × K) :=
  match Tools.maxOf (tr.map Prod.snd) with
  | none => [] -- not reached: the loop is not entered without points
  | some top => tr.filter fun p => top - p.2 < delta nstd

/-- gpr.py:565-572: the loop. `none`: not finished after this many iterations. -/
def loop {d : ℕ} (delta : K → K) (tr : List ((Fin d → K) × K)) : ℕ → K → List ((Fin d → K) × K) → Option (List ((Fin d → K) × K))
  | 0, _, _ => none
  | fuel + 1, nstd, use =>
    if use.length < min d tr.length then loop delta tr fuel (nstd + 1 / 10) (select delta tr nstd)
    else some use

/-- tools.py:344-360 `shrink_bounds` (all the coordinates; the exception does not depend on the coordinate, and does not
occur in dimension zero). -/
def shrink {d : ℕ} (factor : K) (bounds : Fin d → K × K) (use : List (Fin d → K)) : Except Tools.TErr (Fin d → K × K) :=
  if use = [] ∧ 0 < d then .error .valueError
  else .ok fun j => match Tools.shrinkBounds factor (bounds j) (use.map (· j)) with
    | .ok b => b
    | .error _ => bounds j

/-- gpr.py:562-572: the points used. -/
def used {d : ℕ} (delta : K → K) (nstd : Option K) (tr : List ((Fin d → K) × K)) (fuel : ℕ) : Option (List ((Fin d → K) × K)) :=
  match nstd with
  | none => some tr
  | some s => loop delta tr fuel s []

/-- gpr.py:554-575 `update_trust_region`: the new value of `trust_bounds`. -/
def updateTrust {d : ℕ} (delta : K → K) (bounds : Fin d → K × K) (factor nstd : Option K) (tr : List ((Fin d → K) × K))
    (old : Option (Fin d → K × K)) (fuel : ℕ) : Option (Except Tools.TErr (Option (Fin d → K × K))) :=
  match factor with
  | none => some (.ok old)
  | some f =>
    match used delta nstd tr fuel with
    | none => none
    | some use => some (match shrink f bounds (use.map Prod.fst) with
      | .ok b => .ok (some b)
      | .error e => .error e)

end GPry.Trust
