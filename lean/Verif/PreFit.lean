import Verif.Gpr

set_option linter.all false

/-!
# What a call of `append_to_data` fits, and what it returns (gpry/gpr.py)
-/

namespace GPry.Gpr

variable {P PX Θ K : Type*} [Field K] [LinearOrder K]

/-- What a call returns: the regressor itself, or `None`. -/
inductive Ret
  | self | none
deriving DecidableEq, Repr

/-- gpr.py:577-753 with the value returned: there is a `return self` where no finite point was added (gpr.py:740-741), and nothing is returned in the
end (gpr.py:753). -/
def appendRet (cfg : Cfg P PX Θ K) (st : State P PX Θ K) (c : Call P K) : State P PX Θ K × Except Err Ret :=
  match append cfg st c with
  | (st', some e) => (st', .error e)
  | (st', none) => (st', .ok (if st'.nLastFinite = 0 ∧ (c.batch.isNone && c.fit != .no) = false then .self else .none))

end GPry.Gpr
