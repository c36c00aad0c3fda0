import Verif.Copy
import Verif.GprFit

set_option linter.all false

/-!
# Attributes that summarise the training set, and the trust region along histories (gpry/gpr.py)
-/

namespace GPry.GprAttr

open GPry.Gpr (Err State Cfg Call)
open GPry.Copy (Obj)

section
variable {K : Type} [Field K] [LinearOrder K] {P PX Θ B : Type}

/-- gpr.py:404-414 `n`, and 416-421 `n_finite`. -/
def n (st : State P PX Θ K) : ℕ := st.yTrain.length

/-- gpr.py:399-402 `y_max`: `y_train` always exists (gpr.py:375), so that the value given in case it does not is never used; the
maximum of an empty array raises. -/
def yMax (st : State P PX Θ K) : Except Err (Ext K) :=
  match Ext.npMax st.yTrain with
  | none => .error .valueError
  | some m => .ok m

/-- gpr.py:490-497 `training_set_as_df`: the rows of the table (coordinates, `y`, `is_finite`). `trained` tells whether the classifier
was fitted. -/
def rows (cfg : Cfg P PX Θ K) (trained : Bool) (st : State P PX Θ K) : Except Err (List (P × Ext K × Bool)) :=
  match GprFit.isFinite cfg.useSvm st.py st.svm trained st.yAll with
  | .error e => .error e
  | .ok f => if st.xAll.length = st.yAll.length ∧ f.length = st.yAll.length then .ok (st.xAll.zip (st.yAll.zip f)) else .error .valueError

/-- Successive calls of `append_to_data` (gpr.py:577-753), stopping at the first exception. -/
def runObj (cfg : Cfg P PX Θ K) (region : Option (List P → List (Ext K) → B)) : Obj P PX Θ K B → List (Call P K) → Option (Obj P PX Θ K B)
  | o, [] => some o
  | o, c :: cs => match o.append cfg region c with
    | (o', none) => runObj cfg region o' cs
    | (_, some _) => none

end

end GPry.GprAttr
