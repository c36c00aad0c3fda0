import Verif.Gpr
import Verif.Predict

set_option linter.all false

/-!
# `copy.deepcopy` of the surrogate (gpry/gpr.py:1354-1433)

The copy is built by `__init__` with some of the arguments and then gets most of the attributes. The preprocessors are passed
by reference: original and copy share the same two objects, which `append_to_data` fits in place (gpr.py:705-707). In the
model every object holds the state of its preprocessors, and an append to one writes theirs to the other too. Arrays that are
not copied (noise levels) are never modified in place. Random generators are left out.
-/

namespace GPry.Copy

open Gpr

variable {P PX Θ K B : Type*} [Field K] [LinearOrder K]

/-- A regressor with the attributes that are used at prediction and are not in `Gpr.State`. -/
structure Obj (P PX Θ K B : Type*) where
  st : State P PX Θ K
  clip : K
  trust : Option B

/-- gpr.py:1354-1433. `clip_factor` (default 1.1, gpr.py:266) and `trust_bounds` (`None`, gpr.py:290) are not copied. -/
def Obj.deepcopy (o : Obj P PX Θ K B) : Obj P PX Θ K B := { o with clip := 11 / 10, trust := none }

/-- gpr.py:577-753 with the update of the trust region in the end (gpr.py:753, not reached if no finite point was added);
`region` is `none` if there is no trust region factor, else the function that computes the bounds. -/
def Obj.append (cfg : Cfg P PX Θ K) (region : Option (List P → List (Ext K) → B)) (o : Obj P PX Θ K B) (c : Call P K) :
    Obj P PX Θ K B × Option Err :=
  match Gpr.append cfg o.st c with
  | (st, some e) => ({ o with st := st }, some e)
  | (st, none) =>
    if st.nLastFinite = 0 ∧ (c.batch.isNone && c.fit != .no) = false then ({ o with st := st }, none)
    else match region with
      | none => ({ o with st := st }, none)
      | some f => ({ o with st := st, trust := some (f st.xTrain st.yTrain) }, none)

/-- The original and its copy. -/
structure Pair (P PX Θ K B : Type*) where
  orig : Obj P PX Θ K B
  copy : Obj P PX Θ K B

/-- The shared preprocessors. -/
def share (src dst : Obj P PX Θ K B) : Obj P PX Θ K B := { dst with st := { dst.st with px := src.st.px, py := src.st.py } }

/-- A call of `append_to_data` of the copy (`true`) or of the original. -/
def Pair.append (cfg : Cfg P PX Θ K) (region : Option (List P → List (Ext K) → B)) (w : Pair P PX Θ K B) (toCopy : Bool)
    (c : Call P K) : Pair P PX Θ K B :=
  if toCopy then
    let o := (w.copy.append cfg region c).1
    ⟨share o w.orig, o⟩
  else
    let o := (w.orig.append cfg region c).1
    ⟨o, share o w.copy⟩

/-- A history of calls, to either. -/
def Pair.run (cfg : Cfg P PX Θ K) (region : Option (List P → List (Ext K) → B)) (w : Pair P PX Θ K B) :
    List (Bool × Call P K) → Pair P PX Θ K B
  | [] => w
  | (b, c) :: l => (w.append cfg region b c).run cfg region l

/-- A history of calls to one object alone. -/
def Obj.run (cfg : Cfg P PX Θ K) (region : Option (List P → List (Ext K) → B)) (o : Obj P PX Θ K B) : List (Call P K) → Obj P PX Θ K B
  | [] => o
  | c :: l => ((o.append cfg region c).1).run cfg region l

/-- What predictions depend on (gpr.py:1104-1229): the factors and their training set, the hyperparameters, the two
preprocessors, the classifier, the training targets (for the ceiling), the clip factor, the trust bounds. -/
structure View (P PX Θ K B : Type*) where
  factors : Option (Factors P Θ K)
  theta : Option Θ
  px : PX
  py : PreY K
  svm : Svm K
  xTrain' : List P
  yTrain : List (Ext K)
  clip : K
  trust : Option B

def Obj.view (o : Obj P PX Θ K B) : View P PX Θ K B :=
  ⟨o.st.factors, o.st.theta, o.st.px, o.st.py, o.st.svm, o.st.xTrain', o.st.yTrain, o.clip, o.trust⟩

end GPry.Copy

namespace GPry.Predict

/-- gpr.py:1354-1433 for the model of `predict`. -/
noncomputable def St.deepcopy {d n : ℕ} (st : St d n) : St d n := { st with clip := some (11 / 10), trust := none }

end GPry.Predict
