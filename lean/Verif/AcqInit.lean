import Verif.AcqObj
import Verif.Tools

set_option linter.all false

/-!
# Building acquisition objects (gpry/gp_acquisition.py:28-78, 208-268; gpry/acquisition_functions.py:78-85, 906-934 and the other constructors)
-/

namespace GPry.AcqInit

open GPry Cobaya AcqObj

inductive IErr
  | valueError | typeError | indexError
deriving DecidableEq, Repr

variable {K : Type} [Field K] [LinearOrder K]

/-! ## Constructors of the acquisition functions -/

/-- acquisition_functions.py:425, 490, 563, 634, 707, 787, 906: arguments (all optional) of the classes that can be built without operands. The
other attributes of the module are not classes, are abstract (`BaseLogExp`, 868), or fail without their compulsory arguments. -/
def sig : String → Option (List String)
  | "ConstantAcqFunc" => some ["constant_value", "fixed", "dimension"]
  | "Mu" => some ["a", "fixed", "dimension"]
  | "ExponentialMu" => some ["a", "fixed", "dimension"]
  | "Std" => some ["a", "fixed", "dimension"]
  | "ExponentialStd" => some ["a", "fixed", "dimension"]
  | "ExpectedImprovement" => some ["xi", "fixed", "dimension"]
  | "LogExp" => some ["zeta", "sigma_n", "fixed", "dimension", "zeta_scaling", "linear"]
  | "NonlinearLogExp" => some ["zeta", "sigma_n", "fixed", "dimension", "zeta_scaling", "linear"]
  | _ => none

def arg (d : Dict String (Pv K)) (k : String) (dflt : Pv K) : Pv K := (get d k).getD dflt

/-- 908-914 and 933-934: `auto n s` is `n ** (-s)` for the dimension `n`. -/
def zetaOf (auto : Ext K → Ext K → Ext K) (zeta dim scaling : Pv K) : Except IErr (Pv K) :=
  match zeta with
  | .none => match dim with
    | .none => .error .valueError
    | _ => match dim.norm, scaling.norm with
      | .num n, .num s => .ok (.num (auto n s))
      | _, _ => .error .typeError
  | z => .ok z

/-- `acq_func_class(**acq_func_args)`. Attributes that are not stored (`dimension`, `zeta_scaling`, `linear`) count as `None`. -/
def build (auto : Ext K → Ext K → Ext K) (name : String) (args : Dict String (Pv K)) : Except IErr (Af K) :=
  match sig name with
  | none => .error .typeError
  | some ps =>
    if args.any fun q => decide (q.1 ∉ ps) then .error .typeError
    else if "zeta" ∈ ps then
      match zetaOf auto (arg args "zeta" .none) (arg args "dimension" .none) (arg args "zeta_scaling" (.num (.fin (85 / 100)))) with
      | .error e => .error e
      | .ok z => .ok (.leaf name [("zeta".toList, z), ("sigma_n".toList, arg args "sigma_n" .none), ("fixed".toList, arg args "fixed" (.bool false)),
          ("dimension".toList, .none), ("zeta_scaling".toList, .none), ("linear".toList, .none)])
    else
      let p := ps.headD ""
      .ok (.leaf name [(p.toList, arg args p (.num (.fin (if p = "xi" then 1 / 100 else 1)))), ("fixed".toList, arg args "fixed" (.bool false)),
        ("dimension".toList, .none)])

/-! ## `GenericGPAcquisition.__init__`, gp_acquisition.py:41-78 -/

inductive Spec (K : Type)
  | inst (f : Af K)
  | str (s : String)
  | mapping (d : Dict String (Option (Dict String (Pv K))))
  | other

/-- 54-71: the function, and what the given mapping is afterwards: the arguments are a new dictionary if none were given, otherwise the one of the
user (52-53). -/
def fromMapping (auto : Ext K → Ext K → Ext K) (n : ℕ) (d : Dict String (Option (Dict String (Pv K)))) :
    Except IErr (Af K) × Dict String (Option (Dict String (Pv K))) :=
  match d with
  | [] => (.error .indexError, d)
  | (name, args) :: rest =>
    let given := args.getD []
    let used := put given ("dimension", .num (.fin (n : K)))
    ((match build auto name used with
      | .ok f => .ok f
      | .error _ => .error .valueError), if given = [] then d else (name, some used) :: rest)

def init (auto : Ext K → Ext K → Ext K) (n : ℕ) : Spec K → Except IErr (Af K)
  | .inst f => .ok f
  | .str s => (fromMapping auto n [(s, some [])]).1
  | .mapping d => (fromMapping auto n d).1
  | .other => .error .typeError

/-! ## `builtin_names` -/

/-- What decides about an attribute of a module: its name, its metaclass (`none` if it is not a class). -/
inductive Meta
  | abc | type
deriving DecidableEq

/-- acquisition_functions.py:55-63 and the classes of the module: all attributes that are classes. -/
def afMembers : List (String × Meta) :=
  [("ABCMeta", .type), ("AcquisitionFunction", .abc), ("AcquisitionFunctionOperator", .abc), ("BaseLogExp", .abc), ("ConstantAcqFunc", .abc),
   ("ExpectedImprovement", .abc), ("ExponentialMu", .abc), ("ExponentialStd", .abc), ("Exponentiation", .abc), ("Hyperparameter", .type),
   ("Iterable", .abc), ("LogExp", .abc), ("Mu", .abc), ("NonlinearLogExp", .abc), ("Product", .abc), ("Std", .abc), ("Sum", .abc)]

/-- acquisition_functions.py:78-85: `issubclass(obj.__class__, ABCMeta) and obj is not AcquisitionFunction` -/
def afNames : List String := (afMembers.filter fun q => q.2 = .abc && q.1 ≠ "AcquisitionFunction").map Prod.fst

/-- gp_acquisition.py:6-25 and the classes of the module. -/
def gpMembers : List (String × Meta) :=
  [("BatchOptimizer", .type), ("CentroidsProposer", .abc), ("GenericGPAcquisition", .type), ("NORA", .type), ("NumpyErrorHandling", .type),
   ("PartialProposer", .abc), ("Proposer", .abc), ("RankedPool", .type), ("UniformProposer", .abc), ("partial", .type)]

/-- gp_acquisition.py:28-35: the metaclass of `GenericGPAcquisition` is `type`, which has every metaclass as a subclass. -/
def gpNames : List String := (gpMembers.filter fun q => q.1 ≠ "GenericGPAcquisition").map Prod.fst

/-! ## Gradients and the optimizer -/

/-- An acquisition function with the attribute `hasgradient` of each object in it. -/
inductive GAf
  | leaf (g : Bool)
  | op (g : Bool) (a b : GAf)
  | pow (g : Bool) (a : GAf)
deriving DecidableEq

def GAf.has : GAf → Bool
  | .leaf g => g
  | .op g _ _ => g
  | .pow g _ => g

/-- 1208-1211 -/
def GAf.mkOp (a b : GAf) : GAf := .op (a.has && b.has) a b
/-- 1342-1345 -/
def GAf.mkPow (a : GAf) : GAf := .pow a.has a
/-- `set_params(k1=x)`: `setattr` (237) does not touch `hasgradient`. -/
def GAf.setK1 : GAf → GAf → GAf
  | .op g _ b, x => .op g x b
  | f, _ => f

/-- Whether every function in it can return its gradient. -/
def GAf.allLeaves : GAf → Bool
  | .leaf g => g
  | .op _ a b => a.allLeaves && b.allLeaves
  | .pow _ a => a.allLeaves

inductive Optimizer
  | str (s : String)
  | callable
deriving DecidableEq

/-- gp_acquisition.py:243-264 -/
def chooseOptimizer (f : GAf) : Optimizer → Except IErr Optimizer
  | .str s =>
    if s = "auto" then .ok (.str (if f.has then "fmin_l_bfgs_b" else "sampling"))
    else if s = "fmin_l_bfgs_b" then (if f.has then .ok (.str s) else .error .valueError)
    else if s = "sampling" then .ok (.str s)
    else .error .valueError
  | .callable => .ok .callable

end GPry.AcqInit
