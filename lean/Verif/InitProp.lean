import Verif.Cobaya
import Verif.Proposal
import Verif.Truth

set_option linter.all false

/-!
# The proposer of the initial points (gpry/run.py:406-444, 1122-1140; gpry/proposal.py:97-255)

Numbers are exact. Names are ASCII (`lower`). Random numbers come from arbitrary functions of the state of a generator. The deep copy of
the argument (run.py:414) is what makes the value given by the user never change: here the argument is a value.
-/

namespace GPry.InitProp

open GPry.Cobaya
open GPry.Proposal (Box ext uniformPoint)

inductive Err
  | typeError | valueError | indexError
deriving DecidableEq, Repr

/-- Values of options: `none`, a truth value, rows of bounds (as an array, or as a list of lists), a vector, or something else. -/
inductive Val (K : Type)
  | none
  | bool (b : Bool)
  | rows (array : Bool) (b : Box K)
  | vec (x : List K)
  | other
deriving DecidableEq, Repr

/-- The argument `initial_proposer`: an instance, a name, a mapping (with `None` or a mapping as values), or something else. -/
inductive Spec (K I : Type)
  | inst (i : I)
  | str (s : Str)
  | mapping (d : Dict Str (Option (Dict String (Val K))))
  | other

inductive Cls
  | reference | prior | uniform | meanCov
deriving DecidableEq, Repr

/-- A proposer. -/
inductive Made (K I : Type)
  | inst (i : I)
  | reference (bounds : Box K)
  | prior (bounds : Box K)
  | uniform (bounds : Box K)
  | meanCov (bounds : Box K) (mean : List K) (cov : Val K) (includeMean : Bool)
deriving DecidableEq, Repr

variable {K I : Type}

/-- `str.lower` -/
def lower (s : Str) : Str := s.map Char.toLower

/-- run.py:420-422 -/
def noSuffix (s : Str) : Str :=
  if (str "proposer").isSuffixOf (lower s) then (lower s).take ((lower s).length - (str "proposer").length) else lower s

/-- run.py:423-438: the class for a name. -/
def classOf (s : Str) : Option Cls :=
  if noSuffix s = str "reference" then some .reference
  else if noSuffix s = str "prior" then some .prior
  else if noSuffix s = str "uniform" then some .uniform
  else if noSuffix s = str "meancov" then some .meanCov
  else none

/-- The keywords of the constructors (proposal.py:107, 126, 145, 240), apart from the truth, which is given by position. -/
def Cls.keywords : Cls → List String
  | .reference => ["bounds"]
  | .prior => ["bounds"]
  | .uniform => ["bounds"]
  | .meanCov => ["bounds", "mean", "cov", "include_mean"]

/-- The ones without a default value. -/
def Cls.required : Cls → List String
  | .reference => []
  | .prior => []
  | .uniform => ["bounds"]
  | .meanCov => ["bounds", "mean", "cov"]

/-- Rows of bounds made with `np.atleast_2d`. Simplified: with other values the code raises only when the bounds are used. -/
def toBounds : Val K → Except Err (Box K)
  | .rows _ b => .ok b
  | _ => .error .typeError

/-- proposal.py:107-109, 126-128: `bounds if bounds is not None else truth.prior_bounds` -/
def boundsOr (prior : Box K) : Option (Val K) → Except Err (Box K)
  | none => .ok prior
  | some .none => .ok prior
  | some v => toBounds v

/-- proposal.py:148-154: `bounds[:, 0]` needs an array. -/
def arrayBounds : Val K → Except Err (Box K)
  | .rows true b => .ok b
  | _ => .error .typeError

/-- `not include_mean` -/
def truthy : Val K → Bool
  | .none => false
  | .bool b => b
  | .rows _ b => !b.isEmpty
  | .vec x => !x.isEmpty
  | .other => true

/-- proposal.py:240-246; `mvn mean cov`: scipy accepts the mean and the covariance matrix. Simplified: a mean that is not
a vector is refused, where scipy takes `None` as zeros and a number as a vector of one element. -/
def makeMeanCov (mvn : List K → Val K → Bool) (b m c : Val K) (inc : Option (Val K)) : Except Err (Made K I) :=
  match toBounds b with
  | .error e => .error e
  | .ok b => match m with
    | .vec m => if mvn m c then .ok (.meanCov b m c ((inc.map truthy).getD false)) else .error .valueError
    | _ => .error .valueError

/-- The body of the constructor of a class. -/
def body (prior : Box K) (mvn : List K → Val K → Bool) (args : Dict String (Val K)) : Cls → Except Err (Made K I)
  | .reference => match boundsOr prior (get args "bounds") with
    | .ok b => .ok (.reference b)
    | .error e => .error e
  | .prior => match boundsOr prior (get args "bounds") with
    | .ok b => .ok (.prior b)
    | .error e => .error e
  | .uniform => match get args "bounds" with
    | none => .error .typeError
    | some v => match arrayBounds v with
      | .ok b => .ok (.uniform b)
      | .error e => .error e
  | .meanCov => match get args "bounds", get args "mean", get args "cov" with
    | some b, some m, some c => makeMeanCov mvn b m c (get args "include_mean")
    | _, _, _ => .error .typeError

/-- The call of the constructor with keyword arguments. -/
def call (prior : Box K) (mvn : List K → Val K → Bool) (c : Cls) (args : Dict String (Val K)) : Except Err (Made K I) :=
  if args.any fun q => !c.keywords.contains q.1 then .error .typeError
  else if c.required.any fun k => !(args.map Prod.fst).contains k then .error .typeError
  else body prior mvn args c

/-- run.py:417-418 -/
def withBounds (prior : Box K) (args : Dict String (Val K)) : Dict String (Val K) :=
  if "bounds" ∈ args.map Prod.fst then args else args ++ [("bounds", .rows true prior)]

/-- run.py:415-438 for the first name and its arguments; `in` for `None` raises. -/
def construct1 (prior : Box K) (mvn : List K → Val K → Bool) (name : Str) : Option (Dict String (Val K)) → Except Err (Made K I)
  | none => .error .typeError
  | some args => match classOf name with
    | some c => call prior mvn c (withBounds prior args)
    | none => .error .valueError

/-- run.py:406-444 `_construct_initial_proposer`; `prior` are the prior bounds. -/
def construct (prior : Box K) (mvn : List K → Val K → Bool) : Spec K I → Except Err (Made K I)
  | .inst i => .ok (.inst i)
  | .str s => construct1 prior mvn s (some [])
  | .mapping [] => .error .indexError
  | .mapping (q :: _) => construct1 prior mvn q.1 q.2
  | .other => .error .typeError

/-! ## Proposals -/

variable [Field K] [LinearOrder K]

/-- The random numbers, and what instances of other classes return. -/
structure Src (K I G : Type) where
  /-- `truth.ref_sample` -/
  ref : G → List K × G
  /-- `truth.prior_sample` -/
  prior : G → List K × G
  /-- numbers in the unit interval -/
  unif : ℕ → G → List K × G
  /-- a point of the normal distribution with this mean and covariance -/
  normal : List K → Val K → G → List K × G
  inst : I → G → Truth.Arg K × G

/-- scipy: `rvs` of `multivariate_normal` removes axes of length one, and gives a number in one dimension. -/
def squeeze : List K → Truth.Arg K
  | [a] => .num a
  | l => .vec l

/-- tools.py:263-289 `is_in_bounds(x, bounds)[0]`; a number is compared with the bounds of every parameter. -/
def inBounds (b : Box K) : Truth.Arg K → Bool
  | .num a => b.all fun q => decide (q.1 ≤ a) && decide (a ≤ q.2)
  | .vec x => Tools.isInBounds (ext b) (x.map .fin)

/-- A proposer with its state: `used` is `_mean_used` (only of `MeanCovProposer`). -/
structure St (K I : Type) where
  p : Made K I
  used : Bool

/-- After the construction (proposal.py:242). -/
def St.init (p : Made K I) : St K I := ⟨p, match p with
  | .meanCov _ _ _ inc => !inc
  | _ => true⟩

/-- The undecorated `get` (proposal.py:111-113, 130-132, 158-159, 248-254); `main`: this is the main process. -/
def raw {G : Type} (R : Src K I G) (main : Bool) (s : St K I) (g : G) : Truth.Arg K × St K I × G :=
  match s.p with
  | .inst i => ((R.inst i g).1, s, (R.inst i g).2)
  | .reference _ => (.vec (R.ref g).1, s, (R.ref g).2)
  | .prior _ => (.vec (R.prior g).1, s, (R.prior g).2)
  | .uniform b => (.vec (uniformPoint b (R.unif b.length g).1), s, (R.unif b.length g).2)
  | .meanCov _ m c _ =>
    if s.used = false ∧ main = true then (.vec m, { s with used := true }, g)
    else (squeeze (R.normal m c g).1, { s with used := true }, (R.normal m c g).2)

/-- The bounds checked by the decorator `check_in_bounds`, if there is one. -/
def Made.checked : Made K I → Option (Box K)
  | .inst _ => none
  | .reference b => some b
  | .prior b => some b
  | .uniform _ => none
  | .meanCov b _ _ _ => some b

/-- proposal.py:29-40: the loop, at most `fuel` times. -/
def checkLoop {G : Type} (R : Src K I G) (main : Bool) (b : Box K) : ℕ → St K I → G → Option (Truth.Arg K × St K I × G)
  | 0, _, _ => none
  | n + 1, s, g =>
    let q := raw R main s g
    if inBounds b q.1 then some q else checkLoop R main b n q.2.1 q.2.2

/-- `get` -/
def getPoint {G : Type} (R : Src K I G) (main : Bool) (fuel : ℕ) (s : St K I) (g : G) : Option (Truth.Arg K × St K I × G) :=
  match s.p.checked with
  | some b => checkLoop R main b fuel s g
  | none => some (raw R main s g)

/-- run.py:1124-1140: proposals until one is within the prior bounds, at most `tries` times (each one of at most `fuel` draws). -/
def initialPoint {G : Type} (R : Src K I G) (main : Bool) (prior : Box K) (fuel : ℕ) : ℕ → St K I → G → Option (Truth.Arg K × St K I × G)
  | 0, _, _ => none
  | n + 1, s, g => match getPoint R main fuel s g with
    | none => none
    | some q => if inBounds prior q.1 then some q else initialPoint R main prior fuel n q.2.1 q.2.2

/-- run.py:1119-1143: `n` initial points of a process. -/
def initialPoints {G : Type} (R : Src K I G) (main : Bool) (prior : Box K) (fuel tries : ℕ) : ℕ → St K I → G → Option (List (Truth.Arg K) × St K I × G)
  | 0, s, g => some ([], s, g)
  | n + 1, s, g => match initialPoint R main prior fuel tries s g with
    | none => none
    | some q => match initialPoints R main prior fuel tries n q.2.1 q.2.2 with
      | none => none
      | some r => some (q.1 :: r.1, r.2)

end GPry.InitProp
