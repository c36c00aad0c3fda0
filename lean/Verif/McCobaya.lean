import Verif.McSamp
import Mathlib.Algebra.Order.Field.Rat

set_option linter.all false

/-!
# Sampling the surrogate with Cobaya (gpry/mc.py:27-40, 106-325)

What is passed to Cobaya, and what is returned. The construction of the input of the model (`cobaya_generate_gp_model_input`, in
Cobaya.lean) and of the model itself are an argument: the names of its parameters, or the exception. Covariance matrices are of any type
`C` with a test of validity, values of options of any type `V`. Simplified: `output` is a path or `None`; names are changed to lower case
letter by letter; the sampler does not fail.
-/

namespace GPry.McCobaya

open GPry Cobaya

inductive CbErr
  | moduleNotFound | valueError | typeError | keyError | fromModel
deriving DecidableEq, Repr

/-- The argument `verbose`: booleans are numbers. -/
inductive Verb
  | none
  | num (q : ℚ)
  | other

/-- mc.py:27-40 `get_cobaya_log_level`, with the numbers of the module `logging` -/
def logLevel : Verb → Except CbErr ℕ
  | .none => .ok 20
  | .num q => if q = 3 then .ok 20 else if 3 < q then .ok 10 else if q = 2 then .ok 30 else if q = 1 then .ok 40
      else if q < 1 then .ok 50 else .error .valueError
  | .other => .error .typeError

/-- `verbose >= 2` -/
def Verb.ge2 : Verb → Except CbErr Bool
  | .num q => .ok (decide (2 ≤ q))
  | _ => .error .typeError

/-- Values in the block of the sampler. -/
inductive Opt (C V : Type)
  | bool (b : Bool)
  | nat (n : ℕ)
  | cov (c : Option C)
  | names (l : List Str)
  | user (v : V)
deriving DecidableEq

section
variable {C V : Type}

/-- mc.py:147 `cov is None or not is_valid_covmat(cov)` -/
def noCov (valid : C → Bool) : Option C → Bool
  | none => true
  | some c => !valid c

/-- mc.py:146 -/
def baseOpts : Dict Str (Opt C V) := [(str "measure_speeds", .bool false), (str "max_tries", .nat 100000)]

/-- mc.py:146, 154-155; the last one is `cov_params or list(model.prior.params)`. -/
def covOpts (cov : Option C) (covParams : Option (List Str)) (modelParams : List Str) : Dict Str (Opt C V) :=
  [(str "measure_speeds", .bool false), (str "max_tries", .nat 100000), (str "covmat", .cov cov),
   (str "covmat_params", .names (if covParams.getD [] = [] then modelParams else covParams.getD []))]

/-- mc.py:146-156: the block made by `mcmc_info_from_run`; its key is `mcmc`. -/
def mcmcBlock (valid : C → Bool) (cov : Option C) (covParams : Option (List Str)) (modelParams : List Str) (verbose : Verb) :
    Except CbErr (Dict Str (Opt C V)) :=
  if noCov valid cov then
    match verbose.ge2 with
    | .error x => .error x
    | .ok g => if g then .ok baseOpts else .ok (covOpts cov covParams modelParams)
  else .ok (covOpts cov covParams modelParams)

/-- The arguments, and what is read from the checkpoint if `gpr` is a path (`acq`, `conv`: the attribute `cov` of the acquisition object and
of each of the convergence criteria). -/
structure Call (C V : Type) where
  installed : Bool := true
  /-- `none`: not a string -/
  sampler : Option Str := some (str "mcmc")
  options : Option (Dict Str V) := none
  /-- `none`: not loaded; otherwise whether it has been fitted -/
  gpr : Option Bool := some true
  model : Except CbErr (List Str)
  params : Option (List Str) := none
  covmat : Option C := none
  covmatParams : Option (List Str) := none
  acq : Option (Option C) := none
  conv : Option (List (Option C)) := none
  output : Option Str := none
  run : Bool := true
  resume : Bool := false
  verbose : Verb := .num 3

/-- `getattr(convergence, "cov", None)`: `convergence` is a list, without that attribute. -/
def convCov (_ : List (Option C)) : Option C := none

/-- mc.py:263-278: the matrix and the names of its parameters -/
def chooseCov (c : Call C V) : Option C × Option (List Str) :=
  match c.covmat with
  | some m => (some m, match c.covmatParams with
    | some p => some p
    | none => c.params)
  | none =>
    let a := c.acq.join
    (match a, c.conv with
      | none, some l => convCov l
      | a, _ => a, c.params)

/-- Key of the dictionary returned as `surr_info["sampler"]`. -/
inductive Key
  | name (s : Str)
  | object
deriving DecidableEq

structure Built (C V : Type) where
  debug : ℕ
  /-- the argument of `get_sampler` -/
  input : Dict Str (Dict Str (Opt C V))
  /-- arguments of `get_output`: prefix, `resume`, `force` -/
  out : Option (Str × Bool × Bool)
  ran : Bool
  /-- `surr_info["sampler"]` -/
  info : Dict Key (Dict Str (Opt C V))

/-- mc.py:279-304: the block of the sampler before the options given -/
def blockOf (valid : C → Bool) (name : Str) (cov : Option C × Option (List Str)) (ps : List Str) (verbose : Verb) :
    Except CbErr (Dict Str (Dict Str (Opt C V))) :=
  if lower name = str "mcmc" then
    match mcmcBlock valid cov.1 cov.2 ps verbose with
    | .error x => .error x
    | .ok b => .ok [(str "mcmc", b)]
  else if lower name = str "polychord" then .ok [(str "polychord", [(str "measure_speeds", .bool false)])]
  else .ok [(name, [(str "measure_speeds", .bool false)])]

/-- mc.py:173-325 `mc_sample_from_gp_cobaya`; `sampler.info()` is taken to be the block given. -/
def sample (valid : C → Bool) (c : Call C V) : Except CbErr (Built C V) :=
  if !c.installed then .error .moduleNotFound
  else match c.sampler, c.gpr with
    | none, _ => .error .valueError
    | _, none => .error .valueError
    | _, some false => .error .valueError
    | some name, some true => match c.model with
      | .error x => .error x
      | .ok ps => match logLevel c.verbose with
        | .error x => .error x
        | .ok debug => match blockOf valid name (chooseCov c) ps c.verbose with
          | .error x => .error x
          | .ok d => match get d name with
            | none => .error .keyError
            | some b =>
              let b' := update b ((c.options.getD []).map fun q => (q.1, .user q.2))
              .ok { debug := debug, input := put d (name, b'), out := c.output.map fun o => (o, c.resume, !c.resume), ran := c.run,
                    info := [(.object, b')] }

end

end GPry.McCobaya
