import Verif.Cobaya
import Verif.SpmdLemmas

set_option linter.all false

/-!
# Setting up a `Runner` (gpry/run.py:306-519), the final MC sample (1594-1745) and fiducial data (1354-1457)

Values of options are elements of an arbitrary type `V`, instances of one `I`. The constructors of the classes are functions that
may fail.
-/

namespace GPry.Setup

open GPry Cobaya

inductive SErr
  | typeError | valueError | indexError | keyError
deriving DecidableEq, Repr

variable {V I : Type}

/-- `for k, v in defaults.items(): if k not in d: d[k] = v` -/
def addDefaults (d defs : Dict String V) : Dict String V := defs.foldl (fun d q => if q.1 ∈ d.map Prod.fst then d else d ++ [q]) d

/-! ## The regressor (run.py:306-355) -/

inductive GprSpec (V I : Type)
  | inst (i : I)
  | str (s : String)
  | mapping (d : Dict String V)
  | none

/-- run.py:316-326: names of the defaults. -/
def gprNames : List String := ["kernel", "n_restarts_optimizer", "preprocessing_X", "preprocessing_y", "bounds", "random_state", "verbose",
  "account_for_inf", "inf_threshold"]

/-- run.py:335-341: rounding down to a multiple of the number of processes. -/
def roundRestarts (size n : ℕ) : ℕ := if size < n ∧ n % size ≠ 0 then (n / size) * size else n

/-- run.py:330-355: the number of restarts of a completed dictionary. -/
def finishGpr (size : ℕ) (parse : V → Except SErr ℕ) (num : ℕ → V) (e : Dict String V) : Except SErr (I ⊕ Dict String V) :=
  match get e "n_restarts_optimizer" with
  | .none => .error .keyError
  | some v => match parse v with
    | .error x => .error x
    | .ok n => .ok (.inr (put e ("n_restarts_optimizer", num (roundRestarts size n))))

/-- run.py:306-355: the instance, or the arguments for a new one. `parse` is `get_Xnumber(…, "d", d, int)` (natural numbers only),
`str` and `num` make values of strings and numbers. -/
def constructGpr (size : ℕ) (dflt : String → V) (parse : V → Except SErr ℕ) (str : String → V) (num : ℕ → V) :
    GprSpec V I → Except SErr (I ⊕ Dict String V)
  | .inst i => .ok (.inl i)
  | .str s => finishGpr size parse num (addDefaults [("kernel", str s)] (gprNames.map fun k => (k, dflt k)))
  | .mapping d => finishGpr size parse num (addDefaults d (gprNames.map fun k => (k, dflt k)))
  | .none => .error .typeError

/-! ## The acquisition (run.py:357-404) -/

inductive AcqSpec (V I : Type)
  | inst (i : I)
  | none
  | str (s : String)
  | mapping (d : Dict String (Option (Dict String V)))
  | other

/-- run.py:379-384 -/
def acqNames : List String := ["bounds", "preprocessing_X", "acq_func", "verbose"]

/-- run.py:376-404 with the first key and its value; `isFunc`: the name is one of an acquisition function, `known`: that of a class of
acquisitions, `func n`: the value `{n: {}}`. Constructors that raise are not modelled. -/
def constructAcq1 (dflt : String → V) (isFunc known : String → Bool) (func : String → V) (name : String) (args : Option (Dict String V)) :
    Except SErr (I ⊕ String × Dict String V) :=
  let q : String × Option (Dict String V) := if isFunc name then ("BatchOptimizer", some [("acq_func", func name)]) else (name, args)
  if known q.1 then .ok (.inr (q.1, addDefaults (q.2.getD []) (acqNames.map fun k => (k, dflt k)))) else .error .valueError

/-- run.py:357-404 -/
def constructAcq (dflt : String → V) (isFunc known : String → Bool) (func : String → V) : AcqSpec V I → Except SErr (I ⊕ String × Dict String V)
  | .inst i => .ok (.inl i)
  | .none => constructAcq1 dflt isFunc known func "BatchOptimizer" (some [])
  | .str s => constructAcq1 dflt isFunc known func s (some [])
  | .mapping [] => .error .indexError
  | .mapping (q :: _) => constructAcq1 dflt isFunc known func q.1 q.2
  | .other => .error .typeError

/-! ## Convergence criteria (run.py:446-504) -/

/-- A value in a mapping. -/
inductive CVal (V I : Type)
  | inst (i : I)
  | args (d : Option (Dict String V))

/-- An entry of a sequence. -/
inductive CItem (I : Type)
  | inst (i : I)
  | name (s : String)
  | dict
  | other

inductive CSpec (V I : Type)
  | false
  | none
  | mapping (d : Dict String (CVal V I))
  | seq (l : List (CItem I))
  | single (c : CItem I)

/-- A criterion: the instance passed, or a new one. -/
inductive Built (V I : Type)
  | inst (i : I)
  | made (name : String) (args : Dict String V)

/-- run.py:488-504 for a name with arguments: `make` tells whether the constructor accepts them. If they are an instance, it raises
(`params.get`). -/
def makeCrit (known : String → Bool) (make : String → Dict String V → Bool) (name : String) (v : CVal V I) : Except SErr (Built V I) :=
  if known name then
    match v with
    | .inst _ => .error .valueError
    | .args d => if make name (d.getD []) then .ok (.made name (d.getD [])) else .error .valueError
  else .error .valueError

/-- run.py:476-487 for an entry of a sequence. -/
def makeItem (known : String → Bool) (make : String → Dict String V → Bool) : CItem I → Except SErr (Built V I)
  | .inst i => .ok (.inst i)
  | .name s => makeCrit known make s (.args .none)
  | .dict => .error .typeError
  | .other => .error .typeError

/-- run.py:452-457: the defaults; `pol` are the values of the policies. -/
def defaultCrit (pol : String → V) (acqHasMc : Bool) : Dict String (CVal V I) :=
  ("CorrectCounter", .args (some [("policy", pol "s")])) ::
    if acqHasMc then [("GaussianKL", .args (some [("policy", pol "s")])), ("TrainAlignment", .args (some [("policy", pol "n")]))] else []

/-- run.py:446-504 -/
def constructConv (known : String → Bool) (make : String → Dict String V → Bool) (pol : String → V) (acqHasMc : Bool) :
    CSpec V I → Except SErr (List (Built V I))
  | .false => .ok [.made "DontConverge" []]
  | .none => (defaultCrit pol acqHasMc).mapM fun q => makeCrit known make q.1 q.2
  | .mapping d => d.mapM fun q => makeCrit known make q.1 q.2
  | .seq l => l.mapM (makeItem known make)
  | .single c => [c].mapM (makeItem known make)

/-- What a process holds: a criterion, or a dummy (convergence.py:205-223). -/
inductive Held (V I : Type)
  | crit (c : Built V I)
  | dummy

open Spmd Prog in
/-- run.py:769-774: the loop over the criteria. -/
def shareLoop : List Bool → List (Held V I) → Prog SErr (List (Held V I))
  | b :: bs, h :: hs => do
    let h' ← (if b then share 0 h else ret h)
    let hs' ← shareLoop bs hs
    pure (h' :: hs')
  | _, hs => pure hs

open Spmd Prog in
/-- run.py:764-774, with a list `bs` received or not -/
def shareAll (r : ℕ) (mine : List (Built V I)) : Option (List Bool) → Prog SErr (List (Held V I))
  | .none => raise .typeError
  | some bs => shareLoop bs (if r = 0 then mine.map .crit else List.replicate bs.length .dummy)

open Spmd Prog in
/-- run.py:758-774 `_share_convergence_from_main` -/
def shareConv (aware : Built V I → Bool) (r : ℕ) (mine : List (Built V I)) : Prog SErr (List (Held V I)) := do
  let aw ← share 0 (if r = 0 then some (mine.map aware) else none)
  shareAll r mine aw

open Spmd Prog in
/-- run.py:269-273 and 758-774: the main process makes the criteria, then they are shared; `aware` tells which are. -/
def setupConv (p : ℕ) (construct : Except SErr (List (Built V I))) (aware : Built V I → Bool) (r : ℕ) : Prog SErr (List (Held V I)) := do
  let mine ← (if r = 0 then Prog.fin construct else ret [])
  if p ≤ 1 then pure (mine.map .crit) else shareConv aware r mine

/-! ## The final MC sample (run.py:506-519, 1594-1745) -/

inductive MSpec (V : Type)
  | none
  | str (s : String)
  | mapping (d : Dict String (Option (Dict String V)))
  | other

/-- run.py:506-519 `_construct_mc_options` -/
def mcOptions : MSpec V → Except SErr (Dict String (Option (Dict String V)))
  | .none => .ok []
  | .str s => .ok [(s, some [])]
  | .mapping d => if 1 < d.length then .error .typeError else .ok d
  | .other => .error .typeError

inductive Backend
  | nested
  | cobaya (name : String)
deriving DecidableEq, Repr

/-- run.py:1649-1666: the sampler and its options, and the dictionary that the argument refers to, afterwards. `nlive` is the value
`50 * d`. `{}` and `None` are replaced by a new dictionary (`or {}`), others are changed in place. -/
def chooseSampler (nlive : V) (d : Dict String (Option (Dict String V))) :
    Except SErr ((Backend × Dict String V) × Dict String (Option (Dict String V))) :=
  match d with
  | [] => .error .indexError
  | (name, o) :: rest =>
    let opts := o.getD []
    if name.toLower = "nested" then
      if "nlive" ∈ opts.map Prod.fst then .ok ((.nested, opts), d)
      else .ok ((.nested, opts ++ [("nlive", nlive)]), if opts = [] then d else (name, some (opts ++ [("nlive", nlive)])) :: rest)
    else .ok ((.cobaya name.toLower, opts), d)

/-- run.py:1594-1666 `generate_mc_sample`, up to the call of the sampler: `mc` is what `_construct_mc_options` stored. -/
def generate (fitted : Bool) (mc : Dict String (Option (Dict String V))) (nlive : V) (sampler : MSpec V) (addOptions : Bool) :
    Except SErr ((Backend × Dict String V) × Dict String (Option (Dict String V))) :=
  if !fitted then .error .valueError
  else
    let go (d : Dict String (Option (Dict String V))) :=
      match d with
      | [] => .error .indexError
      | _ :: _ => if addOptions then .error .valueError else chooseSampler nlive d
    match sampler with
    | .none => go mc
    | .str s => go [(s, some [])]
    | .mapping d => go d
    | .other => .error .valueError

/-! ### Reading it (run.py:1716-1745) -/

/-- Values in the dictionary: nothing, a vector, a table (list of points). -/
inductive Col (K : Type)
  | none
  | vec (l : List K)
  | mat (l : List (List K))
deriving DecidableEq, Repr

/-- `len`; that of `None` raises. -/
def Col.len {K : Type} : Col K → Option ℕ
  | .none => Option.none
  | .vec l => some l.length
  | .mat l => some l.length

/-- `X.T` for `n` columns. -/
def columns {K : Type} (X : List (List K)) (n : ℕ) : List (List K) := (List.range n).map fun j => X.filterMap fun x => x[j]?

/-- run.py:1731-1732: weights, if there are none. -/
def fillWeights {K : Type} [One K] (d : Dict String (Col K)) : Dict String (Col K) × Option SErr :=
  match get d "w" with
  | .none => (d, some .keyError)
  | some .none => match get d "logpost" with
    | .none => (d, some .keyError)
    | some y => match y.len with
      | .none => (d, some .typeError)
      | some n => (put d ("w", .vec (List.replicate n 1)), none)
  | some _ => (d, none)

/-- run.py:1733-1736: the points replaced by one column per parameter. -/
def splitX {K : Type} (params : List String) (d : Dict String (Col K)) : Dict String (Col K) × Option SErr :=
  match get d "X" with
  | .none => (d, some .keyError)
  | some (.mat X) => (update (pop d "X") ((params.zip (columns X params.length)).map fun q => (q.1, .vec q.2)), none)
  | some _ => (pop d "X", some .typeError)

/-- run.py:1730-1736: the dictionary after the changes made to it (then made into a table), also if they raise. -/
def toPandas {K : Type} [One K] (params : List String) (d : Dict String (Col K)) : Dict String (Col K) × Option SErr :=
  match fillWeights d with
  | (d1, some e) => (d1, some e)
  | (d1, none) => splitX params d1

/-- run.py:1716-1745 `last_mc_samples(copy, as_pandas)`: the result and the stored sample afterwards. -/
def lastMc {K : Type} [One K] (params : List String) (copy asPandas : Bool) (stored : Option (Dict String (Col K))) :
    Except SErr (Option (Dict String (Col K))) × Option (Dict String (Col K)) :=
  if asPandas then
    match stored with
    | .none => (.error .typeError, .none)
    | some d =>
      (match toPandas params d with
        | (_, some e) => .error e
        | (d', none) => .ok (some d'),
        if copy then some d else some (toPandas params d).1)
  else (.ok stored, stored)

/-! ## Fiducial data (run.py:1354-1457) -/

structure Fid (P : Type) where
  X : Option P
  logpost : Option (Ext ℝ)
  loglike : Option (Ext ℝ)

/-- An argument that should be a number. -/
inductive Num
  | num (v : Ext ℝ)
  | other

/-- run.py:1354-1398 `set_fiducial_point`: what is stored afterwards (also if it raises) and whether it raises. `okX`: the shape of
`X` is right. -/
noncomputable def setPoint {P : Type} (logprior : P → Ext ℝ) (s : Fid P) (X : P) (okX : Bool) (lp ll : Option Num) : Fid P × Option SErr :=
  if !okX then (s, some .typeError)
  else
    let s : Fid P := { s with X := some X }
    match lp, ll with
    | some _, some _ => (s, some .typeError)
    | some (.num v), none => ({ s with logpost := some v, loglike := some (v.sub (logprior X)) }, none)
    | none, some (.num v) => ({ s with loglike := some v, logpost := some (Truth.add v (logprior X)) }, none)
    | some .other, none => (s, some .typeError)
    | none, some .other => (s, some .typeError)
    | none, none => (s, none)

structure FidMC (P : Type) where
  X : Option (List P)
  w : Option (List ℝ)
  logpost : Option (List (Ext ℝ))
  loglike : Option (List (Ext ℝ))

/-- run.py:1400-1457, the weights. -/
def setW {P : Type} (s : FidMC P) (X : List P) : Option (List ℝ) → FidMC P × Option SErr
  | none => (s, none)
  | some w => if w.length ≠ X.length then (s, some .typeError) else ({ s with w := some w }, none)

/-- run.py:1400-1457 `set_fiducial_MC`. -/
noncomputable def setMC {P : Type} (logprior : P → Ext ℝ) (s : FidMC P) (X : List P) (okX : Bool) (lp ll : Option (List (Ext ℝ))) (w : Option (List ℝ)) :
    FidMC P × Option SErr :=
  if !okX then (s, some .typeError)
  else
    let s : FidMC P := { s with X := some X }
    match setW s X w with
    | (s, some e) => (s, some e)
    | (s, none) => match lp, ll with
      | some _, some _ => (s, some .typeError)
      | some v, none => if v.length ≠ X.length then (s, some .typeError)
        else ({ s with logpost := some v, loglike := some (List.zipWith Ext.sub v (X.map logprior)) }, none)
      | none, some v => if v.length ≠ X.length then (s, some .typeError)
        else ({ s with loglike := some v, logpost := some (List.zipWith Truth.add v (X.map logprior)) }, none)
      | none, none => (s, none)

end GPry.Setup
