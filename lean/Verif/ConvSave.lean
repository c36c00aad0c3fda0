import Verif.ConvMc

set_option linter.all false

/-!
# Copies and pickles of the GaussianKL criteria (gpry/convergence.py:430-472, 527-540; gpry/mc.py:99-107; gpry/io.py:146-147)

`__getstate__` (used by `pickle`) and `__deepcopy__` first replace the likelihood stored in the input for Cobaya, a function that
cannot be pickled, *in the object itself*, and copy afterwards. The attributes used by `is_converged` are those of
`ConvMc.State`; the two dictionaries are represented by their block `likelihood`.
-/

namespace GPry.ConvSave

/-- The value of the key `external` of a likelihood: a function (local, cannot be pickled), or `True`. -/
inductive External
  | function
  | true_
deriving DecidableEq, Repr

/-- Exceptions of copies: `KeyError`, `IndexError`. -/
inductive Err
  | key
  | index
deriving DecidableEq, Repr

/-- The block `likelihood` of an input for Cobaya: names and values of `external`. -/
abbrev Block := List (String × External)

/-- A criterion: `cobaya_input` (`none`: `None`), `_last_info` (`none`: the empty dictionary), everything else. -/
structure Obj (S : Type*) where
  core : S
  input : Option Block
  info : Option Block

/-- convergence.py:535, 537: `block[like]["external"] = True`; `KeyError` if there is no such likelihood. -/
def mark (like : String) (b : Block) : Except Err Block :=
  if b.any (fun q => decide (q.1 = like)) then .ok (b.map fun q => if q.1 = like then (q.1, .true_) else q)
  else .error .key

/-- convergence.py:533-537: what is done to the object itself before the copy. -/
def clean {S : Type*} (o : Obj S) : Except Err (Obj S) :=
  match o.input with
  | none => .ok o
  | some [] => .error .index
  | some ((like, e) :: b) =>
    match mark like ((like, e) :: b) with
    | .error e => .error e
    | .ok b' => match o.info with
      | none => .ok { o with input := some b' }
      | some i => match mark like i with
        | .error e => .error e
        | .ok i' => .ok { o with input := some b', info := some i' }

/-- convergence.py:531-540 `__deepcopy__`: the object afterwards, and the copy. (The attribute `log` is left out; these classes
have none.) -/
def deepcopy {S : Type*} (o : Obj S) : Except Err (Obj S × Obj S) :=
  match clean o with
  | .error e => .error e
  | .ok o' => .ok (o', o')

/-- What a call does with the MCMC sampler: nothing, a run that fails, a run that succeeds. -/
inductive Mcmc
  | no
  | failed
  | done
deriving DecidableEq, Repr

/-- mc.py:107: the block written by `cobaya_generate_gp_model_input`; and what `model.info()` returns for it
(convergence.py:468). -/
def gpBlock : Block := [("gp", .function)]

/-- convergence.py:416, 436-438, 465-468: `cobaya_input` is set before the sampler runs, `_last_info` once it has succeeded. -/
def setInput {S : Type*} (core : S) (o : Obj S) : Mcmc → Obj S
  | .no => { o with core := core }
  | .failed => { o with core := core, input := some gpBlock }
  | .done => { core := core, input := some gpBlock, info := some gpBlock }

/-- A call of `is_converged`, for a criterion whose calls are `step` and run MCMC as `mcmc` says. -/
def call {S I O : Type*} (step : S → I → S × O) (mcmc : S → I → Mcmc) (o : Obj S) (i : I) : Obj S × O :=
  (setInput (step o.core i).1 o (mcmc o.core i), (step o.core i).2)

/-- What happens to a criterion: calls, copies (of which the copy is used from then on: `resume`, or the original: `save`). -/
inductive Op (I : Type*)
  | call (i : I)
  | save
  | resume

/-- A history; the outcomes of the calls. An exception in a copy ends it. -/
def run {S I O : Type*} (step : S → I → S × O) (mcmc : S → I → Mcmc) : Obj S → List (Op I) → Except Err (Obj S × List O)
  | o, [] => .ok (o, [])
  | o, .call i :: l =>
    match run step mcmc (call step mcmc o i).1 l with
    | .error e => .error e
    | .ok r => .ok (r.1, (call step mcmc o i).2 :: r.2)
  | o, .save :: l => match deepcopy o with
    | .error e => .error e
    | .ok c => run step mcmc c.1 l
  | o, .resume :: l => match deepcopy o with
    | .error e => .error e
    | .ok c => run step mcmc c.2 l

/-- The calls of a history. -/
def calls {I : Type*} : List (Op I) → List I
  | [] => []
  | .call i :: l => i :: calls l
  | _ :: l => calls l

/-- convergence.py:295-328: a new criterion. -/
def new {S : Type*} (core : S) : Obj S := ⟨core, none, none⟩

/-- `pickle` works: no functions are stored. -/
def Picklable {S : Type*} (o : Obj S) : Prop :=
  (∀ b, o.input = some b → ∀ q ∈ b, q.2 = .true_) ∧ (∀ b, o.info = some b → ∀ q ∈ b, q.2 = .true_)

section
variable {K : Type*} [Field K] [LinearOrder K] {d : ℕ}

/-- Whether a call of `GaussianKL` (and of the criteria that inherit `_get_new_mean_and_cov`) runs MCMC. -/
def mcmcOf (P : ConvMc.Par d K) (s : ConvMc.State d K) (c : ConvMc.Call d K) : Mcmc :=
  let ran (cov : Option (Cov.CovMat d K)) : Mcmc := match c.mcmc (ConvMc.proposal P s cov) with
    | none => .failed
    | some _ => .done
  match c.acq with
  | some _ => .no
  | none => match s.coll with
    | none => ran none
    | some coll => match ConvMc.tryReuse P s c coll with
      | .error _ => .no
      | .ok (true, _) => .no
      | .ok (false, m) => ran (some m.cov)

/-- A history of `GaussianKL`. -/
def gaussian (P : ConvMc.Par d K) (h : List (Op (ConvMc.Call d K))) :
    Except Err (Obj (ConvMc.State d K) × List (Except ConvMc.Exc Bool)) :=
  run (ConvMc.step P) (mcmcOf P) (new ConvMc.State.init) h

end

end GPry.ConvSave
