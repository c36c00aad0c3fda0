import Verif.Mpi
import Verif.Spmd
import Verif.Copy

set_option linter.all false

/-!
# `BatchOptimizer` (gpry/gp_acquisition.py:270-522)

The acquisition function, the local optimiser (`_constrained_optimization`) and the proposals drawn from the random generator are
arbitrary functions. Points are in the original coordinates: the local optimiser stands for transformation, optimisation, inverse
transformation. The state of the generator is left out: the proposals can be any function of the number of the point and of the
restart.
-/

namespace GPry.Batch

open GPry

inductive Err
  | valueError | indexError | stopIteration | typeError | unboundLocal
  | append (e : Gpr.Err)
deriving DecidableEq

section Search
variable {K : Type} [LT K] [DecidableLT K]

/-- The rest of `np.argmin`: position and value of the best up to now. -/
def argminGo : ℕ → ℕ → Ext K → List (Ext K) → ℕ
  | _, b, _, [] => b
  | i, b, bv, v :: l => if Ext.lt v bv then argminGo (i + 1) i v l else argminGo (i + 1) b bv l

/-- `np.argmin`: the first NaN if there is any, else the first minimum. (`none`: raises for an empty array) -/
def argmin : List (Ext K) → Option ℕ
  | [] => none
  | v :: l => some (match (v :: l).findIdx? Ext.isNan with
    | some i => i
    | none => argminGo 0 0 v (v :: l))

/-- `np.argmax` -/
def argmax [Neg K] (l : List (Ext K)) : Option ℕ := argmin (l.map Ext.neg)

/-- gp_acquisition.py:463-465. `none`: the index `-1` of an empty array raises in line 465. -/
def pick (l : List (Ext K)) : Option ℕ :=
  if l.any Ext.isFinite then argmin l else if l.length = 0 then none else some (l.length - 1)

end Search

/-! ## `optimize_acquisition_function` -/

/-- `G`: surrogates, `P`: points, `B`: bounds. -/
structure Env (G P B K : Type) where
  isIn : B → P → Bool
  train : G → List P
  acq : G → P → Ext K
  /-- `_constrained_optimization` of minus the acquisition function of a surrogate, from a starting point: the final point and value -/
  loc : G → P → B → P × Ext K
  /-- `self.bounds_` -/
  prior : B
  /-- `n_repeats_propose` -/
  nRep : ℕ

section Optimise
variable {G P B K : Type} [LT K] [DecidableLT K] [Neg K]

/-- gp_acquisition.py:357-373: the proposals with finite values, until there are more than `n_repeats_propose`. -/
def propose (acq : P → Ext K) (nRep : ℕ) : List P → List (P × Ext K) → List (P × Ext K)
  | [], acc => acc
  | x :: ps, acc =>
    if !(acq x).isFinite then propose acq nRep ps acc
    else
      let acc := acc ++ [(x, acq x)]
      if nRep < acc.length then acc else propose acq nRep ps acc

/-- gp_acquisition.py:270-385. `obj` is the surrogate of the stored objective function `self.obj_func`, `props` the `n_tries`
proposals. Returns also the objective function stored. -/
def optimise (e : Env G P B K) (obj : Option G) (g : G) (i : ℕ) (bounds : Option B) (props : List P) : Option G × Except Err (P × Ext K) :=
  let o := obj.getD g
  let use := bounds.getD e.prior
  (some o,
    if i = 0 then
      match bounds with
      | none => if (e.train g).length = 0 then .error .stopIteration else .error .typeError -- `is_in_bounds(X, None)`
      | some b =>
        match (e.train g).reverse.find? (e.isIn b) with
        | none => .error .stopIteration
        | some x0 => .ok (e.loc o x0 use)
    else
      let found := propose (e.acq g) e.nRep props []
      match argmax (found.map Prod.snd) with
      | some k =>
        match found[k]? with
        | some q => .ok (e.loc o q.1 use)
        | none => .error .indexError
      | none =>
        match props.getLast? with
        | some x => .ok (x, (e.acq g x).neg)
        | none => .error .unboundLocal)

/-- gp_acquisition.py:454-457: the restarts of one process, one after the other. -/
def rankLoop (e : Env G P B K) (g : G) (b : B) (props : ℕ → List P) : Option G → List ℕ → Option G × Except Err (List (P × Ext K))
  | obj, [] => (obj, .ok [])
  | obj, i :: is =>
    match optimise e obj g i (some b) (props i) with
    | (obj, .error err) => (obj, .error err)
    | (obj, .ok q) =>
      match rankLoop e g b props obj is with
      | (obj, .error err) => (obj, .error err)
      | (obj, .ok qs) => (obj, .ok (q :: qs))

end Optimise

/-! ## `multi_add` -/

/-- gp_acquisition.py:447-450, 455: the restarts of process `r` of `p`. -/
def myRestarts (p r n : ℕ) : List ℕ :=
  (List.range ((Mpi.splitNumber n p).getD r 0)).map fun i => i + ((Mpi.splitNumber n p).take r).sum

/-- What `multi_add` uses. `S` is the copy `gpr_` (with everything that may change). -/
structure Cfg (S P B K : Type) where
  env : Env S P B K
  /-- `n_restarts_optimizer` -/
  nRestarts : ℕ
  props : ℕ → ℕ → List P
  /-- `gpr_.predict(X_opt)` -/
  predict : S → P → Ext K
  /-- `gpr_.append_to_data` with a lie, `fit_gpr=False, fit_classifier=False` -/
  append : S → P → Ext K → Except Err S

/-- `(X_opt, y_lie, acq_val)` -/
abbrev Out (P K : Type) := P × Ext K × Ext K

section MultiAdd
variable {S P B K : Type} [LT K] [DecidableLT K] [Neg K]

/-- gp_acquisition.py:461-494, main process: `last` is `ipoint == n_points - 1`. -/
def choose (c : Cfg S P B K) (last : Bool) (s : S) (cands : List (P × Ext K)) : Except Err (S × Out P K) :=
  match pick (cands.map Prod.snd) with
  | none => .error .indexError
  | some k =>
    match cands[k]? with
    | none => .error .indexError
    | some (x, v) =>
      let lie := c.predict s x
      match (if last then .ok s else c.append s x lie) with
      | .error e => .error e
      | .ok s' => .ok (s', x, lie, v.neg)

/-- gp_acquisition.py:453-497 in a single process, `k` points to go (of `n`). -/
def serial (c : Cfg S P B K) (b : B) (n : ℕ) : ℕ → S → Except Err (S × List (Out P K))
  | 0, s => .ok (s, [])
  | k + 1, s =>
    match (rankLoop c.env s b (c.props (n - (k + 1))) none (List.range c.nRestarts)).2 with
    | .error e => .error e
    | .ok cands =>
      match choose c (k == 0) s cands with
      | .error e => .error e
      | .ok (s', out) =>
        match serial c b n k s' with
        | .error e => .error e
        | .ok (s'', outs) => .ok (s'', out :: outs)

/-- gp_acquisition.py:388-500 in a single process. `n_points` is any integer (other types: not modelled); `copy` is the deep copy. -/
def multiAdd (c : Cfg S P B K) (bounds : Option B) (nPoints : ℤ) (copy : S) : Except Err (S × List (Out P K)) :=
  if nPoints ≤ 0 then .error .valueError
  else serial c (bounds.getD c.env.prior) nPoints.toNat nPoints.toNat copy

open Spmd

/-- gp_acquisition.py:453-500, process `r` of `p`. All have the same `gpr_`; `acc` is filled in the main process. -/
def par (c : Cfg S P B K) (b : B) (n p r : ℕ) : ℕ → S → List (Out P K) → Prog Err (List (Out P K))
  | 0, _, acc => .bcast 0 acc .ret
  | k + 1, s, acc =>
    match (rankLoop c.env s b (c.props (n - (k + 1))) none (myRestarts p r c.nRestarts)).2 with
    | .error e => .raise e
    | .ok mine =>
      .gather mine fun
        | some all =>
          match choose c (k == 0) s all.flatten with
          | .error e => .raise e
          | .ok (s', out) => .bcast 0 (some s') fun
            | some s'' => par c b n p r k s'' (acc ++ [out])
            | none => .raise .typeError
        | none => .bcast 0 (none : Option S) fun
          | some s'' => par c b n p r k s'' acc
          | none => .raise .typeError

/-- gp_acquisition.py:388-500, process `r` of `p`. -/
def multiAddPar (c : Cfg S P B K) (bounds : Option B) (nPoints : ℤ) (copy : S) (p r : ℕ) : Prog Err (List (Out P K)) :=
  if nPoints ≤ 0 then .raise .valueError
  else .bcast 0 (if r = 0 then some copy else none) fun
    | some s => par c (bounds.getD c.env.prior) nPoints.toNat p r nPoints.toNat s []
    | none => .raise .typeError

end MultiAdd

/-! ## The surrogate and its copy -/

section Surrogate
variable {P PX Θ K B : Type} [Field K] [LinearOrder K]

/-- gp_acquisition.py:479-488: the call that appends a lie to the copy. `np.mean` of an array of noise levels. -/
def lieCall (st : Gpr.State P PX Θ K) (x : P) (lie : Ext K) : Gpr.Call P K :=
  { batch := some ([x], [lie]),
    noise := match st.noise with
      | .scalar _ => none
      | .array ks => some (.array [ks.sum / (ks.length : K)]),
    fit := .no, fitClf := false }

/-- `gpr_.append_to_data` where `S` is the pair of the surrogate passed to `multi_add` and its copy (they share preprocessors). -/
def appendLie (cfg : Gpr.Cfg P PX Θ K) (region : Option (List P → List (Ext K) → B)) (w : Copy.Pair P PX Θ K B) (x : P) (lie : Ext K) :
    Except Err (Copy.Pair P PX Θ K B) :=
  match (w.copy.append cfg region (lieCall w.copy.st x lie)).2 with
  | some e => .error (.append e)
  | none => .ok (w.append cfg region true (lieCall w.copy.st x lie))

end Surrogate

end GPry.Batch
