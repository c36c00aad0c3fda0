import Verif.Nora
import Verif.Pool
import Verif.Mpi
import Verif.SpmdLemmas

set_option linter.all false

/-!
# `NORA.multi_add` run by several processes (gpry/gp_acquisition.py:857-919, 961-1191; gpry/mpi.py:105-131, 182-218)

Programs of `Spmd`, one per process. The points are lists of coordinates; the surrogate, the acquisition function and `numpy.argsort`
are arbitrary functions, the nested sampler is an arbitrary program (see `NsRun.lean` for those of the samplers). The
attributes of the object in each process are its `PState`. Logging and timing are left out.
-/

namespace GPry.NoraSpmd

open GPry Spmd Prog Nora Ranked

inductive AErr
  /-- `n_points` is not positive -/
  | valueError
  | zeroDivision
  /-- gp_acquisition.py:880-883 -/
  | noSamples
  /-- `max` of an empty array, gp_acquisition.py:914 -/
  | emptyMax
  | typeError
  | shape
  /-- of `do_MC_sample` -/
  | attributeError
  | notImplemented
  | indexError
  | pool (e : PErr)
deriving DecidableEq

/-- mpi.py:105-115 `step_split` in process `r` of `p`. `None` cannot be sliced. -/
def stepSplitP {α : Type} (p r : ℕ) (v : Option (List α)) : Prog AErr (List α) := do
  match ← share 0 v with
  | none => .raise .typeError
  | some l => .ret (Mpi.stepSplit p r l)

/-- mpi.py:118-131 `merge_step_split` -/
def mergeP {α : Type} (zero : α) (p : ℕ) (v : List α) : Prog AErr (Option (List α)) := do
  match ← collect v with
  | none => .ret none
  | some l =>
    match Mpi.mergeStepSplit zero p l with
    | some w => .ret (some w)
    | none => .raise .shape

section
variable {P : Type}

/-- mpi.py:182-205 `compute_y_parallel` with `y` and `sigma_y` equal to `None`, and `ensure_sigma_y=True`. -/
noncomputable def computeY (p r : ℕ) (pred : P → Ext ℝ × ℝ) (X : Option (List P)) : Prog AErr (Option (List (Ext ℝ)) × Option (List ℝ)) := do
  let _ ← share 0 (none : Option (List (Ext ℝ)))
  let mine ← stepSplitP p r X
  let y ← mergeP (.fin 0) p (mine.map fun x => (pred x).1)
  let s ← mergeP 0 p (mine.map fun x => (pred x).2)
  .ret (y, s)

end

variable {A V : Type} [DecidableEq A] [LinearOrder V] [BoundedOrder V]

/-- The attributes of NORA in one process: `mc_every_i`, the samples, and `_X_already_proposed`. -/
structure PState (A : Type) where
  i : ℕ
  mc : Mc (List A)
  proposed : List (List A)

/-- What a call of `multi_add` depends on, other than the state: `n_points`, `mc_every`, `force_resample`, the predictions of the surrogate
(mean and standard deviation), `is_in_bounds` for the bounds if given, the acquisition function, the conditioned one, the order in
which points are added to a pool (`np.argsort(acq)[::-1]`), and the numbers in empty slots of a pool. -/
structure Par (A V : Type) where
  n : ℕ
  m : ℕ
  force : Bool
  pred : List A → Ext ℝ × ℝ
  inB : Option (List A → Bool)
  acq : Ext ℝ → ℝ → Option V
  cfg : Cfg (List A) (Ext ℝ) V
  order : List (Cand (List A) (Ext ℝ) V) → List (Cand (List A) (Ext ℝ) V)
  x0 : List A
  a0 : V

/-- gp_acquisition.py:1019-1023 and 857-873: a new sample. `draw` is `do_MC_sample`, which gives points and weights in the main process. -/
noncomputable def newSample (p r : ℕ) (q : Par A V) (draw : Prog AErr (Option (List (List A) × Option (List ℝ)))) (s : PState A) :
    Prog AErr (PState A) := do
  let d ← draw
  let ys ← computeY p r q.pred (d.map Prod.fst)
  let orig := match d, ys with
    | some (X, w), (some y, some sg) => some { X := X, y := y, sigma := sg, w := w }
    | _, _ => none
  .ret { s with mc := { s.mc with orig := orig, isRe := false }, proposed := [] }

/-- gp_acquisition.py:899-919, main process, once `y` and `sigma_y` have been computed at the points of the old sample `X` within the bounds. -/
noncomputable def finishReweight (inB : Option (List A → Bool)) (s : Sample (List A)) (X : List (List A)) (y : List (Ext ℝ)) (sigma : List ℝ) :
    Except AErr (Reweighted (List A)) :=
  let w := List.zipWith mulE (oldWeights inB s X) ((List.zipWith Ext.sub y (within inB s.X s.y)).map expE)
  match Ext.pyMax w with
  | none => .error .emptyMax
  | some M =>
    let w := w.map fun v => divE v M
    .ok { X := drop0 w X, y := drop0 w y, sigma := drop0 w sigma, w := w.filter fun v => !Ext.eqv v (.fin 0) }

/-- gp_acquisition.py:875-919 `_reweight_last_MC_sample` -/
noncomputable def oldSample (p r : ℕ) (q : Par A V) (s : PState A) : Prog AErr (PState A) := do
  let e ← share 0 (if r = 0 ∧ s.mc.orig.isNone then some AErr.noSamples else none)
  match e with
  | some e => .raise e
  | none =>
    -- `_y_mc` is there if `_X_mc` is: no exception to share
    let _ ← share 0 (none : Option AErr)
    let X := if r = 0 then s.mc.orig.map fun o => within q.inB o.X o.X else none
    let ys ← computeY p r q.pred X
    match r, s.mc.orig, X, ys with
    | 0, some o, some X, (some y, some sg) =>
      match finishReweight q.inB o X y sg with
      | .error e => .raise e
      | .ok w => .ret { s with mc := { s.mc with re := some w, isRe := true } }
    | _, _, _, _ => .ret { s with mc := { s.mc with re := none, isRe := true } }

/-- gp_acquisition.py:1126-1191 `_parallel_rank_and_merge`, with `method="single sort acq"`, `merge_method="bulk"`, of the points of this process. -/
noncomputable def rankP (p r : ℕ) (q : Par A V) (mine : List (Cand (List A) (Ext ℝ) V)) : Prog AErr (Pool (List A) (Ext ℝ) V) := do
  let pool ← (match addMany q.cfg (Pool.init q.x0 (.fin 0) q.a0 q.n) (q.order mine) with
    | .error e => .raise (.pool e)
    | .ok pool => .ret pool : Prog AErr (Pool (List A) (Ext ℝ) V))
  if p ≤ 1 then .ret pool
  else do
    let gX ← collect (pool.X.take pool.len)
    let gy ← collect (pool.y.take pool.len)
    let gs ← collect (pool.sigma.take pool.len)
    let ga ← collect (pool.acq.take pool.len)
    let gc ← collect (pool.acqCond.take pool.len)
    let merged := match gX, gy, gs, ga, gc with
      | some X, some y, some s, some a, some c =>
        let mask := c.flatten.map isFin
        some (addBulk q.cfg (Pool.init q.x0 (.fin 0) q.a0 q.n) (Gpr.maskL mask X.flatten) (Gpr.maskL mask y.flatten)
          (Gpr.maskL mask s.flatten) (Gpr.maskL mask a.flatten))
      | _, _, _, _, _ => none
    match ← share 0 merged with
    | some P => .ret P
    | none => .raise .typeError

/-- gp_acquisition.py:1096-1100: what is returned, from the merged pool. -/
def output (q : Par A V) (P : Pool (List A) (Ext ℝ) V) : List (List A) × List (Ext ℝ) := P.result q.n

/-- gp_acquisition.py:1030-1046 and 1110-1125: what the main process splits. -/
def toSplit (s : PState A) : Option (List (List A)) × Option (List (Ext ℝ)) × Option (List ℝ) :=
  match s.mc.last with
  | none => (none, none, none)
  | some (X, y, sg, _) => (some (candidates X s.proposed X), some (candidates X s.proposed y), some (candidates X s.proposed sg))

/-- gp_acquisition.py:961-1108 `multi_add`, process `r` of `p`: the state afterwards, and the points and predictions returned. -/
noncomputable def multiAdd (p r : ℕ) (q : Par A V) (draw : Prog AErr (Option (List (List A) × Option (List ℝ)))) (s : PState A) :
    Prog AErr (PState A × List (List A) × List (Ext ℝ)) :=
  if q.n = 0 then .raise .valueError
  else if q.m = 0 then .raise .zeroDivision
  else do
    let s1 ← if sampleNow q.m s.i q.force then newSample p r q draw s else oldSample p r q s
    let t := if r = 0 then toSplit s1 else (none, none, none)
    let X ← stepSplitP p r t.1
    let y ← stepSplitP p r t.2.1
    let sg ← stepSplitP p r t.2.2
    sync
    let P ← rankP p r q ((X.zip (y.zip sg)).map fun c => (c.1, c.2.1, .fin c.2.2, q.acq c.2.1 c.2.2))
    sync
    let out := output q P
    .ret ({ s1 with i := s.i + 1, proposed := s1.proposed ++ out.1 }, out)

end GPry.NoraSpmd
