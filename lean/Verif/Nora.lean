import Verif.Ext
import Mathlib.Analysis.SpecialFunctions.Log.Basic

set_option linter.all false

/-!
# NORA: schedule, reuse and reweighting of the MC sample (gpry/gp_acquisition.py:857-1080)

The nested sampler, the surrogate and the pool are arbitrary functions (the pool is modelled in `Pool.lean`). Everything here
happens in the main process; the collective calls in between are modelled in `Mpi.lean` and `Spmd.lean`.
-/

namespace GPry.Nora

/-! ## Removal of the points already proposed (gp_acquisition.py:1032-1046) -/

section Removal
variable {A : Type*} [DecidableEq A]

/-- `np.all(np.isin(X_mc, X_i), axis=1)` for one row: is every coordinate equal to *some* coordinate of `x`? For
`assume_unique=True` we assume the (correct) result that numpy's comparison loop gives, used for a small number of
dimensions. -/
def isinRow (r x : List A) : Bool := r.all fun c => decide (c ∈ x)

/-- `np.flatnonzero(...)`, and `[0]` if there are any -/
def firstMatch (X : List (List A)) (x : List A) : Option ℕ := X.findIdx? fun r => isinRow r x

/-- `i_already_proposed` -/
def excluded (X proposed : List (List A)) : List ℕ := proposed.filterMap (firstMatch X)

/-- `np.delete(l, idx, axis=0)` -/
def deleteIdx {B : Type*} (l : List B) (idx : List ℕ) : List B :=
  (l.zipIdx.filter fun q => decide (q.2 ∉ idx)).map Prod.fst

/-- gp_acquisition.py:1035-1046: the candidates left (the same indices are deleted from `X`, `y` and `sigma_y`). -/
def candidates {B : Type*} (X proposed : List (List A)) (l : List B) : List B :=
  if proposed.length = 0 then l else deleteIdx l (excluded X proposed)

end Removal

/-! ## Calls of `multi_add` -/

inductive NErr
  | noSamples
  | zeroDivision
deriving DecidableEq

/-- What a call of `multi_add` depends on. `draw`: the points of the new MC sample, `keep`: the points that survive the
reweighting (within bounds and with a non-zero weight), `sel`: the points of the pool chosen among the candidates. -/
structure Call (A : Type*) where
  force : Bool
  draw : List (List A)
  keep : List A → Bool
  sel : List (List A) → List (List A)

/-- `mc_every_i`, `_X_mc` and `_X_already_proposed`; as set by `__init__` (gp_acquisition.py:608, 634; `_X_already_proposed` is set by the first call, which draws a sample). -/
structure State (A : Type*) where
  i : ℕ
  base : Option (List (List A))
  proposed : List (List A)

/-- What one call did. -/
structure Rec (A : Type*) where
  new : Bool
  sample : List (List A)
  cands : List (List A)
  out : List (List A)

section Calls
variable {A : Type*} [DecidableEq A]

/-- gp_acquisition.py:1017 -/
def sampleNow (m i : ℕ) (force : Bool) : Bool := !(i % m != 0) || force

/-- gp_acquisition.py:1017-1080, with `mc_every = m`. -/
def multiAdd (m : ℕ) (s : State A) (c : Call A) : Except NErr (State A × Rec A) :=
  if m = 0 then .error .zeroDivision
  else
    let new := sampleNow m s.i c.force
    match (if new then some (c.draw, c.draw) else s.base.map fun b => (b, b.filter c.keep)) with
    | none => .error .noSamples
    | some (base, sample) =>
      let proposed := if new then [] else s.proposed
      let cands := candidates sample proposed sample
      let out := c.sel cands
      .ok ({ i := s.i + 1, base := some base, proposed := proposed ++ out }, { new, sample, cands, out })

/-- A history of calls. -/
def runCalls (m : ℕ) : State A → List (Call A) → Except NErr (State A × List (Rec A))
  | s, [] => .ok (s, [])
  | s, c :: cs =>
    match multiAdd m s c with
    | .error e => .error e
    | .ok (s', r) =>
      match runCalls m s' cs with
      | .error e => .error e
      | .ok (s'', rs) => .ok (s'', r :: rs)

/-- gp_acquisition.py:608, 634: the state after `__init__`. -/
def init : State A := { i := 0, base := none, proposed := [] }

end Calls

/-! ## Reweighting (gp_acquisition.py:875-919) -/

/-- `np.exp` -/
noncomputable def expE : Ext ℝ → Ext ℝ
  | .negInf => .fin 0
  | .fin a => .fin (Real.exp a)
  | .posInf => .posInf
  | .nan => .nan

/-- Product with a finite number. -/
noncomputable def mulE (w : ℝ) : Ext ℝ → Ext ℝ
  | .fin a => .fin (w * a)
  | .posInf => if 0 < w then .posInf else if w < 0 then .negInf else .nan
  | .negInf => if 0 < w then .negInf else if w < 0 then .posInf else .nan
  | .nan => .nan

/-- IEEE division (a zero divisor is `+0`). -/
noncomputable def divE (a : Ext ℝ) : Ext ℝ → Ext ℝ
  | .fin c => a.divFin c
  | .nan => .nan
  | _ => match a with
    | .fin _ => .fin 0
    | _ => .nan

/-- `a[mask]` -/
def sel {B : Type*} (mask : List Bool) (l : List B) : List B := ((mask.zip l).filter fun q => q.1).map Prod.snd

/-- gp_acquisition.py:893-897, 905-907: the entries of an array at the points of the sample within the bounds, if given. -/
def within {P B : Type*} (inB : Option (P → Bool)) (X : List P) (l : List B) : List B :=
  match inB with
  | none => l
  | some f => sel (X.map f) l

/-- tools.py:400-418 `remove_0_weight_samples`, for one array -/
noncomputable def drop0 {B : Type*} (w : List (Ext ℝ)) (l : List B) : List B :=
  ((w.zip l).filter fun q => !Ext.eqv q.1 (.fin 0)).map Prod.snd

/-- `_X_mc`, `_y_mc`, `_sigma_y_mc`, `_w_mc` -/
structure Sample (P : Type*) where
  X : List P
  y : List (Ext ℝ)
  sigma : List ℝ
  w : Option (List ℝ)

/-- `_X_mc_reweight`, `_y_mc_reweight`, `_sigma_y_mc_reweight`, `_w_mc_reweight` -/
structure Reweighted (P : Type*) where
  X : List P
  y : List (Ext ℝ)
  sigma : List ℝ
  w : List (Ext ℝ)

/-- gp_acquisition.py:904-912: the old weights of the points `X` within the bounds -/
noncomputable def oldWeights {P : Type*} (inB : Option (P → Bool)) (s : Sample P) (X : List P) : List ℝ :=
  match s.w with
  | none => X.map fun _ => 1
  | some w => within inB s.X w

inductive RErr
  | noSamples
  | noY
  | emptyMax
deriving DecidableEq

/-- gp_acquisition.py:890-919. `pred` is `gpr.predict` at one point (mean and standard deviation; that the computation in parallel gives
the same is `Mpi.C04`), `inB` is `is_in_bounds` for the bounds, if given. -/
noncomputable def reweight {P : Type*} (pred : P → Ext ℝ × ℝ) (inB : Option (P → Bool)) (s : Sample P) : Except RErr (Reweighted P) :=
  let X := within inB s.X s.X
  let y := X.map fun x => (pred x).1
  let sigma := X.map fun x => (pred x).2
  let yOld := within inB s.X s.y
  let w0 := oldWeights inB s X
  let w := List.zipWith mulE w0 ((List.zipWith Ext.sub y yOld).map expE)
  match Ext.pyMax w with
  | none => .error .emptyMax
  | some M =>
    let w := w.map fun v => divE v M
    .ok { X := drop0 w X, y := drop0 w y, sigma := drop0 w sigma, w := w.filter fun v => !Ext.eqv v (.fin 0) }

/-- The attributes of NORA that hold samples: the one drawn last, and the reweighted one (`none` before any reweighting). -/
structure Mc (P : Type*) where
  orig : Option (Sample P)
  re : Option (Reweighted P)
  isRe : Bool

/-- gp_acquisition.py:857-873 `_set_MC_sample`: `y`, `sigma_y` computed. -/
def Mc.set {P : Type*} (m : Mc P) (pred : P → Ext ℝ × ℝ) (X : List P) (w : Option (List ℝ)) : Mc P :=
  { m with orig := some { X := X, y := X.map fun x => (pred x).1, sigma := X.map fun x => (pred x).2, w := w }, isRe := false }

/-- gp_acquisition.py:875-919 `_reweight_last_MC_sample` -/
noncomputable def Mc.reweight {P : Type*} (m : Mc P) (pred : P → Ext ℝ × ℝ) (inB : Option (P → Bool)) : Except RErr (Mc P) :=
  match m.orig with
  | none => .error .noSamples
  | some s =>
    match Nora.reweight pred inB s with
    | .error e => .error e
    | .ok r => .ok { m with re := some r, isRe := true }

/-- gp_acquisition.py:921-944 `last_MC_sample` -/
def Mc.last {P : Type*} (m : Mc P) : Option (List P × List (Ext ℝ) × List ℝ × Option (List (Ext ℝ))) :=
  if m.isRe then m.re.map fun r => (r.X, r.y, r.sigma, some r.w)
  else m.orig.map fun s => (s.X, s.y, s.sigma, s.w.map fun w => w.map Ext.fin)

/-! ## Value for UltraNest (gp_acquisition.py:784-794) -/

/-- The value that replaces minus infinity. -/
noncomputable def ultraMinf : Ext ℝ := .fin (-1e-300)

end GPry.Nora
