import Mathlib.Data.List.Basic

/-!
# Model of `gpry/mpi.py` and of the parallel evaluation of the true posterior

Simplifications: a "world" is a number of processes `p`; a collective call is a function of the list of
the per-rank inputs. Numpy arrays are lists of rows; `np.zeros` placeholders are an arbitrary value
`zero`.
-/

namespace GPry.Mpi

variable {α β : Type*}

/-- `np.ceil(n / n_proc)` of mpi.py:98 (`n`, `n_proc` non-negative integers). -/
def ceilDiv (n p : ℕ) : ℕ := (n + (p - 1)) / p

/-- mpi.py:98-100: the flat array of slots, `n` ones followed by zeros up to a multiple of `p`. -/
def slots (n p : ℕ) : List ℕ := List.replicate n 1 ++ List.replicate (ceilDiv n p * p - n) 0

/-- mpi.py:80-102 `split_number_for_parallel_processes`: reshape to `(rows, p)` (C order, so entry
`(i, j)` is flat entry `i * p + j`) and sum over axis 0. -/
def splitNumber (n p : ℕ) : List ℕ :=
  (List.range p).map fun j =>
    ((List.range (ceilDiv n p)).map fun i => (slots n p).getD (i * p + j) 0).sum

/-- Number of elements of the numpy slice `[r::s]` of an array of length `n`. -/
def strideLen (n r s : ℕ) : ℕ := ceilDiv (n - r) s

/-- numpy strided slice `values[r::s]`, as used in mpi.py:115. -/
def stride (s r : ℕ) (xs : List α) : List α :=
  (List.range (strideLen xs.length r s)).filterMap fun i => xs[r + i * s]?

/-- mpi.py:105-115 `step_split`, as seen by rank `r` of `p` (the broadcast hands every rank the main
process' array). -/
def stepSplit (p r : ℕ) (values : List α) : List α :=
  if p ≤ 1 then values else stride p r values

/-- numpy assignment `m[r::s] = v` (mpi.py:129): lengths must agree, except that a length-1 right hand
side is broadcast; otherwise numpy raises `ValueError` (here `none`). -/
def assignStride (s r : ℕ) (v m : List α) : Option (List α) :=
  if v.length = strideLen m.length r s then
    some (m.mapIdx fun j x => if r ≤ j ∧ (j - r) % s = 0 then v.getD ((j - r) / s) x else x)
  else if v.length = 1 then
    some (m.mapIdx fun j x => if r ≤ j ∧ (j - r) % s = 0 then v.getD 0 x else x)
  else none

/-- mpi.py:128-129: loop `for i, v in enumerate(values_step): merged[i::SIZE] = v`. -/
def mergeLoop (p : ℕ) : ℕ → List (List α) → List α → Option (List α)
  | _, [], m => some m
  | i, v :: vs, m => (assignStride p i v m).bind (mergeLoop p (i + 1) vs)

/-- mpi.py:118-131 `merge_step_split` as seen by the main process of `p`, given what it gathers (the
list of per-rank arrays). With a single process it returns its argument. -/
def mergeStepSplit (zero : α) (p : ℕ) (gathered : List (List α)) : Option (List α) :=
  if p ≤ 1 then gathered.head?
  else mergeLoop p 0 gathered (List.replicate (gathered.map List.length).sum zero)

/-! ### Parallel evaluation of the true posterior, run.py:1200-1236 -/

/-- run.py:1207-1210: the points that rank `r` evaluates. -/
def evalChunk (p r : ℕ) (X : List α) : List α :=
  let ns := splitNumber X.length p
  let n := ns.getD r 0
  let i := (ns.take r).sum
  (X.drop i).take n

/-- run.py:1200-1236 `_eval_truth_parallel`. Returns, for each rank, the sequence of points at which
that rank calls the true posterior, and the array `new_y` that the rank ends up with (gathered in rank
order by the main process, then broadcast). -/
def evalTruthParallel (f : α → β) (p : ℕ) (X : List α) : List (List α × List β) :=
  let calls := (List.range p).map fun r => evalChunk p r X
  let perRank := calls.map fun xs => xs.map f
  let newY := perRank.flatten
  calls.map fun xs => (xs, newY)

/-! ### `compute_y_parallel`, mpi.py:182-218 -/

/-- Execution environment: `mpi4py` missing (then `comm = None`, `SIZE = 1`, mpi.py:18-28) or present
with `p` processes (mpi.py:7-17). -/
inductive Env
  | noMpi
  | mpi (p : ℕ)

/-- `mpi.SIZE`. -/
def Env.size : Env → ℕ
  | .noMpi => 1
  | .mpi p => p

/-- Errors that the modelled code can raise. -/
inductive Err
  /-- `AttributeError: 'NoneType' object has no attribute 'bcast'` -/
  | attributeError
  /-- numpy shape mismatch in an assignment -/
  | shapeMismatch
deriving DecidableEq, Repr

/-- mpi.py:182-218, as seen by the main process. `predict` is the surrogate's `predict`/`predict_std`
(an array function), `y`/`sigma` the optional precomputed values on the main process.
Result `(y, sigma_y)` of rank 0. -/
def computeYParallel (zero : β) (env : Env) (predictY predictStd : List α → List β)
    (X : List α) (y sigma : Option (List β)) (ensureSigma : Bool) :
    Except Err (Option (List β) × Option (List β)) :=
  let p := env.size
  -- what the main process gets after splitting, evaluating (nothing evaluated for empty chunks),
  -- and merging (mpi.py:192-205, 209-217)
  let par (g : List α → List β) : Except Err (List β) :=
    let chunks := (List.range p).map fun r => stepSplit p r X
    let vals := chunks.map fun c => if 0 < c.length then g c else []
    match mergeStepSplit zero p vals with
    | some v => .ok v
    | none => .error .shapeMismatch
  match y with
  | none =>
    match par predictY, ensureSigma with
    | .error e, _ => .error e
    | .ok yv, false => .ok (some yv, none)
    | .ok yv, true =>
      match par predictStd with
      | .error e => .error e
      | .ok sv => .ok (some yv, some sv)
  | some yv =>
    -- mpi.py:207 `sigma_y = comm.bcast(sigma_y)`, not guarded by `multiple_processes`
    match env with
    | .noMpi => .error .attributeError
    | .mpi _ =>
      match sigma, ensureSigma with
      | none, true =>
        match par predictStd with
        | .error e => .error e
        | .ok sv => .ok (some yv, some sv)
      | s, _ => .ok (some yv, s)

end GPry.Mpi
