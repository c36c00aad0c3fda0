import Verif.Slices
import Verif.Progress
import Verif.Cred

set_option linter.all false

/-!
# Figures (gpry/plots.py 165-411, 679-744, 1039-1157; gpry/progress.py 166-239)

Which panels are used, and what is computed for them. Drawing is not modelled. `plt.subplots` (default `squeeze=True`) gives one set of axes, or an array
with one or with two indices.
-/

namespace GPry.Fig

open GPry.Cobaya (Str)
open GPry.Slices (Slices)
open GPry.Progress (Table Row Col)

inductive Err
  | typeError | valueError | indexError | keyError | attributeError
deriving DecidableEq, Repr

/-! ## Panels -/

/-- What `plt.subplots` returns as axes. -/
inductive Axes
  | single
  | arr1 (n : ℕ)
  | arr2 (rows cols : ℕ)
deriving DecidableEq, Repr

/-- `plt.subplots(nrows=r, ncols=c)` -/
def subplots (r c : ℕ) : Except Err Axes :=
  if r = 0 ∨ c = 0 then .error .valueError
  else if r = 1 ∧ c = 1 then .ok .single
  else if r = 1 then .ok (.arr1 c)
  else if c = 1 then .ok (.arr1 r)
  else .ok (.arr2 r c)

/-- `axes[i].plot(...)`: the panel. A set of axes has no index; a row of an array is not a set of axes. -/
def Axes.at1 : Axes → ℕ → Except Err ℕ
  | .single, _ => .error .typeError
  | .arr1 n, i => if i < n then .ok i else .error .indexError
  | .arr2 r _, i => if i < r then .error .attributeError else .error .indexError

/-- `axes[i, j].plot(...)`: the panel. -/
def Axes.at2 : Axes → ℕ → ℕ → Except Err (ℕ × ℕ)
  | .single, _, _ => .error .typeError
  | .arr1 _, _, _ => .error .indexError
  | .arr2 r c, i, j => if i < r ∧ j < c then .ok (i, j) else .error .indexError

/-! ## Slices of a function (plots.py:165-243) -/

/-- plots.py:210-224: labels along x and y. `none` is anything that is not a sequence. -/
def labelsOf (params : List String) : Option (List String) → Except Err (List String × Option String)
  | none => .ok (params, none)
  | some [] => .ok (params, none)
  | some [y] => .ok (params, some y)
  | some ls =>
    if ls.length = params.length then .ok (ls, none)
    else if ls.length = params.length + 1 then .ok (ls.dropLast, ls.getLast?)
    else .error .valueError

/-- plots.py:234-242: `axes` is not a `Sequence`, also if it is an array, and becomes the only element of a list. Drawing of slice `j`. -/
def funcPanel (a : Axes) (j : ℕ) : Except Err ℕ :=
  match j with
  | 0 => match a with
    | .single => .ok 0
    | _ => .error .attributeError
  | _ + 1 => .error .indexError

/-- What is drawn for a slice: panel, points of the curve, labels. -/
structure Curve (K Y : Type) where
  panel : ℕ
  xs : List K
  ys : List (Option Y)
  xlabel : String
  ylabel : Option String

/-- plots.py:235-242: the loop over slices: position, index, coordinates, values, label. -/
def funcLoop {K Y : Type} (a : Axes) (yl : Option String) : ℕ → List (ℤ × List (List K) × List (Option Y) × String) → Except Err (List (Curve K Y))
  | _, [] => .ok []
  | j, (i, xs, ys, l) :: rest => do
    let p ← funcPanel a j
    let cs ← funcLoop a yl (j + 1) rest
    -- `Xs[j, :, i]`
    pure (⟨p, xs.filterMap fun x => (Slices.pyPos x.length i).bind fun k => x[k]?, ys, l, yl⟩ :: cs)

/-- plots.py:207-243 `plot_slices_func`, after `prepare_slices_func` (C115). -/
def plotFunc {K Y : Type} (s : Slices K Y) (labels : Option (List String)) : Except Err (List (Curve K Y)) := do
  let (xl, yl) ← labelsOf s.params labels
  let a ← subplots 1 s.indices.length
  funcLoop a yl 0 (s.indices.zip (s.Xs.zip (s.ys.zip xl)))

/-! ## Slices at several points (plots.py:246-306) -/

section many

variable {K : Type} [Field K] [LinearOrder K]

/-- `min(y)`, `max(y)` -/
def minOf : List K → Option K
  | [] => none
  | a :: l => some (l.foldl min a)

def maxOf : List K → Option K
  | [] => none
  | a :: l => some (l.foldl max a)

/-- plots.py:271-272 `norm_y`; NaN (`none`) if all values are the same. -/
def normY (lo hi y : K) : Option K := if hi - lo = 0 then none else some ((y - lo) / (hi - lo))

/-- plots.py:280-296, the loops over parameters and points: parameter, point, panels of the surrogate and the acquisition function, colour. -/
def manyLoop (a : Axes) (col : K → Option K) : List (ℕ × ℕ × K) → Except Err (List (ℕ × ℕ × (ℕ × ℕ) × (ℕ × ℕ) × Option K))
  | [] => .ok []
  | (i, j, y) :: rest => do
    let p0 ← a.at2 0 i
    let p1 ← a.at2 1 i
    let l ← manyLoop a col rest
    pure ((i, j, p0, p1, col y) :: l)

/-- plots.py:255-306 `plot_slices` for `d` parameters and points with the values `ys`. -/
def plotSlices (d : ℕ) (ys : List K) : Except Err (List (ℕ × ℕ × (ℕ × ℕ) × (ℕ × ℕ) × Option K)) := do
  let a ← subplots 2 d
  match minOf ys, maxOf ys with
  | some lo, some hi =>
    manyLoop a (normY lo hi) ((List.range d).flatMap fun i => ys.zipIdx.map fun q => (i, q.2, q.1))
  | _, _ => .error .valueError

end many

/-! ## Slices at a reference point (plots.py:309-411) -/

section reference

variable {d : ℕ}

/-- Sum of squares, for numbers that are not negative, `inf` or NaN -/
noncomputable def addE : Ext ℝ → Ext ℝ → Ext ℝ
  | .nan, _ => .nan
  | _, .nan => .nan
  | .fin a, .fin b => .fin (a + b)
  | .posInf, .negInf => .nan
  | .negInf, .posInf => .nan
  | .posInf, _ => .posInf
  | _, .posInf => .posInf
  | .negInf, _ => .negInf
  | _, .negInf => .negInf

noncomputable def sumE (l : List (Ext ℝ)) : Ext ℝ := l.foldr addE (.fin 0)

/-- plots.py:343 `((t - x) / x) ** 2` -/
noncomputable def relSq (t x : ℝ) : Ext ℝ := if x = 0 then (if t = 0 then .nan else .posInf) else .fin (((t - x) / x) ^ 2)

/-- plots.py:389: distance with all coordinates but `i` -/
noncomputable def dist (i : Fin d) (x t : Fin d → ℝ) : Ext ℝ :=
  Cred.sqrtE (sumE (((List.finRange d).filter fun k => decide (k ≠ i)).map fun k => relSq (t k) (x k)))

/-- Division of numbers that are not negative, `inf` or NaN -/
noncomputable def divE : Ext ℝ → Ext ℝ → Ext ℝ
  | .fin a, .fin b => if b = 0 then (if a = 0 then .nan else .posInf) else .fin (a / b)
  | .fin _, .posInf => .fin 0
  | .posInf, .fin _ => .posInf
  | _, _ => .nan

/-- plots.py:389-395: transparencies of the training points -/
noncomputable def alphas (i : Fin d) (x : Fin d → ℝ) (train : List (Fin d → ℝ)) : Option (List (Ext ℝ)) :=
  (Ext.pyMax (train.map (dist i x))).map fun m => (train.map (dist i x)).map fun v => Ext.sub (.fin 1) (divE v m)

/-- `Artist._set_alpha_for_array`: `ValueError` unless `0 <= alpha.min() and alpha.max() <= 1`; a comparison with NaN is false. -/
noncomputable def alphaOk (as : List (Ext ℝ)) : Bool := as.all fun a => Ext.le (.fin 0) a && Ext.le a (.fin 1)

/-- plots.py:346-395: the loop over parameters; panel and transparencies. -/
noncomputable def refLoop (a : Axes) (x : Fin d → ℝ) (train : List (Fin d → ℝ)) : List (Fin d) → Except Err (List (ℕ × List (Ext ℝ)))
  | [] => .ok []
  | i :: is => do
    let p ← a.at1 i
    match alphas i x train with
    | none => .error .valueError
    | some as =>
      if alphaOk as then
        let l ← refLoop a x train is
        pure ((p, as) :: l)
      else .error .valueError

/-- plots.py:309-411 `plot_slices_reference`. `X` is `None` or has all parameters. -/
noncomputable def plotRef (X : Option (Fin d → ℝ)) (hasRef : Bool) (train : List (Fin d → ℝ)) : Except Err (List (ℕ × List (Ext ℝ))) := do
  let a ← subplots 1 d
  match X with
  | none => if hasRef then .error .typeError else .error .valueError
  | some x => refLoop a x train (List.finRange d)

end reference

/-! ## History of convergence criteria (plots.py:679-744) -/

/-- plots.py:720-730: what is drawn for one criterion; `hist` are values, total and accepted numbers. -/
def convergencePoints {K : Type} (evaluations : String) (hist : Option (List K × List ℕ × List ℕ)) : Except Err (List (ℕ × K)) :=
  match hist with
  -- convergence.py `get_history`
  | none => .error .valueError
  | some (values, total, accepted) =>
    if evaluations = "total" then .ok (total.zip values)
    else if evaluations = "accepted" then .ok (accepted.zip values)
    else .error .keyError

/-! ## Times (progress.py:166-239) -/

section timing

variable {K : Type} [Field K] [LinearOrder K]

def addK : Ext K → Ext K → Ext K
  | .nan, _ => .nan
  | _, .nan => .nan
  | .fin a, .fin b => .fin (a + b)
  | .posInf, .negInf => .nan
  | .negInf, .posInf => .nan
  | .posInf, _ => .posInf
  | _, .posInf => .posInf
  | .negInf, _ => .negInf
  | _, .negInf => .negInf

/-- Python's `sum` -/
def sumK (l : List (Ext K)) : Ext K := l.foldl addK (.fin 0)

/-- progress.py:191-208: the columns. The table has the newest row first. -/
def timeCols (truth : Bool) : List Col := if truth then [.timeAcquire, .timeTruth, .timeFit, .timeConvergence] else [.timeAcquire, .timeFit, .timeConvergence]

/-- progress.py:209-216: the values of a column, oldest first; a last NaN in the column of convergence is zero. -/
def colData (t : Table K) (c : Col) : List (Ext K) :=
  match c, t with
  | .timeConvergence, r :: t' =>
    ((if (r .timeConvergence).isNan then Ext.fin 0 else r .timeConvergence) :: t'.map fun q : Row K => q .timeConvergence).reverse
  | c, t => (t.map fun q : Row K => q c).reverse

/-- A bar: bottom and height, per row. -/
structure Bars (K : Type) where
  col : Col
  bottom : List (Ext K)
  height : List (Ext K)
  /-- in the legend -/
  total : Ext K
deriving DecidableEq

/-- progress.py:219-232 -/
def barLoop (t : Table K) : List (Ext K) → List Col → List (Bars K)
  | _, [] => []
  | b, c :: cs => ⟨c, b, colData t c, sumK (colData t c)⟩ :: barLoop t (List.zipWith addK b (colData t c)) cs

/-- progress.py:177-232 `plot_timing`: the bars, and the total in the percentages of the legend. -/
def timing (t : Table K) (truth : Bool) : Except Err (List (Bars K) × Ext K) :=
  match t with
  -- `cols_data["time_convergence"][-1]`
  | [] => .error .indexError
  | _ =>
    .ok (barLoop t (List.replicate t.length (.fin 0)) (timeCols truth), sumK ((timeCols truth).map fun c => sumK (colData t c)))

/-- `l[::k]` -/
def stride {α : Type} (k : ℕ) (l : List α) : List α := (l.zipIdx.filter fun q => decide (q.2 % k = 0)).map Prod.fst

/-- progress.py:166-173: the ticks kept -/
def ticks {α : Type} (l : List α) : List α := stride (max 1 (l.length / 10)) l

end timing

/-! ## Contours of the surrogate in two dimensions (plots.py:1039-1157) -/

section contours

variable {K : Type} [Field K] [LinearOrder K]

/-- plots.py:1051-1055: the points at which the surrogate is evaluated, `np.vstack([X.reshape(X.size), Y.reshape(Y.size)]).T` after `np.meshgrid(x, y)` -/
def gridPoints (x y : List K) : List (K × K) := y.flatMap fun b => x.map fun a => (a, b)

/-- `Z.reshape(len(y), len(x))` -/
def reshape {α : Type} (cols : ℕ) : ℕ → List α → List (List α)
  | 0, _ => []
  | r + 1, z => z.take cols :: reshape cols r (z.drop cols)

/-- plots.py:1068: `np.arange(min(Z) * 0.99, max(Z) * 1.01, (max(Z) - min(Z)) / 500)`, for values that are not all the same: level `k`, if there is one. -/
def level (lo hi : K) (k : ℕ) : Option K :=
  if lo * (99 / 100) + (k : K) * ((hi - lo) / 500) < hi * (101 / 100) then some (lo * (99 / 100) + (k : K) * ((hi - lo) / 500)) else none

/-- plots.py:1122-1129 (`_finite`): `zs` are the finite values in descending order. First and last level. -/
def levelsFinite (zs : List K) : Option (K × K) :=
  match zs with
  | [] => none
  | hi :: _ =>
    match (zs.take (zs.length / 2)).getLast? with
    | none => none
    | some lo => some (hi - 199 / 100 * (hi - lo), hi + 1 / 100 * (hi - lo))

/-- plots.py:1227-1234 (`_std`): first and last level of the panel of the standard deviation, given whether the mean is finite and the standard
deviation at each point; `min` of nothing raises. -/
def levelsStd (q : List (Bool × K)) : Option (K × K) :=
  let z := (q.filter Prod.fst).map Prod.snd
  match minOf z, maxOf z with
  | some lo, some hi => some (lo, lo + if 0 < hi - lo then hi - lo else 1 / 100000)
  | _, _ => none

/-- plots.py:1229: what is drawn there; `none` is minus infinity, below all levels. -/
def drawnStd (q : List (Bool × K)) : List (Option K) := q.map fun p => if p.1 then some p.2 else none

/-- `np.clip` -/
def clip (l : K × K) (z : K) : K := min (max z l.1) l.2

end contours

end GPry.Fig
