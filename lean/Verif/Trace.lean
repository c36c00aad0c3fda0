import Verif.Figures

set_option linter.all false

/-!
# Evolution of a run along the evaluations (gpry/plots.py 815-954 `plot_trace`)

What is drawn, not how: abscissae, ordinates and colours of the points, which lines and regions are added, and the labels.
The convergence panel (plots.py:850-861) is `Fig.convergencePoints`; a `ValueError` in it is ignored.  The range of the
axis of the posterior panel (plots.py:874, matplotlib) and the kernel scales (`gpr.scales`) are given from outside.
-/

namespace GPry.Trace

open GPry.Fig (Err)

variable {K : Type} [Field K] [LinearOrder K]

/-- What `plot_trace` reads. -/
structure In (K : Type) where
  /-- `gpr.X_train_all` -/
  xs : List (List K)
  /-- `gpr.y_train_all` -/
  ys : List (Ext K)
  /-- `gpr.infinities_classifier`: none; not trained (`y_finite` is `None`); or its `y_finite` -/
  clf : Option (Option (List Bool))
  /-- `truth.params` -/
  params : List String
  /-- `truth.labels` (`None` or empty: the names are used) -/
  labels : List String
  /-- `reference` after `_prepare_reference` (five entries per parameter) -/
  ref : String → Option (List (Option K))
  /-- `progress.data["n_total"]`, oldest first -/
  nTotal : List ℕ
  /-- lower end of the axis of the posterior panel -/
  yMin : Ext K
  /-- `delta_logp_of_1d_nstd(ns, d)` -/
  delta : ℕ → K
  /-- number of length scales (`gpr.scales[1]`), or the exception of `gpr.scales` -/
  scales : Except Err ℕ

/-- `np.where(mask, ys, +inf)`, plots.py:871, 927: a mask of another length is an error, except if it has one element. -/
def colours (mask : List Bool) (ys : List (Ext K)) : Except Err (List (Ext K)) :=
  if mask.length = ys.length then .ok (List.zipWith (fun b y => if b then y else .posInf) mask ys)
  else match mask with
    | [b] => .ok (ys.map fun y => if b then y else .posInf)
    | _ => .error .valueError

/-- A panel of a parameter, plots.py:910-943. -/
structure Panel (K : Type) where
  /-- crosses that are visible: abscissa, ordinate -/
  crosses : List (ℕ × K)
  /-- abscissa, ordinate, colour -/
  points : List (ℕ × K × Ext K)
  /-- horizontal bands: outer, inner -/
  bands : List (Option K × Option K)
  line : Option (Option K)
  label : String

/-- What is drawn. -/
structure Out (K : Type) where
  /-- abscissa, ordinate and colour in the posterior panel -/
  posterior : List (ℕ × Ext K × Ext K)
  /-- number of standard deviations and height of the horizontal lines -/
  sigmas : List (ℕ × Ext K)
  panels : List (Panel K)
  /-- end of the shaded region, minus one half -/
  shade : ℕ
  /-- abscissae of the vertical lines, minus one half -/
  vlines : List ℕ
  /-- number of panels of the figure -/
  nPanels : ℕ

/-- The numbers `i_eval`, plots.py:847. -/
def iEval (n : ℕ) : List ℕ := List.range' 1 n

/-- plots.py:873-886: horizontal lines. -/
def sigmaLines (yMin yMax : Ext K) (delta : ℕ → K) : List (ℕ × Ext K) :=
  [1, 2, 5, 10, 20].filterMap fun ns =>
    let h := yMax.subFin (delta ns)
    if h.gt yMin then some (ns, h) else none

/-- plots.py:911, 938: the label on the axis. -/
def axisLabel (labels : List String) (i : ℕ) (p : String) : Except Err String :=
  if labels = [] then .ok p
  else match labels[i]? with
    | none => .error .indexError
    | some l => .ok (if l ≠ p then "$" ++ l ++ "$" else p)

/-- plots.py:930-938: bands and line of the reference. -/
def bandsOf (b : Option (List (Option K))) : Except Err (List (Option K × Option K) × Option (Option K)) :=
  match b with
  | none => .ok ([], none)
  | some [a, b, c, d, e] => .ok ([(a, e), (b, d)], some c)
  | some l => match l[2]? with
    | some c => .ok ([], some c)
    | none => .error .indexError

/-- plots.py:910-952: the panel of parameter number `i`. -/
def panel (a : In K) (mask : List Bool) (cols : List (Ext K)) (nScales i : ℕ) (p : String) : Except Err (Panel K) := do
  let column ← (a.xs.mapM fun x => x[i]?).elim (.error .indexError) .ok
  let label ← axisLabel a.labels i p
  let crosses ← (if a.clf.isSome ∧ mask.count true < a.xs.length then
      -- matplotlib: as many colours as points
      if mask.length = a.xs.length then
        .ok (((iEval a.xs.length).zip (column.zip mask)).filterMap fun q => if q.2.2 then none else some (q.1, q.2.1))
      else .error .valueError
    else .ok [] : Except Err (List (ℕ × K)))
  let points := (iEval a.xs.length).zip (column.zip cols)
  let bl ← bandsOf (a.ref p)
  if i < nScales then .ok ⟨crosses, points, bl.1, bl.2, label⟩ else .error .indexError

/-- plots.py:815-954 `plot_trace`. -/
def plotTrace (a : In K) : Except Err (Out K) := do
  -- plots.py:831-836; `np.where(None, y, inf)` is `+inf` everywhere, but `sum(None)` raises for every parameter
  let mask : List Bool := match a.clf with
    | none => a.ys.map fun _ => true
    | some (some m) => m
    | some none => a.ys.map fun _ => false
  let cols ← colours mask a.ys
  match Ext.npMax a.ys with
  | none => .error .valueError
  | some yMax =>
    let sig := sigmaLines a.yMin yMax a.delta
    let nS ← a.scales
    if a.clf = some none ∧ a.params ≠ [] then .error .typeError
    else
      let panels ← a.params.zipIdx.mapM fun q => panel a mask cols nS q.2 q.1
      match a.nTotal with
      | _ :: n1 :: rest => .ok ⟨(iEval a.xs.length).zip (a.ys.zip cols), sig, panels, n1, n1 :: rest, 2 + a.params.length⟩
      | _ => .error .keyError

end GPry.Trace
