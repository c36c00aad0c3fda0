import Verif.Cred

set_option linter.all false

/-!
# Histogram of distances (gpry/plots.py 958-1036; gpry/run.py 1904-1935)

The heights of the bars, in exact arithmetic; not the drawing. The distances (those of `gaussian_distance`, C61) are numbers that are not negative, with one
above zero. `np.histogram` for increasing edges counts in half-open intervals, the last one closed.
-/

namespace GPry.DistHist

open GPry.Cred

inductive Err
  | indexError | valueError
deriving DecidableEq, Repr

/-- `np.max`; `ValueError` for no points. -/
noncomputable def maxOf : List ℝ → Option ℝ
  | [] => none
  | r :: rs => some (rs.foldl max r)

/-- plots.py:987: the edges are `0, 1, …, nBins`. -/
noncomputable def nBins (m : ℝ) : ℕ := ⌈m⌉₊

/-- `np.histogram`: bin of a number, for edges `0, …, n` -/
noncomputable def binOf (n : ℕ) (r : ℝ) : Option ℕ :=
  if r < 0 ∨ n < r then none else if r = n then some (n - 1) else some ⌊r⌋₊

/-- `np.histogram(rs, bins=0..n, weights=ws)`: height of bin `i` -/
noncomputable def height (n : ℕ) (q : List (ℝ × ℝ)) (i : ℕ) : ℝ := ((q.filter fun p => decide (binOf n p.1 = some i)).map Prod.snd).sum

/-- plots.py:990-993 -/
noncomputable def volumes (n dim : ℕ) : List ℝ := (List.range n).map fun i => volumeSphere ((i + 1 : ℕ) : ℝ) dim - volumeSphere (i : ℝ) dim

/-- plots.py:994: the weights -/
noncomputable def densityWeights (vols : List ℝ) : List ℝ → Except Err (List ℝ)
  | [] => .ok []
  | r :: rs =>
    match vols[⌊r⌋₊]? with
    | none => .error .indexError
    | some v =>
      match densityWeights vols rs with
      | .error e => .error e
      | .ok ws => .ok (1 / v :: ws)

/-- plots.py:985-996: number of bins and points with weights -/
noncomputable def prepare (dim : ℕ) (density : Bool) (rs : List ℝ) : Except Err (ℕ × List (ℝ × ℝ)) :=
  match maxOf rs with
  | none => .error .valueError
  | some m =>
    if density then
      match densityWeights (volumes (nBins m) dim) rs with
      | .error e => .error e
      | .ok ws => .ok (nBins m, rs.zip ws)
    else .ok (nBins m, rs.map fun r => (r, 1))

/-- plots.py:1015: the bars of `ax.hist` -/
noncomputable def bars (dim : ℕ) (density : Bool) (rs : List ℝ) : Except Err (List ℝ) :=
  match prepare dim density rs with
  | .error e => .error e
  | .ok (n, q) => .ok ((List.range n).map (height n q))

/-- plots.py:1003-1013: `ax.hist` with `stacked=True`: each column of the array of one row is a set with one point; the tops of each set are those of
the previous one plus its heights. -/
noncomputable def stackFrom (n : ℕ) : List ℝ → List (ℝ × ℝ) → List (List ℝ)
  | _, [] => []
  | bottom, p :: q =>
    let top := (bottom.zip ((List.range n).map (height n [p]))).map fun b => b.1 + b.2
    top :: stackFrom n top q

noncomputable def stacked (dim : ℕ) (density : Bool) (rs : List ℝ) : Except Err (List (List ℝ)) :=
  match prepare dim density rs with
  | .error e => .error e
  | .ok (n, q) => .ok (stackFrom n (List.replicate n 0) q)

end GPry.DistHist
