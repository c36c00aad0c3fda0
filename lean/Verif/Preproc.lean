import Verif.Gpr
import Mathlib.Data.Matrix.Mul
import Mathlib.Data.Matrix.Diagonal
import Mathlib.Analysis.Real.Sqrt

/-!
# Model of `gpry/preprocessing.py`
-/

namespace GPry.Pre

open GPry.Gpr (Err PreY)

variable {K : Type*} [Field K] [LinearOrder K]

/-! ## Normalize_bounds, preprocessing.py:311-411 -/

/-- Attributes `bounds_min`, `bounds_max`. -/
structure NormBounds (d : ℕ) (K : Type*) where
  lo : Fin d → K
  hi : Fin d → K

variable {d : ℕ}

/-- preprocessing.py:349-357 `update_bounds` (and `__init__`, 345-347).  The attributes are set before the
check.  Building the message of the `ValueError` adds a `str` and an array, which raises a `TypeError`. -/
def NormBounds.update (_old : Option (NormBounds d K)) (lo hi : Fin d → K) :
    NormBounds d K × Option Err :=
  (⟨lo, hi⟩, if (List.finRange d).any fun i => decide (hi i < lo i) then some .typeError else none)

/-- preprocessing.py:367-380 `transform` of one point (numpy division: a zero width gives `nan`/`inf`). -/
def NormBounds.transform (b : NormBounds d K) (x : Fin d → K) : Fin d → Ext K :=
  fun i => (Ext.fin (x i - b.lo i)).divFin (b.hi i - b.lo i)

/-- preprocessing.py:382-395 `inverse_transform` of one point. -/
def NormBounds.inverse (b : NormBounds d K) (z : Fin d → K) : Fin d → K :=
  fun i => z i * (b.hi i - b.lo i) + b.lo i

/-- preprocessing.py:359-362 `transform_bounds`. -/
def NormBounds.transformBounds (_b : NormBounds d K) : Fin d → K × K := fun _ => (0, 1)

/-- preprocessing.py:397-411 `inverse_transform_scale`. -/
def NormBounds.inverseScale (b : NormBounds d K) (z : Fin d → K) : Fin d → K :=
  fun i => z i * (b.hi i - b.lo i)

/-! ## Pipelines, preprocessing.py:58-177, 414-525

`Pipeline_X` transforms the points and passes `y` unchanged to the stages, `Pipeline_y` transforms the
targets and passes `X` unchanged; both are the same program with the roles of the arguments of `fit`
exchanged. `D` is the type of a transformed datum, `C` the type of the argument passed along. -/

/-- A preprocessor with internal state `S`. -/
structure Stage (D C S Sc : Type*) where
  fit : S → List D → C → S
  tr : S → D → D
  inv : S → D → D
  trScale : S → Sc → Sc
  invScale : S → Sc → Sc

/-- A pipeline: its stages with their states. -/
abbrev Pipe (D C S Sc : Type*) := List (Stage D C S Sc × S)

variable {D C S Sc : Type*}

/-- preprocessing.py:131-141, 478-488 `fit`. -/
def Pipe.fit : Pipe D C S Sc → List D → C → Pipe D C S Sc
  | [], _, _ => []
  | (p, s) :: rest, xs, c =>
    let s' := p.fit s xs c
    (p, s') :: Pipe.fit rest (xs.map (p.tr s')) c

/-- preprocessing.py:143-150, 490-497 `transform`. -/
def Pipe.tr (ps : Pipe D C S Sc) (x : D) : D := ps.foldl (fun x q => q.1.tr q.2 x) x

/-- preprocessing.py:152-160, 499-507 `inverse_transform`. -/
def Pipe.inv (ps : Pipe D C S Sc) (x : D) : D := ps.reverse.foldl (fun x q => q.1.inv q.2 x) x

/-- preprocessing.py:162-166, 509-516 `transform_scale`. -/
def Pipe.trScale (ps : Pipe D C S Sc) (x : Sc) : Sc := ps.foldl (fun x q => q.1.trScale q.2 x) x

/-- preprocessing.py:168-176, 518-525 `inverse_transform_scale`. -/
def Pipe.invScale (ps : Pipe D C S Sc) (x : Sc) : Sc := ps.reverse.foldl (fun x q => q.1.invScale q.2 x) x

/-! ## Normalize_y, NormalizeChi2_y, preprocessing.py:528-683 -/

/-- `y[np.isfinite(y)]`. -/
def finPart (ys : List (Ext K)) : List K := ys.filterMap fun
  | .fin v => some v
  | _ => none

/-- `np.mean` of a non-empty array. -/
def mean (l : List K) : K := l.sum / l.length

/-- `np.std(y)**2` of a non-empty array. -/
def variance (l : List K) : K := (l.map fun v => (v - mean l) * (v - mean l)).sum / l.length

/-- preprocessing.py:561, 571-586: `Normalize_y().fit` (for an empty array numpy gives `nan`).
`sqrt` is the square root (`Real.sqrt` for `K = ℝ`). -/
def normFit (sqrt : K → K) (ys : List (Ext K)) : PreY K :=
  match finPart ys with
  | [] => .nanAff
  | l => .aff (mean l) (sqrt (variance l))

/-- `np.percentile(l, p)` with linear interpolation, for a sorted non-empty list; `p` in per cent. -/
def percentile (sorted : List K) (p : ℕ) : K :=
  let j := p * (sorted.length - 1)
  let a := sorted.getD (j / 100) 0
  let b := sorted.getD (j / 100 + 1) a
  a + (b - a) * ((j % 100 : ℕ) / 100)

/-- preprocessing.py:556-559: `Normalize_y(use_median=True).fit`. -/
def normFitMedian (ys : List (Ext K)) : PreY K :=
  match finPart ys with
  | [] => .nanAff
  | l =>
    let s := l.insertionSort (· ≤ ·)
    .aff (percentile s 50) (percentile s 75 - percentile s 25)

/-- preprocessing.py:667-683 `NormalizeChi2_y.fit`, with `delta = delta_logp_of_1d_nstd(nsigma, dim)`.
Python's `max` raises `ValueError` for no data; a non-finite maximum is outside of the model (`append_to_data`
passes targets classified as finite only, gpr.py:706-707). -/
def chi2Fit (delta : K) (ys : List (Ext K)) : Except Err (PreY K) :=
  match Ext.pyMax ys with
  | some (.fin m) => .ok (.aff (m - delta) delta)
  | _ => .error .valueError

/-- preprocessing.py:605-620 `inverse_transform` for a finite number. -/
def inverseY : PreY K → K → Except Err (Ext K)
  | .unfitted, _ => .error .typeError
  | .aff m s, y => .ok (.fin (y * s + m))
  | .nanAff, _ => .ok .nan

/-- preprocessing.py:627-630 `inverse_transform_scale` for a finite number. -/
def inverseScaleY : PreY K → K → Except Err (Ext K)
  | .unfitted, _ => .error .typeError
  | .aff _ s, y => .ok (.fin (y * s))
  | .nanAff, _ => .ok .nan

/-! ## Whitening, preprocessing.py:180-306 -/

open Matrix

/-- preprocessing.py:231-246 `prepare_transform` given the eigen-decomposition returned by `scipy.linalg.eigh`:
the transformation matrix. -/
noncomputable def whitenMat (l : Fin d → ℝ) (V : Matrix (Fin d) (Fin d) ℝ) : Matrix (Fin d) (Fin d) ℝ :=
  Matrix.diagonal (fun i => (Real.sqrt (l i))⁻¹) * Vᵀ

/-- preprocessing.py:245: the inverse transformation matrix. -/
noncomputable def whitenInv (l : Fin d → ℝ) (V : Matrix (Fin d) (Fin d) ℝ) : Matrix (Fin d) (Fin d) ℝ :=
  V * Matrix.diagonal (fun i => Real.sqrt (l i))

/-- preprocessing.py:286-289 `transform` of one point (fitted). -/
noncomputable def whiten (l : Fin d → ℝ) (V : Matrix (Fin d) (Fin d) ℝ) (m x : Fin d → ℝ) : Fin d → ℝ :=
  whitenMat l V *ᵥ (x - m)

/-- preprocessing.py:291-294 `inverse_transform` of one point (fitted). -/
noncomputable def unwhiten (l : Fin d → ℝ) (V : Matrix (Fin d) (Fin d) ℝ) (m z : Fin d → ℝ) : Fin d → ℝ :=
  whitenInv l V *ᵥ z + m

/-- A vertex of the box `[lo, hi]` (`itertools.product(*bounds)`). -/
def vertex (lo hi : Fin d → ℝ) (c : Fin d → Bool) : Fin d → ℝ := fun i => if c i then hi i else lo i

/-- preprocessing.py:296-308 `transform_bounds` (fitted): bounding box of the transformed vertices. -/
noncomputable def whitenBounds (l : Fin d → ℝ) (V : Matrix (Fin d) (Fin d) ℝ) (m lo hi : Fin d → ℝ) :
    Fin d → ℝ × ℝ := fun i =>
  (Finset.univ.inf' Finset.univ_nonempty fun c => whiten l V m (vertex lo hi c) i,
   Finset.univ.sup' Finset.univ_nonempty fun c => whiten l V m (vertex lo hi c) i)

/-- numpy's `np.cov(X, aweights=w, ddof=0)` with the default `rowvar=True`, for `X` of shape `(n, k)` and `r`
weights: the rows are the variables; numpy raises `RuntimeError` if `r ≠ k` (`none`). -/
def npCov {n k r : ℕ} (X : Matrix (Fin n) (Fin k) K) (w : Fin r → K) :
    Option (Matrix (Fin n) (Fin n) K) :=
  if h : r = k then
    let w' : Fin k → K := fun j => w (Fin.cast h.symm j)
    let tot := ∑ j, w' j
    let avg : Fin n → K := fun i => (∑ j, w' j * X i j) / tot
    some fun a b => (∑ j, w' j * (X a j - avg a) * (X b j - avg b)) / tot
  else none

/-- preprocessing.py:248-267 `compute_mean_cov`: the covariance for `n` samples in dimension `d` with weights
`w = exp(logp - max(logp))`. A `RuntimeError` of `np.cov` is not caught (`RuntimeWarning` is): `none`. -/
def learnCov {n : ℕ} (X : Matrix (Fin n) (Fin d) K) (w : Fin n → K) : Option (Matrix (Fin n) (Fin n) K) :=
  npCov X w

end GPry.Pre
