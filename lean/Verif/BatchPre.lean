import Verif.Batch
import Verif.Preproc

set_option linter.all false

/-!
# The local optimisation of `BatchOptimizer` in transformed coordinates (gpry/gp_acquisition.py:316-389, 470-473)

`Batch.lean` takes the local optimiser as given in the original coordinates. Here it is built from an optimiser that works in the
coordinates of `self.preprocessing_X`. Real numbers, exact arithmetic; the bounds of `Normalize_bounds` are different in each dimension.
-/

namespace GPry.BatchPre

open GPry Batch

variable {d : ℕ}

abbrev Pt (d : ℕ) := Fin d → ℝ
abbrev Box (d : ℕ) := Fin d → ℝ × ℝ

/-- A fitted preprocessor: `Normalize_bounds` (preprocessing.py:309-411), or `Whitening` with eigenvalues `l`, eigenvectors `V` and mean `m`
(preprocessing.py:180-306). -/
inductive Stage (d : ℕ)
  | norm (lo hi : Pt d)
  | white (l : Pt d) (V : Matrix (Fin d) (Fin d) ℝ) (m : Pt d)

/-- preprocessing.py:367-380, 286-289 -/
noncomputable def Stage.tr : Stage d → Pt d → Pt d
  | norm lo hi, x => fun i => (x i - lo i) / (hi i - lo i)
  | white l V m, x => Pre.whiten l V m x

/-- preprocessing.py:382-395, 291-294 -/
noncomputable def Stage.inv : Stage d → Pt d → Pt d
  | norm lo hi, z => fun i => z i * (hi i - lo i) + lo i
  | white l V m, z => Pre.unwhiten l V m z

/-- `transform_bounds`: preprocessing.py:359-362 (the argument gives only the shape), 296-306. -/
noncomputable def Stage.trBounds : Stage d → Box d → Box d
  | norm _ _, _ => fun _ => (0, 1)
  | white l V m, b => Pre.whitenBounds l V m (fun i => (b i).1) fun i => (b i).2

/-- `preprocessing_X`: a pipeline (preprocessing.py:58-177). `None` and `DummyPreprocessor` (preprocessing.py:27-55) are the empty one. -/
abbrev PreX (d : ℕ) := List (Stage d)

/-- preprocessing.py:143-150 -/
noncomputable def PreX.tr (p : PreX d) (x : Pt d) : Pt d := p.foldl (fun x s => s.tr x) x

/-- preprocessing.py:152-160 -/
noncomputable def PreX.inv (p : PreX d) (z : Pt d) : Pt d := p.reverse.foldl (fun z s => s.inv z) z

/-- preprocessing.py:125-129 -/
noncomputable def PreX.trBounds (p : PreX d) (b : Box d) : Box d := p.foldl (fun b s => s.trBounds b) b

/-- gp_acquisition.py:316-332 `obj_func`, value. -/
noncomputable def objective (p : PreX d) (acq : Pt d → Ext ℝ) (z : Pt d) : Ext ℝ := (acq (p.inv z)).neg

/-- gp_acquisition.py:328-330 `obj_func`, gradient. -/
noncomputable def objectiveGrad (p : PreX d) (acqGrad : Pt d → Pt d) (z : Pt d) : Pt d := fun j => -1 * acqGrad (p.inv z) j

/-- A local optimiser (gp_acquisition.py:502-522): objective, starting point, bounds; final point and value. -/
abbrev Opt (d : ℕ) := (Pt d → Ext ℝ) → Pt d → Box d → Pt d × Ext ℝ

/-- gp_acquisition.py:336-340, 350-351, 368-372, 377-381 and 471-473: transformation of bounds and starting point, optimisation, inverse
transformation. -/
noncomputable def loc {G : Type} (p : PreX d) (opt : Opt d) (acq : G → Pt d → Ext ℝ) (g : G) (x : Pt d) (b : Box d) : Pt d × Ext ℝ :=
  let r := opt (objective p (acq g)) (p.tr x) (p.trBounds b)
  (p.inv r.1, r.2)

/-- tools.py `is_in_bounds` -/
def InBox (b : Box d) (x : Pt d) : Prop := ∀ j, (b j).1 ≤ x j ∧ x j ≤ (b j).2

open Classical in
/-- The environment of `optimize_acquisition_function`. If no proposal has a finite value the last one is returned, transformed (386-389) and
transformed back (473): the same point. -/
noncomputable def env {G : Type} (p : PreX d) (opt : Opt d) (acq : G → Pt d → Ext ℝ) (train : G → List (Pt d)) (prior : Box d) (nRep : ℕ) :
    Env G (Pt d) (Box d) ℝ where
  isIn b x := decide (InBox b x)
  train := train
  acq := acq
  loc := loc p opt acq
  prior := prior
  nRep := nRep

end GPry.BatchPre
