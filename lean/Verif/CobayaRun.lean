import Verif.Cobaya
import Verif.PlotProg
import Mathlib.Algebra.Order.Field.Rat

set_option linter.all false

/-!
# Running from Cobaya (gpry/cobaya.py 108-240)

The methods of `CobayaWrapper` that use a `Runner` already created. Whether names are attributes of a `Runner`, and keywords
are parameters of its methods, are explicit tables (`runnerAttrs`, `distParams`, `progressParams`, `mcParams`), so that the
same program can be looked at with other tables. Calls on the runner return or raise (an exception of any type, derived from
`Exception`). One process.
-/

namespace GPry.CobayaRun

open GPry.Cobaya (pyCall CErr)

/-- Names assigned on a `Runner` (`self.… =`), its methods and properties: gpry/run.py 39-1929. There is no `__getattr__`. -/
def runnerAttrs : List String := ["__init__", "_check_convergence_parallel", "_construct_convergence_criterion",
  "_construct_gp_acquisition", "_construct_gpr", "_construct_initial_proposer", "_construct_mc_options", "_construct_options",
  "_eval_truth_parallel", "_fiducial_MC_as_getdist", "_fit_gpr_parallel", "_is_truth_saved", "_last_mc_bounds", "_last_mc_cobaya_info",
  "_last_mc_cobaya_sampler", "_last_mc_sampler_type", "_last_mc_samples", "_mc_options", "_share_convergence_from_main", "_share_gpr",
  "acquisition", "banner", "callback", "callback_is_MPI_aware", "checkpoint", "convergence", "cov", "current_iteration", "d",
  "diagnose_last_mc_sample", "do_initial_training", "ensure_paths", "fiducial_MC_X", "fiducial_MC_loglike", "fiducial_MC_logpost",
  "fiducial_MC_weight", "fiducial_X", "fiducial_loglike", "fiducial_logpost", "fit_full_every", "fit_simple_every", "generate_mc_sample",
  "gpr", "has_converged", "has_run", "initial_proposer", "labels", "last_mc_samples", "loaded_from_checkpoint", "log", "logL", "logL_truth",
  "logp", "logp_truth", "logpost_eval_and_report", "logprior", "max_finite", "max_initial", "max_total", "mean", "n_finite_left",
  "n_initial", "n_points_per_acq", "n_resamples_before_giveup", "n_total_left", "new_X", "new_y", "old_gpr", "options", "params",
  "plot_distance_distribution", "plot_mc", "plot_progress", "plots", "plots_path", "prior_bounds", "progress", "read_checkpoint",
  "resamples", "rng", "run", "save_checkpoint", "set_fiducial_MC", "set_fiducial_point", "truth", "update_mean_cov", "verbose", "y_pred"]

/-- run.py:1866-1868 -/
def distParams : List String := ["samples_or_samples_folder", "show_added", "output", "output_dpi", "ext"]
/-- run.py:1470-1478 -/
def progressParams : List String := ["ext", "timing", "convergence", "trace", "slices", "corner"]
/-- run.py:1786-1787 -/
def mcParams : List String := ["samples_or_samples_folder", "add_training", "add_samples", "output", "output_dpi", "ext"]

/-- Tables. -/
structure Tables where
  attrs : List String
  dist : List String
  progress : List String
  mc : List String

def real : Tables := ⟨runnerAttrs, distParams, progressParams, mcParams⟩

/-- What is raised by the wrapper. -/
inductive RErr (E : Type)
  /-- `LoggedError` "GPry failed during learning" -/
  | learning
  /-- `LoggedError` "GPry failed during MC sampling of the surrogate model" -/
  | sampling
  | attributeError
  | typeError
  | other (e : E)
deriving DecidableEq

/-- `generate_mc_sample`, `plot_…`: the samples, updated information and sampler instance that the runner has afterwards. -/
structure Sampled (I P : Type) where
  info : I
  sampler : P
  /-- number of keys of `_last_mc_samples` (`none`: it is `None`) -/
  samples : Option ℕ

/-- The runner and the options of the wrapper. -/
structure World (E I P : Type) where
  isMain : Bool
  plots : Bool
  /-- `gpry_runner.run()` -/
  run : Option E
  hasConverged : Bool
  /-- `gpry_runner.generate_mc_sample(...)` -/
  sample : Except E (Sampled I P)
  distPlot : Option E
  progressPlot : Option E
  mcPlot : Option E

/-- What remains: the attributes `mc_sampler_upd_info` and `mc_sampler_instance`, the samples in the runner, and the stages logged. -/
structure St (I P : Type) where
  info : Option I
  sampler : Option P
  samples : Option ℕ
  log : List String

variable {E I P : Type}

/-- An attribute of the runner. -/
def attr (t : Tables) {V : Type} (name : String) (v : V) : Except (RErr E) V :=
  if name ∈ t.attrs then .ok v else .error .attributeError

/-- cobaya.py:146-191 `do_surrogate_sample` -/
def doSample (t : Tables) (w : World E I P) (s : St I P) : St I P × Option (RErr E) :=
  match w.sample with
  | .error e => (s, some (.other e))
  | .ok r =>
    let s := { s with samples := r.samples }
    match (attr t "last_mc_surr_info" r.info : Except (RErr E) I) with
    | .error e => (s, some e)
    | .ok i =>
      let s := { s with info := some i }
      match (attr t "last_mc_sampler" r.sampler : Except (RErr E) P) with
      | .error e => (s, some e)
      | .ok p => ({ s with sampler := some p }, none)

/-- cobaya.py:193-198 `is_mc_sampled`: the truth value of the dictionary -/
def isSampled (s : St I P) : Bool := match s.samples with
  | none => false
  | some n => decide (n ≠ 0)

/-- A call with one keyword. -/
def callKw (kw : String) (params : List String) (body : Option E) : Option (RErr E) :=
  if kw ∈ params then body.map .other else some .typeError

/-- cobaya.py:200-207 `do_plots` -/
def doPlots (t : Tables) (w : World E I P) (s : St I P) : Option (RErr E) :=
  match callKw "format" t.dist w.distPlot with
  | some e => some e
  | none => match callKw "ext" t.progress w.progressPlot with
    | some e => some e
    | none => if isSampled s then callKw "ext" t.mc w.mcPlot else none

/-- cobaya.py:108-144 `run` -/
def run (t : Tables) (w : World E I P) (s : St I P) : St I P × Except (RErr E) (Option I × Option P) :=
  match w.run with
  | some _ => (s, .error .learning)
  | none =>
    let s := if w.isMain then { s with log := s.log ++ [if w.hasConverged then "learning finished" else "learning not converged"] } else s
    match doSample t w s with
    | (s, some _) => (s, .error .sampling)
    | (s, none) =>
      if w.isMain then
        let s := { s with log := s.log ++ [if w.hasConverged then "sampling finished" else "sampling finished, not converged"] }
        if w.plots then match doPlots t w s with
          | some e => (s, .error e)
          | none => (s, .ok (s.info, s.sampler))
        else (s, .ok (s.info, s.sampler))
      else (s, .ok (s.info, s.sampler))

/-- cobaya.py:209-240 `samples` and `products`: methods of the instance of the sampler, `None` before the first sample. The product of the
sampler is given; `products` has the runner too, unless the sampler has a product of that name. -/
def products {V : Type} (runner : V) (ofSampler : P → Cobaya.Dict String V) (s : St I P) : Except (RErr E) (Cobaya.Dict String V) :=
  match s.sampler with
  | none => .error .attributeError
  | some p => .ok (Cobaya.update [("runner", runner)] (ofSampler p))

/-- run.py:1015-1018: the progress plots of the loop with the options for plots passed as keywords, a mapping from names to flags: an exception is
logged. -/
def loopPlots {S M B : Type} (params : List String) (agg : B) (kws : List String) (sw : PlotProg.Switches) (w : PlotProg.World S M)
    (s : PlotProg.St B × List Fig.Err) : PlotProg.St B × List Fig.Err :=
  if w.isMain then
    if kws.all fun k => decide (k ∈ params) then PlotProg.loopPlots agg (some sw) w s else (s.1, s.2 ++ [.typeError])
  else s

end GPry.CobayaRun
